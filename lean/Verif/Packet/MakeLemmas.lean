import Verif.Packet.EncodeLemmas
import Verif.Packet.Make
import Verif.Packet.Props
import Verif.Enc.PrimProps

/-! # Making packets (lemmas) -/

namespace Ndn.Packet
open Ndn.Codec Ndn.Codec.Schema

theorem encLength_foldl (fs : List NF) (n : Nat) : (fs.map NF.len).foldl (· + ·) n = n + encLength fs := by
  induction fs generalizing n with
  | nil => rfl
  | cons f fs ih =>
    show (fs.map NF.len).foldl (· + ·) (n + f.len) = n + (fs.map NF.len).foldl (· + ·) (0 + f.len)
    rw [ih, ih]; omega

theorem encLength_cons (f : NF) (fs : List NF) : encLength (f :: fs) = f.len + encLength fs := by
  show (fs.map NF.len).foldl (· + ·) (0 + f.len) = _
  rw [encLength_foldl]; omega

theorem encLength_append (a b : List NF) : encLength (a ++ b) = encLength a + encLength b := by
  induction a with
  | nil => simp [encLength]
  | cons f a ih => rw [List.cons_append, encLength_cons, encLength_cons, ih]; omega

theorem encLength_eq {fs : List NF} (hok : ∀ f ∈ fs, f.Ok ∧ ∀ t e, f ≠ .sig t e) : encLength fs = (fieldBytes fs).length := by
  induction fs with
  | nil => rfl
  | cons f fs ih =>
    rw [encLength_cons, fieldBytes_cons, List.length_append, ih fun g hg => hok g (by simp [hg]), NF.len_eq (hok f (by simp)).1 (hok f (by simp)).2]

/-- the buffers without a signature value -/
theorem chunks_flatten {fs : List NF} (hs : ∀ f ∈ fs, ∀ t e, f ≠ NF.sig t e) (acc : Bytes) :
    (chunks acc fs).flatten = acc ++ fieldBytes fs := by
  induction fs generalizing acc with
  | nil => cases acc <;> simp [chunks, fieldBytes]
  | cons f fs ih =>
    have ih := ih fun g hg => hs g (by simp [hg])
    by_cases hp : f.Plain
    · rw [chunks_plain hp, ih, fieldBytes_cons, List.append_assoc]
    · cases f with
      | wire typ w => simp [chunks, ih, fieldBytes_cons, NF.bytes, tlv]
      | sig t e => exact absurd rfl (hs (.sig t e) (by simp) t e)
      | elem typ e v => rw [show chunks acc (.elem typ e v :: fs) = chunks (acc ++ NF.bytes (.elem typ e v)) fs from rfl, ih, fieldBytes_cons, List.append_assoc]
      | flag typ => exact absurd trivial hp
      | iname n need => exact absurd trivial hp
      | mark => exact absurd trivial hp

/-- the buffers with a signature value at the end -/
theorem chunks_sig {fs : List NF} (hs : ∀ f ∈ fs, ∀ t e, f ≠ NF.sig t e) (typ est : Nat) (acc : Bytes) :
    ∃ X last, chunks acc (fs ++ [.sig typ est]) = X ++ [last ++ (tlEnc typ ++ tlEnc est), []] ∧
      X.flatten ++ last = acc ++ fieldBytes fs ∧ ∀ n, sigIdx n (fs ++ [.sig typ est]) = some (n + X.length + 1) := by
  induction fs generalizing acc with
  | nil => exact ⟨[], acc, rfl, by simp [fieldBytes], fun n => rfl⟩
  | cons f fs ih =>
    have ih := fun acc => ih (fun g hg => hs g (by simp [hg])) acc
    cases f with
    | wire t w =>
      obtain ⟨X, last, h1, h2, h3⟩ := ih []
      refine ⟨(acc ++ (tlEnc t ++ tlEnc w.flatten.length)) :: (w ++ X), last, ?_, ?_, fun n => ?_⟩
      · show _ :: (w ++ chunks [] (fs ++ [.sig typ est])) = _
        rw [h1]; simp
      · simp only [List.flatten_cons, List.flatten_append, List.append_assoc, h2]
        simp [fieldBytes_cons, NF.bytes, tlv]
      · show sigIdx (n + 1 + w.length) (fs ++ [.sig typ est]) = _
        rw [h3]; simp; omega
    | sig t e => exact absurd rfl (hs (.sig t e) (by simp) t e)
    | elem t e v =>
      obtain ⟨X, last, h1, h2, h3⟩ := ih (acc ++ NF.bytes (.elem t e v))
      exact ⟨X, last, h1, by rw [h2, fieldBytes_cons, List.append_assoc], h3⟩
    | flag t =>
      obtain ⟨X, last, h1, h2, h3⟩ := ih (acc ++ NF.bytes (.flag t))
      exact ⟨X, last, h1, by rw [h2, fieldBytes_cons, List.append_assoc], h3⟩
    | iname n need =>
      obtain ⟨X, last, h1, h2, h3⟩ := ih (acc ++ NF.bytes (.iname n need))
      exact ⟨X, last, h1, by rw [h2, fieldBytes_cons, List.append_assoc], h3⟩
    | mark =>
      obtain ⟨X, last, h1, h2, h3⟩ := ih (acc ++ NF.bytes .mark)
      exact ⟨X, last, h1, by rw [h2, fieldBytes_cons, List.append_assoc], h3⟩

theorem coverOf_sig {start : Nat} {fs : List NF} (hs : ∀ f ∈ fs, ∀ t e, f ≠ NF.sig t e) (typ est : Nat) (pre : Bytes) :
    coverOf start pre (fs ++ [.sig typ est]) = (pre ++ fieldBytes fs).drop start := by
  induction fs generalizing pre with
  | nil => simp [coverOf, fieldBytes]
  | cons f fs ih =>
    have ih := fun acc => ih (fun g hg => hs g (by simp [hg])) acc
    have : coverOf start pre (f :: (fs ++ [.sig typ est])) = coverOf start (pre ++ f.bytes) (fs ++ [.sig typ est]) := by
      cases f with
      | sig t e => exact absurd rfl (hs (.sig t e) (by simp) t e)
      | _ => rfl
    rw [List.cons_append, this, ih, fieldBytes_cons, List.append_assoc]

theorem encLength_plan {fs : List NF} (h : 0 < encLength fs) : ∃ p ps, wirePlan 0 fs = p :: ps := by
  suffices ∀ (fs : List NF) (l : Nat), 0 < l + encLength fs → ∃ p ps, wirePlan l fs = p :: ps from this fs 0 (by omega)
  intro fs
  induction fs with
  | nil => intro l hl; exact ⟨l, [], by simp [wirePlan]; simp [encLength] at hl; omega⟩
  | cons f fs ih =>
    intro l hl
    rw [encLength_cons] at hl
    cases f with
    | wire t w => exact ⟨_, _, rfl⟩
    | sig t e => exact ⟨_, _, rfl⟩
    | elem t e v => exact ih _ (by omega)
    | flag t => exact ih _ (by omega)
    | iname n need => exact ih _ (by omega)
    | mark => exact ih _ (by omega)

/-- put bytes before the first buffer -/
def before (h : Bytes) : List Bytes → List Bytes
  | [] => []
  | b :: bs => (h ++ b) :: bs

theorem before_flatten {h : Bytes} {w : List Bytes} (hw : w ≠ []) : (before h w).flatten = h ++ w.flatten := by
  cases w with
  | nil => exact absurd rfl hw
  | cons b bs => simp [before]

/-- a packet with one element -/
theorem packetEncode_eq {typ : Nat} {fs : List NF} {s : ES} (hl : 0 < encLength fs)
    (hs : encodeFields (coverStart 0 fs) fs { wire := alloc (wirePlan 0 fs) } = .ok s) (hne : s.wire ≠ []) :
    packetEncode typ fs = .ok (before (tlEnc typ ++ tlEnc (encLength fs)) s.wire, s) := by
  obtain ⟨p, ps, hp⟩ := encLength_plan hl
  have hlen : (tlEnc typ ++ tlEnc (encLength fs)).length = tlLen typ + tlLen (encLength fs) := by
    rw [List.length_append, tlEnc_length, tlEnc_length]
  have hplan : packetPlan typ (encLength fs) (wirePlan 0 fs) = (tlLen typ + tlLen (encLength fs) + p) :: ps := by
    unfold packetPlan; rw [if_pos hl, hp]
  have hput : (put (tlEnc typ) ((alloc (packetPlan typ (encLength fs) (wirePlan 0 fs))).getD 0 [], 0)).bind (put (tlEnc (encLength fs))) =
      .ok (tlEnc typ ++ tlEnc (encLength fs) ++ List.replicate p 0, tlLen typ + tlLen (encLength fs)) := by
    rw [hplan]
    have := Writes.bind (Writes.put (tlEnc typ)) (Writes.put (tlEnc (encLength fs)))
      (List.replicate (tlLen typ + tlLen (encLength fs) + p) 0, 0) (by rw [hlen, List.length_replicate]; show 0 + _ ≤ _; omega)
    refine this.trans ?_
    rw [hlen]
    simp [splice, hlen, List.drop_replicate]
  unfold packetEncode
  simp only [hput]
  simp only [Res.bind]
  rw [if_pos (show encLength fs > 0 from hl)]
  have e1 : List.drop (tlLen typ + tlLen (encLength fs)) (tlEnc typ ++ tlEnc (encLength fs) ++ List.replicate p 0) = List.replicate p 0 := by
    rw [← hlen, List.drop_left]
  have e2 : List.take (tlLen typ + tlLen (encLength fs)) (tlEnc typ ++ tlEnc (encLength fs) ++ List.replicate p (0 : UInt8)) =
      tlEnc typ ++ tlEnc (encLength fs) := by
    rw [← hlen, List.take_left]
  have e3 : List.replicate p (0 : UInt8) :: (alloc (packetPlan typ (encLength fs) (wirePlan 0 fs))).tail = alloc (wirePlan 0 fs) := by
    rw [hplan, hp]; rfl
  rw [e1, e2, e3, hs]
  simp only
  cases h : s.wire with
  | nil => exact absurd h hne
  | cons b bs => simp [before]

theorem be_snoc : ∀ n v : Nat, be (n + 1) v = be n (v / 256) ++ [UInt8.ofNat v]
  | 0, v => by simp [be]
  | n + 1, v => by
    rw [be, be_snoc n v, be]
    simp only [List.cons_append, List.cons.injEq, and_true]
    rw [Nat.div_div_eq_div_mul, Nat.pow_succ, Nat.mul_comm]

/-- the last byte of the length is replaced -/
theorem tlEnc_patch {est len : Nat} (hle : len ≤ est) (hw : est ≤ 252 ∨ (253 ≤ len ∧ est / 256 = len / 256)) :
    (tlEnc est).dropLast ++ [UInt8.ofNat len] = tlEnc len := by
  unfold tlEnc
  rcases hw with h | ⟨h1, h2⟩
  · rw [if_pos (by omega), if_pos (by omega)]; rfl
  · rw [if_neg (show ¬est ≤ 0xfc by omega), if_neg (show ¬len ≤ 0xfc by omega)]
    have key : ∀ n, (be (n + 1) est).dropLast ++ [UInt8.ofNat len] = be (n + 1) len := by
      intro n; rw [be_snoc, be_snoc, List.dropLast_concat, h2]
    have hd : ∀ (x : UInt8) n, (x :: be (n + 1) est).dropLast ++ [UInt8.ofNat len] = x :: be (n + 1) len := by
      intro x n
      rw [← key n, be_snoc, List.dropLast_concat, ← List.cons_append, List.dropLast_concat, List.cons_append]
    by_cases g1 : est ≤ 0xffff
    · rw [if_pos g1, if_pos (show len ≤ 0xffff by omega)]; exact hd _ 1
    · by_cases g2 : est ≤ 0xffffffff
      · rw [if_neg g1, if_pos g2, if_neg (show ¬len ≤ 0xffff by omega), if_pos (show len ≤ 0xffffffff by omega)]; exact hd _ 3
      · rw [if_neg g1, if_neg g2, if_neg (show ¬len ≤ 0xffff by omega), if_neg (show ¬len ≤ 0xffffffff by omega)]; exact hd _ 7

theorem before_length (h : Bytes) (w : List Bytes) : (before h w).length = w.length := by cases w <;> rfl

theorem before_getD {h : Bytes} {w : List Bytes} (i : Nat) (hi : i < w.length) :
    (before h w).getD i [] = if i = 0 then h ++ w.getD 0 [] else w.getD i [] := by
  cases w with
  | nil => simp at hi
  | cons b bs => cases i <;> simp [before]

theorem before_set_succ {h : Bytes} {w : List Bytes} (i : Nat) (x : Bytes) : (before h w).set (i + 1) x = before h (w.set (i + 1) x) := by
  cases w <;> rfl

/-- the signature value is put in, and the last byte of what is before it is changed -/
theorem patchSig_any (h : Bytes) (X : List Bytes) (c sig : Bytes) (hne : c ≠ []) :
    patchSig (before h (X ++ [c, []])) (X.length + 1) sig = .ok (before h (X ++ [c.dropLast ++ [UInt8.ofNat sig.length], sig])) := by
  unfold patchSig
  simp only [Nat.add_sub_cancel]
  cases X with
  | nil =>
    simp only [List.nil_append, before, List.length_nil, List.getD_cons_zero]
    rw [if_neg (by simp [hne]), List.dropLast_append_of_ne_nil hne]; simp
  | cons x X =>
    have hg : (before h (x :: X ++ [c, []])).getD (x :: X).length [] = c := by
      show ((h ++ x) :: (X ++ _)).getD (X.length + 1) [] = _
      rw [List.getD_cons_succ]; exact getD_mid _ _ _ _
    rw [hg, if_neg (by rw [before_length]; simp [hne])]
    congr 1
    show ((h ++ x) :: ((X ++ [_, []]).set (X.length + 1) sig)).set (X.length + 1) _ = (h ++ x) :: (X ++ _)
    rw [List.set_cons_succ, List.set_append_right _ _ (by omega)]
    simp

/-- the signature value is put in -/
theorem patchSig_eq (h : Bytes) (X : List Bytes) (last : Bytes) (typ est : Nat) (sig : Bytes) (hle : sig.length ≤ est)
    (hw : est ≤ 252 ∨ (253 ≤ sig.length ∧ est / 256 = sig.length / 256)) :
    patchSig (before h (X ++ [last ++ (tlEnc typ ++ tlEnc est), []])) (X.length + 1) sig =
      .ok (before h (X ++ [last ++ (tlEnc typ ++ tlEnc sig.length), sig])) := by
  have hdrop : ∀ a : Bytes, (a ++ (tlEnc typ ++ tlEnc est)).dropLast ++ [UInt8.ofNat sig.length] = a ++ (tlEnc typ ++ tlEnc sig.length) := by
    intro a
    rw [← List.append_assoc, List.dropLast_append_of_ne_nil (tlEnc_ne est), List.append_assoc, tlEnc_patch hle hw, List.append_assoc]
  rw [patchSig_any _ _ _ _ (fun hh => tlEnc_ne typ (List.append_eq_nil_iff.mp (List.append_eq_nil_iff.mp hh).2).1), hdrop]

/-- the header is shrunk -/
theorem shrinkHead_eq {typ L s : Nat} {w : List Bytes} (ht : typ < 2 ^ 64) (hL : L < 2 ^ 64) (hs : s ≤ L) (hw : w ≠ []) :
    shrinkHead (before (tlEnc typ ++ tlEnc L) w) s = .ok (before (tlEnc typ ++ tlEnc (L - s)) w) := by
  cases w with
  | nil => exact absurd rfl hw
  | cons b bs =>
    show (shrinkLength (tlEnc typ ++ tlEnc L ++ b) s).map _ = _
    rw [List.append_assoc, C05_shrink_length typ L s b ht hL hs]
    simp [Res.map, before]

theorem parseTL_size {b : Bytes} {x s : Nat} (h : parseTL b = .ok (x, s)) : s ≤ 9 := by
  unfold parseTL at h
  (repeat' split at h) <;> first | (cases h; done) | (injection h with h; injection h with h1 h2; omega)

theorem putAt_length {b b' x : Bytes} {i : Nat} (h : putAt b i x = .ok b') : b'.length = b.length := by
  unfold putAt at h
  split at h
  · injection h with h; subst h; simp; omega
  · exact (nomatch h)

/-- shrinking drops at most the bytes of a length -/
theorem shrinkLength_size {b b' : Bytes} {n : Nat} (h : shrinkLength b n = .ok b') : b.length ≤ b'.length + 9 := by
  unfold shrinkLength at h
  cases h1 : parseTL b with
  | err x => rw [h1] at h; exact (nomatch h)
  | panic => rw [h1] at h; exact (nomatch h)
  | ok p =>
    obtain ⟨typ, s1⟩ := p
    cases h2 : parseTL (b.drop s1) with
    | err x => rw [h1] at h; simp only [bind, Res.bind, h2] at h; exact (nomatch h)
    | panic => rw [h1] at h; simp only [bind, Res.bind, h2] at h; exact (nomatch h)
    | ok q =>
      obtain ⟨l, s2⟩ := q
      have hs := parseTL_size h2
      rw [h1] at h
      simp only [bind, Res.bind, h2] at h
      split at h
      · have := putAt_length h; omega
      · split at h
        · split at h
          · rename_i b1 e1
            split at h
            · rename_i b2 e2
              injection h with h
              have a1 := putAt_length e1
              have a2 := putAt_length e2
              subst h
              rw [List.length_drop]; omega
            · exact (nomatch h)
            · exact (nomatch h)
          · exact (nomatch h)
          · exact (nomatch h)
        · exact (nomatch h)

theorem shrinkHead_size {w w' : Wire} {n : Nat} (h : shrinkHead w n = .ok w') : w.flatten.length ≤ w'.flatten.length + 9 := by
  cases w with
  | nil => exact (nomatch h)
  | cons b bs =>
    unfold shrinkHead at h
    simp only at h
    cases h1 : shrinkLength b n with
    | err x => rw [h1] at h; exact (nomatch h)
    | panic => rw [h1] at h; exact (nomatch h)
    | ok b' =>
      rw [h1] at h
      injection h with h
      subst h
      have := shrinkLength_size h1
      simp; omega

end Ndn.Packet
