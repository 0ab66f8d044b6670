import Verif.Packet.Encode
import Verif.Packet.Spec

/-! # What the encoders that do not copy write (lemmas) -/

namespace Ndn.Packet
open Ndn.Codec Ndn.Codec.Schema

/-- a field that is written to the current buffer -/
def NF.Plain : NF → Prop
  | .elem _ e _ => e.Widths
  | .flag _ => True
  | .iname _ _ => True
  | .mark => True
  | .wire _ _ => False
  | .sig _ _ => False

/-- every field that is copied has known widths -/
def NF.Ok : NF → Prop
  | .elem _ e _ => e.Widths
  | _ => True

/-- the bytes of a field; type and length only for a signature value -/
def NF.bytes : NF → Bytes
  | .elem typ e v => tlv typ (e.body v)
  | .flag typ => tlv typ []
  | .iname n _ => tlv 7 (Name.encBody n)
  | .mark => []
  | .wire typ w => tlv typ w.flatten
  | .sig typ est => tlEnc typ ++ tlEnc est

/-- the bytes of fields -/
def fieldBytes (fs : List NF) : Bytes := (fs.map NF.bytes).flatten

theorem fieldBytes_cons (f : NF) (fs : List NF) : fieldBytes (f :: fs) = f.bytes ++ fieldBytes fs := rfl

theorem fieldBytes_append (a b : List NF) : fieldBytes (a ++ b) = fieldBytes a ++ fieldBytes b := by simp [fieldBytes]

/-- the buffers that are made of fields; `acc` is what is already in the first one -/
def chunks : Bytes → List NF → List Bytes
  | acc, [] => if acc = [] then [] else [acc]
  | acc, .wire typ w :: fs => (acc ++ (tlEnc typ ++ tlEnc w.flatten.length)) :: (w ++ chunks [] fs)
  | acc, .sig typ est :: fs => (acc ++ (tlEnc typ ++ tlEnc est)) :: [] :: chunks [] fs
  | acc, f :: fs => chunks (acc ++ f.bytes) fs

theorem byteLen_flatten (w : Wire) : Wire.byteLen w = w.flatten.length := by rw [Wire.byteLen_eq_join]; rfl

theorem NF.len_eq {f : NF} (h : f.Ok) (hs : ∀ t e, f ≠ .sig t e) : f.len = f.bytes.length := by
  cases f with
  | elem typ e v => simp only [NF.len, NF.bytes, tlv_length, e.encLen_eq v h]
  | flag typ => simp [NF.len, NF.bytes, tlv_length, tlLen]
  | iname n need => simp only [NF.len, NF.bytes, tlvLen, tlv_length, Name.encLen_eq]; omega
  | mark => rfl
  | wire typ w => simp only [NF.len, NF.bytes, tlvLen, tlv_length, byteLen_flatten]; omega
  | sig t e => exact absurd rfl (hs t e)

theorem NF.Plain.ok {f : NF} (h : f.Plain) : f.Ok := by
  cases f <;> first | exact h | trivial

theorem NF.Plain.nsig {f : NF} (h : f.Plain) (t e : Nat) : f ≠ .sig t e := by
  rintro rfl; exact h

theorem wirePlan_plain {f : NF} (h : f.Plain) (l : Nat) (fs : List NF) : wirePlan l (f :: fs) = wirePlan (l + f.len) fs := by
  cases f <;> first | rfl | exact absurd h id

theorem chunks_plain {f : NF} (h : f.Plain) (acc : Bytes) (fs : List NF) : chunks acc (f :: fs) = chunks (acc ++ f.bytes) fs := by
  cases f <;> first | rfl | exact absurd h id

/-- a buffer that holds something is in the plan -/
theorem wirePlan_pos : ∀ (fs : List NF) (l : Nat), 0 < l → ∃ p ps, wirePlan l fs = p :: ps ∧ l ≤ p
  | [], l, h => ⟨l, [], by simp [wirePlan, h], Nat.le_refl _⟩
  | .wire typ w :: fs, l, _ => ⟨_, _, rfl, by omega⟩
  | .sig typ est :: fs, l, _ => ⟨_, _, rfl, by omega⟩
  | .elem typ e v :: fs, l, h => by
    obtain ⟨p, ps, h1, h2⟩ := wirePlan_pos fs (l + NF.len (.elem typ e v)) (by omega)
    exact ⟨p, ps, h1, by omega⟩
  | .flag typ :: fs, l, h => by
    obtain ⟨p, ps, h1, h2⟩ := wirePlan_pos fs (l + NF.len (.flag typ)) (by omega)
    exact ⟨p, ps, h1, by omega⟩
  | .iname n need :: fs, l, h => by
    obtain ⟨p, ps, h1, h2⟩ := wirePlan_pos fs (l + NF.len (.iname n need)) (by omega)
    exact ⟨p, ps, h1, by omega⟩
  | .mark :: fs, l, h => by
    obtain ⟨p, ps, h1, h2⟩ := wirePlan_pos fs (l + NF.len .mark) (by omega)
    exact ⟨p, ps, h1, by omega⟩

/-- the buffers, with `acc` already written to the first one -/
def fill (acc : Bytes) : List Nat → List Bytes
  | [] => []
  | p :: ps => (acc ++ List.replicate (p - acc.length) 0) :: alloc ps

theorem alloc_fill (plan : List Nat) : alloc plan = fill [] plan := by
  cases plan <;> simp [alloc, fill]

/-- the encoder has written `done` buffers and `acc` -/
structure At (s : ES) (done : List Bytes) (acc : Bytes) (plan : List Nat) : Prop where
  wire : s.wire = done ++ fill acc plan
  idx : s.idx = done.length
  pos : s.pos = acc.length

theorem splice_acc (acc z bs : Bytes) : splice (acc ++ z) acc.length bs = acc ++ bs ++ z.drop bs.length := by
  unfold splice
  rw [List.take_left' rfl, ← List.drop_drop, List.drop_left' rfl]

theorem set_mid {α : Type} (a : List α) (x y : α) (b : List α) : (a ++ x :: b).set a.length y = a ++ y :: b := by
  rw [List.set_append_right _ _ (Nat.le_refl _), Nat.sub_self]; rfl

theorem getD_mid {α : Type} (a : List α) (x d : α) (b : List α) : (a ++ x :: b).getD a.length d = x := by
  simp [List.getD]

/-- writing `bs`: there is room for them -/
theorem write_at {f : WS → Res WS} {bs : Bytes} (hf : Writes f bs) {s : ES} {done : List Bytes} {acc : Bytes} {p : Nat} {ps : List Nat}
    (h : At s done acc (p :: ps)) (hp : acc.length + bs.length ≤ p) :
    ∃ s', s.write f = .ok s' ∧ At s' done (acc ++ bs) (p :: ps) ∧ s'.coverIdx = s.coverIdx ∧ s'.covered = s.covered ∧ s'.namePos = s.namePos := by
  obtain ⟨h1, h2, h3⟩ := h
  have hb : s.buf = acc ++ List.replicate (p - acc.length) 0 := by
    rw [ES.buf, h1, h2]; exact getD_mid _ _ _ _
  have hw := hf (s.buf, s.pos) (by show s.pos + _ ≤ s.buf.length; rw [hb, h3, List.length_append, List.length_replicate]; omega)
  refine ⟨{ s with wire := s.wire.set s.idx (splice s.buf s.pos bs), pos := s.pos + bs.length }, by rw [ES.write, hw]; rfl, ⟨?_, h2, ?_⟩, rfl, rfl, rfl⟩
  · show s.wire.set s.idx (splice s.buf s.pos bs) = _
    rw [h1, h2, hb, h3, splice_acc]
    show (done ++ _ :: alloc ps).set _ _ = _
    rw [set_mid]
    show _ = done ++ _ :: alloc ps
    rw [List.drop_replicate, List.length_append, Nat.sub_sub]
  · show s.pos + bs.length = _
    rw [h3, List.length_append]

/-- the state after writing `bs` to the current buffer, with the plan of the fields `fs` that follow -/
theorem write_step {f : WS → Res WS} {bs : Bytes} (hf : Writes f bs) {s : ES} {done : List Bytes} {acc : Bytes} {plan : List Nat}
    (hp : ∃ p ps, plan = p :: ps ∧ acc.length + bs.length ≤ p) (h : At s done acc plan) :
    ∃ s', s.write f = .ok s' ∧ At s' done (acc ++ bs) plan ∧ s'.coverIdx = s.coverIdx ∧ s'.covered = s.covered ∧ s'.namePos = s.namePos := by
  obtain ⟨p, ps, rfl, hle⟩ := hp
  exact write_at hf h hle

theorem tlEnc_ne (t : Nat) : tlEnc t ≠ [] := by
  intro h
  have := tlEnc_length t
  rw [h] at this
  have := tlLen_pos t
  simp at *
  omega

/-- an element or a flag -/
theorem step_elem {start : Nat} {f : NF} (hf : f.Plain) (hn : ∀ n need, f ≠ .iname n need) {fs : List NF} {s : ES} {done : List Bytes} {acc : Bytes}
    (h : At s done acc (wirePlan acc.length (f :: fs))) :
    ∃ s', f.encodeInto start s = .ok s' ∧ At s' done (acc ++ f.bytes) (wirePlan (acc ++ f.bytes).length fs) ∧
      (s'.coverIdx = s.coverIdx ∨ f = .mark ∧ s'.coverIdx = s.idx) ∧ s'.covered = s.covered ∧ s'.namePos = s.namePos := by
  rw [wirePlan_plain hf, NF.len_eq hf.ok hf.nsig] at h
  rw [List.length_append]
  cases f with
  | elem typ e v =>
    have hne : NF.bytes (.elem typ e v) ≠ [] := by
      simp only [NF.bytes, tlv, List.append_assoc]; intro hh; exact tlEnc_ne typ (List.append_eq_nil_iff.mp hh).1
    obtain ⟨p, ps, h1, h2⟩ := wirePlan_pos fs (acc.length + (NF.bytes (.elem typ e v)).length)
      (by have := List.length_pos_iff.mpr hne; omega)
    obtain ⟨s', g1, g2, g3, g4, g5⟩ := write_step (s := s) (done := done) (acc := acc)
      ((Writes.bind (Writes.put (tlEnc typ)) (e.writes v hf)).congr (b := NF.bytes (.elem typ e v)) (List.append_assoc _ _ _).symm)
      ⟨p, ps, h1, h2⟩ h
    exact ⟨s', g1, g2, Or.inl g3, g4, g5⟩
  | flag typ =>
    have hne : NF.bytes (.flag typ) ≠ [] := by
      simp only [NF.bytes, tlv, List.append_assoc]; intro hh; exact tlEnc_ne typ (List.append_eq_nil_iff.mp hh).1
    obtain ⟨p, ps, h1, h2⟩ := wirePlan_pos fs (acc.length + (NF.bytes (.flag typ)).length)
      (by have := List.length_pos_iff.mpr hne; omega)
    obtain ⟨s', g1, g2, g3, g4, g5⟩ := write_step (s := s) (done := done) (acc := acc)
      ((Writes.bind (Writes.put (tlEnc typ)) (Writes.put [0])).congr (b := NF.bytes (.flag typ)) (by simp [NF.bytes, tlv, tlEnc]))
      ⟨p, ps, h1, h2⟩ h
    exact ⟨s', g1, g2, Or.inl g3, g4, g5⟩
  | iname n need => exact absurd rfl (hn n need)
  | mark =>
    refine ⟨{ s with coverIdx := s.idx }, rfl, ⟨?_, h.idx, ?_⟩, .inr ⟨rfl, rfl⟩, rfl, rfl⟩
    · have := h.wire; simpa [NF.bytes] using this
    · have := h.pos; simpa [NF.bytes] using this
  | wire typ w => exact absurd hf id
  | sig typ est => exact absurd hf id

theorem encodeFields_append (start : Nat) (a b : List NF) (s : ES) :
    encodeFields start (a ++ b) s = (encodeFields start a s).bind (encodeFields start b) := by
  induction a generalizing s with
  | nil => rfl
  | cons f a ih =>
    show (f.encodeInto start s).bind (encodeFields start (a ++ b)) = ((f.encodeInto start s).bind (encodeFields start a)).bind _
    cases f.encodeInto start s with
    | ok s' => exact ih s'
    | err e => rfl
    | panic => rfl

/-- elements and flags -/
theorem run_plain {start : Nat} (fs gs : List NF) (hf : ∀ f ∈ fs, f.Plain ∧ f ≠ .mark ∧ ∀ n need, f ≠ .iname n need) :
    ∀ {s : ES} {done : List Bytes} {acc : Bytes}, At s done acc (wirePlan acc.length (fs ++ gs)) →
    ∃ s', encodeFields start fs s = .ok s' ∧ At s' done (acc ++ fieldBytes fs) (wirePlan (acc ++ fieldBytes fs).length gs) ∧
      s'.coverIdx = s.coverIdx ∧ s'.covered = s.covered ∧ s'.namePos = s.namePos := by
  induction fs with
  | nil =>
    intro s done acc h
    exact ⟨s, rfl, by simpa [fieldBytes] using h, rfl, rfl, rfl⟩
  | cons f fs ih =>
    intro s done acc h
    obtain ⟨a1, a2, a3⟩ := hf f (by simp)
    obtain ⟨s1, h1, h2, h3, h4, h5⟩ := step_elem (start := start) (fs := fs ++ gs) a1 a3 h
    obtain ⟨s2, g1, g2, g3, g4, g5⟩ := ih (fun g hg => hf g (by simp [hg])) h2
    refine ⟨s2, ?_, ?_, ?_, g4.trans h4, g5.trans h5⟩
    · show (f.encodeInto start s).bind _ = _
      rw [h1]; exact g1
    · rw [fieldBytes_cons, ← List.append_assoc]; exact g2
    · rw [g3]
      rcases h3 with h3 | h3
      · exact h3
      · exact absurd h3.1 a2

/-- the buffers of a wire field -/
theorem putBufs_at (w : List Bytes) : ∀ {s : ES} {done : List Bytes} {plan : List Nat},
    At s done [] ((w.map fun _ => 0) ++ plan) →
    ∃ s', ES.putBufs w s = .ok s' ∧ At s' (done ++ w) [] plan ∧ s'.coverIdx = s.coverIdx ∧ s'.covered = s.covered ∧ s'.namePos = s.namePos := by
  induction w with
  | nil =>
    intro s done plan h
    exact ⟨s, rfl, by simpa using h, rfl, rfl, rfl⟩
  | cons b w ih =>
    intro s done plan h
    obtain ⟨h1, h2, h3⟩ := h
    have hw : s.wire = done ++ [] :: alloc ((w.map fun _ => 0) ++ plan) := by rw [h1]; simp [fill]
    have hlt : s.idx < s.wire.length := by rw [hw, h2]; simp
    obtain ⟨s', g1, g2, g3⟩ := ih (s := ES.next { s with wire := s.wire.set s.idx b }) (done := done ++ [b]) (plan := plan)
      ⟨by show s.wire.set s.idx b = _
          rw [hw, h2, set_mid, alloc_fill]; simp,
       by show s.idx + 1 = _; rw [h2]; simp, rfl⟩
    refine ⟨s', ?_, by simpa using g2, g3⟩
    show (if s.idx < s.wire.length then _ else _) = _
    rw [if_pos hlt]; exact g1

/-- a wire field -/
theorem step_wire {start typ : Nat} {w : Wire} {fs : List NF} {s : ES} {done : List Bytes} {acc : Bytes}
    (h : At s done acc (wirePlan acc.length (.wire typ w :: fs))) :
    ∃ s', NF.encodeInto start (.wire typ w) s = .ok s' ∧
      At s' (done ++ (acc ++ (tlEnc typ ++ tlEnc w.flatten.length)) :: w) [] (wirePlan 0 fs) ∧
      s'.coverIdx = s.coverIdx ∧ s'.covered = s.covered ∧ s'.namePos = s.namePos := by
  have hb : (tlEnc typ ++ tlEnc (Wire.byteLen w)).length = tlLen typ + tlLen (Wire.byteLen w) := by
    rw [List.length_append, tlEnc_length, tlEnc_length]
  obtain ⟨s1, h1, h2, h3, h4, h5⟩ := write_at (s := s) (Writes.bind (Writes.put (tlEnc typ)) (Writes.put (tlEnc (Wire.byteLen w))))
    h (by rw [hb]; exact Nat.le_refl _)
  have ha : At s1.next (done ++ [acc ++ (tlEnc typ ++ tlEnc w.flatten.length)]) [] ((w.map fun _ => 0) ++ wirePlan 0 fs) := by
    refine ⟨?_, ?_, rfl⟩
    · show s1.wire = _
      rw [h2.wire, ← alloc_fill, fill, List.length_append, hb, Nat.sub_self, byteLen_flatten]
      simp
    · show s1.idx + 1 = _; rw [h2.idx]; simp
  obtain ⟨s2, g1, g2, g3, g4, g5⟩ := putBufs_at w ha
  refine ⟨s2, ?_, ?_, g3.trans h3, g4.trans h4, g5.trans h5⟩
  · show (s.write _).bind _ = _
    rw [h1]; exact g1
  · have : done ++ (acc ++ (tlEnc typ ++ tlEnc w.flatten.length)) :: w = done ++ [acc ++ (tlEnc typ ++ tlEnc w.flatten.length)] ++ w := by simp
    rw [this]; exact g2

theorem sliceOf_ok {b : Bytes} {i j : Nat} (h1 : i ≤ j) (h2 : j ≤ b.length) : sliceOf b i j = .ok ((b.take j).drop i) := by
  rw [sliceOf, if_pos ⟨h1, h2⟩]

/-- the signature value: what is covered is everything from `start` on -/
theorem step_sig {start typ est : Nat} {fs : List NF} {s : ES} {done : List Bytes} {acc : Bytes}
    (h : At s done acc (wirePlan acc.length (.sig typ est :: fs))) (hc : s.coverIdx = 0) (hst : start ≤ ((done ++ [acc]).headD []).length) :
    ∃ s', NF.encodeInto start (.sig typ est) s = .ok s' ∧
      At s' (done ++ [acc ++ (tlEnc typ ++ tlEnc est), []]) [] (wirePlan 0 fs) ∧
      s'.coverIdx = s.coverIdx ∧ s'.covered.flatten = s.covered.flatten ++ (done.flatten ++ acc).drop start ∧ s'.namePos = s.namePos := by
  have hb : (tlEnc typ ++ tlEnc est).length = tlLen typ + tlLen est := by
    rw [List.length_append, tlEnc_length, tlEnc_length]
  obtain ⟨s1, h1, h2, h3, h4, h5⟩ := write_at (s := s) (Writes.bind (Writes.put (tlEnc typ)) (Writes.put (tlEnc est)))
    h (by rw [hb]; exact Nat.le_refl _)
  have hw : s1.wire = done ++ (acc ++ (tlEnc typ ++ tlEnc est)) :: [] :: alloc (wirePlan 0 fs) := by
    rw [h2.wire, fill, List.length_append, hb, Nat.sub_self]; simp [alloc]
  have hbuf : s1.buf = acc ++ (tlEnc typ ++ tlEnc est) := by
    rw [ES.buf, hw, h2.idx]; exact getD_mid _ _ _ _
  have key : ∃ c, s1.coverTo start s.pos = .ok { s1 with covered := s1.covered ++ c } ∧ c.flatten = (done.flatten ++ acc).drop start := by
    unfold ES.coverTo
    rw [hbuf, h.pos]
    cases done with
    | nil =>
      simp only [List.nil_append, List.headD_cons] at hst
      rw [if_pos (by rw [h3, hc, h2.idx]; rfl), sliceOf_ok hst (by simp)]
      exact ⟨_, rfl, by simp⟩
    | cons d ds =>
      simp only [List.cons_append, List.headD_cons] at hst
      rw [if_neg (by rw [h3, hc, h2.idx]; simp)]
      have hd : s1.wire.getD s1.coverIdx [] = d := by rw [hw, h3, hc]; rfl
      rw [hd, sliceOf_ok hst (Nat.le_refl _), sliceOf_ok (Nat.zero_le _) (by simp)]
      refine ⟨_, rfl, ?_⟩
      rw [hw, h3, hc, h2.idx]
      simp [List.take_left', List.drop_append_of_le_length hst]
  obtain ⟨c, k1, k2⟩ := key
  refine ⟨(ES.next (ES.next { s1 with covered := s1.covered ++ c })), ?_, ⟨?_, ?_, rfl⟩, h3, ?_, h5⟩
  · show (s.write _).bind _ = _
    rw [h1]
    show (s1.coverTo start s.pos).map _ = _
    rw [k1]; rfl
  · show s1.wire = _
    rw [hw, alloc_fill]; simp
  · show s1.idx + 1 + 1 = _; rw [h2.idx]; simp
  · show (s1.covered ++ c).flatten = _
    rw [List.flatten_append, k2, h4]

theorem headD_grow {done : List Bytes} {acc x : Bytes} {rest : List Bytes} {start : Nat} (h : start ≤ ((done ++ [acc]).headD []).length) :
    start ≤ ((done ++ (acc ++ x) :: rest).headD []).length := by
  cases done with
  | nil => simp at *; omega
  | cons d ds => simpa using h

/-- what is covered; `pre` is what is already written -/
def coverOf (start : Nat) : Bytes → List NF → Bytes
  | _, [] => []
  | pre, .sig t e :: fs => pre.drop start ++ coverOf start (pre ++ NF.bytes (.sig t e)) fs
  | pre, f :: fs => coverOf start (pre ++ f.bytes) fs

/-- all fields behind `sigCoverStart` -/
theorem run_fields {start : Nat} (fs : List NF) (hok : ∀ f ∈ fs, f.Ok ∧ ∀ n need, f ≠ .iname n need) :
    ∀ {s : ES} {done : List Bytes} {acc : Bytes}, At s done acc (wirePlan acc.length fs) → s.coverIdx = 0 →
    (.mark ∈ fs → done = [] ∧ fs.head? = some .mark ∧ .mark ∉ fs.tail) →
    start ≤ ((done ++ [acc]).headD []).length →
    ∃ s', encodeFields start fs s = .ok s' ∧ s'.wire = done ++ chunks acc fs ∧
      s'.covered.flatten = s.covered.flatten ++ coverOf start (done.flatten ++ acc) fs ∧ s'.namePos = s.namePos := by
  induction fs with
  | nil =>
    intro s done acc h _ _ _
    refine ⟨s, rfl, ?_, by simp [coverOf], rfl⟩
    rw [h.wire]
    cases acc with
    | nil => rfl
    | cons a acc => simp [wirePlan, fill, chunks, alloc]
  | cons f fs ih =>
    intro s done acc h hc hm hst
    have ih := @ih fun g hg => hok g (by simp [hg])
    obtain ⟨ok1, ok2⟩ := hok f (by simp)
    by_cases hp : f.Plain
    · obtain ⟨s1, h1, h2, h3, h4, h5⟩ := step_elem (start := start) hp ok2 h
      have hc1 : s1.coverIdx = 0 := by
        rcases h3 with h3 | ⟨rfl, h3⟩
        · exact h3.trans hc
        · rw [h3, h.idx, (hm (by simp)).1]; rfl
      obtain ⟨s2, g1, g2, g3, g4⟩ := ih h2 hc1
        (by intro hmem
            obtain ⟨a1, a2, a3⟩ := hm (by simp [hmem])
            exact absurd hmem a3)
        (headD_grow hst)
      refine ⟨s2, ?_, ?_, ?_, g4.trans h5⟩
      · show (f.encodeInto start s).bind _ = _; rw [h1]; exact g1
      · rw [g2, chunks_plain hp]
      · rw [g3, h4]
        have : coverOf start (done.flatten ++ acc) (f :: fs) = coverOf start (done.flatten ++ acc ++ f.bytes) fs := by
          cases f <;> first | rfl | exact absurd hp id
        rw [this, List.append_assoc]
    · have hm' : NF.mark ∈ fs → False := by
        intro hmem
        have := (hm (by simp [hmem])).2.1
        simp at this; subst this; exact hp trivial
      cases f with
      | wire typ w =>
        obtain ⟨s1, h1, h2, h3, h4, h5⟩ := step_wire (start := start) h
        obtain ⟨s2, g1, g2, g3, g4⟩ := ih h2 (h3.trans hc) (fun hmem => (hm' hmem).elim)
          (by have := headD_grow (x := tlEnc typ ++ tlEnc w.flatten.length) (rest := w ++ [[]]) hst; simpa using this)
        refine ⟨s2, ?_, ?_, ?_, g4.trans h5⟩
        · show (NF.encodeInto start (.wire typ w) s).bind _ = _; rw [h1]; exact g1
        · rw [g2]; simp [chunks]
        · rw [g3, h4]
          show _ = _ ++ coverOf start (done.flatten ++ acc ++ NF.bytes (.wire typ w)) fs
          congr 2
          simp [NF.bytes, tlv]
      | sig typ est =>
        obtain ⟨s1, h1, h2, h3, h4, h5⟩ := step_sig (start := start) h hc hst
        obtain ⟨s2, g1, g2, g3, g4⟩ := ih h2 (h3.trans hc) (fun hmem => (hm' hmem).elim)
          (by have := headD_grow (x := tlEnc typ ++ tlEnc est) (rest := [[], []]) hst; simpa using this)
        refine ⟨s2, ?_, ?_, ?_, g4.trans h5⟩
        · show (NF.encodeInto start (.sig typ est) s).bind _ = _; rw [h1]; exact g1
        · rw [g2]; simp [chunks]
        · rw [g3, h4]
          show _ = _ ++ ((done.flatten ++ acc).drop start ++ coverOf start (done.flatten ++ acc ++ NF.bytes (.sig typ est)) fs)
          rw [List.append_assoc]
          congr 3
          simp [NF.bytes]
      | elem typ e v => exact absurd ok1 hp
      | flag typ => exact absurd trivial hp
      | iname n need => exact absurd trivial hp
      | mark => exact absurd trivial hp

end Ndn.Packet
