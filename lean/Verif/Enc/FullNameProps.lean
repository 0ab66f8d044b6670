import Verif.Enc.FullName
import Verif.Enc.TextLemmas
import Verif.Enc.OrderLemmas
import Verif.Codec.Props

/-!
# C76–C78: hashes of names, full names, number components
-/

namespace Ndn

open Ndn.Sync (compHashed nameHash)

/-! ## C76 -/

theorem prefixHashLoop_get (H : Bytes → Nat) (n : Name) : ∀ (fed : Bytes) (i : Nat), i < n.length →
    (prefixHashLoop H fed n)[i]? = some (H (fed ++ (n.take (i + 1)).flatMap compHashed)) := by
  induction n with
  | nil => intro _ i hi; cases hi
  | cons c cs ih =>
    intro fed i hi
    cases i with
    | zero => simp [prefixHashLoop]
    | succ i =>
      rw [prefixHashLoop, List.getElem?_cons_succ, ih _ i (by simpa using hi)]
      simp [List.flatMap_cons]

theorem prefixHashLoop_length (H : Bytes → Nat) (n : Name) : ∀ fed, (prefixHashLoop H fed n).length = n.length := by
  induction n with
  | nil => intro _; rfl
  | cons c cs ih => intro fed; simp [prefixHashLoop, ih]

/-- C76: `PrefixHash` gives the hash of every prefix, the empty one and the whole name included. -/
theorem C76_prefix_hash (H : Bytes → Nat) (n : Name) :
    (prefixHash H n).length = n.length + 1 ∧ ∀ i, i ≤ n.length → (prefixHash H n)[i]? = some (nameHash H (n.take i)) := by
  refine ⟨by simp [prefixHash, prefixHashLoop_length], ?_⟩
  intro i hi
  cases i with
  | zero => simp [prefixHash, nameHash]
  | succ i =>
    rw [prefixHash, List.getElem?_cons_succ, prefixHashLoop_get H n [] i (by omega)]
    simp [nameHash]

/-- C76: a name of one component hashes like the component. -/
theorem C76_component_hash (H : Bytes → Nat) (c : Component) : nameHash H [c] = compHash H c := by
  simp [nameHash, compHash]

example : prefixHash (fun b => b.length) [⟨8, [97]⟩, ⟨8, [98, 99]⟩] = [0, 9, 19] := by decide

/-- no byte of a value is zero and the type is below 2^56 -/
def Component.Plain (c : Component) : Prop := c.typ < 2 ^ 56 ∧ (0 : UInt8) ∉ c.val

theorem be8_inj {a b : Nat} (ha : a < 2 ^ 64) (hb : b < 2 ^ 64) (h : be 8 a = be 8 b) : a = b := by
  have := congrArg beVal h
  rwa [beVal_be_of_lt (by omega), beVal_be_of_lt (by omega)] at this

theorem be8_head {a : Nat} (ha : a < 2 ^ 56) : ∃ t, be 8 a = (0 : UInt8) :: t := by
  have hl := be_length 8 a
  have hv := beVal_be_of_lt (n := 8) (v := a) (by omega)
  match hb : be 8 a with
  | [] => rw [hb] at hl; cases hl
  | x :: t =>
    rw [hb] at hl hv
    rw [beVal_cons] at hv
    have ht : t.length = 7 := by simpa using hl
    rw [ht] at hv
    have hx : x.toNat = 0 := by omega
    rw [show x = 0 from UInt8.toNat_inj.mp hx]
    exact ⟨t, rfl⟩

/-- the rest of a name is empty or begins with a zero byte -/
theorem plain_rest (n : Name) (h : ∀ c ∈ n, c.Plain) : n.flatMap compHashed = [] ∨ ∃ t, n.flatMap compHashed = (0 : UInt8) :: t := by
  cases n with
  | nil => exact .inl rfl
  | cons c cs =>
    obtain ⟨t, ht⟩ := be8_head (h c List.mem_cons_self).1
    exact .inr ⟨_, by simp [compHashed, ht]; rfl⟩

theorem split_zero {v w s t : Bytes} (hv : (0 : UInt8) ∉ v) (hw : (0 : UInt8) ∉ w) (hs : s = [] ∨ ∃ x, s = (0 : UInt8) :: x)
    (ht : t = [] ∨ ∃ x, t = (0 : UInt8) :: x) (h : v ++ s = w ++ t) : v = w ∧ s = t := by
  induction v generalizing w with
  | nil =>
    cases w with
    | nil => exact ⟨rfl, h⟩
    | cons b w =>
      rcases hs with rfl | ⟨x, rfl⟩
      · simp at h
      · simp at h; rw [← h.1] at hw; simp at hw
  | cons a v ih =>
    cases w with
    | nil =>
      rcases ht with rfl | ⟨x, rfl⟩
      · simp at h
      · simp at h; rw [h.1] at hv; simp at hv
    | cons b w =>
      simp only [List.cons_append, List.cons.injEq] at h
      obtain ⟨rfl, h⟩ := h
      obtain ⟨rfl, hst⟩ := ih (fun hm => hv (List.mem_cons_of_mem _ hm)) (fun hm => hw (List.mem_cons_of_mem _ hm)) h
      exact ⟨rfl, hst⟩

theorem comp_ext {c d : Component} (h1 : c.typ = d.typ) (h2 : c.val = d.val) : c = d := by
  cases c; cases d; simp_all

/-- C76: two different names without zero bytes in their values feed the hash different bytes, so they collide only where the hash
function itself does. -/
theorem C76_hash_plain_partial (n m : Name) (hn : ∀ c ∈ n, c.Plain) (hm : ∀ c ∈ m, c.Plain)
    (h : n.flatMap compHashed = m.flatMap compHashed) : n = m := by
  induction n generalizing m with
  | nil =>
    cases m with
    | nil => rfl
    | cons d m => have := congrArg List.length h; simp [compHashed, be_length] at this; omega
  | cons c n ih =>
    cases m with
    | nil => have := congrArg List.length h; simp [compHashed, be_length] at this
    | cons d m =>
      simp only [List.flatMap_cons, compHashed, List.append_assoc] at h
      have hc := hn c List.mem_cons_self
      have hd := hm d List.mem_cons_self
      have hn' : ∀ c ∈ n, c.Plain := fun x hx => hn x (List.mem_cons_of_mem _ hx)
      have hm' : ∀ c ∈ m, c.Plain := fun x hx => hm x (List.mem_cons_of_mem _ hx)
      obtain ⟨h1, h2⟩ := List.append_inj h (by rw [be_length, be_length])
      obtain ⟨hv, hr⟩ := split_zero hc.2 hd.2 (plain_rest n hn') (plain_rest m hm') h2
      have ht := be8_inj (by have := hc.1; omega) (by have := hd.1; omega) h1
      rw [comp_ext ht hv, ih m hn' hm' hr]

/-- C76: so do two different names whose values have the same lengths, whatever the values. -/
theorem C76_hash_shape_partial (n m : Name) (hn : ∀ c ∈ n, c.typ < 2 ^ 64) (hm : ∀ c ∈ m, c.typ < 2 ^ 64)
    (hl : n.map (·.val.length) = m.map (·.val.length)) (h : n.flatMap compHashed = m.flatMap compHashed) : n = m := by
  induction n generalizing m with
  | nil => cases m with
    | nil => rfl
    | cons d m => cases hl
  | cons c n ih =>
    cases m with
    | nil => cases hl
    | cons d m =>
      simp only [List.flatMap_cons, compHashed, List.append_assoc] at h
      simp only [List.map_cons, List.cons.injEq] at hl
      obtain ⟨h1, h2⟩ := List.append_inj h (by rw [be_length, be_length])
      obtain ⟨hv, hr⟩ := List.append_inj h2 hl.1
      have ht := be8_inj (hn c List.mem_cons_self) (hm d List.mem_cons_self) h1
      rw [comp_ext ht hv,
        ih m (fun x hx => hn x (List.mem_cons_of_mem _ hx)) (fun x hx => hm x (List.mem_cons_of_mem _ hx)) hl.2 hr]

example : (∀ c ∈ ([⟨8, [97]⟩, ⟨8, [98]⟩] : Name), c.Plain) ∧ (∀ c ∈ ([⟨8, [97, 8, 98]⟩] : Name), c.Plain) := by
  unfold Component.Plain; decide

/-- C76 fails in general: every name of two or more components has a partner (the value of one component followed by the next
component as it is hashed) with the same hash and the same hash of every longer name, whatever the hash function. -/
theorem C76_hash_violated (H : Bytes → Nat) (pre post : Name) (c d : Component) :
    nameHash H (pre ++ c :: d :: post) = nameHash H (pre ++ ⟨c.typ, c.val ++ be 8 d.typ ++ d.val⟩ :: post) ∧
    pre ++ c :: d :: post ≠ pre ++ ⟨c.typ, c.val ++ be 8 d.typ ++ d.val⟩ :: post := by
  refine ⟨by simp [nameHash, compHashed], ?_⟩
  intro h
  have := congrArg List.length h
  simp at this

/-! ## C77 -/

open Ndn.Go (read_length read_old make_spec append_spec)

/-- C77: the full name is the name followed by one component of type 1 with the digest of the bytes of the packet, however they are cut
into buffers; the name itself is not changed; a name that ends in such a component is returned as it is; the full name of a full name
is itself. -/
theorem C77_full_name (sha : Bytes → Bytes) (grow : Nat) (m : NameMem) (s : NameSlice) (raw : Wire) (h : s.Ok m) (hne : m.read s ≠ []) :
    ∃ m' s', toFullName sha grow m s raw = .ok (m', s') ∧ s'.Ok m' ∧ s.Ok m' ∧ m'.read s = m.read s ∧
      ((∀ pre v, m.read s = pre ++ [⟨1, v⟩] → m'.read s' = m.read s) ∧
       ((∀ pre v, m.read s ≠ pre ++ [⟨1, v⟩]) → m'.read s' = m.read s ++ [⟨1, sha raw.flatten⟩])) ∧
      ∀ (grow' : Nat) (raw' : Wire), toFullName sha grow' m' s' raw' = .ok (m', s') := by
  obtain ⟨c, hc⟩ : ∃ c, (m.read s).getLast? = some c := by
    cases hg : (m.read s).getLast? with
    | none => exact absurd (List.getLast?_eq_none_iff.mp hg) hne
    | some c => exact ⟨c, rfl⟩
  have hsplit : m.read s = (m.read s).dropLast ++ [c] := by
    obtain ⟨l, hl⟩ := List.getLast?_eq_some_iff.mp hc
    rw [hl]; simp
  by_cases ht : c.typ = 1
  · have hf : ∀ (grow' : Nat) (raw' : Wire), toFullName sha grow' m s raw' = .ok (m, s) := by
      intro g r; simp [toFullName, hc, ht]
    refine ⟨m, s, hf _ _, h, h, rfl, ⟨fun _ _ _ => rfl, fun hno => ?_⟩, hf⟩
    exact absurd (hsplit.trans (by rw [show c = ⟨1, c.val⟩ from comp_ext ht rfl])) (hno _ c.val)
  · cases ha : m.append ⟨0, []⟩ grow s ⟨1, sha raw.flatten⟩ with
    | mk m' s' =>
      obtain ⟨h1, h2, h3, h4, -⟩ := append_spec _ grow h _ ha
      refine ⟨m', s', by simp [toFullName, hc, ht, ha], h2, h3 s h, h4 s h (.inr (Nat.le_refl _)), ⟨fun pre v he => ?_, fun _ => h1⟩, ?_⟩
      · rw [he] at hc; simp at hc; rw [← hc] at ht; exact absurd rfl ht
      · intro g r
        simp [toFullName, h1]

/-- C77: how the packet is cut into buffers does not matter. -/
theorem C77_cut (sha : Bytes → Bytes) (grow : Nat) (m : NameMem) (s : NameSlice) (raw raw' : Wire) (h : raw.flatten = raw'.flatten) :
    toFullName sha grow m s raw = toFullName sha grow m s raw' := by
  simp only [toFullName, h]

/-- C77 fails for the empty name: the code panics. -/
theorem C77_empty_panics (sha : Bytes → Bytes) (grow : Nat) (m : NameMem) (s : NameSlice) (raw : Wire) (h : m.read s = []) :
    toFullName sha grow m s raw = .panic := by
  simp [toFullName, h]

/-- C77, what others see: if the slice has no spare room, no slice of the memory changes. -/
theorem C77_frame_partial (sha : Bytes → Bytes) (grow : Nat) (m m' : NameMem) (s s' o : NameSlice) (raw : Wire) (hs : s.len = s.cap)
    (ho : o.Ok m) (e : toFullName sha grow m s raw = .ok (m', s')) : m'.read o = m.read o := by
  unfold toFullName at e
  split at e
  · cases e
  · split at e
    · injection e with e; injection e with e1 e2; rw [e1]
    · unfold Go.Mem.append at e
      rw [if_neg (by omega)] at e
      injection e with e; injection e with e1 e2
      rw [← e1]
      exact read_old ho _

/-- C77: names made by `Clone` and by `NameFromStr` have no spare room, so C77_frame_partial speaks of them. -/
theorem C77_tight (m : NameMem) (s : NameSlice) :
    (cloneName m s).1.read (cloneName m s).2 = m.read s ∧ (cloneName m s).2.len = (cloneName m s).2.cap ∧
    ∀ (str : Bytes) (m' : NameMem) (s' : NameSlice), nameFromStrMem m str = .ok (m', s') →
      nameFromStr str = .ok (m'.read s') ∧ s'.len = s'.cap ∧ s'.Ok m' := by
  refine ⟨(make_spec _ m _ _).2.1, by simp [cloneName, Go.Mem.make], ?_⟩
  intro str m' s' e
  unfold nameFromStrMem at e
  split at e
  · rename_i n hn
    injection e with e
    have hs := make_spec ⟨0, []⟩ m n n.length
    rw [e] at hs
    obtain ⟨h1, h2, h3, h4⟩ := hs
    exact ⟨by rw [hn, h2], by rw [h3, h4, Nat.max_self], h1⟩
  · cases e
  · cases e

theorem readNameSlots_count (slots e : Nat) : ∀ (r r' : BR) (n : Name), r.Good → Codec.readNameSlots slots e r = (.ok n, r') →
    r.pos + 2 * n.length ≤ e := by
  induction slots with
  | zero =>
    intro r r' n _ h
    rw [Codec.readNameSlots] at h
    split at h
    · cases h
    · injection h with h1 _; injection h1 with h1; subst h1; simp; omega
  | succ s ih =>
    intro r r' n hg h
    rw [Codec.readNameSlots] at h
    split at h
    · split at h
      · cases h
      · injection h with h1 _; injection h1 with h1; subst h1; simp; omega
    · rcases readComponent_cases r hg with ⟨h0, e'⟩ | ⟨r1, hne, e'⟩ | ⟨t', n1, l, n2, s1, s2, hh⟩
      · rw [e'] at h; cases h
      · rw [e'] at h; cases h
      · rcases hh with ⟨hle, e'⟩ | ⟨_, r1, e'⟩
        · rw [e'] at h
          simp only at h
          split at h
          · rename_i m r2 heq
            injection h with h1 _; injection h1 with h1; subst h1
            have := ih (r.adv (n1 + n2 + l)) _ _ (hg.adv hle) heq
            have p1 := s1.width
            have p2 := s2.width
            simp only [BR.adv] at this
            simp only [List.length_cons]
            omega
          · cases h
          · cases h
        · rw [e'] at h; cases h

/-- C77: every name read by a generated parser has spare room. -/
theorem C77_parsed_spare (m m' : NameMem) (s' : NameSlice) (l : Nat) (r : BR) (hg : r.Good) (e : parsedName m l r = .ok (m', s')) :
    s'.Ok m' ∧ s'.len < s'.cap ∧ (Codec.readNameField l r).1 = .ok (m'.read s') := by
  unfold parsedName at e
  split at e
  · rename_i n hn
    injection e with e
    have hs := make_spec ⟨0, []⟩ m n (l / 2 + 1)
    rw [e] at hs
    obtain ⟨h1, h2, h3, h4⟩ := hs
    refine ⟨h1, ?_, by rw [hn, h2]⟩
    have hc : r.pos + 2 * n.length ≤ r.pos + l := by
      cases hq : Codec.readNameField l r with
      | mk a r' =>
        rw [hq] at hn
        simp only at hn
        subst hn
        unfold Codec.readNameField at hq
        split at hq
        · cases hq
        · exact readNameSlots_count _ _ r r' n hg hq
    simp only at h3 h4
    omega
  · cases e
  · cases e

/-- C77 fails for slices with spare room, hence for every name from a parsed packet: a second call of `ToFullName` with another packet
changes the full name that the first call returned into the second one. -/
theorem C77_shared_violated (sha : Bytes → Bytes) (g1 g2 : Nat) (m : NameMem) (s : NameSlice) (w1 w2 : Wire) (h : s.Ok m)
    (hroom : s.len < s.cap) (hne : m.read s ≠ []) (hd : ∀ pre v, m.read s ≠ pre ++ [⟨1, v⟩]) (hw : sha w1.flatten ≠ sha w2.flatten) :
    ∃ m1 s1 m2 s2, toFullName sha g1 m s w1 = .ok (m1, s1) ∧ m1.read s1 = m.read s ++ [⟨1, sha w1.flatten⟩] ∧
      toFullName sha g2 m1 s w2 = .ok (m2, s2) ∧ m2.read s1 = m.read s ++ [⟨1, sha w2.flatten⟩] ∧ m2.read s1 ≠ m1.read s1 := by
  obtain ⟨m1, s1, e1, ok1, hs1, r1, ⟨-, f1⟩, -⟩ := C77_full_name sha g1 m s w1 h hne
  obtain ⟨m2, s2, e2, ok2, hs2, r2, ⟨-, f2⟩, -⟩ := C77_full_name sha g2 m1 s w2 hs1 (by rw [r1]; exact hne)
  have g1' := f1 hd
  have g2' := f2 (by rw [r1]; exact hd)
  rw [r1] at g2'
  have room : ∀ (g : Nat) (mm mm' : NameMem) (ss : NameSlice) (w : Wire), mm.read s = m.read s → toFullName sha g mm s w = .ok (mm', ss) →
      ss = { s with len := s.len + 1 } := by
    intro g mm mm' ss w hr e
    unfold toFullName at e
    rw [hr] at e
    split at e
    · cases e
    · rename_i c hc
      split at e
      · rename_i ht
        obtain ⟨l, hl⟩ := List.getLast?_eq_some_iff.mp hc
        exact absurd (hl.trans (by rw [show c = ⟨1, c.val⟩ from comp_ext ht rfl])) (hd _ c.val)
      · unfold Go.Mem.append at e
        rw [if_pos hroom] at e
        injection e with e; injection e with _ e2; exact e2.symm
  have q1 := room g1 m m1 s1 w1 rfl e1
  have q2 := room g2 m1 m2 s2 w2 r1 e2
  have hh : m2.read s1 = m.read s ++ [⟨1, sha w2.flatten⟩] := by rw [q1, ← q2]; exact g2'
  refine ⟨m1, s1, m2, s2, e1, g1', e2, hh, ?_⟩
  rw [hh, g1']
  intro hx
  have := List.append_cancel_left hx
  simp at this
  exact hw this.symm

/-- the hypotheses of the above for a name read from bytes -/
example : ∃ m s, parsedName [] 6 (BR.new [8, 1, 97, 8, 1, 98]) = .ok (m, s) ∧ s.Ok m ∧ s.len < s.cap ∧
    m.read s = [⟨8, [97]⟩, ⟨8, [98]⟩] := by
  refine ⟨[[⟨8, [97]⟩, ⟨8, [98]⟩, ⟨0, []⟩, ⟨0, []⟩]], ⟨0, 0, 2, 4⟩, ?_, ⟨by decide, _, rfl, by decide⟩, by decide, by decide⟩
  have h := Codec.read_name (n := [⟨8, [97]⟩, ⟨8, [98]⟩]) (t := []) (r := BR.new [8, 1, 97, 8, 1, 98]) ⟨by decide, by decide⟩ rfl
    (by unfold Component.Small; decide)
  have h' : Codec.readNameField 6 (BR.new [8, 1, 97, 8, 1, 98]) = _ := h
  unfold parsedName
  rw [h']
  rfl

/-! ## C78 -/

theorem foldl_num (v : Bytes) : ∀ a, v.foldl (fun ret b => ret * 256 % 2 ^ 64 + b.toNat) (a % 2 ^ 64) =
    (v.foldl (fun ret b => ret * 256 + b.toNat) a) % 2 ^ 64 := by
  induction v with
  | nil => intro a; rfl
  | cons b v ih =>
    intro a
    simp only [List.foldl_cons]
    rw [← ih]
    congr 1
    have := b.toNat_lt
    omega

theorem numberVal_eq (v : Bytes) : v.foldl (fun ret b => ret * 256 % 2 ^ 64 + b.toNat) 0 = beVal v % 2 ^ 64 := foldl_num v 0

theorem natEnc_be (x : Nat) : natEnc x = be (natLen x) x := by
  unfold natEnc natLen
  split
  · simp [be]
  · split
    · rfl
    · split <;> rfl

theorem natLen_fits {x : Nat} (h : x < 2 ^ 64) : x < 256 ^ natLen x := by
  unfold natLen
  repeat' split
  all_goals omega

theorem beVal_natEnc {x : Nat} (h : x < 2 ^ 64) : beVal (natEnc x) = x := by
  rw [natEnc_be]
  exact beVal_be_of_lt (natLen_fits h)

/-- C78: a number component gives its number back, has the given type, and its value is the shortest of the four widths. -/
theorem C78_number (typ x : Nat) (h : x < 2 ^ 64) :
    (newNumberComponent typ x).typ = typ ∧ (newNumberComponent typ x).numberVal = x ∧
    parseNat (newNumberComponent typ x).val = .ok (x, (newNumberComponent typ x).val.length) ∧
    ∀ v y, parseNat v = .ok (x, y) → (newNumberComponent typ x).val.length ≤ v.length := by
  have hb := beVal_natEnc h
  refine ⟨rfl, ?_, ?_, ?_⟩
  · show (natEnc x).foldl _ 0 = x
    rw [numberVal_eq, hb, Nat.mod_eq_of_lt h]
  · show parseNat (natEnc x) = _
    have hl : (natEnc x).length = 1 ∨ (natEnc x).length = 2 ∨ (natEnc x).length = 4 ∨ (natEnc x).length = 8 := by
      rw [natEnc_length]; unfold natLen; repeat' split
      all_goals omega
    rw [parseNat, if_pos hl, hb]; rfl
  · intro v y hv
    unfold parseNat at hv
    split at hv
    · rename_i hl
      injection hv with hv; injection hv with hv _
      have hlt := beVal_lt v
      rw [hv] at hlt
      show (natEnc x).length ≤ _
      rw [natEnc_length]; unfold natLen
      rcases hl with hl | hl | hl | hl <;> rw [hl] at hlt ⊢
      all_goals repeat' split
      all_goals omega
    · cases hv

/-- C78: number components of one type are ordered like their numbers. -/
theorem C78_order (typ x y : Nat) (hx : x < 2 ^ 64) (hy : y < 2 ^ 64) :
    (Component.compare (newNumberComponent typ x) (newNumberComponent typ y) < 0 ↔ x < y) := by
  have key : ∀ x y, x < 2 ^ 64 → y < 2 ^ 64 → x < y →
      Component.compare (newNumberComponent typ x) (newNumberComponent typ y) < 0 := by
    intro x y hx hy h
    unfold Component.compare newNumberComponent
    simp only [ne_eq, not_true_eq_false, if_false, natEnc_length]
    have hm : natLen x ≤ natLen y := by
      unfold natLen; repeat' split
      all_goals omega
    by_cases he : natLen x = natLen y
    · simp only [he, not_true_eq_false, if_false]
      rw [bytesCompare_lt_iff, natEnc_be, natEnc_be, he]
      exact be_lt (natLen_fits hy) h
    · simp only [he, not_false_eq_true, if_true, show natLen x < natLen y by omega]
      decide
  have hI := Component.compare_isCompare
  constructor
  · intro h
    rcases Nat.lt_trichotomy x y with hxy | rfl | hxy
    · exact hxy
    · rw [hI.refl] at h; omega
    · have h1 := key y x hy hx hxy
      have h2 := hI.neg (newNumberComponent typ x) (newNumberComponent typ y)
      omega
  · exact key x y hx hy

/-- C78: what the conventions put into a dictionary comes back to the value: always for text and digests, and for numbers exactly when
the value is a shortest-form number; a number taken from a dictionary is the number put there. -/
theorem C78_matching (f : ValFmt) (v : Bytes) (x : Nat) (hx : x < 2 ^ 64) :
    (fromMatchVal (some f) (toMatchVal (some f) v) = .ok v ↔ (f = .dec → ∃ y, y < 2 ^ 64 ∧ v = natEnc y)) ∧
    (∃ w, fromMatchVal (some .dec) (.num x) = .ok w ∧ toMatchVal (some .dec) w = .num x) ∧
    ∀ m, fromMatchVal (some f) m ≠ .panic := by
  have dec : fromMatchVal (some .dec) (toMatchVal (some .dec) v) = .ok v ↔ ∃ y, y < 2 ^ 64 ∧ v = natEnc y := by
    show Res.ok (natEnc (v.foldl _ 0)) = .ok v ↔ _
    rw [numberVal_eq]
    constructor
    · intro h
      injection h with h
      exact ⟨_, Nat.mod_lt _ (by decide), h.symm⟩
    · rintro ⟨y, hy, rfl⟩
      rw [beVal_natEnc hy, Nat.mod_eq_of_lt hy]
  refine ⟨?_, ⟨natEnc x, rfl, ?_⟩, ?_⟩
  · cases f with
    | dec => rw [dec]; simp
    | text => simp [fromMatchVal, toMatchVal]
    | hex => simp [fromMatchVal, toMatchVal]
  · show MatchVal.num ((natEnc x).foldl _ 0) = _
    rw [numberVal_eq, beVal_natEnc hx, Nat.mod_eq_of_lt hx]
  · intro m
    cases f <;> cases m <;> simp [fromMatchVal]

end Ndn
