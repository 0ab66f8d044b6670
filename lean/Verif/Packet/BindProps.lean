import Verif.Packet.SignedProps

/-! # Property C26 for every buffer with one Interest whose elements are in order -/

namespace Ndn.Packet
open Ndn.Codec Ndn.Codec.Schema

/-! ## Specification -/

/-- `B` from position `p` on is a sequence of TLV elements; of each the start, the type and the length of the value.  The numbers may have any
form. -/
inductive Walk (B : Bytes) : Nat → List (Nat × Nat × Nat) → Prop
  | nil : Walk B B.length []
  | cons {p t n1 l n2 : Nat} {els : List (Nat × Nat × Nat)} : TLSplit (B.drop p) t n1 → TLSplit (B.drop (p + n1)) l n2 →
      p + n1 + n2 + l ≤ B.length → Walk B (p + n1 + n2 + l) els → Walk B p ((p, t, l) :: els)

/-- the round of the parser that takes an element of this type -/
def roundOf (t : Nat) : Option Nat :=
  if t = 0x07 then some 2 else if t = 0x21 then some 3 else if t = 0x12 then some 4 else if t = 0x1e then some 5 else if t = 0x0a then some 6
  else if t = 0x0c then some 7 else if t = 0x22 then some 8 else if t = 0x24 then some 11 else if t = 0x2c then some 12
  else if t = 0x2e then some 13 else none

/-- The elements are in the order of the definition, none twice; unrecognised elements take up a round each, but not one that a later element
needs, and not the one before the parameters (in which the start of the parameters is noted) if there are parameters to come.  `p` is the
next round; after the last one anything may follow.  The flags are empty and the hop limit has one byte. -/
def Orderly : Nat → List (Nat × Nat × Nat) → Prop
  | _, [] => True
  | p, (_, t, l) :: els =>
    16 ≤ p ∨ match roundOf t with
      | some i => p ≤ i ∧ (t = 0x21 ∨ t = 0x12 → l = 0) ∧ (t = 0x22 → l = 1) ∧ Orderly (i + 1) els
      | none => (p = 10 → ∀ e ∈ els, e.2.1 ≠ 0x24) ∧ Orderly (p + 1) els

/-- the buffer is one TLV element of type 5 with the value `B`, in whatever form its type and length numbers are written -/
def OneInterest (buf B : Bytes) : Prop :=
  ∃ n1 l n2, TLSplit buf 5 n1 ∧ TLSplit (buf.drop n1) l n2 ∧ n1 + n2 + l = buf.length ∧ B = buf.drop (n1 + n2)

/-! ## Lemmas -/

abbrev ISt := InterestV × InterestCtx

/-- passing over slots to the one that takes the element, whatever comes of reading it -/
theorem ordInner_to {σ : Type} {ic : Bool} {slots : List (Slot σ)} {start typ l : Nat} (hk : knows slots typ = true) {r : BR} {s : Slot σ}
    {st1 : σ} (n : Nat) :
    ∀ (p : Nat) (h : List Nat) (st : σ), slots[p + n]? = some s → s.typ = typ →
    (∀ j s', p ≤ j → j < p + n → slots[j]? = some s' → s'.typ ≠ typ) →
    skipTo slots start r n p st = .ok st1 →
    ordInner ic slots start typ l (slots.length + 1 - p) h st r =
      match s.read start l st1 r with
      | none => none
      | some (.ok st', r') => some (.ok ⟨slots.length + 1 - (p + n + 1), (p + n) :: pass n p h, st'⟩, r')
      | some (.err e, r') => some (.err (.failToParse typ e), r')
      | some (.panic, r') => some (.panic, r') := by
  induction n with
  | zero =>
    intro p h st hs ht _ hsk
    have hp : p < slots.length := (List.getElem?_eq_some_iff.mp hs).1
    obtain ⟨k, hkk⟩ : ∃ k, slots.length + 1 - p = k + 1 := ⟨slots.length - p, by omega⟩
    have hidx : slots.length - k = p := by omega
    rw [hkk, ordInner, if_pos hk, hidx]
    have hs' : slots[p]? = some s := hs
    rw [hs']
    simp only [ht, if_true]
    have : st1 = st := by
      have h0 : Res.ok st = Res.ok st1 := hsk
      injection h0 with h0; exact h0.symm
    subst this
    have hk2 : k = slots.length + 1 - (p + 0 + 1) := by omega
    rw [hk2]
    rfl
  | succ n ih =>
    intro p h st hs ht hne hsk
    have hp : p + (n + 1) < slots.length := (List.getElem?_eq_some_iff.mp hs).1
    obtain ⟨k, hkk⟩ : ∃ k, slots.length + 1 - p = k + 1 := ⟨slots.length - p, by omega⟩
    have hidx : slots.length - k = p := by omega
    obtain ⟨s0, hs0⟩ : ∃ s0, slots[p]? = some s0 := ⟨slots[p], List.getElem?_eq_getElem (by omega)⟩
    have hne0 := hne p s0 (by omega) (by omega) hs0
    rw [hkk, ordInner, if_pos hk, hidx, hs0]
    simp only [if_neg hne0]
    rw [skipTo, hs0] at hsk
    simp only at hsk
    cases hsk0 : s0.skip start st r with
    | ok st2 =>
      rw [hsk0] at hsk
      have hk2 : k = slots.length + 1 - (p + 1) := by omega
      simp only
      rw [hk2]
      rw [ih (p + 1) (p :: h) st2 (by rw [← hs]; congr 1; omega) ht (fun j s' h1 h2 => hne j s' (by omega) (by omega)) hsk]
      have e1 : p + 1 + n = p + (n + 1) := by omega
      rw [e1]; rfl
    | err e => rw [hsk0] at hsk; exact absurd hsk (by simp [Res.bind])
    | panic => rw [hsk0] at hsk; exact absurd hsk (by simp [Res.bind])

/-- what skipping a slot does to the parameters and the start of the digest -/
theorem int_skip {F j : Nat} {s : Slot ISt} (hj : (interestSlots false F)[j]? = some s) (st : ISt) (start : Nat) (r : BR) :
    ∃ st', s.skip start st r = .ok st' ∧ st'.1.appParam = (if j = 11 then none else st.1.appParam) ∧
      st'.2.digestCoverStart = (if j = 10 then start else st.2.digestCoverStart) ∧
      (j = 14 → st'.2.digestCovered = rangeOf r st.2.digestCoverStart start) := by
  rcases j with _ | _ | _ | _ | _ | _ | _ | _ | _ | _ | _ | _ | _ | _ | _ | j
  · obtain rfl := Option.some.inj hj; exact ⟨_, rfl, rfl, rfl, fun h => absurd h (by decide)⟩
  · obtain rfl := Option.some.inj hj; exact ⟨_, rfl, rfl, rfl, fun h => absurd h (by decide)⟩
  · obtain rfl := Option.some.inj hj; exact ⟨_, rfl, rfl, rfl, fun h => absurd h (by decide)⟩
  · obtain rfl := Option.some.inj hj; exact ⟨_, rfl, rfl, rfl, fun h => absurd h (by decide)⟩
  · obtain rfl := Option.some.inj hj; exact ⟨_, rfl, rfl, rfl, fun h => absurd h (by decide)⟩
  · obtain rfl := Option.some.inj hj; exact ⟨_, rfl, rfl, rfl, fun h => absurd h (by decide)⟩
  · obtain rfl := Option.some.inj hj; exact ⟨_, rfl, rfl, rfl, fun h => absurd h (by decide)⟩
  · obtain rfl := Option.some.inj hj; exact ⟨_, rfl, rfl, rfl, fun h => absurd h (by decide)⟩
  · obtain rfl := Option.some.inj hj; exact ⟨_, rfl, rfl, rfl, fun h => absurd h (by decide)⟩
  · obtain rfl := Option.some.inj hj; exact ⟨_, rfl, rfl, rfl, fun h => absurd h (by decide)⟩
  · obtain rfl := Option.some.inj hj; exact ⟨_, rfl, rfl, rfl, fun h => absurd h (by decide)⟩
  · obtain rfl := Option.some.inj hj; exact ⟨_, rfl, rfl, rfl, fun h => absurd h (by decide)⟩
  · obtain rfl := Option.some.inj hj; exact ⟨_, rfl, rfl, rfl, fun h => absurd h (by decide)⟩
  · obtain rfl := Option.some.inj hj; exact ⟨_, rfl, rfl, rfl, fun h => absurd h (by decide)⟩
  · obtain rfl := Option.some.inj hj; exact ⟨_, rfl, rfl, rfl, fun _ => rfl⟩
  · exact absurd hj (by simp [interestSlots])

/-- skipping slots -/
theorem int_skipTo (F start : Nat) (r : BR) (n : Nat) : ∀ (p : Nat) (st : ISt), p + n ≤ 15 →
    ∃ st', skipTo (interestSlots false F) start r n p st = .ok st' ∧
      st'.1.appParam = (if p ≤ 11 ∧ 11 < p + n then none else st.1.appParam) ∧
      st'.2.digestCoverStart = (if p ≤ 10 ∧ 10 < p + n then start else st.2.digestCoverStart) := by
  induction n with
  | zero => intro p st _; exact ⟨st, rfl, by rw [if_neg (by omega)], by rw [if_neg (by omega)]⟩
  | succ n ih =>
    intro p st hp
    have hlen : (interestSlots false F).length = 15 := rfl
    obtain ⟨s0, hs0⟩ : ∃ s0, (interestSlots false F)[p]? = some s0 := ⟨_, List.getElem?_eq_getElem (by omega)⟩
    obtain ⟨st1, h1, h2, h3, _⟩ := int_skip hs0 st start r
    obtain ⟨st2, g1, g2, g3⟩ := ih (p + 1) st1 (by omega)
    refine ⟨st2, ?_, ?_, ?_⟩
    · rw [skipTo, hs0]
      show (s0.skip start st r).bind _ = _
      rw [h1]; exact g1
    · rw [g2, h2]
      by_cases e : p = 11
      · subst e; rw [if_pos rfl, if_neg (by omega), if_pos (by omega)]
      · rw [if_neg e]
        by_cases e2 : p ≤ 11 ∧ 11 < p + (n + 1)
        · rw [if_pos e2, if_pos (by omega)]
        · rw [if_neg e2, if_neg (by omega)]
    · rw [g3, h3]
      by_cases e : p = 10
      · subst e; rw [if_pos rfl, if_neg (by omega), if_pos (by omega)]
      · rw [if_neg e]
        by_cases e2 : p ≤ 10 ∧ 10 < p + (n + 1)
        · rw [if_pos e2, if_pos (by omega)]
        · rw [if_neg e2, if_neg (by omega)]

/-- reading a name ends at its end -/
theorem intNameSlots_pos (slots : Nat) : ∀ (e cov : Nat) (r r' : BR) (x : Name × Nat), r.Good → readIntNameSlots slots e cov r = (.ok x, r') →
    r'.pos = e ∧ r'.buf = r.buf := by
  induction slots with
  | zero =>
    intro e cov r r' x hg h
    rw [readIntNameSlots] at h
    by_cases hp : r.pos ≠ e
    · rw [if_pos hp] at h; exact (nomatch h)
    · rw [if_neg hp] at h; injection h with _ h; subst h; exact ⟨by omega, rfl⟩
  | succ slots ih =>
    intro e cov r r' x hg h
    rw [readIntNameSlots] at h
    by_cases hp : r.pos ≥ e
    · rw [if_pos hp] at h
      by_cases hq : r.pos ≠ e
      · rw [if_pos hq] at h; exact (nomatch h)
      · rw [if_neg hq] at h; injection h with _ h; subst h; exact ⟨by omega, rfl⟩
    · rw [if_neg hp] at h
      rcases hx : readComponent r with ⟨c, q⟩
      rw [hx] at h
      cases c with
      | ok c =>
        simp only at h
        have hq : q.Good ∧ q.buf = r.buf := by
          rcases readComponent_cases r hg with ⟨_, h⟩ | ⟨_, _, h⟩ | ⟨t, n1, l, n2, s1, s2, h⟩
          · rw [h] at hx; exact (nomatch hx)
          · rw [h] at hx; exact (nomatch hx)
          · rcases h with ⟨hle, h⟩ | ⟨_, _, h⟩
            · rw [h] at hx; injection hx with _ hx; subst hx; exact ⟨hg.adv hle, rfl⟩
            · rw [h] at hx; exact (nomatch hx)
        rcases hy : readIntNameSlots slots e (if c.typ = typParamsDigest then r.pos else cov) q with ⟨y, q1⟩
        rw [hy] at h
        cases y with
        | ok y =>
          simp only at h
          injection h with _ h
          subst h
          obtain ⟨a, b⟩ := ih _ _ _ _ _ hq.1 hy
          exact ⟨a, b.trans hq.2⟩
        | err y => exact (nomatch h)
        | panic => exact (nomatch h)
      | err c => exact (nomatch h)
      | panic => exact (nomatch h)

/-- an element of the codec that takes up exactly its length -/
def Exact (F : Nat) (e : Elem) : Prop :=
  ∀ (l : Nat) (r r' : BR) (v : e.V), Tiny r → l ≤ r.rest.length → Elem.read false F e l r = some (.ok v, r') → r' = r.adv l

theorem exact_wire (F : Nat) : Exact F .wire := by
  intro l r r' v ht hl h
  have h : some (BR.readWire (toInt l) r) = some (.ok v, r') := h
  have := ht.rest
  rw [toInt_small (by omega), BR.readWire_ok ht.good hl] at h
  injection h with h; injection h with _ h; exact h.symm

theorem exact_struct (F : Nat) (fs : Fields) : Exact F (.struct fs) := by
  intro l r r' v ht hl h
  have := ht.rest
  rw [Elem.read, toInt_small (by omega), BR.delegate_ok ht.good hl] at h
  simp only at h
  split at h
  · exact (nomatch h)
  · injection h with h; injection h with _ h; exact h.symm
  · exact (nomatch h)
  · exact (nomatch h)

theorem exact_time (F : Nat) : Exact F .time := by
  intro l r r' v ht hl h
  have := ht.rest
  have h : PR.map (α := Nat) (β := Int) durOfMs (some (readNatural l r)) = some (.ok v, r') := h
  unfold readNatural at h
  rw [toInt_small (by omega), Int.toNat_natCast] at h
  rcases readBeLoop_tot l 0 r with ⟨hh, _⟩ | ⟨_, x, e⟩
  · omega
  · rw [e] at h
    have h : some (Res.ok (durOfMs x), r.adv l) = some (.ok v, r') := h
    injection h with h; injection h with _ h; exact h.symm

theorem exact_nonce (F : Nat) : Exact F (.fixed 4 false) := by
  intro l r r' v ht hl h
  have := ht.rest
  have h : some (readFixed 4 false l r) = some (.ok v, r') := h
  unfold readFixed at h
  rw [if_neg (by decide), toInt_small (by omega), Int.toNat_natCast] at h
  rcases readBeLoop_tot l 0 r with ⟨hh, _⟩ | ⟨_, x, e⟩
  · omega
  · rw [e] at h
    injection h with h; injection h with _ h; exact h.symm

theorem exact_hop {F : Nat} {r r' : BR} {v : Nat} (ht : Tiny r) (hl : 1 ≤ r.rest.length)
    (h : Elem.read false F (.fixed 1 true) 1 r = some (.ok v, r')) : r' = r.adv 1 := by
  have h : some (readFixed 1 true 1 r) = some (.ok v, r') := h
  unfold readFixed at h
  have hsk : BR.skip 1 r = (.ok (), r.adv 1) := BR.skip_ok ht.good (l := 1) hl
  rw [if_pos rfl, if_pos rfl, RM.onErr_ok hsk] at h
  simp only at h
  split at h
  · injection h with h; injection h with _ h; exact h.symm
  · exact (nomatch h)

theorem elemSlot_exact {F typ : Nat} {e : Elem} {set : ISt → Option e.V → ISt} {start l : Nat} {st st' : ISt} {r r' : BR}
    (h : (elemSlot false F typ e set).read start l st r = some (.ok st', r')) : ∃ v, Elem.read false F e l r = some (.ok v, r') ∧ st' = set st (some v) := by
  have h : PR.map (fun v => set st (some v)) (Elem.read false F e l r) = some (.ok st', r') := h
  rcases hx : Elem.read false F e l r with _ | ⟨x, q⟩
  · rw [hx] at h; exact (nomatch h)
  · cases x with
    | ok v =>
      rw [hx] at h
      have h : some (Res.ok (set st (some v)), q) = some (.ok st', r') := h
      injection h with h; injection h with h1 h2; injection h1 with h1
      subst h1 h2
      exact ⟨v, rfl, rfl⟩
    | err x => rw [hx] at h; exact (nomatch h)
    | panic => rw [hx] at h; exact (nomatch h)

/-- reading an element in its slot -/
theorem int_read {F t i : Nat} (hr : roundOf t = some i) : ∃ s, (interestSlots false F)[i]? = some s ∧ s.typ = t ∧ i ≤ 13 ∧ i ≠ 10 ∧
    (i = 11 ↔ t = 0x24) ∧
    (∀ j s', j < i → (interestSlots false F)[j]? = some s' → s'.typ ≠ t) ∧
    ∀ (start l : Nat) (st st' : ISt) (r r' : BR), Tiny r → l ≤ r.rest.length → (t = 0x21 ∨ t = 0x12 → l = 0) → (t = 0x22 → l = 1) →
      s.read start l st r = some (.ok st', r') → r' = r.adv l ∧ st'.2.digestCoverStart = st.2.digestCoverStart ∧
        st'.1.appParam = if i = 11 then some [r.rest.take l] else st.1.appParam := by
  have hpre : ∀ {i t : Nat}, ((interestSlots false F).take i).all (fun s => s.typ != t) = true →
      ∀ j s', j < i → (interestSlots false F)[j]? = some s' → s'.typ ≠ t := by
    intro i t h j s' hj hs
    rw [List.all_eq_true] at h
    have hm : s' ∈ (interestSlots false F).take i := by
      refine List.mem_iff_getElem?.mpr ⟨j, ?_⟩
      rw [List.getElem?_take, if_pos hj]; exact hs
    simpa using h s' hm
  unfold roundOf at hr
  split at hr
  · rename_i e; subst e; obtain rfl := Option.some.inj hr
    refine ⟨_, rfl, rfl, by decide, by decide, by decide, hpre rfl, ?_⟩
    intro start l st st' r r' ht hl _ _ h
    rcases hx : readIntName l r with ⟨x, q⟩
    have h : PR.map (fun nc => ((({ st.1 with name := some nc.1 } : InterestV), ({ st.2 with sigCovered := st.2.sigCovered ++ nc.2 } : InterestCtx)) : ISt)) (some (readIntName l r)) = some (.ok st', r') := h
    rw [hx] at h
    cases x with
    | ok nc =>
      have h : some (Res.ok ((({ st.1 with name := some nc.1 } : InterestV), ({ st.2 with sigCovered := st.2.sigCovered ++ nc.2 } : InterestCtx)) : ISt), q) = some (.ok st', r') := h
      injection h with h; injection h with h1 h2; injection h1 with h1
      subst h1 h2
      refine ⟨?_, rfl, rfl⟩
      unfold readIntName at hx
      by_cases hm : (l / 2 + 1) * 32 > maxAlloc
      · rw [if_pos hm] at hx; exact (nomatch hx)
      · rw [if_neg hm] at hx
        rcases hy : readIntNameSlots (l / 2 + 1) (r.pos + l) (r.pos + l) r with ⟨y, q1⟩
        rw [hy] at hx
        cases y with
        | ok y =>
          simp only at hx
          injection hx with _ hx; subst hx
          obtain ⟨a, b⟩ := intNameSlots_pos _ _ _ _ _ _ ht.good hy
          cases q1; simp only at a b; subst a b; rfl
        | err y => exact (nomatch hx)
        | panic => exact (nomatch hx)
    | err x => exact (nomatch h)
    | panic => exact (nomatch h)
  split at hr
  · rename_i e; subst e; obtain rfl := Option.some.inj hr
    refine ⟨_, rfl, rfl, by decide, by decide, by decide, hpre rfl, ?_⟩
    intro start l st st' r r' ht hl h0 _ h
    have hz := h0 (.inl rfl)
    subst hz
    have h : some (Res.ok ((({ st.1 with canBePrefix := true } : InterestV), st.2) : ISt), r) = some (.ok st', r') := h
    injection h with h; injection h with h1 h2; injection h1 with h1
    subst h1 h2
    exact ⟨rfl, rfl, rfl⟩
  split at hr
  · rename_i e; subst e; obtain rfl := Option.some.inj hr
    refine ⟨_, rfl, rfl, by decide, by decide, by decide, hpre rfl, ?_⟩
    intro start l st st' r r' ht hl h0 _ h
    have hz := h0 (.inr rfl)
    subst hz
    have h : some (Res.ok ((({ st.1 with mustBeFresh := true } : InterestV), st.2) : ISt), r) = some (.ok st', r') := h
    injection h with h; injection h with h1 h2; injection h1 with h1
    subst h1 h2
    exact ⟨rfl, rfl, rfl⟩
  split at hr
  · rename_i e; subst e; obtain rfl := Option.some.inj hr
    refine ⟨_, rfl, rfl, by decide, by decide, by decide, hpre rfl, ?_⟩
    intro start l st st' r r' ht hl _ _ h
    obtain ⟨v, h1, rfl⟩ := elemSlot_exact h
    exact ⟨exact_struct F _ _ _ _ _ ht hl h1, rfl, rfl⟩
  split at hr
  · rename_i e; subst e; obtain rfl := Option.some.inj hr
    refine ⟨_, rfl, rfl, by decide, by decide, by decide, hpre rfl, ?_⟩
    intro start l st st' r r' ht hl _ _ h
    obtain ⟨v, h1, rfl⟩ := elemSlot_exact h
    exact ⟨exact_nonce F _ _ _ _ ht hl h1, rfl, rfl⟩
  split at hr
  · rename_i e; subst e; obtain rfl := Option.some.inj hr
    refine ⟨_, rfl, rfl, by decide, by decide, by decide, hpre rfl, ?_⟩
    intro start l st st' r r' ht hl _ _ h
    obtain ⟨v, h1, rfl⟩ := elemSlot_exact h
    exact ⟨exact_time F _ _ _ _ ht hl h1, rfl, rfl⟩
  split at hr
  · rename_i e; subst e; obtain rfl := Option.some.inj hr
    refine ⟨_, rfl, rfl, by decide, by decide, by decide, hpre rfl, ?_⟩
    intro start l st st' r r' ht hl _ h0 h
    have hz := h0 rfl
    subst hz
    obtain ⟨v, h1, rfl⟩ := elemSlot_exact h
    exact ⟨exact_hop ht hl h1, rfl, rfl⟩
  split at hr
  · rename_i e; subst e; obtain rfl := Option.some.inj hr
    refine ⟨_, rfl, rfl, by decide, by decide, by decide, hpre rfl, ?_⟩
    intro start l st st' r r' ht hl _ _ h
    obtain ⟨v, h1, rfl⟩ := elemSlot_exact h
    have h2 : some (BR.readWire (toInt l) r) = some (.ok v, r') := h1
    have := ht.rest
    rw [toInt_small (by omega), BR.readWire_ok ht.good hl] at h2
    injection h2 with h2; injection h2 with h3 h2; injection h3 with h3
    subst h2
    refine ⟨rfl, rfl, ?_⟩
    show some v = some _
    rw [← h3]
  split at hr
  · rename_i e; subst e; obtain rfl := Option.some.inj hr
    refine ⟨_, rfl, rfl, by decide, by decide, by decide, hpre rfl, ?_⟩
    intro start l st st' r r' ht hl _ _ h
    obtain ⟨v, h1, rfl⟩ := elemSlot_exact h
    exact ⟨exact_struct F _ _ _ _ _ ht hl h1, rfl, rfl⟩
  split at hr
  · rename_i e; subst e; obtain rfl := Option.some.inj hr
    refine ⟨_, rfl, rfl, by decide, by decide, by decide, hpre rfl, ?_⟩
    intro start l st st' r r' ht hl _ _ h
    have h : (match BR.readWire (toInt l) r with
      | (.ok w, r') => some (Res.ok ((({ st.1 with sigValue := some w } : InterestV),
          ({ st.2 with sigCovered := st.2.sigCovered ++ rangeOf r' st.2.sigCoverStart start } : InterestCtx)) : ISt), r')
      | (.err e, r') => some (.err e, r')
      | (.panic, r') => some (.panic, r')) = some (.ok st', r') := h
    have := ht.rest
    rw [toInt_small (by omega), BR.readWire_ok ht.good hl] at h
    simp only at h
    injection h with h; injection h with h1 h2; injection h1 with h1
    subst h1 h2
    exact ⟨rfl, rfl, rfl⟩
  · exact (nomatch hr)

theorem roundOf_knows (F t : Nat) : knows (interestSlots false F) t = (roundOf t).isSome := by
  have h := interest_knows F t
  unfold roundOf
  cases hk : knows (interestSlots false F) t with
  | true =>
    have hm := h.mp hk
    simp only [interestTypes, List.mem_cons, List.not_mem_nil, or_false] at hm
    rcases hm with rfl | rfl | rfl | rfl | rfl | rfl | rfl | rfl | rfl | rfl <;> rfl
  | false =>
    have hm : ¬ t ∈ interestTypes := fun hh => by rw [h.mpr hh] at hk; exact (nomatch hk)
    simp only [interestTypes, List.mem_cons, List.not_mem_nil, or_false, not_or] at hm
    obtain ⟨h1, h2, h3, h4, h5, h6, h7, h8, h9, h10⟩ := hm
    rw [if_neg h1, if_neg h2, if_neg h3, if_neg h4, if_neg h5, if_neg h6, if_neg h7, if_neg h8, if_neg h9, if_neg h10]
    rfl

/-- what is known of the state of the parser before the elements `els`: `p` is the next round, `h` are the handled slots -/
structure Bound (B : Bytes) (p : Nat) (h : List Nat) (st : ISt) (els : List (Nat × Nat × Nat)) : Prop where
  tail : 14 ∉ h
  phase : (st.1.appParam = none ∧ (p = 11 → ∀ e ∈ els, e.2.1 ≠ 0x24)) ∨
    (12 ≤ p ∧ 10 ∈ h ∧ 11 ∈ h ∧ ∃ n1 l n2, TLSplit (B.drop st.2.digestCoverStart) 0x24 n1 ∧
      TLSplit (B.drop (st.2.digestCoverStart + n1)) l n2 ∧ st.2.digestCoverStart + n1 + n2 + l ≤ B.length ∧
      st.1.appParam = some [(B.drop (st.2.digestCoverStart + n1 + n2)).take l])

/-- no round is left -/
theorem loop_done {F : Nat} (fuel : Nat) : ∀ {h : List Nat} {st : ISt} {of : Ord ISt} {r rf : BR}, r.Good →
    ordLoop false (interestSlots false F) fuel ⟨0, h, st⟩ r = some (.ok of, rf) → of.handled = h ∧ of.st = st ∧ rf.buf = r.buf ∧ rf.pos = r.buf.length := by
  induction fuel with
  | zero => intro h st of r rf _ hx; exact (nomatch hx)
  | succ fuel ih =>
    intro h st of r rf hg hx
    by_cases hp : r.pos ≥ r.buf.length
    · rw [ordLoop, if_pos hp] at hx
      injection hx with hx; injection hx with h1 h2; injection h1 with h1
      subst h1 h2
      have := hg.1
      exact ⟨rfl, rfl, rfl, by omega⟩
    · rw [ordLoop_step hp] at hx
      rcases hs : ordStep false (interestSlots false F) ⟨0, h, st⟩ r with _ | ⟨x, q⟩
      · rw [hs] at hx; exact (nomatch hx)
      · rw [hs] at hx
        cases x with
        | ok o1 =>
          obtain ⟨typ, l, n1, n2, s1, s2, _, _, hin⟩ := ordStep_ok hs
          rw [ordInner] at hin
          injection hin with hin; injection hin with h1 h2; injection h1 with h1
          subst h1 h2
          have w : ∀ {s : Bytes} {v n : Nat}, TLSplit s v n → n ≤ s.length := by
            intro s v n h
            cases h with
            | one b t _ => simp
            | two t h => simp only [List.length_cons]; omega
            | four t h => simp only [List.length_cons]; omega
            | eight t h => simp only [List.length_cons]; omega
          have w1 := w s1
          have w2 := w s2
          rw [BR.rest_adv, List.length_drop] at w2
          obtain ⟨a, b, c, d⟩ := ih (r := r.adv (n1 + n2)) (hg.adv (by omega)) hx
          exact ⟨a, b, c, d⟩
        | err x => exact (nomatch hx)
        | panic => exact (nomatch hx)

/-- the main loop keeps what is known -/
theorem loop_bound {F : Nat} {B : Bytes} (hB : B.length < 2 ^ 43) {els : List (Nat × Nat × Nat)} {pos : Nat} (hw : Walk B pos els) :
    ∀ (fuel p : Nat) (h : List Nat) (st : ISt) (of : Ord ISt) (rf : BR), Orderly p els → Bound B p h st els →
      ordLoop false (interestSlots false F) fuel ⟨16 - p, h, st⟩ ⟨B, pos⟩ = some (.ok of, rf) →
      rf.buf = B ∧ rf.pos = B.length ∧ Bound B 16 of.handled of.st [] := by
  induction hw with
  | nil =>
    intro fuel p h st of rf _ hb hx
    cases fuel with
    | zero => exact (nomatch hx)
    | succ fuel =>
      rw [ordLoop, if_pos (by show B.length ≥ B.length; omega)] at hx
      injection hx with hx; injection hx with h1 h2; injection h1 with h1
      subst h1 h2
      refine ⟨rfl, rfl, hb.tail, ?_⟩
      rcases hb.phase with ⟨a, _⟩ | ⟨_, a⟩
      · exact .inl ⟨a, fun _ _ h => (nomatch h)⟩
      · exact .inr ⟨by omega, a⟩
  | @cons pos t n1 l n2 els s1 s2 hle hw ih =>
    intro fuel p h st of rf ho hb hx
    have hw1 : 1 ≤ n1 := by rcases s1.width with h | h | h | h <;> omega
    have hw2 : 1 ≤ n2 := by rcases s2.width with h | h | h | h <;> omega
    have hg : Tiny ⟨B, pos⟩ := ⟨by show pos ≤ B.length; omega, hB⟩
    have fin : 16 ≤ p → rf.buf = B ∧ rf.pos = B.length ∧ Bound B 16 of.handled of.st [] := by
      intro hp
      rw [show 16 - p = 0 by omega] at hx
      obtain ⟨a, b, c, d⟩ := loop_done fuel hg.good hx
      refine ⟨c, d, by rw [a]; exact hb.tail, ?_⟩
      rw [a, b]
      rcases hb.phase with ⟨a, _⟩ | ⟨_, a⟩
      · exact .inl ⟨a, fun _ _ h => (nomatch h)⟩
      · exact .inr ⟨by omega, a⟩
    by_cases hp16 : 16 ≤ p
    · exact fin hp16
    replace ho := ho.resolve_left hp16
    cases fuel with
    | zero => exact (nomatch hx)
    | succ fuel =>
      have hr1 : BR.readTL ⟨B, pos⟩ = (.ok t, ⟨B, pos + n1⟩) := readTL_of_split (r := ⟨B, pos⟩) s1
      have hr2 : BR.readTL ⟨B, pos + n1⟩ = (.ok l, ⟨B, pos + n1 + n2⟩) := readTL_of_split (r := ⟨B, pos + n1⟩) s2
      rw [ordLoop, if_neg (by show ¬ pos ≥ B.length; omega), hr1] at hx
      simp only at hx
      rw [hr2] at hx
      simp only at hx
      have hrest : (BR.rest ⟨B, pos + n1 + n2⟩).length = B.length - (pos + n1 + n2) := by rw [BR.rest_length]
      have hg2 : Tiny ⟨B, pos + n1 + n2⟩ := ⟨by show pos + n1 + n2 ≤ B.length; omega, hB⟩
      have hlen : (interestSlots false F).length = 15 := rfl
      cases hro : roundOf t with
      | none =>
        rw [hro] at ho
        obtain ⟨ho1, ho2⟩ := ho
        have hk : ¬ knows (interestSlots false F) t = true := by rw [roundOf_knows, hro]; decide
        obtain ⟨k, hkk⟩ : ∃ k, 16 - p = k + 1 := ⟨15 - p, by omega⟩
        rw [hkk, ordInner, if_neg hk] at hx
        by_cases hcr : (!false && isCritical t) = true
        · rw [if_pos hcr] at hx; exact (nomatch hx)
        · rw [if_neg hcr, toInt_small (by omega), BR.skip_ok hg2.good (l := l) (by omega)] at hx
          simp only at hx
          rw [show k = 16 - (p + 1) by omega] at hx
          refine ih fuel (p + 1) h st of rf ho2 ⟨hb.tail, ?_⟩ hx
          rcases hb.phase with ⟨a, _⟩ | ⟨b, a⟩
          · exact .inl ⟨a, fun e => ho1 (by omega)⟩
          · exact .inr ⟨by omega, a⟩
      | some i =>
        rw [hro] at ho
        obtain ⟨ho1, ho2, ho3, ho4⟩ := ho
        obtain ⟨s, g1, g2, g3, g4, g5, g6, g7⟩ := int_read (F := F) hro
        obtain ⟨st1, k1, k2, k3⟩ := int_skipTo F pos ⟨B, pos + n1 + n2⟩ (i - p) p st (by omega)
        have e := ordInner_to (ic := false) (start := pos) (l := l) (r := ⟨B, pos + n1 + n2⟩) (by rw [roundOf_knows, hro]; rfl) (i - p) p h st
          (by rw [show p + (i - p) = i by omega]; exact g1) g2 (fun j s' _ b => g6 j s' (by omega)) k1
        rw [hlen, show p + (i - p) = i by omega] at e
        rw [e] at hx
        rcases hrd : s.read pos l st1 ⟨B, pos + n1 + n2⟩ with _ | ⟨x, q⟩
        · rw [hrd] at hx; exact (nomatch hx)
        · rw [hrd] at hx
          cases x with
          | ok st2 =>
            simp only at hx
            obtain ⟨f1, f2, f3⟩ := g7 pos l st1 st2 _ q hg2 (by omega) ho2 ho3 hrd
            subst f1
            refine ih fuel (i + 1) _ st2 of rf ho4 ⟨?_, ?_⟩ hx
            · rw [List.mem_cons, mem_pass]
              rintro (h | h | h)
              · omega
              · exact hb.tail h
              · omega
            · rcases hb.phase with ⟨a, a'⟩ | ⟨b, c10, c11, n1', l', n2', d1, d2, d3, d4⟩
              · by_cases hi : i = 11
                · right
                  subst hi
                  have ht := g5.mp rfl
                  have hp11 : p ≠ 11 := fun hh => a' hh _ (List.mem_cons_self ..) ht
                  have hst : st2.2.digestCoverStart = pos := by rw [f2, k3, if_pos (by omega)]
                  refine ⟨by omega, ?_, ?_, n1, l, n2, ?_, ?_, ?_, ?_⟩
                  · rw [List.mem_cons, mem_pass]; right; right; omega
                  · rw [List.mem_cons]; left; rfl
                  · rw [hst, ← ht]; exact s1
                  · rw [hst]; exact s2
                  · rw [hst]; exact hle
                  · rw [hst, f3, if_pos rfl]; rfl
                · left
                  rw [f3, if_neg hi, k2]
                  refine ⟨?_, fun hh => absurd hh (by omega)⟩
                  split
                  · rfl
                  · exact a
              · right
                have hst : st2.2.digestCoverStart = st.2.digestCoverStart := by rw [f2, k3, if_neg (by omega)]
                refine ⟨by omega, ?_, ?_, n1', l', n2', ?_, ?_, ?_, ?_⟩
                · rw [List.mem_cons, mem_pass]; right; left; exact c10
                · rw [List.mem_cons, mem_pass]; right; left; exact c11
                · rw [hst]; exact d1
                · rw [hst]; exact d2
                · rw [hst]; exact d3
                · rw [hst, f3, if_neg (by omega), k2, if_neg (by omega), d4]
          | err x => exact (nomatch hx)
          | panic => exact (nomatch hx)

/-- after the loop -/
theorem finish_bound {F : Nat} {B : Bytes} {h : List Nat} {st st' : ISt} (hb : Bound B 16 h st [])
    (hx : ordFinish h ⟨B, B.length⟩ 0 (interestSlots false F) st = .ok st') (ha : st'.1.appParam.isSome) :
    ∃ p n1 l n2, TLSplit (B.drop p) 0x24 n1 ∧ TLSplit (B.drop (p + n1)) l n2 ∧ p + n1 + n2 + l ≤ B.length ∧
      st'.1.appParam = some [(B.drop (p + n1 + n2)).take l] ∧ st'.2.digestCovered.flatten = B.drop p := by
  rcases hb.phase with ⟨a, _⟩ | ⟨_, c10, c11, n1, l, n2, d1, d2, d3, d4⟩
  · exfalso
    obtain ⟨st2, h1, h2⟩ := ordFinish_inv (h := h) (r := ⟨B, B.length⟩) (fun _ (s : ISt) => s.1.appParam = none) (interestSlots false F) 0 st a
      (by
        intro j s st hj hq
        obtain ⟨st1, e1, e2, _⟩ := int_skip hj st B.length ⟨B, B.length⟩
        split
        · exact hq
        · refine ⟨st1, e1, ?_⟩
          rw [e2]; split
          · rfl
          · exact hq)
    rw [hx] at h1
    injection h1 with h1
    subst h1
    rw [h2] at ha; exact (nomatch ha)
  · obtain ⟨st2, h1, h2, h3, h4⟩ := ordFinish_inv (h := h) (r := ⟨B, B.length⟩)
      (fun j (s : ISt) => s.1.appParam = st.1.appParam ∧ s.2.digestCoverStart = st.2.digestCoverStart ∧
        (j = 15 → s.2.digestCovered = rangeOf ⟨B, B.length⟩ st.2.digestCoverStart B.length)) (interestSlots false F) 0 st
      ⟨rfl, rfl, fun h => absurd h (by decide)⟩ (by
        intro j s st0 hj ⟨q1, q2, q3⟩
        obtain ⟨st1, e1, e2, e3, e4⟩ := int_skip hj st0 B.length ⟨B, B.length⟩
        have hj15 : j < 15 := (List.getElem?_eq_some_iff.mp hj).1
        rw [Nat.zero_add]
        split
        · rename_i hc
          refine ⟨q1, q2, fun hh => ?_⟩
          obtain rfl : j = 14 := by omega
          exact absurd (List.contains_iff_mem.mp hc) hb.tail
        · rename_i hc
          have hnot : j ∉ h := fun hh => hc (List.contains_iff_mem.mpr hh)
          refine ⟨st1, e1, ?_, ?_, fun hh => ?_⟩
          · rw [e2, if_neg (by rintro rfl; exact hnot c11), q1]
          · rw [e3, if_neg (by rintro rfl; exact hnot c10), q2]
          · rw [e4 (by omega), q2])
    rw [hx] at h1
    injection h1 with h1
    subst h1
    refine ⟨_, n1, l, n2, d1, d2, d3, by rw [h2, d4], ?_⟩
    rw [h4 rfl]
    have : (rangeOf (BR.new B) st.2.digestCoverStart B.length).flatten = (B.take B.length).drop st.2.digestCoverStart :=
      rangeOf_flatten (by omega) (by omega)
    rw [List.take_length] at this
    exact this

theorem checkInterest_none {sha : Bytes → Bytes} {v : InterestV} {ctx : InterestCtx} (h : checkInterest sha v ctx = none) (ha : v.appParam.isSome) :
    ∃ n, v.name = some (n ++ [⟨2, sha ctx.digestCovered.flatten⟩]) := by
  unfold checkInterest at h
  cases hn : v.name with
  | none => rw [hn] at h; exact (nomatch h)
  | some name =>
    rw [hn] at h
    simp only [ha, if_true] at h
    obtain ⟨a, ha'⟩ := Option.isSome_iff_exists.mp ha
    rw [if_neg (by rw [ha']; simp)] at h
    cases hg : name.getLast? with
    | none => rw [hg] at h; exact (nomatch h)
    | some c =>
      rw [hg] at h
      simp only at h
      by_cases ht : c.typ = typParamsDigest
      · rw [if_neg (by simpa using ht)] at h
        by_cases hv' : c.val = sha ctx.digestCovered.flatten
        · obtain ⟨n, rfl⟩ := List.getLast?_eq_some_iff.mp hg
          refine ⟨n, ?_⟩
          have : c = ⟨2, sha ctx.digestCovered.flatten⟩ := by
            cases c; simp only at ht hv'; subst ht; rw [hv']; simp [typParamsDigest]
          rw [this]
        · rw [if_neg hv'] at h; exact (nomatch h)
      · rw [if_pos (by simpa using ht)] at h; exact (nomatch h)

theorem packet_one_interest {buf : Bytes} {F n1 l n2 : Nat} (hl : buf.length < 2 ^ 43) (h1 : TLSplit buf 5 n1) (h2 : TLSplit (buf.drop n1) l n2)
    (h3 : n1 + n2 + l = buf.length) {s : PacketSt} {r : BR} (h : parsePacket false F (BR.new buf) = some (.ok s, r)) {d : InterestV}
    (hd : s.interest = some d) : ∃ r', parseInterest false F {} (BR.new (buf.drop (n1 + n2))) = some (.ok (d, s.ictx), r') := by
  have hg0 : (BR.new buf).Good := ⟨by simp [BR.new], by show buf.length < 2 ^ 62; omega⟩
  have w1 : 1 ≤ n1 := by rcases h1.width with h | h | h | h <;> omega
  unfold parsePacket at h
  cases hF : F with
  | zero => rw [hF] at h; exact (nomatch h)
  | succ f =>
    rw [hF, parseLoop, if_neg (by show ¬0 ≥ buf.length; omega), readTL_of_split (r := BR.new buf) h1] at h
    simp only at h
    have e2 : BR.readTL ((BR.new buf).adv n1) = (.ok l, (BR.new buf).adv (n1 + n2)) := by
      have := readTL_of_split (r := (BR.new buf).adv n1) (v := l) (n := n2) (by rw [BR.rest_adv, BR.rest_new]; exact h2)
      rw [BR.adv_adv] at this; exact this
    rw [e2] at h
    simp only at h
    rw [if_pos (by decide)] at h
    have hrest : ((BR.new buf).adv (n1 + n2)).rest = buf.drop (n1 + n2) := by rw [BR.rest_adv, BR.rest_new]
    have hdel : BR.delegate (toInt l) ((BR.new buf).adv (n1 + n2)) = (.ok (BR.new (buf.drop (n1 + n2))), ((BR.new buf).adv (n1 + n2)).adv l) := by
      rw [toInt_small (by omega), BR.delegate_ok (hg0.adv (by rw [BR.rest_new]; omega)) (by rw [hrest, List.length_drop]; omega), hrest,
        List.take_of_length_le (by rw [List.length_drop]; omega)]
    unfold packetRead at h
    rw [hdel] at h
    simp only at h
    rw [if_pos trivial] at h
    rcases hx : parseInterest false (f + 1) {} (BR.new (buf.drop (n1 + n2))) with _ | ⟨x, q⟩
    · have hx' : parseInterest false (f + 1) ({} : PacketSt).ictx (BR.new (buf.drop (n1 + n2))) = none := hx
      rw [hx'] at h; exact (nomatch h)
    · have hx' : parseInterest false (f + 1) ({} : PacketSt).ictx (BR.new (buf.drop (n1 + n2))) = some (x, q) := hx
      rw [hx'] at h
      cases x with
      | ok p =>
        simp only at h
        have hend : (((BR.new buf).adv (n1 + n2)).adv l).rest = [] := by
          rw [BR.rest_adv, hrest, List.drop_drop, List.drop_eq_nil_of_le (by omega)]
        cases f with
        | zero => exact (nomatch h)
        | succ f =>
          rw [parseLoop_end _ hend] at h
          injection h with h; injection h with h _; injection h with h
          subst h
          injection hd with hd
          subst hd
          exact ⟨q, rfl⟩
      | err x => exact (nomatch h)
      | panic => exact (nomatch h)

/-! ## C26 -/

/-- C26: whatever the bytes of a buffer with one Interest, if its elements are in order (`Orderly`: unrecognised elements are allowed, except
where they make the parser miss an element or the start of the parameters) and `ReadInterest` accepts it with application parameters, then
these are the value of an ApplicationParameters element in it, and the last component of the name is the digest of all bytes from that element
to the end of the Interest.  Nothing is assumed about the values of the elements, nor about the form of type and length numbers.
Missing: elements out of order and unrecognised elements in the place of the start marker, for which the claim is false, see `C26_violated` and
`C26_unbound_violated`. -/
theorem C26_any_partial (sha : Bytes → Bytes) (buf B : Bytes) (ho : OneInterest buf B) (hl : buf.length < 2 ^ 43) (els : List (Nat × Nat × Nat))
    (hw : Walk B 0 els) (hord : Orderly 0 els) (F : Nat) (v : InterestV) (cov : Wire)
    (h : readInterest sha F (BR.new buf) = some (.ok (.ok (v, cov)))) (ha : v.appParam.isSome) :
    ∃ p n1 l n2, TLSplit (B.drop p) 0x24 n1 ∧ TLSplit (B.drop (p + n1)) l n2 ∧ p + n1 + n2 + l ≤ B.length ∧
      v.appParam = some [(B.drop (p + n1 + n2)).take l] ∧ ∃ n, v.name = some (n ++ [⟨2, sha (B.drop p)⟩]) := by
  obtain ⟨m1, k, m2, h1, h2, h3, rfl⟩ := ho
  unfold readInterest at h
  rcases hx : parsePacket false F (BR.new buf) with _ | ⟨y, q⟩
  · rw [hx] at h; exact (nomatch h)
  rw [hx] at h
  cases y with
  | err x => simp only [finishParse] at h; injection h with h; injection h with h; exact (nomatch h)
  | panic => simp only [finishParse] at h; injection h with h; exact (nomatch h)
  | ok s =>
    simp only [finishParse] at h
    injection h with h; injection h with h
    cases hd : s.interest with
    | none => rw [hd] at h; exact (nomatch h)
    | some d =>
      rw [hd] at h
      simp only at h
      cases hc : checkInterest sha d s.ictx with
      | some e => rw [hc] at h; exact (nomatch h)
      | none =>
        rw [hc] at h
        injection h with h; injection h with e1 _
        subst e1
        obtain ⟨r', hp⟩ := packet_one_interest hl h1 h2 h3 hx hd
        obtain ⟨n, hn⟩ := checkInterest_none hc ha
        unfold parseInterest ordParse at hp
        rcases hlp : ordLoop false (interestSlots false F) F ⟨(interestSlots false F).length + 1, [], ({}, {})⟩ (BR.new (buf.drop (m1 + m2))) with _ | ⟨x, q⟩
        · rw [hlp] at hp; exact (nomatch hp)
        rw [hlp] at hp
        cases x with
        | err x => exact (nomatch hp)
        | panic => exact (nomatch hp)
        | ok of =>
          simp only at hp
          injection hp with hp; injection hp with hp _
          have hlB : (buf.drop (m1 + m2)).length < 2 ^ 43 := by rw [List.length_drop]; omega
          obtain ⟨b1, b2, b3⟩ := loop_bound hlB hw F 0 [] ({}, {}) of q hord ⟨by simp, .inl ⟨rfl, fun h => absurd h (by decide)⟩⟩ hlp
          have hq : q = ⟨buf.drop (m1 + m2), (buf.drop (m1 + m2)).length⟩ := by
            cases q; simp only at b1 b2; subst b1; rw [b2]
          rw [hq] at hp
          obtain ⟨p, n1, l, n2, c1, c2, c3, c4, c5⟩ := finish_bound b3 hp ha
          exact ⟨p, n1, l, n2, c1, c2, c3, c4, n, by rw [hn, c5]⟩

/-- an Interest with a long form of its length, an unrecognised element before the parameters and one behind them; the form of the length of the
parameters is not the shortest either -/
def oddInterest : Bytes := [5, 253, 0, 13, 7, 2, 2, 0, 32, 0, 0x24, 253, 0, 1, 5, 40, 0]

theorem oddInterest_walk : Walk (oddInterest.drop 4) 0 [(0, 7, 2), (4, 32, 0), (6, 0x24, 1), (11, 40, 0)] :=
  .cons (n1 := 1) (n2 := 1) (.one 7 _ (by decide)) (.one 2 _ (by decide)) (by decide)
    (.cons (n1 := 1) (n2 := 1) (.one 32 _ (by decide)) (.one 0 _ (by decide)) (by decide)
      (.cons (n1 := 1) (n2 := 3) (.one 0x24 _ (by decide)) (.two [0, 1, 5, 40, 0] (by decide)) (by decide)
        (.cons (n1 := 1) (n2 := 1) (.one 40 _ (by decide)) (.one 0 _ (by decide)) (by decide) .nil)))

/-- it meets the hypotheses, with a hash function whose values are empty -/
example : OneInterest oddInterest (oddInterest.drop 4) ∧ Orderly 0 [(0, 7, 2), (4, 32, 0), (6, 0x24, 1), (11, 40, 0)] ∧
    ∃ v cov, readInterest (fun _ => []) 17 (BR.new oddInterest) = some (.ok (.ok (v, cov))) ∧ v.appParam.isSome := by
  refine ⟨⟨1, 13, 3, .one 5 _ (by decide), .two _ (by decide), by decide, rfl⟩, by simp [Orderly, roundOf], ?_⟩
  have h1 : BR.readTL ⟨[7, 2, 2, 0, 32, 0, 0x24, 253, 0, 1, 5, 40, 0], 7⟩ = (.ok 1, ⟨[7, 2, 2, 0, 32, 0, 0x24, 253, 0, 1, 5, 40, 0], 10⟩) :=
    readTL_of_split (r := ⟨[7, 2, 2, 0, 32, 0, 0x24, 253, 0, 1, 5, 40, 0], 7⟩) (.two [0, 1, 5, 40, 0] (by decide))
  have h2 : readIntName 2 ⟨[7, 2, 2, 0, 32, 0, 0x24, 253, 0, 1, 5, 40, 0], 2⟩ =
      (.ok ([⟨2, []⟩], [[]]), ⟨[7, 2, 2, 0, 32, 0, 0x24, 253, 0, 1, 5, 40, 0], 4⟩) :=
    read_intName (n := [⟨2, []⟩]) (t := [32, 0, 0x24, 253, 0, 1, 5, 40, 0]) (r := ⟨[7, 2, 2, 0, 32, 0, 0x24, 253, 0, 1, 5, 40, 0], 2⟩) ⟨by decide, by decide⟩ rfl
      (by intro c hc; simp only [List.mem_singleton] at hc; subst hc; exact ⟨by decide, by decide⟩)
  have h3 : BR.readTL ⟨oddInterest, 1⟩ = (.ok 13, ⟨oddInterest, 4⟩) :=
    readTL_of_split (r := ⟨oddInterest, 1⟩) (.two [0, 13, 7, 2, 2, 0, 32, 0, 0x24, 253, 0, 1, 5, 40, 0] (by decide))
  have h4 : parseInterest false 17 {} ⟨[7, 2, 2, 0, 32, 0, 0x24, 253, 0, 1, 5, 40, 0], 0⟩ =
      some (.ok ({ name := some [⟨2, []⟩], appParam := some [[5]] },
        { sigCovered := [[]], sigCoverStart := 6, digestCoverStart := 6, digestCovered := [[0x24, 253, 0, 1, 5, 40, 0]] }),
        ⟨[7, 2, 2, 0, 32, 0, 0x24, 253, 0, 1, 5, 40, 0], 13⟩) := by
    simp [parseInterest, interestSlots, flagSlot, h2, ordParse, ordLoop, readTL_at, ordInner, knows, argSlot, markSlot, elemSlot, sigSlot,
      h1, PR.map, Res.map, isCritical, BR.skip, toInt_lit, wrap64_id, Elem.read, BR.readWire, BR.slice, ordFinish, Res.bind]
    exact ⟨rfl, by decide⟩
  refine ⟨{ name := some [⟨2, []⟩], appParam := some [[5]] }, [[]], ?_, rfl⟩
  unfold oddInterest at h3 ⊢
  eval_packet [h4, h3]

end Ndn.Packet
