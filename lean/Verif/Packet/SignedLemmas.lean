import Verif.Packet.Local
import Verif.Packet.PacketLemmas

/-! # The bytes covered by the signature determine the Data (lemmas) -/

namespace Ndn.Packet
open Ndn.Codec Ndn.Codec.Schema

abbrev DSt := DataV × DataCtx

/-- reading and skipping a field of a Data depends on the bytes read and on the Data so far only -/
structure SlotLocal (s : Slot DSt) : Prop where
  read : ∀ (start start' l : Nat) (st st' : DSt), l < 2 ^ 43 → st.1 = st'.1 → ∀ (r r' : BR), Cut r r' → ∀ a r1,
    s.read start l st r = some (.ok a, r1) → a.1.sigValue = none → r1.pos ≤ r.pos + r'.rest.length →
    ∃ n b, n ≤ r'.rest.length ∧ r1 = r.adv n ∧ s.read start' l st' r' = some (.ok b, r'.adv n) ∧ a.1 = b.1
  skip : ∀ (start start' : Nat) (st st' : DSt) (r r' : BR), st.1 = st'.1 →
    ∃ a b, s.skip start st r = .ok a ∧ s.skip start' st' r' = .ok b ∧ a.1 = b.1

theorem argSlot_local : SlotLocal argSlot := by
  refine ⟨fun start start' l st st' hl hst r r' hc a r1 e _ _ => ?_, fun start start' st st' r r' h => ⟨st, st', rfl, rfl, h⟩⟩
  have e : some (Res.ok st, r) = some (.ok a, r1) := e
  injection e with e; injection e with e1 e2; injection e1 with e1
  subst e1 e2
  exact ⟨0, st', by omega, rfl, rfl, hst⟩

theorem markSlot_local : SlotLocal (markSlot fun s p => (s.1, { s.2 with sigCoverStart := p })) := by
  refine ⟨fun start start' l st st' hl hst r r' hc a r1 e _ _ => ?_, fun start start' st st' r r' h => ⟨_, _, rfl, rfl, h⟩⟩
  have e : some (Res.ok (st.1, { st.2 with sigCoverStart := start }), r) = some (.ok a, r1) := e
  injection e with e; injection e with e1 e2; injection e1 with e1
  subst e1 e2
  exact ⟨0, _, by omega, rfl, rfl, hst⟩

theorem elemSlot_local {F typ : Nat} {e : Elem} {set : DSt → Option e.V → DSt} (g : DataV → Option e.V → DataV)
    (hset : ∀ st v, (set st v).1 = g st.1 v) (he : ∀ l, l < 2 ^ 43 → Local (fun r => Elem.read false F e l r)) :
    SlotLocal (elemSlot false F typ e set) := by
  refine ⟨fun start start' l st st' hl hst r r' hc a r1 h _ hp => ?_, fun start start' st st' r r' h => ⟨_, _, rfl, rfl, by rw [hset, hset, h]⟩⟩
  have h : PR.map (fun v => set st (some v)) (e.read false F l r) = some (.ok a, r1) := h
  rcases hx : e.read false F l r with _ | ⟨x, q⟩
  · rw [hx] at h; exact (nomatch h)
  · cases x with
    | ok v =>
      rw [hx] at h
      have h : some (Res.ok (set st (some v)), q) = some (.ok a, r1) := h
      injection h with h; injection h with h1 h2; injection h1 with h1
      subst h1 h2
      obtain ⟨n, h1, h2, h3⟩ := he l hl r r' hc v q hx hp
      refine ⟨n, set st' (some v), h1, h2, ?_, by rw [hset, hset, hst]⟩
      have h3 : e.read false F l r' = some (.ok v, r'.adv n) := h3
      show PR.map (fun v => set st' (some v)) (e.read false F l r') = _
      rw [h3]; rfl
    | err x => rw [hx] at h; exact (nomatch h)
    | panic => rw [hx] at h; exact (nomatch h)

theorem sigSlot_read {l : Nat} {start : Nat} {st a : DSt} {r r1 : BR}
    (h : (sigSlot 0x17 (fun s v => ({ s.1 with sigValue := v }, s.2)) (·.2.sigCoverStart)
      fun s w => (s.1, { s.2 with sigCovered := s.2.sigCovered ++ w }) : Slot DSt).read start l st r = some (.ok a, r1)) :
    ∃ w, a = ({ st.1 with sigValue := some w }, { st.2 with sigCovered := st.2.sigCovered ++ rangeOf r1 st.2.sigCoverStart start }) := by
  have h : (match BR.readWire (toInt l) r with
    | (.ok w, r') => some (Res.ok (({ st.1 with sigValue := some w }, { st.2 with sigCovered := st.2.sigCovered ++ rangeOf r' st.2.sigCoverStart start }) : DSt), r')
    | (.err e, r') => some (.err e, r')
    | (.panic, r') => some (.panic, r')) = some (.ok a, r1) := h
  rcases hx : BR.readWire (toInt l) r with ⟨x, q⟩
  rw [hx] at h
  cases x with
  | ok w =>
    simp only at h
    injection h with h; injection h with h1 h2; injection h1 with h1
    subst h1 h2
    exact ⟨w, rfl⟩
  | err x => exact (nomatch h)
  | panic => exact (nomatch h)

theorem sigSlot_local : SlotLocal (sigSlot 0x17 (fun s v => ({ s.1 with sigValue := v }, s.2)) (·.2.sigCoverStart)
    fun s w => (s.1, { s.2 with sigCovered := s.2.sigCovered ++ w })) := by
  refine ⟨fun start start' l st st' hl hst r r' hc a r1 h hn _ => ?_, fun start start' st st' r r' h => ⟨_, _, rfl, rfl, by simp only [h]⟩⟩
  obtain ⟨w, rfl⟩ := sigSlot_read h
  exact (nomatch hn)

theorem dataSlots_local (F : Nat) : ∀ s ∈ dataSlots false F, SlotLocal s := by
  intro s hs
  simp only [dataSlots, List.mem_cons, List.not_mem_nil, or_false] at hs
  rcases hs with rfl | rfl | rfl | rfl | rfl | rfl | rfl
  · exact argSlot_local
  · exact markSlot_local
  · exact elemSlot_local (fun d v => { d with name := v }) (fun _ _ => rfl) (fun _ _ => local_name)
  · exact elemSlot_local (fun d v => { d with metaInfo := v }) (fun _ _ => rfl) (fun _ h => local_struct h)
  · exact elemSlot_local (fun d v => { d with content := v }) (fun _ _ => rfl) (fun _ h => local_wire h)
  · exact elemSlot_local (fun d v => { d with sigInfo := v }) (fun _ _ => rfl) (fun _ h => local_struct h)
  · exact sigSlot_local

/-- the same but for the positions, and for the procedure argument -/
structure Sim (o o' : Ord DSt) : Prop where
  left : o.left = o'.left
  handled : ∀ i, 1 ≤ i → (i ∈ o.handled ↔ i ∈ o'.handled)
  val : o.st.1 = o'.st.1

theorem inner_local (F : Nat) {start start' typ l : Nat} (hl : l < 2 ^ 43) (k : Nat) : ∀ (h h' : List Nat) (st st' : DSt) (r r' : BR),
    (∀ i, 1 ≤ i → (i ∈ h ↔ i ∈ h')) → st.1 = st'.1 → Cut r r' → ∀ o1 r1,
    ordInner false (dataSlots false F) start typ l k h st r = some (.ok o1, r1) → o1.st.1.sigValue = none → r1.pos ≤ r.pos + r'.rest.length →
    ∃ n o1', n ≤ r'.rest.length ∧ r1 = r.adv n ∧
      ordInner false (dataSlots false F) start' typ l k h' st' r' = some (.ok o1', r'.adv n) ∧ Sim o1 o1' := by
  induction k with
  | zero =>
    intro h h' st st' r r' hh hst hc o1 r1 e hn hp
    rw [ordInner] at e
    injection e with e; injection e with e1 e2; injection e1 with e1
    subst e1 e2
    exact ⟨0, _, by omega, rfl, rfl, rfl, hh, hst⟩
  | succ k ih =>
    intro h h' st st' r r' hh hst hc o1 r1 e hn hp
    rw [ordInner] at e ⊢
    by_cases hk : knows (dataSlots false F) typ = true
    · rw [if_pos hk] at e ⊢
      cases hsl : (dataSlots false F)[(dataSlots false F).length - k]? with
      | none =>
        rw [hsl] at e
        exact ih h h' st st' r r' hh hst hc o1 r1 e hn hp
      | some s =>
        have hloc := dataSlots_local F s (List.mem_of_getElem? hsl)
        rw [hsl] at e
        simp only at e ⊢
        by_cases ht : s.typ = typ
        · rw [if_pos ht] at e ⊢
          rcases hx : s.read start l st r with _ | ⟨x, q⟩
          · rw [hx] at e; exact (nomatch e)
          · cases x with
            | ok a =>
              rw [hx] at e
              simp only at e
              injection e with e; injection e with e1 e2; injection e1 with e1
              subst e1 e2
              obtain ⟨n, b, h1, h2, h3, h4⟩ := hloc.read start start' l st st' hl hst r r' hc a q hx hn hp
              rw [h3]
              refine ⟨n, _, h1, h2, rfl, rfl, ?_, h4⟩
              intro i hi
              simp only [List.mem_cons, hh i hi]
            | err x => rw [hx] at e; exact (nomatch e)
            | panic => rw [hx] at e; exact (nomatch e)
        · rw [if_neg ht] at e ⊢
          obtain ⟨a, b, h1, h2, h3⟩ := hloc.skip start start' st st' r r' hst
          rw [h1] at e
          rw [h2]
          refine ih _ _ a b r r' ?_ h3 hc o1 r1 e hn hp
          intro i hi
          simp only [List.mem_cons, hh i hi]
    · rw [if_neg hk] at e ⊢
      by_cases hcr : (!false && isCritical typ) = true
      · rw [if_pos hcr] at e; exact (nomatch e)
      · rw [if_neg hcr] at e ⊢
        rcases hx : BR.skip (toInt l) r with ⟨x, q⟩
        rw [hx] at e
        cases x with
        | ok u =>
          simp only at e
          injection e with e; injection e with e1 e2; injection e1 with e1
          subst e1 e2
          obtain ⟨h1, h2, h3⟩ := local_skip hc hl hx hp
          rw [h3]
          exact ⟨l, _, h1, h2, rfl, rfl, hh, hst⟩
        | err x => exact (nomatch e)
        | panic => exact (nomatch e)

/-- one round of the main loop -/
def ordStep {σ : Type} (ic : Bool) (slots : List (Slot σ)) (o : Ord σ) (r : BR) : PR (Ord σ) :=
  match BR.readTL r with
  | (.panic, r1) => some (.panic, r1)
  | (.err e, r1) => some (.err (.failToParse 0 e), r1)
  | (.ok typ, r1) =>
    match BR.readTL r1 with
    | (.panic, r2) => some (.panic, r2)
    | (.err e, r2) => some (.err (.failToParse 0 e), r2)
    | (.ok l, r2) => ordInner ic slots r.pos typ l o.left o.handled o.st r2

theorem ordLoop_step {σ : Type} {ic : Bool} {slots : List (Slot σ)} {fuel : Nat} {o : Ord σ} {r : BR} (h : ¬r.pos ≥ r.buf.length) :
    ordLoop ic slots (fuel + 1) o r = match ordStep ic slots o r with
      | none => none
      | some (.ok o', r3) => ordLoop ic slots fuel o' r3
      | some (.err e, r3) => some (.err e, r3)
      | some (.panic, r3) => some (.panic, r3) := by
  rw [ordLoop, if_neg h]
  unfold ordStep
  rcases BR.readTL r with ⟨x, q⟩
  cases x with
  | ok t =>
    simp only
    rcases BR.readTL q with ⟨x, q⟩
    cases x <;> rfl
  | err e => rfl
  | panic => rfl

/-- the parts of a round that went well -/
theorem ordStep_ok {σ : Type} {ic : Bool} {slots : List (Slot σ)} {o o1 : Ord σ} {r r3 : BR} (h : ordStep ic slots o r = some (.ok o1, r3)) :
    ∃ typ l n1 n2, TLSplit r.rest typ n1 ∧ TLSplit (r.adv n1).rest l n2 ∧ BR.readTL r = (.ok typ, r.adv n1) ∧
      BR.readTL (r.adv n1) = (.ok l, r.adv (n1 + n2)) ∧
      ordInner ic slots r.pos typ l o.left o.handled o.st (r.adv (n1 + n2)) = some (.ok o1, r3) := by
  unfold ordStep at h
  rcases readTL_cases r with ⟨_, e⟩ | ⟨_, e, _, _⟩ | ⟨typ, n1, hs, e, _⟩
  · rw [e] at h; exact (nomatch h)
  · rw [e] at h; exact (nomatch h)
  · rw [e] at h
    simp only at h
    rcases readTL_cases (r.adv n1) with ⟨_, e2⟩ | ⟨_, e2, _, _⟩ | ⟨l, n2, hs2, e2, _⟩
    · rw [e2] at h; exact (nomatch h)
    · rw [e2] at h; exact (nomatch h)
    · rw [e2] at h
      rw [BR.adv_adv] at e2 h
      exact ⟨typ, l, n1, n2, hs, hs2, e, e2, h⟩

theorem ordStep_of {σ : Type} {ic : Bool} {slots : List (Slot σ)} {o : Ord σ} {r r1 r2 : BR} {typ l : Nat} (h1 : BR.readTL r = (.ok typ, r1))
    (h2 : BR.readTL r1 = (.ok l, r2)) : ordStep ic slots o r = ordInner ic slots r.pos typ l o.left o.handled o.st r2 := by
  unfold ordStep
  rw [h1]
  simp only
  rw [h2]

theorem calm_len {r : BR} (hc : Calm r.buf) {l n2 : Nat} (n1 : Nat) (h : TLSplit (r.adv n1).rest l n2) : l < 2 ^ 43 := by
  unfold BR.rest at h
  exact hc.split h

/-- the state after a round, and the position -/
theorem ordStep_good {F : Nat} {o o1 : Ord DSt} {r r3 : BR} (h : ordStep false (dataSlots false F) o r = some (.ok o1, r3)) (hg : r.Good)
    (hB : Calm r.buf) (hF : r.buf.length < F) : r3.Good ∧ r3.buf = r.buf ∧ r.pos < r3.pos := by
  obtain ⟨typ, l, n1, n2, s1, s2, e1, e2, hin⟩ := ordStep_ok h
  have hle1 := s1.le_length
  have hle2 := s2.le_length
  rw [BR.rest_adv, List.length_drop] at hle2
  have w1 : 1 ≤ n1 := by rcases s1.width with h | h | h | h <;> omega
  obtain ⟨y, r', hx, _, hk⟩ := ordInner_tot (ic := false) (dataSlots_tot hB hF) r.pos typ l (calm_len hB n1 s2) o.left o.handled o.st
    (r.adv (n1 + n2)) (hg.adv (by omega)) rfl (by simp; omega)
  rw [hin] at hx
  injection hx with hx; injection hx with h1 h2
  subst h1 h2
  obtain ⟨a, b, c⟩ := hk o1 rfl
  exact ⟨a, b, by simp at c; omega⟩

theorem step_local (F : Nat) {o o' o1 : Ord DSt} {r r' r3 : BR} (hF : r.buf.length < F) (hc : Cut r r') (hs : Sim o o')
    (h : ordStep false (dataSlots false F) o r = some (.ok o1, r3)) (hn : o1.st.1.sigValue = none) (hp : r3.pos ≤ r.pos + r'.rest.length) :
    ∃ n o1', 1 ≤ n ∧ n ≤ r'.rest.length ∧ r3 = r.adv n ∧ ordStep false (dataSlots false F) o' r' = some (.ok o1', r'.adv n) ∧ Sim o1 o1' := by
  obtain ⟨typ, l, n1, n2, s1, s2, e1, e2, hin⟩ := ordStep_ok h
  have hle1 := s1.le_length
  have hle2 := s2.le_length
  rw [BR.rest_adv, List.length_drop] at hle2
  have w1 : 1 ≤ n1 := by rcases s1.width with h | h | h | h <;> omega
  have hpos : r.pos + (n1 + n2) ≤ r3.pos := by
    obtain ⟨y, r', hx, _, hk⟩ := ordInner_tot (ic := false) (dataSlots_tot hc.calm hF) r.pos typ l (calm_len hc.calm n1 s2) o.left o.handled o.st
      (r.adv (n1 + n2)) (hc.good.adv (by omega)) rfl (by simp; omega)
    rw [hin] at hx
    injection hx with hx; injection hx with h1 h2
    subst h1 h2
    exact (hk o1 rfl).2.2
  obtain ⟨m1, _, a1, a2, a3⟩ := local_readTL hc e1 (by simp only [BR.adv_pos]; omega)
  have hm1 : m1 = n1 := by
    have := congrArg BR.pos a2
    simp only [BR.adv_pos] at this; omega
  subst hm1
  have hc1 := hc.adv a1
  obtain ⟨m2, _, b1, b2, b3⟩ := local_readTL hc1 e2 (by rw [BR.rest_adv, List.length_drop]; simp only [BR.adv_pos]; omega)
  have hm2 : m2 = n2 := by
    have := congrArg BR.pos b2
    simp only [BR.adv_pos] at this; omega
  subst hm2
  rw [BR.adv_adv] at b3
  rw [BR.rest_adv, List.length_drop] at b1
  have hc2 := hc.adv (n := m1 + m2) (by omega)
  obtain ⟨n, o1', c1, c2, c3, c4⟩ := inner_local F (start' := r'.pos) (calm_len hc.calm m1 s2) o.left o.handled o'.handled o.st o'.st _ _ hs.handled hs.val hc2 o1 r3 hin hn
    (by rw [BR.rest_adv, List.length_drop]; simp only [BR.adv_pos]; omega)
  rw [BR.rest_adv, List.length_drop] at c1
  refine ⟨m1 + m2 + n, o1', by omega, by omega, by rw [c2, BR.adv_adv], ?_, c4⟩
  rw [ordStep_of a3 b3, ← hs.left, c3, BR.adv_adv]

/-- the fields other than the signature value, as they are when the parser is done -/
def vals (h : List Nat) (v : DataV) : DataV :=
  { name := if 2 ∈ h then v.name else none, metaInfo := if 3 ∈ h then v.metaInfo else none, content := if 4 ∈ h then v.content else none,
    sigInfo := if 5 ∈ h then v.sigInfo else none, sigValue := none }

theorem Sim.vals {o o' : Ord DSt} (h : Sim o o') : vals o.handled o.st.1 = Packet.vals o'.handled o'.st.1 := by
  unfold Packet.vals
  rw [h.val]
  simp only [h.handled 2 (by omega), h.handled 3 (by omega), h.handled 4 (by omega), h.handled 5 (by omega)]

/-- the slots by index -/
theorem dataSlots_get (F k : Nat) (hk : k ≤ 7) {s : Slot DSt} (h : (dataSlots false F)[(dataSlots false F).length - k]? = some s) :
    (k = 7 ∧ s = argSlot) ∨ (k = 6 ∧ s = markSlot fun s p => (s.1, { s.2 with sigCoverStart := p })) ∨
    (k = 5 ∧ s = elemSlot false F 0x07 .name fun s v => ({ s.1 with name := v }, s.2)) ∨
    (k = 4 ∧ s = elemSlot false F 0x14 (.struct Schema.metaInfo) fun s v => ({ s.1 with metaInfo := v }, s.2)) ∨
    (k = 3 ∧ s = elemSlot false F 0x15 .wire fun s v => ({ s.1 with content := v }, s.2)) ∨
    (k = 2 ∧ s = elemSlot false F 0x16 (.struct signatureInfo) fun s v => ({ s.1 with sigInfo := v }, s.2)) ∨
    (k = 1 ∧ s = sigSlot 0x17 (fun s v => ({ s.1 with sigValue := v }, s.2)) (·.2.sigCoverStart)
      fun s w => (s.1, { s.2 with sigCovered := s.2.sigCovered ++ w })) := by
  have hl : (dataSlots false F).length = 7 := rfl
  rw [hl] at h
  rcases (by omega : k = 0 ∨ k = 1 ∨ k = 2 ∨ k = 3 ∨ k = 4 ∨ k = 5 ∨ k = 6 ∨ k = 7) with rfl | rfl | rfl | rfl | rfl | rfl | rfl | rfl
  · exact (nomatch h)
  all_goals (injection h with h; subst h; simp)

theorem elemSlot_read {F typ : Nat} {e : Elem} {set : DSt → Option e.V → DSt} {start l : Nat} {st a : DSt} {r r1 : BR}
    (h : (elemSlot false F typ e set).read start l st r = some (.ok a, r1)) : ∃ v, a = set st (some v) := by
  have h : PR.map (fun v => set st (some v)) (e.read false F l r) = some (.ok a, r1) := h
  rcases hx : e.read false F l r with _ | ⟨x, q⟩
  · rw [hx] at h; exact (nomatch h)
  · cases x with
    | ok v =>
      rw [hx] at h
      have h : some (Res.ok (set st (some v)), q) = some (.ok a, r1) := h
      injection h with h; injection h with h1 h2; injection h1 with h1
      exact ⟨v, h1.symm⟩
    | err x => rw [hx] at h; exact (nomatch h)
    | panic => rw [hx] at h; exact (nomatch h)

/-- one round over `progress`: either the element is read by the slot, or the slot is skipped, or the element is unrecognised -/
theorem inner_cases {F start typ l k : Nat} {h : List Nat} {st : DSt} {r : BR} {o1 : Ord DSt} {r1 : BR}
    (e : ordInner false (dataSlots false F) start typ l (k + 1) h st r = some (.ok o1, r1)) :
    (knows (dataSlots false F) typ = false ∧ o1 = ⟨k, h, st⟩) ∨
    (knows (dataSlots false F) typ = true ∧
      (((dataSlots false F)[(dataSlots false F).length - k]? = none ∧ ordInner false (dataSlots false F) start typ l k h st r = some (.ok o1, r1)) ∨
      ∃ s, (dataSlots false F)[(dataSlots false F).length - k]? = some s ∧
        ((s.typ = typ ∧ ∃ a, s.read start l st r = some (.ok a, r1) ∧ o1 = ⟨k, ((dataSlots false F).length - k) :: h, a⟩) ∨
        (s.typ ≠ typ ∧ ∃ a, s.skip start st r = .ok a ∧
          ordInner false (dataSlots false F) start typ l k (((dataSlots false F).length - k) :: h) a r = some (.ok o1, r1))))) := by
  rw [ordInner] at e
  by_cases hk : knows (dataSlots false F) typ = true
  · right
    refine ⟨hk, ?_⟩
    rw [if_pos hk] at e
    cases hsl : (dataSlots false F)[(dataSlots false F).length - k]? with
    | none => rw [hsl] at e; exact .inl ⟨rfl, e⟩
    | some s =>
      right
      rw [hsl] at e
      simp only at e
      refine ⟨s, rfl, ?_⟩
      by_cases ht : s.typ = typ
      · left
        rw [if_pos ht] at e
        refine ⟨ht, ?_⟩
        rcases hx : s.read start l st r with _ | ⟨x, q⟩
        · rw [hx] at e; exact (nomatch e)
        · cases x with
          | ok a =>
            rw [hx] at e
            simp only at e
            injection e with e; injection e with e1 e2; injection e1 with e1
            subst e2
            exact ⟨a, rfl, e1.symm⟩
          | err x => rw [hx] at e; exact (nomatch e)
          | panic => rw [hx] at e; exact (nomatch e)
      · right
        rw [if_neg ht] at e
        refine ⟨ht, ?_⟩
        cases hx : s.skip start st r with
        | ok a => rw [hx] at e; exact ⟨a, rfl, e⟩
        | err x => rw [hx] at e; exact (nomatch e)
        | panic => rw [hx] at e; exact (nomatch e)
  · left
    refine ⟨by simpa using hk, ?_⟩
    rw [if_neg hk] at e
    by_cases hcr : (!false && isCritical typ) = true
    · rw [if_pos hcr] at e; exact (nomatch e)
    · rw [if_neg hcr] at e
      rcases hx : BR.skip (toInt l) r with ⟨x, q⟩
      rw [hx] at e
      cases x with
      | ok u =>
        simp only at e
        injection e with e; injection e with e1 e2; injection e1 with e1
        exact e1.symm
      | err x => exact (nomatch e)
      | panic => exact (nomatch e)

/-- what skipping the slot of a round does -/
theorem skip_of {F k : Nat} (hk : k ≤ 7) {s : Slot DSt} (hs : (dataSlots false F)[(dataSlots false F).length - k]? = some s) {start : Nat}
    {st a : DSt} {r : BR} (e : s.skip start st r = .ok a) :
    (k ≠ 6 → a.2 = st.2) ∧ a.2.sigCovered = st.2.sigCovered ∧ (st.1.sigValue = none → a.1.sigValue = none) ∧ (k ≠ 5 → a.1.name = st.1.name) ∧
    (k = 5 → a.1.name = none) ∧ (k = 6 → a.2.sigCoverStart = start) ∧ (6 ≤ k → a.1 = st.1) ∧
    ∀ h : List Nat, 7 - k ∉ h → vals ((7 - k) :: h) a.1 = vals h st.1 := by
  rcases dataSlots_get F k hk hs with ⟨rfl, rfl⟩ | ⟨rfl, rfl⟩ | ⟨rfl, rfl⟩ | ⟨rfl, rfl⟩ | ⟨rfl, rfl⟩ | ⟨rfl, rfl⟩ | ⟨rfl, rfl⟩ <;>
    (injection e with e; subst e; refine ⟨?_, rfl, ?_, ?_, ?_, ?_, ?_, ?_⟩ <;>
      first
      | (intro h; exact absurd rfl h)
      | (intro h; exact absurd h (by decide))
      | (intro _; rfl)
      | (intro h; exact h)
      | (intro h hh; simp only [vals, DataV.mk.injEq]; simp at hh; simp [hh] <;> rfl))

/-- what reading an element other than the signature value does -/
theorem read_of {F k : Nat} (hk : k ≤ 7) {s : Slot DSt} (hs : (dataSlots false F)[(dataSlots false F).length - k]? = some s) {start l typ : Nat}
    (ht : s.typ = typ) (h0 : knows (dataSlots false F) typ = true) {st a : DSt} {r r1 : BR} (e : s.read start l st r = some (.ok a, r1)) :
    (k = 1 ∧ ∃ w, a = ({ st.1 with sigValue := some w }, { st.2 with sigCovered := st.2.sigCovered ++ rangeOf r1 st.2.sigCoverStart start })) ∨
    (2 ≤ k ∧ k ≤ 5 ∧ a.2 = st.2 ∧ a.1.sigValue = st.1.sigValue ∧ (k ≤ 4 → a.1.name = st.1.name) ∧ (k = 5 → typ = 7) ∧ (typ = 7 → k = 5)) := by
  rcases dataSlots_get F k hk hs with ⟨rfl, rfl⟩ | ⟨rfl, rfl⟩ | ⟨rfl, rfl⟩ | ⟨rfl, rfl⟩ | ⟨rfl, rfl⟩ | ⟨rfl, rfl⟩ | ⟨rfl, rfl⟩
  · have : typ = 0 := ht.symm
    subst this; exact absurd h0 (by simp [knows])
  · have : typ = 0 := ht.symm
    subst this; exact absurd h0 (by simp [knows])
  · obtain ⟨v, rfl⟩ := elemSlot_read e
    exact .inr ⟨by omega, by omega, rfl, rfl, fun h => absurd h (by decide), fun _ => ht.symm, fun _ => rfl⟩
  · obtain ⟨v, rfl⟩ := elemSlot_read e
    exact .inr ⟨by omega, by omega, rfl, rfl, fun _ => rfl, fun h => absurd h (by decide), fun h => absurd (ht.trans h) (by simp [elemSlot])⟩
  · obtain ⟨v, rfl⟩ := elemSlot_read e
    exact .inr ⟨by omega, by omega, rfl, rfl, fun _ => rfl, fun h => absurd h (by decide), fun h => absurd (ht.trans h) (by simp [elemSlot])⟩
  · obtain ⟨v, rfl⟩ := elemSlot_read e
    exact .inr ⟨by omega, by omega, rfl, rfl, fun _ => rfl, fun h => absurd h (by decide), fun h => absurd (ht.trans h) (by simp [elemSlot])⟩
  · exact .inl ⟨rfl, sigSlot_read e⟩

/-- a round in which the signature value is read -/
theorem inner_sig {F start typ l : Nat} (k : Nat) : ∀ (h : List Nat) (st : DSt) (r : BR) (o1 : Ord DSt) (r1 : BR), k ≤ 8 → (∀ i ∈ h, i < 8 - k) →
    ordInner false (dataSlots false F) start typ l k h st r = some (.ok o1, r1) → st.1.sigValue = none → o1.st.1.sigValue ≠ none →
    vals o1.handled o1.st.1 = vals h st.1 ∧ o1.left ≤ 1 ∧
      (k ≤ 6 → o1.st.2.sigCovered = st.2.sigCovered ++ rangeOf r1 st.2.sigCoverStart start) := by
  induction k with
  | zero =>
    intro h st r o1 r1 _ _ e hn hn1
    rw [ordInner] at e
    injection e with e; injection e with e1 e2; injection e1 with e1
    subst e1
    exact absurd hn hn1
  | succ k ih =>
    intro h st r o1 r1 hk hb e hn hn1
    rcases inner_cases e with ⟨_, rfl⟩ | ⟨hkn, ⟨hnone, e⟩ | ⟨s, hs, ⟨ht, a, hr, rfl⟩ | ⟨ht, a, hsk, e⟩⟩⟩
    · exact absurd hn hn1
    · have hk0 : k = 0 := by
        have : (dataSlots false F).length = 7 := rfl
        rw [this, List.getElem?_eq_none_iff, this] at hnone
        omega
      subst hk0
      rw [ordInner] at e
      injection e with e; injection e with e1 e2; injection e1 with e1
      subst e1
      exact absurd hn hn1
    · rcases read_of (by omega) hs ht hkn hr with ⟨rfl, w, rfl⟩ | ⟨_, _, _, h1, _⟩
      · refine ⟨?_, by simp, fun _ => rfl⟩
        have : (dataSlots false F).length - 1 = 6 := rfl
        simp only [this, vals]
        simp
      · exact absurd (h1.trans hn) hn1
    · obtain ⟨h1, h2, h3, _, _, _, _, h4⟩ := skip_of (by omega) hs hsk
      have hl7 : (dataSlots false F).length - k = 7 - k := rfl
      rw [hl7] at e
      have hnot : 7 - k ∉ h := fun hm => by have := hb _ hm; omega
      obtain ⟨g1, g2, g3⟩ := ih _ a r o1 r1 (by omega) (by
        intro i hi
        rcases List.mem_cons.mp hi with rfl | hi
        · omega
        · have := hb i hi; omega) e (h3 hn) hn1
      refine ⟨g1.trans (h4 h hnot), g2, fun hk6 => ?_⟩
      rw [g3 (by omega), h1 (by omega)]

/-- any other round -/
theorem inner_other {F start typ l : Nat} (k : Nat) : ∀ (h : List Nat) (st : DSt) (r : BR) (o1 : Ord DSt) (r1 : BR), k ≤ 8 → (∀ i ∈ h, i < 8 - k) →
    ordInner false (dataSlots false F) start typ l k h st r = some (.ok o1, r1) → o1.st.1.sigValue = none →
    o1.left ≤ k ∧ (∀ i ∈ o1.handled, i < 8 - o1.left) ∧ o1.st.2.sigCovered = st.2.sigCovered ∧ (k ≤ 6 → o1.st.2.sigCoverStart = st.2.sigCoverStart) := by
  induction k with
  | zero =>
    intro h st r o1 r1 _ hb e hn1
    rw [ordInner] at e
    injection e with e; injection e with e1 e2; injection e1 with e1
    subst e1
    exact ⟨by simp, hb, rfl, fun _ => rfl⟩
  | succ k ih =>
    intro h st r o1 r1 hk hb e hn1
    rcases inner_cases e with ⟨_, rfl⟩ | ⟨hkn, ⟨hnone, e⟩ | ⟨s, hs, ⟨ht, a, hr, rfl⟩ | ⟨ht, a, hsk, e⟩⟩⟩
    · exact ⟨by simp, fun i hi => by have := hb i hi; simp only; omega, rfl, fun _ => rfl⟩
    · obtain ⟨g1, g2, g3, g4⟩ := ih _ st r o1 r1 (by omega) (fun i hi => by have := hb i hi; omega) e hn1
      exact ⟨by omega, g2, g3, fun hk6 => g4 (by omega)⟩
    · rcases read_of (by omega) hs ht hkn hr with ⟨rfl, w, rfl⟩ | ⟨_, _, h1, _⟩
      · exact (nomatch hn1)
      · refine ⟨by simp, ?_, by simp only [h1], fun _ => by simp only [h1]⟩
        have hl7 : (dataSlots false F).length - k = 7 - k := rfl
        simp only [hl7]
        intro i hi
        rcases List.mem_cons.mp hi with rfl | hi
        · omega
        · have := hb i hi; omega
    · obtain ⟨h1, h2, _⟩ := skip_of (by omega) hs hsk
      have hl7 : (dataSlots false F).length - k = 7 - k := rfl
      rw [hl7] at e
      obtain ⟨g1, g2, g3, g4⟩ := ih _ a r o1 r1 (by omega) (by
        intro i hi
        rcases List.mem_cons.mp hi with rfl | hi
        · omega
        · have := hb i hi; omega) e hn1
      exact ⟨by omega, g2, g3.trans h2, fun hk6 => by rw [g4 (by omega), h1 (by omega)]⟩

/-- behind the signature value nothing more is taken in -/
theorem inner_late {F start typ l k : Nat} {h : List Nat} {st : DSt} {r r1 : BR} {o1 : Ord DSt} (hk : k ≤ 1)
    (e : ordInner false (dataSlots false F) start typ l k h st r = some (.ok o1, r1)) : o1.left ≤ 1 ∧ o1.handled = h ∧ o1.st = st := by
  have zero : ∀ {o1 : Ord DSt}, ordInner false (dataSlots false F) start typ l 0 h st r = some (.ok o1, r1) → o1.left ≤ 1 ∧ o1.handled = h ∧ o1.st = st := by
    intro o1 e
    rw [ordInner] at e
    injection e with e; injection e with e1 e2; injection e1 with e1
    subst e1
    exact ⟨by simp, rfl, rfl⟩
  rcases (by omega : k = 0 ∨ k = 1) with rfl | rfl
  · exact zero e
  · rcases inner_cases e with ⟨_, rfl⟩ | ⟨hkn, ⟨hnone, e⟩ | ⟨s, hs, _⟩⟩
    · exact ⟨by simp, rfl, rfl⟩
    · exact zero e
    · exact (nomatch hs)

/-- the main loop, one round at a time -/
theorem loop_cases {F fuel : Nat} {o of : Ord DSt} {r rf : BR} (h : ordLoop false (dataSlots false F) fuel o r = some (.ok of, rf)) :
    ∃ f, fuel = f + 1 ∧ ((r.pos ≥ r.buf.length ∧ of = o) ∨
      (¬r.pos ≥ r.buf.length ∧ ∃ o1 r1, ordStep false (dataSlots false F) o r = some (.ok o1, r1) ∧
        ordLoop false (dataSlots false F) f o1 r1 = some (.ok of, rf))) := by
  cases fuel with
  | zero => exact (nomatch h)
  | succ f =>
    refine ⟨f, rfl, ?_⟩
    by_cases hp : r.pos ≥ r.buf.length
    · left
      rw [ordLoop, if_pos hp] at h
      injection h with h; injection h with h1 _; injection h1 with h1
      exact ⟨hp, h1.symm⟩
    · right
      rw [ordLoop_step hp] at h
      refine ⟨hp, ?_⟩
      rcases hx : ordStep false (dataSlots false F) o r with _ | ⟨x, q⟩
      · rw [hx] at h; exact (nomatch h)
      · cases x with
        | ok o1 => rw [hx] at h; exact ⟨o1, q, rfl, h⟩
        | err x => rw [hx] at h; exact (nomatch h)
        | panic => rw [hx] at h; exact (nomatch h)

theorem loop_late {F : Nat} (fuel : Nat) : ∀ {o of : Ord DSt} {r rf : BR}, o.left ≤ 1 →
    ordLoop false (dataSlots false F) fuel o r = some (.ok of, rf) → of.handled = o.handled ∧ of.st = o.st := by
  induction fuel with
  | zero => intro o of r rf _ h; exact (nomatch h)
  | succ f ih =>
    intro o of r rf hl h
    obtain ⟨f', hf, ⟨_, rfl⟩ | ⟨_, o1, r1, h1, h2⟩⟩ := loop_cases h
    · exact ⟨rfl, rfl⟩
    · obtain rfl : f = f' := by omega
      obtain ⟨_, _, _, _, _, _, _, _, hin⟩ := ordStep_ok h1
      obtain ⟨g1, g2, g3⟩ := inner_late hl hin
      obtain ⟨a, b⟩ := ih g1 h2
      exact ⟨a.trans g2, b.trans g3⟩

/-- more fuel does not hurt -/
theorem loop_mono {F : Nat} (fuel : Nat) : ∀ {o of : Ord DSt} {r rf : BR} (n : Nat),
    ordLoop false (dataSlots false F) fuel o r = some (.ok of, rf) → ordLoop false (dataSlots false F) (fuel + n) o r = some (.ok of, rf) := by
  induction fuel with
  | zero => intro o of r rf n h; exact (nomatch h)
  | succ f ih =>
    intro o of r rf n h
    rw [show f + 1 + n = (f + n) + 1 by omega]
    obtain ⟨f', hf, ⟨hp, rfl⟩ | ⟨hp, o1, r1, h1, h2⟩⟩ := loop_cases h
    · rw [ordLoop, if_pos hp] at h ⊢; exact h
    · obtain rfl : f = f' := by omega
      rw [ordLoop_step hp, h1]
      exact ih n h2

theorem cut_take {B : Bytes} {r r' : BR} {e : Nat} (hg : r.Good) (hb : r.buf = B) (hc : Calm B) (hg' : r'.Good) (he : e ≤ B.length)
    (hr : r'.rest = (B.take e).drop r.pos) : Cut r r' ∧ r'.rest.length = e - r.pos := by
  refine ⟨⟨hg, hg', hb ▸ hc, ?_⟩, by rw [hr, List.length_drop, List.length_take]; omega⟩
  have hle := hg.1
  by_cases h : r.pos ≤ e
  · refine ⟨B.drop e, ?_⟩
    rw [hr]
    show r.buf.drop r.pos = _
    rw [hb]
    have := List.take_append_drop e B
    conv => lhs; rw [← this]
    rw [List.drop_append_of_le_length (by rw [List.length_take]; omega)]
  · refine ⟨r.rest, ?_⟩
    rw [hr, List.drop_eq_nil_of_le (by rw [List.length_take]; omega), List.nil_append]

/-- a run that reads a signature value: it is read at some position `e`, the covered bytes end there, and the same run over the bytes
up to `e` only ends with the same values -/
theorem data_cut {F : Nat} {B : Bytes} (hB : Calm B) (hF : B.length < F) (fuel : Nat) : ∀ (o of : Ord DSt) (r rf : BR), r.Good → r.buf = B →
    o.left ≤ 6 → (∀ i ∈ o.handled, i < 8 - o.left) → o.st.1.sigValue = none →
    ordLoop false (dataSlots false F) fuel o r = some (.ok of, rf) → of.st.1.sigValue ≠ none →
    ∃ e, r.pos ≤ e ∧ e ≤ B.length ∧ of.st.2.sigCovered = o.st.2.sigCovered ++ rangeOf (BR.new B) o.st.2.sigCoverStart e ∧
      ∀ (o' : Ord DSt) (r' : BR), Sim o o' → r'.Good → r'.rest = (B.take e).drop r.pos →
        ∃ of' rf', ordLoop false (dataSlots false F) fuel o' r' = some (.ok of', rf') ∧ vals of.handled of.st.1 = vals of'.handled of'.st.1 := by
  induction fuel with
  | zero => intro o of r rf _ _ _ _ _ h; exact (nomatch h)
  | succ f ih =>
    intro o of r rf hg hb hl hh hn h hs
    obtain ⟨f', hf, ⟨_, rfl⟩ | ⟨hp, o1, r1, h1, h2⟩⟩ := loop_cases h
    · exact absurd hn hs
    · obtain rfl : f = f' := by omega
      obtain ⟨hg1, hb1, hp1⟩ := ordStep_good h1 hg (hb ▸ hB) (hb ▸ hF)
      obtain ⟨typ, l, n1, n2, s1, s2, e1, e2, hin⟩ := ordStep_ok h1
      by_cases hn1 : o1.st.1.sigValue = none
      · obtain ⟨g1, g2, g3, g4⟩ := inner_other o.left o.handled o.st _ o1 r1 (by omega) hh hin hn1
        obtain ⟨e, a1, a2, a3, a4⟩ := ih o1 of r1 rf hg1 (hb1.trans hb) (by omega) g2 hn1 h2 hs
        refine ⟨e, by omega, a2, by rw [a3, g3, g4 hl], ?_⟩
        intro o' r' hsim hg' hr'
        obtain ⟨hcut, hlen⟩ := cut_take hg hb hB hg' a2 hr'
        obtain ⟨n, o1', b1, b2, b3, b4, b5⟩ := step_local F (hb ▸ hF) hcut hsim h1 hn1 (by omega)
        obtain ⟨of', rf', c1, c2⟩ := a4 o1' (r'.adv n) b5 (hg'.adv b2) (by
          rw [BR.rest_adv, hr', List.drop_drop, b3, BR.adv_pos])
        refine ⟨of', rf', ?_, c2⟩
        have hp' : ¬r'.pos ≥ r'.buf.length := by
          have := BR.rest_length r'
          omega
        rw [ordLoop_step hp', b4]
        exact c1
      · obtain ⟨g1, g2, g3⟩ := inner_sig o.left o.handled o.st _ o1 r1 (by omega) hh hin hn hn1
        obtain ⟨k1, k2⟩ := loop_late f g2 h2
        refine ⟨r.pos, by omega, by have := hg.1; rw [hb] at this; exact this, ?_, ?_⟩
        · rw [k2, g3 hl]
          show _ ++ rangeOf r1 _ _ = _ ++ rangeOf (BR.new B) _ _
          unfold rangeOf BR.range
          rw [hb1.trans hb]
          rfl
        · intro o' r' hsim hg' hr'
          have hnil : r'.rest = [] := by rw [hr', List.drop_eq_nil_of_le (by rw [List.length_take]; omega)]
          refine ⟨o', r', ordLoop_end f hnil, ?_⟩
          rw [k1, k2, g1]
          exact hsim.vals

theorem finish_step {h : List Nat} {r : BR} {i : Nat} {s : Slot DSt} {slots : List (Slot DSt)} {st : DSt} (f : DSt → DSt)
    (hf : s.skip r.pos st r = .ok (f st)) :
    ordFinish h r i (s :: slots) st = ordFinish h r (i + 1) slots (if i ∈ h then st else f st) := by
  rw [ordFinish]
  by_cases hc : i ∈ h
  · rw [if_pos (by simpa using hc), if_pos hc]
  · rw [if_neg (by simpa using hc), if_neg hc, hf]; rfl

/-- the end of the parse -/
theorem data_finish (F : Nat) (h : List Nat) (r : BR) (s : DSt) : ∃ st, ordFinish h r 0 (dataSlots false F) s = .ok st ∧
    ({ st.1 with sigValue := none } : DataV) = vals h s.1 ∧ st.2.sigCovered = s.2.sigCovered ∧ (s.1.sigValue = none → st.1.sigValue = none) ∧
    (s.1.name = none → st.1.name = none) := by
  unfold dataSlots
  rw [finish_step id rfl, finish_step (fun s => (s.1, { s.2 with sigCoverStart := r.pos })) rfl, finish_step (fun s => ({ s.1 with name := none }, s.2)) rfl,
    finish_step (fun s => ({ s.1 with metaInfo := none }, s.2)) rfl, finish_step (fun s => ({ s.1 with content := none }, s.2)) rfl,
    finish_step (fun s => ({ s.1 with sigInfo := none }, s.2)) rfl, finish_step (fun s => ({ s.1 with sigValue := none }, s.2)) rfl]
  refine ⟨_, rfl, ?_⟩
  unfold vals
  simp only [id, ite_self, Nat.zero_add, Nat.reduceAdd]
  by_cases h1 : 1 ∈ h <;> by_cases h2 : 2 ∈ h <;> by_cases h3 : 3 ∈ h <;> by_cases h4 : 4 ∈ h <;> by_cases h5 : 5 ∈ h <;> by_cases h6 : 6 ∈ h <;>
    simp [h1, h2, h3, h4, h5, h6] <;> (intro hh; exact hh)

/-- a round that sets the name -/
theorem inner_name {F start typ l : Nat} (k : Nat) : ∀ (h : List Nat) (st : DSt) (r : BR) (o1 : Ord DSt) (r1 : BR), k ≤ 8 →
    ordInner false (dataSlots false F) start typ l k h st r = some (.ok o1, r1) → st.1.name = none →
    o1.left ≤ k ∧ (o1.st.1.name = none → o1.left ≤ 5 ∨ (knows (dataSlots false F) typ = false ∧ o1 = ⟨k - 1, h, st⟩)) ∧
    (o1.st.1.name ≠ none → typ = 7 ∧ 6 ≤ k ∧ o1.left = 5) := by
  induction k with
  | zero =>
    intro h st r o1 r1 _ e hn
    rw [ordInner] at e
    injection e with e; injection e with e1 e2; injection e1 with e1
    subst e1
    exact ⟨by simp, fun _ => .inl (by simp), fun h => absurd hn h⟩
  | succ k ih =>
    intro h st r o1 r1 hk e hn
    rcases inner_cases e with ⟨hkn, rfl⟩ | ⟨hkn, ⟨hnone, e⟩ | ⟨s, hs, ⟨ht, a, hr, rfl⟩ | ⟨ht, a, hsk, e⟩⟩⟩
    · exact ⟨by simp, fun _ => .inr ⟨hkn, by simp⟩, fun h => absurd hn h⟩
    · obtain ⟨g1, g2, g3⟩ := ih _ st r o1 r1 (by omega) e hn
      refine ⟨by omega, fun h => ?_, fun h => ?_⟩
      · rcases g2 h with g | ⟨g, _⟩
        · exact .inl g
        · rw [hkn] at g; exact (nomatch g)
      · obtain ⟨a, b, c⟩ := g3 h; exact ⟨a, by omega, c⟩
    · rcases read_of (by omega) hs ht hkn hr with ⟨rfl, w, rfl⟩ | ⟨_, h5, _, _, h1, h2, _⟩
      · exact ⟨by simp, fun _ => .inl (by simp), fun h => absurd hn h⟩
      · refine ⟨by simp, fun _ => .inl h5, fun h => ?_⟩
        by_cases h4 : k ≤ 4
        · exact absurd ((h1 h4).trans hn) h
        · have : k = 5 := by omega
          exact ⟨h2 this, by omega, this⟩
    · obtain ⟨_, _, _, h1, h2, _⟩ := skip_of (by omega) hs hsk
      have hna : a.1.name = none := by
        by_cases h5 : k = 5
        · exact h2 h5
        · exact (h1 h5).trans hn
      obtain ⟨g1, g2, g3⟩ := ih _ a r o1 r1 (by omega) e hna
      refine ⟨by omega, fun h => ?_, fun h => ?_⟩
      · rcases g2 h with g | ⟨g, _⟩
        · exact .inl g
        · rw [hkn] at g; exact (nomatch g)
      · obtain ⟨a, b, c⟩ := g3 h; exact ⟨a, by omega, c⟩

/-- once the turn of the name has passed, it stays missing -/
theorem loop_noname {F : Nat} (fuel : Nat) : ∀ {o of : Ord DSt} {r rf : BR}, o.left ≤ 5 → o.st.1.name = none →
    ordLoop false (dataSlots false F) fuel o r = some (.ok of, rf) → of.st.1.name = none := by
  induction fuel with
  | zero => intro o of r rf _ _ h; exact (nomatch h)
  | succ f ih =>
    intro o of r rf hl hn h
    obtain ⟨f', hf, ⟨_, rfl⟩ | ⟨_, o1, r1, h1, h2⟩⟩ := loop_cases h
    · exact hn
    · obtain rfl : f = f' := by omega
      obtain ⟨_, _, _, _, _, _, _, _, hin⟩ := ordStep_ok h1
      obtain ⟨g1, g2, g3⟩ := inner_name _ _ _ _ _ _ (by omega) hin hn
      by_cases hn1 : o1.st.1.name = none
      · exact ih (by omega) hn1 h2
      · exact absurd (g3 hn1).2.1 (by omega)

/-- the round that reads the name, and where the covered bytes start then -/
theorem inner_start {F start l k : Nat} {r r1 : BR} {o1 : Ord DSt} (hk : k = 8 ∨ k = 7)
    (e : ordInner false (dataSlots false F) start 7 l k [] ({}, {}) r = some (.ok o1, r1)) :
    o1.left = 5 ∧ (∀ i ∈ o1.handled, i < 3) ∧ o1.st.1.sigValue = none ∧ o1.st.2 = { sigCoverStart := start } := by
  have main : ∀ h : List Nat, (∀ i ∈ h, i < 1) → ordInner false (dataSlots false F) start 7 l 7 h ({}, {}) r = some (.ok o1, r1) →
      o1.left = 5 ∧ (∀ i ∈ o1.handled, i < 3) ∧ o1.st.1.sigValue = none ∧ o1.st.2 = { sigCoverStart := start } := by
    intro h hh e
    rcases inner_cases e with ⟨hkn, _⟩ | ⟨hkn, ⟨hnone, _⟩ | ⟨s, hs, ⟨ht, _⟩ | ⟨ht, a, hsk, e⟩⟩⟩
    · exact (nomatch hkn)
    · exact (nomatch hnone)
    · injection hs with hs; subst hs; exact (nomatch ht)
    · injection hs with hs; subst hs
      injection hsk with hsk; subst hsk
      rcases inner_cases e with ⟨hkn, _⟩ | ⟨hkn, ⟨hnone, _⟩ | ⟨s, hs, ⟨ht, a, hr, rfl⟩ | ⟨ht, a, hsk, e⟩⟩⟩
      · exact (nomatch hkn)
      · exact (nomatch hnone)
      · injection hs with hs; subst hs
        obtain ⟨v, rfl⟩ := elemSlot_read hr
        refine ⟨rfl, ?_, rfl, rfl⟩
        intro i hi
        have hi : i ∈ 2 :: 1 :: h := hi
        simp only [List.mem_cons] at hi
        rcases hi with rfl | rfl | hi
        · omega
        · omega
        · have := hh i hi; omega
      · injection hs with hs; subst hs; exact absurd rfl ht
  rcases hk with rfl | rfl
  · rcases inner_cases e with ⟨hkn, _⟩ | ⟨hkn, ⟨hnone, _⟩ | ⟨s, hs, ⟨ht, _⟩ | ⟨ht, a, hsk, e⟩⟩⟩
    · exact (nomatch hkn)
    · exact (nomatch hnone)
    · injection hs with hs; subst hs; exact (nomatch ht)
    · injection hs with hs; subst hs
      injection hsk with hsk; subst hsk
      exact main [0] (by simp) e
  · exact main [] (by simp) e

/-- the procedure argument is passed over -/
theorem inner_shift {F start l : Nat} {st : DSt} {r : BR} :
    ordInner false (dataSlots false F) start 7 l 8 [] st r = ordInner false (dataSlots false F) start 7 l 7 [0] st r := by
  rw [ordInner]
  rfl

end Ndn.Packet
