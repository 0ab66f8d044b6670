import Verif.Packet.Spec

/-! # The parser of Data (lemmas) -/

namespace Ndn.Packet
open Ndn.Codec Ndn.Codec.Schema

/-- reading the body of an optional field -/
theorem elem_opt {e : Elem} {v : Option e.V} {b : Bytes} (hw : e.WF) (hv : OptIn e v) (hb : OptBody e v (some b)) :
    ∃ x, v = some x ∧ ∀ (F : Nat) (r : BR) (t : Bytes), Tiny r → r.rest = b ++ t → b.length < F →
      e.read false F b.length r = some (.ok x, r.adv b.length) := by
  cases v with
  | none => exact hb.elim
  | some x => exact ⟨x, rfl, fun F r t h1 h2 h3 => e.read_ok false x b hw hv hb F r t h1 h2 h3⟩

theorem optBody_isSome {e : Elem} {v : Option e.V} {b : Option Bytes} (h : OptBody e v b) : v.isSome = b.isSome := by
  cases v <;> cases b <;> first | rfl | exact h.elim

/-- own elements are in strictly increasing slots -/
def Incr : Nat → List It → Prop
  | _, [] => True
  | p, x :: l => (∃ i, x.slot = some i ∧ p ≤ i ∧ Incr (i + 1) l)

theorem Incr.mono : ∀ {l : List It} {p q : Nat}, Incr p l → q ≤ p → Incr q l
  | [], _, _, _, _ => trivial
  | _ :: _, _, _, ⟨i, h1, h2, h3⟩, h => ⟨i, h1, by omega, h3⟩

theorem Incr.ge : ∀ {l : List It} {p : Nat}, Incr p l → ∀ x ∈ l, ∃ j, x.slot = some j ∧ p ≤ j
  | [], _, _, _, h => (nomatch h)
  | y :: l, p, ⟨i, h1, h2, h3⟩, x, hx => by
    rcases List.mem_cons.mp hx with rfl | hx
    · exact ⟨i, h1, h2⟩
    · obtain ⟨j, g1, g2⟩ := h3.ge x hx
      exact ⟨j, g1, by omega⟩

theorem Incr.append : ∀ {a b : List It} {p q : Nat}, Incr p a → Incr q b → p ≤ q → (∀ x ∈ a, ∀ j, x.slot = some j → j < q) → Incr p (a ++ b)
  | [], b, p, q, _, hb, h, _ => hb.mono h
  | x :: a, b, p, q, ⟨i, h1, h2, h3⟩, hb, h, hj =>
    ⟨i, h1, h2, Incr.append h3 hb (by have := hj x (by simp) i h1; omega) (fun y hy => hj y (by simp [hy]))⟩

theorem Incr.ownIt (i t : Nat) (b : Option Bytes) : Incr i (ownIt i t b) := by
  cases b with
  | none => trivial
  | some b => exact ⟨i, rfl, Nat.le_refl _, trivial⟩

theorem mem_ownIt {i t : Nat} {b : Option Bytes} {x : It} (h : x ∈ ownIt i t b) : ∃ y, b = some y ∧ x = ⟨some i, t, y⟩ := by
  cases b with
  | none => exact (nomatch h)
  | some b => simp [Packet.ownIt] at h; exact ⟨b, rfl, h⟩

/-- what is left of the own elements, from slot `p` on -/
def from_ (p : Nat) (l : List It) : List It := l.filter fun x => decide (p ≤ x.slot.getD 0)

/-- the first of the remaining own elements -/
theorem from_head : ∀ {l : List It} {q p : Nat} {x : It} {ys : List It} {i : Nat}, Incr q l → from_ p l = x :: ys → x.slot = some i →
    x ∈ l ∧ p ≤ i ∧ ys = from_ (i + 1) l ∧ ∀ y ∈ l, ∀ j, y.slot = some j → j < i → j < p
  | [], _, _, _, _, _, _, h, _ => (nomatch h)
  | z :: l, q, p, x, ys, i, ⟨k, h1, h2, h3⟩, h, hi => by
    by_cases hp : p ≤ k
    · have : from_ p (z :: l) = z :: from_ p l := by
        unfold from_; rw [List.filter_cons_of_pos (by rw [h1]; simpa using hp)]
      rw [this] at h
      injection h with e1 e2
      subst e1
      have hik : i = k := by rw [h1] at hi; injection hi with hi; exact hi.symm
      subst hik
      refine ⟨by simp, hp, ?_, ?_⟩
      · rw [← e2]
        have : from_ (i + 1) (z :: l) = from_ (i + 1) l := by
          unfold from_; rw [List.filter_cons_of_neg (by rw [h1]; simp)]
        rw [this]
        have hall := h3.ge
        unfold from_
        rw [List.filter_eq_self.mpr, List.filter_eq_self.mpr]
        · intro y hy; obtain ⟨j, g1, g2⟩ := hall y hy; rw [g1]; simpa using g2
        · intro y hy; obtain ⟨j, g1, g2⟩ := hall y hy; rw [g1]; simp; omega
      · intro y hy j hj hlt
        rcases List.mem_cons.mp hy with rfl | hy
        · rw [h1] at hj; injection hj with hj; omega
        · obtain ⟨j', g1, g2⟩ := h3.ge y hy
          rw [g1] at hj; injection hj with hj; omega
    · have : from_ p (z :: l) = from_ p l := by
        unfold from_; rw [List.filter_cons_of_neg (by rw [h1]; simpa using hp)]
      rw [this] at h
      obtain ⟨g1, g2, g3, g4⟩ := from_head h3 h hi
      refine ⟨by simp [g1], g2, ?_, ?_⟩
      · rw [g3]
        unfold from_; rw [List.filter_cons_of_neg (by rw [h1]; simp; omega)]
      · intro y hy j hj hlt
        rcases List.mem_cons.mp hy with rfl | hy
        · rw [h1] at hj; injection hj with hj; omega
        · exact g4 y hy j hj hlt

theorem from_zero (l : List It) : from_ 0 l = l := by
  unfold from_; rw [List.filter_eq_self]; intro x _; simp

theorem from_nil {l : List It} {p : Nat} (h : from_ p l = []) : ∀ y ∈ l, ∀ j, y.slot = some j → j < p := by
  intro y hy j hj
  have := List.filter_eq_nil_iff.mp h y hy
  rw [hj] at this
  simpa using this

/-! ## Data -/

/-- is the field of slot `i` set? -/
def DataV.has (v : DataV) : Nat → Bool
  | 2 => v.name.isSome
  | 3 => v.metaInfo.isSome
  | 4 => v.content.isSome
  | 5 => v.sigInfo.isSome
  | 6 => v.sigValue.isSome
  | _ => false

/-- the fields of slots below `p` -/
def DataV.upto (v : DataV) (p : Nat) : DataV :=
  ⟨if 2 < p then v.name else none, if 3 < p then v.metaInfo else none, if 4 < p then v.content else none,
   if 5 < p then v.sigInfo else none, if 6 < p then v.sigValue else none⟩

theorem DataV.upto_has {v : DataV} {p j : Nat} (h : p ≤ j) : (v.upto p).has j = false := by
  unfold has
  split
  all_goals first
    | rfl
    | (show Option.isSome (ite _ _ _) = false; rw [if_neg (by omega)]; rfl)

theorem DataV.upto_all {v : DataV} {p : Nat} (h : ∀ i, v.has i = true → i < p) : v.upto p = v := by
  obtain ⟨a, b, c, d, e⟩ := v
  have h2 := h 2; have h3 := h 3; have h4 := h 4; have h5 := h 5; have h6 := h 6
  simp only [has] at h2 h3 h4 h5 h6
  unfold upto
  simp only [DataV.mk.injEq]
  refine ⟨?_, ?_, ?_, ?_, ?_⟩
  · by_cases q : 2 < p
    · rw [if_pos q]
    · rw [if_neg q]; cases a with
      | none => rfl
      | some x => exact absurd (h2 rfl) q
  · by_cases q : 3 < p
    · rw [if_pos q]
    · rw [if_neg q]; cases b with
      | none => rfl
      | some x => exact absurd (h3 rfl) q
  · by_cases q : 4 < p
    · rw [if_pos q]
    · rw [if_neg q]; cases c with
      | none => rfl
      | some x => exact absurd (h4 rfl) q
  · by_cases q : 5 < p
    · rw [if_pos q]
    · rw [if_neg q]; cases d with
      | none => rfl
      | some x => exact absurd (h5 rfl) q
  · by_cases q : 6 < p
    · rw [if_pos q]
    · rw [if_neg q]; cases e with
      | none => rfl
      | some x => exact absurd (h6 rfl) q

theorem DataV.upto_upto {v : DataV} {p q : Nat} (hpq : p ≤ q) (h : ∀ i, v.has i = true → i < q → i < p) : v.upto p = v.upto q := by
  have h1 : (v.upto q).upto p = v.upto q := upto_all (fun i hi => by
    have hiq : i < q := by
      rcases Nat.lt_or_ge i q with g | g
      · exact g
      · rw [upto_has g] at hi; exact absurd hi (by decide)
    refine h i ?_ hiq
    revert hi
    unfold has upto
    split <;> first | (simp only [if_pos hiq]; exact id) | exact id)
  rw [← h1]
  unfold upto
  simp only [DataV.mk.injEq]
  refine ⟨?_, ?_, ?_, ?_, ?_⟩ <;>
  · split
    · rw [if_pos (by omega)]
    · rfl

theorem data_skip {F j : Nat} {s : Slot (DataV × DataCtx)} (hj : (dataSlots false F)[j]? = some s) {st : DataV × DataCtx}
    (hn : st.1.has j = false) (start : Nat) (r : BR) :
    ∃ st', s.skip start st r = .ok st' ∧ st'.1 = st.1 ∧ st'.2.sigCovered = st.2.sigCovered ∧
      st'.2.sigCoverStart = if j = 1 then start else st.2.sigCoverStart := by
  obtain ⟨⟨a, b, c, d, e⟩, ctx⟩ := st
  rcases j with _ | _ | _ | _ | _ | _ | _ | j
  · obtain rfl := Option.some.inj hj; exact ⟨_, rfl, rfl, rfl, rfl⟩
  · obtain rfl := Option.some.inj hj; exact ⟨_, rfl, rfl, rfl, rfl⟩
  · obtain rfl := Option.some.inj hj
    obtain rfl : a = none := Option.not_isSome_iff_eq_none.mp (by rw [Bool.not_eq_true]; exact hn)
    exact ⟨_, rfl, rfl, rfl, rfl⟩
  · obtain rfl := Option.some.inj hj
    obtain rfl : b = none := Option.not_isSome_iff_eq_none.mp (by rw [Bool.not_eq_true]; exact hn)
    exact ⟨_, rfl, rfl, rfl, rfl⟩
  · obtain rfl := Option.some.inj hj
    obtain rfl : c = none := Option.not_isSome_iff_eq_none.mp (by rw [Bool.not_eq_true]; exact hn)
    exact ⟨_, rfl, rfl, rfl, rfl⟩
  · obtain rfl := Option.some.inj hj
    obtain rfl : d = none := Option.not_isSome_iff_eq_none.mp (by rw [Bool.not_eq_true]; exact hn)
    exact ⟨_, rfl, rfl, rfl, rfl⟩
  · obtain rfl := Option.some.inj hj
    obtain rfl : e = none := Option.not_isSome_iff_eq_none.mp (by rw [Bool.not_eq_true]; exact hn)
    exact ⟨_, rfl, rfl, rfl, rfl⟩
  · exact absurd hj (by simp [dataSlots])

theorem data_knows (F t : Nat) : knows (dataSlots false F) t = true ↔ t ∈ dataTypes := by
  simp only [knows, dataSlots, argSlot, markSlot, elemSlot, sigSlot, List.map, dataTypes]
  simp only [Bool.and_eq_true, bne_iff_ne, ne_eq, List.contains_iff_mem, List.mem_cons, List.not_mem_nil, or_false]
  omega

theorem data_items_incr (b : DataB) : Incr 2 b.items := by
  unfold DataB.items DataB.signed
  have hlt : ∀ {i t : Nat} {b : Option Bytes} {x : It}, x ∈ ownIt i t b → ∀ j, x.slot = some j → j = i := by
    intro i t b x hx j hj
    obtain ⟨y, _, rfl⟩ := mem_ownIt hx
    injection hj with hj; exact hj.symm
  refine Incr.append (q := 6) (Incr.append (q := 5) (Incr.append (q := 4) (Incr.append (q := 3) (Incr.ownIt ..) (Incr.ownIt ..) (by omega) ?_)
    (Incr.ownIt ..) (by omega) ?_) (Incr.ownIt ..) (by omega) ?_) (Incr.ownIt ..) (by omega) ?_
  all_goals
    intro x hx j hj
    try simp only [List.mem_append] at hx
    first
      | (have := hlt hx j hj; omega)
      | (rcases hx with hx | hx <;> (have := hlt hx j hj; omega))
      | (rcases hx with (hx | hx) | hx <;> (have := hlt hx j hj; omega))
      | (rcases hx with ((hx | hx) | hx) | hx <;> (have := hlt hx j hj; omega))

theorem optIsSome_some {b : Option Bytes} {y : Bytes} (h : b = some y) : b.isSome = true := by rw [h]; rfl

theorem data_has_item {v : DataV} {b : DataB} (hb : v.Bodies b) {i : Nat} (h : v.has i = true) : ∃ x ∈ b.items, x.slot = some i := by
  have key : ∀ (o : Option Bytes) (i t : Nat), o.isSome = true → ∃ x ∈ ownIt i t o, x.slot = some i := by
    intro o i t ho
    cases o with
    | none => exact absurd ho (by decide)
    | some y => exact ⟨_, List.mem_singleton.mpr rfl, rfl⟩
  unfold DataB.items DataB.signed
  unfold DataV.has at h
  split at h
  · replace h := (optBody_isSome hb.name).symm.trans h
    obtain ⟨x, hx, hs⟩ := key _ 2 0x07 h; exact ⟨x, by simp [hx], hs⟩
  · replace h := (optBody_isSome hb.metaInfo).symm.trans h
    obtain ⟨x, hx, hs⟩ := key _ 3 0x14 h; exact ⟨x, by simp [hx], hs⟩
  · replace h := (optBody_isSome hb.content).symm.trans h
    obtain ⟨x, hx, hs⟩ := key _ 4 0x15 h; exact ⟨x, by simp [hx], hs⟩
  · replace h := (optBody_isSome hb.sigInfo).symm.trans h
    obtain ⟨x, hx, hs⟩ := key _ 5 0x16 h; exact ⟨x, by simp [hx], hs⟩
  · replace h := (optBody_isSome hb.sigValue).symm.trans h
    obtain ⟨x, hx, hs⟩ := key _ 6 0x17 h; exact ⟨x, by simp [hx], hs⟩
  · exact absurd h (by decide)

theorem slots_distinct {σ : Type} {slots : List (Slot σ)} {types : List Nat} (ht : slots.map (·.typ) = types)
    (hd : ∀ i < types.length, ∀ j < i, types[i]?.getD 0 ≠ 0 → types[j]?.getD 0 ≠ types[i]?.getD 0) :
    ∀ j i : Nat, j < i → ∀ s s', slots[j]? = some s → slots[i]? = some s' → s'.typ ≠ 0 → s.typ ≠ s'.typ := by
  intro j i hlt s s' h1 h2 h3
  have e1 : types[j]? = some s.typ := by rw [← ht, List.getElem?_map, h1]; rfl
  have e2 : types[i]? = some s'.typ := by rw [← ht, List.getElem?_map, h2]; rfl
  have := hd i (List.getElem?_eq_some_iff.mp e2).1 j hlt
  rw [e1, e2] at this
  exact this h3

/-- slot, type and the reading of an own element: everything but the covered part -/
theorem data_read {v : DataV} {b : DataB} (hb : v.Bodies b) (hv : v.InRange) {i t : Nat} {body : Bytes} (hx : (⟨some i, t, body⟩ : It) ∈ b.items)
    (F : Nat) : t ∈ dataTypes ∧ ∃ s, (dataSlots false F)[i]? = some s ∧ s.typ = t ∧ i < 7 ∧
      (∀ j s', j < i → (dataSlots false F)[j]? = some s' → s'.typ ≠ t) ∧
      ∀ (st : DataV × DataCtx) (start : Nat) (r : BR) (tl : Bytes), Tiny r → r.rest = body ++ tl → body.length < F → st.1 = v.upto i →
        ∃ st', s.read start body.length st r = some (.ok st', r.adv body.length) ∧ st'.1 = v.upto (i + 1) ∧
          st'.2.sigCoverStart = st.2.sigCoverStart ∧
          (i ≠ 6 → st'.2.sigCovered = st.2.sigCovered) ∧
          (i = 6 → st'.2.sigCovered = st.2.sigCovered ++ rangeOf r st.2.sigCoverStart start) := by
  unfold DataB.items DataB.signed at hx
  simp only [List.mem_append] at hx
  have hdist : ∀ j i' : Nat, j < i' → ∀ s s', (dataSlots false F)[j]? = some s → (dataSlots false F)[i']? = some s' → s'.typ ≠ 0 → s.typ ≠ s'.typ :=
    slots_distinct (types := [0, 0, 7, 0x14, 0x15, 0x16, 0x17]) rfl (by decide)
  rcases hx with (((hx | hx) | hx) | hx) | hx
  · obtain ⟨y, hy, he⟩ := mem_ownIt hx
    obtain ⟨rfl, rfl, rfl⟩ : i = 2 ∧ t = 0x07 ∧ body = y := by simpa using he
    refine ⟨by decide, _, rfl, rfl, by omega, fun j s' h1 h2 => hdist j 2 h1 s' _ h2 rfl (show (0x07 : Nat) ≠ 0 by decide), ?_⟩
    intro st start r tl htiny hr hF hst
    have h0 := hb.name
    rw [hy] at h0
    obtain ⟨x, hx1, hx2⟩ := elem_opt (e := .name) trivial hv.name h0
    refine ⟨({ st.1 with name := some x }, st.2), ?_, ?_, rfl, fun _ => rfl, fun h => absurd h (by omega)⟩
    · show PR.map _ (Elem.read false F .name body.length r) = _
      rw [hx2 F r tl htiny hr hF]; rfl
    · rw [hst]; exact congrArg (fun o => ({ v.upto 2 with name := o } : DataV)) hx1.symm
  · obtain ⟨y, hy, he⟩ := mem_ownIt hx
    obtain ⟨rfl, rfl, rfl⟩ : i = 3 ∧ t = 0x14 ∧ body = y := by simpa using he
    refine ⟨by decide, _, rfl, rfl, by omega, fun j s' h1 h2 => hdist j 3 h1 s' _ h2 rfl (show (0x14 : Nat) ≠ 0 by decide), ?_⟩
    intro st start r tl htiny hr hF hst
    have h0 := hb.metaInfo
    rw [hy] at h0
    obtain ⟨x, hx1, hx2⟩ := elem_opt (e := .struct Schema.metaInfo) metaInfo_wf hv.metaInfo h0
    refine ⟨({ st.1 with metaInfo := some x }, st.2), ?_, ?_, rfl, fun _ => rfl, fun h => absurd h (by omega)⟩
    · show PR.map _ (Elem.read false F (.struct Schema.metaInfo) body.length r) = _
      rw [hx2 F r tl htiny hr hF]; rfl
    · rw [hst]; exact congrArg (fun o => ({ v.upto 3 with metaInfo := o } : DataV)) hx1.symm
  · obtain ⟨y, hy, he⟩ := mem_ownIt hx
    obtain ⟨rfl, rfl, rfl⟩ : i = 4 ∧ t = 0x15 ∧ body = y := by simpa using he
    refine ⟨by decide, _, rfl, rfl, by omega, fun j s' h1 h2 => hdist j 4 h1 s' _ h2 rfl (show (0x15 : Nat) ≠ 0 by decide), ?_⟩
    intro st start r tl htiny hr hF hst
    have h0 := hb.content
    rw [hy] at h0
    obtain ⟨x, hx1, hx2⟩ := elem_opt (e := .wire) trivial hv.content h0
    refine ⟨({ st.1 with content := some x }, st.2), ?_, ?_, rfl, fun _ => rfl, fun h => absurd h (by omega)⟩
    · show PR.map _ (Elem.read false F .wire body.length r) = _
      rw [hx2 F r tl htiny hr hF]; rfl
    · rw [hst]; exact congrArg (fun o => ({ v.upto 4 with content := o } : DataV)) hx1.symm
  · obtain ⟨y, hy, he⟩ := mem_ownIt hx
    obtain ⟨rfl, rfl, rfl⟩ : i = 5 ∧ t = 0x16 ∧ body = y := by simpa using he
    refine ⟨by decide, _, rfl, rfl, by omega, fun j s' h1 h2 => hdist j 5 h1 s' _ h2 rfl (show (0x16 : Nat) ≠ 0 by decide), ?_⟩
    intro st start r tl htiny hr hF hst
    have h0 := hb.sigInfo
    rw [hy] at h0
    obtain ⟨x, hx1, hx2⟩ := elem_opt (e := .struct signatureInfo) signatureInfo_wf hv.sigInfo h0
    refine ⟨({ st.1 with sigInfo := some x }, st.2), ?_, ?_, rfl, fun _ => rfl, fun h => absurd h (by omega)⟩
    · show PR.map _ (Elem.read false F (.struct signatureInfo) body.length r) = _
      rw [hx2 F r tl htiny hr hF]; rfl
    · rw [hst]; exact congrArg (fun o => ({ v.upto 5 with sigInfo := o } : DataV)) hx1.symm
  · obtain ⟨y, hy, he⟩ := mem_ownIt hx
    obtain ⟨rfl, rfl, rfl⟩ : i = 6 ∧ t = 0x17 ∧ body = y := by simpa using he
    refine ⟨by decide, _, rfl, rfl, by omega, fun j s' h1 h2 => hdist j 6 h1 s' _ h2 rfl (show (0x17 : Nat) ≠ 0 by decide), ?_⟩
    intro st start r tl htiny hr hF hst
    have h0 := hb.sigValue
    rw [hy] at h0
    obtain ⟨x, hx1, hx2⟩ := elem_opt (e := .wire) trivial hv.sigValue h0
    have h3 : BR.readWire (toInt body.length) r = (.ok x, r.adv body.length) := Option.some.inj (hx2 F r tl htiny hr hF)
    refine ⟨({ st.1 with sigValue := some x }, { st.2 with sigCovered := st.2.sigCovered ++ rangeOf r st.2.sigCoverStart start }), ?_, ?_, rfl,
      fun h => absurd rfl h, fun _ => rfl⟩
    · show (match BR.readWire (toInt body.length) r with
        | (.ok w, r') => some (Res.ok (_ : DataV × DataCtx), r')
        | (.err e, r') => some (.err e, r')
        | (.panic, r') => some (.panic, r')) = _
      rw [h3]; rfl
    · rw [hst]; exact congrArg (fun o => ({ v.upto 6 with sigValue := o } : DataV)) hx1.symm

theorem Fits.ge {n : Nat} : ∀ {its : List It} {p : Nat}, Fits n p its → ∀ x ∈ its, ∀ i, x.slot = some i → p ≤ i
  | [], _, _, _, h, _, _ => (nomatch h)
  | ⟨some k, t, b⟩ :: its, p, h, x, hx, i, hi => by
    rcases List.mem_cons.mp hx with rfl | hx
    · injection hi with hi; have := h.1; omega
    · have := h.2.ge x hx i hi; have := h.1; omega
  | ⟨none, t, b⟩ :: its, p, h, x, hx, i, hi => by
    rcases List.mem_cons.mp hx with rfl | hx
    · exact (nomatch hi)
    · have := h.2.ge x hx i hi; omega

/-- an unrecognised element takes up slot `p`: no own element is for it -/
theorem from_junk {n : Nat} {its l : List It} {p q : Nat} (hf : Fits n (p + 1) its) (ho : owns its = from_ p l) (hi : Incr q l) :
    (∀ x ∈ l, x.slot ≠ some p) ∧ from_ p l = from_ (p + 1) l := by
  have h1 : ∀ x ∈ l, x.slot ≠ some p := by
    intro x hx hs
    have : x ∈ from_ p l := by
      unfold from_; rw [List.mem_filter]; exact ⟨hx, by rw [hs]; simp⟩
    rw [← ho] at this
    have := hf.ge x (List.mem_filter.mp this).1 p hs
    omega
  refine ⟨h1, ?_⟩
  unfold from_
  apply List.filter_congr
  intro x hx
  obtain ⟨j, g1, _⟩ := hi.ge x hx
  have := h1 x hx
  rw [g1] at this ⊢
  simp only [Option.getD_some, decide_eq_decide]
  have hne : j ≠ p := fun h => this (by rw [h])
  omega

/-- invariant of the parse: elements to come, next slot, handled slots, state, position.  `J` says that there are only own elements. -/
def DInv (v : DataV) (b : DataB) (ctx : DataCtx) (B : Bytes) (J : Bool) (its : List It) (p : Nat) (h : List Nat) (st : DataV × DataCtx)
    (pos : Nat) : Prop :=
  Fits 7 p its ∧ owns its = from_ p b.items ∧
  (∀ x ∈ its, x.slot = none → x.typ < 2 ^ 64 ∧ x.typ ∉ dataTypes ∧ 31 < x.typ ∧ x.typ % 2 = 0) ∧
  st.1 = v.upto p ∧ (∀ i < p, v.has i = true → i ∈ h) ∧
  (J = true → (∀ x ∈ its, x.slot ≠ none) ∧ ((p = 0 ∧ pos = 0) ∨ (2 ≤ p ∧ st.2.sigCoverStart = 0)) ∧ p ≤ 7 ∧
    (p ≤ 6 → st.2.sigCovered = ctx.sigCovered) ∧
    (p = 7 → ∃ sv, b.sigValue = some sv ∧ its = [] ∧ st.2.sigCovered = ctx.sigCovered ++ [B.take (pos - (tlv 0x17 sv).length)]))

theorem data_own_step {v : DataV} {b : DataB} (hb : v.Bodies b) (hv : v.InRange) {ctx : DataCtx} {B : Bytes} {J : Bool} {F : Nat}
    (hF : B.length < F) {i t : Nat} {body : Bytes} {rest : List It} {p : Nat} {h : List Nat} {st : DataV × DataCtx} {r : BR} {tl : Bytes}
    (hi : DInv v b ctx B J (⟨some i, t, body⟩ :: rest) p h st r.pos) (hB : r.buf = B) (hr : r.rest = tlv t body ++ tl) :
    t < 2 ^ 64 ∧ knows (dataSlots false F) t = true ∧ p ≤ i ∧ ∃ s, (dataSlots false F)[i]? = some s ∧ s.typ = t ∧
      (∀ j s', p ≤ j → j < i → (dataSlots false F)[j]? = some s' → s'.typ ≠ t) ∧
      ∀ r2 : BR, r2.rest = body ++ tl → r2.adv body.length = r.adv (tlv t body).length → r2.buf = B → Tiny r2 →
        ∃ st1 st', skipTo (dataSlots false F) r.pos r2 (i - p) p st = .ok st1 ∧
          s.read r.pos body.length st1 r2 = some (.ok st', r2.adv body.length) ∧
          DInv v b ctx B J rest (i + 1) (i :: pass (i - p) p h) st' (r.pos + (tlv t body).length) := by
  obtain ⟨h1, h2, h3, h4, h5, h6⟩ := hi
  have h2' : from_ p b.items = ⟨some i, t, body⟩ :: owns rest := by rw [← h2]; rfl
  obtain ⟨g1, g2, g3, g4⟩ := from_head (data_items_incr b) h2' rfl
  obtain ⟨d1, s, d2, d3, d4, d5, d6⟩ := data_read hb hv g1 F
  have hhas : ∀ j, v.has j = true → j < i → j < p := by
    intro j hj hlt
    obtain ⟨x, hx, hs⟩ := data_has_item hb hj
    exact g4 x hx j hs hlt
  refine ⟨?_, (data_knows F t).mpr d1, g2, s, d2, d3, fun j s' _ hj hs' => d5 j s' hj hs', ?_⟩
  · simp only [dataTypes, List.mem_cons, List.not_mem_nil, or_false] at d1; omega
  intro r2 e1 e2 e3 e4
  -- skipping to the slot
  obtain ⟨st1, k1, k2, k3, k4⟩ := skipTo_inv (slots := dataSlots false F) (start := r.pos) (r := r2)
    (fun j st' => st'.1 = v.upto p ∧ st'.2.sigCovered = st.2.sigCovered ∧
      st'.2.sigCoverStart = if p ≤ 1 ∧ 1 < j then r.pos else st.2.sigCoverStart)
    (i - p) p st (by show p + (i - p) ≤ 7; omega) ⟨h4, rfl, by rw [if_neg (by omega)]⟩ (by
      intro j s' st' hj1 hj2 hj3 ⟨q1, q2, q3⟩
      obtain ⟨st2, w1, w2, w3, w4⟩ := data_skip hj3 (st := st') (by rw [q1]; exact DataV.upto_has hj1) r.pos r2
      refine ⟨st2, w1, by rw [w2, q1], by rw [w3, q2], ?_⟩
      rw [w4]
      by_cases hj : j = 1
      · rw [if_pos hj, if_pos (by omega)]
      · rw [if_neg hj, q3]
        by_cases hq : p ≤ 1 ∧ 1 < j
        · rw [if_pos hq, if_pos (by omega)]
        · rw [if_neg hq, if_neg (by omega)])
  rw [show p + (i - p) = i by omega] at k4
  have hbl : body.length < F := by
    have := congrArg List.length hr
    rw [BR.rest_length, List.length_append, tlv_length, hB] at this
    omega
  obtain ⟨st', m1, m2, m3, m4, m5⟩ := d6 st1 r.pos r2 tl e4 e1 hbl (by rw [k2]; exact DataV.upto_upto g2 hhas)
  refine ⟨st1, st', k1, m1, h1.2, g3, fun x hx => h3 x (by simp [hx]), m2, ?_, ?_⟩
  · intro j hj hh
    rcases Nat.lt_or_ge j i with hlt | hge
    · refine List.mem_cons_of_mem _ (mem_pass.mpr (.inl (h5 j (hhas j hh hlt) hh)))
    · obtain rfl : j = i := by omega
      simp
  · intro hJ
    obtain ⟨n1, n2, n3, n4, n5⟩ := h6 hJ
    have i2 : 2 ≤ i := by
      obtain ⟨j, q1, q2⟩ := (data_items_incr b).ge _ g1
      injection q1 with q1; omega
    have hstart : st1.2.sigCoverStart = 0 := by
      rw [k4]
      rcases n2 with ⟨rfl, hp⟩ | ⟨hp, hs⟩
      · rw [if_pos (by omega)]; exact hp
      · rw [if_neg (by omega)]; exact hs
    refine ⟨fun x hx => n1 x (by simp [hx]), .inr ⟨by omega, by rw [m3]; exact hstart⟩, by omega, ?_, ?_⟩
    · intro hle; rw [m4 (by omega), k3]; exact n4 (by omega)
    · intro heq
      obtain rfl : i = 6 := by omega
      have hsv : t = 0x17 ∧ b.sigValue = some body := by
        have hm := g1
        unfold DataB.items DataB.signed at hm
        simp only [List.mem_append] at hm
        rcases hm with (((hm | hm) | hm) | hm) | hm
        all_goals (obtain ⟨y, hy, he⟩ := mem_ownIt hm)
        all_goals first
          | (exfalso; injection he with he _ _; injection he with he; omega)
          | skip
        injection he with he1 he2 he3
        exact ⟨he2, by rw [hy, he3]⟩
      obtain ⟨rfl, hsv⟩ := hsv
      refine ⟨body, hsv, ?_, ?_⟩
      · -- nothing comes after
        have hnil : owns rest = [] := by
          rw [g3, from_, List.filter_eq_nil_iff]
          intro x hx
          have hm := hx
          unfold DataB.items DataB.signed at hm
          simp only [List.mem_append] at hm
          rcases hm with (((hm | hm) | hm) | hm) | hm
          all_goals (obtain ⟨y, hy, rfl⟩ := mem_ownIt hm; simp)
        cases rest with
        | nil => rfl
        | cons x rest =>
          exfalso
          have hx := n1 x (by simp)
          have : x ∈ owns (x :: rest) := by
            unfold owns; rw [List.mem_filter]
            refine ⟨by simp, ?_⟩
            cases hs : x.slot with
            | none => exact absurd hs hx
            | some _ => rfl
          rw [hnil] at this
          exact (nomatch this)
      · rw [m5 rfl, k3, n4 (by omega), hstart]
        have hpos : r.pos + (tlv 0x17 body).length - (tlv 0x17 body).length = r.pos := by omega
        rw [hpos]
        have hle : r.pos ≤ B.length := by
          have := tlv_ne hr
          rw [hB] at this; omega
        unfold rangeOf BR.range
        rw [if_neg (by rw [e3]; omega)]
        simp [e3]

theorem parseData_items {v : DataV} {b : DataB} (hb : v.Bodies b) (hv : v.InRange) {its : List It} (hfit : Fitting 7 dataTypes b.items its)
    (hl : (bytesOf its).length < 2 ^ 43) {F : Nat} (hF : (bytesOf its).length < F) (ctx : DataCtx) :
    ∃ st r', parseData false F ctx (BR.new (bytesOf its)) = some (.ok st, r') ∧ st.1 = v ∧
      (its = b.items → st.2.sigCovered = ctx.sigCovered ++ (if b.sigValue.isSome then [bytesOf b.signed] else [])) := by
  have hrun := run_items (ic := false) (slots := dataSlots false F) (DInv v b ctx (bytesOf its) (decide (∀ x ∈ its, x.slot ≠ none))) (bytesOf its)
    (fun i t body rest p h st r tl hi hB hr => data_own_step hb hv hF hi hB hr)
    (by
      intro t body rest p h st pos hi
      obtain ⟨h1, h2, h3, h4, h5, h6⟩ := hi
      obtain ⟨j1, j2, j3, j4⟩ := h3 ⟨none, t, body⟩ (by simp) rfl
      have h2' : owns rest = from_ p b.items := by rw [← h2]; rfl
      obtain ⟨k1, k2⟩ := from_junk h1.2 h2' (data_items_incr b)
      have hno : v.has p ≠ true := by
        intro hp
        obtain ⟨x, hx, hs⟩ := data_has_item hb hp
        exact k1 x hx hs
      refine ⟨j1, ?_, .inr ?_, h1.1, h1.2, by rw [h2', k2], fun x hx => h3 x (by simp [hx]), ?_, ?_, ?_⟩
      · cases hk : knows (dataSlots false F) t with
        | false => rfl
        | true => exact absurd ((data_knows F t).mp hk) j2
      · unfold isCritical; simp only [decide_eq_false_iff_not, Bool.or_eq_false_iff]; simp at j3 j4 ⊢; omega
      · rw [h4]
        exact DataV.upto_upto (by omega) (fun i hi hlt => by
          rcases Nat.lt_or_ge i p with g | g
          · exact g
          · obtain rfl : i = p := by omega
            exact absurd hi hno)
      · intro i hi hh
        refine h5 i ?_ hh
        rcases Nat.lt_or_ge i p with g | g
        · exact g
        · obtain rfl : i = p := by omega
          exact absurd hh hno
      · intro hJ
        exact absurd rfl ((h6 hJ).1 ⟨none, t, body⟩ (by simp)))
    its 0 [] ({}, ctx) (BR.new (bytesOf its)) [] ⟨hfit.fits, by rw [from_zero]; exact hfit.owns, hfit.junk, rfl, fun i hi => absurd hi (by omega),
      fun hJ => ⟨by simpa using hJ, .inl ⟨rfl, rfl⟩, by omega, fun _ => rfl, fun h => absurd h (by omega)⟩⟩
    rfl (Tiny.new hl) (by rw [BR.rest_new, List.append_nil])
  obtain ⟨p', h', st', i1, i2⟩ := parse_items rfl hrun hF
  obtain ⟨f1, f2, f3, f4, f5, f6⟩ := i1
  have hall : ∀ i, v.has i = true → i < p' := by
    intro i hi
    obtain ⟨x, hx, hs⟩ := data_has_item hb hi
    exact from_nil f2.symm x hx i hs
  rw [DataV.upto_all hall] at f4
  -- the skips after the loop
  obtain ⟨st2, q1, q2, q3⟩ := ordFinish_inv (h := h') (r := (BR.new (bytesOf its)).adv (bytesOf its).length)
    (fun _ st => st.1 = v ∧ st.2.sigCovered = st'.2.sigCovered) (dataSlots false F) 0 st' ⟨f4, rfl⟩ (by
      intro j s st hj ⟨w1, w2⟩
      rw [Nat.zero_add]
      by_cases hc : h'.contains j = true
      · rw [if_pos hc]; exact ⟨w1, w2⟩
      · rw [if_neg hc]
        have hn : st.1.has j = false := by
          rw [w1]
          cases hh : v.has j with
          | false => rfl
          | true => exact absurd (List.contains_iff_mem.mpr (f5 j (hall j hh) hh)) hc
        obtain ⟨st2, x1, x2, x3, _⟩ := data_skip hj hn ((BR.new (bytesOf its)).adv (bytesOf its).length).pos
          ((BR.new (bytesOf its)).adv (bytesOf its).length)
        exact ⟨st2, x1, by rw [x2, w1], by rw [x3, w2]⟩)
  refine ⟨st2, (BR.new (bytesOf its)).adv (bytesOf its).length, ?_, q2, ?_⟩
  · unfold parseData; rw [i2, q1]
  · intro he
    have hJ : decide (∀ x ∈ its, x.slot ≠ none) = true := by
      rw [decide_eq_true_iff, he]
      intro x hx hn
      obtain ⟨j, g1, _⟩ := (data_items_incr b).ge x hx
      rw [hn] at g1; exact (nomatch g1)
    obtain ⟨c1, c2, c3, c4, c5⟩ := f6 hJ
    rw [q3]
    by_cases hp : p' = 7
    · obtain ⟨sv, s1, _, s3⟩ := c5 hp
      rw [s3, s1, he]
      have hB : bytesOf b.items = bytesOf b.signed ++ tlv 0x17 sv := by
        unfold DataB.items; rw [bytesOf_append, s1]; simp [Packet.ownIt, bytesOf, It.bytes]
      rw [hB, List.length_append, Nat.add_sub_cancel, List.take_left]; rfl
    · rw [c4 (by omega)]
      have hno : b.sigValue.isSome = false := by
        rw [← optBody_isSome hb.sigValue]
        cases hh : v.has 6 with
        | false => exact hh
        | true => have := hall 6 hh; omega
      rw [hno]; simp

end Ndn.Packet
