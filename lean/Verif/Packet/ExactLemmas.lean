import Verif.Packet.Props

/-! # Parsers of ordered models on elements in order, with unrecognised elements anywhere (lemmas) -/

namespace Ndn.Packet
open Ndn.Codec Ndn.Codec.Schema

/-- Is some field late?  `p` is the number of places used up so far.  A field uses up its own place and all before it, an unrecognised
element the next one; a field is late if its own place is used up when it comes. -/
def Late : Nat → List It → Prop
  | _, [] => False
  | p, ⟨some i, _, _⟩ :: its => i < p ∨ Late (i + 1) its
  | p, ⟨none, _, _⟩ :: its => Late (p + 1) its

instance : ∀ (p : Nat) (its : List It), Decidable (Late p its)
  | _, [] => .isFalse id
  | p, ⟨some i, _, _⟩ :: its => have := instDecidableLate (i + 1) its; by unfold Late; exact inferInstance
  | p, ⟨none, _, _⟩ :: its => have := instDecidableLate (p + 1) its; by unfold Late; exact inferInstance

theorem Late.owns_ne : ∀ {its : List It} {p : Nat}, Late p its → owns its ≠ []
  | [], _, h => h.elim
  | ⟨some i, t, b⟩ :: its, p, _ => by
    show ⟨some i, t, b⟩ :: owns its ≠ []
    simp
  | ⟨none, _, _⟩ :: its, p, h => by
    have := Late.owns_ne (its := its) h
    exact this

/-- a field whose place is used up is late -/
theorem late_of_mem : ∀ {its : List It} {p i : Nat} {x : It}, x ∈ its → x.slot = some i → i < p → Late p its
  | [], _, _, _, h, _, _ => (nomatch h)
  | ⟨some k, t, b⟩ :: its, p, i, x, hx, hs, hp => by
    rcases List.mem_cons.mp hx with rfl | hx
    · injection hs with hs; exact .inl (by omega)
    · by_cases hk : k < p
      · exact .inl hk
      · exact .inr (late_of_mem hx hs (by omega))
  | ⟨none, t, b⟩ :: its, p, i, x, hx, hs, hp => by
    rcases List.mem_cons.mp hx with rfl | hx
    · exact (nomatch hs)
    · exact late_of_mem (p := p + 1) hx hs (by omega)

section generic
variable {σ : Type} {slots : List (Slot σ)}

theorem ordLoop_left0 : ∀ (fuel : Nat) (h : List Nat) (st : σ) (r r' : BR) (o : Ord σ),
    ordLoop false slots fuel ⟨0, h, st⟩ r = some (.ok o, r') → o = ⟨0, h, st⟩ := by
  intro fuel
  induction fuel with
  | zero => intro h st r r' o e; exact (nomatch e)
  | succ n ih =>
    intro h st r r' o e
    rw [ordLoop] at e
    split at e
    · injection e with e; injection e with e _; injection e with e; exact e.symm
    · split at e
      · exact (nomatch e)
      · exact (nomatch e)
      · split at e
        · exact (nomatch e)
        · exact (nomatch e)
        · simp only [ordInner] at e
          exact ih _ _ _ _ _ e

/-- a field that is unset stays unset once its place is used up -/
theorem ordInner_lost {has : σ → Nat → Bool} {i : Nat}
    (hskip : ∀ (j : Nat) (s : Slot σ) (st st' : σ) (start : Nat) (r : BR), slots[j]? = some s → s.skip start st r = .ok st' → has st i = false → has st' i = false)
    (hread : ∀ (j : Nat) (s : Slot σ) (start l : Nat) (st : σ) (r : BR) (st' : σ) (r' : BR), slots[j]? = some s → i < j → s.read start l st r = some (.ok st', r') → has st i = false →
      has st' i = false) {start typ l : Nat} :
    ∀ (k : Nat) (h : List Nat) (st : σ) (r r' : BR) (o : Ord σ), k + i ≤ slots.length → has st i = false →
      ordInner false slots start typ l k h st r = some (.ok o, r') → has o.st i = false ∧ o.left ≤ k := by
  intro k
  induction k with
  | zero =>
    intro h st r r' o _ hn e
    injection e with e; injection e with e _; injection e with e
    subst e
    exact ⟨hn, Nat.le_refl _⟩
  | succ k ih =>
    intro h st r r' o hk hn e
    rw [ordInner] at e
    split at e
    · split at e
      · obtain ⟨a, b⟩ := ih _ _ _ _ _ (by omega) hn e
        exact ⟨a, by omega⟩
      · rename_i s hs
        split at e
        · split at e
          · exact (nomatch e)
          · rename_i hrd
            injection e with e; injection e with e _; injection e with e
            subst e
            exact ⟨hread _ _ _ _ _ _ _ _ hs (by omega) hrd hn, by show k ≤ k + 1; omega⟩
          · exact (nomatch e)
          · exact (nomatch e)
        · split at e
          · rename_i hsk
            obtain ⟨a, b⟩ := ih _ _ _ _ _ (by omega) (hskip _ _ _ _ _ _ hs hsk hn) e
            exact ⟨a, by omega⟩
          · exact (nomatch e)
          · exact (nomatch e)
    · split at e
      · exact (nomatch e)
      · split at e
        · injection e with e; injection e with e _; injection e with e
          subst e
          exact ⟨hn, by show k ≤ k + 1; omega⟩
        · exact (nomatch e)
        · exact (nomatch e)

theorem ordLoop_lost {has : σ → Nat → Bool} {i : Nat}
    (hskip : ∀ (j : Nat) (s : Slot σ) (st st' : σ) (start : Nat) (r : BR), slots[j]? = some s → s.skip start st r = .ok st' → has st i = false → has st' i = false)
    (hread : ∀ (j : Nat) (s : Slot σ) (start l : Nat) (st : σ) (r : BR) (st' : σ) (r' : BR), slots[j]? = some s → i < j → s.read start l st r = some (.ok st', r') → has st i = false →
      has st' i = false) :
    ∀ (fuel : Nat) (o0 : Ord σ) (r r' : BR) (o : Ord σ), o0.left + i ≤ slots.length → has o0.st i = false →
      ordLoop false slots fuel o0 r = some (.ok o, r') → has o.st i = false := by
  intro fuel
  induction fuel with
  | zero => intro o0 r r' o _ _ e; exact (nomatch e)
  | succ n ih =>
    intro o0 r r' o hk hn e
    rw [ordLoop] at e
    split at e
    · injection e with e; injection e with e _; injection e with e
      subst e; exact hn
    · split at e
      · exact (nomatch e)
      · exact (nomatch e)
      · split at e
        · exact (nomatch e)
        · exact (nomatch e)
        · split at e
          · exact (nomatch e)
          · rename_i hin
            obtain ⟨a, b⟩ := ordInner_lost hskip hread _ _ _ _ _ _ hk hn hin
            exact ih _ _ _ _ (by omega) a e
          · exact (nomatch e)
          · exact (nomatch e)

theorem ordFinish_lost {has : σ → Nat → Bool} {i : Nat} {h : List Nat} {r : BR} : ∀ (l : List (Slot σ)) (j : Nat) (st st' : σ),
    (∀ s ∈ l, ∀ st st', s.skip r.pos st r = .ok st' → has st i = false → has st' i = false) → has st i = false →
    ordFinish h r j l st = .ok st' → has st' i = false := by
  intro l
  induction l with
  | nil => intro j st st' _ hn e; injection e with e; rw [← e]; exact hn
  | cons s l ih =>
    intro j st st' hs hn e
    rw [ordFinish] at e
    split at e
    · exact ih _ _ _ (fun s hm => hs s (by simp [hm])) hn e
    · cases hsk : s.skip r.pos st r with
      | ok st2 =>
        rw [hsk] at e
        exact ih _ _ _ (fun s hm => hs s (by simp [hm])) (hs s (by simp) _ _ hsk hn) e
      | err x => rw [hsk] at e; exact (nomatch e)
      | panic => rw [hsk] at e; exact (nomatch e)

/-- the main loop on elements in order with unrecognised elements anywhere, if it ends well: a field is lost if some field is late,
otherwise the invariant `Up` holds at a place behind all fields -/
theorem exact_run {own : List It} {q : Nat} (hincr : Incr q own) (hlen : ∀ x ∈ own, ∀ i, x.slot = some i → i < slots.length) (B : Bytes)
    (Up : Nat → List Nat → σ → Prop) (has : σ → Nat → Bool)
    (hown : ∀ i t b ys p h st (r : BR) (tl : Bytes), from_ p own = ⟨some i, t, b⟩ :: ys → Up p h st → r.buf = B →
      r.rest = tlv t b ++ tl → t < 2 ^ 64 ∧ knows slots t = true ∧ ∃ s, slots[i]? = some s ∧ s.typ = t ∧
        (∀ j s', p ≤ j → j < i → slots[j]? = some s' → s'.typ ≠ t) ∧
        ∀ r2 : BR, r2.rest = b ++ tl → r2.adv b.length = r.adv (tlv t b).length → r2.buf = B → Tiny r2 →
          ∃ st1 st', skipTo slots r.pos r2 (i - p) p st = .ok st1 ∧ s.read r.pos b.length st1 r2 = some (.ok st', r2.adv b.length) ∧
            Up (i + 1) (i :: pass (i - p) p h) st')
    (hup : ∀ p h st, (∀ x ∈ own, x.slot ≠ some p) → Up p h st → Up (p + 1) h st)
    (hno : ∀ p h st i, Up p h st → p ≤ i → has st i = false)
    (hskip : ∀ (i j : Nat) (s : Slot σ) (st st' : σ) (start : Nat) (r : BR), slots[j]? = some s → s.skip start st r = .ok st' → has st i = false → has st' i = false)
    (hread : ∀ (i j : Nat) (s : Slot σ) (start l : Nat) (st : σ) (r : BR) (st' : σ) (r' : BR), slots[j]? = some s → i < j → s.read start l st r = some (.ok st', r') → has st i = false →
      has st' i = false) :
    ∀ (its : List It) (p : Nat) (h : List Nat) (st : σ) (r : BR), owns its = from_ p own →
      (∀ x ∈ its, x.slot = none → x.typ < 2 ^ 64 ∧ knows slots x.typ = false ∧ isCritical x.typ = false) →
      Up p h st → r.buf = B → Tiny r → r.rest = bytesOf its → p ≤ slots.length + 1 →
      ∀ (fuel : Nat) (o : Ord σ) (r' : BR), ordLoop false slots fuel ⟨slots.length + 1 - p, h, st⟩ r = some (.ok o, r') →
        (Late p its → ∃ x ∈ own, ∃ i, x.slot = some i ∧ has o.st i = false) ∧
        (¬ Late p its → ∃ p', from_ p' own = [] ∧ Up p' o.handled o.st) := by
  intro its
  induction its with
  | nil =>
    intro p h st r ho _ hu hb ht hr hp fuel o r' e
    refine ⟨fun hl => hl.elim, fun _ => ⟨p, ho.symm, ?_⟩⟩
    cases fuel with
    | zero => exact (nomatch e)
    | succ n =>
      rw [ordLoop_end n hr] at e
      injection e with e; injection e with e _; injection e with e
      subst e; exact hu
  | cons x its ih =>
    intro p h st r ho hj hu hb htiny hr hp fuel o r' e
    obtain ⟨slot, t, b⟩ := x
    have hr' : r.rest = tlv t b ++ bytesOf its := hr
    have hrl : b.length < 2 ^ 43 := by
      have h1 := htiny.rest
      rw [hr', List.length_append, tlv_length] at h1
      omega
    have hadv : Tiny (r.adv (tlv t b).length) := htiny.adv (by rw [hr', List.length_append]; omega)
    have hrest : (r.adv (tlv t b).length).rest = bytesOf its := rest_adv_append hr'
    have hj' : ∀ x ∈ its, x.slot = none → x.typ < 2 ^ 64 ∧ knows slots x.typ = false ∧ isCritical x.typ = false :=
      fun x hx => hj x (by simp [hx])
    cases fuel with
    | zero => exact (nomatch e)
    | succ n =>
    cases slot with
    | some i =>
      have ho' : from_ p own = ⟨some i, t, b⟩ :: owns its := ho.symm
      obtain ⟨g1, g2, g3, g4⟩ := from_head hincr ho' rfl
      have hil := hlen _ g1 i rfl
      obtain ⟨h1, h2, s, h4, h5, h6, h7⟩ := hown i t b _ p h st r _ ho' hu hb hr'
      obtain ⟨e1, e2, e3, e4⟩ := readTL_two hr' h1 (by omega)
      have ht2 : Tiny ((r.adv (tlLen t)).adv (tlLen b.length)) := by
        refine ⟨?_, htiny.2⟩
        have h5 := congrArg List.length hr'
        have h6 := BR.rest_length r
        have h8 := htiny.1
        rw [List.length_append, tlv_length] at h5
        simp only [BR.adv_pos, BR.adv_buf]; omega
      obtain ⟨st1, st', k1, k2, k3⟩ := h7 _ e3 e4 hb ht2
      rw [ordLoop_elem (o' := ⟨slots.length + 1 - (i + 1), i :: pass (i - p) p h, st'⟩) n hr' h1 (by omega) (by
        intro r2 q4 q5 q6 q7
        have hr2 : r2 = (r.adv (tlLen t)).adv (tlLen b.length) := by
          have a1 : r2.buf = ((r.adv (tlLen t)).adv (tlLen b.length)).buf := q6
          have a2 : r2.pos = ((r.adv (tlLen t)).adv (tlLen b.length)).pos := by
            have := congrArg BR.pos (q5.trans e4.symm)
            simp only [BR.adv_pos] at this ⊢
            omega
          cases r2; simp only at a1 a2; subst a1; subst a2; rfl
        subst hr2
        have := ordInner_pass (ic := false) h2 (i - p) p h st (by rw [show p + (i - p) = i by omega]; exact h4) h5
          (fun j s' a b => h6 j s' a (by omega)) k1 k2
        rw [show p + (i - p) = i by omega] at this
        exact this)] at e
      obtain ⟨m1, m2⟩ := ih (i + 1) _ _ (r.adv (tlv t b).length) g3 hj' k3 hb hadv hrest (by omega) _ _ _ e
      refine ⟨fun hl => m1 ?_, fun hl => m2 fun hh => hl (.inr hh)⟩
      rcases hl with hl | hl
      · omega
      · exact hl
    | none =>
      obtain ⟨j1, j2, j3⟩ := hj ⟨none, t, b⟩ (by simp) rfl
      have ho' : owns its = from_ p own := ho
      by_cases hp' : p ≤ slots.length
      · rw [ordLoop_elem (o' := ⟨slots.length + 1 - (p + 1), h, st⟩) n hr' j1 (by omega) (by
          intro r2 g4 g5 g6 g7
          refine ordInner_junk j2 (.inr j3) hp' ?_
          rw [toInt_small (by omega)]
          exact BR.skip_ok ⟨g7, by rw [g6]; have := htiny.2; omega⟩ (by rw [g4]; simp))] at e
        by_cases hst : ∃ x ∈ own, x.slot = some p
        · obtain ⟨x, hx, hs⟩ := hst
          have hpl := hlen x hx p hs
          have hmem : x ∈ its := by
            have : x ∈ from_ p own := by
              unfold from_; rw [List.mem_filter]; exact ⟨hx, by rw [hs]; simp⟩
            rw [← ho'] at this
            exact (List.mem_filter.mp this).1
          have hlate : Late (p + 1) its := late_of_mem hmem hs (by omega)
          refine ⟨fun _ => ⟨x, hx, p, hs, ?_⟩, fun hl => absurd hlate hl⟩
          exact ordLoop_lost (hskip p) (hread p) _ _ _ _ _ (by show slots.length + 1 - (p + 1) + p ≤ slots.length; omega)
            (hno p h st p hu (Nat.le_refl _)) e
        · have hst' : ∀ x ∈ own, x.slot ≠ some p := fun x hx hs => hst ⟨x, hx, hs⟩
          have hfrom : from_ p own = from_ (p + 1) own := by
            unfold from_
            apply List.filter_congr
            intro x hx
            obtain ⟨j, g1, _⟩ := hincr.ge x hx
            have := hst' x hx
            rw [g1] at this ⊢
            simp only [Option.getD_some, decide_eq_decide]
            have hne : j ≠ p := fun h => this (by rw [h])
            omega
          exact ih (p + 1) _ _ (r.adv (tlv t b).length) (ho'.trans hfrom) hj' (hup p h st hst' hu) hb hadv hrest (by omega) _ _ _ e
      · have h0 : slots.length + 1 - p = 0 := by omega
        rw [h0] at e
        have hnil : from_ p own = [] := by
          rw [from_, List.filter_eq_nil_iff]
          intro x hx
          obtain ⟨j, g1, _⟩ := hincr.ge x hx
          have := hlen x hx j g1
          rw [g1]; simp; omega
        have := ordLoop_left0 _ _ _ _ _ _ e
        subst this
        exact ⟨fun hl => absurd (ho'.trans hnil) (Late.owns_ne (its := its) hl), fun _ => ⟨p, hnil, hu⟩⟩

end generic

/-- own elements alone always fit -/
theorem fits_of_incr {n : Nat} : ∀ {l : List It} {p : Nat}, Incr p l → Fits n p l
  | [], _, _ => trivial
  | ⟨slot, t, b⟩ :: l, p, ⟨i, h1, h2, h3⟩ => by
    cases slot with
    | none => exact (nomatch h1)
    | some k => injection h1 with h1; subst h1; exact ⟨h2, fits_of_incr h3⟩

theorem from_incr {l : List It} {q p : Nat} (h : Incr q l) : Incr p (from_ p l) := by
  induction l generalizing q with
  | nil => trivial
  | cons x l ih =>
    obtain ⟨i, h1, h2, h3⟩ := h
    by_cases hp : p ≤ i
    · have : from_ p (x :: l) = x :: l := by
        unfold from_
        rw [List.filter_eq_self]
        intro y hy
        rcases List.mem_cons.mp hy with rfl | hy
        · rw [h1]; simpa using hp
        · obtain ⟨j, g1, g2⟩ := h3.ge y hy
          rw [g1]; simp; omega
      rw [this]; exact ⟨i, h1, hp, h3⟩
    · have : from_ p (x :: l) = from_ p l := by
        unfold from_; rw [List.filter_cons_of_neg (by rw [h1]; simpa using hp)]
      rw [this]; exact ih h3

theorem owns_from {l : List It} {q p : Nat} (h : Incr q l) : owns (from_ p l) = from_ p l := by
  unfold owns
  rw [List.filter_eq_self]
  intro x hx
  obtain ⟨j, g1, _⟩ := (from_incr (p := p) h).ge x hx
  rw [g1]; rfl

/-! ## Data -/

theorem data_skip_lost {F i j : Nat} {s : Slot (DataV × DataCtx)} {st st' : DataV × DataCtx} {start : Nat} {r : BR}
    (hj : (dataSlots false F)[j]? = some s) (h : s.skip start st r = .ok st') (hn : st.1.has i = false) : st'.1.has i = false := by
  rcases j with _ | _ | _ | _ | _ | _ | _ | j
  all_goals first
    | (obtain rfl := Option.some.inj hj
       injection h with h
       subst h
       revert hn
       unfold DataV.has
       split <;> first | exact id | exact fun _ => rfl)
    | exact absurd hj (by simp [dataSlots])

theorem pr_map_ok {α β : Type} {f : α → β} {x : PR α} {y : β} {r' : BR} (h : PR.map f x = some (.ok y, r')) :
    ∃ a, x = some (.ok a, r') ∧ y = f a := by
  match x with
  | none => exact (nomatch h)
  | some (.ok a, r) =>
    injection h with h
    injection h with h1 h2
    injection h1 with h1
    exact ⟨a, by rw [h2], h1.symm⟩
  | some (.err e, r) => injection h with h; injection h with h _; exact (nomatch h)
  | some (.panic, r) => injection h with h; injection h with h _; exact (nomatch h)

theorem elemSlot_ok {σ : Type} {ic : Bool} {fuel typ : Nat} {e : Elem} {set : σ → Option e.V → σ} {start l : Nat} {st st' : σ} {r r' : BR}
    (h : (elemSlot ic fuel typ e set).read start l st r = some (.ok st', r')) : ∃ v, st' = set st (some v) := by
  obtain ⟨a, _, h⟩ := pr_map_ok (show PR.map (fun v => set st (some v)) (e.read ic fuel l r) = some (.ok st', r') from h)
  exact ⟨a, h⟩

theorem data_item_has {v : DataV} {b : DataB} (hb : v.Bodies b) {x : It} (hx : x ∈ b.items) {i : Nat} (hs : x.slot = some i) :
    v.has i = true := by
  unfold DataB.items DataB.signed at hx
  simp only [List.mem_append, or_assoc] at hx
  rcases hx with hx | hx | hx | hx | hx
  all_goals (obtain ⟨y, hy, rfl⟩ := mem_ownIt hx; injection hs with hs; subst hs)
  · exact (optBody_isSome hb.name).trans (by rw [hy]; rfl)
  · exact (optBody_isSome hb.metaInfo).trans (by rw [hy]; rfl)
  · exact (optBody_isSome hb.content).trans (by rw [hy]; rfl)
  · exact (optBody_isSome hb.sigInfo).trans (by rw [hy]; rfl)
  · exact (optBody_isSome hb.sigValue).trans (by rw [hy]; rfl)

theorem data_read_lost {F i j : Nat} {s : Slot (DataV × DataCtx)} {st st' : DataV × DataCtx} {start l : Nat} {r r' : BR}
    (hj : (dataSlots false F)[j]? = some s) (hij : i < j) (h : s.read start l st r = some (.ok st', r')) (hn : st.1.has i = false) :
    st'.1.has i = false := by
  have key : st'.1.has i = st.1.has i := by
    rcases j with _ | _ | _ | _ | _ | _ | _ | j
    all_goals first
      | (obtain rfl := Option.some.inj hj)
      | exact absurd hj (by simp [dataSlots])
    · injection h with h; injection h with h _; injection h with h; subst h; rfl
    · injection h with h; injection h with h _; injection h with h; subst h; rfl
    · obtain ⟨a, rfl⟩ := elemSlot_ok h
      unfold DataV.has; split <;> first | rfl | omega
    · obtain ⟨a, rfl⟩ := elemSlot_ok h
      unfold DataV.has; split <;> first | rfl | omega
    · obtain ⟨a, rfl⟩ := elemSlot_ok h
      unfold DataV.has; split <;> first | rfl | omega
    · obtain ⟨a, rfl⟩ := elemSlot_ok h
      unfold DataV.has; split <;> first | rfl | omega
    · simp only [sigSlot] at h
      split at h
      · injection h with h; injection h with h _; injection h with h; subst h
        unfold DataV.has; split <;> first | rfl | omega
      · injection h with h; injection h with h _; exact (nomatch h)
      · injection h with h; injection h with h _; exact (nomatch h)
  rw [key]; exact hn

/-- the parser of Data on elements in order with unrecognised elements anywhere -/
theorem parseData_exact {v : DataV} {b : DataB} (hb : v.Bodies b) (hv : v.InRange) {its : List It} (ho : owns its = b.items)
    (hj : ∀ x ∈ its, x.slot = none → x.typ < 2 ^ 64 ∧ x.typ ∉ dataTypes ∧ 31 < x.typ ∧ x.typ % 2 = 0)
    (hl : (bytesOf its).length < 2 ^ 43) {F : Nat} (hF : (bytesOf its).length < F) (ctx : DataCtx) {st : DataV × DataCtx} {r' : BR}
    (h : parseData false F ctx (BR.new (bytesOf its)) = some (.ok st, r')) :
    (Late 0 its → ∃ i, v.has i = true ∧ st.1.has i = false) ∧ (¬ Late 0 its → st.1 = v) := by
  unfold parseData ordParse at h
  split at h
  · exact (nomatch h)
  · rename_i o r1 hloop
    injection h with h
    injection h with hfin hr1
    have := exact_run (slots := dataSlots false F) (data_items_incr b)
      (by
        intro x hx i hs
        obtain ⟨s, hs', _⟩ := (data_read hb hv (i := i) (t := x.typ) (body := x.body) (by cases x; simp only at hs; subst hs; exact hx) F).2
        exact (List.getElem?_eq_some_iff.mp hs').1)
      (bytesOf its) (fun p h st => st.1 = v.upto p ∧ ∀ i < p, v.has i = true → i ∈ h) (fun st i => st.1.has i)
      (by
        intro i t body ys p h st r tl hfr hu hB hr
        have hown : owns (⟨some i, t, body⟩ :: ys) = from_ p b.items := by
          rw [← hfr]; exact owns_from (data_items_incr b)
        obtain ⟨a1, a2, a3, s, a4, a5, a6, a7⟩ := data_own_step hb hv (ctx := ctx) (J := false) hF
          (hi := (⟨by rw [← hfr]; exact fits_of_incr (from_incr (data_items_incr b)), hown,
            fun x hx hn => by
              rw [← hfr] at hx
              obtain ⟨k, g1, _⟩ := (from_incr (data_items_incr b)).ge x hx
              rw [hn] at g1; exact (nomatch g1), hu.1, hu.2, (fun hJ => by cases hJ)⟩ :
            DInv v b ctx (bytesOf its) false (⟨some i, t, body⟩ :: ys) p h st r.pos)) hB hr
        refine ⟨a1, a2, s, a4, a5, a6, fun r2 q1 q2 q3 q4 => ?_⟩
        obtain ⟨st1, st', c1, c2, c3⟩ := a7 r2 q1 q2 q3 q4
        exact ⟨st1, st', c1, c2, c3.2.2.2.1, c3.2.2.2.2.1⟩)
      (by
        intro p h st hn hu
        have hnp : v.has p ≠ true := by
          intro hp
          obtain ⟨x, hx, hs⟩ := data_has_item hb hp
          exact hn x hx hs
        refine ⟨?_, fun i hi hh => hu.2 i ?_ hh⟩
        · rw [hu.1]
          exact DataV.upto_upto (by omega) (fun i hi hlt => by
            rcases Nat.lt_or_ge i p with g | g
            · exact g
            · obtain rfl : i = p := by omega
              exact absurd hi hnp)
        · rcases Nat.lt_or_ge i p with g | g
          · exact g
          · obtain rfl : i = p := by omega
            exact absurd hh hnp)
      (by intro p h st i hu hp; show st.1.has i = false; rw [hu.1]; exact DataV.upto_has hp)
      (fun i j s st st' start r hj hs hn => data_skip_lost hj hs hn)
      (fun i j s start l st r st' r' hj hij hr hn => data_read_lost hj hij hr hn)
      its 0 [] ({}, ctx) (BR.new (bytesOf its)) (by rw [from_zero]; exact ho)
      (by
        intro x hx hn
        obtain ⟨j1, j2, j3, j4⟩ := hj x hx hn
        refine ⟨j1, ?_, ?_⟩
        · cases hk : knows (dataSlots false F) x.typ with
          | false => rfl
          | true => exact absurd ((data_knows F x.typ).mp hk) j2
        · unfold isCritical; simp only [decide_eq_false_iff_not, Bool.or_eq_false_iff]; simp at j3 j4 ⊢; omega)
      ⟨rfl, fun i hi => absurd hi (by omega)⟩ rfl (Tiny.new hl) (BR.rest_new _) (by omega) F o r1 hloop
    obtain ⟨m1, m2⟩ := this
    constructor
    · intro hlate
      obtain ⟨x, hx, i, hs, hn⟩ := m1 hlate
      refine ⟨i, data_item_has hb hx hs, ?_⟩
      exact ordFinish_lost (has := fun (st : DataV × DataCtx) i => st.1.has i) (dataSlots false F) 0 _ _ (by
        intro s hs st st' e hn
        obtain ⟨j, hj⟩ := List.getElem?_of_mem hs
        exact data_skip_lost hj e hn) hn hfin
    · intro hlate
      obtain ⟨p', q1, q2, q3⟩ := m2 hlate
      have hall : ∀ i, v.has i = true → i < p' := by
        intro i hi
        obtain ⟨x, hx, hs⟩ := data_has_item hb hi
        exact from_nil q1 x hx i hs
      rw [DataV.upto_all hall] at q2
      obtain ⟨st2, w1, w2⟩ := ordFinish_inv (h := o.handled) (r := r1)
        (fun _ st => st.1 = v) (dataSlots false F) 0 o.st q2 (by
          intro j s st hj w1
          rw [Nat.zero_add]
          by_cases hc : o.handled.contains j = true
          · rw [if_pos hc]; exact w1
          · rw [if_neg hc]
            have hn : st.1.has j = false := by
              rw [w1]
              cases hh : v.has j with
              | false => rfl
              | true => exact absurd (List.contains_iff_mem.mpr (q3 j (hall j hh) hh)) hc
            obtain ⟨st2, x1, x2, x3, _⟩ := data_skip hj hn r1.pos r1
            exact ⟨st2, x1, by rw [x2, w1]⟩)
      rw [hfin] at w1
      injection w1 with w1
      rw [w1]; exact w2
  · exact (nomatch h)
  · exact (nomatch h)

/-! ## Interests -/

theorem flagSlot_ok {σ : Type} {typ : Nat} {set : σ → Bool → σ} {start l : Nat} {st st' : σ} {r r' : BR}
    (h : (flagSlot typ set).read start l st r = some (.ok st', r')) : st' = set st true := by
  injection h with h; injection h with h _; injection h with h; exact h.symm

theorem interest_skip_lost {F i j : Nat} {s : Slot (InterestV × InterestCtx)} {st st' : InterestV × InterestCtx} {start : Nat} {r : BR}
    (hj : (interestSlots false F)[j]? = some s) (h : s.skip start st r = .ok st') (hn : st.1.has i = false) : st'.1.has i = false := by
  rcases j with _ | _ | _ | _ | _ | _ | _ | _ | _ | _ | _ | _ | _ | _ | _ | j
  all_goals first
    | (obtain rfl := Option.some.inj hj
       injection h with h
       subst h
       revert hn
       unfold InterestV.has
       split <;> first | exact id | exact fun _ => rfl)
    | exact absurd hj (by simp [interestSlots])

theorem interest_item_has {v : InterestV} {b : InterestB} (hb : v.Bodies b) {x : It} (hx : x ∈ b.items) {i : Nat} (hs : x.slot = some i) :
    v.has i = true := by
  rcases interest_mem hx with hx | hx | hx | hx | hx | hx | hx | hx | hx | hx
  all_goals (obtain ⟨y, hy, rfl⟩ := mem_ownIt hx; injection hs with hs; subst hs)
  · exact (optBody_isSome hb.name).trans (by rw [hy]; rfl)
  · show v.canBePrefix = true
    rw [← hb.canBePrefix]; cases hc : b.canBePrefix with
    | true => rfl
    | false => rw [hc] at hy; exact (nomatch hy)
  · show v.mustBeFresh = true
    rw [← hb.mustBeFresh]; cases hc : b.mustBeFresh with
    | true => rfl
    | false => rw [hc] at hy; exact (nomatch hy)
  · exact (optBody_isSome hb.fwdHint).trans (by rw [hy]; rfl)
  · exact (optBody_isSome hb.nonce).trans (by rw [hy]; rfl)
  · exact (optBody_isSome hb.lifetime).trans (by rw [hy]; rfl)
  · exact (optBody_isSome hb.hopLimit).trans (by rw [hy]; rfl)
  · exact (optBody_isSome hb.appParam).trans (by rw [hy]; rfl)
  · exact (optBody_isSome hb.sigInfo).trans (by rw [hy]; rfl)
  · exact (optBody_isSome hb.sigValue).trans (by rw [hy]; rfl)

theorem interest_read_lost {F i j : Nat} {s : Slot (InterestV × InterestCtx)} {st st' : InterestV × InterestCtx} {start l : Nat} {r r' : BR}
    (hj : (interestSlots false F)[j]? = some s) (hij : i < j) (h : s.read start l st r = some (.ok st', r')) (hn : st.1.has i = false) :
    st'.1.has i = false := by
  have key : st'.1.has i = st.1.has i := by
    rcases j with _ | _ | _ | _ | _ | _ | _ | _ | _ | _ | _ | _ | _ | _ | _ | j
    all_goals first
      | (obtain rfl := Option.some.inj hj)
      | exact absurd hj (by simp [interestSlots])
    · injection h with h; injection h with h _; injection h with h; subst h; rfl
    · injection h with h; injection h with h _; injection h with h; subst h; rfl
    · obtain ⟨a, _, rfl⟩ := pr_map_ok (f := fun nc => (({ st.1 with name := some nc.1 }, { st.2 with sigCovered := st.2.sigCovered ++ nc.2 }) :
        InterestV × InterestCtx)) (x := some (readIntName l r)) h
      unfold InterestV.has; split <;> first | rfl | omega
    · obtain rfl := flagSlot_ok h
      unfold InterestV.has; split <;> first | rfl | omega
    · obtain rfl := flagSlot_ok h
      unfold InterestV.has; split <;> first | rfl | omega
    · obtain ⟨a, rfl⟩ := elemSlot_ok h
      unfold InterestV.has; split <;> first | rfl | omega
    · obtain ⟨a, rfl⟩ := elemSlot_ok h
      unfold InterestV.has; split <;> first | rfl | omega
    · obtain ⟨a, rfl⟩ := elemSlot_ok h
      unfold InterestV.has; split <;> first | rfl | omega
    · obtain ⟨a, rfl⟩ := elemSlot_ok h
      unfold InterestV.has; split <;> first | rfl | omega
    · injection h with h; injection h with h _; injection h with h; subst h; rfl
    · injection h with h; injection h with h _; injection h with h; subst h; rfl
    · obtain ⟨a, rfl⟩ := elemSlot_ok h
      unfold InterestV.has; split <;> first | rfl | omega
    · obtain ⟨a, rfl⟩ := elemSlot_ok h
      unfold InterestV.has; split <;> first | rfl | omega
    · simp only [sigSlot] at h
      split at h
      · injection h with h; injection h with h _; injection h with h; subst h
        unfold InterestV.has; split <;> first | rfl | omega
      · injection h with h; injection h with h _; exact (nomatch h)
      · injection h with h; injection h with h _; exact (nomatch h)
    · injection h with h; injection h with h _; injection h with h; subst h; rfl
  rw [key]; exact hn

/-- the parser of Interests on elements in order with unrecognised elements anywhere -/
theorem parseInterest_exact {v : InterestV} {b : InterestB} (hb : v.Bodies b) (hv : v.InRange) {its : List It} (ho : owns its = b.items)
    (hj : ∀ x ∈ its, x.slot = none → x.typ < 2 ^ 64 ∧ x.typ ∉ interestTypes ∧ 31 < x.typ ∧ x.typ % 2 = 0)
    (hl : (bytesOf its).length < 2 ^ 43) {F : Nat} (hF : (bytesOf its).length < F) (ctx : InterestCtx) {st : InterestV × InterestCtx} {r' : BR}
    (h : parseInterest false F ctx (BR.new (bytesOf its)) = some (.ok st, r')) :
    (Late 0 its → ∃ i, v.has i = true ∧ st.1.has i = false) ∧ (¬ Late 0 its → st.1 = v) := by
  unfold parseInterest ordParse at h
  split at h
  · exact (nomatch h)
  · rename_i o r1 hloop
    injection h with h
    injection h with hfin hr1
    have := exact_run (slots := interestSlots false F) (interest_items_incr b)
      (by
        intro x hx i hs
        obtain ⟨s, hs', _⟩ := (interest_read hb hv (i := i) (t := x.typ) (body := x.body) (by cases x; simp only at hs; subst hs; exact hx) F).2
        exact (List.getElem?_eq_some_iff.mp hs').1)
      (bytesOf its) (fun p h st => st.1 = v.upto p ∧ (∀ i < p, v.has i = true → i ∈ h) ∧ ∀ i ∈ h, i < p ∧ i ≤ 13) (fun st i => st.1.has i)
      (by
        intro i t body ys p h st r tl hfr hu hB hr
        have hown : owns (⟨some i, t, body⟩ :: ys) = from_ p b.items := by
          rw [← hfr]; exact owns_from (interest_items_incr b)
        obtain ⟨a1, a2, a3, s, a4, a5, a6, a7⟩ := interest_own_step hb hv (ctx := ctx) (J1 := False) (J2 := False) False.elim
          False.elim hF
          (hi := (⟨by rw [← hfr]; exact fits_of_incr (from_incr (interest_items_incr b)), hown,
            fun x hx hn => by
              rw [← hfr] at hx
              obtain ⟨k, g1, _⟩ := (from_incr (interest_items_incr b)).ge x hx
              rw [hn] at g1; exact (nomatch g1), hu.1, hu.2.1, hu.2.2, False.elim, False.elim⟩ :
            IInv v b ctx False False (⟨some i, t, body⟩ :: ys) p h st r.pos)) hB hr
        refine ⟨a1, a2, s, a4, a5, a6, fun r2 q1 q2 q3 q4 => ?_⟩
        obtain ⟨st1, st', c1, c2, c3⟩ := a7 r2 q1 q2 q3 q4
        exact ⟨st1, st', c1, c2, c3.val, c3.handled, c3.bound⟩)
      (by
        intro p h st hn hu
        have hnp : v.has p ≠ true := by
          intro hp
          obtain ⟨x, hx, hs⟩ := interest_has_item hb hp
          exact hn x hx hs
        refine ⟨?_, fun i hi hh => hu.2.1 i ?_ hh, fun i hi => ?_⟩
        · rw [hu.1]
          exact InterestV.upto_upto (by omega) (fun i hi hlt => by
            rcases Nat.lt_or_ge i p with g | g
            · exact g
            · obtain rfl : i = p := by omega
              exact absurd hi hnp)
        · rcases Nat.lt_or_ge i p with g | g
          · exact g
          · obtain rfl : i = p := by omega
            exact absurd hh hnp
        · have := hu.2.2 i hi; omega)
      (by intro p h st i hu hp; show st.1.has i = false; rw [hu.1]; exact InterestV.upto_has hp)
      (fun i j s st st' start r hj hs hn => interest_skip_lost hj hs hn)
      (fun i j s start l st r st' r' hj hij hr hn => interest_read_lost hj hij hr hn)
      its 0 [] ({}, ctx) (BR.new (bytesOf its)) (by rw [from_zero]; exact ho)
      (by
        intro x hx hn
        obtain ⟨j1, j2, j3, j4⟩ := hj x hx hn
        refine ⟨j1, ?_, ?_⟩
        · cases hk : knows (interestSlots false F) x.typ with
          | false => rfl
          | true => exact absurd ((interest_knows F x.typ).mp hk) j2
        · unfold isCritical; simp only [decide_eq_false_iff_not, Bool.or_eq_false_iff]; simp at j3 j4 ⊢; omega)
      ⟨rfl, fun i hi => absurd hi (by omega), fun i hi => (nomatch hi)⟩ rfl (Tiny.new hl) (BR.rest_new _) (by omega) F o r1 hloop
    obtain ⟨m1, m2⟩ := this
    constructor
    · intro hlate
      obtain ⟨x, hx, i, hs, hn⟩ := m1 hlate
      refine ⟨i, interest_item_has hb hx hs, ?_⟩
      exact ordFinish_lost (has := fun (st : InterestV × InterestCtx) i => st.1.has i) (interestSlots false F) 0 _ _ (by
        intro s hs st st' e hn
        obtain ⟨j, hj⟩ := List.getElem?_of_mem hs
        exact interest_skip_lost hj e hn) hn hfin
    · intro hlate
      obtain ⟨p', q1, q2, q3, _⟩ := m2 hlate
      have hall : ∀ i, v.has i = true → i < p' := by
        intro i hi
        obtain ⟨x, hx, hs⟩ := interest_has_item hb hi
        exact from_nil q1 x hx i hs
      rw [InterestV.upto_all hall] at q2
      obtain ⟨st2, w1, w2⟩ := ordFinish_inv (h := o.handled) (r := r1)
        (fun _ st => st.1 = v) (interestSlots false F) 0 o.st q2 (by
          intro j s st hj w1
          rw [Nat.zero_add]
          by_cases hc : o.handled.contains j = true
          · rw [if_pos hc]; exact w1
          · rw [if_neg hc]
            have hn : st.1.has j = false := by
              rw [w1]
              cases hh : v.has j with
              | false => rfl
              | true => exact absurd (List.contains_iff_mem.mpr (q3 j (hall j hh) hh)) hc
            obtain ⟨st2, x1, x2, x3, _⟩ := interest_skip hj hn r1.pos r1
            exact ⟨st2, x1, by rw [x2, w1]⟩)
      rw [hfin] at w1
      injection w1 with w1
      rw [w1]; exact w2
  · exact (nomatch h)
  · exact (nomatch h)

/-! ## Packets -/

theorem packet_elem_inv {typ : Nat} {body : Bytes} (ht : typ ∈ packetTypes) (hl : body.length < 2 ^ 61) {F : Nat} {s : PacketSt} {r' : BR}
    (h : parsePacket false F (BR.new (tlv typ body)) = some (.ok s, r')) :
    ∃ r r1 : BR, BR.delegate (toInt body.length) r = (.ok (BR.new body), r1) ∧ packetRead false F typ body.length {} r = some (.ok s, r1) := by
  have ht64 : typ < 2 ^ 64 := by
    simp only [packetTypes, List.mem_cons, List.not_mem_nil, or_false] at ht
    omega
  cases F with
  | zero => exact (nomatch h)
  | succ f =>
    have hr : (BR.new (tlv typ body)).rest = tlv typ body ++ [] := by rw [BR.rest_new, List.append_nil]
    obtain ⟨e1, e2, e3, e4⟩ := readTL_two hr ht64 (by omega)
    have hlen : (tlv typ body).length < 2 ^ 62 := by
      rw [tlv_length]
      have := tlLen_le typ; have := tlLen_le body.length
      omega
    have hlen2 := tlv_length typ body
    have hd : BR.delegate (toInt body.length) (((BR.new (tlv typ body)).adv (tlLen typ)).adv (tlLen body.length)) =
        (.ok (BR.new body), (((BR.new (tlv typ body)).adv (tlLen typ)).adv (tlLen body.length)).adv body.length) := by
      rw [toInt_small (by omega), BR.delegate_ok ⟨by simp only [BR.adv_pos, BR.adv_buf, BR.new]; omega, hlen⟩ (by rw [e3]; simp), e3]
      simp
    refine ⟨_, _, hd, ?_⟩
    unfold parsePacket at h
    rw [parseLoop, if_neg (tlv_ne hr), e1] at h
    simp only at h
    rw [e2] at h
    simp only at h
    rw [if_pos (by simpa using ht)] at h
    have hb : ∀ x, packetRead false (f + 1) typ body.length {} (((BR.new (tlv typ body)).adv (tlLen typ)).adv (tlLen body.length)) = some x →
        x.2 = (((BR.new (tlv typ body)).adv (tlLen typ)).adv (tlLen body.length)).adv body.length := by
      intro x hx
      unfold packetRead at hx
      rw [hd] at hx
      simp only at hx
      split at hx
      · split at hx
        all_goals first | (injection hx with hx; rw [← hx]; done) | cases hx
      · split at hx
        · split at hx
          all_goals first | (injection hx with hx; rw [← hx]; done) | cases hx
        · split at hx
          all_goals first | (injection hx with hx; rw [← hx]; done) | cases hx
    generalize hx : packetRead false (f + 1) typ body.length {} (((BR.new (tlv typ body)).adv (tlLen typ)).adv (tlLen body.length)) = x at h hb
    match x with
    | none => exact (nomatch h)
    | some (.ok s', r2) =>
      have hr2 := hb _ rfl
      simp only at hr2
      subst hr2
      simp only at h
      cases f with
      | zero => exact (nomatch h)
      | succ f =>
        rw [parseLoop_end f (by rw [e4, BR.rest_adv, BR.rest_new, List.drop_length])] at h
        injection h with h; injection h with h _; injection h with h
        subst h; rfl
    | some (.err e, r2) => injection h with h; injection h with h _; exact (nomatch h)
    | some (.panic, r2) => injection h with h; injection h with h _; exact (nomatch h)

theorem packet_data_inv {body : Bytes} (hl : body.length < 2 ^ 61) {F : Nat} {s : PacketSt} {r' : BR}
    (h : parsePacket false F (BR.new (tlv 6 body)) = some (.ok s, r')) :
    ∃ p r, parseData false F {} (BR.new body) = some (.ok p, r) ∧ s.data = some p.1 := by
  obtain ⟨r, r1, h1, h2⟩ := packet_elem_inv (by decide) hl h
  unfold packetRead at h2
  rw [h1] at h2
  simp only at h2
  rw [if_neg (by decide), if_pos trivial] at h2
  split at h2
  · exact (nomatch h2)
  · rename_i p r2 hp
    injection h2 with h2; injection h2 with h2 _; injection h2 with h2
    exact ⟨p, r2, hp, by rw [← h2]⟩
  · injection h2 with h2; injection h2 with h2 _; exact (nomatch h2)
  · injection h2 with h2; injection h2 with h2 _; exact (nomatch h2)

theorem packet_interest_inv {body : Bytes} (hl : body.length < 2 ^ 61) {F : Nat} {s : PacketSt} {r' : BR}
    (h : parsePacket false F (BR.new (tlv 5 body)) = some (.ok s, r')) :
    ∃ p r, parseInterest false F {} (BR.new body) = some (.ok p, r) ∧ s.interest = some p.1 := by
  obtain ⟨r, r1, h1, h2⟩ := packet_elem_inv (by decide) hl h
  unfold packetRead at h2
  rw [h1] at h2
  simp only at h2
  rw [if_pos trivial] at h2
  split at h2
  · exact (nomatch h2)
  · rename_i p r2 hp
    injection h2 with h2; injection h2 with h2 _; injection h2 with h2
    exact ⟨p, r2, hp, by rw [← h2]⟩
  · injection h2 with h2; injection h2 with h2 _; exact (nomatch h2)
  · injection h2 with h2; injection h2 with h2 _; exact (nomatch h2)

end Ndn.Packet
