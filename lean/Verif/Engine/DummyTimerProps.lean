import Verif.Engine.DummyTimer

/-!
# C40: the test timer fires every due event exactly once
-/

namespace Ndn.Engine.Dummy

/-! ## Specification -/

/-- labels scheduled by some operations -/
def labels : List Op → List Nat
  | [] => []
  | .schedule l _ :: ops => l :: labels ops
  | _ :: ops => labels ops

/-- when an event with label `l`, due at `due`, is to be called, given the time and the operations that follow: once, when time first is later
than `due`; never after it has been cancelled -/
def life (l : Nat) (due : Int) : Int → List Op → List Int
  | _, [] => []
  | now, .schedule _ _ :: ops => life l due now ops
  | now, .cancel l' :: ops => if l' = l then [] else life l due now ops
  | now, .move d :: ops => if due < now + d then [now + d] else life l due (now + d) ops

/-- the time after some operations -/
def clock : Int → List Op → Int
  | now, [] => now
  | now, .move d :: ops => clock (now + d) ops
  | now, _ :: ops => clock now ops

/-- the times at which `l` was called, the latest first -/
def calls (l : Nat) (s : Tm) : List Int := (s.log.filter (fun e => e.1 == l)).map (·.2)

/-- sequences of operations in which durations are not negative, every label is scheduled once, and is cancelled at most once, after it has been scheduled;
`known` and `gone` are the labels scheduled and cancelled before -/
def Proper (known gone : List Nat) : List Op → Prop
  | [] => True
  | .schedule l d :: ops => 0 ≤ d ∧ l ∉ known ∧ Proper (l :: known) gone ops
  | .cancel l :: ops => l ∈ known ∧ l ∉ gone ∧ Proper known (l :: gone) ops
  | .move d :: ops => 0 ≤ d ∧ Proper known gone ops

/-- callbacks that do not move the time and use other labels for the events they schedule; they may schedule and cancel -/
def Tame (cb : Nat → Tm → List Op) (ls : List Nat) : Prop :=
  ∀ l s op, op ∈ cb l s → (∀ d, op ≠ .move d) ∧ ∀ l' d, op = .schedule l' d → l' ∉ ls

/-! ## Invariant -/

/-- every occupied slot belongs to a known, not cancelled label that remembers it and is not past; every known label that is neither cancelled nor past
has its slot -/
structure Inv (known gone : List Nat) (s : Tm) : Prop where
  sound : ∀ (i : Nat) (t : Int) (l : Nat), s.events[i]? = some (t, some l) → l ∈ known ∧ l ∉ gone ∧ s.now ≤ t ∧ s.handle l = some (t, i)
  complete : ∀ (l : Nat), l ∈ known → ∃ t i, s.handle l = some (t, i) ∧ (l ∉ gone → s.now ≤ t → s.events[i]? = some (t, some l))
  gone_known : ∀ l ∈ gone, l ∈ known

theorem freeSlot_spec (es : List Ev) : freeSlot es ≤ es.length ∧ (freeSlot es < es.length → ∃ t, es[freeSlot es]? = some (t, none)) := by
  induction es with
  | nil => exact ⟨Nat.le_refl _, fun h => absurd h (by simp [freeSlot])⟩
  | cons e es ih =>
    obtain ⟨t, _ | l⟩ := e
    · exact ⟨Nat.zero_le _, fun _ => ⟨t, rfl⟩⟩
    · simp only [freeSlot, List.length_cons]
      refine ⟨by omega, fun h => ?_⟩
      obtain ⟨t', ht⟩ := ih.2 (by omega)
      exact ⟨t', by rw [List.getElem?_cons_succ]; exact ht⟩

theorem schedule_get (s : Tm) (l : Nat) (d : Int) (i : Nat) :
    (s.schedule l d).events[i]? = if i = freeSlot s.events then some (s.now + d, some l) else s.events[i]? := by
  obtain ⟨h1, h2⟩ := freeSlot_spec s.events
  unfold Tm.schedule
  dsimp only
  split
  · rename_i h
    split
    · rename_i hi; rw [hi, h, List.getElem?_append_right (Nat.le_refl _)]; simp
    · rename_i hi
      by_cases hlt : i < s.events.length
      · rw [List.getElem?_append_left hlt]
      · rw [List.getElem?_append_right (by omega), List.getElem?_eq_none (by simp; omega), List.getElem?_eq_none (by omega)]
  · rename_i h
    rw [List.getElem?_set]
    by_cases hi : i = freeSlot s.events
    · rw [if_pos hi.symm, if_pos (by omega), if_pos hi]
    · rw [if_neg (Ne.symm hi), if_neg hi]

theorem schedule_handle (s : Tm) (l : Nat) (d : Int) (l' : Nat) :
    (s.schedule l d).handle l' = if l' = l then some (s.now + d, freeSlot s.events) else s.handle l' := by
  unfold Tm.schedule Tm.handle
  simp only [List.find?_cons]
  by_cases h : l' = l
  · subst h; simp
  · rw [if_neg h, beq_eq_false_iff_ne.mpr (Ne.symm h)]

theorem Inv.schedule {known gone : List Nat} {s : Tm} (h : Inv known gone s) {l : Nat} {d : Int} (hd : 0 ≤ d) (hl : l ∉ known) :
    Inv (l :: known) gone (s.schedule l d) := by
  have hnow : (s.schedule l d).now = s.now := rfl
  obtain ⟨hf1, hf2⟩ := freeSlot_spec s.events
  refine ⟨?_, ?_, fun l' h' => List.mem_cons_of_mem _ (h.gone_known l' h')⟩
  · intro i t l' he
    rw [schedule_get] at he
    rw [schedule_handle, hnow]
    split at he
    · rename_i hi
      cases he
      rw [if_pos rfl, hi]
      exact ⟨List.mem_cons_self, fun hg => hl (h.gone_known _ hg), by omega, rfl⟩
    · obtain ⟨h1, h2, h3, h4⟩ := h.sound i t l' he
      rw [if_neg (by rintro rfl; exact hl h1)]
      exact ⟨List.mem_cons_of_mem _ h1, h2, h3, h4⟩
  · intro l' hl'
    rw [schedule_handle]
    by_cases hll : l' = l
    · subst hll
      rw [if_pos rfl]
      exact ⟨_, _, rfl, fun _ _ => by rw [schedule_get, if_pos rfl]⟩
    · rw [if_neg hll]
      obtain ⟨t, i, h1, h2⟩ := h.complete l' ((List.mem_cons.mp hl').resolve_left hll)
      refine ⟨t, i, h1, fun hg ht => ?_⟩
      have h3 := h2 hg ht
      rw [schedule_get, if_neg ?_]
      · exact h3
      · rintro rfl
        have hlt : freeSlot s.events < s.events.length := by
          rcases Nat.lt_or_ge (freeSlot s.events) s.events.length with hh | hh
          · exact hh
          · rw [List.getElem?_eq_none hh] at h3; cases h3
        obtain ⟨t', ht'⟩ := hf2 hlt
        rw [ht'] at h3
        cases h3

/-- cancelling a known label that was not cancelled frees its slot if it is not past, and nothing else -/
theorem Inv.cancel_get {known gone : List Nat} {s : Tm} (h : Inv known gone s) {l : Nat} (hk : l ∈ known) (hg : l ∉ gone) :
    ∃ t i, s.handle l = some (t, i) ∧
      (t < s.now → s.cancel l = s) ∧
      (s.now ≤ t → s.events[i]? = some (t, some l) ∧ s.cancel l = { s with events := s.events.set i (t, none) }) := by
  obtain ⟨t, i, h1, h2⟩ := h.complete l hk
  refine ⟨t, i, h1, fun ht => ?_, fun ht => ?_⟩
  · unfold Tm.cancel; rw [h1]; simp only [if_pos ht]
  · have h3 := h2 hg ht
    refine ⟨h3, ?_⟩
    unfold Tm.cancel; rw [h1]; simp only [if_neg (show ¬ t < s.now by omega), h3, if_true]

theorem Inv.cancel {known gone : List Nat} {s : Tm} (h : Inv known gone s) {l : Nat} (hk : l ∈ known) (hg : l ∉ gone) :
    Inv known (l :: gone) (s.cancel l) := by
  obtain ⟨t, i, h1, h2, h3⟩ := h.cancel_get hk hg
  have hgk : ∀ l' ∈ l :: gone, l' ∈ known := by
    intro l' h'
    rcases List.mem_cons.mp h' with rfl | h'
    · exact hk
    · exact h.gone_known l' h'
  by_cases ht : t < s.now
  · rw [h2 ht]
    refine ⟨?_, ?_, hgk⟩
    · intro j t' l' he
      obtain ⟨g1, g2, g3, g4⟩ := h.sound j t' l' he
      refine ⟨g1, ?_, g3, g4⟩
      intro hc
      rcases List.mem_cons.mp hc with rfl | hc
      · rw [h1] at g4; cases g4; omega
      · exact g2 hc
    · intro l' hl'
      obtain ⟨t', j, g1, g2⟩ := h.complete l' hl'
      exact ⟨t', j, g1, fun hc => g2 (fun hx => hc (List.mem_cons_of_mem _ hx))⟩
  · obtain ⟨h4, h5⟩ := h3 (by omega)
    rw [h5]
    refine ⟨?_, ?_, hgk⟩
    · intro j t' l' he
      simp only [List.getElem?_set] at he
      split at he
      · split at he <;> cases he
      · rename_i hij
        obtain ⟨g1, g2, g3, g4⟩ := h.sound j t' l' he
        refine ⟨g1, ?_, g3, g4⟩
        intro hc
        rcases List.mem_cons.mp hc with rfl | hc
        · rw [h1] at g4; cases g4; exact hij rfl
        · exact g2 hc
    · intro l' hl'
      obtain ⟨t', j, g1, g2⟩ := h.complete l' hl'
      refine ⟨t', j, g1, fun hc ht' => ?_⟩
      have g3 := g2 (fun hx => hc (List.mem_cons_of_mem _ hx)) ht'
      simp only [List.getElem?_set]
      rw [if_neg ?_]
      · exact g3
      · rintro rfl
        rw [h4] at g3
        cases g3
        exact hc List.mem_cons_self

/-! ## Moving the time -/

/-- what a tame callback leaves alone -/
theorem runOps_tame (cb : Nat → Tm → List Op) (fuel : Nat) (ls : List Nat) (ops : List Op)
    (ht : ∀ op ∈ ops, (∀ d, op ≠ .move d) ∧ ∀ l' d, op = .schedule l' d → l' ∉ ls) (s : Tm) :
    ∃ s', runOps (Tm.step cb fuel) ops s = some s' ∧ s'.now = s.now ∧ s'.log = s.log ∧ ∀ l ∈ ls, s'.handle l = s.handle l := by
  induction ops generalizing s with
  | nil => exact ⟨s, rfl, rfl, rfl, fun _ _ => rfl⟩
  | cons op ops ih =>
    have h1 := ht op List.mem_cons_self
    have ih := ih (fun o ho => ht o (List.mem_cons_of_mem _ ho))
    cases op with
    | schedule l d =>
      obtain ⟨s', g1, g2, g3, g4⟩ := ih (s.schedule l d)
      refine ⟨s', ?_, g2, g3, ?_⟩
      · unfold runOps; unfold Tm.step; exact g1
      · intro l' hl'
        rw [g4 l' hl', schedule_handle, if_neg]
        rintro rfl
        exact h1.2 _ d rfl hl'
    | cancel l =>
      obtain ⟨s', g1, g2, g3, g4⟩ := ih (s.cancel l)
      have hc : (s.cancel l).now = s.now ∧ (s.cancel l).log = s.log ∧ (s.cancel l).handles = s.handles := by
        unfold Tm.cancel
        (repeat' split) <;> exact ⟨rfl, rfl, rfl⟩
      refine ⟨s', ?_, g2.trans hc.1, g3.trans hc.2.1, ?_⟩
      · unfold runOps; unfold Tm.step; exact g1
      · intro l' hl'
        rw [g4 l' hl']
        unfold Tm.handle
        rw [hc.2.2]
    | move d => exact absurd rfl (h1.1 d)

/-- the labels that are due -/
def due (now : Int) (es : List Ev) : List Nat := es.filterMap (fun e => if e.1 < now then e.2 else none)

/-- the loop of `MoveForward` with tame callbacks -/
theorem moveLoop_tame (cb : Nat → Tm → List Op) (fuel : Nat) (ls : List Nat) (ht : Tame cb ls) (es : List Ev) (s : Tm) :
    ∃ s', moveLoop (Tm.step cb fuel) cb es s = some (s', es.map (fun e => (e.1, if e.1 < s.now then none else e.2))) ∧ s'.now = s.now ∧
      s'.log = ((due s.now es).map (fun l => (l, s.now))).reverse ++ s.log ∧ ∀ l ∈ ls, s'.handle l = s.handle l := by
  induction es generalizing s with
  | nil => exact ⟨s, rfl, rfl, rfl, fun _ _ => rfl⟩
  | cons e es ih =>
    obtain ⟨t, _ | l⟩ := e
    · obtain ⟨s', g1, g2, g3, g4⟩ := ih s
      refine ⟨s', ?_, g2, ?_, g4⟩
      · unfold moveLoop; rw [g1]; simp
      · rw [g3]; simp [due]
    · unfold moveLoop
      by_cases h : t < s.now
      · obtain ⟨s1, f1, f2, f3, f4⟩ := runOps_tame cb fuel ls (cb l s) (fun op ho => ht l s op ho) { s with log := (l, s.now) :: s.log }
        obtain ⟨s', g1, g2, g3, g4⟩ := ih s1
        simp only at f2 f3
        refine ⟨s', ?_, g2.trans f2, ?_, ?_⟩
        · rw [if_pos h, f1]
          simp only [g1, f2]
          simp [h]
        · rw [g3, f2, f3]
          simp [due, List.filterMap_cons, h]
        · intro l' hl'
          rw [g4 l' hl', f4 l' hl']
          rfl
      · obtain ⟨s', g1, g2, g3, g4⟩ := ih s
        refine ⟨s', ?_, g2, ?_, g4⟩
        · rw [if_neg h, g1]; simp [h]
        · rw [g3]; simp [due, List.filterMap_cons, h]

theorem move_tame (cb : Nat → Tm → List Op) (fuel : Nat) (ls : List Nat) (ht : Tame cb ls) (s : Tm) (d : Int) :
    ∃ s', Tm.step cb (fuel + 1) s (.move d) = some s' ∧ s'.now = s.now + d ∧
      s'.events = s.events.map (fun e => (e.1, if e.1 < s.now + d then none else e.2)) ∧
      s'.log = ((due (s.now + d) s.events).map (fun l => (l, s.now + d))).reverse ++ s.log ∧ ∀ l ∈ ls, s'.handle l = s.handle l := by
  obtain ⟨s', g1, g2, g3, g4⟩ := moveLoop_tame cb fuel ls ht s.events { s with now := s.now + d }
  refine ⟨{ s' with events := s.events.map (fun e => (e.1, if e.1 < s.now + d then none else e.2)) }, ?_, g2, rfl, g3, g4⟩
  unfold Tm.step
  rw [g1]

theorem moved_get (es : List Ev) (now : Int) (i : Nat) (t : Int) (l : Nat) :
    (es.map (fun e => ((e.1, if e.1 < now then none else e.2) : Ev)))[i]? = some (t, some l) ↔ es[i]? = some (t, some l) ∧ now ≤ t := by
  rw [List.getElem?_map]
  cases h : es[i]? with
  | none => simp
  | some e =>
    obtain ⟨t', f⟩ := e
    simp only [Option.map_some, Option.some.injEq, Prod.mk.injEq]
    constructor
    · rintro ⟨rfl, h2⟩
      split at h2
      · cases h2
      · exact ⟨⟨rfl, h2⟩, by omega⟩
    · rintro ⟨⟨rfl, h2⟩, h3⟩
      exact ⟨rfl, by rw [if_neg (by omega)]; exact h2⟩

theorem Inv.move {known gone : List Nat} {s s' : Tm} (h : Inv known gone s) {d : Int} (hd : 0 ≤ d) (hn : s'.now = s.now + d)
    (he : s'.events = s.events.map (fun e => (e.1, if e.1 < s.now + d then none else e.2)))
    (hh : ∀ l ∈ known, s'.handle l = s.handle l) : Inv known gone s' := by
  refine ⟨?_, ?_, h.gone_known⟩
  · intro i t l hg
    rw [he, moved_get] at hg
    obtain ⟨h1, h2, h3, h4⟩ := h.sound i t l hg.1
    rw [hh l h1, hn]
    exact ⟨h1, h2, hg.2, h4⟩
  · intro l hl
    obtain ⟨t, i, h1, h2⟩ := h.complete l hl
    refine ⟨t, i, by rw [hh l hl]; exact h1, fun hg ht => ?_⟩
    rw [hn] at ht
    rw [he, moved_get]
    exact ⟨h2 hg (by omega), ht⟩

/-! ## How often a label is called -/

theorem calls_move (l : Nat) (now : Int) (es : List Ev) (s s' : Tm)
    (hlog : s'.log = ((due now es).map (fun l => (l, now))).reverse ++ s.log) :
    calls l s' = List.replicate ((due now es).count l) now ++ calls l s := by
  unfold calls
  rw [hlog, List.filter_append, List.map_append]
  congr 1
  rw [List.eq_replicate_iff]
  constructor
  · rw [List.length_map, ← List.countP_eq_length_filter, List.countP_reverse, List.countP_map, List.count]
    rfl
  · intro b hb
    obtain ⟨e, he, rfl⟩ := List.mem_map.mp hb
    have := (List.mem_filter.mp he).1
    rw [List.mem_reverse] at this
    obtain ⟨x, _, rfl⟩ := List.mem_map.mp this
    rfl

open Classical in
/-- a label sits in one slot only -/
theorem due_count {known gone : List Nat} {s : Tm} (h : Inv known gone s) (l : Nat) (now : Int) :
    (due now s.events).count l = if ∃ (t : Int) (i : Nat), s.events[i]? = some (t, some l) ∧ t < now then 1 else 0 := by
  have key : ∀ (es : List Ev), (∀ (i j : Nat) (t t' : Int), es[i]? = some (t, some l) → es[j]? = some (t', some l) → i = j) →
      (due now es).count l = if ∃ (t : Int) (i : Nat), es[i]? = some (t, some l) ∧ t < now then 1 else 0 := by
    intro es
    induction es with
    | nil => intro _; rw [if_neg]; rfl; rintro ⟨t, i, h, _⟩; cases h
    | cons e es ih =>
      intro hinj
      have ih := ih (fun i j t t' hi hj => by
        have := hinj (i + 1) (j + 1) t t' (by simpa using hi) (by simpa using hj)
        omega)
      have hsplit : (∃ (t : Int) (i : Nat), (e :: es)[i]? = some (t, some l) ∧ t < now) ↔
          (e.2 = some l ∧ e.1 < now) ∨ ∃ (t : Int) (i : Nat), es[i]? = some (t, some l) ∧ t < now := by
        constructor
        · rintro ⟨t, _ | i, h1, h2⟩
          · rw [List.getElem?_cons_zero] at h1
            cases h1
            exact .inl ⟨rfl, h2⟩
          · rw [List.getElem?_cons_succ] at h1
            exact .inr ⟨t, i, h1, h2⟩
        · rintro (⟨h1, h2⟩ | ⟨t, i, h1, h2⟩)
          · exact ⟨e.1, 0, by rw [List.getElem?_cons_zero, ← h1], h2⟩
          · exact ⟨t, i + 1, by rw [List.getElem?_cons_succ]; exact h1, h2⟩
      have hcount : (due now (e :: es)).count l = (due now es).count l + if e.2 = some l ∧ e.1 < now then 1 else 0 := by
        unfold due
        rw [List.filterMap_cons]
        by_cases h1 : e.1 < now
        · simp only [if_pos h1]
          cases h2 : e.2 with
          | none => simp
          | some l' =>
            simp only [List.count_cons, Option.some.injEq, h1, and_true]
            by_cases h3 : l' = l <;> simp [h3]
        · simp [if_neg h1, h1]
      rw [hcount, ih]
      by_cases h1 : e.2 = some l ∧ e.1 < now
      · have h2 : ¬ ∃ (t : Int) (i : Nat), es[i]? = some (t, some l) ∧ t < now := by
          rintro ⟨t, i, h2, _⟩
          have := hinj 0 (i + 1) e.1 t (by rw [List.getElem?_cons_zero, ← h1.1]) (by rw [List.getElem?_cons_succ]; exact h2)
          omega
        rw [if_pos h1, if_neg h2, if_pos (hsplit.mpr (.inl h1))]
      · rw [if_neg h1]
        by_cases h2 : ∃ (t : Int) (i : Nat), es[i]? = some (t, some l) ∧ t < now
        · rw [if_pos h2, if_pos (hsplit.mpr (.inr h2))]
        · rw [if_neg h2, if_neg (fun h3 => (hsplit.mp h3).elim h1 h2)]
  apply key
  intro i j t t' hi hj
  have h1 := (h.sound i t l hi).2.2.2
  have h2 := (h.sound j t' l hj).2.2.2
  rw [h1] at h2
  cases h2
  rfl

open Classical in
/-- from a state of the main program on -/
theorem run_spec (cb : Nat → Tm → List Op) (fuel : Nat) (ls : List Nat) (ht : Tame cb ls) (ops : List Op) :
    ∀ (known gone : List Nat) (s : Tm), Inv known gone s → Proper known gone ops → (∀ l ∈ known, l ∈ ls) → (∀ l ∈ labels ops, l ∈ ls) →
      ∃ s', run cb (fuel + 1) ops s = some s' ∧ s'.now = clock s.now ops ∧
        ∀ l ∈ known, ∃ t i, s.handle l = some (t, i) ∧
          calls l s' = if l ∉ gone ∧ s.now ≤ t then (life l t s.now ops) ++ calls l s else calls l s := by
  induction ops with
  | nil =>
    intro known gone s hi _ _ _
    refine ⟨s, rfl, rfl, fun l hl => ?_⟩
    obtain ⟨t, i, h1, _⟩ := hi.complete l hl
    exact ⟨t, i, h1, by simp [life]⟩
  | cons op ops ih =>
    intro known gone s hi hp hk hl
    cases op with
    | schedule l d =>
      obtain ⟨hd, hnk, hp⟩ := hp
      obtain ⟨s', g1, g2, g3⟩ := ih (l :: known) gone (s.schedule l d) (hi.schedule hd hnk) hp
        (fun l' h' => by
          rcases List.mem_cons.mp h' with rfl | h'
          · exact hl _ List.mem_cons_self
          · exact hk l' h')
        (fun l' h' => hl l' (List.mem_cons_of_mem _ h'))
      refine ⟨s', by unfold run runOps; unfold Tm.step; exact g1, g2, fun l' hl' => ?_⟩
      obtain ⟨t, i, f1, f2⟩ := g3 l' (List.mem_cons_of_mem _ hl')
      rw [schedule_handle, if_neg (by rintro rfl; exact hnk hl')] at f1
      exact ⟨t, i, f1, f2⟩
    | cancel l =>
      obtain ⟨hlk, hlg, hp⟩ := hp
      obtain ⟨s', g1, g2, g3⟩ := ih known (l :: gone) (s.cancel l) (hi.cancel hlk hlg) hp hk hl
      have hc : (s.cancel l).now = s.now ∧ (s.cancel l).log = s.log ∧ (s.cancel l).handles = s.handles := by
        unfold Tm.cancel
        (repeat' split) <;> exact ⟨rfl, rfl, rfl⟩
      refine ⟨s', by unfold run runOps; unfold Tm.step; exact g1, by rw [g2, hc.1]; rfl, fun l' hl' => ?_⟩
      obtain ⟨t, i, f1, f2⟩ := g3 l' hl'
      have hh : (s.cancel l).handle l' = s.handle l' := by unfold Tm.handle; rw [hc.2.2]
      have hcl : calls l' (s.cancel l) = calls l' s := by unfold calls; rw [hc.2.1]
      rw [hh] at f1
      refine ⟨t, i, f1, ?_⟩
      rw [f2, hcl, hc.1]
      simp only [life]
      by_cases hll : l = l'
      · subst hll
        simp
      · have : l' ∉ l :: gone ↔ l' ∉ gone := by simp [Ne.symm hll]
        simp only [this, if_neg hll]
    | move d =>
      obtain ⟨hd, hp⟩ := hp
      obtain ⟨s1, e1, e2, e3, e4, e5⟩ := move_tame cb fuel ls ht s d
      have hi' := hi.move hd e2 e3 (fun l hl => e5 l (hk l hl))
      obtain ⟨s', g1, g2, g3⟩ := ih known gone s1 hi' hp hk hl
      refine ⟨s', ?_, by rw [g2, e2]; rfl, fun l hlk => ?_⟩
      · unfold run runOps
        rw [e1]
        exact g1
      · obtain ⟨t, i, f1, f2⟩ := g3 l hlk
        rw [e5 l (hk l hlk)] at f1
        refine ⟨t, i, f1, ?_⟩
        rw [f2, e2, calls_move l _ _ s s1 e4, due_count hi]
        obtain ⟨t', i', c1, c2⟩ := hi.complete l hlk
        rw [f1] at c1
        cases c1
        simp only [life]
        have hex : (∃ (t'' : Int) (i'' : Nat), s.events[i'']? = some (t'', some l) ∧ t'' < s.now + d) ↔ l ∉ gone ∧ s.now ≤ t ∧ t < s.now + d := by
          constructor
          · rintro ⟨t'', i'', h1, h2⟩
            obtain ⟨h3, h4, h5, h6⟩ := hi.sound _ _ _ h1
            rw [f1] at h6
            cases h6
            exact ⟨h4, h5, h2⟩
          · rintro ⟨h1, h2, h3⟩
            exact ⟨t, i, c2 h1 h2, h3⟩
        simp only [hex]
        by_cases h1 : l ∉ gone
        · by_cases h2 : s.now ≤ t
          · by_cases h3 : t < s.now + d
            · rw [if_neg (by omega), if_pos ⟨h1, h2, h3⟩, if_pos ⟨h1, h2⟩, if_pos h3]; rfl
            · rw [if_pos ⟨h1, by omega⟩, if_neg (fun h => h3 h.2.2), if_pos ⟨h1, h2⟩, if_neg h3]; rfl
          · rw [if_neg (by omega), if_neg (fun h => h2 h.2.1), if_neg (fun h => h2 h.2)]; rfl
        · rw [if_neg (fun h => h1 h.1), if_neg (fun h => h1 h.1), if_neg (fun h => h1 h.1)]; rfl

theorem clock_append (now : Int) (a b : List Op) : clock now (a ++ b) = clock (clock now a) b := by
  induction a generalizing now with
  | nil => rfl
  | cons op a ih => cases op <;> exact ih _

theorem runOps_append (f : Tm → Op → Option Tm) (a b : List Op) (s : Tm) :
    runOps f (a ++ b) s = (runOps f a s).bind (runOps f b) := by
  induction a generalizing s with
  | nil => rfl
  | cons op a ih =>
    simp only [List.cons_append, runOps]
    cases f s op with
    | none => rfl
    | some s' => exact ih s'

/-- the invariant holds at every moment of the main program -/
theorem run_inv (cb : Nat → Tm → List Op) (fuel : Nat) (ls : List Nat) (ht : Tame cb ls) (a b : List Op) :
    ∀ (known gone : List Nat) (s : Tm), Inv known gone s → Proper known gone (a ++ b) → (∀ l ∈ known, l ∈ ls) → (∀ l ∈ labels a, l ∈ ls) →
      (∀ e ∈ s.log, e.1 ∈ known) →
      ∃ s' known' gone', run cb (fuel + 1) a s = some s' ∧ s'.now = clock s.now a ∧ Inv known' gone' s' ∧ Proper known' gone' b ∧
        (∀ l ∈ known', l ∈ ls) ∧ (∀ e ∈ s'.log, e.1 ∈ known') := by
  induction a with
  | nil => intro known gone s hi hp hk _ hlog; exact ⟨s, known, gone, rfl, rfl, hi, hp, hk, hlog⟩
  | cons op a ih =>
    intro known gone s hi hp hk hl hlog
    cases op with
    | schedule l d =>
      obtain ⟨hd, hnk, hp⟩ := hp
      obtain ⟨s', k', g', h1, h2⟩ := ih (l :: known) gone (s.schedule l d) (hi.schedule hd hnk) hp
        (fun l' h' => by
          rcases List.mem_cons.mp h' with rfl | h'
          · exact hl _ List.mem_cons_self
          · exact hk l' h')
        (fun l' h' => hl l' (List.mem_cons_of_mem _ h')) (fun e he => List.mem_cons_of_mem _ (hlog e he))
      exact ⟨s', k', g', by unfold run runOps; unfold Tm.step; exact h1, h2⟩
    | cancel l =>
      obtain ⟨hlk, hlg, hp⟩ := hp
      have hc : (s.cancel l).now = s.now ∧ (s.cancel l).log = s.log := by
        unfold Tm.cancel
        (repeat' split) <;> exact ⟨rfl, rfl⟩
      obtain ⟨s', k', g', h1, h2, h3⟩ := ih known (l :: gone) (s.cancel l) (hi.cancel hlk hlg) hp hk hl (by rw [hc.2]; exact hlog)
      exact ⟨s', k', g', by unfold run runOps; unfold Tm.step; exact h1, by rw [h2, hc.1]; rfl, h3⟩
    | move d =>
      obtain ⟨hd, hp⟩ := hp
      obtain ⟨s1, e1, e2, e3, e4, e5⟩ := move_tame cb fuel ls ht s d
      obtain ⟨s', k', g', h1, h2, h3⟩ := ih known gone s1 (hi.move hd e2 e3 (fun l hl => e5 l (hk l hl))) hp hk hl (by
        intro e he
        rw [e4] at he
        rcases List.mem_append.mp he with he | he
        · rw [List.mem_reverse] at he
          obtain ⟨l, hl, rfl⟩ := List.mem_map.mp he
          obtain ⟨x, hx, hxl⟩ := List.mem_filterMap.mp hl
          obtain ⟨i, hi'⟩ := List.mem_iff_getElem?.mp hx
          obtain ⟨t, f⟩ := x
          simp only at hxl
          split at hxl
          · cases hxl
            exact (hi.sound i t l hi').1
          · cases hxl
        · exact hlog e he)
      exact ⟨s', k', g', by unfold run runOps; rw [e1]; exact h1, by rw [h2, e2]; rfl, h3⟩

/-! ## C40 -/

/-- C40: in any sequence of `Schedule`, cancel and `MoveForward` in which durations are not negative and each event is cancelled at most once, an
event is called exactly as `life` says: once, when the time first is later than its due time, and not at all if it was cancelled
before.  Callbacks may schedule and cancel further events, but not move the time.
Missing, because the code fails there: events that callbacks schedule or cancel (`C40_callback_violated`), a second call of a cancel
function (`C40_double_cancel_violated`), time moved by a callback (`C40_nested_move_diverges`). -/
theorem C40_exactly_once_partial (cb : Nat → Tm → List Op) (fuel : Nat) (before after : List Op) (l : Nat) (d : Int)
    (hp : Proper [] [] (before ++ .schedule l d :: after)) (ht : Tame cb (labels (before ++ .schedule l d :: after))) :
    ∃ s, run cb (fuel + 1) (before ++ .schedule l d :: after) {} = some s ∧
      calls l s = life l (clock 0 before + d) (clock 0 before) after := by
  have hlab : ∀ (a b : List Op), labels (a ++ b) = labels a ++ labels b := by
    intro a b
    induction a with
    | nil => rfl
    | cons op a ih => cases op <;> simp [labels, ih]
  have h0 : Inv [] [] ({} : Tm) := ⟨fun i t l h => by simp at h, fun l h => (nomatch h), fun l h => (nomatch h)⟩
  obtain ⟨s1, known, gone, h1, h2, h3, h4, h5, h6⟩ := run_inv cb fuel _ ht before (.schedule l d :: after) [] [] {} h0 hp (fun l h => (nomatch h))
    (fun l' h' => by rw [hlab]; exact List.mem_append_left _ h') (fun e h => (nomatch h))
  obtain ⟨hd, hnk, hp'⟩ := h4
  obtain ⟨s, g1, g2, g3⟩ := run_spec cb fuel _ ht after (l :: known) gone (s1.schedule l d) (h3.schedule hd hnk) hp'
    (fun l' h' => by
      rcases List.mem_cons.mp h' with rfl | h'
      · rw [hlab]; exact List.mem_append_right _ List.mem_cons_self
      · exact h5 l' h')
    (fun l' h' => by rw [hlab]; exact List.mem_append_right _ (List.mem_cons_of_mem _ h'))
  refine ⟨s, ?_, ?_⟩
  · unfold run at h1 g1 ⊢
    rw [runOps_append, h1, Option.bind_some]
    unfold runOps; unfold Tm.step; exact g1
  · obtain ⟨t, i, f1, f2⟩ := g3 l List.mem_cons_self
    rw [schedule_handle, if_pos rfl] at f1
    cases f1
    have hcalls : calls l (s1.schedule l d) = [] := by
      unfold calls
      rw [List.map_eq_nil_iff, List.filter_eq_nil_iff]
      intro e he hel
      rw [beq_iff_eq] at hel
      exact hnk (hel ▸ h6 e he)
    have hng : l ∉ gone := fun hg => hnk (h3.gone_known l hg)
    have hnow : (s1.schedule l d).now = clock 0 before := h2
    have hnow' : s1.now = clock 0 before := h2
    rw [f2, hcalls, hnow, hnow', if_pos ⟨hng, by omega⟩, List.append_nil]

/-- what `life` says: at most one call, at a time later than the due time, the first such time the clock shows; none if cancelled before -/
theorem C40_life_sound (l : Nat) (due now : Int) (ops : List Op) :
    (life l due now ops = [] ∨ ∃ pre d post, ops = pre ++ .move d :: post ∧ .cancel l ∉ pre ∧
      life l due now ops = [clock now (pre ++ [.move d])] ∧ due < clock now (pre ++ [.move d])) ∧
    (∀ pre d post, ops = pre ++ .move d :: post → .cancel l ∉ pre → due < clock now (pre ++ [.move d]) → ∃ t, life l due now ops = [t]) := by
  induction ops generalizing now with
  | nil => exact ⟨.inl rfl, fun pre d post h => by simp at h⟩
  | cons op ops ih =>
    have lift : ∀ now', clock now' [] = now' → (∀ rest, clock now (op :: rest) = clock now' rest) → op ≠ .cancel l →
        life l due now (op :: ops) = life l due now' ops → (∀ d, op = .move d → ¬ due < now + d) →
        (life l due now (op :: ops) = [] ∨ ∃ pre d post, op :: ops = pre ++ .move d :: post ∧ .cancel l ∉ pre ∧
          life l due now (op :: ops) = [clock now (pre ++ [.move d])] ∧ due < clock now (pre ++ [.move d])) ∧
        (∀ pre d post, op :: ops = pre ++ .move d :: post → .cancel l ∉ pre → due < clock now (pre ++ [.move d]) →
          ∃ t, life l due now (op :: ops) = [t]) := by
      intro now' _ hclk hne hlife hnd
      obtain ⟨i1, i2⟩ := ih now'
      rw [hlife]
      refine ⟨?_, ?_⟩
      · rcases i1 with i1 | ⟨pre, d, post, e1, e2, e3, e4⟩
        · exact .inl i1
        · refine .inr ⟨op :: pre, d, post, by rw [e1]; rfl, ?_, ?_, ?_⟩
          · intro h
            rcases List.mem_cons.mp h with h | h
            · exact hne h.symm
            · exact e2 h
          · rw [List.cons_append, hclk]; exact e3
          · rw [List.cons_append, hclk]; exact e4
      · intro pre d post e1 e2 e3
        cases pre with
        | nil =>
          rw [List.nil_append] at e1
          cases e1
          exact absurd e3 (hnd d rfl)
        | cons p pre =>
          rw [List.cons_append] at e1
          cases e1
          rw [List.cons_append, hclk] at e3
          exact i2 pre d post rfl (fun h => e2 (List.mem_cons_of_mem _ h)) e3
    cases op with
    | schedule l' d => exact lift now rfl (fun _ => rfl) (by simp) rfl (by simp)
    | cancel l' =>
      by_cases h : l' = l
      · subst h
        refine ⟨.inl (by simp [life]), ?_⟩
        intro pre d post e1 e2 e3
        cases pre with
        | nil => rw [List.nil_append] at e1; cases e1
        | cons p pre =>
          rw [List.cons_append] at e1
          cases e1
          exact absurd List.mem_cons_self e2
      · exact lift now rfl (fun _ => rfl) (by simp [h]) (by simp [life, h]) (by simp)
    | move d =>
      by_cases h : due < now + d
      · refine ⟨.inr ⟨[], d, ops, rfl, by simp, by simp [life, h, clock], by simpa [clock] using h⟩, ?_⟩
        intro _ _ _ _ _ _
        exact ⟨now + d, by simp [life, h]⟩
      · refine lift (now + d) rfl (fun _ => rfl) (by simp) (by simp [life, h]) ?_
        intro d' hd'
        cases hd'
        exact h

/-- callbacks that do nothing -/
def quiet : Nat → Tm → List Op := fun _ _ => []

example : Proper [] [] [.schedule 1 5, .schedule 2 7, .move 5, .cancel 2, .schedule 3 1, .move 1, .move 0, .move 4] := by
  simp [Proper]
example : Tame (fun l _ => [.schedule (l + 10) 2, .cancel 3]) [1, 2, 3] := by
  intro l s op h
  simp only [List.mem_cons, List.not_mem_nil, or_false] at h
  rcases h with rfl | rfl
  · refine ⟨by simp, ?_⟩
    intro l' d hd
    cases hd
    simp only [List.mem_cons, List.not_mem_nil, or_false]
    omega
  · exact ⟨by simp, by simp⟩
example : (run quiet 1 [.schedule 1 5, .schedule 2 7, .move 5, .cancel 2, .schedule 3 1, .move 1, .move 0, .move 4] {}).map (·.log) =
    some [(3, 10), (1, 6)] := by decide
example : life 1 5 0 [.schedule 2 7, .move 5, .cancel 2, .schedule 3 1, .move 1, .move 0, .move 4] = [6] := by decide

/-- the code violates C40 (1): a second call of a cancel function cancels the event that has taken over the slot, if it is due at the same time -/
theorem C40_double_cancel_violated :
    .cancel 2 ∉ [Op.schedule 1 10, .cancel 1, .schedule 2 10, .cancel 1, .move 20] ∧
    (run quiet 1 [.schedule 1 10, .cancel 1, .schedule 2 10, .cancel 1, .move 20] {}).map (fun s => (s.now, calls 2 s)) = some (20, []) := by
  decide

/-- the code violates C40 (2): an event that a callback schedules is lost, and one that it cancels fires nevertheless -/
theorem C40_callback_violated :
    (let cb : Nat → Tm → List Op := fun l _ => if l = 1 then [.schedule 2 10] else []
     (run cb 1 [.schedule 1 10, .move 20, .move 100] {}).map (fun s => (s.now, calls 1 s, calls 2 s)) = some (120, [20], [])) ∧
    (let cb : Nat → Tm → List Op := fun l _ => if l = 1 then [.cancel 2] else []
     (run cb 1 [.schedule 1 10, .schedule 2 50, .move 20, .move 100] {}).map (fun s => (calls 1 s, calls 2 s)) = some ([20], [120])) := by
  decide

/-- the code violates C40 (3): a callback that moves the time is called again by the nested `MoveForward`, without end -/
theorem C40_nested_move_diverges (fuel : Nat) :
    run (fun _ _ => [.move 1]) fuel [.schedule 1 10, .move 20] {} = none := by
  have key : ∀ (fuel : Nat) (s : Tm) (d : Int) (t : Int), s.events = [(t, some 1)] → t < s.now + d → 0 ≤ d →
      Tm.step (fun _ _ => [.move 1]) fuel s (.move d) = none := by
    intro fuel
    induction fuel with
    | zero => intros; rfl
    | succ fuel ih =>
      intro s d t he ht hd
      have : moveLoop (Tm.step (fun _ _ => [.move 1]) fuel) (fun _ _ => [.move 1]) s.events { s with now := s.now + d } = none := by
        have h1 := ih { s with now := s.now + d, log := (1, s.now + d) :: s.log } 1 t he (by show t < s.now + d + 1; omega) (by omega)
        rw [he]
        unfold moveLoop
        rw [if_pos (by exact ht)]
        unfold runOps
        rw [he] at h1
        simp only [he, h1]
      unfold Tm.step
      rw [this]
  unfold run runOps
  unfold Tm.step
  simp only
  unfold runOps
  rw [key fuel _ 20 10 rfl (by decide) (by decide)]

end Ndn.Engine.Dummy
