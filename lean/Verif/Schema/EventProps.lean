import Verif.Schema.Event

/-! # Properties of event targets: C50 -/

namespace Ndn.Schema

/-- the specification: the callbacks that were added and not removed after that, in the order in which they were added (the first operation
first) -/
def registered : List EOp → List Cb
  | [] => []
  | .add c :: ops => if .remove c ∈ ops then registered ops else c :: registered ops
  | .remove _ :: ops => registered ops
  | .dispatch :: ops => registered ops

theorem etRemove_eq (val : List Cb) (c : Cb) : etRemove val c = val.filter (· ≠ c) := by
  have : ∀ (l acc : List Cb), l.foldl (fun acc v => if v ≠ c then acc ++ [v] else acc) acc = acc ++ l.filter (· ≠ c) := by
    intro l
    induction l with
    | nil => intro acc; simp
    | cons v l ih =>
      intro acc
      rw [List.foldl_cons, ih, List.filter_cons]
      by_cases h : v = c <;> simp [h]
  exact (this val []).trans (by simp)

theorem etRun_eq (ops : List EOp) : ∀ val : List Cb, etRun ops val = val.filter (fun v => EOp.remove v ∉ ops) ++ registered ops := by
  induction ops with
  | nil => intro val; simp only [etRun, registered, List.append_nil]; exact (List.filter_eq_self.2 (by simp)).symm
  | cons op ops ih =>
    intro val
    cases op with
    | add c =>
      rw [etRun, ih, etAdd, List.filter_append, registered]
      by_cases h : EOp.remove c ∈ ops <;> simp [h]
    | remove c =>
      rw [etRun, ih, etRemove_eq, registered, List.filter_filter]
      congr 1
      apply List.filter_congr
      intro v _
      by_cases h : v = c <;> simp [h]
    | dispatch => rw [etRun, ih, registered]; simp

theorem dispatch_calls {S A : Type} (beh : Cb → S → A × S) (val : List Cb) : ∀ (nil : A) (s : S),
    ((dispatchLoop beh none val nil s).2.2.map (·.1)) = val ∧
    (dispatchLoop beh none val nil s).1 = ((dispatchLoop beh none val nil s).2.2.getLast?.map (·.2)).getD nil := by
  induction val with
  | nil => intro nil s; exact ⟨rfl, rfl⟩
  | cons v vs ih =>
    intro nil s
    obtain ⟨h1, h2⟩ := ih (beh v s).1 (beh v s).2
    have e : dispatchLoop beh none (v :: vs) nil s = ((dispatchLoop beh none vs (beh v s).1 (beh v s).2).1,
      (dispatchLoop beh none vs (beh v s).1 (beh v s).2).2.1, (v, (beh v s).1) :: (dispatchLoop beh none vs (beh v s).1 (beh v s).2).2.2) := rfl
    rw [e]
    refine ⟨by simp only [List.map_cons, h1], ?_⟩
    simp only
    rw [h2, List.getLast?_cons]
    cases (dispatchLoop beh none vs (beh v s).1 (beh v s).2).2.2.getLast? <;> rfl

/-- C50: after any operations on an event target, `Dispatch` calls exactly the callbacks that were added and not removed since, once for each
time they were added, in the order in which they were added, whatever the callbacks do (they may also add and remove callbacks), and
returns the last answer. -/
theorem C50_dispatch {S A : Type} (beh : Cb → S → A × S) (ops : List EOp) (nil : A) (s : S) :
    let r := dispatchUntil beh none nil (etRun ops []) s
    r.2.2.map (·.1) = registered ops ∧ r.1 = (r.2.2.getLast?.map (·.2)).getD nil := by
  intro r
  have h : etRun ops [] = registered ops := by rw [etRun_eq]; rfl
  obtain ⟨h1, h2⟩ := dispatch_calls beh (etRun ops []) nil s
  exact ⟨h1.trans h, h2⟩

/-- C50: a callback that was added once is called once. -/
theorem C50_once {S A : Type} (beh : Cb → S → A × S) (ops : List EOp) (nil : A) (s : S) (hn : (registered ops).Nodup) (c : Cb) :
    ((dispatchUntil beh none nil (etRun ops []) s).2.2.map (·.1)).count c = if c ∈ registered ops then 1 else 0 := by
  rw [(C50_dispatch beh ops nil s).1, List.Nodup.count hn]

/-- C50: `Remove` removes exactly that callback: the other ones stay, in their order. -/
theorem C50_remove (ops : List EOp) (c : Cb) :
    registered (ops ++ [.remove c]) = (registered ops).filter (· ≠ c) := by
  have h1 : etRun (ops ++ [.remove c]) [] = etRemove (etRun ops []) c := by
    have : ∀ (ops : List EOp) val, etRun (ops ++ [.remove c]) val = etRemove (etRun ops val) c := by
      intro ops
      induction ops with
      | nil => intro val; rfl
      | cons op ops ih => intro val; cases op <;> exact ih _
    exact this ops []
  rw [etRun_eq, etRun_eq, etRemove_eq] at h1
  simpa using h1

example : registered [.add 1, .add 2, .dispatch, .add 3, .remove 2, .add 2, .add 4] = [1, 3, 2, 4] := by decide

theorem until_spec {S A : Type} (beh : Cb → S → A × S) (accept : A → Bool) : ∀ (val : List Cb) (nil : A) (s : S),
    let r := dispatchLoop beh (some accept) val nil s
    r.2.2.map (·.1) <+: val ∧ (∀ x ∈ r.2.2.dropLast, accept x.2 = false) ∧ r.1 = (r.2.2.getLast?.map (·.2)).getD nil ∧
    ((∃ x ∈ r.2.2, accept x.2 = true) ∨ r.2.2.map (·.1) = val) := by
  intro val
  induction val with
  | nil => intro nil s; exact ⟨List.prefix_rfl, by simp [dispatchLoop], rfl, .inr rfl⟩
  | cons v vs ih =>
    intro nil s
    by_cases ha : accept (beh v s).1 = true
    · have e : dispatchLoop beh (some accept) (v :: vs) nil s = ((beh v s).1, (beh v s).2, [(v, (beh v s).1)]) := by
        rw [dispatchLoop]; simp only; rw [if_pos ha]
      rw [e]
      exact ⟨by simp, by simp, rfl, .inl ⟨(v, (beh v s).1), by simp, ha⟩⟩
    · have e : dispatchLoop beh (some accept) (v :: vs) nil s = ((dispatchLoop beh (some accept) vs (beh v s).1 (beh v s).2).1,
          (dispatchLoop beh (some accept) vs (beh v s).1 (beh v s).2).2.1,
          (v, (beh v s).1) :: (dispatchLoop beh (some accept) vs (beh v s).1 (beh v s).2).2.2) := by
        rw [dispatchLoop]; simp only; rw [if_neg ha]
      obtain ⟨h1, h2, h3, h4⟩ := ih (beh v s).1 (beh v s).2
      rw [e]
      simp only
      refine ⟨by simpa using h1, ?_, ?_, ?_⟩
      · intro x hx
        cases hc : (dispatchLoop beh (some accept) vs (beh v s).1 (beh v s).2).2.2 with
        | nil => rw [hc] at hx; simp at hx
        | cons y l =>
          rw [hc, List.dropLast_cons_cons, List.mem_cons] at hx
          rcases hx with rfl | hx
          · exact Bool.eq_false_iff.2 ha
          · exact h2 x (by rw [hc]; exact hx)
      · rw [h3, List.getLast?_cons]
        cases (dispatchLoop beh (some accept) vs (beh v s).1 (beh v s).2).2.2.getLast? <;> rfl
      · rcases h4 with ⟨x, hx, hx'⟩ | h4
        · exact .inl ⟨x, List.mem_cons_of_mem _ hx, hx'⟩
        · exact .inr (by simp only [List.map_cons, h4])

/-- C50: `DispatchUntil` calls the callbacks from the first one up to the first one whose answer is accepted, and returns that answer; if no answer
is accepted, it calls all of them and returns the last answer (`nil` if there is none). -/
theorem C50_dispatch_until {S A : Type} (beh : Cb → S → A × S) (accept : A → Bool) (ops : List EOp) (nil : A) (s : S) :
    let r := dispatchUntil beh (some accept) nil (etRun ops []) s
    r.2.2.map (·.1) <+: registered ops ∧ (∀ x ∈ r.2.2.dropLast, accept x.2 = false) ∧
      r.1 = (r.2.2.getLast?.map (·.2)).getD nil ∧
      ((∃ x ∈ r.2.2, accept x.2 = true) ∨ r.2.2.map (·.1) = registered ops) := by
  have h : etRun ops [] = registered ops := by rw [etRun_eq]; rfl
  rw [← h]
  exact until_spec beh accept _ nil s

/-- answers 0, 1, 2, … are given to the callbacks; the answer 1 is accepted -/
example : (dispatchUntil (fun c (n : Nat) => ((c, n), n + 1)) (some fun a => a.2 == 1) (0, 0) (etRun [.add 7, .add 8, .add 9] []) 0).2.2 =
    [(7, (7, 0)), (8, (8, 1))] := by decide

end Ndn.Schema
