import Verif.Util.HeapLemmas

/-!
# The heap keeps its order and loses nothing (C42); the priority queue (C43)
-/

namespace Ndn.Util

section Heap
variable {V : Type}

/-- operations of a client of the heap; `update i v` is `h[i] = v` followed by `Fix(h, i)` -/
inductive HOp (V : Type) where
  | push (v : V)
  | pop
  | remove (i : Nat)
  | update (i : Nat) (v : V)

/-- one operation on the slice; the second component collects what was taken out (popped, removed or overwritten), latest first; `none`
is a panic -/
def hstep (lt : V → V → Bool) (s : List V × List V) : HOp V → Option (List V × List V)
  | .push v => (push (sliceIface lt) s.1 v).map (fun h' => (h', s.2))
  | .pop => (pop (sliceIface lt) s.1).map (fun r => (r.2, r.1 :: s.2))
  | .remove i => (remove (sliceIface lt) s.1 i).map (fun r => (r.2, r.1 :: s.2))
  | .update i v =>
    match s.1[i]? with
    | none => none
    | some old => (fix (sliceIface lt) (s.1.set i v) i).map (fun h' => (h', old :: s.2))

/-- `Init` on a slice, then operations (the latest first in the list) -/
def heapAfter (lt : V → V → Bool) (start : List V) : List (HOp V) → Option (List V × List V)
  | [] => (init (sliceIface lt) start).map (fun h => (h, []))
  | op :: ops => (heapAfter lt start ops).bind (fun s => hstep lt s op)

/-- what was put in: the initial elements and those pushed or written by the operations -/
def putIn (start : List V) : List (HOp V) → List V
  | [] => start
  | .push v :: ops => v :: putIn start ops
  | .update _ v :: ops => v :: putIn start ops
  | .pop :: ops => putIn start ops
  | .remove _ :: ops => putIn start ops

theorem slice_lawful (lt : V → V → Bool) : Lawful (sliceIface lt) (fun _ => True) id id lt where
  len := fun _ _ => rfl
  less := by
    intro s i j a b _ ha hb
    simp only [id] at ha hb
    simp [sliceIface, ha, hb]
  swap := by
    intro s i j a b _ ha hb
    simp only [id] at ha hb
    exact ⟨(s.set i b).set j a, by simp [sliceIface, ha, hb], trivial, rfl⟩
  push := fun _ _ _ => ⟨trivial, rfl⟩
  pop := by
    intro s l x _ hs
    simp only [id] at hs
    subst hs
    exact ⟨x, l, by simp [sliceIface], trivial, rfl, rfl⟩

theorem set_perm {l : List V} {i : Nat} {old v : V} (h : l[i]? = some old) : (old :: l.set i v).Perm (v :: l) := by
  induction l generalizing i with
  | nil => simp at h
  | cons a l ih =>
    cases i with
    | zero =>
      simp only [List.getElem?_cons_zero, Option.some.injEq] at h
      subst h
      exact List.Perm.swap _ _ _
    | succ i =>
      rw [List.getElem?_cons_succ] at h
      rw [List.set_cons_succ]
      exact (List.Perm.swap a old _).trans (((ih h).cons a).trans (List.Perm.swap v a l))

theorem heapAfter_inv {lt : V → V → Bool} (hO : StrictWeak lt) (start : List V) (ops : List (HOp V)) (h out : List V)
    (hr : heapAfter lt start ops = some (h, out)) : IsHeap lt h ∧ (putIn start ops).Perm (out ++ h) := by
  induction ops generalizing h out with
  | nil =>
    obtain ⟨h', h1, _, h2, h3⟩ := init_spec (slice_lawful lt) hO (s := start) trivial
    rw [heapAfter, h1] at hr
    simp only [Option.map_some, Option.some.injEq, Prod.mk.injEq] at hr
    obtain ⟨rfl, rfl⟩ := hr
    exact ⟨h3, h2.symm⟩
  | cons op ops ih =>
    rw [heapAfter] at hr
    cases hp : heapAfter lt start ops with
    | none => rw [hp] at hr; cases hr
    | some s =>
      obtain ⟨h0, out0⟩ := s
      obtain ⟨hh, hperm⟩ := ih h0 out0 hp
      rw [hp, Option.bind_some] at hr
      cases op with
      | push v =>
        obtain ⟨h', h1, _, h2, h3⟩ := push_spec (slice_lawful lt) hO (s := h0) trivial hh v
        simp only [hstep, h1, Option.map_some, Option.some.injEq, Prod.mk.injEq] at hr
        obtain ⟨rfl, rfl⟩ := hr
        refine ⟨h3, ?_⟩
        simp only [putIn]
        exact ((hperm.cons v).trans List.perm_middle.symm).trans (List.Perm.append_left _ h2.symm)
      | pop =>
        by_cases hne : h0 = []
        · subst hne; cases hr
        · obtain ⟨x, h', h1, _, h2, h3, _⟩ := pop_spec (slice_lawful lt) hO (s := h0) trivial hh hne
          simp only [hstep, h1, Option.map_some, Option.some.injEq, Prod.mk.injEq] at hr
          obtain ⟨rfl, rfl⟩ := hr
          refine ⟨h3, ?_⟩
          simp only [putIn]
          exact (hperm.trans (List.Perm.append_left _ h2)).trans List.perm_middle
      | remove i =>
        cases hx : h0[i]? with
        | none =>
          exfalso
          have hi : h0.length ≤ i := List.getElem?_eq_none_iff.mp hx
          have hnone : remove (sliceIface lt) h0 i = none := by
            unfold remove
            by_cases h0' : (sliceIface lt).len h0 = 0
            · rw [if_pos h0']
            · rw [if_neg h0']
              have h0'' : h0.length ≠ 0 := h0'
              rw [if_neg (show ¬ (sliceIface lt).len h0 - 1 = i by show ¬ h0.length - 1 = i; omega)]
              have : (sliceIface lt).swap h0 i ((sliceIface lt).len h0 - 1) = none := by simp [sliceIface, hx]
              rw [this]
          simp only [hstep, hnone] at hr
          cases hr
        | some x =>
          obtain ⟨v, h', h1, _, hw, h2, h3⟩ := remove_spec (slice_lawful lt) hO (s := h0) trivial hh i x hx
          simp only [hstep, h1, Option.map_some, Option.some.injEq, Prod.mk.injEq] at hr
          obtain ⟨rfl, rfl⟩ := hr
          simp only [id] at hw
          subst hw
          refine ⟨h3, ?_⟩
          simp only [putIn]
          exact (hperm.trans (List.Perm.append_left _ h2)).trans List.perm_middle
      | update i v =>
        simp only [hstep] at hr
        cases hx : h0[i]? with
        | none => rw [hx] at hr; cases hr
        | some old =>
          obtain ⟨hi, _⟩ := List.getElem?_eq_some_iff.mp hx
          obtain ⟨h', h1, _, h2, h3⟩ := fix_spec (slice_lawful lt) hO (s := h0.set i v) trivial hh i v hi rfl
          rw [hx] at hr
          simp only [h1, Option.map_some, Option.some.injEq, Prod.mk.injEq] at hr
          obtain ⟨rfl, rfl⟩ := hr
          refine ⟨h3, ?_⟩
          simp only [putIn]
          have e1 : (v :: putIn start ops).Perm (out0 ++ (v :: h0)) := (hperm.cons v).trans List.perm_middle.symm
          have e2 : (out0 ++ (v :: h0)).Perm (out0 ++ (old :: h')) :=
            List.Perm.append_left _ ((set_perm hx).symm.trans (h2.symm.cons old))
          exact e1.trans (e2.trans List.perm_middle)

/-- C42: after any operations, what is in the heap and what was taken out are together exactly what was put in. -/
theorem C42_contents {lt : V → V → Bool} (hO : StrictWeak lt) (start : List V) (ops : List (HOp V)) (h out : List V)
    (hr : heapAfter lt start ops = some (h, out)) : (putIn start ops).Perm (out ++ h) :=
  (heapAfter_inv hO start ops h out hr).2

/-- C42: after any operations, `Pop` on a heap that is not empty returns a least element and removes exactly it. -/
theorem C42_pop {lt : V → V → Bool} (hO : StrictWeak lt) (start : List V) (ops : List (HOp V)) (h out : List V)
    (hr : heapAfter lt start ops = some (h, out)) (hne : h ≠ []) :
    ∃ x h', pop (sliceIface lt) h = some (x, h') ∧ h.Perm (x :: h') ∧ x ∈ h ∧ ∀ y ∈ h, lt y x = false := by
  obtain ⟨x, h', h1, _, h2, _, h4⟩ := pop_spec (slice_lawful lt) hO (s := h) trivial (heapAfter_inv hO start ops h out hr).1 hne
  exact ⟨x, h', h1, h2, h2.symm.subset List.mem_cons_self, h4⟩

/-- C42: `Remove(h, i)` removes exactly the element at `i`. -/
theorem C42_remove {lt : V → V → Bool} (hO : StrictWeak lt) (start : List V) (ops : List (HOp V)) (h out : List V)
    (hr : heapAfter lt start ops = some (h, out)) (i : Nat) (x : V) (hx : h[i]? = some x) :
    ∃ h', remove (sliceIface lt) h i = some (x, h') ∧ h.Perm (x :: h') := by
  obtain ⟨v, h', h1, _, hw, h2, _⟩ := remove_spec (slice_lawful lt) hO (s := h) trivial (heapAfter_inv hO start ops h out hr).1 i x hx
  simp only [id] at hw
  subst hw
  exact ⟨h', h1, h2⟩

/-- C42: no operation panics, except `Pop` and `Remove` on an empty heap and an index outside the heap. -/
theorem C42_no_panic {lt : V → V → Bool} (hO : StrictWeak lt) (start : List V) (ops : List (HOp V)) (h out : List V)
    (hr : heapAfter lt start ops = some (h, out)) (op : HOp V)
    (hop : match op with | .push _ => True | .pop => h ≠ [] | .remove i => i < h.length | .update i _ => i < h.length) :
    ∃ s, heapAfter lt start (op :: ops) = some s := by
  have hh := (heapAfter_inv hO start ops h out hr).1
  rw [heapAfter, hr, Option.bind_some]
  cases op with
  | push v =>
    obtain ⟨h', h1, _⟩ := push_spec (slice_lawful lt) hO (s := h) trivial hh v
    exact ⟨(h', out), by simp only [hstep, h1, Option.map_some]⟩
  | pop =>
    obtain ⟨x, h', h1, _⟩ := pop_spec (slice_lawful lt) hO (s := h) trivial hh hop
    exact ⟨(h', x :: out), by simp only [hstep, h1, Option.map_some]⟩
  | remove i =>
    obtain ⟨x, h', h1, _⟩ := remove_spec (slice_lawful lt) hO (s := h) trivial hh i _ (List.getElem?_eq_getElem hop)
    exact ⟨(h', x :: out), by simp only [hstep, h1, Option.map_some]⟩
  | update i v =>
    obtain ⟨h', h1, _⟩ := fix_spec (slice_lawful lt) hO (s := h.set i v) trivial hh i v hop rfl
    exact ⟨(h', h[i] :: out), by simp only [hstep, h1, Option.map_some, List.getElem?_eq_getElem (show i < h.length from hop)]⟩

/-- pop `n` times -/
def drain (lt : V → V → Bool) : Nat → List V → Option (List V × List V)
  | 0, h => some ([], h)
  | n + 1, h => (pop (sliceIface lt) h).bind (fun r => (drain lt n r.2).map (fun q => (r.1 :: q.1, q.2)))

theorem drain_spec {lt : V → V → Bool} (hO : StrictWeak lt) (n : Nat) (h : List V) (hh : IsHeap lt h) (hn : n = h.length) :
    ∃ l, drain lt n h = some (l, []) ∧ l.Perm h ∧ l.Pairwise (fun x y => lt y x = false) := by
  induction n generalizing h with
  | zero =>
    have : h = [] := List.length_eq_zero_iff.mp hn.symm
    subst this
    exact ⟨[], rfl, List.Perm.refl _, List.Pairwise.nil⟩
  | succ n ih =>
    have hne : h ≠ [] := by intro h'; rw [h'] at hn; cases hn
    obtain ⟨x, h', h1, _, h2, h3, h4⟩ := pop_spec (slice_lawful lt) hO (s := h) trivial hh hne
    obtain ⟨l, g1, g2, g3⟩ := ih h' h3 (by have := h2.length_eq; simp only [id, List.length_cons] at this; omega)
    refine ⟨x :: l, ?_, ?_, ?_⟩
    · simp only [drain, h1, Option.bind_some, g1, Option.map_some]
    · exact (g2.cons x).trans h2.symm
    · refine List.Pairwise.cons ?_ g3
      intro y hy
      exact h4 y (h2.symm.subset (List.mem_cons_of_mem _ (g2.subset hy)))

/-- C42: popping everything yields the elements in ascending order. -/
theorem C42_drain_sorted {lt : V → V → Bool} (hO : StrictWeak lt) (start : List V) (ops : List (HOp V)) (h out : List V)
    (hr : heapAfter lt start ops = some (h, out)) :
    ∃ l, drain lt h.length h = some (l, []) ∧ l.Perm h ∧ l.Pairwise (fun x y => lt y x = false) :=
  drain_spec hO _ h (heapAfter_inv hO start ops h out hr).1 rfl

/-- the order of `Nat` -/
theorem natLt_strictWeak : StrictWeak (fun a b : Nat => decide (a < b)) := by
  constructor
  · intro a b h; simp at h ⊢; omega
  · intro a b c h1 h2; simp at h1 h2 ⊢; omega

/-- all kinds of operations on a heap of numbers -/
example : heapAfter (fun a b : Nat => decide (a < b)) [5, 3, 9] [.pop, .remove 2, .update 1 0, .push 1, .push 7] = some ([1, 7, 5], [0, 9, 3]) ∧
    drain (fun a b : Nat => decide (a < b)) 5 [1, 5, 3, 7, 9] = some ([1, 3, 5, 7, 9], []) := by
  decide

end Heap

/-! ## C43 -/

section PQ
variable {α P : Type}

/-- an entry of the priority queue: its identity, value and priority -/
structure Entry (α P : Type) where
  id : Nat
  obj : α
  prio : P
deriving DecidableEq

def Item.entry (x : Item α P) : Entry α P := ⟨x.id, x.obj, x.prio⟩

/-- the entries of a queue, by index -/
def PQ.entries (s : PQ α P) : List (Entry α P) := s.q.map Item.entry

/-- the entry an index denotes -/
def PQ.at (s : PQ α P) (i : Int) : Option (Entry α P) := if i < 0 then none else s.entries[i.toNat]?

def IndexOk (q : List (Item α P)) : Prop := ∀ (i : Nat) (x : Item α P), q[i]? = some x → x.index = i

def entryLt (lt : P → P → Bool) (a b : Entry α P) : Bool := lt a.prio b.prio

theorem pq_lawful (lt : P → P → Bool) :
    Lawful (pqIface lt) (IndexOk (α := α)) (fun q => q.map Item.entry) Item.entry (entryLt lt) where
  len := fun s _ => by simp [pqIface]
  less := by
    intro s i j a b _ ha hb
    simp only [List.getElem?_map, Option.map_eq_some_iff] at ha hb
    obtain ⟨x, hx, rfl⟩ := ha
    obtain ⟨y, hy, rfl⟩ := hb
    simp [pqIface, hx, hy, entryLt, Item.entry]
  swap := by
    intro s i j a b hok ha hb
    simp only [List.getElem?_map, Option.map_eq_some_iff] at ha hb
    obtain ⟨x, hx, rfl⟩ := ha
    obtain ⟨y, hy, rfl⟩ := hb
    refine ⟨(s.set i { y with index := i }).set j { x with index := j }, by simp [pqIface, hx, hy], ?_, ?_⟩
    · intro k z hz
      rw [List.getElem?_set] at hz
      split at hz
      · rename_i hjk
        split at hz
        · cases hz; simp [hjk]
        · cases hz
      · rw [List.getElem?_set] at hz
        split at hz
        · rename_i hik
          split at hz
          · cases hz; simp [hik]
          · cases hz
        · exact hok k z hz
    · simp only [List.map_set, swapped]
      rfl
  push := by
    intro s v hok
    refine ⟨?_, by simp [pqIface, Item.entry]⟩
    intro k z hz
    simp only [pqIface] at hz
    rcases Nat.lt_or_ge k s.length with hk | hk
    · rw [List.getElem?_append_left hk] at hz
      exact hok k z hz
    · rw [List.getElem?_append_right hk] at hz
      cases hks : k - s.length with
      | zero =>
        rw [hks] at hz
        simp only [List.getElem?_cons_zero, Option.some.injEq] at hz
        subst hz
        simp only
        omega
      | succ m => rw [hks] at hz; simp at hz
  pop := by
    intro s l x hok hs
    have hne : s ≠ [] := by intro h; subst h; simp at hs
    have h1 := List.dropLast_concat_getLast hne
    rw [← h1, List.map_append, List.map_cons, List.map_nil] at hs
    have h2 := List.append_inj' hs rfl
    refine ⟨{ s.getLast hne with index := -1 }, s.dropLast, ?_, ?_, h2.1, ?_⟩
    · simp [pqIface, List.getLast?_eq_some_getLast hne]
    · intro k z hz
      refine hok k z ?_
      rw [List.getElem?_dropLast] at hz
      split at hz
      · exact hz
      · cases hz
    · have := h2.2
      simp only [List.cons.injEq, and_true] at this
      exact this

theorem entryLt_strictWeak {lt : P → P → Bool} (h : StrictWeak lt) : StrictWeak (entryLt (α := α) lt) :=
  ⟨fun a b => h.asymm a.prio b.prio, fun a b c => h.negTrans a.prio b.prio c.prio⟩

/-- invariant of the queue -/
structure PQ.Inv (lt : P → P → Bool) (s : PQ α P) : Prop where
  index : IndexOk s.q
  heap : IsHeap (entryLt lt) s.entries
  fresh : ∀ e ∈ s.entries, e.id < s.next
  ids : (s.entries.map (·.id)).Nodup

inductive PQOp (α P : Type) where
  | push (v : α) (p : P)
  | pop
  | update (index : Int) (v : α) (p : P)

/-- the queue after some calls, the latest first; `none` after a panic -/
def pqAfter (lt : P → P → Bool) : List (PQOp α P) → Option (PQ α P)
  | [] => some PQ.new
  | .push v p :: ops => (pqAfter lt ops).bind (fun s => (s.push lt v p).map (·.2))
  | .pop :: ops => (pqAfter lt ops).bind (fun s => (s.pop lt).map (·.2))
  | .update i v p :: ops => (pqAfter lt ops).bind (fun s => (s.update lt i v p).map (·.2))

theorem indexOf_spec {q : List (Item α P)} (hok : IndexOk q) (hids : ((q.map Item.entry).map (·.id)).Nodup) {e : Entry α P}
    (he : e ∈ q.map Item.entry) : ∃ i : Nat, indexOf q e.id = some (i : Int) ∧ (q.map Item.entry)[i]? = some e := by
  obtain ⟨i, hi, hie⟩ := List.mem_iff_getElem.mp he
  have hget : (q.map Item.entry)[i]? = some e := by rw [List.getElem?_eq_getElem hi, hie]
  refine ⟨i, ?_, hget⟩
  rw [List.getElem?_map, Option.map_eq_some_iff] at hget
  obtain ⟨x, hx, hxe⟩ := hget
  have hxid : x.id = e.id := by rw [← hxe]; rfl
  unfold indexOf
  cases hf : q.find? (fun y => y.id == e.id) with
  | none =>
    have := List.find?_eq_none.mp hf x (List.mem_of_getElem? hx)
    simp [hxid] at this
  | some y =>
    have hy := List.find?_some hf
    have hym := List.mem_of_find?_eq_some hf
    simp only [beq_iff_eq] at hy
    obtain ⟨k, hk, hky⟩ := List.mem_iff_getElem.mp hym
    have hyk : q[k]? = some y := by rw [List.getElem?_eq_getElem hk, hky]
    have hkid : ((q.map Item.entry).map (·.id))[k]? = some e.id := by
      simp only [List.getElem?_map, hyk, Option.map_some, Item.entry, hy]
    have hiid : ((q.map Item.entry).map (·.id))[i]? = some e.id := by
      simp only [List.getElem?_map, hx, Option.map_some, Item.entry, hxid]
    obtain ⟨hk', hke⟩ := List.getElem?_eq_some_iff.mp hkid
    obtain ⟨hi', hie'⟩ := List.getElem?_eq_some_iff.mp hiid
    have : k = i := (List.getElem_inj hids).mp (hke.trans hie'.symm)
    subst this
    simp only [Option.map_some, Option.some.injEq]
    exact hok k y hyk

theorem pq_push {lt : P → P → Bool} (hO : StrictWeak lt) {s : PQ α P} (h : s.Inv lt) (v : α) (p : P) :
    ∃ (i : Nat) (s' : PQ α P), s.push lt v p = some ((i : Int), s') ∧ s'.Inv lt ∧ s'.next = s.next + 1 ∧
      s'.entries.Perm (⟨s.next, v, p⟩ :: s.entries) ∧ s'.entries[i]? = some ⟨s.next, v, p⟩ := by
  obtain ⟨q', h1, h2, h3, h4⟩ := push_spec (pq_lawful lt) (entryLt_strictWeak hO) (s := s.q) h.index h.heap ⟨v, p, 0, s.next⟩
  have hids : ((q'.map Item.entry).map (·.id)).Nodup := by
    refine ((h3.map (·.id)).nodup_iff).mpr ?_
    rw [List.map_cons, List.nodup_cons]
    refine ⟨?_, h.ids⟩
    intro hm
    obtain ⟨e, he, hid⟩ := List.mem_map.mp hm
    have := h.fresh e he
    simp only [Item.entry] at hid
    omega
  have hmem : (⟨s.next, v, p⟩ : Entry α P) ∈ q'.map Item.entry := h3.symm.subset List.mem_cons_self
  obtain ⟨i, hi1, hi2⟩ := indexOf_spec h2 hids hmem
  refine ⟨i, ⟨q', s.next + 1⟩, ?_, ⟨h2, h4, ?_, hids⟩, rfl, h3, hi2⟩
  · unfold PQ.push
    rw [h1]
    show (indexOf q' s.next).map _ = _
    rw [hi1]; rfl
  · intro e he
    rcases List.mem_cons.mp (h3.subset he) with rfl | he
    · exact Nat.lt_succ_self _
    · exact Nat.lt_succ_of_lt (h.fresh e he)

theorem pq_pop {lt : P → P → Bool} (hO : StrictWeak lt) {s : PQ α P} (h : s.Inv lt) (hne : s.q ≠ []) :
    ∃ (e : Entry α P) (s' : PQ α P), s.pop lt = some (e.obj, s') ∧ s'.Inv lt ∧ s.entries.Perm (e :: s'.entries) ∧
      ∀ e' ∈ s.entries, lt e'.prio e.prio = false := by
  obtain ⟨x, q', h1, h2, h3, h4, h5⟩ := pop_spec (pq_lawful lt) (entryLt_strictWeak hO) (s := s.q) h.index h.heap (by simp [hne])
  refine ⟨x.entry, ⟨q', s.next⟩, ?_, ⟨h2, h4, ?_, ?_⟩, h3, h5⟩
  · unfold PQ.pop; rw [h1]; rfl
  · intro e he
    exact h.fresh e (h3.symm.subset (List.mem_cons_of_mem _ he))
  · have := ((h3.map (·.id)).nodup_iff).mp h.ids
    rw [List.map_cons, List.nodup_cons] at this
    exact this.2

theorem pq_update {lt : P → P → Bool} (hO : StrictWeak lt) {s : PQ α P} (h : s.Inv lt) (index : Int) (e : Entry α P)
    (he : s.at index = some e) (v : α) (p : P) :
    ∃ (i : Nat) (s' : PQ α P), s.update lt index v p = some ((i : Int), s') ∧ s'.Inv lt ∧ s'.next = s.next ∧
      s'.entries.Perm (s.entries.set index.toNat ⟨e.id, v, p⟩) ∧ s'.entries[i]? = some ⟨e.id, v, p⟩ := by
  unfold PQ.at at he
  split at he
  · cases he
  · rename_i hpos
    obtain ⟨hlt, _⟩ := List.getElem?_eq_some_iff.mp he
    have hlt' : index.toNat < s.q.length := by simpa [PQ.entries] using hlt
    have he0 := he
    rw [PQ.entries, List.getElem?_map, Option.map_eq_some_iff] at he
    obtain ⟨it, hit, rfl⟩ := he
    have hidx := h.index _ _ hit
    have hok1 : IndexOk (s.q.set index.toNat { it with obj := v, prio := p }) := by
      intro k z hz
      rw [List.getElem?_set] at hz
      split at hz
      · rename_i hk
        cases hz; subst hk; exact hidx
      · exact h.index k z hz
    have hview : (s.q.set index.toNat { it with obj := v, prio := p }).map Item.entry =
        s.entries.set index.toNat ⟨it.id, v, p⟩ := by
      rw [List.map_set]; rfl
    obtain ⟨q', h1, h2, h3, h4⟩ := fix_spec (pq_lawful lt) (entryLt_strictWeak hO)
      (s := s.q.set index.toNat { it with obj := v, prio := p }) hok1 (l := s.entries) h.heap index.toNat ⟨it.id, v, p⟩ hlt hview
    rw [hview] at h3
    have hidset : (s.entries.set index.toNat ⟨it.id, v, p⟩).map (·.id) = s.entries.map (·.id) := by
      rw [List.map_set]
      have : (s.entries.map (·.id))[index.toNat]? = some it.id := by
        rw [List.getElem?_map, he0]; rfl
      obtain ⟨h5, h6⟩ := List.getElem?_eq_some_iff.mp this
      simp only
      rw [← h6, List.set_getElem_self]
    have hids : ((q'.map Item.entry).map (·.id)).Nodup := by
      refine ((h3.map (·.id)).nodup_iff).mpr ?_
      rw [hidset]; exact h.ids
    have hmem : (⟨it.id, v, p⟩ : Entry α P) ∈ q'.map Item.entry :=
      h3.symm.subset (List.mem_iff_getElem.mpr ⟨index.toNat, by simpa using hlt, by simp⟩)
    obtain ⟨i, hi1, hi2⟩ := indexOf_spec h2 hids hmem
    refine ⟨i, ⟨q', s.next⟩, ?_, ⟨h2, h4, ?_, hids⟩, rfl, h3, hi2⟩
    · unfold PQ.update
      rw [if_neg (by omega), hit]
      simp only
      rw [show it.index.toNat = index.toNat by rw [hidx, Int.toNat_natCast], h1]
      simp only
      rw [show indexOf q' it.id = some (i : Int) from hi1]; rfl
    · intro e he
      have : e.id ∈ s.entries.map (·.id) := by
        rw [← hidset]
        exact List.mem_map.mpr ⟨e, h3.subset he, rfl⟩
      obtain ⟨e', he', hid⟩ := List.mem_map.mp this
      rw [← hid]; exact h.fresh e' he'

theorem pqAfter_inv {lt : P → P → Bool} (hO : StrictWeak lt) (ops : List (PQOp α P)) (s : PQ α P) (hs : pqAfter lt ops = some s) :
    s.Inv lt := by
  induction ops generalizing s with
  | nil =>
    cases hs
    refine ⟨?_, ?_, ?_, ?_⟩
    · intro i x h; simp [PQ.new] at h
    · intro p c _ h; simp [PQ.new, PQ.entries] at h
    · intro e h; simp [PQ.new, PQ.entries] at h
    · simp [PQ.new, PQ.entries]
  | cons op ops ih =>
    cases hp : pqAfter lt ops with
    | none => cases op <;> simp [pqAfter, hp] at hs
    | some s0 =>
      have h0 := ih s0 hp
      cases op with
      | push v p =>
        obtain ⟨i, s', h1, h2, _⟩ := pq_push hO h0 v p
        rw [pqAfter, hp, Option.bind_some, h1] at hs
        cases hs; exact h2
      | pop =>
        by_cases hne : s0.q = []
        · have hn : s0.pop lt = none := by unfold PQ.pop; rw [hne]; rfl
          rw [pqAfter, hp, Option.bind_some, hn] at hs
          cases hs
        · obtain ⟨e, s', h1, h2, _⟩ := pq_pop hO h0 hne
          rw [pqAfter, hp, Option.bind_some, h1] at hs
          cases hs; exact h2
      | update i v p =>
        cases he : s0.at i with
        | none =>
          have : s0.update lt i v p = some (-1, s0) := by
            unfold PQ.update
            rw [if_pos ?_]
            unfold PQ.at at he
            split at he
            · left; assumption
            · right
              have := List.getElem?_eq_none_iff.mp he
              simp only [PQ.entries, List.length_map] at this
              omega
          rw [pqAfter, hp, Option.bind_some, this] at hs
          cases hs; exact h0
        | some e =>
          obtain ⟨i, s', h1, h2, _⟩ := pq_update hO h0 i e he v p
          rw [pqAfter, hp, Option.bind_some, h1] at hs
          cases hs; exact h2

/-- C43: after any calls, `Push` adds one new entry and returns an index that denotes it. -/
theorem C43_push {lt : P → P → Bool} (hO : StrictWeak lt) (ops : List (PQOp α P)) (s : PQ α P) (hs : pqAfter lt ops = some s) (v : α) (p : P) :
    ∃ i s', s.push lt v p = some (i, s') ∧ s'.entries.Perm (⟨s.next, v, p⟩ :: s.entries) ∧ s'.at i = some ⟨s.next, v, p⟩ ∧
      ∀ e ∈ s.entries, e.id ≠ s.next := by
  obtain ⟨i, s', h1, _, _, h2, h3⟩ := pq_push hO (pqAfter_inv hO ops s hs) v p
  refine ⟨i, s', h1, h2, ?_, fun e he => Nat.ne_of_lt ((pqAfter_inv hO ops s hs).fresh e he)⟩
  unfold PQ.at
  rw [if_neg (by omega)]; exact h3

/-- C43: after any calls, `Pop` on a queue that is not empty returns the value of an entry of least priority and removes exactly this entry;
`Peek` and `PeekPriority` show a least entry. -/
theorem C43_pop_least {lt : P → P → Bool} (hO : StrictWeak lt) (ops : List (PQOp α P)) (s : PQ α P) (hs : pqAfter lt ops = some s)
    (hne : s.entries ≠ []) :
    (∃ e s', s.pop lt = some (e.obj, s') ∧ s.entries.Perm (e :: s'.entries) ∧ ∀ e' ∈ s.entries, lt e'.prio e.prio = false) ∧
    (∃ e ∈ s.entries, s.peek = some (e.obj, e.prio) ∧ ∀ e' ∈ s.entries, lt e'.prio e.prio = false) := by
  have hinv := pqAfter_inv hO ops s hs
  constructor
  · obtain ⟨e, s', h1, _, h2, h3⟩ := pq_pop hO hinv (by intro h; apply hne; simp [PQ.entries, h])
    exact ⟨e, s', h1, h2, h3⟩
  · have hl : 0 < s.entries.length := List.length_pos_iff.mpr hne
    refine ⟨s.entries[0], List.getElem_mem _, ?_, ?_⟩
    · have hl' : 0 < s.q.length := by simpa [PQ.entries] using hl
      have : s.q[0]? = some s.q[0] := List.getElem?_eq_getElem hl'
      simp [PQ.peek, this, PQ.entries, Item.entry]
    · intro e' he'
      obtain ⟨k, hk, rfl⟩ := List.mem_iff_getElem.mp he'
      exact root_le (entryLt_strictWeak hO) hinv.heap k hk _ _ (List.getElem?_eq_getElem hl) (List.getElem?_eq_getElem hk)

/-- C43: after any calls, `Update` with an index that denotes an entry changes the value and priority of exactly this entry, and returns an
index that denotes it; with another index it changes nothing and returns -1. -/
theorem C43_update {lt : P → P → Bool} (hO : StrictWeak lt) (ops : List (PQOp α P)) (s : PQ α P) (hs : pqAfter lt ops = some s)
    (index : Int) (v : α) (p : P) :
    (∀ e, s.at index = some e → ∃ i s', s.update lt index v p = some (i, s') ∧ s'.at i = some ⟨e.id, v, p⟩ ∧
      (∀ e', e'.id = e.id → (e' ∈ s'.entries ↔ e' = ⟨e.id, v, p⟩)) ∧ (∀ e', e'.id ≠ e.id → (e' ∈ s'.entries ↔ e' ∈ s.entries))) ∧
    (s.at index = none → s.update lt index v p = some (-1, s)) := by
  have hinv := pqAfter_inv hO ops s hs
  constructor
  · intro e he
    obtain ⟨i, s', h1, h2, _, h3, h4⟩ := pq_update hO hinv index e he v p
    have hat : s.entries[index.toNat]? = some e := by
      unfold PQ.at at he
      split at he
      · cases he
      · exact he
    have hset : ∀ e', e' ∈ s'.entries ↔ e' ∈ s.entries.set index.toNat ⟨e.id, v, p⟩ := fun e' => h3.mem_iff
    have hP := set_perm (v := (⟨e.id, v, p⟩ : Entry α P)) hat
    refine ⟨i, s', h1, ?_, ?_, ?_⟩
    · unfold PQ.at
      rw [if_neg (by omega)]; exact h4
    · intro e' hid
      constructor
      · intro he'
        have hm : (⟨e.id, v, p⟩ : Entry α P) ∈ s'.entries := List.mem_of_getElem? h4
        obtain ⟨a, ha, hae⟩ := List.mem_iff_getElem.mp he'
        obtain ⟨b, hb, hbe⟩ := List.mem_iff_getElem.mp hm
        have : a = b := by
          refine (List.getElem_inj (h₀ := by simpa using ha) (h₁ := by simpa using hb) h2.ids).mp ?_
          simp only [List.getElem_map, hae, hbe, hid]
        subst this
        exact hae.symm.trans hbe
      · rintro rfl
        exact List.mem_of_getElem? h4
    · intro e' hid
      rw [hset]
      have h5 : e' ∈ e :: s.entries.set index.toNat ⟨e.id, v, p⟩ ↔ e' ∈ (⟨e.id, v, p⟩ : Entry α P) :: s.entries := hP.mem_iff
      rw [List.mem_cons, List.mem_cons] at h5
      constructor
      · intro h
        rcases h5.mp (.inr h) with h6 | h6
        · exact absurd (by rw [h6]) hid
        · exact h6
      · intro h
        rcases h5.mpr (.inr h) with h6 | h6
        · exact absurd (by rw [h6]) hid
        · exact h6
  · intro he
    unfold PQ.update
    rw [if_pos ?_]
    unfold PQ.at at he
    split at he
    · left; assumption
    · right
      have := List.getElem?_eq_none_iff.mp he
      simp only [PQ.entries, List.length_map] at this
      omega

/-- C43: no call panics, except `Pop` (and `Peek`) on an empty queue. -/
theorem C43_no_panic {lt : P → P → Bool} (hO : StrictWeak lt) (ops : List (PQOp α P)) (s : PQ α P) (hs : pqAfter lt ops = some s)
    (op : PQOp α P) (hop : match op with | .pop => s.entries ≠ [] | _ => True) : ∃ s', pqAfter lt (op :: ops) = some s' := by
  have hinv := pqAfter_inv hO ops s hs
  cases op with
  | push v p =>
    obtain ⟨i, s', h1, _⟩ := pq_push hO hinv v p
    exact ⟨s', by rw [pqAfter, hs, Option.bind_some, h1]; rfl⟩
  | pop =>
    obtain ⟨e, s', h1, _⟩ := (C43_pop_least hO ops s hs hop).1
    exact ⟨s', by rw [pqAfter, hs, Option.bind_some, h1]; rfl⟩
  | update i v p =>
    cases he : s.at i with
    | none => exact ⟨s, by rw [pqAfter, hs, Option.bind_some, (C43_update hO ops s hs i v p).2 he]; rfl⟩
    | some e =>
      obtain ⟨j, s', h1, _⟩ := (C43_update hO ops s hs i v p).1 e he
      exact ⟨s', by rw [pqAfter, hs, Option.bind_some, h1]; rfl⟩

/-- C43, what holds of references: an index denotes an entry until the next call, and after `Push` and `Update` the returned index denotes the
entry pushed or updated. (That a reference denotes its entry for as long as the entry lives is false, see
`C43_reference_violated`.) -/
theorem C43_reference_partial {lt : P → P → Bool} (hO : StrictWeak lt) (ops : List (PQOp α P)) (s : PQ α P) (hs : pqAfter lt ops = some s)
    (v : α) (p : P) (v' : α) (p' : P) :
    ∃ i s', s.push lt v p = some (i, s') ∧ ∃ j s'', s'.update lt i v' p' = some (j, s'') ∧ s''.at j = some ⟨s.next, v', p'⟩ ∧
      s''.entries.Perm (⟨s.next, v', p'⟩ :: s.entries) := by
  obtain ⟨i, s', h1, h2, _, h3, h4⟩ := pq_push hO (pqAfter_inv hO ops s hs) v p
  have hat : s'.at i = some ⟨s.next, v, p⟩ := by
    unfold PQ.at; rw [if_neg (by omega)]; exact h4
  obtain ⟨j, s'', g1, _, _, g2, g3⟩ := pq_update hO h2 i _ hat v' p'
  refine ⟨i, s', h1, j, s'', g1, by unfold PQ.at; rw [if_neg (by omega)]; exact g3, ?_⟩
  have hP := set_perm (v := (⟨s.next, v', p'⟩ : Entry α P)) h4
  have h6 : ((⟨s.next, v, p⟩ : Entry α P) :: s''.entries).Perm (⟨s.next, v, p⟩ :: ⟨s.next, v', p'⟩ :: s.entries) := by
    refine (g2.cons _).trans ?_
    simp only [Int.toNat_natCast]
    refine hP.trans ((h3.cons _).trans (List.Perm.swap _ _ _))
  exact h6.cons_inv

abbrev natLt (a b : Nat) : Bool := decide (a < b)

/-- the calls of the theorems on a small queue -/
example : (pqAfter natLt [.update 0 "z" 6, .pop, .push "c" 4, .push "b" 3, .push "a" 5]).map (·.entries) =
    some [⟨0, "a", 5⟩, ⟨2, "z", 6⟩] := by
  decide

/-- C43 fails: `Push("a", 5)` returns the reference 0, and so does `Push("b", 3)`; the entries change places, and `Update` with the reference
of `a` changes `b`. -/
theorem C43_reference_violated :
    (PQ.new (α := String) (P := Nat)).push natLt "a" 5 = some (0, ⟨[⟨"a", 5, 0, 0⟩], 1⟩) ∧
    (⟨[⟨"a", 5, 0, 0⟩], 1⟩ : PQ String Nat).push natLt "b" 3 = some (0, ⟨[⟨"b", 3, 0, 1⟩, ⟨"a", 5, 1, 0⟩], 2⟩) ∧
    (⟨[⟨"b", 3, 0, 1⟩, ⟨"a", 5, 1, 0⟩], 2⟩ : PQ String Nat).update natLt 0 "x" 9 = some (1, ⟨[⟨"a", 5, 0, 0⟩, ⟨"x", 9, 1, 1⟩], 2⟩) := by
  refine ⟨?_, ?_, ?_⟩ <;> rfl

end PQ

end Ndn.Util
