import Verif.Crdt.ScanLemmas

/-!
# What `InsertInto` does to the order of the document
-/

namespace Ndn.Crdt

open DocOrder

theorem lastIdx_some {α : Type} {f : α → Bool} {l : List α} {n : Nat} (h : lastIdx f l = some n) : ∃ x, l[n]? = some x ∧ f x = true := by
  induction l generalizing n with
  | nil => cases h
  | cons a l ih =>
    rw [lastIdx] at h
    cases hl : lastIdx f l with
    | some k =>
      rw [hl] at h
      simp only [Option.some.injEq] at h
      obtain ⟨x, h1, h2⟩ := ih hl
      exact ⟨x, by rw [← h]; exact h1, h2⟩
    | none =>
      rw [hl] at h
      simp only at h
      split at h
      · rename_i hf
        cases h
        exact ⟨a, rfl, hf⟩
      · cases h

theorem lastIdx_none {α : Type} {f : α → Bool} {l : List α} (h : lastIdx f l = none) : ∀ x ∈ l, f x = false := by
  induction l with
  | nil => intro x hx; cases hx
  | cons a l ih =>
    rw [lastIdx] at h
    cases hl : lastIdx f l with
    | some k => rw [hl] at h; cases h
    | none =>
      rw [hl] at h
      simp only at h
      split at h
      · cases h
      · rename_i hf
        intro x hx
        rcases List.mem_cons.mp hx with rfl | hx
        · simpa using hf
        · exact ih hl x hx

/-- the identity of an item -/
def Item.v (x : Item) : Option Id := some x.id

/-- the identities in the document, with the place before the first item -/
def ids (items : List Item) : List (Option Id) := none :: items.map Item.v

theorem ids_append (a b : List Item) : ids (a ++ b) = ids a ++ b.map Item.v := by simp [ids]

theorem idx_at {l : List (Option Id)} (nd : l.Nodup) {n : Nat} {x : Option Id} (h : l[n]? = some x) : l.idxOf x = n := by
  obtain ⟨h1, h2⟩ := List.getElem?_eq_some_iff.mp h
  have hx : x ∈ l := h2 ▸ List.getElem_mem h1
  have h3 := List.getElem_idxOf (idx_lt hx)
  exact (List.getElem_inj nd).mp (h3.trans h2.symm)

/-- where the new item's left neighbour is found -/
theorem left_spec {items : List Item} (nd : (ids items).Nodup) {origin : Option Id} (h : origin ∈ ids items) :
    behind (findLeft items origin) = (ids items).idxOf origin := by
  cases hf : findLeft items origin with
  | none =>
    have hn := lastIdx_none hf
    cases origin with
    | none => simp [ids, behind]
    | some z =>
      exfalso
      simp only [ids, List.mem_cons, reduceCtorEq, false_or, List.mem_map, Item.v] at h
      obtain ⟨x, hx, he⟩ := h
      have := hn x hx
      rw [he] at this
      simp at this
  | some l =>
    obtain ⟨x, h1, h2⟩ := lastIdx_some hf
    simp only [beq_iff_eq] at h2
    refine (idx_at nd (n := l + 1) ?_).symm
    rw [ids, List.getElem?_cons_succ, List.getElem?_map, h1]
    simp [Item.v, h2]

theorem right_none {items : List Item} {origin : Option Id} : findRight items origin none = none := by
  cases hf : findRight items origin none with
  | none => rfl
  | some l =>
    obtain ⟨x, _, h2⟩ := lastIdx_some hf
    simp at h2

theorem right_spec {items : List Item} (nd : (ids items).Nodup) {origin : Option Id} {z : Id} (h : some z ∈ ids items)
    (hne : origin ≠ some z) : ∃ r, findRight items origin (some z) = some r ∧ (ids items).idxOf (some z) = r + 1 := by
  cases hf : findRight items origin (some z) with
  | none =>
    exfalso
    have hn := lastIdx_none hf
    simp only [ids, List.mem_cons, reduceCtorEq, false_or, List.mem_map, Item.v] at h
    obtain ⟨x, hx, he⟩ := h
    have := hn x hx
    rw [he] at this
    simp only [beq_self_eq_true, Bool.and_true, Bool.not_eq_false', beq_iff_eq] at this
    exact hne this.symm
  | some l =>
    obtain ⟨x, h1, h2⟩ := lastIdx_some hf
    simp only [Bool.and_eq_true, beq_iff_eq] at h2
    refine ⟨l, rfl, idx_at nd ?_⟩
    rw [ids, List.getElem?_cons_succ, List.getElem?_map, h1]
    simp [Item.v, h2.2]

/-- when there is no conflict, there is nothing to visit -/
theorem no_conflict {items : List Item} {left right : Option Nat} (h : conflict items left right = false) :
    segment items (behind left) right = [] := by
  cases left with
  | none =>
    cases right with
    | none => cases h
    | some r =>
      simp only [conflict, bne_eq_false_iff_eq] at h
      subst h
      simp [segment, behind]
  | some l =>
    simp only [conflict, bne_eq_false_iff_eq] at h
    subst h
    by_cases hl : l + 1 < items.length
    · rw [if_pos hl]
      simp [segment, behind]
    · rw [if_neg hl]
      simp only [segment, behind]
      exact List.drop_eq_nil_of_le (by omega)

theorem insertInto_eq {items : List Item} {i : Item} {left right : Option Nat} (hne : items ≠ []) :
    insertInto items i left right =
      (scan i.toNode ((segment items (behind left) right).map Item.toNode) [] [] 0 0 >>= fun n =>
        .ok (items.take ((behind left) + n) ++
          i :: items.drop ((behind left) + n))) := by
  rw [insertInto, if_neg hne]
  cases hc : conflict items left right with
  | true => rfl
  | false =>
    simp only [no_conflict hc]
    rfl

/-- the parts of the document: up to the left neighbour, what the loop may visit, from the right neighbour on -/
theorem parts {items : List Item} (nd : (ids items).Nodup) {origin rorigin : Option Id} (h : origin ∈ ids items)
    (hr : ∀ z, rorigin = some z → some z ∈ ids items ∧ (ids items).idxOf origin < (ids items).idxOf (some z)) :
    ∃ P S Q, items = P ++ S ++ Q ∧ P.length = (ids items).idxOf origin ∧
      segment items ((ids items).idxOf origin) (findRight items origin rorigin) = S ∧ (Q.map Item.v).head? = rorigin.map some ∧
      (rorigin = none → Q = []) := by
  generalize hn : (ids items).idxOf origin = n at hr
  have hlen : n ≤ items.length := by
    have := idx_lt h
    have hl : (ids items).length = items.length + 1 := by simp [ids]
    omega
  cases rorigin with
  | none =>
    refine ⟨items.take n, items.drop n, [], by simp, by rw [List.length_take]; omega, by rw [right_none]; rfl, rfl, fun _ => rfl⟩
  | some z =>
    obtain ⟨h1, h2⟩ := hr z rfl
    obtain ⟨r, h3, h4⟩ := right_spec nd h1 (origin := origin) (by intro he; rw [← he] at h2; omega)
    have hle : n ≤ r := by omega
    refine ⟨items.take n, (items.take r).drop n, items.drop r, ?_, by rw [List.length_take]; omega, by rw [h3, segment, if_pos hle], ?_, by simp⟩
    · have : items.take n = (items.take r).take n := by rw [List.take_take, Nat.min_eq_left hle]
      rw [this, List.take_append_drop, List.take_append_drop]
    · have hg := List.getElem_idxOf (idx_lt h1)
      have hg' : (ids items)[(ids items).idxOf (some z)]? = some (some z) := by rw [List.getElem?_eq_getElem (idx_lt h1), hg]
      rw [h4, ids, List.getElem?_cons_succ] at hg'
      rw [List.head?_map, List.head?_drop, ← List.getElem?_map]
      exact hg'

/-- the last element of the part up to the left neighbour is the left neighbour -/
theorem pre_last {items P T : List Item} {origin : Option Id} (e : items = P ++ T) (h : origin ∈ ids items)
    (hP : P.length = (ids items).idxOf origin) : (ids P).getLast? = some origin := by
  have hg' : (ids items)[(ids items).idxOf origin]? = some origin := by
    rw [List.getElem?_eq_getElem (idx_lt h), List.getElem_idxOf]
  rw [← hP] at hg'
  have hlen : (ids P).length = P.length + 1 := by simp [ids]
  rw [List.getLast?_eq_getElem?, hlen, Nat.add_sub_cancel]
  rw [e, ids_append, List.getElem?_append_left (by omega)] at hg'
  exact hg'

/-- `InsertInto` keeps the order of the document -/
theorem insertInto_order {k : Links (Option Id)} {items items' : List Item} {i : Item} {d : List (Option Id)} (hk : k.root = none)
    (h : DocOrder k (ids items)) (hf : ∀ x ∈ items, Fits k x.toNode) (hi : Fits k i.toNode) (hnew : i.v ∉ ids items)
    (hb : Born k i.v d) (tie : ∀ y ∈ ids items, y ≠ none → k.p y = k.p i.v → y ∈ d ∨ ∃ dy, Born k y dy ∧ i.v ∈ dy)
    (hl : i.origin ∈ ids items) (hr : ∀ z, i.rorigin = some z → some z ∈ ids items)
    (hres : insertInto items i (findLeft items i.origin) (findRight items i.origin i.rorigin) = .ok items') :
    ∃ a b, items = a ++ b ∧ items' = a ++ i :: b ∧ DocOrder k (ids items') := by
  have nd := h.nodup
  have hoi : k.o i.v = i.origin := hi.o
  have hri : k.r i.v = i.rorigin.map some := hi.r
  have hr' : ∀ z, i.rorigin = some z → some z ∈ ids items ∧ (ids items).idxOf i.origin < (ids items).idxOf (some z) := by
    intro z hz
    have hzz : k.r i.v = some (some z) := by rw [hri, hz]; rfl
    obtain ⟨h1, h2⟩ := hb.right _ hzz
    rw [hoi] at h2
    exact ⟨hr z hz, (agree hb.order h (hoi ▸ hb.orig) hl h1 (hr z hz)).mp h2⟩
  obtain ⟨P, S, Q, e, hP, hS, hQ, hQn⟩ := parts nd hl hr'
  have hlast := pre_last (T := S ++ Q) (by rw [e, List.append_assoc]) hl hP
  have eids : ids items = ids P ++ S.map Item.v ++ Q.map Item.v := by rw [e, ids_append, ids_append]
  obtain ⟨n, lp, cp, rest, hSS, hn, hpl, hitems'⟩ : ∃ (n : Nat) (lp cp rest : List Item), S = lp ++ cp ++ rest ∧ n = lp.length ∧
      Placed k i.v (lp.map Item.v) (cp.map Item.v) (rest.map Item.v) ∧
      items' = items.take (P.length + n) ++ i :: items.drop (P.length + n) := by
    by_cases hne : items = []
    · rw [insertInto, if_pos hne] at hres
      have hres' := Res.ok.inj hres
      rw [hne] at e
      have e' := List.append_eq_nil_iff.mp e.symm
      have e'' := List.append_eq_nil_iff.mp e'.1
      refine ⟨0, [], [], [], e''.2, rfl, ⟨by simp, by simp, .inl rfl, by simp, by simp⟩, ?_⟩
      rw [hne]; simp [← hres']
    · rw [insertInto_eq hne, left_spec nd hl, hS] at hres
      cases hsc : scan i.toNode (S.map Item.toNode) [] [] 0 0 with
      | err e => rw [hsc] at hres; cases hres
      | panic => rw [hsc] at hres; cases hres
      | ok n =>
        rw [hsc] at hres
        have hres' := Res.ok.inj hres
        have hv : (S.map Item.toNode).map Node.v = S.map Item.v := by rw [List.map_map]; rfl
        have ndS : ((S.map Item.toNode).map Node.v).Nodup := by
          rw [hv]; rw [eids] at nd
          exact (List.nodup_append.mp (List.nodup_append.mp nd).1).2.1
        have hiS : i.origin ∉ (S.map Item.toNode).map Node.v := by
          rw [hv]; intro hm
          rw [eids] at nd
          exact (List.nodup_append.mp (List.nodup_append.mp nd).1).2.2 _ (List.mem_of_getLast? hlast) _ hm rfl
        have hfS : ∀ o ∈ S.map Item.toNode, Fits k o := by
          intro o ho
          obtain ⟨x, hx, rfl⟩ := List.mem_map.mp ho
          exact hf x (by rw [e]; simp [hx])
        have hx : ∀ a y b o c, (S.map Item.toNode).map Node.v = a ++ y :: b ++ o :: c → k.o o ∈ a → k.o y ≠ k.o i.v := by
          intro a y b o c he hoa hoy
          rw [hv] at he
          have e2 : ids items = ids P ++ a ++ [y] ++ b ++ [o] ++ (c ++ Q.map Item.v) := by rw [eids, he]; simp
          have iy := idx_seg (x := y) (a := ids P ++ a) (b := [y]) (c := b ++ [o] ++ (c ++ Q.map Item.v)) nd (by rw [e2]; simp) (by simp)
          have io := idx_seg (x := o) (a := ids P ++ a ++ [y] ++ b) (b := [o]) (c := c ++ Q.map Item.v) nd e2 (by simp)
          have ia := idx_seg (a := ids P) (b := a) (c := [y] ++ b ++ [o] ++ (c ++ Q.map Item.v)) nd (by rw [e2]; simp) hoa
          have my : y ∈ ids items := by rw [e2]; simp
          have mo : o ∈ ids items := by rw [e2]; simp
          have hor : o ≠ k.root := h.ne_root (y := y) (by simp only [List.length_append, List.length_singleton] at *; omega)
          have := h.noCross o mo hor y my (by simp only [List.length_append] at *; omega)
            (by simp only [List.length_append, List.length_singleton] at *; omega)
          rw [hoy, hoi] at this
          have hPl : (ids P).length = P.length + 1 := by simp [ids]
          omega
        obtain ⟨lp, cp, rest, h1, h2, h3⟩ := scan_placed hi hfS ndS hiS hx n (S.map Item.toNode) [] [] [] [] rfl (by simp) (by simp)
          ⟨by simp, by simp, .inl rfl, by simp⟩ hsc
        obtain ⟨X, rest', e1, e2, rfl⟩ := List.map_eq_append_iff.mp h1
        obtain ⟨lp', cp', e3, rfl, rfl⟩ := List.map_eq_append_iff.mp e2
        refine ⟨n, lp', cp', rest', by rw [e1, e3], by rw [h2]; simp, ?_, ?_⟩
        · simp only [List.map_map] at h3; exact h3
        · rw [← hres', ← hP]
  have e3 : items = (P ++ lp) ++ (cp ++ rest ++ Q) := by rw [e, hSS]; simp
  have htake : items.take (P.length + n) = P ++ lp := by rw [e3, List.take_left' (by rw [List.length_append, hn])]
  have hdrop : items.drop (P.length + n) = cp ++ rest ++ Q := by rw [e3, List.drop_left' (by rw [List.length_append, hn])]
  refine ⟨P ++ lp, cp ++ rest ++ Q, e3, by rw [hitems', htake, hdrop], ?_⟩
  rw [hitems', htake, hdrop]
  have e4 : ids items = ids P ++ lp.map Item.v ++ (cp.map Item.v ++ rest.map Item.v ++ Q.map Item.v) := by
    rw [e3, ids_append, ids_append]; simp
  have e5 : ids (P ++ lp ++ i :: (cp ++ rest ++ Q)) =
      ids P ++ lp.map Item.v ++ i.v :: (cp.map Item.v ++ rest.map Item.v ++ Q.map Item.v) := by
    rw [ids_append, ids_append]; simp
  rw [e5]
  rw [e4] at h hnew
  refine insert_scan h hnew (by rw [hoi]; exact hlast) (by rw [hri]; exact hQ) ?_ hb ?_ hpl
  · intro hnone
    rw [hri] at hnone
    rw [hQn (by simpa using hnone)]; rfl
  · intro y hy hyr hp
    rw [← e4] at hy
    exact tie y hy (by rw [← hk]; exact hyr) hp

end Ndn.Crdt
