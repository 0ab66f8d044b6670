import Verif.Crdt.WorldLemmas

/-!
# C74: local edits of the shared document act at the offset in the text
-/

namespace Ndn.Crdt

/-! ## Specification -/

/-- what the user sees: the items that are not deleted -/
def visible (items : List Item) : List Item := items.filter fun x => !x.deleted

/-- the first item of the document is not deleted -/
def HeadVisible (items : List Item) : Prop := ∀ x, items.head? = some x → x.deleted = false

/-! ## Lemmas -/

/-- the item at position `j` is the visible one with number `k` -/
def VisAt (items : List Item) (j k : Nat) : Prop := ∃ x, items[j]? = some x ∧ x.deleted = false ∧ (visible (items.take j)).length = k

theorem visible_split {items : List Item} {j k : Nat} {x : Item} (h : items[j]? = some x) (hx : x.deleted = false) (hk : (visible (items.take j)).length = k) :
    visible items = visible (items.take j) ++ x :: visible (items.drop (j + 1)) ∧ (visible items)[k]? = some x := by
  obtain ⟨hj, rfl⟩ := List.getElem?_eq_some_iff.mp h
  have e : items = items.take j ++ items[j] :: items.drop (j + 1) := by
    rw [List.getElem_cons_drop, List.take_append_drop]
  have e2 : visible items = visible (items.take j) ++ items[j] :: visible (items.drop (j + 1)) := by
    conv => lhs; rw [e]
    simp only [visible, List.filter_append, List.filter_cons, hx]
    rfl
  refine ⟨e2, ?_⟩
  rw [e2, List.getElem?_append_right (by omega), ← hk]
  simp

theorem visible_count {items : List Item} {j k : Nat} (h : VisAt items j k) : (visible (items.take (j + 1))).length = k + 1 := by
  obtain ⟨x, h1, h2, h3⟩ := h
  rw [List.take_add_one, h1]
  simp [visible, List.filter_append, h2] at h3 ⊢
  exact h3

theorem next_spec {items : List Item} {i c : Nat} (hc : (visible (items.take (i + 1))).length = c) :
    (∀ j, nextAt items i = some j → VisAt items j c) ∧ (nextAt items i = none → (visible items).length = c) := by
  constructor
  · intro j h
    rw [nextAt, Option.map_eq_some_iff] at h
    obtain ⟨k, h1, rfl⟩ := h
    obtain ⟨h3, h4, h5⟩ := List.findIdx?_eq_some_iff_getElem.mp h1
    rw [List.getElem_drop] at h4
    rw [List.length_drop] at h3
    refine ⟨items[i + 1 + k], ?_, by simpa using h4, ?_⟩
    · rw [List.getElem?_eq_getElem (by omega)]; congr 2; omega
    · have e : items.take (k + (i + 1)) = items.take (i + 1) ++ (items.drop (i + 1)).take k := by
        rw [Nat.add_comm, List.take_add]
      have e0 : visible ((items.drop (i + 1)).take k) = [] := by
        rw [visible, List.filter_eq_nil_iff]
        intro x hx
        obtain ⟨m, hm, rfl⟩ := List.mem_iff_getElem.mp hx
        rw [List.length_take, List.length_drop] at hm
        rw [List.getElem_take]
        exact h5 m (by omega)
      rw [e, visible, List.filter_append, ← visible, ← visible, e0, List.append_nil, hc]
  · intro h
    rw [nextAt, Option.map_eq_none_iff, List.findIdx?_eq_none_iff] at h
    have e0 : visible (items.drop (i + 1)) = [] := by
      rw [visible, List.filter_eq_nil_iff]
      intro x hx
      simpa using h x hx
    conv => lhs; rw [← List.take_append_drop (i + 1) items]
    rw [visible, List.filter_append, ← visible, ← visible, e0, List.append_nil, hc]

theorem steps_spec {items : List Item} : ∀ (n i c : Nat), (visible (items.take (i + 1))).length = c →
    (∀ j, stepsFrom items (n + 1) (some i) = some j → VisAt items j (c + n)) ∧ (stepsFrom items (n + 1) (some i) = none → (visible items).length ≤ c + n)
  | 0, i, c, hc => by
    refine ⟨fun j h => (next_spec hc).1 j h, fun h => ?_⟩
    have := (next_spec hc).2 h
    omega
  | n + 1, i, c, hc => by
    rw [stepsFrom]
    cases hn : nextAt items i with
    | none =>
      refine ⟨fun j h => by simp [stepsFrom] at h, fun _ => ?_⟩
      have := (next_spec hc).2 hn
      omega
    | some i' =>
      have hv := (next_spec hc).1 i' hn
      have ih := steps_spec n i' (c + 1) (visible_count hv)
      rw [show c + (n + 1) = c + 1 + n by omega]
      exact ih

theorem itemAt_spec {items : List Item} (hh : HeadVisible items) {n : Nat} :
    (∀ j, itemAt items (n + 1 : Nat) = some j → VisAt items j n) ∧ (itemAt items (n + 1 : Nat) = none → (visible items).length ≤ n) := by
  have e : itemAt items (n + 1 : Nat) = stepsFrom items n (if items = [] then none else some 0) := by
    rw [itemAt, if_neg (by omega)]; congr 1; omega
  rw [e]
  cases items with
  | nil => cases n <;> simp [stepsFrom, visible]
  | cons x items =>
    rw [if_neg (by simp)]
    have hx := hh x rfl
    cases n with
    | zero =>
      refine ⟨fun j h => ?_, fun h => by cases h⟩
      cases h
      exact ⟨x, rfl, hx, rfl⟩
    | succ n =>
      have := steps_spec (items := x :: items) n 0 1 (by simp [visible, hx])
      rw [show 1 + n = n + 1 by omega] at this
      exact this

theorem itemAt_deleted {x : Item} {items : List Item} (hx : x.deleted = true) {n : Nat} :
    itemAt (x :: items) 1 = some 0 ∧
    (∀ j, itemAt (x :: items) (n + 2 : Nat) = some j → VisAt (x :: items) j n) ∧ (itemAt (x :: items) (n + 2 : Nat) = none → (visible (x :: items)).length ≤ n) := by
  have e : itemAt (x :: items) (n + 2 : Nat) = stepsFrom (x :: items) (n + 1) (some 0) := by
    rw [itemAt, if_neg (by omega), if_neg (by simp)]; congr 1; omega
  rw [e]
  refine ⟨rfl, ?_⟩
  have := steps_spec (items := x :: items) n 0 0 (by simp [visible, hx])
  simpa using this

theorem visible_insert {items : List Item} {j k : Nat} (h : VisAt items j k) {it : Item} (hit : it.deleted = false) :
    visible (items.take (j + 1) ++ it :: items.drop (j + 1)) = (visible items).take (k + 1) ++ it :: (visible items).drop (k + 1) := by
  have hc := visible_count h
  have e : visible items = visible (items.take (j + 1)) ++ visible (items.drop (j + 1)) := by
    rw [visible, visible, visible, ← List.filter_append, List.take_append_drop]
  rw [e, ← hc, List.take_left', List.drop_left']
  · simp [visible, List.filter_append, hit]
  · rfl
  · rfl

theorem visible_set {items : List Item} {j k : Nat} {x y : Item} (h : items[j]? = some x) (hx : x.deleted = false) (hk : (visible (items.take j)).length = k)
    (hy : y.deleted = true) : visible (items.set j y) = (visible items).eraseIdx k := by
  have hj := (List.getElem?_eq_some_iff.mp h).1
  rw [(visible_split h hx hk).1, List.set_eq_take_append_cons_drop, if_pos hj, List.eraseIdx_append_of_length_le (by omega), hk]
  simp [visible, List.filter_append, hy]

theorem getText_visible (td : TextDoc) : td.getText = ((visible td.doc.items).map Item.content).flatten := by
  unfold TextDoc.getText visible
  induction td.doc.items with
  | nil => rfl
  | cons x xs ih => cases hx : x.deleted <;> simp [hx, ih]

/-! ## Theorems -/

/-- C74: an insertion at the offset `n` of the text: behind the first `n` visible items, and refused if there are fewer.  The record says what was inserted; the
clock goes on.  Partial: the first item of the document must not be deleted (`C74_offset_violated`). -/
theorem C74_insert_partial (td : TextDoc) (hh : HeadVisible td.doc.items) (n : Nat) (content : Bytes) :
    (n ≤ (visible td.doc.items).length → ∃ td' rec it, td.insert n content = some (td', rec) ∧ it.content = content ∧
      visible td'.doc.items = (visible td.doc.items).take n ++ it :: (visible td.doc.items).drop n ∧
      rec.typ = 1 ∧ rec.id = some ⟨td.doc.producer, td.doc.clock⟩ ∧ it.id = ⟨td.doc.producer, td.doc.clock⟩ ∧ rec.content = content ∧
      rec.origin = it.origin ∧ rec.rorigin = it.rorigin ∧ td'.pending = td.pending ∧ td'.doc.clock = (td.doc.clock + 1) % 2 ^ 64) ∧
    ((visible td.doc.items).length < n → td.insert n content = none) := by
  unfold TextDoc.insert Doc.localInsert
  cases n with
  | zero =>
    refine ⟨fun _ => ?_, fun h => by omega⟩
    have e : itemAt td.doc.items ((0 : Nat) : Int) = none := by simp [itemAt]
    simp only [e]
    exact ⟨_, _, ⟨⟨⟨td.doc.producer, td.doc.clock⟩, none, td.doc.items[0]?.map (·.id)⟩, content, false⟩, rfl, rfl, rfl, rfl, rfl, rfl, rfl, rfl, rfl, rfl, rfl⟩
  | succ n =>
    have hs := itemAt_spec hh (n := n)
    cases e : itemAt td.doc.items (n + 1 : Nat) with
    | none =>
      have := hs.2 e
      refine ⟨fun h => by omega, fun _ => ?_⟩
      simp
    | some j =>
      have hv := hs.1 j e
      obtain ⟨x, h1, h2, h3⟩ := hv
      have hlt : n < (visible td.doc.items).length := by
        have := (visible_split h1 h2 h3).2
        exact (List.getElem?_eq_some_iff.mp this).1
      refine ⟨fun _ => ?_, fun h => by omega⟩
      simp only [reduceCtorEq, false_and, if_false, Option.map_some]
      exact ⟨_, _, ⟨⟨⟨td.doc.producer, td.doc.clock⟩, (some j).bind fun l => td.doc.items[l]?.map fun x : Item => x.id, td.doc.items[j + 1]?.map fun x : Item => x.id⟩, content, false⟩,
        rfl, rfl,
        visible_insert (it := ⟨⟨⟨td.doc.producer, td.doc.clock⟩, _, _⟩, content, false⟩) ⟨x, h1, h2, h3⟩ rfl, rfl, rfl, rfl, rfl, rfl, rfl, rfl, rfl⟩

/-- C74: a deletion at the offset `n` takes away the visible item with this number, counted from one, and the record names it; other offsets are refused.  Partial:
the first item of the document must not be deleted. -/
theorem C74_delete_partial (td : TextDoc) (hh : HeadVisible td.doc.items) (n : Nat) :
    (∀ x, (visible td.doc.items)[n]? = some x → ∃ td' rec, td.delete (n + 1 : Nat) = some (td', rec) ∧
      visible td'.doc.items = (visible td.doc.items).eraseIdx n ∧ rec.typ = 2 ∧ rec.id = some x.id ∧ td'.pending = td.pending ∧ td'.doc.clock = td.doc.clock) ∧
    ((visible td.doc.items).length ≤ n → td.delete (n + 1 : Nat) = none) := by
  unfold TextDoc.delete Doc.localDelete
  have hs := itemAt_spec hh (n := n)
  cases e : itemAt td.doc.items (n + 1 : Nat) with
  | none =>
    have := hs.2 e
    refine ⟨fun x hx => ?_, fun _ => rfl⟩
    have := (List.getElem?_eq_some_iff.mp hx).1
    omega
  | some j =>
    obtain ⟨y, h1, h2, h3⟩ := hs.1 j e
    have h4 := (visible_split h1 h2 h3).2
    refine ⟨fun x hx => ?_, fun h => ?_⟩
    · rw [h4] at hx
      cases hx
      simp only [h1, Option.map_some]
      exact ⟨_, _, rfl, visible_set h1 h2 h3 rfl, rfl, rfl, rfl, rfl⟩
    · have := (List.getElem?_eq_some_iff.mp h4).1
      omega

/-- C74: at the beginning of the text an insertion always works, and offsets that are not positive name no item to delete -/
theorem C74_front (td : TextDoc) (offset : Int) (h : offset ≤ 0) (content : Bytes) :
    (∃ td' rec it, td.insert offset content = some (td', rec) ∧ it.content = content ∧ visible td'.doc.items = it :: visible td.doc.items) ∧ td.delete offset = none := by
  have e : itemAt td.doc.items offset = none := by simp [itemAt, h]
  unfold TextDoc.insert Doc.localInsert TextDoc.delete Doc.localDelete
  simp only [e]
  rw [if_neg (by omega)]
  exact ⟨⟨_, _, ⟨⟨⟨td.doc.producer, td.doc.clock⟩, none, td.doc.items[0]?.map (·.id)⟩, content, false⟩, rfl, rfl, rfl⟩, rfl⟩

/-- C74: the items that `LocalInsert` and `LocalDelete` return are in the document, the deleted one as deleted -/
theorem C74_returned (d d' : Doc) (offset : Int) (content : Bytes) (it : Item) :
    (d.localInsert offset content = some (d', it) → it ∈ d'.items ∧ it.deleted = false) ∧ (d.localDelete offset = some (d', it) → it ∈ d'.items ∧ it.deleted = true) := by
  constructor
  · intro h
    unfold Doc.localInsert at h
    simp only at h
    split at h
    · cases h
    · cases h; simp
  · intro h
    unfold Doc.localDelete at h
    split at h
    · cases h
    · split at h
      · cases h
      · rename_i l _ _ x hl
        cases h
        have := (List.getElem?_eq_some_iff.mp hl).1
        exact ⟨List.mem_set this _, rfl⟩

/-- C74 fails once the first item of the document is deleted, since `ItemAt` counts it: a deletion at offset 1 changes no text, one at offset `n + 2` takes the
visible item before the one it should, and an insertion at offset `n + 2` goes before the item behind which it should go. -/
theorem C74_offset_violated (td : TextDoc) {x : Item} {items : List Item} (hi : td.doc.items = x :: items) (hx : x.deleted = true) :
    (∃ td' rec, td.delete 1 = some (td', rec) ∧ td'.getText = td.getText) ∧
    (∀ n < (visible td.doc.items).length, ∃ td' rec, td.delete (n + 2 : Nat) = some (td', rec) ∧ visible td'.doc.items = (visible td.doc.items).eraseIdx n) ∧
    (∀ n < (visible td.doc.items).length, ∀ content, ∃ td' rec it, td.insert (n + 2 : Nat) content = some (td', rec) ∧ it.content = content ∧
      visible td'.doc.items = (visible td.doc.items).take (n + 1) ++ it :: (visible td.doc.items).drop (n + 1)) := by
  refine ⟨?_, fun n hn => ?_, fun n hn content => ?_⟩
  · unfold TextDoc.delete Doc.localDelete
    rw [hi, (itemAt_deleted hx (n := 0)).1]
    refine ⟨_, _, rfl, ?_⟩
    rw [getText_visible, getText_visible, hi]
    simp [visible, hx]
  · have hs := (itemAt_deleted (items := items) hx (n := n)).2
    rw [← hi] at hs
    unfold TextDoc.delete Doc.localDelete
    cases e : itemAt td.doc.items (n + 2 : Nat) with
    | none => have := hs.2 e; omega
    | some j =>
      obtain ⟨y, h1, h2, h3⟩ := hs.1 j e
      simp only [h1, Option.map_some]
      exact ⟨_, _, rfl, visible_set h1 h2 h3 rfl⟩
  · have hs := (itemAt_deleted (items := items) hx (n := n)).2
    rw [← hi] at hs
    unfold TextDoc.insert Doc.localInsert
    cases e : itemAt td.doc.items (n + 2 : Nat) with
    | none => have := hs.2 e; omega
    | some j =>
      obtain ⟨y, h1, h2, h3⟩ := hs.1 j e
      simp only [reduceCtorEq, false_and, if_false, Option.map_some]
      exact ⟨_, _, ⟨⟨⟨td.doc.producer, td.doc.clock⟩, (some j).bind fun l => td.doc.items[l]?.map fun x : Item => x.id, td.doc.items[j + 1]?.map fun x : Item => x.id⟩, content, false⟩,
        rfl, rfl,
        visible_insert (it := ⟨⟨⟨td.doc.producer, td.doc.clock⟩, _, _⟩, content, false⟩) ⟨y, h1, h2, h3⟩ rfl⟩

/-! ## Examples -/

/-- "a", "b", "c" typed one after the other, then "b" deleted -/
private def exDoc : TextDoc :=
  ⟨⟨1, 3, [⟨⟨⟨1, 0⟩, none, none⟩, [97], false⟩, ⟨⟨⟨1, 1⟩, some ⟨1, 0⟩, none⟩, [98], true⟩, ⟨⟨⟨1, 2⟩, some ⟨1, 1⟩, none⟩, [99], false⟩]⟩, Util.PQ.new⟩

example : HeadVisible exDoc.doc.items ∧ exDoc.getText = [97, 99] := ⟨by rintro x ⟨⟩; rfl, rfl⟩
example : (exDoc.insert 2 [100]).map (·.1.getText) = some [97, 99, 100] ∧ (exDoc.insert 1 [100]).map (·.1.getText) = some [97, 100, 99] ∧
    exDoc.insert 3 [100] = none ∧ (exDoc.delete 2).map (·.1.getText) = some [97] := ⟨rfl, rfl, rfl, rfl⟩

/-- the user deletes the first character of "ac" and then wants to delete the next one: nothing happens -/
example : ((exDoc.delete 1).bind fun r => r.1.delete 1).map (·.1.getText) = some [99] := rfl

end Ndn.Crdt
