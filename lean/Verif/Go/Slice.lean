import Verif.Go.Basic

/-!
# Go slices with shared arrays

Elsewhere a slice is a value with no spare capacity.  Where code appends to a slice it was given, the append may write into an array that
others see; there a slice is an address of an array, an offset, a length and a capacity.
-/

namespace Ndn.Go

/-- the arrays in memory, by address -/
abbrev Mem (α : Type) := List (List α)

/-- a Go slice -/
structure Slice where
  arr : Nat
  off : Nat
  len : Nat
  cap : Nat
deriving DecidableEq

variable {α : Type}

/-- the elements a slice shows -/
def Mem.read (m : Mem α) (s : Slice) : List α := (((m[s.arr]?).getD []).drop s.off).take s.len

/-- `append(s, c)`: in place when there is room, else into a new array, whose spare room (`grow`) the language leaves open; `zero` is the
zero value -/
def Mem.append (zero : α) (grow : Nat) (m : Mem α) (s : Slice) (c : α) : Mem α × Slice :=
  if s.len < s.cap then (m.modify s.arr (fun a => a.set (s.off + s.len) c), { s with len := s.len + 1 })
  else (m ++ [m.read s ++ c :: List.replicate grow zero], ⟨m.length, 0, s.len + 1, s.len + 1 + grow⟩)

/-- a new array of `cap` elements of which the first are given, and the slice of the given ones:
`make([]T, cap)`, then the assignments, then `[:j]` -/
def Mem.make (zero : α) (m : Mem α) (n : List α) (cap : Nat) : Mem α × Slice :=
  (m ++ [n ++ List.replicate (cap - n.length) zero], ⟨m.length, 0, n.length, max cap n.length⟩)

/-! ## Lemmas -/

/-- the slice lies inside an array of the memory -/
def Slice.Ok (m : Mem α) (s : Slice) : Prop := s.len ≤ s.cap ∧ ∃ a, m[s.arr]? = some a ∧ s.off + s.cap ≤ a.length

theorem read_length {m : Mem α} {s : Slice} (h : s.Ok m) : (m.read s).length = s.len := by
  obtain ⟨hl, a, ha, hc⟩ := h
  simp [Mem.read, ha]; omega

theorem read_new (m : Mem α) (a : List α) (len cap : Nat) : Mem.read (m ++ [a]) ⟨m.length, 0, len, cap⟩ = a.take len := by
  simp [Mem.read]

theorem read_old {m : Mem α} {s : Slice} (h : s.Ok m) (a : List α) : Mem.read (m ++ [a]) s = m.read s := by
  obtain ⟨_, b, hb, _⟩ := h
  have hlt : s.arr < m.length := (List.getElem?_eq_some_iff.mp hb).1
  simp [Mem.read, List.getElem?_append_left hlt]

theorem ok_old {m : Mem α} {s : Slice} (h : s.Ok m) (a : List α) : s.Ok (m ++ [a]) := by
  obtain ⟨hl, b, hb, hc⟩ := h
  have hlt : s.arr < m.length := (List.getElem?_eq_some_iff.mp hb).1
  exact ⟨hl, b, by rw [List.getElem?_append_left hlt]; exact hb, hc⟩

theorem take_drop_set (a : List α) (off len : Nat) (c : α) (h : off + len < a.length) :
    ((a.set (off + len) c).drop off).take (len + 1) = (a.drop off).take len ++ [c] := by
  apply List.ext_getElem?
  intro i
  simp only [List.getElem?_take, List.getElem?_drop, List.getElem?_append, List.length_take, List.length_drop, List.getElem?_set]
  rcases Nat.lt_trichotomy i len with hi | rfl | hi
  · have : i < min len (a.length - off) := by omega
    simp only [show i < len + 1 by omega, this, hi, if_true, show ¬ off + len = off + i by omega, if_false]
  · have : ¬ i < min i (a.length - off) := by omega
    have h0 : i - min i (a.length - off) = 0 := by omega
    simp [h, h0]; omega
  · have h1 : ¬ i < len + 1 := by omega
    have h2 : ¬ i < min len (a.length - off) := by omega
    have h3 : i - min len (a.length - off) ≠ 0 := by omega
    simp only [h1, h2, if_false]
    rw [List.getElem?_eq_none (by simp; omega)]

theorem take_drop_set_ne (a : List α) (p off k : Nat) (c : α) (h : off + k ≤ p ∨ p < off) :
    ((a.set p c).drop off).take k = (a.drop off).take k := by
  apply List.ext_getElem?
  intro i
  simp only [List.getElem?_take, List.getElem?_drop, List.getElem?_set]
  by_cases hi : i < k
  · simp only [hi, if_true, show ¬ p = off + i by omega, if_false]
  · simp [hi]

/-- a slice that appending to `s` does not touch: it lies in another array or ends where `s` ends or before -/
def Slice.Before (o s : Slice) : Prop := o.arr ≠ s.arr ∨ o.off + o.len ≤ s.off + s.len

/-- appending gives the elements and the new one, in a sound slice that lies where `s` lay or is new; slices that end before, the slice
itself among them, show what they showed -/
theorem append_spec (zero : α) (grow : Nat) {m m' : Mem α} {s s' : Slice} (h : s.Ok m) (c : α) (e : m.append zero grow s c = (m', s')) :
    m'.read s' = m.read s ++ [c] ∧ s'.Ok m' ∧ (∀ o : Slice, o.Ok m → o.Ok m') ∧
      (∀ o : Slice, o.Ok m → o.Before s → m'.read o = m.read o) ∧ (∀ o : Slice, o.Ok m → o.Before s → o.Before s') := by
  have hrl := read_length h
  have h' := h
  obtain ⟨hl, a, ha, hc⟩ := h'
  unfold Mem.append at e
  split at e
  · rename_i hlt
    injection e with e1 e2
    subst e1 e2
    have hm : (m.modify s.arr (fun a => a.set (s.off + s.len) c))[s.arr]? = some (a.set (s.off + s.len) c) := by
      simp [ha]
    have hne : ∀ i, i ≠ s.arr → (m.modify s.arr (fun a => a.set (s.off + s.len) c))[i]? = m[i]? := by
      intro i hi; rw [List.getElem?_modify_ne _ _ (Ne.symm hi)]
    refine ⟨?_, ⟨by show s.len + 1 ≤ s.cap; omega, _, hm, by simpa using hc⟩, ?_, ?_, ?_⟩
    · show ((((m.modify s.arr _)[s.arr]?).getD []).drop s.off).take (s.len + 1) = _
      rw [hm, Mem.read, ha]
      exact take_drop_set a s.off s.len c (by omega)
    · rintro o ⟨ol, b, hb, hoc⟩
      by_cases ho : o.arr = s.arr
      · rw [ho, ha] at hb
        injection hb with hb
        subst hb
        exact ⟨ol, _, by rw [ho]; exact hm, by simpa using hoc⟩
      · exact ⟨ol, b, by rw [hne _ ho]; exact hb, hoc⟩
    · intro o _ hbef
      unfold Mem.read
      by_cases ho : o.arr = s.arr
      · rw [ho, hm, ha]
        rcases hbef with h1 | h1
        · exact absurd ho h1
        · exact take_drop_set_ne a _ _ _ c (.inl h1)
      · rw [hne _ ho]
    · intro o _ hbef
      rcases hbef with h1 | h1
      · exact .inl h1
      · exact .inr (by show o.off + o.len ≤ s.off + (s.len + 1); omega)
  · injection e with e1 e2
    subst e1 e2
    refine ⟨?_, ⟨by show s.len + 1 ≤ s.len + 1 + grow; omega, _, List.getElem?_concat_length, ?_⟩, fun o ho => ok_old ho _,
      fun o ho _ => read_old ho _, ?_⟩
    · rw [read_new]
      rw [show m.read s ++ c :: List.replicate grow zero = (m.read s ++ [c]) ++ List.replicate grow zero by simp]
      exact List.take_left' (by simp [hrl])
    · show 0 + (s.len + 1 + grow) ≤ _
      simp [hrl]; omega
    · rintro o ⟨_, b, hb, _⟩ _
      have hlt : o.arr < m.length := (List.getElem?_eq_some_iff.mp hb).1
      exact .inl (by show o.arr ≠ m.length; omega)

theorem make_spec (zero : α) (m : Mem α) (n : List α) (cap : Nat) :
    (m.make zero n cap).2.Ok (m.make zero n cap).1 ∧ (m.make zero n cap).1.read (m.make zero n cap).2 = n ∧
      (m.make zero n cap).2.len = n.length ∧ (m.make zero n cap).2.cap = max cap n.length := by
  refine ⟨⟨by simp only [Mem.make]; omega, _, List.getElem?_concat_length, ?_⟩, ?_, rfl, rfl⟩
  · simp only [Mem.make, List.length_append, List.length_replicate]; omega
  · simp only [Mem.make, read_new]; exact List.take_left' rfl

end Ndn.Go
