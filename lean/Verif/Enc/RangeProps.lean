import Verif.Enc.ReaderProps

/-!
# C07: what `Range` gives on a packet in several buffers

`WireReader.Range` against the bytes of the joined packet.
-/

namespace Ndn

namespace WR

theorem accSz_mono (r : WR) {i j : Nat} (h : i ≤ j) : r.accSz i ≤ r.accSz j := by
  unfold accSz
  have : r.wire.take i = (r.wire.take j).take i := by rw [List.take_take, Nat.min_eq_left h]
  rw [this]
  conv => rhs; rw [← List.take_append_drop i (r.wire.take j)]
  simp only [List.flatten_append, List.length_append]
  omega

/-- the loop finds the buffers of the first and of the last byte -/
theorem rangeLoop_eq (r : WR) {start stop : Nat} {i j : Nat} (hi : i < r.wire.length) (hj : j < r.wire.length) (h1 : r.accSz i ≤ start)
    (h2 : start < r.accSz (i + 1)) (h3 : r.accSz j < stop) (h4 : stop ≤ r.accSz (j + 1)) :
    rangeLoop r start stop = (i, (start : Int) - r.accSz i, j, (stop : Int) - r.accSz j) := by
  have key : ∀ m, (List.range m).foldl (fun (st : Nat × Int × Nat × Int) i =>
      let (ss, sp, es, ep) := st
      let a : Int := r.accSz i
      let b : Int := r.accSz (i + 1)
      let (ss, sp) := if a ≤ (start : Int) ∧ b > (start : Int) then (i, (start : Int) - a) else (ss, sp)
      let (es, ep) := if a < (stop : Int) ∧ b ≥ (stop : Int) then (i, (stop : Int) - a) else (es, ep)
      (ss, sp, es, ep)) (0, 0, 0, 0) =
      (if i < m then i else 0, if i < m then (start : Int) - r.accSz i else 0, if j < m then j else 0, if j < m then (stop : Int) - r.accSz j else 0) := by
    intro m
    induction m with
    | zero => simp
    | succ m ih =>
      rw [List.range_succ, List.foldl_append, ih]
      simp only [List.foldl_cons, List.foldl_nil]
      have e1 : ((r.accSz m : Int) ≤ (start : Int) ∧ ((r.accSz (m + 1) : Nat) : Int) > (start : Int)) ↔ m = i := by
        constructor
        · rintro ⟨a, b⟩
          rcases Nat.lt_trichotomy m i with h | h | h
          · have := accSz_mono r (show m + 1 ≤ i from h); omega
          · exact h
          · have := accSz_mono r (show i + 1 ≤ m from h); omega
        · rintro rfl; omega
      have e2 : ((r.accSz m : Int) < (stop : Int) ∧ ((r.accSz (m + 1) : Nat) : Int) ≥ (stop : Int)) ↔ m = j := by
        constructor
        · rintro ⟨a, b⟩
          rcases Nat.lt_trichotomy m j with h | h | h
          · have := accSz_mono r (show m + 1 ≤ j from h); omega
          · exact h
          · have := accSz_mono r (show j + 1 ≤ m from h); omega
        · rintro rfl; omega
      simp only [e1, e2]
      by_cases q1 : m = i <;> by_cases q2 : m = j
      · subst q1; subst q2; simp
      · subst q1
        have : j < m + 1 ↔ j < m := by omega
        simp [q2, this]
      · subst q2
        have : i < m + 1 ↔ i < m := by omega
        simp [q1, this]
      · have a1 : j < m + 1 ↔ j < m := by omega
        have a2 : i < m + 1 ↔ i < m := by omega
        simp [q1, q2, a1, a2]
  have := key r.wire.length
  simp only [hi, hj, if_true] at this
  exact this

end WR

/-- the copying loop of `Range`: `ret[i] = r.wire[i]` for the indices from `i0` on -/
def rangeCopy (w : Wire) (i0 m : Nat) (ret : Wire) : Res Wire :=
  (List.range' i0 m).foldlM (fun (ret : Wire) i => if i < ret.length then .ok (ret.set i (w[i]?.getD [])) else (.panic : Res Wire)) ret

theorem rangeCopy_eq (w : Wire) : ∀ (vals : Wire) (A B : Wire), (∀ j < vals.length, w[A.length + j]?.getD [] = vals[j]?.getD []) →
    rangeCopy w A.length vals.length (A ++ B) = if vals.length ≤ B.length then .ok (A ++ vals ++ B.drop vals.length) else .panic := by
  intro vals
  induction vals with
  | nil => intro A B _; simp [rangeCopy]
  | cons v vals ih =>
    intro A B h
    have h0 : w[A.length]?.getD [] = v := by simpa using h 0 (by simp)
    cases B with
    | nil =>
      simp only [rangeCopy, List.length_cons, List.range'_succ, List.foldlM_cons, List.append_nil, Nat.lt_irrefl, if_false]
      rfl
    | cons b B =>
      have h1 := ih (A ++ [v]) B (fun j hj => by
        have := h (j + 1) (by simp; omega)
        simpa [Nat.add_assoc, Nat.add_comm 1 j] using this)
      simp only [rangeCopy, List.length_cons, List.range'_succ, List.foldlM_cons, List.length_append]
      rw [if_pos (by omega), h0]
      have e : (A ++ b :: B).set A.length v = A ++ [v] ++ B := by simp
      rw [e]
      simp only [rangeCopy, List.length_append, List.length_cons, List.length_nil] at h1
      refine Eq.trans h1 ?_
      simp only [List.drop_succ_cons, Nat.add_le_add_iff_right]
      split <;> simp

/-- the pieces of `Range` over several buffers: `pre` before the one with the first byte, `mid` between it and the one with the last byte -/
theorem WR.range_split (pre mid post : Wire) (s e : Bytes) (start stop : Nat) (h1 : pre.flatten.length ≤ start) (h2 : start < pre.flatten.length + s.length)
    (h3 : pre.flatten.length + s.length + mid.flatten.length < stop) (h4 : stop ≤ pre.flatten.length + s.length + mid.flatten.length + e.length) :
    (WR.new (pre ++ s :: (mid ++ e :: post))).range start stop =
      (rangeCopy (pre ++ s :: (mid ++ e :: post)) (pre.length + 1) mid.length
        ((List.replicate (mid.length + 2) []).set 0 (s.drop (start - pre.flatten.length)))).bind
        fun ret => .ok (ret.set (mid.length + 1) (e.take (stop - (pre.flatten.length + s.length + mid.flatten.length)))) := by
  obtain ⟨w, hw⟩ : ∃ w, w = pre ++ s :: (mid ++ e :: post) := ⟨_, rfl⟩
  have a0 : ∀ i, (WR.new w).accSz i = (w.take i).flatten.length := fun _ => rfl
  have t1 : w.take pre.length = pre := by simp [hw]
  have t2 : w.take (pre.length + 1) = pre ++ [s] := by rw [hw, List.take_append, List.take_of_length_le (by omega)]; simp
  have t3 : w.take (pre.length + mid.length + 1) = pre ++ s :: mid := by
    rw [hw, List.take_append, List.take_of_length_le (by omega), show pre.length + mid.length + 1 - pre.length = mid.length + 1 by omega]; simp
  have t4 : w.take (pre.length + mid.length + 1 + 1) = pre ++ s :: (mid ++ [e]) := by
    rw [hw, List.take_append, List.take_of_length_le (by omega), show pre.length + mid.length + 1 + 1 - pre.length = mid.length + 1 + 1 by omega,
      List.take_succ_cons, List.take_append, List.take_of_length_le (show mid.length ≤ mid.length + 1 by omega)]
    simp
  have hl : w.length = pre.length + mid.length + post.length + 2 := by simp [hw]; omega
  have hlen : (WR.new w).length = w.flatten.length := by unfold WR.length; rw [a0]; simp [WR.new]
  have hfl : w.flatten.length = pre.flatten.length + s.length + mid.flatten.length + e.length + post.flatten.length := by
    rw [hw]; simp only [List.flatten_append, List.flatten_cons, List.length_append]; omega
  have hr := WR.rangeLoop_eq (WR.new w) (start := start) (stop := stop) (i := pre.length) (j := pre.length + mid.length + 1)
    (by show _ < w.length; omega) (by show _ < w.length; omega) (by rw [a0, t1]; exact h1) (by rw [a0, t2]; simpa using h2)
    (by rw [a0, t3]; simp only [List.flatten_append, List.flatten_cons, List.length_append]; omega)
    (by rw [a0, t4]; simp only [List.flatten_append, List.flatten_cons, List.length_append, List.flatten_nil, List.length_nil]; omega)
  have c1 : (WR.new w).accSz pre.length = pre.flatten.length := by rw [a0, t1]
  have c2 : (WR.new w).accSz (pre.length + mid.length + 1) = pre.flatten.length + s.length + mid.flatten.length := by
    rw [a0, t3]; simp only [List.flatten_append, List.flatten_cons, List.length_append]; omega
  have g1 : (WR.new w).wire[pre.length]? = some s := by show w[pre.length]? = _; rw [hw]; simp
  have g2 : (WR.new w).wire[pre.length + mid.length + 1]? = some e := by
    show w[pre.length + mid.length + 1]? = _
    rw [hw, List.getElem?_append_right (by omega), show pre.length + mid.length + 1 - pre.length = mid.length + 1 by omega]; simp
  have s1 : WR.slice s ((start : Int) - pre.flatten.length) s.length = .ok (s.drop (start - pre.flatten.length)) := by
    unfold WR.slice
    rw [if_pos (by omega), show ((start : Int) - pre.flatten.length).toNat = start - pre.flatten.length by omega, Int.toNat_natCast,
      List.take_of_length_le (by simp)]
  have s2 : WR.slice e 0 ((stop : Int) - ((pre.flatten.length + s.length + mid.flatten.length : Nat) : Int)) =
      .ok (e.take (stop - (pre.flatten.length + s.length + mid.flatten.length))) := by
    unfold WR.slice
    rw [if_pos (by omega)]
    simp only [Int.toNat_zero, List.drop_zero, Nat.sub_zero]
    congr 2; omega
  rw [← hw]
  unfold WR.range
  rw [if_neg (by rw [hlen]; omega), hr, c1, c2]
  simp only [if_neg (show ¬ pre.length = pre.length + mid.length + 1 by omega)]
  rw [if_neg (by omega), g1, g2]
  simp only [s1, s2]
  simp only [show pre.length + mid.length + 1 + 1 - pre.length = mid.length + 2 by omega, show ¬ mid.length + 2 = 0 by omega, if_false,
    show pre.length + mid.length + 1 - (pre.length + 1) = mid.length by omega, show pre.length + mid.length + 1 - pre.length = mid.length + 1 by omega]
  rfl

/-- `Range` within one buffer -/
theorem WR.range_one (pre post : Wire) (s : Bytes) (start stop : Nat) (h1 : pre.flatten.length ≤ start) (h2 : start < stop)
    (h3 : stop ≤ pre.flatten.length + s.length) :
    (WR.new (pre ++ s :: post)).range start stop = .ok [(s.drop (start - pre.flatten.length)).take (stop - start)] := by
  obtain ⟨w, hw⟩ : ∃ w, w = pre ++ s :: post := ⟨_, rfl⟩
  have a0 : ∀ i, (WR.new w).accSz i = (w.take i).flatten.length := fun _ => rfl
  have t1 : w.take pre.length = pre := by simp [hw]
  have t2 : w.take (pre.length + 1) = pre ++ [s] := by rw [hw, List.take_append, List.take_of_length_le (by omega)]; simp
  have hl : w.length = pre.length + post.length + 1 := by simp [hw]; omega
  have hlen : (WR.new w).length = w.flatten.length := by unfold WR.length; rw [a0]; simp [WR.new]
  have hfl : w.flatten.length = pre.flatten.length + s.length + post.flatten.length := by
    rw [hw]; simp only [List.flatten_append, List.flatten_cons, List.length_append]; omega
  have c1 : (WR.new w).accSz pre.length = pre.flatten.length := by rw [a0, t1]
  have c2 : (WR.new w).accSz (pre.length + 1) = pre.flatten.length + s.length := by rw [a0, t2]; simp
  have hr := WR.rangeLoop_eq (WR.new w) (start := start) (stop := stop) (i := pre.length) (j := pre.length)
    (by show _ < w.length; omega) (by show _ < w.length; omega) (by rw [c1]; exact h1) (by rw [c2]; omega) (by rw [c1]; omega) (by rw [c2]; omega)
  have g1 : (WR.new w).wire[pre.length]? = some s := by show w[pre.length]? = _; rw [hw]; simp
  rw [← hw]
  unfold WR.range
  rw [if_neg (by rw [hlen]; omega), hr, c1]
  simp only [if_true, g1]
  unfold WR.slice
  rw [if_pos (by omega), show ((start : Int) - pre.flatten.length).toNat = start - pre.flatten.length by omega,
    show ((stop : Int) - pre.flatten.length).toNat - (start - pre.flatten.length) = stop - start by omega]
  rfl

/-- **C07, `Range` (partial)**: when the range is not empty and lies in one buffer, or in two that follow each other, or starts in the first buffer, the wire
that `Range` gives consists of exactly the bytes that `BufferReader.Range` gives on the joined packet -/
theorem C07_range_partial (pre mid post : Wire) (s e : Bytes) (start stop : Nat) (hp : pre = [] ∨ mid = []) (h1 : pre.flatten.length ≤ start)
    (h2 : start < pre.flatten.length + s.length) :
    (start < stop → stop ≤ pre.flatten.length + s.length → ∃ b, (WR.new (pre ++ s :: post)).range start stop = .ok [b] ∧
      (BR.new (Wire.join (pre ++ s :: post))).range start stop = some [b]) ∧
    (pre.flatten.length + s.length + mid.flatten.length < stop → stop ≤ pre.flatten.length + s.length + mid.flatten.length + e.length →
      ∃ w, (WR.new (pre ++ s :: (mid ++ e :: post))).range start stop = .ok w ∧
        (BR.new (Wire.join (pre ++ s :: (mid ++ e :: post)))).range start stop = some [w.flatten]) := by
  constructor
  · intro h3 h4
    refine ⟨_, WR.range_one pre post s start stop h1 h3 h4, ?_⟩
    unfold BR.range
    have hj : (Wire.join (pre ++ s :: post)) = pre.flatten ++ (s ++ post.flatten) := by simp [Wire.join]
    rw [if_neg (by simp only [BR.new, hj, List.length_append]; omega)]
    simp only [BR.new, hj, Int.toNat_natCast]
    rw [List.drop_append, List.drop_eq_nil_of_le h1, List.nil_append, List.drop_append, List.take_append_of_le_length (by simp only [List.length_drop]; omega)]
  · intro h3 h4
    have hc : rangeCopy (pre ++ s :: (mid ++ e :: post)) (pre.length + 1) mid.length
        ((List.replicate (mid.length + 2) []).set 0 (s.drop (start - pre.flatten.length))) =
        .ok (s.drop (start - pre.flatten.length) :: mid ++ [[]]) := by
      rcases hp with rfl | rfl
      · have := rangeCopy_eq (s :: (mid ++ e :: post)) mid [s.drop (start - 0)] (List.replicate (mid.length + 1) []) (fun j hj => by
          simp only [List.length_cons, List.length_nil]
          rw [show 0 + 1 + j = j + 1 by omega, List.getElem?_cons_succ, List.getElem?_append_left hj])
        simp only [List.length_replicate, Nat.le_succ, if_true, List.drop_replicate, List.length_cons, List.length_nil] at this
        rw [show mid.length + 1 - mid.length = 1 by omega] at this
        simpa [List.replicate_succ] using this
      · simp [rangeCopy, List.replicate_succ]
    rw [WR.range_split pre mid post s e start stop h1 h2 h3 h4, hc]
    refine ⟨_, rfl, ?_⟩
    unfold BR.range
    have hj : (Wire.join (pre ++ s :: (mid ++ e :: post))) = pre.flatten ++ (s ++ (mid.flatten ++ (e ++ post.flatten))) := by simp [Wire.join]
    rw [if_neg (by simp only [BR.new, hj, List.length_append]; omega)]
    simp only [BR.new, hj, Int.toNat_natCast]
    have e1 : ((s.drop (start - pre.flatten.length) :: mid ++ [[]]).set (mid.length + 1)
        (e.take (stop - (pre.flatten.length + s.length + mid.flatten.length)))).flatten =
        s.drop (start - pre.flatten.length) ++ (mid.flatten ++ e.take (stop - (pre.flatten.length + s.length + mid.flatten.length))) := by
      rw [List.cons_append, List.set_cons_succ, List.set_append_right _ _ (by omega)]
      simp
    rw [e1, List.drop_append, List.drop_eq_nil_of_le h1, List.nil_append, List.drop_append_of_le_length (by omega), List.take_append,
      List.take_of_length_le (by simp only [List.length_drop]; omega), List.take_append, List.take_of_length_le (by simp only [List.length_drop]; omega), List.take_append_of_le_length (by simp only [List.length_drop]; omega)]
    congr 5
    simp only [List.length_drop]; omega

/-- **C07, `Range` fails otherwise**: a range over three buffers or more that does not start in the first one panics when it starts after the second, and
otherwise loses the bytes of the last buffer in between -/
theorem C07_range_middle_violated (pre mid post : Wire) (s e : Bytes) (start stop : Nat) (hm : mid ≠ []) (h1 : pre.flatten.length ≤ start)
    (h2 : start < pre.flatten.length + s.length) (h3 : pre.flatten.length + s.length + mid.flatten.length < stop)
    (h4 : stop ≤ pre.flatten.length + s.length + mid.flatten.length + e.length) :
    (2 ≤ pre.length → (WR.new (pre ++ s :: (mid ++ e :: post))).range start stop = .panic) ∧
    (pre.length = 1 → (WR.new (pre ++ s :: (mid ++ e :: post))).range start stop =
      .ok (s.drop (start - pre.flatten.length) :: [] :: mid.dropLast ++ [e.take (stop - (pre.flatten.length + s.length + mid.flatten.length))])) := by
  rw [WR.range_split pre mid post s e start stop h1 h2 h3 h4]
  obtain ⟨n, hn⟩ : ∃ n, mid.length = n + 1 := ⟨mid.length - 1, by have := List.length_pos_iff.2 hm; omega⟩
  have hv : ∀ j < mid.length, (pre ++ s :: (mid ++ e :: post))[pre.length + 1 + j]?.getD [] = mid[j]?.getD [] := by
    intro j hj
    rw [List.getElem?_append_right (by omega), show pre.length + 1 + j - pre.length = j + 1 by omega, List.getElem?_cons_succ, List.getElem?_append_left hj]
  constructor
  · intro hk
    suffices hs : rangeCopy (pre ++ s :: (mid ++ e :: post)) (pre.length + 1) mid.length
        ((List.replicate (mid.length + 2) []).set 0 (s.drop (start - pre.flatten.length))) = .panic by rw [hs]; rfl
    by_cases hb : pre.length + 1 ≤ mid.length + 2
    · have := rangeCopy_eq (pre ++ s :: (mid ++ e :: post)) mid (s.drop (start - pre.flatten.length) :: List.replicate pre.length [])
        (List.replicate (mid.length + 1 - pre.length) []) (by simpa using hv)
      rw [if_neg (by simp; omega)] at this
      simp only [List.cons_append, List.replicate_append_replicate, List.length_cons, List.length_replicate] at this
      rw [show pre.length + (mid.length + 1 - pre.length) = mid.length + 1 by omega] at this
      simpa [List.replicate_succ] using this
    · unfold rangeCopy
      rw [hn, List.range'_succ, List.foldlM_cons, if_neg (by simp; omega)]
      rfl
  · intro hk
    have := rangeCopy_eq (pre ++ s :: (mid ++ e :: post)) mid [s.drop (start - pre.flatten.length), []] (List.replicate mid.length [])
      (by simpa [hk] using hv)
    rw [if_pos (by simp)] at this
    have hs : rangeCopy (pre ++ s :: (mid ++ e :: post)) (pre.length + 1) mid.length
        ((List.replicate (mid.length + 2) []).set 0 (s.drop (start - pre.flatten.length))) =
        .ok (s.drop (start - pre.flatten.length) :: [] :: mid) := by
      simpa [List.replicate_succ, hk] using this
    rw [hs]
    show Res.ok _ = _
    congr 1
    generalize e.take (stop - (pre.flatten.length + s.length + mid.flatten.length)) = last
    rw [hn, List.set_cons_succ, List.set_cons_succ]
    conv => lhs; rw [← List.dropLast_concat_getLast hm]
    rw [List.set_append_right _ _ (by simp; omega)]
    simp [hn]

/-- **C07, empty ranges**: where two buffers meet, `Range` panics on the empty range, which `BufferReader.Range` answers -/
theorem C07_range_empty_panics (pre post : Wire) (s e : Bytes) (hs : s ≠ []) (he : e ≠ []) :
    (WR.new (pre ++ s :: e :: post)).range (pre.flatten.length + s.length : Nat) (pre.flatten.length + s.length : Nat) = .panic ∧
      (BR.new (Wire.join (pre ++ s :: e :: post))).range (pre.flatten.length + s.length : Nat) (pre.flatten.length + s.length : Nat) = some [[]] := by
  obtain ⟨w, hw⟩ : ∃ w, w = pre ++ s :: e :: post := ⟨_, rfl⟩
  have hs' := List.length_pos_iff.2 hs
  have he' := List.length_pos_iff.2 he
  have a0 : ∀ i, (WR.new w).accSz i = (w.take i).flatten.length := fun _ => rfl
  have t1 : w.take pre.length = pre := by simp [hw]
  have t2 : w.take (pre.length + 1) = pre ++ [s] := by rw [hw, List.take_append, List.take_of_length_le (by omega)]; simp
  have t3 : w.take (pre.length + 1 + 1) = pre ++ [s, e] := by
    rw [hw, List.take_append, List.take_of_length_le (by omega), show pre.length + 1 + 1 - pre.length = 2 by omega]; simp
  have hl : w.length = pre.length + post.length + 2 := by simp [hw]; omega
  have hlen : (WR.new w).length = w.flatten.length := by unfold WR.length; rw [a0]; simp [WR.new]
  have hfl : w.flatten.length = pre.flatten.length + s.length + e.length + post.flatten.length := by
    rw [hw]; simp only [List.flatten_append, List.flatten_cons, List.length_append]; omega
  have c1 : (WR.new w).accSz pre.length = pre.flatten.length := by rw [a0, t1]
  have c2 : (WR.new w).accSz (pre.length + 1) = pre.flatten.length + s.length := by rw [a0, t2]; simp
  have c3 : (WR.new w).accSz (pre.length + 1 + 1) = pre.flatten.length + s.length + e.length := by rw [a0, t3]; simp; omega
  constructor
  · have hr := WR.rangeLoop_eq (WR.new w) (start := pre.flatten.length + s.length) (stop := pre.flatten.length + s.length) (i := pre.length + 1)
      (j := pre.length) (by show _ < w.length; omega) (by show _ < w.length; omega) (by omega) (by omega) (by omega) (by omega)
    have g1 : (WR.new w).wire[pre.length + 1]? = some e := by
      show w[pre.length + 1]? = _
      rw [hw, List.getElem?_append_right (by omega), show pre.length + 1 - pre.length = 1 by omega]; rfl
    have g2 : (WR.new w).wire[pre.length]? = some s := by show w[pre.length]? = _; rw [hw]; simp
    rw [← hw]
    unfold WR.range
    rw [if_neg (by rw [hlen]; omega), hr, c1, c2]
    simp only [if_neg (show ¬ pre.length + 1 = pre.length by omega)]
    rw [if_neg (by omega), g1, g2]
    simp only
    have : WR.slice e (((pre.flatten.length + s.length : Nat) : Int) - ((pre.flatten.length + s.length : Nat) : Int)) e.length = .ok e := by
      unfold WR.slice; rw [if_pos (by omega)]; simp
    rw [this]
    show (if pre.length + 1 - (pre.length + 1) = 0 then _ else _) = _
    rw [if_pos (by omega)]
  · rw [← hw]
    unfold BR.range
    rw [if_neg (by simp only [BR.new, Wire.join]; omega)]
    simp

example : (WR.new [[1, 2], [3], [4, 5]]).range 1 4 = .ok [[2], [3], [4]] ∧ (WR.new [[1], [2, 3], [4, 5]]).range 2 4 = .ok [[3], [4]] := by decide

example : (WR.new [[0], [1, 2], [3], [4], [5, 6]]).range 2 6 = .ok [[2], [], [3], [5]] ∧ (WR.new [[0], [0], [1], [2], [3]]).range 2 5 = .panic := by decide

end Ndn
