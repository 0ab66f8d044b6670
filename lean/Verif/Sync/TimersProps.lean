import Verif.Sync.Timers
import Mathlib.Analysis.Complex.Exponential
import Mathlib.Tactic.Linarith
import Mathlib.Tactic.NormNum
import Mathlib.Tactic.FieldSimp
import Mathlib.Tactic.Positivity
import Mathlib.Tactic.Ring

/-!
# C92: the delays of SVS

The periodic delay is within ten per cent of the period, each such delay can be drawn, and neither call of `Ticker.Reset` panics.  The
suppression delay lies between one nanosecond and the period, and half of the draws give more than 99 per cent of it.

`Rounds` says what is assumed of `float64`: it speaks only of finite operands and of results that neither overflow nor underflow, where it
asks for a relative error of at most `2^-45` (IEEE 754 gives `2^-53`, and `math.Pow` is good to a few units in the last place).
-/

namespace Ndn.Sync

theorem i64_id {x : Int} (h : -2 ^ 63 ≤ x) (h2 : x < 2 ^ 63) : i64 x = x := by
  unfold i64
  exact Int.bmod_eq_of_le (by omega) (by omega)

/-- the periodic delay: in `[p - p/10, p + p/10)` -/
theorem periodic_eq (p : Int) (r : Nat) (h : 10 ≤ p) (h2 : p ≤ 2 ^ 62) :
    periodicTimeout p r = .ok (p - p / 10 + (r : Int) % (2 * (p / 10))) := by
  have ht : p.tdiv 10 = p / 10 := Int.tdiv_eq_ediv_of_nonneg (by omega)
  have e1 : i64 (p - p / 10) = p - p / 10 := i64_id (by omega) (by omega)
  have e2 : i64 (p + p / 10) = p + p / 10 := i64_id (by omega) (by omega)
  have e3 : p + p / 10 - (p - p / 10) = 2 * (p / 10) := by omega
  have hj : 0 < 2 * (p / 10) := by omega
  have a1 := Int.emod_nonneg (r : Int) (show 2 * (p / 10) ≠ 0 by omega)
  have a2 := Int.emod_lt_of_pos (r : Int) hj
  simp only [periodicTimeout, ht, e1, e2, e3]
  rw [i64_id (by omega) (by omega), int64N, if_neg (by omega)]
  show Res.ok (i64 _) = _
  rw [i64_id (by omega) (by omega)]
  congr 1
  omega

/-- C92: the periodic delay is at most a tenth of the period away from it, and each whole number of nanoseconds in this range (without its upper end) can be drawn -/
theorem C92_periodic (p : Int) (h : 10 ≤ p) (h2 : p ≤ 2 ^ 62) :
    (∀ r, ∃ d, periodicTimeout p r = .ok d ∧ 9 * p ≤ 10 * d ∧ 10 * d ≤ 11 * p ∧ 0 < d) ∧
    (∀ d, p - p / 10 ≤ d → d < p + p / 10 → ∃ r, periodicTimeout p r = .ok d) := by
  constructor
  · intro r
    have hj : 0 < 2 * (p / 10) := by omega
    have a1 := Int.emod_nonneg (r : Int) (show 2 * (p / 10) ≠ 0 by omega)
    have a2 := Int.emod_lt_of_pos (r : Int) hj
    exact ⟨_, periodic_eq p r h h2, by omega, by omega, by omega⟩
  · intro d h3 h4
    refine ⟨(d - (p - p / 10)).toNat, ?_⟩
    rw [periodic_eq p _ h h2, Int.toNat_of_nonneg (by omega), Int.emod_eq_of_lt (by omega) (by omega)]
    congr 1
    omega

/-- C92: a period of less than ten nanoseconds has no jitter, and the draw panics -/
theorem C92_periodic_panics (p : Int) (r : Nat) (h : 0 ≤ p) (h2 : p < 10) : periodicTimeout p r = .panic := by
  have ht : p.tdiv 10 = 0 := by rw [Int.tdiv_eq_ediv_of_nonneg h]; omega
  simp only [periodicTimeout, ht]
  rw [i64_id (x := p - 0) (by omega) (by omega), i64_id (x := p + 0) (by omega) (by omega), i64_id (by omega) (by omega), int64N, if_pos (by omega)]
  rfl

/-- the result has a relative error of at most `2^-45` -/
def Near (y x : ℝ) : Prop := |y - x| ≤ |x| / 2 ^ 45

/-- a number far from overflow and underflow -/
def Normal (x : ℝ) : Prop := 1 / 2 ^ 1000 ≤ |x| ∧ |x| ≤ 2 ^ 1000

/-- what is assumed of `float64`: `fin` are the finite values, `val` their values -/
structure Rounds {α : Type} (A : FloatArith α) (fin : α → Prop) (val : α → ℝ) : Prop where
  ofInt : ∀ n : Int, |n| ≤ 2 ^ 53 → fin (A.ofInt n) ∧ val (A.ofInt n) = n
  sub : ∀ x y, fin x → fin y → Normal (val x - val y) → fin (A.sub x y) ∧ Near (val (A.sub x y)) (val x - val y)
  mul : ∀ x y, fin x → fin y → Normal (val x * val y) → fin (A.mul x y) ∧ Near (val (A.mul x y)) (val x * val y)
  div : ∀ x y, fin x → fin y → val y ≠ 0 → Normal (val x / val y) → fin (A.div x y) ∧ Near (val (A.div x y)) (val x / val y)
  powE : ∀ x, fin x → Normal (Real.exp (val x)) → fin (A.powE x) ∧ Near (val (A.powE x)) (Real.exp (val x))
  toInt : ∀ x, fin x → 0 ≤ val x → val x < 2 ^ 63 → A.toInt x = ⌊val x⌋

theorem near_pos {y x : ℝ} (h : Near y x) (hx : 0 < x) : x * (1 - 1 / 2 ^ 45) ≤ y ∧ y ≤ x * (1 + 1 / 2 ^ 45) := by
  unfold Near at h
  rw [abs_of_pos hx, abs_le] at h
  constructor <;> linarith [h.1, h.2]

theorem near_neg {y x : ℝ} (h : Near y x) (hx : x < 0) : -x * (1 - 1 / 2 ^ 45) ≤ -y ∧ -y ≤ -x * (1 + 1 / 2 ^ 45) := by
  unfold Near at h
  rw [abs_of_neg hx, abs_le] at h
  constructor <;> linarith [h.1, h.2]

theorem normal_of {x : ℝ} (h : 1 / 2 ^ 60 ≤ |x|) (h2 : |x| ≤ 2 ^ 60) : Normal x := by
  constructor
  · refine le_trans ?_ h
    exact one_div_le_one_div_of_le (by positivity) (pow_le_pow_right₀ (by norm_num) (by norm_num))
  · exact h2.trans (pow_le_pow_right₀ (by norm_num) (by norm_num))

theorem exp_neg_le {x : ℝ} (h : 0 ≤ x) : Real.exp (-x) ≤ 1 / (1 + x) := by
  rw [Real.exp_neg, ← one_div]
  exact one_div_le_one_div_of_le (by linarith) (by linarith [Real.add_one_le_exp x])

theorem exp_neg_ge {x : ℝ} (h : x ≤ 11) : 1 / 2 ^ 22 ≤ Real.exp (-x) := by
  have h1 : (1 : ℝ) / 2 ≤ Real.exp (-1 / 2) := by linarith [Real.add_one_le_exp (-1 / 2 : ℝ)]
  have h2 : Real.exp (-11) = Real.exp (-1 / 2) ^ 22 := by
    rw [← Real.exp_nat_mul]
    norm_num
  calc (1 : ℝ) / 2 ^ 22 = (1 / 2) ^ 22 := by norm_num
    _ ≤ Real.exp (-1 / 2) ^ 22 := pow_le_pow_left₀ (by norm_num) h1 22
    _ = Real.exp (-11) := h2.symm
    _ ≤ Real.exp (-x) := Real.exp_le_exp.mpr (by linarith)

theorem exp_neg_half {x : ℝ} (h : 49 / 10 ≤ x) : Real.exp (-x) ≤ 1 / 106 := by
  have h1 : (11 : ℝ) / 10 ≤ Real.exp (1 / 10) := by linarith [Real.add_one_le_exp (1 / 10 : ℝ)]
  have h2 : Real.exp (49 / 10) = Real.exp (1 / 10) ^ 49 := by
    rw [← Real.exp_nat_mul]
    norm_num
  have h3 : (106 : ℝ) ≤ Real.exp (49 / 10) := by
    rw [h2]
    exact le_trans (by norm_num) (pow_le_pow_left₀ (by norm_num) h1 49)
  rw [Real.exp_neg, ← one_div]
  exact one_div_le_one_div_of_le (by norm_num) (h3.trans (Real.exp_le_exp.mpr h))

set_option maxHeartbeats 1000000 in
/-- the value before it is cut to an integer: `x` is the exponent with its sign changed -/
theorem suppression_val {α : Type} {A : FloatArith α} {fin : α → Prop} {val : α → ℝ} (hA : Rounds A fin val) (c v : Int) (hc : 2 ≤ c) (hc2 : c ≤ 2 ^ 35)
    (hv : 0 ≤ v) (hv2 : v < c) :
    let y := A.mul (A.ofInt c) (A.sub (A.ofInt 1) (A.powE (A.div (A.sub (A.ofInt v) (A.ofInt c)) (A.div (A.ofInt c) (A.ofInt 10)))))
    fin y ∧ 1 ≤ val y ∧ val y < c ∧ (2 * v ≤ c → 99 / 100 * (c : ℝ) ≤ val y) := by
  intro y
  obtain ⟨f1, e1⟩ := hA.ofInt 1 (by decide)
  obtain ⟨f10, e10⟩ := hA.ofInt 10 (by decide)
  obtain ⟨fc, ec⟩ := hA.ofInt c (by rw [abs_of_nonneg (by omega)]; omega)
  obtain ⟨fv, ev⟩ := hA.ofInt v (by rw [abs_of_nonneg (by omega)]; omega)
  have hcr : (2 : ℝ) ≤ c := by exact_mod_cast hc
  have hcr2 : (c : ℝ) ≤ 2 ^ 35 := by exact_mod_cast hc2
  have hw : (1 : ℝ) ≤ c - v := by
    have : (1 : Int) ≤ c - v := by omega
    exact_mod_cast this
  have hw2 : (c : ℝ) - v ≤ c := by
    have : (0 : ℝ) ≤ v := by exact_mod_cast hv
    linarith
  set w : ℝ := (↑c : ℝ) - (↑v : ℝ) with hwd
  set C : ℝ := (↑c : ℝ) with hCd
  -- v - c
  have x1 : val (A.ofInt v) - val (A.ofInt c) = -w := by rw [ev, ec, hwd]; push_cast; ring
  obtain ⟨fs, ns⟩ := hA.sub _ _ fv fc (normal_of (by rw [x1, abs_neg, abs_of_pos (by linarith)]; norm_num; linarith)
    (by rw [x1, abs_neg, abs_of_pos (by linarith)]; norm_num at hcr2 ⊢; linarith))
  rw [x1] at ns
  obtain ⟨s1, s2⟩ := near_neg ns (by linarith)
  -- c / f
  have x2 : val (A.ofInt c) / val (A.ofInt 10) = C / 10 := by rw [ec, e10]; norm_num
  obtain ⟨ft, nt⟩ := hA.div _ _ fc f10 (by rw [e10]; norm_num) (normal_of (by rw [x2, abs_of_pos (by linarith)]; norm_num; linarith)
    (by rw [x2, abs_of_pos (by linarith)]; norm_num at hcr2 ⊢; linarith))
  rw [x2] at nt
  obtain ⟨t1, t2⟩ := near_pos nt (by linarith)
  generalize hS : A.sub (A.ofInt v) (A.ofInt c) = S at fs s1 s2
  generalize hT : A.div (A.ofInt c) (A.ofInt 10) = T at ft t1 t2
  rw [neg_neg] at s1 s2
  have hTpos : 0 < val T := by
    refine lt_of_lt_of_le ?_ t1
    have : (0 : ℝ) < 1 - 1 / 2 ^ 45 := by norm_num
    positivity
  have hSpos : 0 < -val S := by
    refine lt_of_lt_of_le ?_ s1
    have : (0 : ℝ) < 1 - 1 / 2 ^ 45 := by norm_num
    positivity
  -- the quotient
  have q1 : 9999 / 1000 * (w / C) ≤ -(val S / val T) := by
    rw [← neg_div, le_div_iff₀ hTpos]
    have : 9999 / 1000 * (w / C) * val T ≤ 9999 / 1000 * (w / C) * (C / 10 * (1 + 1 / 2 ^ 45)) := by
      apply mul_le_mul_of_nonneg_left t2; positivity
    have e : 9999 / 1000 * (w / C) * (C / 10 * (1 + 1 / 2 ^ 45)) = 9999 / 10000 * (1 + 1 / 2 ^ 45) * w := by field_simp; ring
    rw [e] at this
    norm_num at this s1 ⊢
    linarith
  have q2 : -(val S / val T) ≤ 10001 / 1000 * (w / C) := by
    rw [← neg_div, div_le_iff₀ hTpos]
    have : 10001 / 1000 * (w / C) * (C / 10 * (1 - 1 / 2 ^ 45)) ≤ 10001 / 1000 * (w / C) * val T := by
      apply mul_le_mul_of_nonneg_left t1; positivity
    have e : 10001 / 1000 * (w / C) * (C / 10 * (1 - 1 / 2 ^ 45)) = 10001 / 10000 * (1 - 1 / 2 ^ 45) * w := by field_simp; ring
    rw [e] at this
    norm_num at this s2 ⊢
    linarith
  have hwC : w / C ≤ 1 := by rw [div_le_one (by linarith)]; exact hw2
  have hwC2 : 1 / C ≤ w / C := by rw [div_le_div_iff_of_pos_right (by linarith)]; exact hw
  have hwC3 : 1 / 2 ^ 35 ≤ w / C := (one_div_le_one_div_of_le (by linarith) hcr2).trans hwC2
  obtain ⟨fu, nu⟩ := hA.div S T fs ft hTpos.ne' (normal_of
    (by rw [abs_of_neg (by linarith)]; norm_num at hwC3 ⊢; linarith) (by rw [abs_of_neg (by linarith)]; norm_num; linarith))
  obtain ⟨u1, u2⟩ := near_neg nu (by linarith)
  generalize hU : A.div S T = U at fu u1 u2
  have hx1 : 999 / 100 * (w / C) ≤ -val U := by norm_num at u1 ⊢; linarith
  have hx2 : -val U ≤ 11 := by norm_num at u2 ⊢; linarith
  set x : ℝ := -val U with hxd
  have hUx : val U = -x := by rw [hxd, neg_neg]
  have hx0 : 0 < x := by
    have : 0 < w / C := by positivity
    linarith
  -- the power
  have p0 := exp_neg_ge hx2
  have p1 := exp_neg_le hx0.le
  have p2 : Real.exp (-x) < 1 := by rw [Real.exp_lt_one_iff]; linarith
  obtain ⟨fp, np⟩ := hA.powE U fu (normal_of (by rw [hUx, abs_of_pos (Real.exp_pos _)]; norm_num at p0 ⊢; linarith)
    (by rw [hUx, abs_of_pos (Real.exp_pos _)]; norm_num; linarith))
  rw [hUx] at np
  obtain ⟨p3, p4⟩ := near_pos np (Real.exp_pos _)
  generalize hP : A.powE U = P at fp p3 p4
  -- a bound of the power from above
  have hb : (1 : ℝ) / (1 + x) ≤ C / (C + 999 / 100) := by
    rw [div_le_div_iff₀ (by linarith) (by linarith)]
    have : 999 / 100 * w ≤ x * C := by
      have := mul_le_mul_of_nonneg_right hx1 (show (0 : ℝ) ≤ C by linarith)
      rwa [mul_assoc, div_mul_cancel₀ _ (by linarith : C ≠ 0)] at this
    nlinarith
  have d1 : 998 / 100 / (C + 999 / 100) ≤ 1 - val P := by
    have h1 : val P ≤ C / (C + 999 / 100) * (1 + 1 / 2 ^ 45) := p4.trans (mul_le_mul_of_nonneg_right (p1.trans hb) (by norm_num))
    have h2 : 998 / 100 / (C + 999 / 100) ≤ 1 - C / (C + 999 / 100) * (1 + 1 / 2 ^ 45) := by
      have e : 1 - C / (C + 999 / 100) * (1 + 1 / 2 ^ 45) = (999 / 100 - C / 2 ^ 45) / (C + 999 / 100) := by field_simp; ring
      rw [e, div_le_div_iff_of_pos_right (by linarith)]
      norm_num at hcr2 ⊢
      linarith
    linarith
  have d2 : 1 - val P ≤ 1 - 1 / 2 ^ 23 := by norm_num at p3 p0 ⊢; linarith
  have d3 : 1 / 2 ^ 36 ≤ 1 - val P := by
    refine le_trans ?_ d1
    rw [div_le_div_iff₀ (by norm_num) (by linarith)]
    norm_num at hcr2 ⊢
    linarith
  obtain ⟨fq, nq⟩ := hA.sub (A.ofInt 1) P f1 fp (normal_of (by rw [e1, Int.cast_one, abs_of_pos (by norm_num at d3 ⊢; linarith)]; norm_num at d3 ⊢; linarith)
    (by rw [e1, Int.cast_one, abs_of_pos (by norm_num at d3 ⊢; linarith)]; norm_num at d2 ⊢; linarith))
  rw [e1, Int.cast_one] at nq
  obtain ⟨q3, q4⟩ := near_pos nq (by norm_num at d3 ⊢; linarith)
  generalize hQ : A.sub (A.ofInt 1) P = Q at fq q3 q4
  have g1 : 997 / 100 / (C + 999 / 100) ≤ val Q := by
    refine le_trans ?_ q3
    refine le_trans ?_ (mul_le_mul_of_nonneg_right d1 (by norm_num))
    rw [div_mul_eq_mul_div, div_le_div_iff_of_pos_right (by linarith)]
    norm_num
  have g2 : val Q ≤ 1 - 1 / 2 ^ 24 := by norm_num at q4 d2 ⊢; linarith
  have g3 : 1 / 2 ^ 37 ≤ val Q := by norm_num at d3 q3 ⊢; linarith
  have g4 : 1 / 2 ^ 37 ≤ C * val Q := g3.trans (le_mul_of_one_le_left (le_trans (by norm_num) g3) (by linarith))
  have g5 : C * val Q ≤ C := mul_le_of_le_one_right (by linarith) (g2.trans (by norm_num))
  have g6 : 0 < C * val Q := lt_of_lt_of_le (by norm_num) g4
  obtain ⟨fy, ny⟩ := hA.mul (A.ofInt c) Q fc fq (normal_of (by rw [ec, abs_of_pos g6]; exact le_trans (by norm_num) g4)
    (by rw [ec, abs_of_pos g6]; exact (g5.trans hcr2).trans (by norm_num)))
  rw [ec] at ny
  obtain ⟨y1, y2⟩ := near_pos ny g6
  have hy : y = A.mul (A.ofInt c) Q := by simp only [y, hS, hT, hU, hP, hQ]
  rw [hy]
  refine ⟨fy, ?_, ?_, ?_⟩
  · have h1 : 3 / 2 ≤ C * val Q := by
      have := mul_le_mul_of_nonneg_left g1 (show (0 : ℝ) ≤ C by linarith)
      refine le_trans ?_ this
      rw [← mul_div_assoc, le_div_iff₀ (by linarith)]
      linarith
    norm_num at y1 ⊢
    linarith
  · have h1 : C * val Q ≤ C * (1 - 1 / 2 ^ 24) := mul_le_mul_of_nonneg_left g2 (by linarith)
    norm_num at y2 h1 ⊢
    linarith
  · intro hv3
    have hw4 : C ≤ 2 * w := by
      have h : (2 : ℝ) * v ≤ C := by rw [hCd]; exact_mod_cast hv3
      rw [hwd]; linarith
    have hx3 : 49 / 10 ≤ x := by
      have : 1 / 2 ≤ w / C := by rw [div_le_div_iff₀ (by norm_num) (by linarith)]; linarith
      linarith
    have p5 := exp_neg_half hx3
    have h0 : 9905 / 10000 ≤ 1 - val P := by norm_num at p4 p5 ⊢; linarith
    have h1 : 9903 / 10000 ≤ val Q := by norm_num at q3 h0 ⊢; linarith
    have h2 : C * (9903 / 10000) ≤ C * val Q := mul_le_mul_of_nonneg_left h1 (by linarith)
    norm_num at y1 h2 ⊢
    linarith

/-- C92: the suppression delay is positive and less than the period, and if the draw is in the lower half it is (but for the last nanosecond) at least 99 per cent of
the period -/
theorem C92_suppression {α : Type} {A : FloatArith α} {fin : α → Prop} {val : α → ℝ} (hA : Rounds A fin val) (c : Int) (hc : 2 ≤ c) (hc2 : c ≤ 2 ^ 35) (r : Nat) :
    ∃ d, suppressionTimeout A c r = .ok d ∧ 0 < d ∧ d < c ∧ (2 * ((r : Int) % c) ≤ c → 99 * c < 100 * (d + 1)) := by
  have a1 := Int.emod_nonneg (r : Int) (show c ≠ 0 by omega)
  have a2 := Int.emod_lt_of_pos (r : Int) (show 0 < c by omega)
  obtain ⟨fy, l, u, hh⟩ := suppression_val hA c _ hc hc2 a1 a2
  refine ⟨_, by rw [suppressionTimeout, int64N, if_neg (by omega)]; rfl, ?_⟩
  have hcr : (c : ℝ) ≤ 2 ^ 35 := by exact_mod_cast hc2
  rw [hA.toInt _ fy (by linarith) (lt_of_lt_of_le u (hcr.trans (by norm_num)))]
  generalize val _ = z at l u hh
  refine ⟨?_, ?_, ?_⟩
  · exact lt_of_lt_of_le Int.zero_lt_one (Int.le_floor.mpr (by exact_mod_cast l))
  · exact Int.floor_lt.mpr u
  · intro h
    have h1 := hh h
    have h2 := Int.lt_floor_add_one z
    have : (99 : ℝ) * c < 100 * ((⌊z⌋ : ℝ) + 1) := by linarith
    exact_mod_cast this

/-- C92: neither call of `Ticker.Reset` panics, and the ticker is set to 27 to 33 seconds in steady state, to less than 200 milliseconds in suppression state -/
theorem C92_resets {α : Type} {A : FloatArith α} {fin : α → Prop} {val : α → ℝ} (hA : Rounds A fin val) (r : Nat) :
    (∃ d, steadyReset r = .ok d ∧ 27 * 1000000000 ≤ d ∧ d < 33 * 1000000000) ∧ (∃ d, suppressionReset A r = .ok d ∧ 0 < d ∧ d < 200 * 1000000) := by
  constructor
  · have h := periodic_eq defaultPeriodic r (by decide) (by decide)
    rw [steadyReset, h]
    have e : 2 * (defaultPeriodic / 10) = 6000000000 := by decide
    have e2 : defaultPeriodic - defaultPeriodic / 10 = 27000000000 := by decide
    rw [e, e2]
    refine ⟨27000000000 + (r : Int) % 6000000000, ?_, by omega, by omega⟩
    show tickerReset _ = _
    rw [tickerReset, if_neg (by omega)]
  · obtain ⟨d, h, h0, h1, _⟩ := C92_suppression hA defaultSuppression (by decide) (by decide) r
    refine ⟨d, ?_, h0, h1⟩
    rw [suppressionReset, h]
    show tickerReset _ = _
    rw [tickerReset, if_neg (by omega)]

/-- the real numbers are an arithmetic without rounding -/
noncomputable def exact : FloatArith ℝ := ⟨fun n => n, fun x y => x - y, fun x y => x * y, fun x y => x / y, Real.exp, fun x => ⌊x⌋⟩

theorem near_self (x : ℝ) : Near x x := by
  unfold Near
  rw [sub_self, abs_zero]
  positivity

theorem exact_rounds : Rounds exact (fun _ => True) id :=
  ⟨fun _ _ => ⟨trivial, rfl⟩, fun _ _ _ _ _ => ⟨trivial, near_self _⟩, fun _ _ _ _ _ => ⟨trivial, near_self _⟩, fun _ _ _ _ _ _ => ⟨trivial, near_self _⟩,
    fun _ _ _ => ⟨trivial, near_self _⟩, fun _ _ _ _ => rfl⟩

/-- C92: a period of one nanosecond would give the delay 0, and `Ticker.Reset` panics -/
theorem C92_suppression_zero (r : Nat) : suppressionTimeout exact 1 r = .ok 0 ∧ tickerReset 0 = .panic := by
  refine ⟨?_, rfl⟩
  have h : (r : Int) % 1 = 0 := by omega
  rw [suppressionTimeout, int64N, if_neg (by decide), h]
  show Res.ok _ = _
  congr 1
  simp only [exact]
  rw [Int.floor_eq_zero_iff]
  have h1 : Real.exp (((0 : Int) - (1 : Int) : ℝ) / ((1 : Int) / (10 : Int) : ℝ)) < 1 := by
    rw [Real.exp_lt_one_iff]; norm_num
  have h2 := Real.exp_pos (((0 : Int) - (1 : Int) : ℝ) / ((1 : Int) / (10 : Int) : ℝ))
  constructor
  · push_cast at *; linarith
  · push_cast at *; linarith

example : periodicTimeout 30000000000 5 = .ok 27000000005 := by rw [periodic_eq _ _ (by decide) (by decide)]; decide

example (r : Nat) : ∃ d, suppressionReset exact r = .ok d ∧ 0 < d ∧ d < 200 * 1000000 := (C92_resets exact_rounds r).2

end Ndn.Sync
