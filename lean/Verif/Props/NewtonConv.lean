import Mathlib.Analysis.Complex.ExponentialBounds
import Verif.Props.Newton

/-!
# C144: is the result of `exponential_refinement_parameter` within its tolerance of the ratio?
-/

set_option autoImplicit false

namespace Pymech

open Spec

/-! ### A million elements: the iteration stops far from the ratio -/

section Many

variable (m : MathFns ℝ)

theorem stop_first (hm : m.log = Real.log) : ∃ x, refineStep m 1 2 1000000 1 = .ok x ∧ 1 - 3 / 100000 ≤ x ∧ x ≤ 1 - 2 / 100000 := by
  have l1 : Real.log 500000 ≤ 14 := by
    rw [Real.log_le_iff_le_exp (by norm_num)]
    have h := pow_le_pow_left₀ (by norm_num) (Real.exp_one_gt_d9.le.trans' (show (2.7 : ℝ) ≤ 2.7182818283 by norm_num)) 14
    rw [← Real.exp_nat_mul] at h
    norm_num at h ⊢
    linarith
  have l2 : 10 ≤ Real.log 500000 := by
    rw [Real.le_log_iff_exp_le (by norm_num)]
    have h := pow_le_pow_left₀ (Real.exp_pos 1).le (Real.exp_one_lt_d9.le.trans (show (2.7182818286 : ℝ) ≤ 2.72 by norm_num)) 10
    rw [← Real.exp_nat_mul] at h
    norm_num at h ⊢
    linarith
  refine ⟨1 - Real.log 500000 / (1 / 2 * ((1000000 : ℕ) - 1)), ?_, ?_, ?_⟩
  · unfold refineStep refineErr refineErrPrime pyLog
    rw [hm]
    norm_num [pyDiv, bind, Except.bind, pure, Except.pure]
  · norm_num
    linarith
  · norm_num
    linarith

theorem stop_step (hm : m.log = Real.log) (x : ℝ) (h1 : 72 / 100 ≤ x) (h2 : x ≤ 1 - 2 / 100000) :
    ∃ x', refineStep m 1 2 1000000 x = .ok x' ∧ x - 11 / 400000 ≤ x' ∧ x' ≤ x := by
  have hx1 : x - 1 ≠ 0 := by intro h; linarith
  have far : ¬ |x - 1| < 2 / 1000000 := by
    rw [abs_of_nonpos (by linarith)]
    linarith
  have hgeo : (x ^ 1000000 - 1) / (x - 1) = geomSum 1000000 x := by
    rw [geomSum, geom_sum_eq (by intro h; linarith)]
  have glow : 2 ≤ geomSum 1000000 x := by
    have : geomSum 4 x ≤ geomSum 1000000 x := by
      unfold geomSum
      exact Finset.sum_le_sum_of_subset_of_nonneg (Finset.range_mono (by norm_num)) (fun i _ _ => by positivity)
    have h4 : geomSum 4 x = 1 + x + x ^ 2 + x ^ 3 := by simp [geomSum, Finset.sum_range_succ]
    nlinarith [pow_le_pow_left₀ (by norm_num) h1 2, pow_le_pow_left₀ (by norm_num) h1 3]
  have gup : geomSum 1000000 x ≤ 50000 := by
    rw [← hgeo, ← neg_div_neg_eq, div_le_iff₀ (by linarith)]
    have : 0 ≤ x ^ 1000000 := by positivity
    generalize x ^ 1000000 = y at *
    nlinarith
  have lf0 : 0 ≤ Real.log (geomSum 1000000 x / 2) := Real.log_nonneg (by linarith)
  have lf1 : Real.log (geomSum 1000000 x / 2) ≤ 11 := by
    rw [Real.log_le_iff_le_exp (by linarith)]
    have h := pow_le_pow_left₀ (by norm_num) (Real.exp_one_gt_d9.le.trans' (show (2.7 : ℝ) ≤ 2.7182818283 by norm_num)) 11
    rw [← Real.exp_nat_mul] at h
    norm_num at h ⊢
    linarith
  have den : 0 < 1 + (1000000 - 1) / 2 * (x - 1) + (1000000 - 1) * (1000000 - 2) / 6 * (x - 1) ^ 2 := by
    nlinarith [sq_nonneg (x - 1 + 15 / 10000000)]
  have num : 400000 * (1 + (1000000 - 1) / 2 * (x - 1) + (1000000 - 1) * (1000000 - 2) / 6 * (x - 1) ^ 2) ≤
      (1000000 - 1) / 2 + (1000000 - 1) * (1000000 - 2) / 3 * (x - 1) + (1000000 - 1) * (1000000 - 2) * (1000000 - 3) / 8 * (x - 1) ^ 2 := by
    nlinarith [sq_nonneg (x - 1 + 1143 / 1000000000)]
  set g := ((1000000 - 1) / 2 + (1000000 - 1) * (1000000 - 2) / 3 * (x - 1) + (1000000 - 1) * (1000000 - 2) * (1000000 - 3) / 8 * (x - 1) ^ 2) /
    (1 + (1000000 - 1) / 2 * (x - 1) + (1000000 - 1) * (1000000 - 2) / 6 * (x - 1) ^ 2) with hg
  have g0 : 400000 ≤ g := by rw [hg, le_div_iff₀ den]; exact num
  refine ⟨x - Real.log (geomSum 1000000 x / 2) / g, ?_, ?_, ?_⟩
  · unfold refineStep refineErr refineErrPrime
    rw [if_neg far, if_neg far, pyDiv_ok hx1, hgeo]
    simp only [bind, Except.bind]
    rw [pyDiv_ok (by norm_num), mul_one]
    simp only [pyLog, if_neg (not_le.2 (show (0 : ℝ) < geomSum 1000000 x / 2 by linarith)), hm]
    push_cast
    rw [pyDiv_ok den.ne', ← hg]
    simp only
    rw [pyDiv_ok (by linarith)]
    rfl
  · have : Real.log (geomSum 1000000 x / 2) / g ≤ 11 / 400000 := by
      rw [div_le_div_iff₀ (by linarith) (by norm_num)]
      nlinarith
    linarith
  · have : 0 ≤ Real.log (geomSum 1000000 x / 2) / g := div_nonneg lf0 (by linarith)
    linarith

theorem stop_loop (hm : m.log = Real.log) (tol : ℝ) : ∀ (k : Nat) (res x : ℝ), 72 / 100 + k * (11 / 400000) ≤ x → x ≤ 1 - 2 / 100000 →
    ∃ a, refineLoop m 1 2 1000000 tol k res x = .ok a ∧ 72 / 100 ≤ a := by
  intro k
  induction k with
  | zero => exact fun res x h _ => ⟨x, rfl, by simpa using h⟩
  | succ k ih =>
    intro res x h1 h2
    push_cast at h1
    have k0 : (0 : ℝ) ≤ k := k.cast_nonneg
    unfold refineLoop
    by_cases hr : res > tol
    · rw [if_pos hr]
      obtain ⟨x', e, a1, a2⟩ := stop_step m hm x (by linarith) h2
      rw [e]
      exact ih |x' - x| x' (by linarith) (by linarith)
    · rw [if_neg hr]
      exact ⟨x, rfl, by linarith⟩

/-- **C144 is false in the code.** For a million elements that are to fill twice the length of the first one, with any tolerance below 1, the
result is at least 0.72; the ratio with which they do fill it is at most 0.51. -/
theorem C144_false (hm : m.log = Real.log) (tol : ℝ) (ht : tol < 1) : ∃ a, refineParam m 1 2 1000000 tol = .ok a ∧ 72 / 100 ≤ a ∧
    (∃ r, 0 < r ∧ 1 * geomSum 1000000 r = 2) ∧ ∀ r, 0 < r → 1 * geomSum 1000000 r = 2 → r ≤ 51 / 100 := by
  obtain ⟨x, e, h1, h2⟩ := stop_first m hm
  obtain ⟨a, ea, ha⟩ := stop_loop m hm tol 9999 |x - 1| x (by norm_num at *; linarith) h2
  refine ⟨a, ?_, ha, ?_, ?_⟩
  · unfold refineParam
    rw [show (10000 : Nat) = 9999 + 1 from rfl, refineLoop, if_pos ht, e]
    exact ea
  · have hc : Continuous (geomSum 1000000) := by
      unfold geomSum
      exact continuous_finsetSum _ fun i _ => continuous_pow i
    obtain ⟨r, ⟨h0, _⟩, hr⟩ := intermediate_value_Icc (show (0 : ℝ) ≤ 1 by norm_num) hc.continuousOn
      (show (2 : ℝ) ∈ Set.Icc (geomSum 1000000 0) (geomSum 1000000 1) by
        rw [geomSum_one]
        refine ⟨?_, by norm_num⟩
        unfold geomSum
        rw [Finset.sum_eq_single 0 (fun i _ hi => zero_pow hi) (fun h => absurd (Finset.mem_range.2 (by norm_num)) h)]
        norm_num)
    refine ⟨r, lt_of_le_of_ne h0 ?_, by rw [one_mul]; exact hr⟩
    rintro rfl
    unfold geomSum at hr
    rw [Finset.sum_eq_single 0 (fun i _ hi => zero_pow hi) (fun h => absurd (Finset.mem_range.2 (by norm_num)) h)] at hr
    norm_num at hr
  · intro r h0 hr
    rw [one_mul] at hr
    by_contra hlt
    rw [not_le] at hlt
    have h : geomSum 10 r ≤ geomSum 1000000 r := by
      unfold geomSum
      exact Finset.sum_le_sum_of_subset_of_nonneg (Finset.range_mono (by norm_num)) (fun i _ _ => by positivity)
    have h' : geomSum 10 (51 / 100) ≤ geomSum 10 r := by
      unfold geomSum
      exact Finset.sum_le_sum fun i _ => pow_le_pow_left₀ (by norm_num) hlt.le i
    have : geomSum 10 (51 / 100) > 2 := by norm_num [geomSum, Finset.sum_range_succ]
    linarith

end Many

/-! ### Two elements: the iteration converges -/

section Two

variable (m : MathFns ℝ)

/-- A step for two elements, in terms of the logarithm of the relative error of `1 + x`; `e` is the error of the derivative near 1. -/
theorem two_step (hm : m.log = Real.log) {l0 c x : ℝ} (h0 : 0 < l0) (hc : 0 < c) (hu : 0 < 1 + x) :
    ∃ e, 0 ≤ e ∧ e ≤ 1 / 100000000000 ∧ (2 / 1000000 ≤ |x - 1| → e = 0) ∧ (x = 1 → e = 0) ∧
      refineStep m l0 (c * l0) 2 x = .ok (x - (1 + x) * (1 + e) * Real.log ((1 + x) / c)) := by
  have ct : c * l0 ≠ 0 := (mul_pos hc h0).ne'
  by_cases hx : |x - 1| < 2 / 1000000
  · have hx' := abs_lt.1 hx
    have d2 : (x - 1) ^ 2 ≤ 4 / 1000000000000 := by nlinarith
    have d4 : 0 < 4 - (x - 1) ^ 2 := by linarith
    refine ⟨(x - 1) ^ 2 / (4 - (x - 1) ^ 2), div_nonneg (sq_nonneg _) d4.le, ?_, fun h => absurd hx (not_lt.2 h), fun h => by rw [h]; norm_num, ?_⟩
    · rw [div_le_div_iff₀ d4 (by norm_num)]
      linarith
    · unfold refineStep refineErr refineErrPrime
      rw [if_pos hx, if_pos hx, pyDiv_ok ct]
      push_cast
      have q : (2 : ℝ) * l0 / (c * l0) = 2 / c := by field_simp
      have q2 : (1 : ℝ) + (2 - 1) / 2 * (x - 1) + (2 - 1) * (2 - 2) / 6 * (x - 1) ^ 2 + (2 - 1) * (2 - 2) * (2 - 3) / 24 * (x - 1) ^ 3 = (1 + x) / 2 := by ring
      have p1 : (0 : ℝ) < 2 / c := by positivity
      have p2 : (0 : ℝ) < (1 + x) / 2 := by linarith
      simp only [bind, Except.bind, q, q2, pyLog, if_neg (not_le.2 p1), if_neg (not_le.2 p2), hm, pure, Except.pure]
      have g0 : (1 : ℝ) / 2 * (2 - 1) + (2 - 1) * (2 - 5) / 12 * (x - 1) ≠ 0 := by
        intro h
        linarith
      rw [pyDiv_ok g0, ← Real.log_mul p1.ne' p2.ne']
      have e1 : 2 / c * ((1 + x) / 2) = (1 + x) / c := by field_simp
      have e2 : (1 : ℝ) / 2 * (2 - 1) + (2 - 1) * (2 - 5) / 12 * (x - 1) = (3 - x) / 4 := by ring
      have g3 : 3 - x ≠ 0 := by intro h; linarith
      have e3 : (1 + x) * (1 + (x - 1) ^ 2 / (4 - (x - 1) ^ 2)) = 4 / (3 - x) := by
        have : 4 - (x - 1) ^ 2 = (3 - x) * (1 + x) := by ring
        rw [this]
        field_simp
        ring
      simp only [e1, e2, e3]
      congr 1
      field_simp
  · refine ⟨0, le_rfl, by norm_num, fun _ => rfl, fun _ => rfl, ?_⟩
    have hx1 : x - 1 ≠ 0 := by
      intro h
      rw [h, abs_zero] at hx
      norm_num at hx
    unfold refineStep refineErr refineErrPrime
    rw [if_neg hx, if_neg hx, pyDiv_ok hx1]
    push_cast
    have q : (x ^ 2 - 1) / (x - 1) * l0 / (c * l0) = (1 + x) / c := by
      field_simp
      ring
    have p1 : (0 : ℝ) < (1 + x) / c := by positivity
    have q2 : (1 : ℝ) + (2 - 1) / 2 * (x - 1) + (2 - 1) * (2 - 2) / 6 * (x - 1) ^ 2 = (1 + x) / 2 := by ring
    have q3 : ((2 : ℝ) - 1) / 2 + (2 - 1) * (2 - 2) / 3 * (x - 1) + (2 - 1) * (2 - 2) * (2 - 3) / 8 * (x - 1) ^ 2 = 1 / 2 := by ring
    simp only [bind, Except.bind, pyDiv_ok ct, q, q2, q3, pyLog, if_neg (not_le.2 p1), hm, pure, Except.pure]
    rw [pyDiv_ok (show (1 + x) / 2 ≠ 0 by positivity)]
    simp only
    rw [pyDiv_ok (by positivity)]
    field_simp
    rw [add_zero, mul_one]

/-- What holds for all iterates, except perhaps the first: the logarithm `l` of the relative error is tiny, or negative with `x` not near 1. -/
def TwoInv (c x : ℝ) : Prop :=
  0 < 1 + x ∧ (|Real.log ((1 + x) / c)| ≤ 1 / 100000 ∨ (Real.log ((1 + x) / c) < -(1 / 100000) ∧ (1 + 2 / 1000000 ≤ x ∨ (c ≤ 2 ∧ -1 ≤ Real.log ((1 + x) / c)))))

theorem log_small {s : ℝ} (h : |s| ≤ 1 / 2) : |Real.log (1 - s) + s| ≤ 2 * s ^ 2 := by
  have h' := abs_le.1 h
  have p : 0 < 1 - s := by linarith
  have u := Real.log_le_sub_one_of_pos p
  have l := Real.one_sub_inv_le_log_of_pos p
  have : 1 - (1 - s)⁻¹ = -s - s ^ 2 / (1 - s) := by field_simp; ring
  have k : s ^ 2 / (1 - s) ≤ 2 * s ^ 2 := by
    rw [div_le_iff₀ p]
    nlinarith [sq_nonneg s]
  rw [abs_le]
  constructor
  · linarith
  · nlinarith [sq_nonneg s]

/-- The iterate is `c` times the exponential of the logarithm. -/
theorem two_exp {c x : ℝ} (hc : 0 < c) (hu : 0 < 1 + x) : 1 + x = c * Real.exp (Real.log ((1 + x) / c)) := by
  rw [Real.exp_log (by positivity)]
  field_simp

theorem two_next {c x l e : ℝ} (hc : 0 < c) (hu : 0 < 1 + x) (hl : l = Real.log ((1 + x) / c)) (hp : 0 < 1 - (1 + e) * l) :
    0 < 1 + (x - (1 + x) * (1 + e) * l) ∧ Real.log ((1 + (x - (1 + x) * (1 + e) * l)) / c) = l + Real.log (1 - (1 + e) * l) := by
  have e1 : 1 + (x - (1 + x) * (1 + e) * l) = (1 + x) * (1 - (1 + e) * l) := by ring
  refine ⟨by rw [e1]; positivity, ?_⟩
  rw [e1, hl, mul_div_right_comm, Real.log_mul (by positivity) (by rw [← hl]; exact hp.ne')]

/-- One step from an iterate: it exists; the logarithm is halved, or decreases by one half; and if the step is short, the result is as near. -/
theorem two_inv (hm : m.log = Real.log) {l0 c x : ℝ} (h0 : 0 < l0) (hc : 0 < c) (hI : TwoInv c x) :
    ∃ x', refineStep m l0 (c * l0) 2 x = .ok x' ∧ TwoInv c x' ∧
      (|Real.log ((1 + x) / c)| ≤ 1 → |Real.log ((1 + x') / c)| ≤ |Real.log ((1 + x) / c)| / 2) ∧
      (1 < |Real.log ((1 + x) / c)| → |Real.log ((1 + x') / c)| ≤ |Real.log ((1 + x) / c)| - 1 / 2) ∧
      (|x' - x| < 1 → |x' - (c - 1)| ≤ |x' - x|) := by
  obtain ⟨hu, hcase⟩ := hI
  obtain ⟨e, e0, e1, e2, _, hs⟩ := two_step m hm h0 hc hu
  have hX := two_exp hc hu
  generalize hl : Real.log ((1 + x) / c) = l at *
  refine ⟨_, hs, ?_⟩
  have exp_lin : ∀ t : ℝ, |t| ≤ 1 → |Real.exp t - 1| ≤ 2 * |t| := fun t ht => Real.abs_exp_sub_one_le ht
  rcases hcase with h | ⟨hneg, hfar⟩
  · -- the logarithm is tiny
    have hs' : |(1 + e) * l| ≤ 1 / 2 := by
      rw [abs_mul, abs_of_nonneg (by linarith)]
      nlinarith [abs_nonneg l]
    have hp : 0 < 1 - (1 + e) * l := by
      have := abs_le.1 hs'
      linarith
    obtain ⟨n1, n2⟩ := two_next hc hu hl.symm hp
    have k := log_small hs'
    have hlog : |l + Real.log (1 - (1 + e) * l)| ≤ |l| / 1000 := by
      have t : l + Real.log (1 - (1 + e) * l) = (Real.log (1 - (1 + e) * l) + (1 + e) * l) - e * l := by ring
      rw [t]
      refine (abs_sub _ _).trans ?_
      have a1 : |e * l| ≤ 1 / 100000000000 * |l| := by
        rw [abs_mul, abs_of_nonneg e0]
        exact mul_le_mul_of_nonneg_right e1 (abs_nonneg _)
      have a2 : 2 * ((1 + e) * l) ^ 2 ≤ |l| * (1 / 10000) := by
        rw [mul_pow, ← sq_abs l]
        have : (1 + e) ^ 2 ≤ 2 := by nlinarith
        nlinarith [abs_nonneg l, mul_nonneg (abs_nonneg l) (sub_nonneg.2 h), sq_nonneg |l|]
      have := abs_nonneg l
      linarith
    have hl0 := abs_nonneg l
    refine ⟨⟨n1, Or.inl (by rw [n2]; linarith)⟩, fun _ => by rw [n2]; linarith, fun h1 => by linarith, fun _ => ?_⟩
    have hX' := two_exp hc n1
    rw [n2] at hX'
    set x' := x - (1 + x) * (1 + e) * l with hx'
    have d1 : |x' - (c - 1)| ≤ c * (2 * (|l| / 1000)) := by
      have : x' - (c - 1) = c * (Real.exp (l + Real.log (1 - (1 + e) * l)) - 1) := by linarith
      rw [this, abs_mul, abs_of_pos hc]
      refine mul_le_mul_of_nonneg_left ((exp_lin _ (by linarith)).trans ?_) hc.le
      linarith
    have d2 : |x' - x| = (1 + x) * (1 + e) * |l| := by
      have : x' - x = -((1 + x) * (1 + e) * l) := by rw [hx']; ring
      rw [this, abs_neg, abs_mul, abs_of_pos (by positivity)]
    rw [d2]
    refine d1.trans ?_
    have hE : 1 / 2 ≤ Real.exp l := by
      have := abs_le.1 (exp_lin l (by linarith))
      linarith
    have : c / 2 ≤ (1 + x) * (1 + e) := by
      rw [hX]
      have : c * (1 / 2) ≤ c * Real.exp l := mul_le_mul_of_nonneg_left hE hc.le
      nlinarith [mul_nonneg (mul_pos hc (Real.exp_pos l)).le e0]
    have := mul_le_mul_of_nonneg_right this hl0
    nlinarith [mul_nonneg hc.le hl0]
  · -- the logarithm is negative, the ratio too small
    have far : 2 / 1000000 ≤ |x - 1| := by
      rcases hfar with h | ⟨h2, _⟩
      · exact (by linarith : 2 / 1000000 ≤ x - 1).trans (le_abs_self _)
      · have h3 : Real.exp l ≤ Real.exp (-(1 / 100000)) := Real.exp_le_exp.2 hneg.le
        have h4 : Real.exp (-(1 / 100000)) ≤ 1 / (1 + 1 / 100000) := by
          rw [Real.exp_neg, ← one_div]
          refine one_div_le_one_div_of_le (by norm_num) ?_
          have := Real.add_one_le_exp (1 / 100000 : ℝ)
          linarith
        have h5 : 1 + x ≤ 2 * (1 / (1 + 1 / 100000)) := by
          rw [hX]
          exact mul_le_mul h2 (h3.trans h4) (Real.exp_pos _).le (by norm_num)
        norm_num at h5
        rw [abs_of_nonpos (by linarith)]
        linarith
    obtain rfl := e2 far
    have hp : 0 < 1 - (1 + 0) * l := by linarith
    obtain ⟨n1, n2⟩ := two_next hc hu hl.symm hp
    have hX' := two_exp hc n1
    rw [n2] at hX' ⊢
    simp only [add_zero, one_mul, mul_one] at *
    have up : l + Real.log (1 - l) ≤ 0 := by
      have := Real.log_le_sub_one_of_pos hp
      linarith
    have low : -l / (1 - l) ≤ Real.log (1 - l) := by
      have := Real.one_sub_inv_le_log_of_pos hp
      have e : 1 - (1 - l)⁻¹ = -l / (1 - l) := by field_simp; ring
      linarith
    have hmono : l ≤ l + Real.log (1 - l) := by
      have : 0 ≤ -l / (1 - l) := div_nonneg (by linarith) hp.le
      linarith
    rw [abs_of_nonpos up, abs_of_nonpos (show l ≤ 0 by linarith)]
    refine ⟨⟨n1, ?_⟩, fun h1 => ?_, fun h1 => ?_, fun h1 => ?_⟩
    · rw [n2]
      by_cases hs : |l + Real.log (1 - l)| ≤ 1 / 100000
      · exact Or.inl hs
      · rw [abs_of_nonpos up] at hs
        refine Or.inr ⟨by linarith, ?_⟩
        rcases hfar with h | ⟨h2, h3⟩
        · exact Or.inl (by nlinarith)
        · exact Or.inr ⟨h2, by linarith⟩
    · have : -l / 2 ≤ -l / (1 - l) := by
        rw [div_le_div_iff₀ (by norm_num) hp]
        nlinarith
      linarith
    · have : 1 / 2 ≤ -l / (1 - l) := by
        rw [div_le_div_iff₀ (by norm_num) hp]
        linarith
      linarith
    · have d2 : |x - (1 + x) * l - x| = (1 + x) * -l := by
        have : x - (1 + x) * l - x = (1 + x) * -l := by ring
        rw [this, abs_of_pos (mul_pos hu (by linarith))]
      rw [d2] at h1 ⊢
      have hL : -l ≤ 1 := by
        rcases hfar with h | ⟨_, h3⟩
        · nlinarith
        · linarith
      have hE := abs_le.1 (exp_lin (-l) (by rw [abs_of_nonneg (by linarith)]; exact hL))
      rw [abs_of_nonneg (show 0 ≤ -l by linarith)] at hE
      have hc' : c = (1 + x) * Real.exp (-l) := by
        rw [hX, Real.exp_neg, mul_assoc, mul_inv_cancel₀ (Real.exp_pos l).ne', mul_one]
      have hle : x - (1 + x) * l - (c - 1) ≤ 0 := by
        have : 1 + (x - (1 + x) * l) ≤ c * 1 := by
          rw [hX']
          exact mul_le_mul_of_nonneg_left (Real.exp_le_one_iff.2 up) hc.le
        linarith
      rw [abs_of_nonpos hle]
      have := mul_le_mul_of_nonneg_left hE.2 hu.le
      nlinarith

/-- From an iterate with `|l| ≤ 1`, each further step halves it. -/
theorem two_halve (hm : m.log = Real.log) {l0 c tol D : ℝ} (h0 : 0 < l0) (hc : 0 < c) (ht : tol < 1) (hD : 2 * c * D ≤ tol) :
    ∀ (k : Nat) (res x : ℝ), TwoInv c x → |Real.log ((1 + x) / c)| ≤ 1 → |Real.log ((1 + x) / c)| ≤ D * 2 ^ k → (res ≤ tol → |x - (c - 1)| ≤ tol) →
      ∃ a, refineLoop m l0 (c * l0) 2 tol k res x = .ok a ∧ |a - (c - 1)| ≤ tol := by
  intro k
  induction k with
  | zero =>
    intro res x hI h1 h2 _
    refine ⟨x, rfl, ?_⟩
    have hX := two_exp hc hI.1
    have : x - (c - 1) = c * (Real.exp (Real.log ((1 + x) / c)) - 1) := by linarith
    rw [this, abs_mul, abs_of_pos hc]
    have := Real.abs_exp_sub_one_le h1
    rw [pow_zero, mul_one] at h2
    nlinarith
  | succ k ih =>
    intro res x hI h1 h2 h3
    unfold refineLoop
    by_cases hr : res > tol
    · rw [if_pos hr]
      obtain ⟨x', e, I', a1, _, a3⟩ := two_inv m hm h0 hc hI
      rw [e]
      have b := a1 h1
      have := abs_nonneg (Real.log ((1 + x) / c))
      refine ih |x' - x| x' I' (by linarith) ?_ (fun h => (a3 (by linarith)).trans h)
      rw [pow_succ] at h2
      linarith
    · rw [if_neg hr]
      exact ⟨x, rfl, h3 (not_lt.1 hr)⟩

/-- From any iterate: first the steps decrease `|l|` by one half at least, then they halve it. -/
theorem two_loop (hm : m.log = Real.log) {l0 c tol D : ℝ} (h0 : 0 < l0) (hc : 0 < c) (ht : tol < 1) (hD : 2 * c * D ≤ tol) (D0 : 0 ≤ D) (k : Nat) (hk : 1 ≤ D * 2 ^ k) :
    ∀ (j : Nat) (res x : ℝ), TwoInv c x → |Real.log ((1 + x) / c)| ≤ 1 + j / 2 → (res ≤ tol → |x - (c - 1)| ≤ tol) →
      ∃ a, refineLoop m l0 (c * l0) 2 tol (k + j) res x = .ok a ∧ |a - (c - 1)| ≤ tol := by
  intro j
  induction j with
  | zero =>
    intro res x hI h1 h3
    rw [Nat.cast_zero, zero_div, add_zero] at h1
    exact two_halve m hm h0 hc ht hD k res x hI h1 (h1.trans hk) h3
  | succ j ih =>
    intro res x hI h1 h3
    by_cases hl : |Real.log ((1 + x) / c)| ≤ 1
    · refine two_halve m hm h0 hc ht hD _ res x hI hl (hl.trans (hk.trans (mul_le_mul_of_nonneg_left ?_ D0))) h3
      exact pow_le_pow_right₀ (by norm_num) (by omega)
    · rw [← Nat.add_assoc]
      unfold refineLoop
      by_cases hr : res > tol
      · rw [if_pos hr]
        obtain ⟨x', e, I', _, a2, a3⟩ := two_inv m hm h0 hc hI
        rw [e]
        have b := a2 (not_le.1 hl)
        push_cast at h1
        exact ih |x' - x| x' I' (by linarith) (fun h => (a3 (by linarith)).trans h)
      · rw [if_neg hr]
        exact ⟨x, rfl, h3 (not_lt.1 hr)⟩

/-- The first step, from the ratio 1. -/
theorem two_first (hm : m.log = Real.log) {l0 c : ℝ} (h0 : 0 < l0) (hc : 1 < c) :
    ∃ x', refineStep m l0 (c * l0) 2 1 = .ok x' ∧ TwoInv c x' ∧ |Real.log ((1 + x') / c)| ≤ max 1 (Real.log c) ∧ (|x' - 1| < 1 → |x' - (c - 1)| ≤ |x' - 1|) := by
  have hc0 : 0 < c := by linarith
  have hu : (0 : ℝ) < 1 + 1 := by norm_num
  have hX := two_exp hc0 hu
  have hlog : Real.log ((1 + 1) / c) = Real.log 2 - Real.log c := by rw [Real.log_div (by norm_num) hc0.ne']; norm_num
  have hlc : 0 < Real.log c := Real.log_pos hc
  have hl2 := Real.log_two_lt_d9
  have hl2' := Real.log_two_gt_d9
  by_cases hsm : |Real.log ((1 + 1) / c)| ≤ 1 / 100000
  · obtain ⟨x', e, I', a1, _, a3⟩ := two_inv m hm h0 hc0 (x := 1) ⟨hu, Or.inl hsm⟩
    refine ⟨x', e, I', ?_, a3⟩
    have := a1 (by linarith)
    exact le_max_of_le_left (by linarith)
  · obtain ⟨e, _, _, _, e4, hs⟩ := two_step m hm h0 hc0 hu
    obtain rfl := e4 rfl
    generalize hl : Real.log ((1 + 1) / c) = l at *
    refine ⟨_, hs, ?_⟩
    have hp : 0 < 1 - (1 + 0) * l := by linarith
    obtain ⟨n1, n2⟩ := two_next hc0 hu hl.symm hp
    have hX' := two_exp hc0 n1
    rw [n2] at hX' ⊢
    simp only [add_zero, one_mul, mul_one] at *
    have up : l + Real.log (1 - l) ≤ 0 := by
      have := Real.log_le_sub_one_of_pos hp
      linarith
    have hle : 1 - (1 + 1) * l - (c - 1) ≤ 0 := by
      have : 1 + (1 - (1 + 1) * l) ≤ c * 1 := by
        rw [hX']
        exact mul_le_mul_of_nonneg_left (Real.exp_le_one_iff.2 up) hc0.le
      linarith
    rw [abs_of_nonpos up, abs_of_nonpos hle]
    rcases lt_or_ge l 0 with hneg | hpos
    · rw [abs_of_neg hneg] at hsm
      have hmono : 0 ≤ Real.log (1 - l) := Real.log_nonneg (by linarith)
      refine ⟨⟨n1, ?_⟩, le_max_of_le_right (by linarith), fun h1 => ?_⟩
      · rw [n2]
        by_cases h : |l + Real.log (1 - l)| ≤ 1 / 100000
        · exact Or.inl h
        · rw [abs_of_nonpos up] at h
          exact Or.inr ⟨by linarith, Or.inl (by linarith)⟩
      · have d2 : 1 - (1 + 1) * l - 1 = 2 * -l := by ring
        rw [d2, abs_of_pos (by linarith)] at h1 ⊢
        have hE := abs_le.1 (Real.abs_exp_sub_one_le (x := -l) (by rw [abs_of_nonneg (by linarith)]; linarith))
        rw [abs_of_nonneg (show 0 ≤ -l by linarith)] at hE
        have hc' : c = (1 + 1) * Real.exp (-l) := by
          rw [hX, Real.exp_neg, mul_assoc, mul_inv_cancel₀ (Real.exp_pos l).ne', mul_one]
        linarith
    · rw [abs_of_nonneg hpos] at hsm
      have low : -1 ≤ l + Real.log (1 - l) := by
        have : -1 - l ≤ Real.log (1 - l) := by
          rw [Real.le_log_iff_exp_le hp]
          rcases le_or_gt l (6 / 10) with h | h
          · have h1 : Real.exp (-1 - l) ≤ Real.exp (-1) := Real.exp_le_exp.2 (by linarith)
            have := Real.exp_neg_one_lt_d9
            linarith
          · have h1 : Real.exp (-1 - l) ≤ Real.exp (-1) * Real.exp (-(6 / 10)) := by
              rw [← Real.exp_add]
              exact Real.exp_le_exp.2 (by linarith)
            have h2 := Real.exp_neg_one_lt_d9
            have h3 : Real.exp (-(6 / 10)) ≤ 1 / (1 + 6 / 10) := by
              rw [Real.exp_neg, ← one_div]
              refine one_div_le_one_div_of_le (by norm_num) ?_
              have := Real.add_one_le_exp (6 / 10 : ℝ)
              linarith
            have h4 := mul_le_mul h2.le h3 (Real.exp_pos _).le (by norm_num)
            norm_num at h4
            linarith
        linarith
      have hc2 : c ≤ 2 := by
        have : 1 ≤ Real.exp l := Real.one_le_exp hpos
        nlinarith
      refine ⟨⟨n1, ?_⟩, le_max_of_le_left (by linarith), fun h1 => ?_⟩
      · rw [n2]
        by_cases h : |l + Real.log (1 - l)| ≤ 1 / 100000
        · exact Or.inl h
        · rw [abs_of_nonpos up] at h
          exact Or.inr ⟨by linarith, Or.inr ⟨hc2, low⟩⟩
      · have d2 : 1 - (1 + 1) * l - 1 = -(2 * l) := by ring
        rw [d2, abs_neg, abs_of_nonneg (by linarith)]
        linarith

/-- **C144**, as far as it holds: for two elements, whatever their lengths, the result is within the tolerance of the ratio. (`2 ^ -1074` is the
smallest positive double.) What is missing are more elements, where it is not: see `C144_false`. -/
theorem C144_partial (hm : m.log = Real.log) (l0 ltot tol : ℝ) (h0 : 0 < l0) (h1 : l0 < ltot) (h2 : ltot ≤ 2 ^ 2100 * l0) (t0 : 1 / 2 ^ 1074 ≤ tol) (t1 : tol < 1) :
    ∃ a r, refineParam m l0 ltot 2 tol = .ok a ∧ 0 < r ∧ l0 * geomSum 2 r = ltot ∧ |a - r| ≤ tol := by
  obtain ⟨c, rfl⟩ : ∃ c, ltot = c * l0 := ⟨ltot / l0, by field_simp⟩
  have hc : 1 < c := by nlinarith
  have hc0 : 0 < c := by linarith
  have hc2 : c ≤ 2 ^ 2100 := le_of_mul_le_mul_right h2 h0
  obtain ⟨x, e, I, b, d⟩ := two_first m hm h0 hc
  have hlog : Real.log c ≤ 1 + (3000 : ℕ) / 2 := by
    have k := Real.log_le_log hc0 hc2
    rw [Real.log_pow] at k
    have := Real.log_two_lt_d9
    norm_num at k ⊢
    linarith
  obtain ⟨a, ha, hr⟩ := two_loop m hm (D := 1 / 2 ^ 3175) h0 hc0 t1 (by
      refine le_trans ?_ t0
      have p : (2 : ℝ) ^ 3175 = 2 * 2 ^ 2100 * 2 ^ 1074 := by
        rw [← pow_succ', ← pow_add]
      rw [p]
      have q1 : (0 : ℝ) < 2 ^ 2100 := by positivity
      have q2 : (0 : ℝ) < 2 ^ 1074 := by positivity
      generalize (2 : ℝ) ^ 2100 = y at *
      generalize (2 : ℝ) ^ 1074 = z at *
      rw [mul_one_div, div_le_div_iff₀ (by positivity) q2]
      nlinarith [mul_le_mul_of_nonneg_right hc2 q2.le]) (by positivity) 6999 (by
      rw [one_div, inv_mul_eq_div, one_le_div (by positivity)]
      exact pow_le_pow_right₀ (by norm_num) (by norm_num)) 3000 |x - 1| x I (b.trans (max_le (by norm_num) hlog)) (fun h => (d (by linarith)).trans h)
  refine ⟨a, c - 1, ?_, by linarith, ?_, hr⟩
  · unfold refineParam
    rw [show (10000 : Nat) = 9999 + 1 from rfl, refineLoop, if_pos t1, e]
    exact ha
  · simp [geomSum, Finset.sum_range_succ]
    ring

/-- The hypotheses can be met: 1 and 4 as lengths give the ratio 3. -/
example (hm : m.log = Real.log) : ∃ a r, refineParam m 1 4 2 (1 / 10 ^ 14) = .ok a ∧ 0 < r ∧ 1 * geomSum 2 r = 4 ∧ |a - r| ≤ 1 / 10 ^ 14 :=
  C144_partial m hm 1 4 (1 / 10 ^ 14) (by norm_num) (by norm_num) (by
      rw [mul_one]
      exact (by norm_num : (4 : ℝ) ≤ 2 ^ 2).trans (pow_le_pow_right₀ (by norm_num) (by norm_num)))
    (one_div_le_one_div_of_le (by positivity) ((by norm_num : (10 : ℝ) ^ 14 ≤ 2 ^ 47).trans (pow_le_pow_right₀ (by norm_num) (by norm_num)))) (by norm_num)

end Two

end Pymech
