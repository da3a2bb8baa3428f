import Mathlib.Analysis.SpecialFunctions.Log.Deriv
import Mathlib.Analysis.Calculus.Deriv.Pow
import Mathlib.Analysis.Calculus.Deriv.Add
import Verif.Props.Refine

/-!
# The derivative in `exponential_refinement_parameter`: C101
-/

set_option autoImplicit false

namespace Pymech

namespace Spec

/-- Sum of the lengths of `n` elements, in units of the first one. -/
noncomputable def geomSum (n : Nat) (y : ℝ) : ℝ := ∑ i ∈ Finset.range n, y ^ i

/-- Logarithm of the ratio of the sum of the lengths to the total length: zero if and only if the elements fill it. -/
noncomputable def fillErr (l0 ltot : ℝ) (n : Nat) (y : ℝ) : ℝ := Real.log (l0 * geomSum n y / ltot)

end Spec

open Spec

/-- First derivative of the sum. -/
noncomputable def geomSum1 (n : Nat) (y : ℝ) : ℝ := ∑ i ∈ Finset.range n, (i : ℝ) * y ^ (i - 1)

/-- Second derivative of the sum. -/
noncomputable def geomSum2 (n : Nat) (y : ℝ) : ℝ := ∑ i ∈ Finset.range n, (i : ℝ) * (((i - 1 : Nat) : ℝ) * y ^ (i - 1 - 1))

theorem geomSum_deriv (n : Nat) (y : ℝ) : HasDerivAt (geomSum n) (geomSum1 n y) y :=
  HasDerivAt.fun_sum fun i _ => hasDerivAt_pow i y

theorem geomSum1_deriv (n : Nat) (y : ℝ) : HasDerivAt (geomSum1 n) (geomSum2 n y) y :=
  HasDerivAt.fun_sum fun i _ => (hasDerivAt_pow (i - 1) y).const_mul (i : ℝ)

theorem geomSum_one (n : Nat) : geomSum n 1 = n := by simp [geomSum]

theorem geomSum1_one (n : Nat) : geomSum1 n 1 = n * (n - 1) / 2 := by
  unfold geomSum1
  induction n with
  | zero => simp
  | succ n ih =>
    rw [Finset.sum_range_succ, ih]
    push_cast
    rw [one_pow]
    ring

theorem geomSum2_one (n : Nat) : geomSum2 n 1 = n * (n - 1) * (n - 2) / 3 := by
  unfold geomSum2
  induction n with
  | zero => simp
  | succ n ih =>
    rw [Finset.sum_range_succ, ih, one_pow]
    cases n with
    | zero => simp
    | succ n =>
      push_cast [Nat.add_sub_cancel]
      ring

theorem fillErr_deriv (l0 ltot : ℝ) (n : Nat) (y : ℝ) (h0 : l0 ≠ 0) (ht : ltot ≠ 0) (hs : geomSum n y ≠ 0) :
    HasDerivAt (fillErr l0 ltot n) (geomSum1 n y / geomSum n y) y := by
  have h := (((geomSum_deriv n y).const_mul l0).div_const ltot).log (div_ne_zero (mul_ne_zero h0 hs) ht)
  have e : l0 * geomSum1 n y / ltot / (l0 * geomSum n y / ltot) = geomSum1 n y / geomSum n y := by field_simp
  rw [e] at h
  exact h

/-- **C101**, up to three elements: the function used as the derivative away from 1 is the derivative.
What is missing are larger numbers of elements, where it is not: see `C101_false`. -/
theorem C101_partial (l0 ltot : ℝ) (n : Nat) (x : ℝ) (h0 : l0 ≠ 0) (ht : ltot ≠ 0) (h1 : 1 ≤ n) (h3 : n ≤ 3) (hx : 2 / 1000000 ≤ |x - 1|)
    (hs : geomSum n x ≠ 0) : ∃ g, refineErrPrime n x = .ok g ∧ HasDerivAt (fillErr l0 ltot n) g x := by
  have hd := fillErr_deriv l0 ltot n x h0 ht hs
  unfold refineErrPrime
  rw [if_neg (not_lt.2 hx)]
  interval_cases n
  · refine ⟨_, pyDiv_ok (by norm_num), ?_⟩
    have e : geomSum1 1 x / geomSum 1 x = (((1 : Nat) : ℝ) - 1) / 2 + (((1 : Nat) : ℝ) - 1) * (((1 : Nat) : ℝ) - 2) / 3 * (x - 1) +
        (((1 : Nat) : ℝ) - 1) * (((1 : Nat) : ℝ) - 2) * (((1 : Nat) : ℝ) - 3) / 8 * (x - 1) ^ 2 := by
      norm_num [geomSum1, geomSum]
    rw [e] at hd
    convert hd using 1
    norm_num
  · have hs' : x + 1 ≠ 0 := by
      intro h
      apply hs
      simp [geomSum, Finset.sum_range_succ]
      linarith
    have hne : (1 : ℝ) + (((2 : Nat) : ℝ) - 1) / 2 * (x - 1) + (((2 : Nat) : ℝ) - 1) * (((2 : Nat) : ℝ) - 2) / 6 * (x - 1) ^ 2 ≠ 0 := by
      intro h
      apply hs'
      norm_num at h
      linarith
    refine ⟨_, pyDiv_ok hne, ?_⟩
    convert hd using 1
    rw [div_eq_div_iff hne hs]
    simp [geomSum, geomSum1, Finset.sum_range_succ]
    ring
  · have hs' : 1 + x + x ^ 2 ≠ 0 := by
      intro h
      apply hs
      simp [geomSum, Finset.sum_range_succ]
      linarith
    have hne : (1 : ℝ) + (((3 : Nat) : ℝ) - 1) / 2 * (x - 1) + (((3 : Nat) : ℝ) - 1) * (((3 : Nat) : ℝ) - 2) / 6 * (x - 1) ^ 2 ≠ 0 := by
      intro h
      apply hs'
      norm_num at h
      linear_combination 3 * h
    refine ⟨_, pyDiv_ok hne, ?_⟩
    convert hd using 1
    rw [div_eq_div_iff hne hs]
    simp [geomSum, geomSum1, Finset.sum_range_succ]
    ring

/-- **C101**, near 1, for any number of elements: the function used is the tangent of the derivative at 1. -/
theorem C101_near (l0 ltot : ℝ) (n : Nat) (h0 : l0 ≠ 0) (ht : ltot ≠ 0) (h1 : 1 ≤ n) :
    ∃ (d : ℝ → ℝ) (d2 : ℝ), (∀ y, geomSum n y ≠ 0 → HasDerivAt (fillErr l0 ltot n) (d y) y) ∧ HasDerivAt d d2 1 ∧
      ∀ x, |x - 1| < 2 / 1000000 → refineErrPrime n x = .ok (d 1 + d2 * (x - 1)) := by
  have hn : (n : ℝ) ≠ 0 := by positivity
  have hs1 : geomSum n 1 ≠ 0 := by rw [geomSum_one]; exact hn
  refine ⟨fun y => geomSum1 n y / geomSum n y, _, fun y hy => fillErr_deriv l0 ltot n y h0 ht hy,
    (geomSum1_deriv n 1).fun_div (geomSum_deriv n 1) hs1, fun x hx => ?_⟩
  unfold refineErrPrime
  rw [if_pos hx]
  congr 1
  simp only [geomSum_one, geomSum1_one, geomSum2_one]
  field_simp
  ring

/-- **C101** is false in the code: with four elements, at the ratio 2, the function used as the derivative is not the derivative. -/
theorem C101_false : ∃ (l0 ltot x g : ℝ) (n : Nat), l0 ≠ 0 ∧ ltot ≠ 0 ∧ 1 ≤ n ∧ geomSum n x ≠ 0 ∧ refineErrPrime n x = .ok g ∧
    ¬ HasDerivAt (fillErr l0 ltot n) g x := by
  have hs : geomSum 4 2 = 15 := by norm_num [geomSum, Finset.sum_range_succ]
  have hs1 : geomSum1 4 2 = 17 := by norm_num [geomSum1, Finset.sum_range_succ]
  refine ⟨1, 1, 2, 17 / 14, 4, one_ne_zero, one_ne_zero, by norm_num, by rw [hs]; norm_num, ?_, fun h => ?_⟩
  · unfold refineErrPrime pyDiv
    norm_num
  · have := h.unique (fillErr_deriv 1 1 4 2 one_ne_zero one_ne_zero (by rw [hs]; norm_num))
    rw [hs, hs1] at this
    norm_num at this

/-- A quadratic polynomial without zeros. -/
theorem quadratic_pos (a b c t : ℝ) (ha : 0 < a) (h : b ^ 2 < 4 * a * c) : 0 < c + b * t + a * t ^ 2 := by
  have : 0 < 4 * a * (c + b * t + a * t ^ 2) := by nlinarith [sq_nonneg (2 * a * t + b)]
  exact pos_of_mul_pos_right this (by positivity)

/-- With four elements or more, or a positive ratio, the function used as the derivative is positive away from 1. -/
theorem errPrime_pos (n : Nat) (x : ℝ) (hn : 2 ≤ n) (hp : 0 < x ∨ 4 ≤ n) (hx : 2 / 1000000 ≤ |x - 1|) : ∃ g, 0 < g ∧ refineErrPrime n x = .ok g := by
  unfold refineErrPrime
  rw [if_neg (not_lt.2 hx)]
  have key : ∀ a b : ℝ, 0 < a → 0 < b → ∃ g, 0 < g ∧ pyDiv a b = .ok g := fun a b ha hb => ⟨a / b, div_pos ha hb, pyDiv_ok hb.ne'⟩
  rcases Nat.lt_or_ge n 4 with h4 | h4
  · have hp : 0 < x := hp.resolve_right (by omega)
    interval_cases n
    · refine key _ _ (by norm_num) ?_
      norm_num
      linarith
    · refine key _ _ ?_ ?_
      · norm_num
        linarith
      · norm_num
        nlinarith
  · have h4' : (4 : ℝ) ≤ n := by exact_mod_cast h4
    refine key _ _ ?_ ?_
    · have h3 : (0 : ℝ) < n - 3 := by linarith
      have h1 : (0 : ℝ) < n - 1 := by linarith
      have h2 : (0 : ℝ) < n - 2 := by linarith
      refine quadratic_pos _ _ _ _ (by positivity) ?_
      have e : 4 * (((n : ℝ) - 1) * (n - 2) * (n - 3) / 8) * ((n - 1) / 2) - ((n - 1) * (n - 2) / 3) ^ 2 =
          (n - 1) ^ 2 * (n - 2) * (5 * n - 19) / 36 := by ring
      have h5 : (0 : ℝ) < 5 * n - 19 := by linarith
      have : 0 < ((n : ℝ) - 1) ^ 2 * (n - 2) * (5 * n - 19) / 36 := by positivity
      linarith
    · have h1 : (0 : ℝ) < n - 1 := by linarith
      have h2 : (0 : ℝ) < n - 2 := by linarith
      refine quadratic_pos _ _ _ _ (by positivity) ?_
      have e : 4 * (((n : ℝ) - 1) * (n - 2) / 6) * 1 - ((n - 1) / 2) ^ 2 = (n - 1) * (5 * n - 13) / 12 := by ring
      have h5 : (0 : ℝ) < 5 * n - 13 := by linarith
      have : 0 < ((n : ℝ) - 1) * (5 * n - 13) / 12 := by positivity
      linarith

/-- The value of the error function at 1 and away from it. -/
theorem refineErr_fill (m : MathFns ℝ) (hm : m.log = Real.log) (l0 ltot : ℝ) (n : Nat) (x f : ℝ) (hx : x = 1 ∨ 2 / 1000000 ≤ |x - 1|)
    (h : refineErr m l0 ltot n x = .ok f) : f = fillErr l0 ltot n x ∧ 0 < l0 * geomSum n x / ltot := by
  rcases hx with rfl | hx
  · unfold refineErr at h
    rw [if_pos (by norm_num)] at h
    cases h1 : pyDiv ((n : ℝ) * l0) ltot with
    | error e => rw [h1] at h; exact absurd h (by simp [bind, Except.bind])
    | ok q =>
    rw [h1] at h
    simp only [bind, Except.bind] at h
    cases h2 : pyLog m q with
    | error e => rw [h2] at h; exact absurd h (by simp)
    | ok a =>
    rw [h2] at h
    simp only [sub_self, mul_zero, ne_eq, OfNat.ofNat_ne_zero, not_false_eq_true, zero_pow, add_zero, pyLog,
      if_neg (show ¬ ((1 : ℝ) ≤ 0) by norm_num), hm, Real.log_one, pure, Except.pure] at h
    obtain ⟨h3, h4⟩ := pyLog_eq h2
    obtain ⟨-, h5⟩ := pyDiv_eq h1
    have hf : a = f := Except.ok.inj h
    unfold fillErr
    rw [geomSum_one, ← hf, h4, hm, mul_comm l0, ← h5]
    exact ⟨rfl, h3⟩
  · unfold refineErr at h
    have hx1 : x - 1 ≠ 0 := by
      intro h0; rw [h0, abs_zero] at hx; norm_num at hx
    rw [if_neg (not_lt.2 hx), pyDiv_ok hx1] at h
    simp only [bind, Except.bind] at h
    cases h1 : pyDiv ((x ^ n - 1) / (x - 1) * l0) ltot with
    | error e => rw [h1] at h; exact absurd h (by simp)
    | ok q =>
    rw [h1] at h
    obtain ⟨-, h5⟩ := pyDiv_eq h1
    obtain ⟨h3, h4⟩ := pyLog_eq h
    have hg : geomSum n x = (x ^ n - 1) / (x - 1) := geom_sum_eq (by intro h; exact hx1 (by rw [h]; ring)) n
    unfold fillErr
    rw [hg, mul_comm l0, ← h5, h4, hm]
    exact ⟨rfl, h3⟩

/-- **C101.** Though the derivative is not exact, every step away from 1, and the first one, goes in the right direction: the ratio grows if the
elements do not fill the total length, and shrinks if they exceed it. -/
theorem C101_direction (m : MathFns ℝ) (hm : m.log = Real.log) (l0 ltot : ℝ) (n : Nat) (x x' : ℝ) (ht : 0 < ltot) (hn : 2 ≤ n)
    (hp : 0 < x ∨ 4 ≤ n) (hx : x = 1 ∨ 2 / 1000000 ≤ |x - 1|) (h : refineStep m l0 ltot n x = .ok x') :
    (l0 * geomSum n x < ltot → x < x') ∧ (ltot < l0 * geomSum n x → x' < x) := by
  obtain ⟨f, g, h1, h2, h3, h4⟩ := refineStep_eq h
  obtain ⟨hf, hpos⟩ := refineErr_fill m hm l0 ltot n x f hx h1
  have hg : 0 < g := by
    rcases hx with rfl | hx
    · unfold refineErrPrime at h2
      rw [if_pos (by norm_num)] at h2
      have : 1 / 2 * ((n : ℝ) - 1) + ((n : ℝ) - 1) * ((n : ℝ) - 5) / 12 * (1 - 1) = g := Except.ok.inj h2
      rw [← this]
      have : (2 : ℝ) ≤ n := by exact_mod_cast hn
      nlinarith
    · obtain ⟨g', hg', e⟩ := errPrime_pos n x hn hp hx
      rw [h2] at e
      rw [Except.ok.inj e]
      exact hg'
  rw [h4]
  constructor
  · intro hl
    have : f < 0 := by
      rw [hf]
      exact Real.log_neg hpos ((div_lt_one ht).2 hl)
    have := div_neg_of_neg_of_pos this hg
    linarith
  · intro hl
    have : 0 < f := by
      rw [hf]
      exact Real.log_pos ((one_lt_div ht).2 hl)
    have := div_pos this hg
    linarith

example : ∃ g, refineErrPrime 3 (2 : ℝ) = .ok g ∧ HasDerivAt (fillErr 1 5 3) g 2 :=
  C101_partial 1 5 3 2 one_ne_zero (by norm_num) (by norm_num) (le_refl 3) (by norm_num) (by norm_num [geomSum, Finset.sum_range_succ])

/-- Ten elements of length 1 do not fill 20: the ratio grows in the first step. -/
example (x' : ℝ) (h : refineStep realFns 1 20 10 1 = .ok x') : 1 < x' :=
  (C101_direction realFns rfl 1 20 10 1 x' (by norm_num) (by norm_num) (.inl one_pos) (.inl rfl) h).1 (by rw [geomSum_one]; norm_num)

end Pymech
