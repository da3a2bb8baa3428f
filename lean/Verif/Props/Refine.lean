import Mathlib.Analysis.SpecialFunctions.Log.Basic
import Mathlib.Analysis.SpecialFunctions.Pow.Real
import Mathlib.Analysis.SpecialFunctions.Trigonometric.Arctan
import Mathlib.Algebra.Field.GeomSum
import Mathlib.Tactic.IntervalCases
import Verif.Props.Edge
import Verif.Mesh.Circle

/-!
# C65, C66 `exponential_refinement_parameter`
-/

namespace Pymech

section Generic
variable {F : Type} [Field F] [LinearOrder F]

theorem pyDiv_ok {a b : F} (h : b ≠ 0) : pyDiv a b = .ok (a / b) := by unfold pyDiv; rw [if_neg h]

theorem pyDiv_eq {a b c : F} (h : pyDiv a b = .ok c) : b ≠ 0 ∧ c = a / b := by
  unfold pyDiv at h
  split at h
  · exact absurd h (by simp)
  · next hb => exact ⟨hb, (Except.ok.inj h).symm⟩

theorem pyLog_eq {m : MathFns F} {x y : F} (h : pyLog m x = .ok y) : 0 < x ∧ y = m.log x := by
  unfold pyLog at h
  split at h
  · exact absurd h (by simp)
  · next hx => exact ⟨not_le.1 hx, (Except.ok.inj h).symm⟩

/-- The values of a successful step. -/
theorem refineStep_eq {m : MathFns F} {l0 ltot : F} {n : Nat} {a a' : F} (h : refineStep m l0 ltot n a = .ok a') :
    ∃ f g, refineErr m l0 ltot n a = .ok f ∧ refineErrPrime n a = .ok g ∧ g ≠ 0 ∧ a' = a - f / g := by
  unfold refineStep at h
  cases h1 : refineErr m l0 ltot n a with
  | error e => rw [h1] at h; exact absurd h (by simp [bind, Except.bind])
  | ok f =>
    cases h2 : refineErrPrime n a with
    | error e => rw [h1, h2] at h; exact absurd h (by simp [bind, Except.bind])
    | ok g =>
      rw [h1, h2] at h
      simp only [bind, Except.bind] at h
      cases h3 : pyDiv f g with
      | error e => rw [h3] at h; exact absurd h (by simp)
      | ok d =>
        rw [h3] at h
        obtain ⟨h4, h5⟩ := pyDiv_eq h3
        refine ⟨f, g, rfl, rfl, h4, ?_⟩
        rw [← h5]
        exact (Except.ok.inj h).symm

end Generic

/-! ### C66 -/

/-- **C66.** At an exact zero of the error function away from 1 the lengths of the elements add up to the total length. -/
theorem C66_zero (m : MathFns ℝ) (hm : m.log = Real.log) (l0 ltot : ℝ) (n : Nat) (x : ℝ) (hx : 2 / 1000000 ≤ |x - 1|)
    (h : refineErr m l0 ltot n x = .ok 0) : l0 * ∑ i ∈ Finset.range n, x ^ i = ltot := by
  unfold refineErr at h
  rw [if_neg (not_lt.2 hx)] at h
  have hx1 : x - 1 ≠ 0 := by
    intro h0; rw [h0, abs_zero] at hx; norm_num at hx
  rw [pyDiv_ok hx1] at h
  simp only [bind, Except.bind] at h
  cases h1 : pyDiv ((x ^ n - 1) / (x - 1) * l0) ltot with
  | error e => rw [h1] at h; exact absurd h (by simp)
  | ok q =>
    rw [h1] at h
    obtain ⟨ht, hq⟩ := pyDiv_eq h1
    obtain ⟨h2, h3⟩ := pyLog_eq h
    rw [hm] at h3
    rcases Real.log_eq_zero.1 h3.symm with h4 | h4 | h4
    · linarith
    · rw [h4, eq_comm, div_eq_iff ht] at hq
      rw [geom_sum_eq (by intro h; exact hx1 (by rw [h]; ring))]
      linarith
    · linarith

/-- **C66**, near 1: at an exact zero, the total length is obtained with the geometric sum
`n + n(n-1)/2 t + n(n-1)(n-2)/6 t² + n(n-1)(n-2)(n-3)/24 t³ + …`, `t = alpha - 1`, cut after the third power. -/
theorem C66_near (m : MathFns ℝ) (hm : m.log = Real.log) (l0 ltot : ℝ) (n : Nat) (x : ℝ) (hx : |x - 1| < 2 / 1000000)
    (h : refineErr m l0 ltot n x = .ok 0) :
    l0 * ((n : ℝ) + n * (n - 1) / 2 * (x - 1) + n * (n - 1) * (n - 2) / 6 * (x - 1) ^ 2 + n * (n - 1) * (n - 2) * (n - 3) / 24 * (x - 1) ^ 3) = ltot := by
  unfold refineErr at h
  rw [if_pos hx] at h
  cases h1 : pyDiv ((n : ℝ) * l0) ltot with
  | error e => rw [h1] at h; exact absurd h (by simp [bind, Except.bind])
  | ok q =>
  cases h2 : pyLog m q with
  | error e => rw [h1] at h; simp only [bind, Except.bind, h2] at h; exact absurd h (by simp)
  | ok a =>
  cases h3 : pyLog m (1 + ((n : ℝ) - 1) / 2 * (x - 1) + ((n : ℝ) - 1) * ((n : ℝ) - 2) / 6 * (x - 1) ^ 2
      + ((n : ℝ) - 1) * ((n : ℝ) - 2) * ((n : ℝ) - 3) / 24 * (x - 1) ^ 3) with
  | error e => rw [h1] at h; simp only [bind, Except.bind, h2, h3] at h; exact absurd h (by simp)
  | ok b =>
  rw [h1] at h
  simp only [bind, Except.bind, h2, h3] at h
  obtain ⟨ht, hq⟩ := pyDiv_eq h1
  obtain ⟨q0, ha⟩ := pyLog_eq h2
  obtain ⟨b0, hb⟩ := pyLog_eq h3
  have hab : a + b = 0 := Except.ok.inj h
  rw [ha, hb, hm, ← Real.log_mul q0.ne' b0.ne'] at hab
  rcases Real.log_eq_zero.1 hab with h4 | h4 | h4
  · have := mul_pos q0 b0; linarith
  · rw [hq] at h4
    field_simp at h4
    linarith
  · have := mul_pos q0 b0; linarith

/-- **C66**, near 1: for up to four elements the sum is exact. -/
theorem C66_near_exact (m : MathFns ℝ) (hm : m.log = Real.log) (l0 ltot : ℝ) (n : Nat) (hn : n ≤ 4) (x : ℝ) (hx : |x - 1| < 2 / 1000000)
    (h : refineErr m l0 ltot n x = .ok 0) : l0 * ∑ i ∈ Finset.range n, x ^ i = ltot := by
  rw [← C66_near m hm l0 ltot n x hx h]
  interval_cases n <;> simp [Finset.sum_range_succ] <;> ring_nf <;> tauto

/-- **C66.** A ratio that the iteration does not change is a zero of the error function. -/
theorem C66_fixed {F : Type} [Field F] [LinearOrder F] (m : MathFns F) (l0 ltot : F) (n : Nat) (a : F)
    (h : refineStep m l0 ltot n a = .ok a) : refineErr m l0 ltot n a = .ok 0 := by
  obtain ⟨f, g, h1, h2, h3, h4⟩ := refineStep_eq h
  have : f / g = 0 := by
    have : a - f / g = a - 0 := by rw [← h4, sub_zero]
    exact sub_right_injective this
  rw [div_eq_zero_iff] at this
  rw [h1, this.resolve_right h3]

/-- **C66.** If `n * l0 = ltot` then the ratio is 1, for any tolerance. -/
theorem C66_one (m : MathFns ℝ) (hm : m.log = Real.log) (l0 ltot : ℝ) (n : Nat) (tol : ℝ) (hn : 2 ≤ n) (h0 : l0 ≠ 0) (h : n * l0 = ltot) :
    refineParam m l0 ltot n tol = .ok 1 := by
  have hn0 : (n : ℝ) ≠ 0 := by positivity
  have hlt : ltot ≠ 0 := by rw [← h]; exact mul_ne_zero hn0 h0
  have hg : (1 : ℝ) / 2 * ((n : ℝ) - 1) ≠ 0 := by
    have : (2 : ℝ) ≤ n := by exact_mod_cast hn
    have : (0 : ℝ) < n - 1 := by linarith
    positivity
  have hstep : refineStep m l0 ltot n 1 = .ok 1 := by
    unfold refineStep refineErr refineErrPrime
    simp only [sub_self, abs_zero, if_pos (show (0 : ℝ) < 2 / 1000000 by norm_num), pyDiv_ok hlt, bind, Except.bind, h, div_self hlt, pyLog, hm,
      if_neg (show ¬ ((1 : ℝ) ≤ 0) by norm_num), mul_zero, ne_eq, OfNat.ofNat_ne_zero, not_false_eq_true, zero_pow, add_zero, Real.log_one, pure, Except.pure,
      pyDiv_ok hg, zero_div, sub_zero]
  have : ∀ k res, refineLoop m l0 ltot n tol k res 1 = .ok 1 := by
    intro k
    induction k with
    | zero => intro res; rfl
    | succ k ih =>
      intro res
      unfold refineLoop
      split
      · rw [hstep]; exact ih _
      · rfl
  exact this _ _

/-- **C66.** The iteration: a returned ratio is reached from 1 in at most 10000 steps, each but the last of which changes the ratio by
more than `tol`; with fewer steps the last change is at most `tol` (or `tol` is at least 1 and there is no step). -/
theorem C66_iterates {F : Type} [Field F] [LinearOrder F] (m : MathFns F) (l0 ltot : F) (n : Nat) (tol : F) (a : F)
    (h : refineParam m l0 ltot n tol = .ok a) :
    ∃ (k : Nat) (x : Nat → F), k ≤ 10000 ∧ x 0 = 1 ∧ x k = a ∧ (∀ i < k, refineStep m l0 ltot n (x i) = .ok (x (i + 1))) ∧
      (∀ i, i + 1 < k → tol < |x (i + 1) - x i|) ∧
      (k < 10000 → (k = 0 ∧ 1 ≤ tol) ∨ (0 < k ∧ |x k - x (k - 1)| ≤ tol)) := by
  have key : ∀ (f : Nat) (res a0 : F), refineLoop m l0 ltot n tol f res a0 = .ok a →
      ∃ (k : Nat) (x : Nat → F), k ≤ f ∧ x 0 = a0 ∧ x k = a ∧ (∀ i < k, refineStep m l0 ltot n (x i) = .ok (x (i + 1))) ∧
        (∀ i, i + 1 < k → tol < |x (i + 1) - x i|) ∧ (k < f → (k = 0 ∧ res ≤ tol) ∨ (0 < k ∧ |x k - x (k - 1)| ≤ tol)) ∧ (0 < k → tol < res) := by
    intro f
    induction f with
    | zero =>
      intro res a0 h
      exact ⟨0, fun _ => a0, le_refl _, rfl, Except.ok.inj h, by simp, by simp, by simp, by simp⟩
    | succ f ih =>
      intro res a0 h
      unfold refineLoop at h
      split at h
      · cases h1 : refineStep m l0 ltot n a0 with
        | error e => rw [h1] at h; exact absurd h (by simp [bind, Except.bind])
        | ok a1 =>
          rw [h1] at h
          obtain ⟨k, x, c1, c2, c3, c4, c5, c6, c9⟩ := ih _ a1 h
          refine ⟨k + 1, fun i => if i = 0 then a0 else x (i - 1), by omega, rfl, by simpa using c3, ?_, ?_, ?_, fun _ => by assumption⟩
          · intro i hi
            rcases Nat.eq_zero_or_pos i with rfl | hp
            · simp [c2, h1]
            · obtain ⟨j, rfl⟩ : ∃ j, i = j + 1 := ⟨i - 1, by omega⟩
              simpa using c4 j (by omega)
          · intro i hi
            rcases Nat.eq_zero_or_pos i with rfl | hp
            · simp only [zero_add, one_ne_zero, if_false, if_true, Nat.sub_self, c2]
              exact c9 (by omega)
            · obtain ⟨j, rfl⟩ : ∃ j, i = j + 1 := ⟨i - 1, by omega⟩
              simpa using c5 j (by omega)
          · intro hk
            rcases c6 (by omega) with ⟨rfl, c7⟩ | ⟨c7, c8⟩
            · right; simpa [c2] using c7
            · right
              obtain ⟨j, rfl⟩ : ∃ j, k = j + 1 := ⟨k - 1, by omega⟩
              simpa using c8
      · next hr => exact ⟨0, fun _ => a0, by omega, rfl, Except.ok.inj h, by simp, by simp, fun _ => Or.inl ⟨rfl, not_lt.1 hr⟩, by simp⟩
  obtain ⟨k, x, c1, c2, c3, c4, c5, c6, -⟩ := key 10000 1 1 h
  exact ⟨k, x, c1, c2, c3, c4, c5, c6⟩

/-- The functions of the real numbers. (The power of a negative base with a fractional exponent is complex in Python; the real
power used here differs from this.) -/
noncomputable def realFns : MathFns ℝ where
  sin := Real.sin
  cos := Real.cos
  atan := Real.arctan
  log := Real.log
  pow := fun x y => if x = 0 ∧ y < 0 then .error .zeroDivision else .ok (x ^ y)
  pi := Real.pi
  sqrt2 := Real.sqrt 2

/-- Two elements of total length 3, the first of length 1: the ratio 2 is a fixed point. -/
example : refineErr realFns 1 3 2 2 = .ok 0 ∧ 1 * ∑ i ∈ Finset.range 2, (2 : ℝ) ^ i = 3 := by
  have h : refineErr realFns 1 3 2 2 = .ok 0 := by
    unfold refineErr pyDiv pyLog realFns
    norm_num [bind, Except.bind]
  exact ⟨h, C66_zero realFns rfl 1 3 2 2 (by norm_num) h⟩

example : refineParam realFns (1 / 5) 1 5 (1 / 100) = .ok 1 := C66_one realFns rfl _ _ _ _ (by norm_num) (by norm_num) (by norm_num)

/-! ### C65 -/

/-- With one element the derivative used in the first step is zero: the function always raises, in particular
`ZeroDivisionError` if both lengths are positive. -/
theorem refine_one {F : Type} [Field F] [LinearOrder F] [IsStrictOrderedRing F] (m : MathFns F) (l0 ltot tol : F) (ht : tol < 1) :
    (∃ e, refineParam m l0 ltot 1 tol = .error e) ∧ (0 < l0 → 0 < ltot → refineParam m l0 ltot 1 tol = .error .zeroDivision) := by
  have hp : refineErrPrime 1 (1 : F) = .ok 0 := by
    unfold refineErrPrime; simp
  have hs : ∀ x, refineErr m l0 ltot 1 (1 : F) = .ok x → refineStep m l0 ltot 1 1 = .error .zeroDivision := by
    intro x hx
    unfold refineStep
    rw [hx, hp]
    simp [bind, Except.bind, pyDiv]
  have hl : refineParam m l0 ltot 1 tol = (do let a ← refineStep m l0 ltot 1 1; refineLoop m l0 ltot 1 tol 9999 |a - 1| a) := by
    unfold refineParam
    rw [show 10000 = 9999 + 1 from rfl, refineLoop, if_pos ht]
  rw [hl]
  constructor
  · cases h : refineErr m l0 ltot 1 (1 : F) with
    | error e =>
      refine ⟨e, ?_⟩
      unfold refineStep; rw [h]; rfl
    | ok x => exact ⟨.zeroDivision, by rw [hs x h]; rfl⟩
  · intro h0 h1
    have hq : ¬ (((1 : Nat) : F) * l0 / ltot ≤ 0) := by
      rw [not_le]; push_cast; rw [one_mul]; exact div_pos h0 h1
    have : ∃ x, refineErr m l0 ltot 1 (1 : F) = .ok x := by
      unfold refineErr
      simp only [sub_self, abs_zero, if_pos (show (0 : F) < 2 / 1000000 by norm_num), pyDiv_ok h1.ne', bind, Except.bind, pyLog, if_neg hq]
      simp [pure, Except.pure, if_neg (not_le.2 (zero_lt_one : (0 : F) < 1))]
    obtain ⟨x, hx⟩ := this
    rw [hs x hx]; rfl

/-- **C65** is false in the code: with default spacing a single O-grid layer never works, whatever the other arguments (1e-14 is
the tolerance passed). -/
theorem C65_false {F : Type} [Field F] [LinearOrder F] [IsStrictOrderedRing F] [FloorRing F] (native : Endian) (m : MathFns F) (r s : F) (ns : Nat)
    (cf : Option (F → Py F)) (var : Var) (bc : List Name) (ib : Bool) : ∃ e, genCircle native m r s ns 1 cf none var bc ib = .error e := by
  suffices h : ∀ cf : F → Py F, ∃ e, defaultBl m cf r s ns 1 = .error e by
    obtain ⟨e, he⟩ := h (cf.getD fun x => .ok (m.sin (1 / 2 * m.pi * x) ^ 2))
    refine ⟨e, ?_⟩
    unfold genCircle
    simp only [circleBl, he]
    rfl
  intro cf
  unfold defaultBl
  cases h1 : pyDiv (s * r * m.sqrt2) (ns : F) with
  | error e => exact ⟨e, rfl⟩
  | ok sp =>
  simp only [bind, Except.bind]
  cases h2 : stretchErr m cf r s (1 / 2 * r * (1 - s) * m.sqrt2) 1 sp with
  | error e => exact ⟨e, rfl⟩
  | ok f0 =>
  simp only
  cases h3 : secant (fun l => stretchErr m cf r s (1 / 2 * r * (1 - s) * m.sqrt2) l sp) 10000 1 0 f0 with
  | error e => exact ⟨e, rfl⟩
  | ok l1 =>
  simp only
  obtain ⟨⟨e, he⟩, -⟩ := refine_one m l1 (1 / 2 * r * (1 - s) * m.sqrt2) (1 / 100000000000000) (by norm_num)
  rw [he]
  exact ⟨e, rfl⟩

end Pymech
