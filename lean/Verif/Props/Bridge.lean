import Verif.Core.Geom
import Mathlib.Analysis.SpecialFunctions.Pow.Real

/-!
# Comparison of squares = comparison of square roots

The model never takes square roots to compare distances. These theorems show that, over the reals, the decisions are
those of the Python code, which uses `np.sqrt`.
-/

namespace Pymech

/-- `closeB` decides `np.sqrt(a) <= t * np.sqrt(b)`. -/
theorem closeB_iff_sqrt (a t b : ℝ) (ha : 0 ≤ a) (hb : 0 ≤ b) :
    closeB a t b = true ↔ Real.sqrt a ≤ t * Real.sqrt b := by
  unfold closeB
  split_ifs with ht
  · rw [decide_eq_true_iff]
    have : t * Real.sqrt b = Real.sqrt (t * t * b) := by
      rw [Real.sqrt_mul (by positivity), Real.sqrt_mul_self ht]
    rw [this]
    exact (Real.sqrt_le_sqrt_iff (by positivity)).symm
  · rw [decide_eq_true_iff]
    have ht' : t < 0 := not_le.mp ht
    constructor
    · rintro ⟨rfl, rfl⟩; simp
    · intro h
      have h1 : 0 ≤ Real.sqrt a := Real.sqrt_nonneg a
      have h2 : 0 ≤ Real.sqrt b := Real.sqrt_nonneg b
      have h3 : Real.sqrt b = 0 := by nlinarith
      have h4 : Real.sqrt a = 0 := by rw [h3] at h; linarith
      exact ⟨(Real.sqrt_eq_zero ha).1 h4, (Real.sqrt_eq_zero hb).1 h3⟩

example : closeB (4 : ℝ) (1 / 2) 16 = true := by
  rw [closeB_iff_sqrt _ _ _ (by norm_num) (by norm_num)]
  rw [show (4 : ℝ) = 2 ^ 2 by norm_num, show (16 : ℝ) = 4 ^ 2 by norm_num,
    Real.sqrt_sq (by norm_num), Real.sqrt_sq (by norm_num)]
  norm_num

/-- `min(np.sqrt(a), np.sqrt(b))` is the root of the minimum. -/
theorem min_sqrt (a b : ℝ) : min (Real.sqrt a) (Real.sqrt b) = Real.sqrt (min a b) := by
  rcases le_total a b with h | h
  · rw [min_eq_left h, min_eq_left (Real.sqrt_le_sqrt h)]
  · rw [min_eq_right h, min_eq_right (Real.sqrt_le_sqrt h)]

theorem distSq_nonneg {F : Type} [Field F] [LinearOrder F] [IsStrictOrderedRing F] (p q : V3 F) :
    0 ≤ distSq p q := by
  unfold distSq
  positivity

theorem minList_nonneg {F : Type} [Field F] [LinearOrder F] (a : F) (l : List F) (ha : 0 ≤ a)
    (hl : ∀ x ∈ l, 0 ≤ x) : 0 ≤ minList a l := by
  unfold minList
  induction l generalizing a with
  | nil => simpa
  | cons b l ih =>
    simp only [List.foldl_cons]
    exact ih (min a b) (le_min ha (hl b (by simp))) fun x hx => hl x (by simp [hx])

theorem smallestEdgeSq_nonneg {F : Type} [Field F] [LinearOrder F] [IsStrictOrderedRing F] (el : Elem F) (s : F)
    (h : el.smallestEdgeSq = .ok s) : 0 ≤ s := by
  unfold Elem.smallestEdgeSq at h
  split_ifs at h
  · simp only [Except.ok.injEq] at h
    subst h
    refine minList_nonneg _ _ (distSq_nonneg _ _) ?_
    intro x hx
    simp only [List.mem_cons, List.not_mem_nil, or_false] at hx
    rcases hx with rfl | rfl | rfl | rfl | rfl | rfl | rfl | rfl | rfl | rfl | rfl <;> exact distSq_nonneg _ _
  · simp only [Except.ok.injEq] at h
    subst h
    refine minList_nonneg _ _ (distSq_nonneg _ _) ?_
    intro x hx
    simp only [List.mem_cons, List.not_mem_nil, or_false] at hx
    rcases hx with rfl | rfl | rfl <;> exact distSq_nonneg _ _

/-- Over the reals `closeFaces` is exactly the test `dist <= tol * min(el.smallest_edge(), el1.smallest_edge())`
of `check_connectivity` and `merge`, where `dist` is the Euclidean distance of the face centres. -/
theorem closeFaces_iff_dist (a b : Elem ℝ) (f0 f1 : Int) (tol : ℝ) (c0 c1 : V3 ℝ) (s0 s1 : ℝ)
    (h0 : a.faceCenter f0 = .ok c0) (h1 : b.faceCenter f1 = .ok c1)
    (h2 : a.smallestEdgeSq = .ok s0) (h3 : b.smallestEdgeSq = .ok s1) :
    closeFaces a f0 b f1 tol = .ok true ↔
      Real.sqrt ((c1.x - c0.x) ^ 2 + (c1.y - c0.y) ^ 2 + (c1.z - c0.z) ^ 2)
        ≤ tol * min (Real.sqrt s0) (Real.sqrt s1) := by
  have hs0 := smallestEdgeSq_nonneg a s0 h2
  have hs1 := smallestEdgeSq_nonneg b s1 h3
  rw [min_sqrt, ← closeB_iff_sqrt _ _ _ (by positivity) (le_min hs0 hs1)]
  unfold closeFaces
  rw [h0, h1, h2, h3]
  change (Except.ok (closeB (distSq c0 c1) tol (min s0 s1)) : Py Bool) = .ok true ↔ _
  rw [Except.ok.injEq]
  rfl

end Pymech
