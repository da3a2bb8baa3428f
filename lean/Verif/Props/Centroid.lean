import Verif.Props.Geom
import Mathlib.Algebra.BigOperators.Intervals
import Mathlib.Algebra.Order.BigOperators.Group.Finset
import Mathlib.Algebra.BigOperators.Ring.Finset

/-! # C104: `Elem.centroid` -/

set_option autoImplicit false

namespace Pymech

open Finset

namespace Spec

/-- The mean of a component of the positions over all points. -/
def meanPos {F : Type} [Field F] (el : Elem F) (d : Nat) : F :=
  (∑ k ∈ range el.pos.lz, ∑ j ∈ range el.pos.ly, ∑ i ∈ range el.pos.lx, el.pos.dat d k j i) / (el.pos.lz * el.pos.ly * el.pos.lx)

end Spec

theorem sum_list_range {F : Type} [AddCommMonoid F] (n : Nat) (g : Nat → F) : ((List.range n).map g).sum = ∑ i ∈ range n, g i := by
  induction n with
  | zero => simp
  | succ n ih => rw [List.range_succ, List.map_append, List.sum_append, ih, sum_range_succ]; simp

/-- **C104**: `centroid` is the mean of all points of the element. -/
theorem C104 {F : Type} [Field F] (el : Elem F) : el.centroid = ⟨Spec.meanPos el 0, Spec.meanPos el 1, Spec.meanPos el 2⟩ := by
  have h : ∀ d, sumBox el.pos.lz el.pos.ly el.pos.lx (fun k j i => el.pos.dat d k j i) =
      ∑ k ∈ range el.pos.lz, ∑ j ∈ range el.pos.ly, ∑ i ∈ range el.pos.lx, el.pos.dat d k j i := by
    intro d
    unfold sumBox
    simp only [sum_list_range]
  unfold Elem.centroid Spec.meanPos
  simp only [h, Nat.cast_mul]

section
variable {F : Type} [Field F] [LinearOrder F] [IsStrictOrderedRing F]

theorem meanPos_between (el : Elem F) (d : Nat) (hx : 0 < el.pos.lx) (hy : 0 < el.pos.ly) (hz : 0 < el.pos.lz) (a b : F)
    (h : ∀ k < el.pos.lz, ∀ j < el.pos.ly, ∀ i < el.pos.lx, a ≤ el.pos.dat d k j i ∧ el.pos.dat d k j i ≤ b) :
    a ≤ Spec.meanPos el d ∧ Spec.meanPos el d ≤ b := by
  have hp : (0 : F) < el.pos.lz * el.pos.ly * el.pos.lx := by positivity
  have hc : ∀ c : F, ∑ _k ∈ range el.pos.lz, ∑ _j ∈ range el.pos.ly, ∑ _i ∈ range el.pos.lx, c = c * (el.pos.lz * el.pos.ly * el.pos.lx) := by
    intro c
    simp only [sum_const, card_range, nsmul_eq_mul]
    ring
  constructor
  · unfold Spec.meanPos
    rw [le_div_iff₀ hp, ← hc]
    exact sum_le_sum fun k hk => sum_le_sum fun j hj => sum_le_sum fun i hi => (h k (mem_range.1 hk) j (mem_range.1 hj) i (mem_range.1 hi)).1
  · unfold Spec.meanPos
    rw [div_le_iff₀ hp, ← hc]
    exact sum_le_sum fun k hk => sum_le_sum fun j hj => sum_le_sum fun i hi => (h k (mem_range.1 hk) j (mem_range.1 hj) i (mem_range.1 hi)).2

/-- **C104**: it lies within the limits of the element. -/
theorem C104_between (el : Elem F) (hx : 0 < el.pos.lx) (hy : 0 < el.pos.ly) (hz : 0 < el.pos.lz) (x0 x1 y0 y1 z0 z1 : F)
    (h : ∀ k < el.pos.lz, ∀ j < el.pos.ly, ∀ i < el.pos.lx, (x0 ≤ el.pos.dat 0 k j i ∧ el.pos.dat 0 k j i ≤ x1) ∧
      (y0 ≤ el.pos.dat 1 k j i ∧ el.pos.dat 1 k j i ≤ y1) ∧ z0 ≤ el.pos.dat 2 k j i ∧ el.pos.dat 2 k j i ≤ z1) :
    (x0 ≤ el.centroid.x ∧ el.centroid.x ≤ x1) ∧ (y0 ≤ el.centroid.y ∧ el.centroid.y ≤ y1) ∧ z0 ≤ el.centroid.z ∧ el.centroid.z ≤ z1 := by
  rw [C104]
  exact ⟨meanPos_between el 0 hx hy hz _ _ fun k hk j hj i hi => (h k hk j hj i hi).1,
    meanPos_between el 1 hx hy hz _ _ fun k hk j hj i hi => (h k hk j hj i hi).2.1,
    meanPos_between el 2 hx hy hz _ _ fun k hk j hj i hi => (h k hk j hj i hi).2.2⟩

/-- **C104**: it is the centre of symmetry of an element that has one, as do boxes with the points of Gauss and Lobatto. -/
theorem C104_symmetric (el : Elem F) (hx : 0 < el.pos.lx) (hy : 0 < el.pos.ly) (hz : 0 < el.pos.lz) (c : V3 F)
    (h : ∀ k < el.pos.lz, ∀ j < el.pos.ly, ∀ i < el.pos.lx,
      el.pos.dat 0 k j i + el.pos.dat 0 (el.pos.lz - 1 - k) (el.pos.ly - 1 - j) (el.pos.lx - 1 - i) = 2 * c.x ∧
      el.pos.dat 1 k j i + el.pos.dat 1 (el.pos.lz - 1 - k) (el.pos.ly - 1 - j) (el.pos.lx - 1 - i) = 2 * c.y ∧
      el.pos.dat 2 k j i + el.pos.dat 2 (el.pos.lz - 1 - k) (el.pos.ly - 1 - j) (el.pos.lx - 1 - i) = 2 * c.z) : el.centroid = c := by
  have hp : (0 : F) < el.pos.lz * el.pos.ly * el.pos.lx := by positivity
  have key : ∀ d v, (∀ k < el.pos.lz, ∀ j < el.pos.ly, ∀ i < el.pos.lx,
      el.pos.dat d k j i + el.pos.dat d (el.pos.lz - 1 - k) (el.pos.ly - 1 - j) (el.pos.lx - 1 - i) = 2 * v) → Spec.meanPos el d = v := by
    intro d v hv
    have e1 : ∑ k ∈ range el.pos.lz, ∑ j ∈ range el.pos.ly, ∑ i ∈ range el.pos.lx, el.pos.dat d (el.pos.lz - 1 - k) (el.pos.ly - 1 - j) (el.pos.lx - 1 - i) =
        ∑ k ∈ range el.pos.lz, ∑ j ∈ range el.pos.ly, ∑ i ∈ range el.pos.lx, el.pos.dat d k j i := by
      rw [← sum_range_reflect]
      refine sum_congr rfl fun k hk => ?_
      rw [← sum_range_reflect]
      refine sum_congr rfl fun j hj => ?_
      rw [← sum_range_reflect]
      refine sum_congr rfl fun i hi => ?_
      rw [mem_range] at hk hj hi
      congr 1 <;> omega
    have e2 : ∑ k ∈ range el.pos.lz, ∑ j ∈ range el.pos.ly, ∑ i ∈ range el.pos.lx,
        (el.pos.dat d k j i + el.pos.dat d (el.pos.lz - 1 - k) (el.pos.ly - 1 - j) (el.pos.lx - 1 - i)) = 2 * v * (el.pos.lz * el.pos.ly * el.pos.lx) := by
      rw [sum_congr rfl fun k hk => sum_congr rfl fun j hj => sum_congr rfl fun i hi => hv k (mem_range.1 hk) j (mem_range.1 hj) i (mem_range.1 hi)]
      simp only [sum_const, card_range, nsmul_eq_mul]
      ring
    simp only [sum_add_distrib] at e2
    rw [e1] at e2
    unfold Spec.meanPos
    rw [div_eq_iff hp.ne']
    linarith
  rw [C104, key 0 c.x fun k hk j hj i hi => (h k hk j hj i hi).1, key 1 c.y fun k hk j hj i hi => (h k hk j hj i hi).2.1,
    key 2 c.z fun k hk j hj i hi => (h k hk j hj i hi).2.2]

end

example : (boxElem 2 (0 : ℚ) 4 0 2 0 6).centroid = ⟨2, 1, 3⟩ :=
  C104_symmetric _ (by decide) (by decide) (by decide) _ (by
    have : ∀ k < 2, ∀ j < 2, ∀ i < 2, (boxElem 2 (0 : ℚ) 4 0 2 0 6).pos.dat 0 k j i + (boxElem 2 (0 : ℚ) 4 0 2 0 6).pos.dat 0 (2 - 1 - k) (2 - 1 - j) (2 - 1 - i) = 2 * 2 ∧
      (boxElem 2 (0 : ℚ) 4 0 2 0 6).pos.dat 1 k j i + (boxElem 2 (0 : ℚ) 4 0 2 0 6).pos.dat 1 (2 - 1 - k) (2 - 1 - j) (2 - 1 - i) = 2 * 1 ∧
      (boxElem 2 (0 : ℚ) 4 0 2 0 6).pos.dat 2 k j i + (boxElem 2 (0 : ℚ) 4 0 2 0 6).pos.dat 2 (2 - 1 - k) (2 - 1 - j) (2 - 1 - i) = 2 * 3 := by decide +kernel
    exact this)

example : (0 : ℚ) ≤ (boxElem 1 (0 : ℚ) 4 0 2 0 0).centroid.x ∧ (boxElem 1 (0 : ℚ) 4 0 2 0 0).centroid.x ≤ 4 :=
  (C104_between (boxElem 1 (0 : ℚ) 4 0 2 0 0) (by decide) (by decide) (by decide) 0 4 0 2 0 0 (by decide +kernel)).1

end Pymech
