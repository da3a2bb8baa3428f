import Mathlib.Tactic.Ring
import Mathlib.Data.List.Basic

/-!
# Lists made of pieces of equal length
-/

namespace Pymech

theorem getElem?_flatMap_range {α : Type} (n w : Nat) (g : Nat → List α) (hw : ∀ i < n, (g i).length = w) (i j : Nat)
    (hi : i < n) (hj : j < w) : ((List.range n).flatMap g)[i * w + j]? = (g i)[j]? := by
  induction n with
  | zero => omega
  | succ n ih =>
    rw [List.range_succ, List.flatMap_append]
    have hlen : ((List.range n).flatMap g).length = n * w := by
      clear ih hi
      have hw' : ∀ i < n, (g i).length = w := fun i hi => hw i (by omega)
      clear hw
      induction n with
      | zero => simp
      | succ n ih =>
        rw [List.range_succ, List.flatMap_append, List.length_append, ih (fun i hi => hw' i (by omega))]
        simp [hw' n (by omega), Nat.succ_mul]
    by_cases h : i = n
    · subst h
      rw [List.getElem?_append_right (by rw [hlen]; omega), hlen]
      simp
    · have hin : i < n := by omega
      have : i * w + j < n * w := by
        calc i * w + j < i * w + w := by omega
          _ = (i + 1) * w := by ring
          _ ≤ n * w := Nat.mul_le_mul_right _ hin
      rw [List.getElem?_append_left (by rw [hlen]; exact this)]
      exact ih (fun i hi => hw i (by omega)) hin

theorem length_flatMap_range {α : Type} (n w : Nat) (g : Nat → List α) (hw : ∀ i < n, (g i).length = w) :
    ((List.range n).flatMap g).length = n * w := by
  induction n with
  | zero => simp
  | succ n ih =>
    rw [List.range_succ, List.flatMap_append, List.length_append, ih (fun i hi => hw i (by omega))]
    simp [hw n (by omega), Nat.succ_mul]

/-- The whole list from its pieces: position of an index. -/
theorem row_lt {i j n w : Nat} (hi : i < n) (hj : j < w) : i * w + j < n * w := by
  calc i * w + j < i * w + w := by omega
    _ = (i + 1) * w := by ring
    _ ≤ n * w := Nat.mul_le_mul_right _ hi

end Pymech
