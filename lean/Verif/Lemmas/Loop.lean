import Verif.Lemmas.List
import Verif.Lemmas.Basic
import Mathlib.Tactic.Ring

/-! # Loops over ranges -/

set_option autoImplicit false

namespace Pymech

/-- Two nested loops as one. -/
theorem flatMap_range_map {α : Type} (a w : Nat) (g : Nat → Nat → α) :
    ((List.range a).flatMap fun i => (List.range w).map (g i)) = (List.range (a * w)).map fun n => g (n / w) (n % w) := by
  rcases Nat.eq_zero_or_pos w with rfl | hw
  · simp
  have hlen := length_flatMap_range a w (fun i => (List.range w).map (g i)) fun _ _ => by simp
  apply List.ext_getElem?
  intro n
  by_cases hn : n < a * w
  · have h1 : n / w < a := by
      rw [Nat.div_lt_iff_lt_mul hw]
      exact hn
    have h2 := getElem?_flatMap_range a w (fun i => (List.range w).map (g i)) (fun _ _ => by simp) (n / w) (n % w) h1 (Nat.mod_lt _ hw)
    rw [Nat.div_add_mod'] at h2
    rw [h2]
    simp [List.getElem?_range (Nat.mod_lt n hw), List.getElem?_range hn]
  · rw [List.getElem?_eq_none (by omega), List.getElem?_eq_none (by simpa using hn)]

/-- Three nested loops as one. -/
theorem prod3_range (a b c : Nat) : prod3 (List.range a) (List.range b) (List.range c)
    = (List.range (a * (b * c))).map fun n => (n / (b * c), n % (b * c) / c, n % (b * c) % c) := by
  unfold prod3
  simp only [flatMap_range_map]

/-- A loop which takes the state `S k` to `S (k + 1)`. -/
theorem foldlM_range {σ : Type} {f : σ → Nat → Py σ} (S : Nat → σ) (n : Nat) (h : ∀ k < n, f (S k) k = .ok (S (k + 1))) :
    (List.range n).foldlM f (S 0) = .ok (S n) := by
  induction n with
  | zero => rfl
  | succ n ih =>
    rw [List.range_succ, List.foldlM_append, ih fun k hk => h k (by omega)]
    change ([n].foldlM f (S n)) = _
    rw [List.foldlM_cons, h n (by omega)]
    rfl

/-- Three nested loops which take the state `S n` to `S (n + 1)`, `n` being the number of passes made. -/
theorem foldlM_prod3 {σ : Type} {f : σ → Nat × Nat × Nat → Py σ} (S : Nat → σ) (a b c : Nat)
    (h : ∀ z < a, ∀ y < b, ∀ x < c, f (S (z * (b * c) + y * c + x)) (z, y, x) = .ok (S (z * (b * c) + y * c + x + 1))) :
    (prod3 (List.range a) (List.range b) (List.range c)).foldlM f (S 0) = .ok (S (a * (b * c))) := by
  rw [prod3_range, List.foldlM_map]
  refine foldlM_range S _ fun n hn => ?_
  have hbc : 0 < b * c := by
    rcases Nat.eq_zero_or_pos (b * c) with h0 | h0
    · rw [h0] at hn
      simp at hn
    · exact h0
  have hc : 0 < c := Nat.pos_of_mul_pos_left hbc
  have h1 : n / (b * c) < a := (Nat.div_lt_iff_lt_mul hbc).2 hn
  have h2 : n % (b * c) / c < b := (Nat.div_lt_iff_lt_mul hc).2 (Nat.mod_lt _ hbc)
  have h3 : n % (b * c) % c < c := Nat.mod_lt _ hc
  have := h _ h1 _ h2 _ h3
  rwa [Nat.add_assoc, Nat.div_add_mod', Nat.div_add_mod'] at this

end Pymech
