import Verif.Props.CircleGeom
import Mathlib.Analysis.SpecialFunctions.Trigonometric.Bounds

/-!
# Where the faces on the boundaries of the blocks of `gen_circle` are

Plane geometry only: the centres of different faces are far apart compared with the size of the faces.
-/

set_option autoImplicit false

namespace Pymech

open Spec

namespace Spec

/-- Faces on the boundaries of the blocks: on the square, on the diagonals between the quarters and on the circle. -/
inductive Key
  | side (q j : Nat)
  | diag (q i : Nat)
  | arc (q j : Nat)
  deriving DecidableEq

/-- The face exists. -/
def Key.Ok (ns no : Nat) : Key → Prop
  | .side q j => q < 4 ∧ j < ns
  | .diag q i => q < 4 ∧ i < no
  | .arc q j => q < 4 ∧ j < ns

/-- Distance from the centre on the diagonals. -/
def radius (r s : ℝ) (eta : Nat → ℝ) (i : Nat) : ℝ := s * r + eta i * (r - s * r)

/-- Centre of a face. -/
noncomputable def Key.centre (r s : ℝ) (ns : Nat) (eta : Nat → ℝ) : Key → ℝ × ℝ
  | .side q j => turn q (s * r * Real.sqrt 2 / 2, s * r * Real.sqrt 2 * (((j : ℝ) + 1 / 2) / ns - 1 / 2))
  | .diag q i => turn q ((radius r s eta i + radius r s eta (i + 1)) / 2 * (Real.sqrt 2 / 2), - ((radius r s eta i + radius r s eta (i + 1)) / 2 * (Real.sqrt 2 / 2)))
  | .arc q j => turn q (r / 2 * (Real.cos (rayAlpha ns j) + Real.cos (rayAlpha ns (j + 1))), r / 2 * (Real.sin (rayAlpha ns j) + Real.sin (rayAlpha ns (j + 1))))

/-- Bound of the size of the elements at a face. -/
noncomputable def Key.size (r s K : ℝ) (ns : Nat) (eta : Nat → ℝ) : Key → ℝ
  | .side _ _ => K * (s * r * Real.sqrt 2 / ns)
  | .diag _ i => radius r s eta (i + 1) - radius r s eta i
  | .arc _ _ => K * (s * r * Real.sqrt 2 / ns)

/-- Square of the distance in the plane. -/
def planeDist (p p' : ℝ × ℝ) : ℝ := (p'.1 - p.1) ^ 2 + (p'.2 - p.2) ^ 2

/-- A circle with increasing radii, not too elongated elements and some space between square and circle. -/
structure Round (r s K : ℝ) (ns no : Nat) (eta : Nat → ℝ) : Prop where
  rpos : 0 < r
  spos : 0 < s
  s1 : s < 1
  nspos : 0 < ns
  eta0 : 0 ≤ eta 0
  mono : ∀ i < no, eta i < eta (i + 1)
  Kpos : 0 < K
  K20 : K ≤ 20
  gap : K * s < 50 * (1 - s) * ns

end Spec

theorem turn_expl (q : Nat) (hq : q < 4) (p : ℝ × ℝ) :
    (q = 0 ∧ turn q p = p) ∨ (q = 1 ∧ turn q p = (-p.2, p.1)) ∨ (q = 2 ∧ turn q p = (-p.1, -p.2)) ∨ (q = 3 ∧ turn q p = (p.2, -p.1)) := by
  rcases (by omega : q = 0 ∨ q = 1 ∨ q = 2 ∨ q = 3) with rfl | rfl | rfl | rfl <;> simp [turn]

theorem planeDist_symm (p p' : ℝ × ℝ) : planeDist p p' = planeDist p' p := by unfold planeDist; ring

/-- The relative position of two turned points. -/
theorem planeDist_turn (q q' : Nat) (hq : q < 4) (hq' : q' < 4) (x y x' y' : ℝ) :
    (q = q' ∧ planeDist (turn q (x, y)) (turn q' (x', y')) = (x' - x) ^ 2 + (y' - y) ^ 2) ∨
    q ≠ q' ∧ ((planeDist (turn q (x, y)) (turn q' (x', y')) = (-y' - x) ^ 2 + (x' - y) ^ 2) ∨
    (planeDist (turn q (x, y)) (turn q' (x', y')) = (-x' - x) ^ 2 + (-y' - y) ^ 2) ∨
    (planeDist (turn q (x, y)) (turn q' (x', y')) = (y' - x) ^ 2 + (-x' - y) ^ 2)) := by
  rcases turn_expl q hq (x, y) with ⟨rfl, e⟩ | ⟨rfl, e⟩ | ⟨rfl, e⟩ | ⟨rfl, e⟩ <;>
    rcases turn_expl q' hq' (x', y') with ⟨rfl, e'⟩ | ⟨rfl, e'⟩ | ⟨rfl, e'⟩ | ⟨rfl, e'⟩ <;>
    rw [e, e'] <;> unfold planeDist <;> dsimp only <;>
    first
    | (left; refine ⟨rfl, ?_⟩; ring1)
    | (right; refine ⟨by decide, Or.inl ?_⟩; ring1)
    | (right; refine ⟨by decide, Or.inr (Or.inl ?_)⟩; ring1)
    | (right; refine ⟨by decide, Or.inr (Or.inr ?_)⟩; ring1)

section

variable {r s K : ℝ} {ns no : Nat} {eta : Nat → ℝ}

theorem radius_mono (H : Round r s K ns no eta) (i : Nat) (hi : i < no) : radius r s eta i < radius r s eta (i + 1) := by
  unfold radius
  have := H.mono i hi
  have : 0 < r - s * r := by have := H.rpos; have := H.s1; nlinarith
  nlinarith

theorem radius_le (H : Round r s K ns no eta) (i j : Nat) (hij : i ≤ j) (hj : j ≤ no) : radius r s eta i ≤ radius r s eta j := by
  induction hij with
  | refl => exact le_refl _
  | step _ ih => exact (ih (by omega)).trans (radius_mono H _ (by omega)).le

theorem radius_zero (H : Round r s K ns no eta) (i : Nat) (hi : i ≤ no) : s * r ≤ radius r s eta i := by
  refine le_trans ?_ (radius_le H 0 i (Nat.zero_le _) hi)
  unfold radius
  have : 0 < r - s * r := by have := H.rpos; have := H.s1; nlinarith
  have := H.eta0
  nlinarith

/-- Bounds of the centres of the arcs. -/
theorem arc_bounds (H : Round r s K ns no eta) (j : Nat) (hj : j < ns) :
    let x := r / 2 * (Real.cos (rayAlpha ns j) + Real.cos (rayAlpha ns (j + 1)))
    let y := r / 2 * (Real.sin (rayAlpha ns j) + Real.sin (rayAlpha ns (j + 1)))
    r * (Real.sqrt 2 / 2) ≤ x ∧ r * (Real.sqrt 2 / 2) / ns ≤ x - y ∧ r * (Real.sqrt 2 / 2) / ns ≤ x + y := by
  intro x y
  have hn : (0 : ℝ) < ns := by have := H.nspos; positivity
  have hpi := Real.pi_pos
  have ang : ∀ k ≤ ns, -(Real.pi / 4) ≤ rayAlpha ns k ∧ rayAlpha ns k ≤ Real.pi / 4 := by
    intro k hk
    have h0 : (0 : ℝ) ≤ (k : ℝ) / ns := by positivity
    have h1 : (k : ℝ) / ns ≤ 1 := by rw [div_le_one hn]; exact_mod_cast hk
    unfold rayAlpha
    constructor <;> nlinarith
  have cosb : ∀ k ≤ ns, Real.sqrt 2 / 2 ≤ Real.cos (rayAlpha ns k) := by
    intro k hk
    obtain ⟨a1, a2⟩ := ang k hk
    rw [← Real.cos_pi_div_four, ← Real.cos_abs (rayAlpha ns k)]
    apply Real.cos_le_cos_of_nonneg_of_le_pi (abs_nonneg _) (by linarith)
    exact abs_le.2 ⟨a1, a2⟩
  -- the angle from the diagonal
  have beta : ∀ k, rayAlpha ns k = Real.pi / 2 * ((k : ℝ) / ns) - Real.pi / 4 := by intro k; unfold rayAlpha; ring
  have sq2 : Real.sqrt 2 * Real.sqrt 2 = 2 := Real.mul_self_sqrt (by norm_num)
  have dif : ∀ k, Real.cos (rayAlpha ns k) - Real.sin (rayAlpha ns k) = Real.sqrt 2 * Real.cos (Real.pi / 2 * ((k : ℝ) / ns)) := by
    intro k
    rw [beta, Real.cos_sub, Real.sin_sub, Real.cos_pi_div_four, Real.sin_pi_div_four]
    ring
  have sum : ∀ k, Real.cos (rayAlpha ns k) + Real.sin (rayAlpha ns k) = Real.sqrt 2 * Real.sin (Real.pi / 2 * ((k : ℝ) / ns)) := by
    intro k
    rw [beta, Real.cos_sub, Real.sin_sub, Real.cos_pi_div_four, Real.sin_pi_div_four]
    ring
  have sinb : ∀ k ≤ ns, (k : ℝ) / ns ≤ Real.sin (Real.pi / 2 * ((k : ℝ) / ns)) := by
    intro k hk
    have h0 : (0 : ℝ) ≤ (k : ℝ) / ns := by positivity
    have h1 : (k : ℝ) / ns ≤ 1 := by rw [div_le_one hn]; exact_mod_cast hk
    have := Real.mul_le_sin (show 0 ≤ Real.pi / 2 * ((k : ℝ) / ns) by positivity) (by nlinarith)
    refine le_trans (le_of_eq ?_) this
    field_simp
  have cosc : ∀ k ≤ ns, 1 - (k : ℝ) / ns ≤ Real.cos (Real.pi / 2 * ((k : ℝ) / ns)) := by
    intro k hk
    have := sinb (ns - k) (by omega)
    rw [Nat.cast_sub hk] at this
    have e : ((ns : ℝ) - k) / ns = 1 - (k : ℝ) / ns := by field_simp
    rw [e, show Real.pi / 2 * (1 - (k : ℝ) / ns) = Real.pi / 2 - Real.pi / 2 * ((k : ℝ) / ns) by ring, Real.sin_pi_div_two_sub] at this
    exact this
  have hr := H.rpos
  have hs2 : 0 < Real.sqrt 2 := by positivity
  have hj1 : (0 : ℝ) ≤ (j : ℝ) := Nat.cast_nonneg _
  have one : 1 / (ns : ℝ) ≤ ((j + 1 : Nat) : ℝ) / ns := by
    apply div_le_div_of_nonneg_right _ hn.le
    push_cast; linarith
  have two : 1 / (ns : ℝ) ≤ 1 - (j : ℝ) / ns := by
    have : (j : ℝ) + 1 ≤ ns := by exact_mod_cast hj
    rw [le_sub_iff_add_le, ← add_div, div_le_one hn]
    linarith
  refine ⟨?_, ?_, ?_⟩
  · have a := cosb j hj.le
    have b := cosb (j + 1) hj
    have : r / 2 * (Real.sqrt 2 / 2 + Real.sqrt 2 / 2) ≤ x := mul_le_mul_of_nonneg_left (add_le_add a b) (by positivity)
    linarith
  · have a := cosc j hj.le
    have b : 0 ≤ Real.cos (Real.pi / 2 * (((j + 1 : Nat) : ℝ) / ns)) := by
      refine le_trans ?_ (cosc (j + 1) hj)
      rw [sub_nonneg, div_le_one hn]
      exact_mod_cast hj
    have e : x - y = r / 2 * (Real.sqrt 2 * (Real.cos (Real.pi / 2 * ((j : ℝ) / ns)) + Real.cos (Real.pi / 2 * (((j + 1 : Nat) : ℝ) / ns)))) := by
      rw [mul_add, ← dif, ← dif]
      simp only [x, y]
      ring
    rw [e]
    have : 1 / (ns : ℝ) ≤ Real.cos (Real.pi / 2 * ((j : ℝ) / ns)) + Real.cos (Real.pi / 2 * (((j + 1 : Nat) : ℝ) / ns)) := by linarith
    have h3 := mul_le_mul_of_nonneg_left this (show 0 ≤ r / 2 * Real.sqrt 2 by positivity)
    calc r * (Real.sqrt 2 / 2) / ns = r / 2 * Real.sqrt 2 * (1 / (ns : ℝ)) := by ring
      _ ≤ _ := h3
      _ = _ := by ring
  · have a := sinb (j + 1) hj
    have b : 0 ≤ Real.sin (Real.pi / 2 * ((j : ℝ) / ns)) := le_trans (by positivity) (sinb j hj.le)
    have e : x + y = r / 2 * (Real.sqrt 2 * (Real.sin (Real.pi / 2 * ((j : ℝ) / ns)) + Real.sin (Real.pi / 2 * (((j + 1 : Nat) : ℝ) / ns)))) := by
      rw [mul_add, ← sum, ← sum]
      simp only [x, y]
      ring
    rw [e]
    have : 1 / (ns : ℝ) ≤ Real.sin (Real.pi / 2 * ((j : ℝ) / ns)) + Real.sin (Real.pi / 2 * (((j + 1 : Nat) : ℝ) / ns)) := by linarith
    have h3 := mul_le_mul_of_nonneg_left this (show 0 ≤ r / 2 * Real.sqrt 2 by positivity)
    calc r * (Real.sqrt 2 / 2) / ns = r / 2 * Real.sqrt 2 * (1 / (ns : ℝ)) := by ring
      _ ≤ _ := h3
      _ = _ := by ring

/-- Arcs of one quarter are apart. -/
theorem arc_apart (H : Round r s K ns no eta) (j k : Nat) (hjk : j < k) (hk : k ≤ ns) :
    Real.sqrt 2 / 2 / ns ≤ Real.sin (rayAlpha ns k) - Real.sin (rayAlpha ns j) := by
  have hn : (0 : ℝ) < ns := by have := H.nspos; positivity
  have hpi := Real.pi_pos
  rw [Real.sin_sub_sin]
  have hj0 : (0 : ℝ) ≤ (j : ℝ) / ns := by positivity
  have hk1 : (k : ℝ) / ns ≤ 1 := by rw [div_le_one hn]; exact_mod_cast hk
  have hd : 1 / (ns : ℝ) ≤ (k : ℝ) / ns - (j : ℝ) / ns := by
    rw [← sub_div]
    apply div_le_div_of_nonneg_right _ hn.le
    have : (j : ℝ) + 1 ≤ k := by exact_mod_cast hjk
    linarith
  have e1 : (rayAlpha ns k - rayAlpha ns j) / 2 = Real.pi / 4 * ((k : ℝ) / ns - (j : ℝ) / ns) := by unfold rayAlpha; ring
  have e2 : (rayAlpha ns k + rayAlpha ns j) / 2 = Real.pi / 4 * ((k : ℝ) / ns + (j : ℝ) / ns - 1) := by unfold rayAlpha; ring
  have hn1 : 0 < 1 / (ns : ℝ) := by positivity
  have hsin : 1 / 2 * (1 / (ns : ℝ)) ≤ Real.sin ((rayAlpha ns k - rayAlpha ns j) / 2) := by
    rw [e1]
    refine le_trans ?_ (Real.mul_le_sin (by apply mul_nonneg (by positivity); linarith) (by nlinarith))
    have : 2 / Real.pi * (Real.pi / 4 * ((k : ℝ) / ns - (j : ℝ) / ns)) = 1 / 2 * ((k : ℝ) / ns - (j : ℝ) / ns) := by field_simp; ring
    rw [this]
    linarith
  have hcos : Real.sqrt 2 / 2 ≤ Real.cos ((rayAlpha ns k + rayAlpha ns j) / 2) := by
    rw [← Real.cos_pi_div_four, ← Real.cos_abs ((rayAlpha ns k + rayAlpha ns j) / 2)]
    apply Real.cos_le_cos_of_nonneg_of_le_pi (abs_nonneg _) (by linarith)
    rw [e2]
    apply abs_le.2
    constructor <;> nlinarith
  have hs2 : 0 < Real.sqrt 2 := by positivity
  have := mul_le_mul hsin hcos (by positivity) (le_trans (by positivity) hsin)
  calc Real.sqrt 2 / 2 / ns = 2 * (1 / 2 * (1 / (ns : ℝ)) * (Real.sqrt 2 / 2)) := by ring
    _ ≤ 2 * (Real.sin ((rayAlpha ns k - rayAlpha ns j) / 2) * Real.cos ((rayAlpha ns k + rayAlpha ns j) / 2)) := by linarith
    _ = _ := by ring

/-- The centres of the sides of the square. -/
theorem side_bounds (H : Round r s K ns no eta) (j : Nat) (hj : j < ns) :
    let c := s * r * Real.sqrt 2
    0 < c / ns ∧ c / ns ≤ c ∧ -(c / 2 - c / ns / 2) ≤ c * (((j : ℝ) + 1 / 2) / ns - 1 / 2) ∧ c * (((j : ℝ) + 1 / 2) / ns - 1 / 2) ≤ c / 2 - c / ns / 2 := by
  intro c
  have hn : (0 : ℝ) < ns := by have := H.nspos; positivity
  have hr := H.rpos
  have hs := H.spos
  have hc : 0 < c := by positivity
  have h1 : (1 : ℝ) ≤ ns := by exact_mod_cast H.nspos
  have hj0 : (0 : ℝ) ≤ (j : ℝ) := Nat.cast_nonneg _
  have hj1 : (j : ℝ) + 1 ≤ ns := by exact_mod_cast hj
  have e1 : c * (((j : ℝ) + 1 / 2) / ns - 1 / 2) = c / ns * j - (c / 2 - c / ns / 2) := by field_simp; ring
  have e2 : c / ns * ns = c := by field_simp
  have hh : 0 < c / ns := by positivity
  refine ⟨hh, ?_, ?_, ?_⟩
  · exact div_le_self hc.le h1
  · rw [e1]
    have := mul_nonneg hh.le hj0
    linarith
  · rw [e1]
    have := mul_le_mul_of_nonneg_left hj1 hh.le
    linarith

theorem sq_le_of {a b : ℝ} (ha : 0 ≤ a) (h : a ≤ b ∨ b ≤ -a) : a ^ 2 ≤ b ^ 2 := by
  rcases h with h | h <;> nlinarith

theorem sep_side_side (H : Round r s K ns no eta) (q j q' j' : Nat) (hq : q < 4) (hq' : q' < 4) (hj : j < ns) (hj' : j' < ns) (hne : q = q' → j ≠ j') :
    (s * r * Real.sqrt 2 / ns) ^ 2 / 2 ≤ planeDist ((Key.side q j).centre r s ns eta) ((Key.side q' j').centre r s ns eta) := by
  obtain ⟨h0, h1, l, u⟩ := side_bounds H j hj
  obtain ⟨-, -, l', u'⟩ := side_bounds H j' hj'
  simp only [Key.centre]
  generalize hc : s * r * Real.sqrt 2 = c at *
  have hn : (0 : ℝ) < ns := by have := H.nspos; positivity
  rcases planeDist_turn q q' hq hq' (c / 2) (c * (((j : ℝ) + 1 / 2) / ns - 1 / 2)) (c / 2) (c * (((j' : ℝ) + 1 / 2) / ns - 1 / 2)) with
    ⟨rfl, e⟩ | ⟨-, e | e | e⟩ <;> rw [e]
  · have e' : c * (((j' : ℝ) + 1 / 2) / ns - 1 / 2) - c * (((j : ℝ) + 1 / 2) / ns - 1 / 2) = c / ns * ((j' : ℝ) - j) := by field_simp; ring
    rw [e']
    have : (1 : ℝ) ^ 2 ≤ ((j' : ℝ) - j) ^ 2 := by
      apply sq_le_of (by norm_num)
      rcases Nat.lt_or_gt_of_ne (hne rfl) with h | h
      · left
        have : (j : ℝ) + 1 ≤ j' := by exact_mod_cast h
        linarith
      · right
        have : (j' : ℝ) + 1 ≤ j := by exact_mod_cast h
        linarith
    have h3 : (c / ns * ((j' : ℝ) - j)) ^ 2 = (c / ns) ^ 2 * ((j' : ℝ) - j) ^ 2 := by ring
    rw [h3]
    nlinarith [sq_nonneg (c / ns)]
  all_goals generalize c * (((j : ℝ) + 1 / 2) / ns - 1 / 2) = t at *
  all_goals generalize c * (((j' : ℝ) + 1 / 2) / ns - 1 / 2) = t' at *
  all_goals generalize c / (ns : ℝ) = h at *
  · have a1 : (h / 2) ^ 2 ≤ (-t' - c / 2) ^ 2 := sq_le_of (by linarith) (Or.inr (by linarith))
    have a2 : (h / 2) ^ 2 ≤ (c / 2 - t) ^ 2 := sq_le_of (by linarith) (Or.inl (by linarith))
    linarith
  · have a1 : c ^ 2 ≤ (-(c / 2) - c / 2) ^ 2 := sq_le_of (by linarith) (Or.inr (by linarith))
    have a2 : h ^ 2 ≤ c ^ 2 := sq_le_of h0.le (Or.inl h1)
    have := sq_nonneg (-t' - t)
    have := sq_nonneg h
    linarith
  · have a1 : (h / 2) ^ 2 ≤ (t' - c / 2) ^ 2 := sq_le_of (by linarith) (Or.inr (by linarith))
    have a2 : (h / 2) ^ 2 ≤ (-(c / 2) - t) ^ 2 := sq_le_of (by linarith) (Or.inr (by linarith))
    linarith

theorem sep_diag_diag (H : Round r s K ns no eta) (q i q' i' : Nat) (hq : q < 4) (hq' : q' < 4) (hi : i < no) (hi' : i' < no) (hne : q = q' → i ≠ i') :
    min (radius r s eta (i + 1) - radius r s eta i) (radius r s eta (i' + 1) - radius r s eta i') ^ 2 / 4 ≤
      planeDist ((Key.diag q i).centre r s ns eta) ((Key.diag q' i').centre r s ns eta) := by
  have p1 := radius_mono H i hi
  have p2 := radius_mono H i' hi'
  have z1 := radius_zero H i (by omega)
  have z2 := radius_zero H i' (by omega)
  have hsr : 0 < s * r := mul_pos H.spos H.rpos
  simp only [Key.centre]
  have sq2 : Real.sqrt 2 ^ 2 = 2 := Real.sq_sqrt (by norm_num)
  set d := radius r s eta i
  set d1 := radius r s eta (i + 1)
  set e0 := radius r s eta i'
  set e1 := radius r s eta (i' + 1)
  have hmin0 : 0 ≤ min (d1 - d) (e1 - e0) := le_min (by linarith) (by linarith)
  have hm1 : min (d1 - d) (e1 - e0) ≤ d1 - d := min_le_left _ _
  have hm2 : min (d1 - d) (e1 - e0) ≤ e1 - e0 := min_le_right _ _
  generalize min (d1 - d) (e1 - e0) = mm at *
  have far : mm ^ 2 / 4 ≤ ((d + d1) / 2) ^ 2 := by
    have : (mm / 2) ^ 2 ≤ ((d + d1) / 2) ^ 2 := sq_le_of (by linarith) (Or.inl (by linarith))
    linarith
  rcases planeDist_turn q q' hq hq' ((d + d1) / 2 * (Real.sqrt 2 / 2)) (-((d + d1) / 2 * (Real.sqrt 2 / 2))) ((e0 + e1) / 2 * (Real.sqrt 2 / 2))
    (-((e0 + e1) / 2 * (Real.sqrt 2 / 2))) with ⟨hqq, e⟩ | ⟨-, e | e | e⟩ <;> rw [e]
  · have e' : ((e0 + e1) / 2 * (Real.sqrt 2 / 2) - (d + d1) / 2 * (Real.sqrt 2 / 2)) ^ 2 + (-((e0 + e1) / 2 * (Real.sqrt 2 / 2)) - -((d + d1) / 2 * (Real.sqrt 2 / 2))) ^ 2 =
        Real.sqrt 2 ^ 2 / 2 * ((e0 + e1) / 2 - (d + d1) / 2) ^ 2 := by ring
    rw [e', sq2]
    have : mm ^ 2 ≤ ((e0 + e1) / 2 - (d + d1) / 2) ^ 2 := by
      apply sq_le_of hmin0
      rcases Nat.lt_or_gt_of_ne (hne hqq) with h | h
      · left
        have : d1 ≤ e0 := radius_le H (i + 1) i' h hi'.le
        linarith
      · right
        have : e1 ≤ d := radius_le H (i' + 1) i h hi.le
        linarith
    have := sq_nonneg mm
    linarith
  · have e' : (- -((e0 + e1) / 2 * (Real.sqrt 2 / 2)) - (d + d1) / 2 * (Real.sqrt 2 / 2)) ^ 2 + ((e0 + e1) / 2 * (Real.sqrt 2 / 2) - -((d + d1) / 2 * (Real.sqrt 2 / 2))) ^ 2 =
        Real.sqrt 2 ^ 2 / 2 * (((e0 + e1) / 2) ^ 2 + ((d + d1) / 2) ^ 2) := by ring
    rw [e', sq2]
    have := sq_nonneg ((e0 + e1) / 2)
    linarith
  · have e' : (-((e0 + e1) / 2 * (Real.sqrt 2 / 2)) - (d + d1) / 2 * (Real.sqrt 2 / 2)) ^ 2 + (- -((e0 + e1) / 2 * (Real.sqrt 2 / 2)) - -((d + d1) / 2 * (Real.sqrt 2 / 2))) ^ 2 =
        Real.sqrt 2 ^ 2 / 2 * (((e0 + e1) / 2) ^ 2 + ((d + d1) / 2) ^ 2 + (e0 + e1) * (d + d1) / 2) := by ring
    rw [e', sq2]
    have := sq_nonneg ((e0 + e1) / 2)
    have : 0 ≤ (e0 + e1) * (d + d1) := mul_nonneg (by linarith) (by linarith)
    linarith
  · have e' : (-((e0 + e1) / 2 * (Real.sqrt 2 / 2)) - (d + d1) / 2 * (Real.sqrt 2 / 2)) ^ 2 + (-((e0 + e1) / 2 * (Real.sqrt 2 / 2)) - -((d + d1) / 2 * (Real.sqrt 2 / 2))) ^ 2 =
        Real.sqrt 2 ^ 2 / 2 * (((e0 + e1) / 2) ^ 2 + ((d + d1) / 2) ^ 2) := by ring
    rw [e', sq2]
    have := sq_nonneg ((e0 + e1) / 2)
    linarith

theorem sep_side_diag (H : Round r s K ns no eta) (q j q' i : Nat) (hq : q < 4) (hq' : q' < 4) (hj : j < ns) (hi : i < no) :
    (s * r * Real.sqrt 2 / ns) ^ 2 / 4 ≤ planeDist ((Key.side q j).centre r s ns eta) ((Key.diag q' i).centre r s ns eta) := by
  obtain ⟨h0, h1, l, u⟩ := side_bounds H j hj
  have z1 := radius_zero H i (by omega)
  have z2 := radius_zero H (i + 1) (by omega)
  simp only [Key.centre]
  have hs2 : 0 < Real.sqrt 2 := by positivity
  have hrho : s * r * Real.sqrt 2 / 2 ≤ (radius r s eta i + radius r s eta (i + 1)) / 2 * (Real.sqrt 2 / 2) := by
    have := mul_le_mul_of_nonneg_right (show s * r ≤ (radius r s eta i + radius r s eta (i + 1)) / 2 by linarith) (show 0 ≤ Real.sqrt 2 / 2 by positivity)
    linarith
  generalize (radius r s eta i + radius r s eta (i + 1)) / 2 * (Real.sqrt 2 / 2) = p at *
  generalize hc : s * r * Real.sqrt 2 = c at *
  rcases planeDist_turn q q' hq hq' (c / 2) (c * (((j : ℝ) + 1 / 2) / ns - 1 / 2)) p (-p) with ⟨-, e⟩ | ⟨-, e | e | e⟩ <;> rw [e]
  all_goals generalize c * (((j : ℝ) + 1 / 2) / ns - 1 / 2) = t at *
  all_goals generalize c / (ns : ℝ) = h at *
  · have a : (h / 2) ^ 2 ≤ (-p - t) ^ 2 := sq_le_of (by linarith) (Or.inr (by linarith))
    have := sq_nonneg (p - c / 2)
    linarith
  · have a : (h / 2) ^ 2 ≤ (p - t) ^ 2 := sq_le_of (by linarith) (Or.inl (by linarith))
    have := sq_nonneg (- -p - c / 2)
    linarith
  · have a : (h / 2) ^ 2 ≤ (- -p - t) ^ 2 := sq_le_of (by linarith) (Or.inl (by linarith))
    have := sq_nonneg (-p - c / 2)
    linarith
  · have a : (h / 2) ^ 2 ≤ (-p - t) ^ 2 := sq_le_of (by linarith) (Or.inr (by linarith))
    have := sq_nonneg (-p - c / 2)
    linarith

theorem sep_arc_diag (H : Round r s K ns no eta) (q j q' i : Nat) (hq : q < 4) (hq' : q' < 4) (hj : j < ns) :
    (r / ns) ^ 2 / 4 ≤ planeDist ((Key.arc q j).centre r s ns eta) ((Key.diag q' i).centre r s ns eta) := by
  obtain ⟨-, b1, b2⟩ := arc_bounds H j hj
  simp only [Key.centre]
  have sq2 : Real.sqrt 2 ^ 2 = 2 := Real.sq_sqrt (by norm_num)
  have hs2 : 0 < Real.sqrt 2 := by positivity
  have hn : (0 : ℝ) < ns := by have := H.nspos; positivity
  have hr := H.rpos
  have ev : r * (Real.sqrt 2 / 2) / ns = r / ns * (Real.sqrt 2 / 2) := by ring
  rw [ev] at b1 b2
  have hv : 0 ≤ r / ns * (Real.sqrt 2 / 2) := by positivity
  have hvs : (r / ns * (Real.sqrt 2 / 2)) ^ 2 = (r / ns) ^ 2 / 2 := by
    rw [mul_pow, div_pow _ (2 : ℝ), sq2]; ring
  generalize r / 2 * (Real.cos (rayAlpha ns j) + Real.cos (rayAlpha ns (j + 1))) = x at *
  generalize r / 2 * (Real.sin (rayAlpha ns j) + Real.sin (rayAlpha ns (j + 1))) = y at *
  generalize (radius r s eta i + radius r s eta (i + 1)) / 2 * (Real.sqrt 2 / 2) = p at *
  generalize r / ns * (Real.sqrt 2 / 2) = v at *
  have m1 : v ^ 2 ≤ (x - y) ^ 2 := sq_le_of hv (Or.inl b1)
  have m2 : v ^ 2 ≤ (x + y) ^ 2 := sq_le_of hv (Or.inl b2)
  rcases planeDist_turn q q' hq hq' x y p (-p) with ⟨-, e⟩ | ⟨-, e | e | e⟩ <;> rw [e]
  · have : (p - x) ^ 2 + (-p - y) ^ 2 = (x + y) ^ 2 / 2 + (2 * p - x + y) ^ 2 / 2 := by ring
    have := sq_nonneg (2 * p - x + y)
    linarith
  · have : (- -p - x) ^ 2 + (p - y) ^ 2 = (x - y) ^ 2 / 2 + (2 * p - x - y) ^ 2 / 2 := by ring
    have := sq_nonneg (2 * p - x - y)
    linarith
  · have : (-p - x) ^ 2 + (- -p - y) ^ 2 = (x + y) ^ 2 / 2 + (2 * p + x - y) ^ 2 / 2 := by ring
    have := sq_nonneg (2 * p + x - y)
    linarith
  · have : (-p - x) ^ 2 + (-p - y) ^ 2 = (x - y) ^ 2 / 2 + (2 * p + x + y) ^ 2 / 2 := by ring
    have := sq_nonneg (2 * p + x + y)
    linarith

theorem sep_arc_arc (H : Round r s K ns no eta) (q j q' j' : Nat) (hq : q < 4) (hq' : q' < 4) (hj : j < ns) (hj' : j' < ns) (hne : q = q' → j ≠ j') :
    (r / ns) ^ 2 / 4 ≤ planeDist ((Key.arc q j).centre r s ns eta) ((Key.arc q' j').centre r s ns eta) := by
  obtain ⟨-, b1, b2⟩ := arc_bounds H j hj
  obtain ⟨-, c1, c2⟩ := arc_bounds H j' hj'
  simp only [Key.centre]
  have sq2 : Real.sqrt 2 ^ 2 = 2 := Real.sq_sqrt (by norm_num)
  have hs2 : 0 < Real.sqrt 2 := by positivity
  have hn : (0 : ℝ) < ns := by have := H.nspos; positivity
  have hr := H.rpos
  have ev : r * (Real.sqrt 2 / 2) / ns = r / ns * (Real.sqrt 2 / 2) := by ring
  rw [ev] at b1 b2 c1 c2
  have hv : 0 ≤ r / ns * (Real.sqrt 2 / 2) := by positivity
  have hvs : (r / ns * (Real.sqrt 2 / 2)) ^ 2 = (r / ns) ^ 2 / 2 := by
    rw [mul_pow, div_pow _ (2 : ℝ), sq2]; ring
  have same : ∀ j k : Nat, j < k → k < ns → r / ns * (Real.sqrt 2 / 2) ≤
      r / 2 * (Real.sin (rayAlpha ns k) + Real.sin (rayAlpha ns (k + 1))) - r / 2 * (Real.sin (rayAlpha ns j) + Real.sin (rayAlpha ns (j + 1))) := by
    intro j k hjk hk
    have a1 := arc_apart H j k hjk hk.le
    have a2 := arc_apart H (j + 1) (k + 1) (by omega) hk
    have := mul_le_mul_of_nonneg_left (add_le_add a1 a2) (show 0 ≤ r / 2 by positivity)
    have e : r / 2 * (Real.sqrt 2 / 2 / ns + Real.sqrt 2 / 2 / ns) = r / ns * (Real.sqrt 2 / 2) := by ring
    linarith
  rcases planeDist_turn q q' hq hq' (r / 2 * (Real.cos (rayAlpha ns j) + Real.cos (rayAlpha ns (j + 1)))) (r / 2 * (Real.sin (rayAlpha ns j) + Real.sin (rayAlpha ns (j + 1))))
    (r / 2 * (Real.cos (rayAlpha ns j') + Real.cos (rayAlpha ns (j' + 1)))) (r / 2 * (Real.sin (rayAlpha ns j') + Real.sin (rayAlpha ns (j' + 1)))) with
    ⟨hqq, e⟩ | ⟨-, e | e | e⟩ <;> rw [e]
  · have : (r / ns * (Real.sqrt 2 / 2)) ^ 2 ≤
        (r / 2 * (Real.sin (rayAlpha ns j') + Real.sin (rayAlpha ns (j' + 1))) - r / 2 * (Real.sin (rayAlpha ns j) + Real.sin (rayAlpha ns (j + 1)))) ^ 2 := by
      apply sq_le_of hv
      rcases Nat.lt_or_gt_of_ne (hne hqq) with h | h
      · exact Or.inl (same j j' h hj')
      · right
        have := same j' j h hj
        linarith
    have := sq_nonneg (r / 2 * (Real.cos (rayAlpha ns j') + Real.cos (rayAlpha ns (j' + 1))) - r / 2 * (Real.cos (rayAlpha ns j) + Real.cos (rayAlpha ns (j + 1))))
    have := sq_nonneg (r / ns)
    linarith
  all_goals clear same hne
  all_goals generalize r / 2 * (Real.cos (rayAlpha ns j) + Real.cos (rayAlpha ns (j + 1))) = x at *
  all_goals generalize r / 2 * (Real.sin (rayAlpha ns j) + Real.sin (rayAlpha ns (j + 1))) = y at *
  all_goals generalize r / 2 * (Real.cos (rayAlpha ns j') + Real.cos (rayAlpha ns (j' + 1))) = x' at *
  all_goals generalize r / 2 * (Real.sin (rayAlpha ns j') + Real.sin (rayAlpha ns (j' + 1))) = y' at *
  all_goals generalize r / ns * (Real.sqrt 2 / 2) = v at *
  · have m : v ^ 2 ≤ (x - y + (x' + y')) ^ 2 := sq_le_of hv (Or.inl (by linarith))
    have : (-y' - x) ^ 2 + (x' - y) ^ 2 = (x - y + (x' + y')) ^ 2 / 2 + (-y' - x + (x' - y)) ^ 2 / 2 := by ring
    have := sq_nonneg (-y' - x + (x' - y))
    linarith
  · have m : v ^ 2 ≤ (x - y + (x' - y')) ^ 2 := sq_le_of hv (Or.inl (by linarith))
    have : (-x' - x) ^ 2 + (-y' - y) ^ 2 = (x - y + (x' - y')) ^ 2 / 2 + (-x' - x + (-y' - y)) ^ 2 / 2 := by ring
    have := sq_nonneg (-x' - x + (-y' - y))
    linarith
  · have m : v ^ 2 ≤ (x + y + (x' - y')) ^ 2 := sq_le_of hv (Or.inl (by linarith))
    have : (y' - x) ^ 2 + (-x' - y) ^ 2 = (x + y + (x' - y')) ^ 2 / 2 + (y' - x - (-x' - y)) ^ 2 / 2 := by ring
    have := sq_nonneg (y' - x - (-x' - y))
    linarith

theorem sep_side_arc (H : Round r s K ns no eta) (q j q' j' : Nat) (hq : q < 4) (hq' : q' < 4) (hj : j < ns) (hj' : j' < ns) :
    (r * (1 - s)) ^ 2 / 2 ≤ planeDist ((Key.side q j).centre r s ns eta) ((Key.arc q' j').centre r s ns eta) := by
  obtain ⟨h0, h1, l, u⟩ := side_bounds H j hj
  obtain ⟨b0, -, -⟩ := arc_bounds H j' hj'
  simp only [Key.centre]
  have sq2 : Real.sqrt 2 ^ 2 = 2 := Real.sq_sqrt (by norm_num)
  have hs2 : 0 < Real.sqrt 2 := by positivity
  have hr := H.rpos
  have hs1 := H.s1
  have hg : 0 ≤ r * (1 - s) * (Real.sqrt 2 / 2) := mul_nonneg (mul_nonneg hr.le (by linarith)) (by positivity)
  have eg : (r * (1 - s)) ^ 2 / 2 = (r * (1 - s) * (Real.sqrt 2 / 2)) ^ 2 := by rw [mul_pow _ (Real.sqrt 2 / 2), div_pow _ (2 : ℝ), sq2]; ring
  have ec : r * (Real.sqrt 2 / 2) = r * (1 - s) * (Real.sqrt 2 / 2) + s * r * Real.sqrt 2 / 2 := by ring
  rw [ec] at b0
  rw [eg]
  generalize r * (1 - s) * (Real.sqrt 2 / 2) = g at *
  generalize r / 2 * (Real.cos (rayAlpha ns j') + Real.cos (rayAlpha ns (j' + 1))) = x at *
  generalize r / 2 * (Real.sin (rayAlpha ns j') + Real.sin (rayAlpha ns (j' + 1))) = y at *
  generalize hc : s * r * Real.sqrt 2 = c at *
  rcases planeDist_turn q q' hq hq' (c / 2) (c * (((j : ℝ) + 1 / 2) / ns - 1 / 2)) x y with ⟨-, e⟩ | ⟨-, e | e | e⟩ <;> rw [e]
  all_goals generalize c * (((j : ℝ) + 1 / 2) / ns - 1 / 2) = t at *
  all_goals generalize c / (ns : ℝ) = h at *
  · have := sq_le_of hg (b := x - c / 2) (Or.inl (by linarith))
    have := sq_nonneg (y - t)
    linarith
  · have := sq_le_of hg (b := x - t) (Or.inl (by linarith))
    have := sq_nonneg (-y - c / 2)
    linarith
  · have := sq_le_of hg (b := -x - c / 2) (Or.inr (by linarith))
    have := sq_nonneg (-y - t)
    linarith
  · have := sq_le_of hg (b := -x - t) (Or.inr (by linarith))
    have := sq_nonneg (y - c / 2)
    linarith

/-- The centres of different faces are further apart than a hundredth of the size of the elements. -/
theorem key_sep (H : Round r s K ns no eta) (k k' : Key) (hk : k.Ok ns no) (hk' : k'.Ok ns no) (hne : k ≠ k') :
    (1 / 100) ^ 2 * min (k.size r s K ns eta ^ 2) (k'.size r s K ns eta ^ 2) < planeDist (k.centre r s ns eta) (k'.centre r s ns eta) := by
  have hn : (0 : ℝ) < ns := by have := H.nspos; positivity
  have hr := H.rpos
  have hs := H.spos
  have hs1 := H.s1
  have hK := H.Kpos
  have hK20 := H.K20
  have sq2 : Real.sqrt 2 ^ 2 = 2 := Real.sq_sqrt (by norm_num)
  have hh : 0 < s * r * Real.sqrt 2 / ns := by positivity
  have hKK : K ^ 2 ≤ 400 := by nlinarith
  have hh2 : 0 < (s * r * Real.sqrt 2 / ns) ^ 2 := by positivity
  -- the bound of the size, compared with the radius
  have sizeh : (K * (s * r * Real.sqrt 2 / ns)) ^ 2 ≤ 400 * (s * r * Real.sqrt 2 / ns) ^ 2 := by
    rw [mul_pow]
    exact mul_le_mul_of_nonneg_right hKK hh2.le
  have sizer : (K * (s * r * Real.sqrt 2 / ns)) ^ 2 < 1000 * (r / ns) ^ 2 := by
    have e : (s * r * Real.sqrt 2 / ns) ^ 2 = 2 * s ^ 2 * (r / ns) ^ 2 := by rw [div_pow, mul_pow, sq2, div_pow]; ring
    rw [e] at sizeh
    have h1 : 0 < (r / ns) ^ 2 := by positivity
    have h2 : s ^ 2 < 1 := by nlinarith
    nlinarith
  have sizeg : (1 / 100) ^ 2 * (K * (s * r * Real.sqrt 2 / ns)) ^ 2 < (r * (1 - s)) ^ 2 / 2 := by
    have e : (1 / 100 : ℝ) ^ 2 * (K * (s * r * Real.sqrt 2 / ns)) ^ 2 = (r * (K * s / (50 * ns))) ^ 2 / 2 := by
      rw [mul_pow K, div_pow (s * r * Real.sqrt 2), mul_pow _ (Real.sqrt 2), sq2]
      field_simp
      norm_num
    rw [e]
    have h1 : K * s / (50 * ns) < 1 - s := by
      rw [div_lt_iff₀ (by positivity)]
      have := H.gap
      linarith
    have h2 : 0 ≤ r * (K * s / (50 * ns)) := by positivity
    have h3 : r * (K * s / (50 * ns)) < r * (1 - s) := mul_lt_mul_of_pos_left h1 hr
    nlinarith
  have ml := fun a b : ℝ => mul_le_mul_of_nonneg_left (min_le_left a b) (show (0 : ℝ) ≤ (1 / 100) ^ 2 by norm_num)
  have mr := fun a b : ℝ => mul_le_mul_of_nonneg_left (min_le_right a b) (show (0 : ℝ) ≤ (1 / 100) ^ 2 by norm_num)
  have hrn : 0 < (r / ns) ^ 2 := by positivity
  cases k with
  | side q j =>
    obtain ⟨hq, hj⟩ := hk
    cases k' with
    | side q' j' =>
      obtain ⟨hq', hj'⟩ := hk'
      have := sep_side_side H q j q' j' hq hq' hj hj' (by rintro rfl rfl; exact hne rfl)
      refine lt_of_lt_of_le ((ml _ _).trans_lt ?_) this
      unfold Key.size
      linarith
    | diag q' i =>
      obtain ⟨hq', hi⟩ := hk'
      have := sep_side_diag H q j q' i hq hq' hj hi
      refine lt_of_lt_of_le ((ml _ _).trans_lt ?_) this
      unfold Key.size
      linarith
    | arc q' j' =>
      obtain ⟨hq', hj'⟩ := hk'
      have := sep_side_arc H q j q' j' hq hq' hj hj'
      refine lt_of_lt_of_le ((ml _ _).trans_lt ?_) this
      unfold Key.size
      exact sizeg
  | diag q i =>
    obtain ⟨hq, hi⟩ := hk
    cases k' with
    | side q' j' =>
      obtain ⟨hq', hj'⟩ := hk'
      have := sep_side_diag H q' j' q i hq' hq hj' hi
      rw [planeDist_symm]
      refine lt_of_lt_of_le ((mr _ _).trans_lt ?_) this
      unfold Key.size
      linarith
    | diag q' i' =>
      obtain ⟨hq', hi'⟩ := hk'
      have := sep_diag_diag H q i q' i' hq hq' hi hi' (by rintro rfl rfl; exact hne rfl)
      refine lt_of_lt_of_le ?_ this
      unfold Key.size
      have p1 := radius_mono H i hi
      have p2 := radius_mono H i' hi'
      have hm : 0 < min (radius r s eta (i + 1) - radius r s eta i) (radius r s eta (i' + 1) - radius r s eta i') := lt_min (by linarith) (by linarith)
      have e : min ((radius r s eta (i + 1) - radius r s eta i) ^ 2) ((radius r s eta (i' + 1) - radius r s eta i') ^ 2) =
          min (radius r s eta (i + 1) - radius r s eta i) (radius r s eta (i' + 1) - radius r s eta i') ^ 2 := by
        rcases le_total (radius r s eta (i + 1) - radius r s eta i) (radius r s eta (i' + 1) - radius r s eta i') with h | h
        · rw [min_eq_left h, min_eq_left (sq_le_of (by linarith) (Or.inl h))]
        · rw [min_eq_right h, min_eq_right (sq_le_of (by linarith) (Or.inl h))]
      rw [e]
      have := pow_pos hm 2
      linarith
    | arc q' j' =>
      obtain ⟨hq', hj'⟩ := hk'
      have := sep_arc_diag H q' j' q i hq' hq hj'
      rw [planeDist_symm]
      refine lt_of_lt_of_le ((mr _ _).trans_lt ?_) this
      unfold Key.size
      linarith
  | arc q j =>
    obtain ⟨hq, hj⟩ := hk
    cases k' with
    | side q' j' =>
      obtain ⟨hq', hj'⟩ := hk'
      have := sep_side_arc H q' j' q j hq' hq hj' hj
      rw [planeDist_symm]
      refine lt_of_lt_of_le ((mr _ _).trans_lt ?_) this
      unfold Key.size
      exact sizeg
    | diag q' i =>
      obtain ⟨hq', hi⟩ := hk'
      have := sep_arc_diag H q j q' i hq hq' hj
      refine lt_of_lt_of_le ((ml _ _).trans_lt ?_) this
      unfold Key.size
      linarith
    | arc q' j' =>
      obtain ⟨hq', hj'⟩ := hk'
      have := sep_arc_arc H q j q' j' hq hq' hj hj' (by rintro rfl rfl; exact hne rfl)
      refine lt_of_lt_of_le ((ml _ _).trans_lt ?_) this
      unfold Key.size
      linarith

end

end Pymech
