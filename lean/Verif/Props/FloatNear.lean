import Verif.Lemmas.FloatDist
import Verif.Props.FloatCheck

/-!
# C136: how accurate the distances in `check_connectivity` are
-/

set_option autoImplicit false

namespace Pymech

open Spec Flt

/-- An array with its doubles replaced by their values. -/
def Arr.vals (a : Arr F64) : Arr ℚ := ⟨a.n, a.lz, a.ly, a.lx, fun d k j i => (a.dat d k j i).val⟩

/-- An element with its doubles replaced by their values. -/
def Elem.vals (el : Elem F64) : Elem ℚ :=
  ⟨el.pos.vals, el.vel.vals, el.pres.vals, el.temp.vals, el.scal.vals, fun e c => (el.curv e c).val, el.ccurv, el.rows, fun b f => (el.bcs b f).vals⟩

namespace Spec

/-- Accuracy of the C library: squares of numbers up to `2 ^ 450` and all roots, with relative errors of two units in the last place. -/
structure LibmAccurate (L : Libm) : Prop where
  sq : ∀ x : F64, x.Finite → |x.val| ≤ 2 ^ 450 → (L.sq x).Finite ∧ 0 ≤ (L.sq x).val ∧ |(L.sq x).val - x.val ^ 2| ≤ x.val ^ 2 / 2 ^ 52 + 1 / 2 ^ 1074
  sqrt : ∀ x : F64, x.Finite → 0 ≤ x.val → (L.sqrt x).Finite ∧ 0 ≤ (L.sqrt x).val ∧ |(L.sqrt x).val ^ 2 - x.val| ≤ x.val / 2 ^ 51

/-- All coordinates are finite and at most `X`. -/
def Tame (M : HexaData F64) (X : ℚ) : Prop :=
  ∀ el ∈ M.elem, ∀ d < 3, ∀ k < el.pos.lz, ∀ j < el.pos.ly, ∀ i < el.pos.lx, (el.pos.dat d k j i).Finite ∧ |(el.pos.dat d k j i).val| ≤ X

/-- Distance of the exact centres of two faces. -/
noncomputable def faceGap (M : HexaData F64) (x y : Face) : ℝ :=
  Real.sqrt ((((faceMean (M.el y.1).vals y.2 0 - faceMean (M.el x.1).vals x.2 0) ^ 2 +
    (faceMean (M.el y.1).vals y.2 1 - faceMean (M.el x.1).vals x.2 1) ^ 2 + (faceMean (M.el y.1).vals y.2 2 - faceMean (M.el x.1).vals x.2 2) ^ 2 : ℚ)) : ℝ)

/-- The exact number behind the smaller one of the lengths reported by `smallest_edge` for the elements of `x` and `y` is `s`. -/
def EdgeOf (M : HexaData F64) (x y : Face) (s : ℝ) : Prop :=
  ∃ s0 s1 : ℚ, (M.el x.1).vals.smallestEdgeSq = .ok s0 ∧ (M.el y.1).vals.smallestEdgeSq = .ok s1 ∧ s = min (Real.sqrt s0) (Real.sqrt s1)

/-- The gap is at most `t` times the smallest edge, up to rounding. -/
def NearUpTo (M : HexaData F64) (X t : ℚ) (x y : Face) : Prop :=
  ∃ s, EdgeOf M x y s ∧ faceGap M x y ≤ t * s + t * s / 2 ^ 45 + X / 2 ^ 47 + (1 + t) / 2 ^ 500

/-- The gap is at most `t` times the smallest edge, with a margin for rounding. -/
def NearBy (M : HexaData F64) (X t : ℚ) (x y : Face) : Prop :=
  ∃ s, EdgeOf M x y s ∧ faceGap M x y + faceGap M x y / 2 ^ 45 + X / 2 ^ 47 + (1 + t) / 2 ^ 500 ≤ t * s

end Spec

/-- The constants. -/
theorem dist_abstract (L : Libm) (hL : LibmAccurate L) : ∃ H η θ : ℚ, H = 2 ^ 400 ∧ 0 ≤ θ ∧ 32 * η ≤ θ ^ 2 ∧ η ≤ θ ∧ 64 * θ ≤ 1 / 2 ^ 500 ∧ Rnd H η ∧ LibmRnd L H η := by
  refine ⟨2 ^ 400, 1 / 2 ^ 1074, 1 / 2 ^ 510, rfl, by positivity, ?_, ?_, ?_, ⟨one_le_pow₀ (by norm_num), by positivity, ?_, ?_⟩, ⟨?_, hL.sqrt⟩⟩
  · rw [div_pow, one_pow, ← pow_mul, mul_one_div, div_le_div_iff₀ (by positivity) (by positivity), one_mul, show (32 : ℚ) = 2 ^ 5 by norm_num, ← pow_add]
    exact pow_le_pow_right₀ (by norm_num) (by norm_num)
  · exact one_div_le_one_div_of_le (by positivity) (pow_le_pow_right₀ (by norm_num) (by norm_num))
  · rw [mul_one_div, div_le_div_iff₀ (by positivity) (by positivity), one_mul, show (64 : ℚ) = 2 ^ 6 by norm_num, ← pow_add]
    exact pow_le_pow_right₀ (by norm_num) (by norm_num)
  · exact one_div_le_one_div_of_le (by positivity) (pow_le_pow_right₀ (by norm_num) (by norm_num))
  · intro z q h
    rw [← pow_mul, ← pow_add] at h
    have h' : |q| ≤ 2 ^ 1000 := h.trans (pow_le_pow_right₀ (by norm_num) (by norm_num))
    refine ⟨ofQ_fin z q h', (ofQ_err z q h').trans (add_le_add_right ?_ _)⟩
    exact one_div_le_one_div_of_le (by positivity) (pow_le_pow_right₀ (by norm_num) (by norm_num))
  · intro x hx h
    rw [← pow_add] at h
    exact hL.sq x hx h

section
variable {H η X : ℚ} {M : HexaData F64}

theorem corner_tame (hT : Tame M X) (el : Elem F64) (hel : el ∈ M.elem) (g : 2 ≤ el.pos.lx ∧ 2 ≤ el.pos.ly ∧ 1 ≤ el.pos.lz) (sx sy sz : Bool)
    (d : Nat) (hd : d < 3) : (Spec.corner el sx sy sz d).Finite ∧ |(Spec.corner el sx sy sz d).val| ≤ X := by
  unfold Spec.corner
  exact hT el hel d hd _ (by split <;> omega) _ (by split <;> omega) _ (by split <;> omega)

theorem coord_tame (hT : Tame M X) (el : Elem F64) (hel : el ∈ M.elem) (g : 2 ≤ el.pos.lx ∧ 2 ≤ el.pos.ly ∧ 1 ≤ el.pos.lz) (f : Nat) (a b : Bool)
    (d : Nat) (hd : d < 3) : (faceCoord el f a b d).Finite ∧ |(faceCoord el f a b d).val| ≤ X := by
  unfold faceCoord
  split <;> exact corner_tame hT el hel g _ _ _ d hd

theorem coord_vals (el : Elem F64) (f : Nat) (a b : Bool) (d : Nat) : faceCoord el.vals f a b d = (faceCoord el f a b d).val := by
  unfold faceCoord
  split <;> rfl

/-- The computed centre of a face. -/
theorem centre_near (R : Rnd H η) (hX : X ≤ H) (hT : Tame M X) (el : Elem F64) (hel : el ∈ M.elem)
    (g : 2 ≤ el.pos.lx ∧ 2 ≤ el.pos.ly ∧ 1 ≤ el.pos.lz) (f : Nat) (hf : f < 6) :
    ∃ c : V3 F64, el.faceCenter f = .ok c ∧ c.Tame (4 * H) ∧ |c.x.val - faceMean el.vals f 0| ≤ X / 2 ^ 50 + 4 * η ∧
      |c.y.val - faceMean el.vals f 1| ≤ X / 2 ^ 50 + 4 * η ∧ |c.z.val - faceMean el.vals f 2| ≤ X / 2 ^ 50 + 4 * η := by
  have H1 := R.H1
  have η0 := R.η0
  have η1 := R.η1
  have key : ∀ d < 3, (1 / 4 * (faceCoord el f false false d + faceCoord el f false true d + faceCoord el f true false d + faceCoord el f true true d) : F64).Finite ∧
      |(1 / 4 * (faceCoord el f false false d + faceCoord el f false true d + faceCoord el f true false d + faceCoord el f true true d) : F64).val
        - faceMean el.vals f d| ≤ X / 2 ^ 50 + 4 * η ∧
      |(1 / 4 * (faceCoord el f false false d + faceCoord el f false true d + faceCoord el f true false d + faceCoord el f true true d) : F64).val| ≤ 4 * H := by
    intro d hd
    obtain ⟨f1, a1⟩ := coord_tame hT el hel g f false false d hd
    obtain ⟨f2, a2⟩ := coord_tame hT el hel g f false true d hd
    obtain ⟨f3, a3⟩ := coord_tame hT el hel g f true false d hd
    obtain ⟨f4, a4⟩ := coord_tame hT el hel g f true true d hd
    obtain ⟨m1, m2⟩ := mean_near R hX f1 f2 f3 f4 a1 a2 a3 a4
    have e : faceMean el.vals f d = ((faceCoord el f false false d).val + (faceCoord el f false true d).val + (faceCoord el f true false d).val
        + (faceCoord el f true true d).val) / 4 := by
      unfold faceMean
      simp only [coord_vals]
    rw [e]
    refine ⟨m1, m2, ?_⟩
    have := abs_le.mp m2
    have := abs_le.mp a1
    have := abs_le.mp a2
    have := abs_le.mp a3
    have := abs_le.mp a4
    norm_num at *
    refine abs_le.mpr ⟨?_, ?_⟩ <;> linarith
  obtain ⟨x1, x2, x3⟩ := key 0 (by norm_num)
  obtain ⟨y1, y2, y3⟩ := key 1 (by norm_num)
  obtain ⟨z1, z2, z3⟩ := key 2 (by norm_num)
  exact ⟨_, faceCenter_coords el f hf (by omega) (by omega) (by omega), ⟨x1, y1, z1, x3, y3, z3⟩, x2, y2, z2⟩

/-- The computed smallest edge. -/
theorem edge_near (R : Rnd H η) {L : Libm} (hL : LibmRnd L H η) (hX : X ≤ H) (hT : Tame M X) (el : Elem F64) (hel : el ∈ M.elem)
    (g : 2 ≤ el.pos.lx ∧ 2 ≤ el.pos.ly ∧ 1 ≤ el.pos.lz) :
    ∃ (m : F64) (s : ℚ), el.smallestEdgeF L = .ok m ∧ el.vals.smallestEdgeSq = .ok s ∧ m.Finite ∧ 0 ≤ m.val ∧ 0 ≤ s ∧ s ≤ 192 * H ^ 2 ∧
      s - (s / 2 ^ 48 + 32 * η) ≤ m.val ^ 2 ∧ m.val ^ 2 ≤ s + (s / 2 ^ 48 + 32 * η) := by
  have H1 := R.H1
  have pt : ∀ k < el.pos.lz, ∀ j < 2, ∀ i < 2, (el.pt k j i).Tame X := by
    intro k hk j hj i hi
    have h := fun d hd => hT el hel d hd k hk j (by omega) i (by omega)
    exact ⟨(h 0 (by norm_num)).1, (h 1 (by norm_num)).1, (h 2 (by norm_num)).1, (h 0 (by norm_num)).2, (h 1 (by norm_num)).2, (h 2 (by norm_num)).2⟩
  have d : ∀ {k j i k' j' i' : Nat}, k < el.pos.lz → j < 2 → i < 2 → k' < el.pos.lz → j' < 2 → i' < 2 →
      NearSq H η (sumSqF L (el.pt k j i) (el.pt k' j' i')) (distSq (el.vals.pt k j i) (el.vals.pt k' j' i')) :=
    fun hk hj hi hk' hj' hi' => sumSq_near R hL (by linarith) (pt _ hk _ hj _ hi) (pt _ hk' _ hj' _ hi')
  have fin : ∀ (x : F64) (s : ℚ), NearSq H η x s → ∃ (m : F64), L.sqrt x = m ∧ m.Finite ∧ 0 ≤ m.val ∧ 0 ≤ s ∧ s ≤ 192 * H ^ 2 ∧
      s - (s / 2 ^ 48 + 32 * η) ≤ m.val ^ 2 ∧ m.val ^ 2 ≤ s + (s / 2 ^ 48 + 32 * η) := by
    intro x s h
    obtain ⟨r1, r2, r3, r4⟩ := root_near hL R h
    exact ⟨_, rfl, r1, r2, h.qpos, h.size, r3, r4⟩
  have z0 : 0 < el.pos.lz := by omega
  have base : List.Forall₂ (NearSq H η) [sumSqF L (el.pt 0 0 1) (el.pt 0 1 0), sumSqF L (el.pt 0 1 0) (el.pt 0 1 1), sumSqF L (el.pt 0 1 1) (el.pt 0 0 0)]
      [distSq (el.vals.pt 0 0 1) (el.vals.pt 0 1 0), distSq (el.vals.pt 0 1 0) (el.vals.pt 0 1 1), distSq (el.vals.pt 0 1 1) (el.vals.pt 0 0 0)] :=
    .cons (d z0 (by norm_num) (by norm_num) z0 (by norm_num) (by norm_num)) (.cons (d z0 (by norm_num) (by norm_num) z0 (by norm_num) (by norm_num))
      (.cons (d z0 (by norm_num) (by norm_num) z0 (by norm_num) (by norm_num)) .nil))
  have first := d z0 (show 0 < 2 by norm_num) (show 0 < 2 by norm_num) z0 (show 0 < 2 by norm_num) (show 1 < 2 by norm_num)
  unfold Elem.smallestEdgeF Elem.smallestEdgeSq
  have gv : ¬ (el.vals.pos.lx < 2 ∨ el.vals.pos.ly < 2 ∨ el.vals.pos.lz < 1) := by
    change ¬ (el.pos.lx < 2 ∨ el.pos.ly < 2 ∨ el.pos.lz < 1)
    omega
  rw [if_neg (by omega), if_neg gv]
  dsimp only
  by_cases hz : el.pos.lz > 1
  · have hz' : el.vals.pos.lz > 1 := hz
    rw [if_pos hz, if_pos hz']
    have z1 : 1 < el.pos.lz := hz
    obtain ⟨m, h1, h2⟩ := fin _ _ (fold_near R (List.rel_append base (.cons (d (k := 1) (j := 0) (i := 0) (k' := 1) (j' := 0) (i' := 1) z1 (by norm_num) (by norm_num) z1 (by norm_num) (by norm_num))
      (.cons (d (k := 1) (j := 0) (i := 1) (k' := 1) (j' := 1) (i' := 0) z1 (by norm_num) (by norm_num) z1 (by norm_num) (by norm_num))
      (.cons (d (k := 1) (j := 1) (i := 0) (k' := 1) (j' := 1) (i' := 1) z1 (by norm_num) (by norm_num) z1 (by norm_num) (by norm_num))
      (.cons (d (k := 1) (j := 1) (i := 1) (k' := 1) (j' := 0) (i' := 0) z1 (by norm_num) (by norm_num) z1 (by norm_num) (by norm_num))
      (.cons (d (k := 0) (j := 0) (i := 0) (k' := 1) (j' := 0) (i' := 0) z0 (by norm_num) (by norm_num) z1 (by norm_num) (by norm_num))
      (.cons (d (k := 0) (j := 0) (i := 1) (k' := 1) (j' := 0) (i' := 1) z0 (by norm_num) (by norm_num) z1 (by norm_num) (by norm_num))
      (.cons (d (k := 0) (j := 1) (i := 0) (k' := 1) (j' := 1) (i' := 0) z0 (by norm_num) (by norm_num) z1 (by norm_num) (by norm_num))
      (.cons (d (k := 0) (j := 1) (i := 1) (k' := 1) (j' := 1) (i' := 1) z0 (by norm_num) (by norm_num) z1 (by norm_num) (by norm_num))
      .nil))))))))) first)
    exact ⟨m, _, by rw [← h1]; rfl, rfl, h2⟩
  · have hz' : ¬ el.vals.pos.lz > 1 := hz
    rw [if_neg hz, if_neg hz']
    obtain ⟨m, h1, h2⟩ := fin _ _ (fold_near R base first)
    exact ⟨m, _, by rw [← h1], rfl, h2⟩

end

theorem gt_iff {x y : F64} (hx : x.Finite) (hy : y.Finite) : gt x y = true ↔ y.val < x.val := by
  unfold gt
  rw [Bool.and_eq_true, Bool.not_eq_true', decide_eq_true_iff, decide_eq_false_iff_not, leF_iff hx hy, leF_iff hy hx]
  constructor
  · exact fun h => not_le.1 h.2
  · exact fun h => ⟨h.le, not_le.2 h⟩

theorem pyMin_val {a b : F64} (ha : a.Finite) (hb : b.Finite) : (pyMin a b).Finite ∧ (pyMin a b).val = min a.val b.val := by
  unfold pyMin
  by_cases h : gt a b = true
  · rw [if_pos h]
    exact ⟨hb, (min_eq_right ((gt_iff ha hb).1 h).le).symm⟩
  · rw [if_neg h]
    exact ⟨ha, (min_eq_left (not_lt.1 fun hc => h ((gt_iff ha hb).2 hc))).symm⟩

/-- The inequalities behind the test. -/
theorem test_real {η θ X t r m0 m1 s0 s1 P g ĝ : ℝ} (hθ : 0 ≤ θ) (_hη0 : 0 ≤ η) (hηθ : 32 * η ≤ θ ^ 2) (hη1 : η ≤ θ) (t0 : 0 ≤ t) (m00 : 0 ≤ m0) (m10 : 0 ≤ m1)
    (s00 : 0 ≤ s0) (s10 : 0 ≤ s1) (X0 : 0 ≤ X) (r0 : 0 ≤ r) (ĝ0 : 0 ≤ ĝ)
    (h0 : s0 - (s0 / 2 ^ 48 + 32 * η) ≤ m0 ^ 2 ∧ m0 ^ 2 ≤ s0 + (s0 / 2 ^ 48 + 32 * η))
    (h1 : s1 - (s1 / 2 ^ 48 + 32 * η) ≤ m1 ^ 2 ∧ m1 ^ 2 ≤ s1 + (s1 / 2 ^ 48 + 32 * η))
    (hr : ĝ - (ĝ / 2 ^ 48 + 32 * η) ≤ r ^ 2 ∧ r ^ 2 ≤ ĝ + (ĝ / 2 ^ 48 + 32 * η))
    (hg : Real.sqrt g ≤ Real.sqrt ĝ + (X / 2 ^ 48 + 16 * η)) (hg' : Real.sqrt ĝ ≤ Real.sqrt g + (X / 2 ^ 48 + 16 * η))
    (hP : |P - t * min m0 m1| ≤ t * min m0 m1 / 2 ^ 53 + η) :
    (r ≤ P → Real.sqrt g ≤ t * min (Real.sqrt s0) (Real.sqrt s1) + t * min (Real.sqrt s0) (Real.sqrt s1) / 2 ^ 45 + X / 2 ^ 47 + (1 + t) * (64 * θ)) ∧
    (Real.sqrt g + Real.sqrt g / 2 ^ 45 + X / 2 ^ 47 + (1 + t) * (64 * θ) ≤ t * min (Real.sqrt s0) (Real.sqrt s1) → r ≤ P) := by
  have a0 := root_hi hθ hηθ m0 s0 s00 h0.2
  have a1 := root_hi hθ hηθ m1 s1 s10 h1.2
  have b0 := root_lo hθ hηθ m0 s0 m00 h0.1
  have b1 := root_lo hθ hηθ m1 s1 m10 h1.1
  have cr := root_hi hθ hηθ r ĝ ĝ0 hr.2
  have dr := root_lo hθ hηθ r ĝ r0 hr.1
  have w0 := Real.sqrt_nonneg g
  have w1 := Real.sqrt_nonneg ĝ
  have v0 := Real.sqrt_nonneg s0
  have v1 := Real.sqrt_nonneg s1
  generalize Real.sqrt g = G at *
  generalize Real.sqrt ĝ = G' at *
  generalize Real.sqrt s0 = S0 at *
  generalize Real.sqrt s1 = S1 at *
  have hi : min m0 m1 ≤ min S0 S1 + min S0 S1 / 2 ^ 48 + θ := by
    rcases min_choice S0 S1 with e | e <;> rw [e]
    · exact (min_le_left _ _).trans a0
    · exact (min_le_right _ _).trans a1
  have lo : min S0 S1 ≤ min m0 m1 + min m0 m1 / 2 ^ 47 + 2 * θ := by
    rcases min_choice m0 m1 with e | e <;> rw [e]
    · exact (min_le_left _ _).trans b0
    · exact (min_le_right _ _).trans b1
  have n0 : 0 ≤ min S0 S1 := le_min v0 v1
  have n1 : 0 ≤ min m0 m1 := le_min m00 m10
  generalize min S0 S1 = S at *
  generalize min m0 m1 = m at *
  have hi' := mul_le_mul_of_nonneg_left hi t0
  have lo' := mul_le_mul_of_nonneg_left lo t0
  have tS := mul_nonneg t0 n0
  have tm := mul_nonneg t0 n1
  have tθ := mul_nonneg t0 hθ
  have hP' := abs_le.mp hP
  rw [mul_add, mul_add, mul_div_assoc'] at hi' lo'
  rw [mul_left_comm t 2 θ] at lo'
  rw [show (1 + t) * (64 * θ) = 64 * θ + 64 * (t * θ) by ring]
  clear hηθ h0 h1 hr hP hi lo a0 a1 b0 b1
  generalize t * S = TS at *
  generalize t * m = TM at *
  generalize t * θ = Tθ at *
  norm_num at *
  constructor
  · intro h
    linarith [hP'.1, hP'.2]
  · intro h
    by_contra hc
    push Not at hc
    linarith [hP'.1, hP'.2]

theorem dist_cast (a b c : ℚ) : ((a ^ 2 + b ^ 2 + c ^ 2 : ℚ) : ℝ) = (a : ℝ) ^ 2 + (b : ℝ) ^ 2 + (c : ℝ) ^ 2 := by push_cast; rfl

theorem edge_le {H η : ℚ} (R : Rnd H η) {m s : ℚ} (h1 : s ≤ 192 * H ^ 2) (h3 : m ^ 2 ≤ s + (s / 2 ^ 48 + 32 * η)) :
    m ≤ 20 * H := by
  have η1 := R.η1
  have H1 := R.H1
  have HH := R.sq_ge
  have : m ^ 2 ≤ (20 * H) ^ 2 := by
    rw [mul_pow]
    generalize H ^ 2 = K at *
    norm_num at *
    linarith
  exact (le_abs_self m).trans (abs_le_of_sq_le_sq this (by linarith))

theorem limit_le {H η : ℚ} (R : Rnd H η) : 2 ^ 100 * (20 * H) ≤ H ^ 2 * 2 ^ 150 := by
  have H1 := R.H1
  have HH := R.sq_ge
  generalize H ^ 2 = K at *
  norm_num
  linarith

/-- The test of `check_connectivity` against the exact distances. -/
theorem nearF_both (L : Libm) (hL : LibmAccurate L) (M : HexaData F64) (hw : WFF M) (X : ℚ) (hX : X ≤ 2 ^ 400) (hT : Tame M X) (tol : F64)
    (tf : tol.Finite) (t0 : 0 ≤ tol.val) (t1 : tol.val ≤ 2 ^ 100) (x y : Face) (hx : x.1 < M.elem.length) (hx2 : x.2 < 6)
    (hy : y.1 < M.elem.length) (hy2 : y.2 < 6) :
    (NearF L M tol x y → NearUpTo M X tol.val x y) ∧ (NearBy M X tol.val x y → NearF L M tol x y) := by
  obtain ⟨H, η, θ, hH, hθ, hηθ, hη1, hθ1, R, hR⟩ := dist_abstract L hL
  have mem : ∀ e < M.elem.length, M.el e ∈ M.elem := fun e he => by
    rw [M.el_eq_getElem e he]
    exact List.getElem_mem he
  have H1 := R.H1
  have HH := R.sq_ge
  have η0 := R.η0
  rw [← hH] at hX
  have gx := hw.grid _ (mem _ hx)
  have gy := hw.grid _ (mem _ hy)
  have X0 : 0 ≤ X := (abs_nonneg _).trans (hT _ (mem _ hx) 0 (by norm_num) 0 (by omega) 0 (by omega) 0 (by omega)).2
  obtain ⟨c, hc, ct, cx, cy, cz⟩ := centre_near R hX hT _ (mem _ hx) gx x.2 hx2
  obtain ⟨c', hc', ct', cx', cy', cz'⟩ := centre_near R hX hT _ (mem _ hy) gy y.2 hy2
  obtain ⟨m0, s0, em0, es0, fm0, pm0, ps0, bs0, l0, u0⟩ := edge_near R hR hX hT _ (mem _ hx) gx
  obtain ⟨m1, s1, em1, es1, fm1, pm1, ps1, bs1, l1, u1⟩ := edge_near R hR hX hT _ (mem _ hy) gy
  have hS := sumSq_near R hR le_rfl ct' ct
  obtain ⟨fr, pr, lr, ur⟩ := root_near hR R hS
  have qpos := hS.qpos
  obtain ⟨fp, vp⟩ := pyMin_val fm0 fm1
  -- the limit
  have pm : 0 ≤ min m0.val m1.val := le_min pm0 pm1
  have pmH : min m0.val m1.val ≤ 20 * H := (min_le_left _ _).trans (edge_le R bs0 u0)
  have hprod : |tol.val * (pyMin m0 m1).val| = tol.val * min m0.val m1.val := by
    rw [vp]
    exact abs_of_nonneg (mul_nonneg t0 pm)
  have hP := R.r (tol.neg ^^ (pyMin m0 m1).neg) (tol.val * (pyMin m0 m1).val) (by
    rw [hprod]
    exact (mul_le_mul t1 pmH pm (by positivity)).trans (limit_le R))
  rw [← mul_fin tf fp, hprod, vp] at hP
  obtain ⟨fP, eP⟩ := hP
  -- over the reals
  have key := test_real (η := η) (θ := θ) (X := X) (t := tol.val) (r := (L.sqrt (sumSqF L c' c)).val) (m0 := m0.val) (m1 := m1.val) (s0 := s0) (s1 := s1)
    (P := (tol * pyMin m0 m1).val)
    (g := ((((faceMean (M.el y.1).vals y.2 0 - faceMean (M.el x.1).vals x.2 0) ^ 2 +
      (faceMean (M.el y.1).vals y.2 1 - faceMean (M.el x.1).vals x.2 1) ^ 2 + (faceMean (M.el y.1).vals y.2 2 - faceMean (M.el x.1).vals x.2 2) ^ 2 : ℚ)) : ℝ))
    (ĝ := ((distSq c'.vals c.vals : ℚ) : ℝ))
    (by exact_mod_cast hθ) (by exact_mod_cast η0) (by exact_mod_cast hηθ) (by exact_mod_cast hη1) (by exact_mod_cast t0) (by exact_mod_cast pm0)
    (by exact_mod_cast pm1) (by exact_mod_cast ps0) (by exact_mod_cast ps1) (by exact_mod_cast X0) (by exact_mod_cast pr) (by exact_mod_cast qpos)
    ⟨by exact_mod_cast l0, by exact_mod_cast u0⟩ ⟨by exact_mod_cast l1, by exact_mod_cast u1⟩ ⟨by exact_mod_cast lr, by exact_mod_cast ur⟩
    (by
      unfold distSq V3.vals
      dsimp only
      rw [dist_cast, dist_cast]
      have e : (X : ℝ) / 2 ^ 48 + 16 * η = 2 * (X / 2 ^ 49 + 8 * η) := by ring
      rw [e, ← neg_sq ((c.x.val - c'.x.val : ℚ) : ℝ), ← neg_sq ((c.y.val - c'.y.val : ℚ) : ℝ), ← neg_sq ((c.z.val - c'.z.val : ℚ) : ℝ)]
      have k : ∀ a b a' b' : ℚ, |a - b| ≤ X / 2 ^ 50 + 4 * η → |a' - b'| ≤ X / 2 ^ 50 + 4 * η →
          |((b' - b : ℚ) : ℝ) - -((a - a' : ℚ) : ℝ)| ≤ X / 2 ^ 49 + 8 * η := by
        intro a b a' b' h h'
        have : |(b' - b) - -(a - a')| ≤ X / 2 ^ 49 + 8 * η := by
          have h := abs_le.mp h
          have h' := abs_le.mp h'
          norm_num at *
          refine abs_le.mpr ⟨?_, ?_⟩ <;> linarith
        exact_mod_cast this
      exact dist_move _ _ _ _ _ _ _ (k _ _ _ _ cx cx') (k _ _ _ _ cy cy') (k _ _ _ _ cz cz'))
    (by
      unfold distSq V3.vals
      dsimp only
      rw [dist_cast, dist_cast]
      have e : (X : ℝ) / 2 ^ 48 + 16 * η = 2 * (X / 2 ^ 49 + 8 * η) := by ring
      rw [e, ← neg_sq ((c.x.val - c'.x.val : ℚ) : ℝ), ← neg_sq ((c.y.val - c'.y.val : ℚ) : ℝ), ← neg_sq ((c.z.val - c'.z.val : ℚ) : ℝ)]
      have k : ∀ a b a' b' : ℚ, |a - b| ≤ X / 2 ^ 50 + 4 * η → |a' - b'| ≤ X / 2 ^ 50 + 4 * η →
          |-((a - a' : ℚ) : ℝ) - ((b' - b : ℚ) : ℝ)| ≤ X / 2 ^ 49 + 8 * η := by
        intro a b a' b' h h'
        have : |-(a - a') - (b' - b)| ≤ X / 2 ^ 49 + 8 * η := by
          have h := abs_le.mp h
          have h' := abs_le.mp h'
          norm_num at *
          refine abs_le.mpr ⟨?_, ?_⟩ <;> linarith
        exact_mod_cast this
      exact dist_move _ _ _ _ _ _ _ (k _ _ _ _ cx cx') (k _ _ _ _ cy cy') (k _ _ _ _ cz cz'))
    (by exact_mod_cast eP)
  have small : (1 + (tol.val : ℝ)) * (64 * θ) ≤ (1 + (tol.val : ℝ)) / 2 ^ 500 := by
    rw [div_eq_mul_one_div]
    refine mul_le_mul_of_nonneg_left ?_ ?_
    · have h := (Rat.cast_le (K := ℝ)).2 hθ1
      rw [Rat.cast_mul, Rat.cast_div, Rat.cast_pow] at h
      simpa only [Rat.cast_ofNat, Rat.cast_one] using h
    · have : (0 : ℝ) ≤ tol.val := by exact_mod_cast t0
      linarith
  constructor
  · rintro ⟨d, d', n0, n1, a1, a2, a3, a4, a5⟩
    cases hc.symm.trans a1
    cases hc'.symm.trans a2
    cases em0.symm.trans a3
    cases em1.symm.trans a4
    refine ⟨_, ⟨s0, s1, es0, es1, rfl⟩, ?_⟩
    have h : (L.sqrt (sumSqF L c' c)).val ≤ (tol * pyMin m0 m1).val := not_lt.1 fun hlt => by
      rw [(gt_iff fr fP).2 hlt] at a5
      cases a5
    exact (key.1 (by exact_mod_cast h)).trans (add_le_add_right small _)
  · rintro ⟨s, ⟨s0', s1', a1, a2, rfl⟩, h⟩
    cases es0.symm.trans a1
    cases es1.symm.trans a2
    have h' : (L.sqrt (sumSqF L c' c)).val ≤ (tol * pyMin m0 m1).val := by
      exact_mod_cast key.2 ((add_le_add_right small _).trans h)
    refine ⟨c, c', m0, m1, hc, hc', em0, em1, ?_⟩
    by_contra hg
    exact absurd ((gt_iff fr fP).1 (by simpa using hg)) (not_lt.2 h')

/-- **C136**, as far as it holds: on meshes with finite coordinates up to `X ≤ 2 ^ 400`, with an accurate C library and a tolerance between 0 and
`2 ^ 100`, whatever passes has mutual links and the internal faces are as near as demanded, up to rounding; and whatever is near enough, with a
margin for rounding, passes. -/
theorem C136_partial (L : Libm) (hL : LibmAccurate L) (M : HexaData F64) (hw : WFF M) (X : ℚ) (hX : X ≤ 2 ^ 400) (hT : Tame M X) (tol : F64)
    (tf : tol.Finite) (t0 : 0 ≤ tol.val) (t1 : tol.val ≤ 2 ^ 100) :
    (M.checkConnectivityF L tol = .ok true → LinkedF M (NearUpTo M X tol.val)) ∧
    (LinkedF M (NearBy M X tol.val) → M.checkConnectivityF L tol = .ok true) := by
  rw [check_connectivityF_iff L M hw tol]
  have h6 : ∀ f, f < 2 * M.ndim → f < 6 := fun f hf => by rcases hw.dim with h | h <;> omega
  constructor
  · intro h b hb x hx hx2 hl
    obtain ⟨y, h1, h2, h3, h4, h5, h6'⟩ := h b hb x hx hx2 hl
    exact ⟨y, h1, h2, h3, h4, h5, fun hE => (nearF_both L hL M hw X hX hT tol tf t0 t1 x y hx (h6 _ hx2) h1 h2).1 (h6' hE)⟩
  · intro h b hb x hx hx2 hl
    obtain ⟨y, h1, h2, h3, h4, h5, h6'⟩ := h b hb x hx hx2 hl
    exact ⟨y, h1, h2, h3, h4, h5, fun hE => (nearF_both L hL M hw X hX hT tol tf t0 t1 x y hx (h6 _ hx2) h1 h2).2 (h6' hE)⟩

end Pymech
