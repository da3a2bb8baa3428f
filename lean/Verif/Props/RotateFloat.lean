import Mathlib.Analysis.SpecialFunctions.Trigonometric.Basic
import Verif.Props.FloatLibm

/-!
# C137: `rotate_2d` in double precision
-/

set_option autoImplicit false

namespace Pymech

open Spec Flt

namespace Spec

/-- `x` is a double near the real number `r`, which is at most 1 in size: what is expected of `math.cos` and `math.sin`. -/
def UnitNear (x : F64) (r : ℝ) : Prop := x.Finite ∧ |(x.val : ℝ) - r| ≤ 1 / 2 ^ 52

/-- The error of a rotated coordinate, for coordinates up to `X`. -/
def rotTol (X : ℚ) : ℚ := X / 2 ^ 49 + 1 / 2 ^ 1070

end Spec

/-- Two rounded products and their rounded sum, with an abstract bound for numbers that do not overflow. -/
theorem prod_sum {H η X : ℚ} (r : ∀ (z : Bool) (q : ℚ), |q| ≤ H → (ofQ z q).Finite ∧ |(ofQ z q).val - q| ≤ |q| / 2 ^ 53 + η)
    (hH : 4 * X + 8 ≤ H) (η0 : 0 ≤ η) (η1 : η ≤ 1) {c x s y : F64} (fc : c.Finite) (fx : x.Finite) (fs : s.Finite) (fy : y.Finite)
    (hc : |c.val| ≤ 1 + 1 / 2 ^ 52) (hs : |s.val| ≤ 1 + 1 / 2 ^ 52) (hx : |x.val| ≤ X) (hy : |y.val| ≤ X) :
    ((c * x - s * y).Finite ∧ |(c * x - s * y).val - (c.val * x.val - s.val * y.val)| ≤ X / 2 ^ 50 + 4 * η) ∧
    ((c * x + s * y).Finite ∧ |(c * x + s * y).val - (c.val * x.val + s.val * y.val)| ≤ X / 2 ^ 50 + 4 * η) := by
  have X0 : 0 ≤ X := (abs_nonneg _).trans hx
  have bp : ∀ a b : ℚ, |a| ≤ 1 + 1 / 2 ^ 52 → |b| ≤ X → |a * b| ≤ X + X / 2 ^ 52 := by
    intro a b ha hb
    rw [abs_mul]
    calc |a| * |b| ≤ (1 + 1 / 2 ^ 52) * X := mul_le_mul ha hb (abs_nonneg _) (by norm_num)
      _ = X + X / 2 ^ 52 := by ring
  have p1 := bp _ _ hc hx
  have p2 := bp _ _ hs hy
  rw [mul_fin fc fx, mul_fin fs fy]
  have XH : X + X / 2 ^ 52 ≤ H := by norm_num; linarith
  obtain ⟨f1, e1⟩ := r (c.neg ^^ x.neg) _ (p1.trans XH)
  obtain ⟨f2, e2⟩ := r (s.neg ^^ y.neg) _ (p2.trans XH)
  generalize ofQ (c.neg ^^ x.neg) (c.val * x.val) = u at f1 e1 ⊢
  generalize ofQ (s.neg ^^ y.neg) (s.val * y.val) = v at f2 e2 ⊢
  generalize c.val * x.val = a at p1 e1 ⊢
  generalize s.val * y.val = b at p2 e2 ⊢
  have A := abs_le.mp p1
  have B := abs_le.mp p2
  have E1 := abs_le.mp (e1.trans (add_le_add_left (div_le_div_of_nonneg_right p1 (by norm_num)) η))
  have E2 := abs_le.mp (e2.trans (add_le_add_left (div_le_div_of_nonneg_right p2 (by norm_num)) η))
  norm_num at A B E1 E2
  have fin : ∀ (z : Bool) (w : ℚ) (t : ℚ), |w| ≤ 2 * X + X / 2 ^ 50 + 2 * η → |w - t| ≤ X / 2 ^ 52 + X / 2 ^ 60 + 2 * η →
      (ofQ z w).Finite ∧ |(ofQ z w).val - t| ≤ X / 2 ^ 50 + 4 * η := by
    intro z w t hw hwt
    obtain ⟨f, e⟩ := r z w (hw.trans (by norm_num; linarith))
    refine ⟨f, ?_⟩
    have W := abs_le.mp hw
    have WT := abs_le.mp hwt
    have E := abs_le.mp (e.trans (add_le_add_left (div_le_div_of_nonneg_right hw (by norm_num)) η))
    norm_num at W WT E ⊢
    refine abs_le.mpr ⟨?_, ?_⟩ <;> linarith
  constructor
  · rw [sub_fin f1 f2]
    refine fin _ _ _ ?_ ?_ <;> (norm_num; refine abs_le.mpr ⟨?_, ?_⟩ <;> linarith)
  · rw [add_fin f1 f2]
    refine fin _ _ _ ?_ ?_ <;> (norm_num; refine abs_le.mpr ⟨?_, ?_⟩ <;> linarith)

theorem unit_le {x : F64} {r : ℝ} (h : UnitNear x r) (hr : |r| ≤ 1) : |x.val| ≤ 1 + 1 / 2 ^ 52 := by
  have h1 := abs_le.mp h.2
  have h2 := abs_le.mp hr
  have : |(x.val : ℝ)| ≤ 1 + 1 / 2 ^ 52 := abs_le.mpr ⟨by linarith, by linarith⟩
  have e : ((|x.val| : ℚ) : ℝ) ≤ ((1 + 1 / 2 ^ 52 : ℚ) : ℝ) := by
    push_cast
    exact this
  exact Rat.cast_le.mp e

/-- From the rounded cosine and sine to the exact ones. -/
theorem unit_move {c s C S x y X : ℝ} (hc : |c - C| ≤ 1 / 2 ^ 52) (hs : |s - S| ≤ 1 / 2 ^ 52) (hx : |x| ≤ X) (hy : |y| ≤ X) :
    |(c * x - s * y) - (C * x - S * y)| ≤ X / 2 ^ 51 ∧ |(c * x + s * y) - (C * x + S * y)| ≤ X / 2 ^ 51 := by
  have h1 : |(c - C) * x| ≤ X / 2 ^ 52 := by
    rw [abs_mul]
    calc |c - C| * |x| ≤ 1 / 2 ^ 52 * X := mul_le_mul hc hx (abs_nonneg _) (by norm_num)
      _ = _ := by ring
  have h2 : |(s - S) * y| ≤ X / 2 ^ 52 := by
    rw [abs_mul]
    calc |s - S| * |y| ≤ 1 / 2 ^ 52 * X := mul_le_mul hs hy (abs_nonneg _) (by norm_num)
      _ = _ := by ring
  have a := abs_le.mp h1
  have b := abs_le.mp h2
  norm_num at a b ⊢
  constructor <;> refine abs_le.mpr ⟨?_, ?_⟩ <;> nlinarith

/-- A rotated point. -/
theorem rot_near (θ : ℝ) {c s x y : F64} (hc : UnitNear c (Real.cos θ)) (hs : UnitNear s (Real.sin θ)) {X : ℚ} (hX : X ≤ 2 ^ 900)
    (fx : x.Finite) (fy : y.Finite) (hx : |x.val| ≤ X) (hy : |y.val| ≤ X) :
    ((c * x - s * y).Finite ∧ |((c * x - s * y).val : ℝ) - (Real.cos θ * x.val - Real.sin θ * y.val)| ≤ rotTol X) ∧
    ((s * x + c * y).Finite ∧ |((s * x + c * y).val : ℝ) - (Real.sin θ * x.val + Real.cos θ * y.val)| ≤ rotTol X) := by
  have X0 : 0 ≤ X := (abs_nonneg _).trans hx
  have cl := unit_le hc (Real.abs_cos_le_one θ)
  have sl := unit_le hs (Real.abs_sin_le_one θ)
  obtain ⟨η, hη⟩ : ∃ η : ℚ, η = 1 / 2 ^ 1075 := ⟨_, rfl⟩
  have η0 : 0 ≤ η := by rw [hη]; positivity
  have η1 : η ≤ 1 := by rw [hη]; exact div_le_one_of_le₀ (one_le_pow₀ (by norm_num)) (by positivity)
  have r : ∀ (z : Bool) (q : ℚ), |q| ≤ 2 ^ 1000 → (ofQ z q).Finite ∧ |(ofQ z q).val - q| ≤ |q| / 2 ^ 53 + η := by
    intro z q h
    rw [hη]
    exact ⟨ofQ_fin z q h, ofQ_err z q h⟩
  have hH : 4 * X + 8 ≤ 2 ^ 1000 := by
    have h1 : (2 : ℚ) ^ 904 ≤ 2 ^ 1000 := pow_le_pow_right₀ (by norm_num) (by norm_num)
    refine le_trans ?_ h1
    rw [show (2 : ℚ) ^ 904 = 2 ^ 4 * 2 ^ 900 by rw [← pow_add]]
    have h2 : (1 : ℚ) ≤ 2 ^ 900 := one_le_pow₀ (by norm_num)
    clear h1 r
    generalize (2 : ℚ) ^ 900 = K at *
    linarith
  have hη4 : 4 * η ≤ 1 / 2 ^ 1070 := by
    rw [hη, mul_one_div, div_le_div_iff₀ (by positivity) (by positivity), one_mul, show (4 : ℚ) = 2 ^ 2 by norm_num, ← pow_add]
    exact pow_le_pow_right₀ (by norm_num) (by norm_num)
  unfold rotTol
  generalize (1 : ℚ) / 2 ^ 1070 = ζ at hη4 ⊢
  generalize (2 : ℚ) ^ 1000 = H at r hH
  obtain ⟨⟨f1, e1⟩, -⟩ := prod_sum r hH η0 η1 hc.1 fx hs.1 fy cl sl hx hy
  obtain ⟨-, f2, e2⟩ := prod_sum r hH η0 η1 hs.1 fx hc.1 fy sl cl hx hy
  have rx : |(x.val : ℝ)| ≤ X := by exact_mod_cast hx
  have ry : |(y.val : ℝ)| ≤ X := by exact_mod_cast hy
  have m1 := (unit_move hc.2 hs.2 rx ry).1
  have m2 := (unit_move hs.2 hc.2 rx ry).2
  have e1' : |((c * x - s * y).val : ℝ) - ((c.val : ℝ) * x.val - s.val * y.val)| ≤ (X : ℝ) / 2 ^ 50 + 4 * η := by exact_mod_cast e1
  have e2' : |((s * x + c * y).val : ℝ) - ((s.val : ℝ) * x.val + c.val * y.val)| ≤ (X : ℝ) / 2 ^ 50 + 4 * η := by exact_mod_cast e2
  have z4 : 4 * (η : ℝ) ≤ ζ := by exact_mod_cast hη4
  have Xr : (0 : ℝ) ≤ X := by exact_mod_cast X0
  have tot : (X : ℝ) / 2 ^ 50 + 4 * η + X / 2 ^ 51 ≤ ((X / 2 ^ 49 + ζ : ℚ) : ℝ) := by
    push_cast
    norm_num
    linarith
  exact ⟨⟨f1, (abs_sub_le _ _ _).trans ((add_le_add e1' m1).trans tot)⟩, ⟨f2, (abs_sub_le _ _ _).trans ((add_le_add e2' m2).trans tot)⟩⟩

section
variable (M : HexaData F64) (x0 y0 c s : F64)

theorem rotateF_el (e : Nat) (he : e < M.elem.length) : (rotate2d M x0 y0 c s).el e = rotateElem c s (M.el e) := by
  rw [HexaData.el_eq_getElem _ e (by simpa [rotate2d] using he), HexaData.el_eq_getElem _ e he]
  simp [rotate2d]

end

/-- **C137.** `rotate_2d` in double precision, for finite coordinates up to `2 ^ 900`: each coordinate is finite and near its place after an
exact rotation by `θ` about the origin, the coordinates in z have the same bits as before. `c` and `s` are what the C library returns for the
cosine and sine of `θ`, with an error of one unit in the last place of 1. -/
theorem C137 (M : HexaData F64) (X : ℚ) (hX : X ≤ 2 ^ 900) (hT : Tame M X) (θ : ℝ) (c s x0 y0 : F64) (hc : UnitNear c (Real.cos θ))
    (hs : UnitNear s (Real.sin θ)) (e : Nat) (he : e < M.elem.length) :
    let p := (M.el e).pos
    let q := ((rotate2d M x0 y0 c s).el e).pos
    q.n = p.n ∧ q.lz = p.lz ∧ q.ly = p.ly ∧ q.lx = p.lx ∧
    (∀ k < p.lz, ∀ j < p.ly, ∀ i < p.lx, (q.dat 0 k j i).Finite ∧ (q.dat 1 k j i).Finite ∧
      |((q.dat 0 k j i).val : ℝ) - (Real.cos θ * (p.dat 0 k j i).val - Real.sin θ * (p.dat 1 k j i).val)| ≤ rotTol X ∧
      |((q.dat 1 k j i).val : ℝ) - (Real.sin θ * (p.dat 0 k j i).val + Real.cos θ * (p.dat 1 k j i).val)| ≤ rotTol X) ∧
    ∀ k j i, q.dat 2 k j i = p.dat 2 k j i := by
  have hm : M.el e ∈ M.elem := by
    rw [M.el_eq_getElem e he]
    exact List.getElem_mem he
  intro p q
  have hq : q = rotatePos c s p := by
    change ((rotate2d M x0 y0 c s).el e).pos = _
    rw [rotateF_el M x0 y0 c s e he]
    rfl
  rw [hq]
  refine ⟨rfl, rfl, rfl, rfl, fun k hk j hj i hi => ?_, fun k j i => rfl⟩
  obtain ⟨fx, hx⟩ := hT _ hm 0 (by norm_num) k hk j hj i hi
  obtain ⟨fy, hy⟩ := hT _ hm 1 (by norm_num) k hk j hj i hi
  obtain ⟨⟨a1, a2⟩, b1, b2⟩ := rot_near θ hc hs hX fx fy hx hy
  exact ⟨a1, b1, a2, b2⟩

/-- **C137, midpoints.** The midpoints of curved edges are rotated with the same accuracy. -/
theorem C137_mid (M : HexaData F64) (X : ℚ) (hX : X ≤ 2 ^ 900) (θ : ℝ) (c s x0 y0 : F64) (hc : UnitNear c (Real.cos θ))
    (hs : UnitNear s (Real.sin θ)) (e : Nat) (he : e < M.elem.length) (a : Nat) (ha : a < 12) (hm : (M.el e).ccurv a = ['m'])
    (hT : ∀ d < 2, ((M.el e).curv a d).Finite ∧ |((M.el e).curv a d).val| ≤ X) :
    let p := (M.el e).curv a
    let q := ((rotate2d M x0 y0 c s).el e).curv a
    (q 0).Finite ∧ (q 1).Finite ∧ |((q 0).val : ℝ) - (Real.cos θ * (p 0).val - Real.sin θ * (p 1).val)| ≤ rotTol X ∧
      |((q 1).val : ℝ) - (Real.sin θ * (p 0).val + Real.cos θ * (p 1).val)| ≤ rotTol X ∧ ∀ i, 2 ≤ i → q i = p i := by
  obtain ⟨fx, hx⟩ := hT 0 (by norm_num)
  obtain ⟨fy, hy⟩ := hT 1 (by norm_num)
  obtain ⟨⟨a1, a2⟩, b1, b2⟩ := rot_near θ hc hs hX fx fy hx hy
  intro p q
  have hq : ∀ i, q i = if i = 0 then c * p 0 - s * p 1 else if i = 1 then s * p 0 + c * p 1 else p i := by
    intro i
    change ((rotate2d M x0 y0 c s).el e).curv a i = _
    rw [rotateF_el M x0 y0 c s e he]
    exact if_pos ⟨ha, hm⟩
  rw [hq 0, hq 1]
  refine ⟨a1, b1, a2, b2, fun i hi => ?_⟩
  rw [hq i, if_neg (by omega), if_neg (by omega)]

theorem rotateF_coord (el : Elem F64) (c s : F64) (f : Nat) (a b : Bool) (d : Nat) : faceCoord (rotateElem c s el) f a b d =
    if d = 0 then c * faceCoord el f a b 0 - s * faceCoord el f a b 1
    else if d = 1 then s * faceCoord el f a b 0 + c * faceCoord el f a b 1 else faceCoord el f a b d := by
  unfold faceCoord
  split <;> rfl

/-- **C137, links.** If linked faces have the same corners bit by bit, then they still do after `rotate_2d` in double precision, and the mesh
passes `check_connectivity` with any tolerance that is not negative; with whatever numbers the cosine and the sine are replaced. -/
theorem C137_links (M : HexaData F64) (hw : WFF M) (hl : LinkedF M (SameCorners M)) (c s x0 y0 : F64) :
    LinkedF (rotate2d M x0 y0 c s) (SameCorners (rotate2d M x0 y0 c s)) ∧
    ∀ L, LibmBasic L → ∀ tol, NotNeg tol → (rotate2d M x0 y0 c s).checkConnectivityF L tol = .ok true := by
  have len : (rotate2d M x0 y0 c s).elem.length = M.elem.length := by simp [rotate2d]
  have bc : ∀ e < M.elem.length, ∀ b f, (rotate2d M x0 y0 c s).bc e b f = M.bc e b f := by
    intro e he b f
    change ((rotate2d M x0 y0 c s).el e).bcs b f = _
    rw [rotateF_el M x0 y0 c s e he]
    rfl
  have hw' : WFF (rotate2d M x0 y0 c s) := by
    refine ⟨hw.nel.trans len.symm, ?_, hw.dim, ?_⟩
    · intro el h
      obtain ⟨a, ha, rfl⟩ := List.mem_map.mp h
      exact hw.rows a ha
    · intro el h
      obtain ⟨a, ha, rfl⟩ := List.mem_map.mp h
      exact hw.grid a ha
  have key : LinkedF (rotate2d M x0 y0 c s) (SameCorners (rotate2d M x0 y0 c s)) := by
    intro b hb x hx hx2 ht
    rw [len] at hx
    rw [bc _ hx] at ht ⊢
    obtain ⟨y, h1, h2, h3, h4, h5, h6⟩ := hl b hb x hx hx2 ht
    refine ⟨y, by rw [len]; exact h1, h2, h3, by rw [bc _ h1]; exact h4, by rw [bc _ h1]; exact h5, fun hE => ?_⟩
    intro a b d hd
    rw [rotateF_el M x0 y0 c s _ hx, rotateF_el M x0 y0 c s _ h1, rotateF_coord, rotateF_coord]
    have h := h6 hE a b
    rw [h 0 (by norm_num), h 1 (by norm_num), h d hd]
  exact ⟨key, fun L hL tol ht => C135 L hL _ hw' tol ht key⟩

namespace Samples

/-- The cosine and sine of 60 degrees as the C library returns them for 1.0471975511965976. -/
example : UnitNear (ofBits 0x3FE0000000000001) (Real.cos (Real.pi / 3)) := by
  refine ⟨by decide +kernel, ?_⟩
  rw [Real.cos_pi_div_three, show (ofBits 0x3FE0000000000001 : F64).val = 1 / 2 + 1 / 2 ^ 53 by decide +kernel]
  norm_num

theorem unitOne : UnitNear f0 (Real.cos (Real.pi / 2)) ∧ UnitNear one (Real.sin (Real.pi / 2)) := by
  rw [Real.cos_pi_div_two, Real.sin_pi_div_two]
  refine ⟨⟨by decide +kernel, ?_⟩, ⟨by decide +kernel, ?_⟩⟩
  · rw [show f0.val = 0 by decide +kernel]
    norm_num
  · rw [show one.val = 1 by decide +kernel]
    norm_num

/-- A quarter turn of two unit squares. -/
example : |((((rotate2d (pairF f0 one one two) f0 f0 f0 one).el 1).pos.dat 1 0 0 1).val : ℝ)
      - (Real.sin (Real.pi / 2) * two.val + Real.cos (Real.pi / 2) * f0.val)| ≤ rotTol 2 := by
  have h := (C137 (pairF f0 one one two) 2 ?_ (pairF_tame ?_ (by norm_num)) (Real.pi / 2) f0 one f0 f0 unitOne.1 unitOne.2 1 (by decide)).2.2.2.2.1 0
    (by decide) 0 (by decide) 1 (by decide)
  · exact h.2.2.2
  · exact (pow_one (2 : ℚ)).symm.le.trans (pow_le_pow_right₀ (by norm_num) (by norm_num))
  · decide +kernel

end Samples

end Pymech
