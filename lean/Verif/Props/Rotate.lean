import Verif.Props.Box
import Mathlib.Analysis.SpecialFunctions.Trigonometric.Basic

/-!
# C58, C59 `rotate_2d`
-/

set_option linter.unusedSectionVars false

namespace Pymech

open Spec Real

/-- `rotate_2d(mesh, x0, y0, theta)` with real cosine and sine. -/
noncomputable def rotateR (M : HexaData ℝ) (x0 y0 θ : ℝ) : HexaData ℝ := rotate2d M x0 y0 (cos θ) (sin θ)

namespace Spec

/-- Rotation of the plane around `(x0, y0)` by the angle `θ`. -/
noncomputable def rot (x0 y0 θ : ℝ) (p : ℝ × ℝ) : ℝ × ℝ :=
  (x0 + cos θ * (p.1 - x0) - sin θ * (p.2 - y0), y0 + sin θ * (p.1 - x0) + cos θ * (p.2 - y0))

/-- Distance of two grid points. -/
noncomputable def gridDist (M : HexaData ℝ) (e k j i e' k' j' i' : Nat) : ℝ :=
  sqrt (((M.el e).pos.dat 0 k j i - (M.el e').pos.dat 0 k' j' i') ^ 2
    + ((M.el e).pos.dat 1 k j i - (M.el e').pos.dat 1 k' j' i') ^ 2
    + ((M.el e).pos.dat 2 k j i - (M.el e').pos.dat 2 k' j' i') ^ 2)

/-- (x, y) of a grid point. -/
def gridXY (M : HexaData ℝ) (e k j i : Nat) : ℝ × ℝ := ((M.el e).pos.dat 0 k j i, (M.el e).pos.dat 1 k j i)

end Spec

theorem rotate_length (M : HexaData ℝ) (x0 y0 θ : ℝ) : (rotateR M x0 y0 θ).elem.length = M.elem.length := by
  simp [rotateR, rotate2d]

theorem rotate_el (M : HexaData ℝ) (x0 y0 θ : ℝ) (e : Nat) (he : e < M.elem.length) :
    (rotateR M x0 y0 θ).el e = rotateElem (cos θ) (sin θ) (M.el e) := by
  rw [HexaData.el_eq_getElem _ e (by rw [rotate_length]; exact he), HexaData.el_eq_getElem _ e he]
  simp [rotateR, rotate2d]

/-- What `rotate_2d` does: every grid point is moved by the rotation around the *origin*, `z` and everything else
except the curvature data stays; midpoints of `'m'` edges are moved by the same rotation, other edges are unchanged. -/
theorem rotate_2d_spec (M : HexaData ℝ) (x0 y0 θ : ℝ) :
    let M' := rotateR M x0 y0 θ
    M' = { M with elem := M'.elem } ∧ M'.elem.length = M.elem.length ∧
    ∀ e < M.elem.length,
      M'.el e = { M.el e with pos := (M'.el e).pos, curv := (M'.el e).curv } ∧
      ((M'.el e).pos.n = (M.el e).pos.n ∧ (M'.el e).pos.lz = (M.el e).pos.lz ∧ (M'.el e).pos.ly = (M.el e).pos.ly ∧
        (M'.el e).pos.lx = (M.el e).pos.lx) ∧
      (∀ k j i, gridXY M' e k j i = rot 0 0 θ (gridXY M e k j i) ∧ (M'.el e).pos.dat 2 k j i = (M.el e).pos.dat 2 k j i) ∧
      (∀ g < 12, (M.el e).ccurv g = ['m'] →
        ((M'.el e).curv g 0, (M'.el e).curv g 1) = rot 0 0 θ ((M.el e).curv g 0, (M.el e).curv g 1) ∧
        ∀ q, 2 ≤ q → (M'.el e).curv g q = (M.el e).curv g q) ∧
      (∀ g, (M.el e).ccurv g ≠ ['m'] → (M'.el e).curv g = (M.el e).curv g) := by
  intro M'
  refine ⟨rfl, rotate_length M x0 y0 θ, fun e he => ?_⟩
  have h := rotate_el M x0 y0 θ e he
  change M'.el e = _ at h
  refine ⟨by rw [h]; rfl, by rw [h]; exact ⟨rfl, rfl, rfl, rfl⟩, ?_, ?_, ?_⟩
  · intro k j i
    unfold gridXY
    rw [h]
    constructor
    · simp [rotateElem, rotatePos, rot]
    · simp [rotateElem, rotatePos]
  · intro g hg hm
    rw [h]
    constructor
    · simp [rotateElem, hm, hg, rot]
    · intro q hq
      simp [rotateElem, hm, hg, show q ≠ 0 by omega, show q ≠ 1 by omega]
  · intro g hg
    rw [h]
    funext q
    simp [rotateElem, hg]

/-- **C58, isometry.** Distances between grid points do not change. -/
theorem rotate_2d_isometry (M : HexaData ℝ) (x0 y0 θ : ℝ) (e k j i e' k' j' i' : Nat) (he : e < M.elem.length)
    (he' : e' < M.elem.length) :
    gridDist (rotateR M x0 y0 θ) e k j i e' k' j' i' = gridDist M e k j i e' k' j' i' := by
  unfold gridDist
  rw [rotate_el M x0 y0 θ e he, rotate_el M x0 y0 θ e' he']
  congr 1
  simp only [rotateElem, rotatePos, if_true, if_false, one_ne_zero, OfNat.ofNat_ne_zero, OfNat.ofNat_ne_one]
  have := sin_sq_add_cos_sq θ
  linear_combination (((M.el e).pos.dat 0 k j i - (M.el e').pos.dat 0 k' j' i') ^ 2
    + ((M.el e).pos.dat 1 k j i - (M.el e').pos.dat 1 k' j' i') ^ 2) * this

/-- **C58, connectivity.** All conditions stay; a validly connected mesh remains so. -/
theorem rotate_2d_bcs (M : HexaData ℝ) (x0 y0 θ : ℝ) (e b f : Nat) (he : e < M.elem.length) :
    (rotateR M x0 y0 θ).bc e b f = M.bc e b f := by
  unfold HexaData.bc; rw [rotate_el M x0 y0 θ e he]; rfl

theorem rotate_faceMean (c s : ℝ) (el : Elem ℝ) (f : Nat) :
    faceMean (rotateElem c s el) f 0 = c * faceMean el f 0 - s * faceMean el f 1 ∧
    faceMean (rotateElem c s el) f 1 = s * faceMean el f 0 + c * faceMean el f 1 ∧
    faceMean (rotateElem c s el) f 2 = faceMean el f 2 := by
  have hc : ∀ a b, faceCoord (rotateElem c s el) f a b 0 = c * faceCoord el f a b 0 - s * faceCoord el f a b 1 ∧
      faceCoord (rotateElem c s el) f a b 1 = s * faceCoord el f a b 0 + c * faceCoord el f a b 1 ∧
      faceCoord (rotateElem c s el) f a b 2 = faceCoord el f a b 2 := by
    intro a b
    unfold faceCoord
    split <;> simp [Spec.corner, rotateElem, rotatePos]
  unfold faceMean
  refine ⟨?_, ?_, ?_⟩
  · rw [(hc _ _).1, (hc _ _).1, (hc _ _).1, (hc _ _).1]; ring
  · rw [(hc _ _).2.1, (hc _ _).2.1, (hc _ _).2.1, (hc _ _).2.1]; ring
  · rw [(hc _ _).2.2, (hc _ _).2.2, (hc _ _).2.2, (hc _ _).2.2]

theorem rotate_distSq (c s : ℝ) (h : s ^ 2 + c ^ 2 = 1) (el : Elem ℝ) (k j i k' j' i' : Nat) :
    distSq ((rotateElem c s el).pt k j i) ((rotateElem c s el).pt k' j' i') = distSq (el.pt k j i) (el.pt k' j' i') := by
  simp only [distSq, Elem.pt, rotateElem, rotatePos, if_true, if_false, one_ne_zero, OfNat.ofNat_ne_zero, OfNat.ofNat_ne_one]
  linear_combination ((el.pos.dat 0 k' j' i' - el.pos.dat 0 k j i) ^ 2 + (el.pos.dat 1 k' j' i' - el.pos.dat 1 k j i) ^ 2) * h

theorem rotate_smallestEdge (c s : ℝ) (h : s ^ 2 + c ^ 2 = 1) (el : Elem ℝ) :
    (rotateElem c s el).smallestEdgeSq = el.smallestEdgeSq := by
  unfold Elem.smallestEdgeSq
  simp only [rotate_distSq c s h]
  rfl

/-- **C58, checks.** The rotated mesh passes `check_connectivity` exactly if the original does. -/
theorem rotate_2d_check (M : HexaData ℝ) (hw : WF M) (hg : Grid M) (x0 y0 θ tol : ℝ) :
    (rotateR M x0 y0 θ).checkConnectivity tol = .ok true ↔ M.checkConnectivity tol = .ok true := by
  have hl := rotate_length M x0 y0 θ
  have hw' : WF (rotateR M x0 y0 θ) := by
    refine ⟨hw.nel.trans hl.symm, ?_, hw.dim⟩
    intro el hel
    simp only [rotateR, rotate2d, List.mem_map] at hel
    obtain ⟨a, ha, rfl⟩ := hel
    exact hw.rows a ha
  have hg' : Grid (rotateR M x0 y0 θ) := by
    intro el hel
    simp only [rotateR, rotate2d, List.mem_map] at hel
    obtain ⟨a, ha, rfl⟩ := hel
    exact hg a ha
  have hnear : ∀ x y : Face, x.1 < M.elem.length → y.1 < M.elem.length →
      (Near (rotateR M x0 y0 θ) tol x y ↔ Near M tol x y) := by
    intro x y hx hy
    unfold Near
    rw [rotate_el M x0 y0 θ x.1 hx, rotate_el M x0 y0 θ y.1 hy, rotate_smallestEdge _ _ (sin_sq_add_cos_sq θ),
      rotate_smallestEdge _ _ (sin_sq_add_cos_sq θ)]
    have e := rotate_faceMean (cos θ) (sin θ) (M.el x.1) x.2
    have e' := rotate_faceMean (cos θ) (sin θ) (M.el y.1) y.2
    rw [e.1, e.2.1, e.2.2, e'.1, e'.2.1, e'.2.2]
    have : (cos θ * faceMean (M.el y.1) y.2 0 - sin θ * faceMean (M.el y.1) y.2 1
          - (cos θ * faceMean (M.el x.1) x.2 0 - sin θ * faceMean (M.el x.1) x.2 1)) ^ 2
        + (sin θ * faceMean (M.el y.1) y.2 0 + cos θ * faceMean (M.el y.1) y.2 1
          - (sin θ * faceMean (M.el x.1) x.2 0 + cos θ * faceMean (M.el x.1) x.2 1)) ^ 2
        + (faceMean (M.el y.1) y.2 2 - faceMean (M.el x.1) x.2 2) ^ 2 =
        (faceMean (M.el y.1) y.2 0 - faceMean (M.el x.1) x.2 0) ^ 2 + (faceMean (M.el y.1) y.2 1 - faceMean (M.el x.1) x.2 1) ^ 2
        + (faceMean (M.el y.1) y.2 2 - faceMean (M.el x.1) x.2 2) ^ 2 := by
      linear_combination ((faceMean (M.el y.1) y.2 0 - faceMean (M.el x.1) x.2 0) ^ 2
        + (faceMean (M.el y.1) y.2 1 - faceMean (M.el x.1) x.2 1) ^ 2) * sin_sq_add_cos_sq θ
    simp only [this]
  rw [check_connectivity_iff _ hw' hg', check_connectivity_iff _ hw hg]
  unfold Connected
  rw [hl]
  have hb : (rotateR M x0 y0 θ).nbc = M.nbc := rfl
  have hd : (rotateR M x0 y0 θ).ndim = M.ndim := rfl
  rw [hb, hd]
  refine forall_congr' fun b => forall_congr' fun _ => forall_congr' fun x => forall_congr' fun hx => forall_congr' fun _ => ?_
  rw [rotate_2d_bcs M x0 y0 θ x.1 b x.2 hx]
  refine forall_congr' fun _ => exists_congr fun y => and_congr_right fun hy => ?_
  rw [rotate_2d_bcs M x0 y0 θ y.1 b y.2 hy, hnear x y hx hy]

/-- **C58, composition.** Rotating twice is rotating by the sum of the angles. -/
theorem rotate_2d_add (M : HexaData ℝ) (x0 y0 x1 y1 x2 y2 θ φ : ℝ) :
    rotateR (rotateR M x0 y0 θ) x1 y1 φ = rotateR M x2 y2 (θ + φ) := by
  unfold rotateR rotate2d
  simp only [List.map_map]
  congr 1
  apply List.map_congr_left
  intro el _
  simp only [Function.comp, rotateElem, rotatePos]
  rw [cos_add, sin_add]
  congr 1
  · congr 1
    funext d k j i
    by_cases h0 : d = 0
    · subst h0; simp; ring
    · by_cases h1 : d = 1
      · subst h1; simp; ring
      · simp [h0, h1]
  · funext e q
    by_cases hm : e < 12 ∧ el.ccurv e = ['m']
    · by_cases h0 : q = 0
      · subst h0; simp [hm]; ring
      · by_cases h1 : q = 1
        · subst h1; simp [hm]; ring
        · simp [hm, h0, h1]
    · simp [hm]

/-- Rotating by zero changes nothing. -/
theorem rotate_2d_zero (M : HexaData ℝ) (x0 y0 : ℝ) : rotateR M x0 y0 0 = M := by
  unfold rotateR rotate2d
  have : M.elem.map (rotateElem (cos 0) (sin 0)) = M.elem := by
    conv_rhs => rw [← List.map_id M.elem]
    apply List.map_congr_left
    intro el _
    simp only [rotateElem, rotatePos, cos_zero, sin_zero, one_mul, zero_mul, sub_zero, zero_add, id]
    congr 1
    · congr 1
      funext d k j i
      split_ifs with h0 h1
      · rw [h0]
      · rw [h1]
      · rfl
    · funext e q
      split_ifs with h h0 h1
      · rw [h0]
      · rw [h1]
      · rfl
      · rfl
  rw [this]

/-! ## C59 -/

/-- A one-element mesh whose first corner is `(1, 0)`. -/
noncomputable def Samples.oneElem : HexaData ℝ :=
  { (HexaData.new .little 2 1 ⟨2, 2, 1, true⟩ ⟨2, 2, 0, 0, 0⟩ 1 : HexaData ℝ) with elem := [boxElem 1 1 2 0 1 0 0] }

/-- **C59 is false.** `rotate_2d(mesh, 1, 0, pi)` moves the grid point `(1, 0)` to `(-1, 0)`. -/
theorem rotate_2d_centre_wrong : ∃ M : HexaData ℝ, 0 < M.elem.length ∧ gridXY M 0 0 0 0 = (1, 0) ∧
    gridXY (rotateR M 1 0 π) 0 0 0 0 = (-1, 0) ∧ rot 1 0 π (1, 0) = (1, 0) := by
  have hl : 0 < Samples.oneElem.elem.length := by simp [Samples.oneElem]
  have h0 : gridXY Samples.oneElem 0 0 0 0 = (1, 0) := by
    simp [gridXY, Samples.oneElem, HexaData.el, boxElem]
  refine ⟨Samples.oneElem, hl, h0, ?_, by simp [rot]⟩
  rw [((rotate_2d_spec Samples.oneElem 1 0 π).2.2 0 hl).2.2.1 0 0 0 |>.1, h0]
  simp [rot]

/-- The centre passed is ignored. -/
theorem rotate_2d_centre_ignored (M : HexaData ℝ) (x0 y0 x1 y1 θ : ℝ) : rotateR M x0 y0 θ = rotateR M x1 y1 θ := rfl

/-- **C59, what holds.** For the centre `(0, 0)` (only) every grid point is rotated around the given centre, so a
point at the centre is fixed and distances to it are preserved. Missing: any other centre. -/
theorem rotate_2d_centre_partial (M : HexaData ℝ) (x0 y0 θ : ℝ) (hx : x0 = 0) (hy : y0 = 0) (e k j i : Nat) (he : e < M.elem.length) :
    gridXY (rotateR M x0 y0 θ) e k j i = rot x0 y0 θ (gridXY M e k j i) ∧
    (gridXY M e k j i = (x0, y0) → gridXY (rotateR M x0 y0 θ) e k j i = (x0, y0)) ∧
    ((gridXY (rotateR M x0 y0 θ) e k j i).1 - x0) ^ 2 + ((gridXY (rotateR M x0 y0 θ) e k j i).2 - y0) ^ 2 =
      ((gridXY M e k j i).1 - x0) ^ 2 + ((gridXY M e k j i).2 - y0) ^ 2 := by
  subst hx hy
  have h := ((rotate_2d_spec M 0 0 θ).2.2 e he).2.2.1 k j i |>.1
  refine ⟨h, fun h' => ?_, ?_⟩
  · rw [h, h']; simp [rot]
  · rw [h]
    simp only [rot]
    linear_combination ((gridXY M e k j i).1 ^ 2 + (gridXY M e k j i).2 ^ 2) * sin_sq_add_cos_sq θ

/-- For which centres the code is right: exactly if the centre is the origin or the rotation is trivial (some grid
point exists). -/
theorem rotate_2d_centre_iff (M : HexaData ℝ) (x0 y0 θ : ℝ) (e k j i : Nat) (he : e < M.elem.length) :
    gridXY (rotateR M x0 y0 θ) e k j i = rot x0 y0 θ (gridXY M e k j i) ↔
      (x0 = 0 ∧ y0 = 0) ∨ cos θ = 1 := by
  have h := ((rotate_2d_spec M x0 y0 θ).2.2 e he).2.2.1 k j i |>.1
  rw [h]
  simp only [rot, Prod.mk.injEq]
  have hs := sin_sq_add_cos_sq θ
  constructor
  · rintro ⟨h1, h2⟩
    have a1 : (1 - cos θ) * x0 + sin θ * y0 = 0 := by linarith
    have a2 : (1 - cos θ) * y0 - sin θ * x0 = 0 := by linarith
    have a3 : 2 * (1 - cos θ) * (x0 ^ 2 + y0 ^ 2) = 0 := by
      have e1 : ((1 - cos θ) ^ 2 + sin θ ^ 2) * (x0 ^ 2 + y0 ^ 2) = 0 := by
        linear_combination ((1 - cos θ) * x0 + sin θ * y0) * a1 + ((1 - cos θ) * y0 - sin θ * x0) * a2
      linear_combination e1 - (x0 ^ 2 + y0 ^ 2) * hs
    rcases mul_eq_zero.1 a3 with h' | h'
    · right; linarith
    · left
      constructor <;> nlinarith [sq_nonneg x0, sq_nonneg y0]
  · rintro (⟨rfl, rfl⟩ | hc)
    · simp
    · have : sin θ = 0 := by rw [hc] at hs; nlinarith
      rw [hc, this]; constructor <;> ring

example : ∃ e, e < Samples.oneElem.elem.length := ⟨0, by simp [Samples.oneElem]⟩
example : WF Samples.oneElem ∧ Grid Samples.oneElem := by
  refine ⟨⟨rfl, ?_, Or.inl rfl⟩, ?_⟩
  · intro el hel
    simp only [Samples.oneElem, List.mem_singleton] at hel
    subst hel; rfl
  · intro el hel
    simp only [Samples.oneElem, List.mem_singleton] at hel
    subst hel; simp [boxElem]

end Pymech
