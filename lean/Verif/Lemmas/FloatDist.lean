import Verif.Lemmas.FloatOps
import Verif.Core.FloatConn
import Mathlib.Analysis.Real.Sqrt

/-!
# Rounding errors of the lengths computed by `check_connectivity`

The numbers that are too large or too small to compute with are abstract in these lemmas: `H` bounds the coordinates, `η` is an error of underflow.
-/

set_option autoImplicit false

namespace Pymech

open Flt

/-- Rounding for numbers up to about `H ^ 2`. -/
structure Rnd (H η : ℚ) : Prop where
  H1 : 1 ≤ H
  η0 : 0 ≤ η
  η1 : η ≤ 1 / 2 ^ 60
  r : ∀ (z : Bool) (q : ℚ), |q| ≤ H ^ 2 * 2 ^ 150 → (ofQ z q).Finite ∧ |(ofQ z q).val - q| ≤ |q| / 2 ^ 53 + η

/-- Accuracy of the C library: squares of numbers up to `H * 2 ^ 50` and roots. -/
structure LibmRnd (L : Libm) (H η : ℚ) : Prop where
  sq : ∀ x : F64, x.Finite → |x.val| ≤ H * 2 ^ 50 → (L.sq x).Finite ∧ 0 ≤ (L.sq x).val ∧ |(L.sq x).val - x.val ^ 2| ≤ x.val ^ 2 / 2 ^ 52 + η
  sqrt : ∀ x : F64, x.Finite → 0 ≤ x.val → (L.sqrt x).Finite ∧ 0 ≤ (L.sqrt x).val ∧ |(L.sqrt x).val ^ 2 - x.val| ≤ x.val / 2 ^ 51

section
variable {H η : ℚ}

theorem Rnd.small (R : Rnd H η) {B : ℚ} (h : B ≤ 1000 * H ^ 2 + 1000) : B ≤ H ^ 2 * 2 ^ 150 := by
  have : 1 ≤ H ^ 2 := one_le_pow₀ R.H1
  generalize H ^ 2 = K at *
  norm_num
  linarith

theorem Rnd.sq_ge (R : Rnd H η) : H ≤ H ^ 2 := by
  have := R.H1
  nlinarith

theorem Rnd.le (R : Rnd H η) (z : Bool) (q B : ℚ) (h : |q| ≤ B) (hB : B ≤ 1000 * H ^ 2 + 1000) :
    (ofQ z q).Finite ∧ |(ofQ z q).val - q| ≤ B / 2 ^ 53 + η := by
  obtain ⟨h1, h2⟩ := R.r z q (R.small (h.trans hB))
  exact ⟨h1, h2.trans (by gcongr)⟩

theorem quarterF : (1 / 4 : F64).Finite ∧ (1 / 4 : F64).val = 1 / 4 := by
  constructor <;> decide +kernel

/-- The mean of four coordinates. -/
theorem mean_near (R : Rnd H η) {X : ℚ} (hX : X ≤ H) {a b c d : F64} (fa : a.Finite) (fb : b.Finite) (fc : c.Finite) (fd : d.Finite)
    (ha : |a.val| ≤ X) (hb : |b.val| ≤ X) (hc : |c.val| ≤ X) (hd : |d.val| ≤ X) :
    (1 / 4 * (a + b + c + d) : F64).Finite ∧ |(1 / 4 * (a + b + c + d) : F64).val - (a.val + b.val + c.val + d.val) / 4| ≤ X / 2 ^ 50 + 4 * η := by
  have H1 := R.H1
  have HH := R.sq_ge
  have η0 := R.η0
  have η1 := R.η1
  have X0 : 0 ≤ X := (abs_nonneg _).trans ha
  have A := abs_le.mp ha
  have B := abs_le.mp hb
  have C := abs_le.mp hc
  have D := abs_le.mp hd
  norm_num at η1
  have s1 := R.le (a.neg && b.neg) (a.val + b.val) (2 * X) (abs_le.mpr ⟨by linarith [A.1, B.1], by linarith [A.2, B.2]⟩) (by linarith)
  rw [← add_fin fa fb] at s1
  obtain ⟨f1, e1⟩ := s1
  have E1 := abs_le.mp e1
  have s2 := R.le ((a + b).neg && c.neg) ((a + b).val + c.val) (4 * X + η)
    (abs_le.mpr ⟨by linarith [E1.1, A.1, B.1, C.1], by linarith [E1.2, A.2, B.2, C.2]⟩) (by linarith)
  rw [← add_fin f1 fc] at s2
  obtain ⟨f2, e2⟩ := s2
  have E2 := abs_le.mp e2
  have s3 := R.le ((a + b + c).neg && d.neg) ((a + b + c).val + d.val) (5 * X + 3 * η)
    (abs_le.mpr ⟨by linarith [E1.1, E2.1, A.1, B.1, C.1, D.1], by linarith [E1.2, E2.2, A.2, B.2, C.2, D.2]⟩) (by linarith)
  rw [← add_fin f2 fd] at s3
  obtain ⟨f3, e3⟩ := s3
  have E3 := abs_le.mp e3
  obtain ⟨fq, vq⟩ := quarterF
  have s4 := R.le ((1 / 4 : F64).neg ^^ (a + b + c + d).neg) ((1 / 4 : F64).val * (a + b + c + d).val) (2 * X + 2 * η) (by
    rw [vq]
    exact abs_le.mpr ⟨by linarith [E1.1, E2.1, E3.1, A.1, B.1, C.1, D.1], by linarith [E1.2, E2.2, E3.2, A.2, B.2, C.2, D.2]⟩) (by linarith)
  rw [← mul_fin fq f3] at s4
  obtain ⟨f4, e4⟩ := s4
  have E4 := abs_le.mp e4
  rw [vq] at E4
  refine ⟨f4, abs_le.mpr ⟨?_, ?_⟩⟩
  · linarith [E1.1, E2.1, E3.1, E4.1]
  · linarith [E1.2, E2.2, E3.2, E4.2]

/-- Two squares of numbers that differ by a rounding. -/
theorem sq_near (η0 : 0 ≤ η) (η1 : η ≤ 1 / 2 ^ 60) (D E : ℚ) (h : |E - D| ≤ |D| / 2 ^ 53 + η) : |E ^ 2 - D ^ 2| ≤ D ^ 2 / 2 ^ 51 + η := by
  have hD : 0 ≤ |D| := abs_nonneg D
  have e : D ^ 2 = |D| ^ 2 := (sq_abs D).symm
  have h2 : |E ^ 2 - D ^ 2| ≤ (|D| / 2 ^ 53 + η) * (2 * |D| + (|D| / 2 ^ 53 + η)) := by
    rw [show E ^ 2 - D ^ 2 = (E - D) * (2 * D + (E - D)) by ring, abs_mul]
    have : |2 * D + (E - D)| ≤ 2 * |D| + (|D| / 2 ^ 53 + η) := by
      refine (abs_add_le _ _).trans ?_
      rw [abs_mul, abs_two]
      linarith
    exact mul_le_mul h this (abs_nonneg _) (by positivity)
  refine h2.trans ?_
  rw [e]
  generalize |D| = d at hD
  have k1 : 2 * η * d ≤ d ^ 2 / 2 ^ 53 + 2 ^ 53 * η ^ 2 := by nlinarith [sq_nonneg (d / 2 ^ 53 - η)]
  have k2 : η ^ 2 ≤ η / 2 ^ 60 := by nlinarith
  norm_num at *
  nlinarith [sq_nonneg d]

theorem ofQ_zero' (z : Bool) : (ofQ z 0).val = 0 := by
  rw [ofQ_val, abs_zero, roundMag, if_pos le_rfl, magVal_zero]
  simp

/-- One term of a sum of squares. -/
theorem sqDiff_near (R : Rnd H η) {L : Libm} (hL : LibmRnd L H η) {Y : ℚ} (hY : Y ≤ 4 * H) {a b : F64} (fa : a.Finite) (fb : b.Finite)
    (ha : |a.val| ≤ Y) (hb : |b.val| ≤ Y) :
    (L.sq (a - b)).Finite ∧ 0 ≤ (L.sq (a - b)).val ∧ |(L.sq (a - b)).val - (a.val - b.val) ^ 2| ≤ (a.val - b.val) ^ 2 / 2 ^ 50 + 3 * η ∧
      (a.val - b.val) ^ 2 ≤ 64 * H ^ 2 := by
  have H1 := R.H1
  have HH := R.sq_ge
  have η0 := R.η0
  have η1 := R.η1
  have A := abs_le.mp ha
  have B := abs_le.mp hb
  have hD : |a.val - b.val| ≤ 8 * H := abs_le.mpr ⟨by linarith [A.1, B.2], by linarith [A.2, B.1]⟩
  obtain ⟨f, e⟩ := R.r (a.neg && !b.neg) (a.val - b.val) (R.small (hD.trans (by linarith)))
  rw [← sub_fin fa fb] at f e
  have hsz : |(a - b).val| ≤ H * 2 ^ 50 := by
    have := abs_le.mp e
    have := abs_le.mp hD
    norm_num at *
    exact abs_le.mpr ⟨by linarith, by linarith⟩
  obtain ⟨g1, g2, g3⟩ := hL.sq _ f hsz
  have k := abs_le.mp (sq_near η0 η1 _ _ e)
  have g := abs_le.mp g3
  have q0 := sq_nonneg (a.val - b.val)
  refine ⟨g1, g2, abs_le.mpr ⟨?_, ?_⟩, ?_⟩
  · norm_num at *
    linarith [k.1, k.2, g.1]
  · norm_num at *
    linarith [k.1, k.2, g.2]
  · have := sq_abs (a.val - b.val)
    have := pow_le_pow_left₀ (abs_nonneg _) hD 2
    nlinarith

/-- All three coordinates are finite and at most `Y`. -/
def V3.Tame (Y : ℚ) (p : V3 F64) : Prop := p.x.Finite ∧ p.y.Finite ∧ p.z.Finite ∧ |p.x.val| ≤ Y ∧ |p.y.val| ≤ Y ∧ |p.z.val| ≤ Y

/-- The point with exact coordinates. -/
def V3.vals (p : V3 F64) : V3 ℚ := ⟨p.x.val, p.y.val, p.z.val⟩

/-- The computed number `x` is near `q`: relative error `2 ^ -49`, absolute error `16 η`. -/
structure NearSq (H η : ℚ) (x : F64) (q : ℚ) : Prop where
  fin : x.Finite
  pos : 0 ≤ x.val
  qpos : 0 ≤ q
  lo : q - (q / 2 ^ 49 + 16 * η) ≤ x.val
  hi : x.val ≤ q + (q / 2 ^ 49 + 16 * η)
  size : q ≤ 192 * H ^ 2

/-- A sum of three squares. -/
theorem sumSq_near (R : Rnd H η) {L : Libm} (hL : LibmRnd L H η) {Y : ℚ} (hY : Y ≤ 4 * H) {p q : V3 F64} (hp : p.Tame Y) (hq : q.Tame Y) :
    NearSq H η (sumSqF L p q) (distSq p.vals q.vals) := by
  have H1 := R.H1
  have HH := R.sq_ge
  have η0 := R.η0
  have η1 := R.η1
  obtain ⟨p1, p2, p3, p4, p5, p6⟩ := hp
  obtain ⟨q1, q2, q3, q4, q5, q6⟩ := hq
  obtain ⟨fx, x0, xe, xs⟩ := sqDiff_near R hL hY q1 p1 q4 p4
  obtain ⟨fy, y0, ye, ys⟩ := sqDiff_near R hL hY q2 p2 q5 p5
  obtain ⟨fz, z0, ze, zs⟩ := sqDiff_near R hL hY q3 p3 q6 p6
  unfold sumSqF distSq V3.vals
  dsimp only
  have dx := sq_nonneg (q.x.val - p.x.val)
  have dy := sq_nonneg (q.y.val - p.y.val)
  have dz := sq_nonneg (q.z.val - p.z.val)
  have X := abs_le.mp xe
  have Y := abs_le.mp ye
  have Z := abs_le.mp ze
  generalize L.sq (q.x - p.x) = a at *
  generalize L.sq (q.y - p.y) = b at *
  generalize L.sq (q.z - p.z) = c at *
  generalize (q.x.val - p.x.val) ^ 2 = dx2 at *
  generalize (q.y.val - p.y.val) ^ 2 = dy2 at *
  generalize (q.z.val - p.z.val) ^ 2 = dz2 at *
  norm_num at η1 X Y Z
  have hab : |a.val + b.val| = a.val + b.val := abs_of_nonneg (by linarith)
  have s1 := R.r (a.neg && b.neg) (a.val + b.val) (R.small (by rw [hab]; linarith [X.2, Y.2]))
  rw [← add_fin fx fy, hab] at s1
  obtain ⟨f1, e1⟩ := s1
  have n1 : 0 ≤ (a + b).val := by
    rw [add_fin fx fy]
    have := ofQ_mono false (a.neg && b.neg) 0 (a.val + b.val) (by linarith)
    rwa [ofQ_zero'] at this
  have E1 := abs_le.mp e1
  norm_num at E1
  have habc : |(a + b).val + c.val| = (a + b).val + c.val := abs_of_nonneg (by linarith)
  have s2 := R.r ((a + b).neg && c.neg) ((a + b).val + c.val) (R.small (by rw [habc]; linarith [X.2, Y.2, Z.2, E1.2]))
  rw [← add_fin f1 fz, habc] at s2
  obtain ⟨f2, e2⟩ := s2
  have n2 : 0 ≤ (a + b + c).val := by
    rw [add_fin f1 fz]
    have := ofQ_mono false ((a + b).neg && c.neg) 0 ((a + b).val + c.val) (by linarith)
    rwa [ofQ_zero'] at this
  have E2 := abs_le.mp e2
  norm_num at E2
  refine ⟨f2, n2, by linarith, ?_, ?_, by linarith⟩
  · norm_num
    linarith [X.1, Y.1, Z.1, E1.1, E2.1]
  · norm_num
    linarith [X.2, Y.2, Z.2, E1.2, E2.2]

/-- The smaller of two computed numbers is near the smaller of the two exact ones. -/
theorem npMin_near (R : Rnd H η) {a b : F64} {qa qb : ℚ} (ha : NearSq H η a qa) (hb : NearSq H η b qb) : NearSq H η (npMin a b) (min qa qb) := by
  have η0 := R.η0
  obtain ⟨a1, a2, a3, a4, a5, a6⟩ := ha
  obtain ⟨b1, b2, b3, b4, b5, b6⟩ := hb
  have mono : ∀ q q' : ℚ, q ≤ q' → q - (q / 2 ^ 49 + 16 * η) ≤ q' - (q' / 2 ^ 49 + 16 * η) := by
    intro q q' h
    norm_num
    linarith
  unfold npMin
  rw [if_neg (not_nan a1), if_neg (not_nan b1)]
  by_cases h : a ≤ b
  · rw [if_pos h]
    have h' := (leF_iff a1 b1).1 h
    refine ⟨a1, a2, le_min a3 b3, (mono _ _ (min_le_left _ _)).trans a4, ?_, (min_le_left _ _).trans a6⟩
    rcases min_choice qa qb with e | e <;> rw [e]
    · exact a5
    · exact h'.trans b5
  · rw [if_neg h]
    have h' : b.val ≤ a.val := (not_le.1 fun hc => h ((leF_iff a1 b1).2 hc)).le
    refine ⟨b1, b2, le_min a3 b3, (mono _ _ (min_le_right _ _)).trans b4, ?_, (min_le_left _ _).trans a6⟩
    rcases min_choice qa qb with e | e <;> rw [e]
    · exact h'.trans a5
    · exact b5

theorem fold_near (R : Rnd H η) {l : List F64} {l' : List ℚ} (h : List.Forall₂ (NearSq H η) l l') :
    ∀ {a : F64} {q : ℚ}, NearSq H η a q → NearSq H η (l.foldl npMin a) (minList q l') := by
  unfold minList
  induction h with
  | nil => exact fun h => h
  | cons h1 _ ih => exact fun h => ih (npMin_near R h h1)

/-- The root of a number that is near `q` has a square near `q`. -/
theorem root_near {L : Libm} (hL : LibmRnd L H η) (R : Rnd H η) {x : F64} {q : ℚ} (h : NearSq H η x q) :
    (L.sqrt x).Finite ∧ 0 ≤ (L.sqrt x).val ∧ q - (q / 2 ^ 48 + 32 * η) ≤ (L.sqrt x).val ^ 2 ∧ (L.sqrt x).val ^ 2 ≤ q + (q / 2 ^ 48 + 32 * η) := by
  have η0 := R.η0
  obtain ⟨a1, a2, a3, a4, a5, a6⟩ := h
  obtain ⟨r1, r2, r3⟩ := hL.sqrt x a1 a2
  have r := abs_le.mp r3
  refine ⟨r1, r2, ?_, ?_⟩ <;> norm_num at * <;> linarith [r.1, r.2]

end

/-! ### Real numbers -/

theorem le_of_sq_le {x y : ℝ} (h : x ^ 2 ≤ y ^ 2) (hy : 0 ≤ y) : x ≤ y := (le_abs_self x).trans (abs_le_of_sq_le_sq h hy)

section
variable {η θ : ℝ}

theorem root_hi (hθ : 0 ≤ θ) (hη : 32 * η ≤ θ ^ 2) (r s : ℝ) (hs : 0 ≤ s) (h : r ^ 2 ≤ s + (s / 2 ^ 48 + 32 * η)) :
    r ≤ Real.sqrt s + Real.sqrt s / 2 ^ 48 + θ := by
  have h0 := Real.sqrt_nonneg s
  have h1 := Real.sq_sqrt hs
  generalize Real.sqrt s = w at *
  refine le_of_sq_le ?_ (by positivity)
  refine h.trans ?_
  rw [← h1]
  have k1 := mul_nonneg h0 hθ
  have k2 := sq_nonneg w
  norm_num
  nlinarith

theorem root_lo (hθ : 0 ≤ θ) (hη : 32 * η ≤ θ ^ 2) (r s : ℝ) (hr : 0 ≤ r) (h : s - (s / 2 ^ 48 + 32 * η) ≤ r ^ 2) :
    Real.sqrt s ≤ r + r / 2 ^ 47 + 2 * θ := by
  rw [Real.sqrt_le_left (by positivity)]
  have k1 := mul_nonneg hr hθ
  have k2 := sq_nonneg r
  norm_num at *
  nlinarith

/-- Moving each coordinate by at most `ε` moves the distance by at most `2 ε`. -/
theorem dist_move (a b c a' b' c' ε : ℝ) (ha : |a - a'| ≤ ε) (hb : |b - b'| ≤ ε) (hc : |c - c'| ≤ ε) :
    Real.sqrt (a ^ 2 + b ^ 2 + c ^ 2) ≤ Real.sqrt (a' ^ 2 + b' ^ 2 + c' ^ 2) + 2 * ε := by
  have ε0 : 0 ≤ ε := (abs_nonneg _).trans ha
  have h0 := Real.sqrt_nonneg (a' ^ 2 + b' ^ 2 + c' ^ 2)
  have h1 := Real.sq_sqrt (show 0 ≤ a' ^ 2 + b' ^ 2 + c' ^ 2 by positivity)
  generalize Real.sqrt (a' ^ 2 + b' ^ 2 + c' ^ 2) = w at *
  rw [Real.sqrt_le_left (by positivity)]
  have key : ∀ x y : ℝ, |x - y| ≤ ε → x ^ 2 ≤ y ^ 2 + 2 * ε * |y| + ε ^ 2 := by
    intro x y h
    have : |x| ≤ |y| + ε := by
      have := abs_add_le (x - y) y
      rw [sub_add_cancel] at this
      linarith
    have := pow_le_pow_left₀ (abs_nonneg x) this 2
    rw [sq_abs] at this
    have e := sq_abs y
    nlinarith
  have hsum : |a'| + |b'| + |c'| ≤ 2 * w := by
    refine le_of_sq_le ?_ (by positivity)
    have e1 := sq_abs a'
    have e2 := sq_abs b'
    have e3 := sq_abs c'
    nlinarith [sq_nonneg (|a'| - |b'|), sq_nonneg (|b'| - |c'|), sq_nonneg (|a'| - |c'|), sq_nonneg a', sq_nonneg b', sq_nonneg c']
  have k := mul_le_mul_of_nonneg_left hsum ε0
  nlinarith [key a a' ha, key b b' hb, key c c' hc]

end

end Pymech
