import Verif.Props.EdgeFloat

/-!
# C139: arcs of circles in double precision
-/

set_option autoImplicit false

namespace Pymech

open Spec Flt

namespace Spec

/-- `m` is the middle of the shorter arc of radius `R` from `p` to `q`: it is as far from one end as from the other, lies on a circle of radius
`R` through both ends, no further from the chord than `R`, and for a positive radius to the right of the chord. -/
structure ArcMiddle (R : ℝ) (p q m : V3 ℝ) : Prop where
  equal : (m.x - p.x) ^ 2 + (m.y - p.y) ^ 2 = (m.x - q.x) ^ 2 + (m.y - q.y) ^ 2
  height : m.z = (p.z + q.z) / 2
  circle : ∃ cx cy, (cx - p.x) ^ 2 + (cy - p.y) ^ 2 = R ^ 2 ∧ (cx - q.x) ^ 2 + (cy - q.y) ^ 2 = R ^ 2 ∧ (cx - m.x) ^ 2 + (cy - m.y) ^ 2 = R ^ 2
  short : (m.x - (p.x + q.x) / 2) ^ 2 + (m.y - (p.y + q.y) / 2) ^ 2 ≤ R ^ 2
  right : 0 < R → 0 ≤ (q.y - p.y) * (m.x - p.x) - (q.x - p.x) * (m.y - p.y)
  left : R < 0 → (q.y - p.y) * (m.x - p.x) - (q.x - p.x) * (m.y - p.y) ≤ 0

/-- The number that a double stands for. -/
def toR (x : F64) : ℝ := (x.val : ℚ)

/-- The point that is given by doubles. -/
def toR3 (p : V3 F64) : V3 ℝ := ⟨toR p.x, toR p.y, toR p.z⟩

/-- All coordinates are finite and at most `X`. -/
def TameAt (p : V3 F64) (X : ℝ) : Prop :=
  (p.x.Finite ∧ |toR p.x| ≤ X) ∧ (p.y.Finite ∧ |toR p.y| ≤ X) ∧ (p.z.Finite ∧ |toR p.z| ≤ X)

end Spec

/-- Rounding, for numbers up to `H`. -/
structure RoundR (H η : ℝ) : Prop where
  η0 : 0 ≤ η
  r : ∀ (z : Bool) (q : ℚ), |(q : ℝ)| ≤ H → (ofQ z q).Finite ∧ |toR (ofQ z q) - q| ≤ |(q : ℝ)| / 2 ^ 53 + η

/-- The C library, for squares of numbers up to `G`. -/
structure LibmR (L : Libm) (G η : ℝ) : Prop where
  sq : ∀ x : F64, x.Finite → |toR x| ≤ G → (L.sq x).Finite ∧ 0 ≤ toR (L.sq x) ∧ |toR (L.sq x) - toR x ^ 2| ≤ toR x ^ 2 / 2 ^ 52 + η
  sqrt : ∀ x : F64, x.Finite → 0 ≤ toR x → (L.sqrt x).Finite ∧ 0 ≤ toR (L.sqrt x) ∧ |toR (L.sqrt x) ^ 2 - toR x| ≤ toR x / 2 ^ 51

section
variable {H η : ℝ}

theorem RoundR.add (W : RoundR H η) {x y : F64} (fx : x.Finite) (fy : y.Finite) {B : ℝ} (h : |toR x + toR y| ≤ B) (hB : B ≤ H) :
    (x + y).Finite ∧ |toR (x + y) - (toR x + toR y)| ≤ B / 2 ^ 53 + η := by
  rw [add_fin fx fy]
  have e : ((x.val + y.val : ℚ) : ℝ) = toR x + toR y := by unfold toR; push_cast; rfl
  obtain ⟨h1, h2⟩ := W.r (x.neg && y.neg) (x.val + y.val) (by rw [e]; exact h.trans hB)
  rw [e] at h2
  exact ⟨h1, h2.trans (by gcongr)⟩

theorem RoundR.sub (W : RoundR H η) {x y : F64} (fx : x.Finite) (fy : y.Finite) {B : ℝ} (h : |toR x - toR y| ≤ B) (hB : B ≤ H) :
    (x - y).Finite ∧ |toR (x - y) - (toR x - toR y)| ≤ B / 2 ^ 53 + η := by
  rw [sub_fin fx fy]
  have e : ((x.val - y.val : ℚ) : ℝ) = toR x - toR y := by unfold toR; push_cast; rfl
  obtain ⟨h1, h2⟩ := W.r (x.neg && !y.neg) (x.val - y.val) (by rw [e]; exact h.trans hB)
  rw [e] at h2
  exact ⟨h1, h2.trans (by gcongr)⟩

theorem RoundR.mul (W : RoundR H η) {x y : F64} (fx : x.Finite) (fy : y.Finite) {B : ℝ} (h : |toR x * toR y| ≤ B) (hB : B ≤ H) :
    (x * y).Finite ∧ |toR (x * y) - toR x * toR y| ≤ B / 2 ^ 53 + η := by
  rw [mul_fin fx fy]
  have e : ((x.val * y.val : ℚ) : ℝ) = toR x * toR y := by unfold toR; push_cast; rfl
  obtain ⟨h1, h2⟩ := W.r (x.neg ^^ y.neg) (x.val * y.val) (by rw [e]; exact h.trans hB)
  rw [e] at h2
  exact ⟨h1, h2.trans (by gcongr)⟩

theorem RoundR.div (W : RoundR H η) {x y : F64} (fx : x.Finite) (fy : y.Finite) (h0 : toR y ≠ 0) {B : ℝ} (h : |toR x / toR y| ≤ B) (hB : B ≤ H) :
    (x / y).Finite ∧ |toR (x / y) - toR x / toR y| ≤ B / 2 ^ 53 + η := by
  rw [div_fin fx fy (by intro h; apply h0; unfold toR; rw [h]; norm_num)]
  have e : ((x.val / y.val : ℚ) : ℝ) = toR x / toR y := by unfold toR; push_cast; rfl
  obtain ⟨h1, h2⟩ := W.r (x.neg ^^ y.neg) (x.val / y.val) (by rw [e]; exact h.trans hB)
  rw [e] at h2
  exact ⟨h1, h2.trans (by gcongr)⟩

theorem near_abs {a b e B : ℝ} (h : |a - b| ≤ e) (hb : |b| ≤ B) : |a| ≤ B + e := by
  have := abs_le.mp h
  have := abs_le.mp hb
  rw [abs_le]
  constructor <;> linarith

theorem near_trans {a b c e f : ℝ} (h : |a - b| ≤ e) (g : |b - c| ≤ f) : |a - c| ≤ e + f := by
  have := abs_le.mp h
  have := abs_le.mp g
  rw [abs_le]
  constructor <;> linarith

theorem near_sq {a b c δ : ℝ} (h : |a - b| ≤ c * δ) (hb : |b| ≤ c) : |a ^ 2 - b ^ 2| ≤ c ^ 2 * (2 * δ + δ ^ 2) := by
  have h1 : |a + b| ≤ 2 * c + c * δ := by
    have := abs_le.mp h
    have := abs_le.mp hb
    rw [abs_le]
    constructor <;> linarith
  have e : a ^ 2 - b ^ 2 = (a - b) * (a + b) := by ring
  rw [e, abs_mul]
  calc |a - b| * |a + b| ≤ c * δ * (2 * c + c * δ) := mul_le_mul h h1 (abs_nonneg _) ((abs_nonneg _).trans h)
    _ = c ^ 2 * (2 * δ + δ ^ 2) := by ring

theorem fourF : (4 : F64).Finite ∧ toR (4 : F64) = 4 := by
  obtain ⟨h1, h2⟩ := natCast_exact 4 (by norm_num)
  refine ⟨h1, ?_⟩
  unfold toR
  have : (4 : F64).val = ((4 : Nat) : ℚ) := h2
  rw [this]
  norm_num

theorem twoFR : (2 : F64).Finite ∧ toR (2 : F64) = 2 := by
  refine ⟨twoF_fin, ?_⟩
  unfold toR
  rw [twoF_val]
  norm_num

/-- A side of the chord and its square. -/
theorem side_near (W : RoundR H η) {L : Libm} {G : ℝ} (LR : LibmR L G η) {c : ℝ} (hc : 0 < c) (hη1 : η ≤ c / 2 ^ 70) (hη2 : η ≤ c ^ 2 / 2 ^ 70)
    (hG : 2 * c ≤ G) (hH : c ≤ H) {x y : F64} (fx : x.Finite) (fy : y.Finite) (h : |toR x - toR y| ≤ c) :
    (x - y).Finite ∧ |toR (x - y) - (toR x - toR y)| ≤ c / 2 ^ 52 ∧ (L.sq (x - y)).Finite ∧ 0 ≤ toR (L.sq (x - y)) ∧
      |toR (L.sq (x - y)) - (toR x - toR y) ^ 2| ≤ c ^ 2 / 2 ^ 50 := by
  obtain ⟨f1, e1⟩ := W.sub fx fy h hH
  have e2 : |toR (x - y) - (toR x - toR y)| ≤ c / 2 ^ 52 := e1.trans (by linarith)
  have b1 := near_abs e2 h
  obtain ⟨f2, p2, e3⟩ := LR.sq (x - y) f1 (b1.trans (by linarith))
  refine ⟨f1, e2, f2, p2, ?_⟩
  have e4 := near_sq (δ := 1 / 2 ^ 52) (by rw [mul_one_div]; exact e2) h
  have c2 : 0 < c ^ 2 := by positivity
  have e5 : toR (x - y) ^ 2 ≤ 3 / 2 * c ^ 2 := by
    have h1 : (toR x - toR y) ^ 2 ≤ c ^ 2 := by
      rw [← sq_abs]
      exact pow_le_pow_left₀ (abs_nonneg _) h 2
    have := (abs_le.mp e4).2
    linarith
  have := near_trans e3 e4
  refine this.trans ?_
  linarith

/-- What is under the first root. -/
theorem under_near (W : RoundR H η) {L : Libm} {G : ℝ} (LR : LibmR L G η) {c r : ℝ} (hr : 0 < r) (hcr : c ^ 2 ≤ 4 * r ^ 2)
    (hη : η ≤ r ^ 2 / 2 ^ 60) (hG : r ≤ G) (hH : 5 * r ^ 2 ≤ H) {R sx sy : F64} (fR : R.Finite) (hR : |toR R| = r) (fx : sx.Finite) (fy : sy.Finite)
    {dx dy : ℝ} (hd : dx ^ 2 + dy ^ 2 = c ^ 2) (ex : |toR sx - dx ^ 2| ≤ c ^ 2 / 2 ^ 50) (ey : |toR sy - dy ^ 2| ≤ c ^ 2 / 2 ^ 50) :
    (L.sq R - sx / 4 - sy / 4).Finite ∧ |toR (L.sq R - sx / 4 - sy / 4) - (r ^ 2 - c ^ 2 / 4)| ≤ r ^ 2 / 2 ^ 47 := by
  have r2 : 0 < r ^ 2 := by positivity
  have hR2 : toR R ^ 2 = r ^ 2 := by rw [← sq_abs, hR]
  obtain ⟨f0, p0, e0⟩ := LR.sq R fR (by rw [hR]; exact hG)
  rw [hR2] at e0
  have x0 := sq_nonneg dx
  have y0 := sq_nonneg dy
  have q1 : toR (4 : F64) ≠ 0 := by rw [fourF.2]; norm_num
  have quarter : ∀ (s : F64) (d : ℝ), s.Finite → 0 ≤ d → d ≤ c ^ 2 → |toR s - d| ≤ c ^ 2 / 2 ^ 50 →
      (s / 4).Finite ∧ |toR (s / 4) - d / 4| ≤ r ^ 2 / 2 ^ 49 := by
    intro s d fs d0 d1 es
    have es' := abs_le.mp es
    obtain ⟨f, e⟩ := W.div (B := 5 / 4 * r ^ 2) fs fourF.1 q1 (by
      rw [fourF.2, abs_le]
      constructor <;> linarith) (by linarith)
    rw [fourF.2] at e
    refine ⟨f, ?_⟩
    have e' := abs_le.mp e
    rw [abs_le]
    constructor <;> linarith
  obtain ⟨f1, e1⟩ := quarter sx (dx ^ 2) fx x0 (by linarith) ex
  obtain ⟨f2, e2⟩ := quarter sy (dy ^ 2) fy y0 (by linarith) ey
  have e0' := abs_le.mp e0
  have e1' := abs_le.mp e1
  have e2' := abs_le.mp e2
  obtain ⟨f3, e3⟩ := W.sub (B := 3 * r ^ 2) f0 f1 (by rw [abs_le]; constructor <;> linarith) (by linarith)
  have e3' := abs_le.mp e3
  obtain ⟨f4, e4⟩ := W.sub (B := 4 * r ^ 2) f3 f2 (by rw [abs_le]; constructor <;> linarith) (by linarith)
  have e4' := abs_le.mp e4
  refine ⟨f4, ?_⟩
  rw [abs_le]
  constructor <;> linarith

theorem rootR_near {s t e r : ℝ} (hs : 0 ≤ s) (ht : 0 ≤ t) (hr : 0 ≤ r) (h : |s ^ 2 - t ^ 2| ≤ (r * e) ^ 2) (he : 0 ≤ e) : |s - t| ≤ r * e := by
  refine abs_le_of_sq_le_sq ?_ (mul_nonneg hr he)
  refine le_trans ?_ h
  have e1 : s ^ 2 - t ^ 2 = (s - t) * (s + t) := by ring
  rw [e1, abs_mul, ← sq_abs, sq, abs_of_nonneg (add_nonneg hs ht)]
  refine mul_le_mul_of_nonneg_left ?_ (abs_nonneg _)
  rw [abs_le]
  constructor <;> linarith

theorem root_near_far {s t e k : ℝ} (hs : 0 ≤ s) (hk : 0 < k) (ht : k ≤ t) (h : |s ^ 2 - t ^ 2| ≤ k * e) : |s - t| ≤ e := by
  have e1 : s ^ 2 - t ^ 2 = (s - t) * (s + t) := by ring
  rw [e1, abs_mul, abs_of_nonneg (by linarith : 0 ≤ s + t)] at h
  have h1 : |s - t| * k ≤ |s - t| * (s + t) := mul_le_mul_of_nonneg_left (by linarith) (abs_nonneg _)
  have h2 : |s - t| * k ≤ e * k := by linarith
  exact le_of_mul_le_mul_right h2 hk

/-- The first root. -/
theorem first_root {L : Libm} {G : ℝ} (LR : LibmR L G η) {c r : ℝ} (hr : 0 < r) (hcr : c ^ 2 ≤ 4 * r ^ 2 * (1 - 1 / 2 ^ 46)) {u : F64}
    (fu : u.Finite) (eu : |toR u - (r ^ 2 - c ^ 2 / 4)| ≤ r ^ 2 / 2 ^ 47) :
    (L.sqrt u).Finite ∧ 0 ≤ toR (L.sqrt u) ∧ |toR (L.sqrt u) - Real.sqrt (r ^ 2 - c ^ 2 / 4)| ≤ r / 2 ^ 23 ∧
      (c ≤ r → 0 ≤ c → |toR (L.sqrt u) - Real.sqrt (r ^ 2 - c ^ 2 / 4)| ≤ r / 2 ^ 45) := by
  have r2 : 0 < r ^ 2 := by positivity
  have c2 := sq_nonneg c
  have eu' := abs_le.mp eu
  have u0 : 0 ≤ r ^ 2 - c ^ 2 / 4 := by linarith
  obtain ⟨f, p, e⟩ := LR.sqrt u fu (by linarith)
  have e' := abs_le.mp e
  have key : |toR (L.sqrt u) ^ 2 - Real.sqrt (r ^ 2 - c ^ 2 / 4) ^ 2| ≤ r ^ 2 / 2 ^ 46 := by
    rw [Real.sq_sqrt u0, abs_le]
    constructor <;> linarith
  refine ⟨f, p, ?_, fun h h0 => ?_⟩
  · have := rootR_near (r := r) (e := 1 / 2 ^ 23) p (Real.sqrt_nonneg _) hr.le (key.trans (by rw [mul_pow, div_pow, ← pow_mul]; linarith)) (by positivity)
    rwa [mul_one_div] at this
  · refine root_near_far (k := r / 2) p (by linarith) ?_ (key.trans (by
      have : r / 2 * (r / 2 ^ 45) = r ^ 2 / 2 ^ 46 := by ring
      linarith))
    refine Real.le_sqrt_of_sq_le ?_
    have : c ^ 2 ≤ r ^ 2 := pow_le_pow_left₀ h0 h 2
    rw [div_pow]
    linarith

/-- The length of the chord. -/
theorem chord_near (W : RoundR H η) {L : Libm} {G : ℝ} (LR : LibmR L G η) {c : ℝ} (hc : 0 < c)
    (hη : η ≤ c ^ 2 / 2 ^ 70) (hH : 2 * c ^ 2 ≤ H) {sx sy : F64} (fx : sx.Finite) (fy : sy.Finite)
    {dx dy : ℝ} (hd : dx ^ 2 + dy ^ 2 = c ^ 2) (ex : |toR sx - dx ^ 2| ≤ c ^ 2 / 2 ^ 50) (ey : |toR sy - dy ^ 2| ≤ c ^ 2 / 2 ^ 50) :
    (L.sqrt (sx + sy)).Finite ∧ |toR (L.sqrt (sx + sy)) - c| ≤ c / 2 ^ 47 := by
  have c2 : 0 < c ^ 2 := by positivity
  have ex' := abs_le.mp ex
  have ey' := abs_le.mp ey
  obtain ⟨f1, e1⟩ := W.add (B := 2 * c ^ 2) fx fy (by rw [abs_le]; constructor <;> linarith) hH
  have e1' := abs_le.mp e1
  obtain ⟨f2, p2, e2⟩ := LR.sqrt _ f1 (by linarith)
  have e2' := abs_le.mp e2
  refine ⟨f2, root_near_far p2 hc le_rfl ?_⟩
  have : c * (c / 2 ^ 47) = c ^ 2 / 2 ^ 47 := by ring
  rw [this, abs_le]
  constructor <;> linarith

/-- The factor before the normal of the chord. -/
theorem factor_near (W : RoundR H η) {c r τ : ℝ} (hc : 0 < c) (hr : 0 < r) (hcr : c ≤ 2 * r) (hη0 : η ≤ 1 / 2 ^ 70) (hη1 : η ≤ c / 2 ^ 70)
    (hH1 : 5 * (r / c) ≤ H) (hH2 : 6 * (r / c) * r ≤ H) (hH3 : 6 * (r / c) ≤ H) (hH4 : 3 * r ≤ H) (hτ : τ ≤ r / 2 ^ 20) {R s ch : F64} (fR : R.Finite) (hR : |toR R| = r) (fs : s.Finite) (fch : ch.Finite)
    {t : ℝ} (t0 : 0 ≤ t) (t1 : t ≤ r) (es : |toR s - t| ≤ τ) (ech : |toR ch - c| ≤ c / 2 ^ 47) :
    ((absF R - s) / ch * R / absF R).Finite ∧ ∃ D : ℝ, |D - (r - t)| ≤ τ + r / 2 ^ 51 ∧ |D| ≤ 2 * r ∧
      |toR ((absF R - s) / ch * R / absF R) - toR R / r * (D / toR ch)| ≤ r / c / 2 ^ 48 := by
  have hA : toR (absF R) = r := by
    rw [← hR]
    unfold toR
    have : (absF R).val = |R.val| := (abs_val R).symm
    rw [this]
    push_cast
    rfl
  have fA : (absF R).Finite := fR
  have es' := abs_le.mp es
  have ech' := abs_le.mp ech
  obtain ⟨f1, e1⟩ := W.sub (B := 2 * r) fA fs (by rw [hA, abs_le]; constructor <;> linarith) (by linarith)
  rw [hA] at e1
  have e1' := abs_le.mp e1
  set D := toR (absF R - s) with hD
  have bD : |D| ≤ 2 * r := by rw [abs_le]; constructor <;> linarith
  have ch0 : c / 2 ≤ toR ch := by linarith
  have chp : 0 < toR ch := by linarith
  set ρ := r / c with hρ
  have ρ0 : 0 < ρ := div_pos hr hc
  have ρ1 : 1 / 2 ≤ ρ := by
    rw [hρ, div_le_div_iff₀ (by norm_num) hc]
    linarith
  have hcρ : ρ * c = r := div_mul_cancel₀ _ hc.ne'
  have q1 : |D / toR ch| ≤ 4 * ρ + ρ / 2 ^ 40 := by
    rw [abs_div, abs_of_pos chp, div_le_iff₀ chp]
    refine bD.trans ?_
    have : ρ * (c / 2) ≤ ρ * toR ch := mul_le_mul_of_nonneg_left ch0 ρ0.le
    have h2 : 0 < ρ * toR ch := mul_pos ρ0 chp
    have h3 : 2 * r = 4 * (ρ * (c / 2)) := by rw [← hcρ]; ring
    rw [h3]
    have h4 : (4 * ρ + ρ / 2 ^ 40) * toR ch = 4 * (ρ * toR ch) + ρ * toR ch / 2 ^ 40 := by ring
    rw [h4]
    linarith
  obtain ⟨f2, e2⟩ := W.div (B := 5 * ρ) f1 fch chp.ne' (q1.trans (by linarith)) hH1
  have e2' : |toR ((absF R - s) / ch) - D / toR ch| ≤ ρ / 2 ^ 50 := e2.trans (by linarith)
  have b2 := near_abs e2' q1
  have b2r : |toR ((absF R - s) / ch) * toR R| ≤ 5 * ρ * r := by
    rw [abs_mul, hR]
    exact mul_le_mul_of_nonneg_right (b2.trans (by linarith)) hr.le
  have ρr : c / 4 ≤ ρ * r := by
    have : r * r = ρ * r * c := by rw [mul_right_comm, hcρ]
    have h1 : c * c / 4 ≤ r * r := by nlinarith
    rw [this] at h1
    have h2 : c / 4 * c ≤ ρ * r * c := by linarith
    exact le_of_mul_le_mul_right h2 hc
  obtain ⟨f3, e3⟩ := W.mul (B := 5 * ρ * r) f2 fR b2r (by
    have : 0 < ρ * r := mul_pos ρ0 hr
    have h1 : 5 * ρ * r = 5 * (ρ * r) := by ring
    have h2 : 6 * ρ * r = 6 * (ρ * r) := by ring
    rw [h2] at hH2
    linarith)
  have e3' : |toR ((absF R - s) / ch * R) - toR ((absF R - s) / ch) * toR R| ≤ ρ / 2 ^ 50 * r := by
    refine e3.trans ?_
    have h1 : 5 * ρ * r = 5 * (ρ * r) := by ring
    have h2 : ρ / 2 ^ 50 * r = ρ * r / 2 ^ 50 := by ring
    rw [h1, h2]
    linarith
  have e3'' : |toR ((absF R - s) / ch * R) / r - toR R / r * toR ((absF R - s) / ch)| ≤ ρ / 2 ^ 50 := by
    have : toR ((absF R - s) / ch * R) / r - toR R / r * toR ((absF R - s) / ch) =
      (toR ((absF R - s) / ch * R) - toR ((absF R - s) / ch) * toR R) / r := by ring
    rw [this, abs_div, abs_of_pos hr, div_le_iff₀ hr]
    exact e3'
  have σ1 : |toR R / r| = 1 := by rw [abs_div, hR, abs_of_pos hr, div_self hr.ne']
  have e2'' : |toR R / r * toR ((absF R - s) / ch) - toR R / r * (D / toR ch)| ≤ ρ / 2 ^ 50 := by
    rw [← mul_sub, abs_mul, σ1, one_mul]
    exact e2'
  have e5 := near_trans e3'' e2''
  have q2 : |toR R / r * (D / toR ch)| ≤ 4 * ρ + ρ / 2 ^ 40 := by
    rw [abs_mul, σ1, one_mul]
    exact q1
  have b3 := near_abs e5 q2
  obtain ⟨f4, e4⟩ := W.div (x := (absF R - s) / ch * R) (B := 6 * ρ) f3 fA (by rw [hA]; exact hr.ne') (by rw [hA]; exact b3.trans (by linarith)) hH3
  rw [hA] at e4
  refine ⟨f4, D, ?_, bD, ?_⟩
  · rw [abs_le]
    constructor <;> linarith
  · exact (near_trans e4 e5).trans (by linarith)

/-- The offset of the middle of the arc from the chord, in one direction. -/
theorem offset_near (W : RoundR H η) {c r τ : ℝ} (hc : 0 < c) (hr : 0 < r) (hcr : c ≤ 2 * r) (hη1 : η ≤ c / 2 ^ 70)
    (hH : 10 * r ≤ H) {R k d ch : F64} (hR : |toR R| = r) (fk : k.Finite) (fd : d.Finite)
    {t D : ℝ} (ech : |toR ch - c| ≤ c / 2 ^ 47) (eD : |D - (r - t)| ≤ τ + r / 2 ^ 51) (bD : |D| ≤ 2 * r)
    (ek : |toR k - toR R / r * (D / toR ch)| ≤ r / c / 2 ^ 48) {y : ℝ} (hy : |y| ≤ c) (ed : |toR d - y| ≤ c / 2 ^ 52) :
    (k * d).Finite ∧ |toR (k * d) - (r - t) / c * toR R / r * y| ≤ τ + r / 2 ^ 44 := by
  have ech' := abs_le.mp ech
  have ch0 : c / 2 ≤ toR ch := by linarith
  have chp : 0 < toR ch := by linarith
  have σ1 : |toR R / r| = 1 := by rw [abs_div, hR, abs_of_pos hr, div_self hr.ne']
  have hcρ : r / c * c = r := div_mul_cancel₀ _ hc.ne'
  have ρ0 : 0 < r / c := div_pos hr hc
  have bd := near_abs ed hy
  have q1 : |D / toR ch| ≤ 4 * (r / c) := by
    rw [abs_div, abs_of_pos chp, div_le_iff₀ chp]
    have : r / c * (c / 2) ≤ r / c * toR ch := mul_le_mul_of_nonneg_left ch0 ρ0.le
    have h3 : r / c * (c / 2) = r / 2 := by rw [← mul_div_assoc, hcρ]
    rw [h3] at this
    have h4 : 4 * (r / c) * toR ch = 4 * (r / c * toR ch) := by ring
    rw [h4]
    linarith
  have q2 : |toR R / r * (D / toR ch)| ≤ 4 * (r / c) := by rw [abs_mul, σ1, one_mul]; exact q1
  have bk := near_abs ek q2
  -- the factor
  have s1 : |toR k * toR d - toR R / r * (D / toR ch) * toR d| ≤ r / 2 ^ 47 := by
    rw [← sub_mul, abs_mul]
    calc _ ≤ r / c / 2 ^ 48 * (2 * c) := mul_le_mul ek (bd.trans (by linarith)) (abs_nonneg _) (by positivity)
      _ = r / c * c / 2 ^ 47 := by ring
      _ = r / 2 ^ 47 := by rw [hcρ]
  have s2 : |toR R / r * (D / toR ch) * toR d - toR R / r * (D / toR ch) * y| ≤ r / 2 ^ 50 := by
    rw [← mul_sub, abs_mul]
    calc _ ≤ 4 * (r / c) * (c / 2 ^ 52) := mul_le_mul q2 ed (abs_nonneg _) (by positivity)
      _ = r / c * c / 2 ^ 50 := by ring
      _ = r / 2 ^ 50 := by rw [hcρ]
  have s3 : |toR R / r * (D / toR ch) * y - toR R / r * (D / c) * y| ≤ r / 2 ^ 45 := by
    rw [← sub_mul, ← mul_sub, abs_mul, abs_mul, σ1, one_mul]
    have e : D / toR ch - D / c = D / toR ch * ((c - toR ch) / c) := by
      field_simp
    have e2 : |(c - toR ch) / c| ≤ 1 / 2 ^ 47 := by
      rw [abs_div, abs_of_pos hc, div_le_iff₀ hc, abs_sub_comm]
      linarith
    rw [e, abs_mul]
    calc _ ≤ 4 * (r / c) * (1 / 2 ^ 47) * c := mul_le_mul (mul_le_mul q1 e2 (abs_nonneg _) (by positivity)) hy (abs_nonneg _) (by positivity)
      _ = r / c * c / 2 ^ 45 := by ring
      _ = r / 2 ^ 45 := by rw [hcρ]
  have s4 : |toR R / r * (D / c) * y - (r - t) / c * toR R / r * y| ≤ τ + r / 2 ^ 51 := by
    have e : toR R / r * (D / c) * y - (r - t) / c * toR R / r * y = toR R / r * ((D - (r - t)) * (y / c)) := by ring
    have e2 : |y / c| ≤ 1 := by
      rw [abs_div, abs_of_pos hc, div_le_one hc]
      exact hy
    rw [e, abs_mul, σ1, one_mul, abs_mul]
    calc _ ≤ (τ + r / 2 ^ 51) * 1 := mul_le_mul eD e2 (abs_nonneg _) ((abs_nonneg _).trans eD)
      _ = _ := mul_one _
  obtain ⟨f, e⟩ := W.mul (B := 10 * r) fk fd (by
    rw [abs_mul]
    calc _ ≤ 5 * (r / c) * (2 * c) := mul_le_mul (bk.trans (by linarith)) (bd.trans (by linarith)) (abs_nonneg _) (by positivity)
      _ = 10 * (r / c * c) := by ring
      _ = 10 * r := by rw [hcρ]) hH
  refine ⟨f, ?_⟩
  have := near_trans e (near_trans s1 (near_trans s2 (near_trans s3 s4)))
  exact this.trans (by linarith)

/-- The middle of the chord. -/
theorem half_near (W : RoundR H η) {X : ℝ} {x y : F64} (fx : x.Finite) (fy : y.Finite) (hx : |toR x| ≤ X) (hy : |toR y| ≤ X)
    (hη : η ≤ 1) (hH : 2 * X + 2 ≤ H) :
    ((y + x) / 2).Finite ∧ |toR ((y + x) / 2) - (toR y + toR x) / 2| ≤ X / 2 ^ 51 + 2 * η := by
  have X0 : 0 ≤ X := (abs_nonneg _).trans hx
  have hx' := abs_le.mp hx
  have hy' := abs_le.mp hy
  have η0 := W.η0
  obtain ⟨f1, e1⟩ := W.add (B := 2 * X) fy fx (by rw [abs_le]; constructor <;> linarith) (by linarith)
  have e1' := abs_le.mp e1
  obtain ⟨f2, e2⟩ := W.div (B := 2 * X + η) f1 twoFR.1 (by rw [twoFR.2]; norm_num) (by rw [twoFR.2, abs_le]; constructor <;> linarith) (by linarith)
  rw [twoFR.2] at e2
  have e2' := abs_le.mp e2
  refine ⟨f2, ?_⟩
  rw [abs_le]
  constructor <;> linarith

/-- The middle of an arc: the error. -/
theorem arcMidF_near (W : RoundR H η) {L : Libm} {G : ℝ} (LR : LibmR L G η) {X r c : ℝ} (hc : 0 < c) (hr : 0 < r) {R : F64} {p q : V3 F64}
    (fR : R.Finite) (hR : |toR R| = r) (hp : TameAt p X) (hq : TameAt q X) (hcc : (toR q.x - toR p.x) ^ 2 + (toR q.y - toR p.y) ^ 2 = c ^ 2)
    (hcr : c ^ 2 ≤ 4 * r ^ 2 * (1 - 1 / 2 ^ 46)) (hη0 : η ≤ 1 / 2 ^ 70) (hη1 : η ≤ c / 2 ^ 70) (hη2 : η ≤ c ^ 2 / 2 ^ 70)
    (hG : 4 * r ≤ G) (hH1 : 8 * r ^ 2 ≤ H) (hH2 : 6 * (r / c) ≤ H) (hH3 : 6 * (r / c) * r ≤ H) (hH4 : 10 * r + 2 * X + 2 ≤ H) {τ : ℝ}
    (hτ : τ ≤ r / 2 ^ 20)
    (es : |toR (L.sqrt (L.sq R - L.sq (q.x - p.x) / 4 - L.sq (q.y - p.y) / 4)) - Real.sqrt (r ^ 2 - c ^ 2 / 4)| ≤ τ) :
    (arcMidF L R p q).x.Finite ∧ (arcMidF L R p q).y.Finite ∧ (arcMidF L R p q).z.Finite ∧
    |toR (arcMidF L R p q).x - (arcMid Real.sqrt (toR R) (toR3 p) (toR3 q)).x| ≤ τ + r / 2 ^ 43 + X / 2 ^ 50 ∧
    |toR (arcMidF L R p q).y - (arcMid Real.sqrt (toR R) (toR3 p) (toR3 q)).y| ≤ τ + r / 2 ^ 43 + X / 2 ^ 50 ∧
    |toR (arcMidF L R p q).z - (arcMid Real.sqrt (toR R) (toR3 p) (toR3 q)).z| ≤ τ + r / 2 ^ 43 + X / 2 ^ 50 := by
  obtain ⟨⟨fpx, hpx⟩, ⟨fpy, hpy⟩, ⟨fpz, hpz⟩⟩ := hp
  obtain ⟨⟨fqx, hqx⟩, ⟨fqy, hqy⟩, ⟨fqz, hqz⟩⟩ := hq
  have X0 : 0 ≤ X := (abs_nonneg _).trans hpx
  have η0 := W.η0
  have r2 : 0 < r ^ 2 := by positivity
  have c2 : 0 < c ^ 2 := by positivity
  have hcr' : c ^ 2 ≤ 4 * r ^ 2 := by linarith
  have hcr1 : c ≤ 2 * r := by
    refine le_of_sq_le_sq ?_ (by linarith)
    linarith
  have x0 := sq_nonneg (toR q.x - toR p.x)
  have y0 := sq_nonneg (toR q.y - toR p.y)
  have bx : |toR q.x - toR p.x| ≤ c := abs_le_of_sq_le_sq (by linarith) hc.le
  have by' : |toR q.y - toR p.y| ≤ c := abs_le_of_sq_le_sq (by linarith) hc.le
  obtain ⟨fdx, edx, fsx, psx, esx⟩ := side_near W LR hc hη1 hη2 (by linarith) (by linarith) fqx fpx bx
  obtain ⟨fdy, edy, fsy, psy, esy⟩ := side_near W LR hc hη1 hη2 (by linarith) (by linarith) fqy fpy by'
  obtain ⟨fu, eu⟩ := under_near W LR hr hcr' (hη2.trans (by linarith)) (by linarith) (by linarith) fR hR fsx fsy hcc esx esy
  obtain ⟨fs, ps, -⟩ := first_root LR hr hcr fu eu
  obtain ⟨fch, ech⟩ := chord_near W LR hc hη2 (by linarith) fsx fsy hcc esx esy
  have t0 := Real.sqrt_nonneg (r ^ 2 - c ^ 2 / 4)
  have t1 : Real.sqrt (r ^ 2 - c ^ 2 / 4) ≤ r := by
    rw [Real.sqrt_le_left hr.le]
    linarith
  have ρ0 : 0 < r / c := div_pos hr hc
  obtain ⟨fk, D, eD, bD, ek⟩ := factor_near W hc hr hcr1 hη0 hη1 (by linarith) hH3 hH2 (by linarith) hτ fR hR fs fch t0 t1 es ech
  obtain ⟨fP, eP⟩ := offset_near W hc hr hcr1 hη1 (by linarith) hR fk fdy ech eD bD ek by' edy
  obtain ⟨fQ, eQ⟩ := offset_near W hc hr hcr1 hη1 (by linarith) hR fk fdx ech eD bD ek bx edx
  have hη3 : η ≤ 1 := hη0.trans (by norm_num)
  obtain ⟨fax, eax⟩ := half_near W fpx fqx hpx hqx hη3 (by linarith)
  obtain ⟨fay, eay⟩ := half_near W fpy fqy hpy hqy hη3 (by linarith)
  obtain ⟨faz, eaz⟩ := half_near W fpz fqz hpz hqz hη3 (by linarith)
  have τ0 : 0 ≤ τ := (abs_nonneg _).trans es
  -- the exact point
  have hsq : Real.sqrt (toR R ^ 2 - (toR q.x - toR p.x) ^ 2 / 4 - (toR q.y - toR p.y) ^ 2 / 4) = Real.sqrt (r ^ 2 - c ^ 2 / 4) := by
    rw [← hcc, ← hR, sq_abs]
    ring_nf
  have hcs : Real.sqrt ((toR q.x - toR p.x) ^ 2 + (toR q.y - toR p.y) ^ 2) = c := by rw [hcc, Real.sqrt_sq hc.le]
  have bnd : ∀ y : ℝ, |y| ≤ c → |(r - Real.sqrt (r ^ 2 - c ^ 2 / 4)) / c * toR R / r * y| ≤ r := by
    intro y hy
    have e : (r - Real.sqrt (r ^ 2 - c ^ 2 / 4)) / c * toR R / r * y = (r - Real.sqrt (r ^ 2 - c ^ 2 / 4)) * (toR R / r * (y / c)) := by ring
    have σ1 : |toR R / r| = 1 := by rw [abs_div, hR, abs_of_pos hr, div_self hr.ne']
    have e2 : |y / c| ≤ 1 := by
      rw [abs_div, abs_of_pos hc, div_le_one hc]
      exact hy
    rw [e, abs_mul, abs_mul, σ1, one_mul, abs_of_nonneg (by linarith)]
    calc _ ≤ r * 1 := mul_le_mul (by linarith) e2 (abs_nonneg _) hr.le
      _ = r := mul_one r
  have bP := near_abs eP (bnd _ by')
  have bQ := near_abs eQ (bnd _ bx)
  have half : ∀ a b : ℝ, |a| ≤ X → |b| ≤ X → |(a + b) / 2| ≤ X := by
    intro a b ha hb
    have := abs_le.mp ha
    have := abs_le.mp hb
    rw [abs_le]
    constructor <;> linarith
  have bax := near_abs eax (half _ _ hqx hpx)
  have bay := near_abs eay (half _ _ hqy hpy)
  obtain ⟨fx, ex⟩ := W.add (B := 2 * X + 4 * r) fax fP (by
    have := abs_le.mp bP
    have := abs_le.mp bax
    rw [abs_le]
    constructor <;> linarith) (by linarith)
  obtain ⟨fy, ey⟩ := W.sub (B := 2 * X + 4 * r) fay fQ (by
    have := abs_le.mp bQ
    have := abs_le.mp bay
    rw [abs_le]
    constructor <;> linarith) (by linarith)
  refine ⟨fx, fy, faz, ?_, ?_, ?_⟩
  · have e : (arcMid Real.sqrt (toR R) (toR3 p) (toR3 q)).x = (toR q.x + toR p.x) / 2 +
        (r - Real.sqrt (r ^ 2 - c ^ 2 / 4)) / c * toR R / r * (toR q.y - toR p.y) := by
      unfold arcMid toR3
      dsimp only
      rw [hsq, hcs, hR]
    rw [e]
    have e1 := abs_le.mp ex
    have e2 := abs_le.mp eP
    have e3 := abs_le.mp eax
    have goal : |toR ((q.x + p.x) / 2 + (absF R - L.sqrt (L.sq R - L.sq (q.x - p.x) / 4 - L.sq (q.y - p.y) / 4)) /
        L.sqrt (L.sq (q.x - p.x) + L.sq (q.y - p.y)) * R / absF R * (q.y - p.y)) - ((toR q.x + toR p.x) / 2 +
        (r - Real.sqrt (r ^ 2 - c ^ 2 / 4)) / c * toR R / r * (toR q.y - toR p.y))| ≤ τ + r / 2 ^ 43 + X / 2 ^ 50 := by
      rw [abs_le]
      constructor <;> linarith
    exact goal
  · have e : (arcMid Real.sqrt (toR R) (toR3 p) (toR3 q)).y = (toR q.y + toR p.y) / 2 -
        (r - Real.sqrt (r ^ 2 - c ^ 2 / 4)) / c * toR R / r * (toR q.x - toR p.x) := by
      unfold arcMid toR3
      dsimp only
      rw [hsq, hcs, hR]
    rw [e]
    have e1 := abs_le.mp ey
    have e2 := abs_le.mp eQ
    have e3 := abs_le.mp eay
    have goal : |toR ((q.y + p.y) / 2 - (absF R - L.sqrt (L.sq R - L.sq (q.x - p.x) / 4 - L.sq (q.y - p.y) / 4)) /
        L.sqrt (L.sq (q.x - p.x) + L.sq (q.y - p.y)) * R / absF R * (q.x - p.x)) - ((toR q.y + toR p.y) / 2 -
        (r - Real.sqrt (r ^ 2 - c ^ 2 / 4)) / c * toR R / r * (toR q.x - toR p.x))| ≤ τ + r / 2 ^ 43 + X / 2 ^ 50 := by
      rw [abs_le]
      constructor <;> linarith
    exact goal
  · have goal : |toR ((q.z + p.z) / 2) - (toR q.z + toR p.z) / 2| ≤ τ + r / 2 ^ 43 + X / 2 ^ 50 := eaz.trans (by linarith)
    exact goal

end

/-- The constants. -/
theorem arc_abstract (L : Libm) (hL : LibmAccurate L) : ∃ S H G η : ℝ, S = 2 ^ 200 ∧ 1 ≤ S ∧ 16 * S ^ 3 ≤ H ∧ 4 * S ≤ G ∧ η ≤ 1 / S ^ 2 / 2 ^ 70 ∧
    RoundR H η ∧ LibmR L G η := by
  refine ⟨2 ^ 200, 2 ^ 1000, 2 ^ 450, 1 / 2 ^ 1074, rfl, one_le_pow₀ (by norm_num), ?_, ?_, ?_, ⟨by positivity, ?_⟩, ⟨?_, ?_⟩⟩
  · rw [← pow_mul, show (16 : ℝ) = 2 ^ 4 by norm_num, ← pow_add]
    exact pow_le_pow_right₀ (by norm_num) (by norm_num)
  · rw [show (4 : ℝ) = 2 ^ 2 by norm_num, ← pow_add]
    exact pow_le_pow_right₀ (by norm_num) (by norm_num)
  · rw [← pow_mul, div_div, ← pow_add]
    exact one_div_le_one_div_of_le (by positivity) (pow_le_pow_right₀ (by norm_num) (by norm_num))
  · intro z q h
    have h' : |q| ≤ 2 ^ 1000 := by
      have : ((|q| : ℚ) : ℝ) ≤ ((2 ^ 1000 : ℚ) : ℝ) := by
        push_cast
        exact h
      exact Rat.cast_le.mp this
    refine ⟨ofQ_fin z q h', ?_⟩
    have h2 : ((|(ofQ z q).val - q| : ℚ) : ℝ) ≤ ((|q| / 2 ^ 53 + 1 / 2 ^ 1075 : ℚ) : ℝ) := Rat.cast_le.mpr (ofQ_err z q h')
    push_cast at h2
    refine h2.trans (add_le_add_right ?_ _)
    exact one_div_le_one_div_of_le (by positivity) (pow_le_pow_right₀ (by norm_num) (by norm_num))
  · intro x fx h
    have h' : |x.val| ≤ 2 ^ 450 := by
      have : ((|x.val| : ℚ) : ℝ) ≤ ((2 ^ 450 : ℚ) : ℝ) := by
        push_cast
        exact h
      exact Rat.cast_le.mp this
    obtain ⟨f, p, e⟩ := hL.sq x fx h'
    refine ⟨f, by unfold toR; exact_mod_cast p, ?_⟩
    have h2 : ((|(L.sq x).val - x.val ^ 2| : ℚ) : ℝ) ≤ ((x.val ^ 2 / 2 ^ 52 + 1 / 2 ^ 1074 : ℚ) : ℝ) := Rat.cast_le.mpr e
    push_cast at h2
    exact h2
  · intro x fx h
    obtain ⟨f, p, e⟩ := hL.sqrt x fx (by unfold toR at h; exact_mod_cast h)
    refine ⟨f, by unfold toR; exact_mod_cast p, ?_⟩
    have h2 : ((|(L.sqrt x).val ^ 2 - x.val| : ℚ) : ℝ) ≤ ((x.val / 2 ^ 51 : ℚ) : ℝ) := Rat.cast_le.mpr e
    push_cast at h2
    exact h2

namespace Spec

/-- The square of the distance of two points in the plane. -/
def chordSqR (p q : V3 ℝ) : ℝ := (q.x - p.x) ^ 2 + (q.y - p.y) ^ 2

/-- All coordinates of `m` are finite and differ from those of `t` by at most `e`. -/
def WithinR (m : V3 F64) (t : V3 ℝ) (e : ℝ) : Prop :=
  (m.x.Finite ∧ m.y.Finite ∧ m.z.Finite) ∧ |toR m.x - t.x| ≤ e ∧ |toR m.y - t.y| ≤ e ∧ |toR m.z - t.z| ≤ e

end Spec

/-- **C139**, the part that holds: in double precision the midpoint of an arc is finite and within `|R| / 2 ^ 22 + X / 2 ^ 50` of the exact one,
if the coordinates are at most `X ≤ 2 ^ 200`, the radius is at most `2 ^ 200`, the chord is at least `2 ^ -200` long and its square is smaller
than that of the diameter by a factor of `1 - 2 ^ -46`; within `|R| / 2 ^ 42 + X / 2 ^ 50` if the chord is not longer than the radius. Missing:
half circles, see `C139_false`. -/
theorem C139_partial (L : Libm) (hL : LibmAccurate L) (el : Elem F64) (e : Nat) (he : HasEdge el e) (hc : el.ccurv e = ['C']) (p q : V3 F64)
    (hp : p = edgeFrom el e) (hq : q = edgeTo el e) (R : F64) (hR : R = el.curv e 0) (X : ℝ) (hX : X ≤ 2 ^ 200) (tp : TameAt p X) (tq : TameAt q X)
    (fR : R.Finite) (bR : |toR R| ≤ 2 ^ 200) (hlo : 1 / 2 ^ 400 ≤ chordSqR (toR3 p) (toR3 q))
    (hup : chordSqR (toR3 p) (toR3 q) ≤ 4 * toR R ^ 2 * (1 - 1 / 2 ^ 46)) :
    ∃ m el', edgeMidF L el e = .ok (m, el') ∧ ∃ t, ArcMiddle (toR R) (toR3 p) (toR3 q) t ∧ WithinR m t (|toR R| / 2 ^ 22 + X / 2 ^ 50) ∧
      (chordSqR (toR3 p) (toR3 q) ≤ toR R ^ 2 → WithinR m t (|toR R| / 2 ^ 42 + X / 2 ^ 50)) := by
  obtain ⟨S, H, G, η, hS, S1, hSH, hSG, hη, W, LR⟩ := arc_abstract L hL
  have hlo' : 1 / S ^ 2 ≤ chordSqR (toR3 p) (toR3 q) := by rw [hS, ← pow_mul]; exact hlo
  rw [← hS] at hX bR
  clear hlo hS
  have S0 : 0 < S := by linarith
  have S2 : 0 < 1 / S ^ 2 := by positivity
  have hd0 : 0 < chordSqR (toR3 p) (toR3 q) := by linarith
  set d := chordSqR (toR3 p) (toR3 q) with hd
  set c := Real.sqrt d with hcdef
  have hc2 : c ^ 2 = d := Real.sq_sqrt hd0.le
  have c0 : 0 < c := Real.sqrt_pos.mpr hd0
  have hr2 : |toR R| ^ 2 = toR R ^ 2 := sq_abs _
  have r0 : 0 < |toR R| := by
    rw [abs_pos]
    intro h0
    rw [h0] at hup
    norm_num at hup
    linarith
  set r := |toR R| with hr
  have hcS : 1 / S ≤ c := Real.le_sqrt_of_sq_le (by rw [div_pow, one_pow]; exact hlo')
  have hρ : r / c ≤ S ^ 2 := by
    rw [div_le_iff₀ c0]
    calc r ≤ S := bR
      _ = S ^ 2 * (1 / S) := by field_simp
      _ ≤ S ^ 2 * c := mul_le_mul_of_nonneg_left hcS (by positivity)
  have ρ0 : 0 < r / c := div_pos r0 c0
  have hS2 : S ≤ S ^ 2 := by nlinarith
  have hS3 : S ^ 2 ≤ S ^ 3 := pow_le_pow_right₀ S1 (by norm_num)
  have hSS : r ^ 2 ≤ S ^ 2 := pow_le_pow_left₀ r0.le bR 2
  have hρr : r / c * r ≤ S ^ 3 := by
    calc r / c * r ≤ S ^ 2 * S := mul_le_mul hρ bR r0.le (by positivity)
      _ = S ^ 3 := by ring
  have hS2' : 1 ≤ S ^ 2 := one_le_pow₀ S1
  have i2 : 1 / S ^ 2 ≤ 1 := by rw [div_le_one (by positivity)]; exact hS2'
  have i1 : 1 / S ^ 2 ≤ 1 / S := one_div_le_one_div_of_le S0 hS2
  have hup' : c ^ 2 ≤ 4 * r ^ 2 * (1 - 1 / 2 ^ 46) := by rw [hc2, hr2]; exact hup
  have x0 := sq_nonneg (toR q.x - toR p.x)
  have y0 := sq_nonneg (toR q.y - toR p.y)
  have hcc : (toR q.x - toR p.x) ^ 2 + (toR q.y - toR p.y) ^ 2 = c ^ 2 := hc2.symm
  have hcr' : c ^ 2 ≤ 4 * r ^ 2 := by
    have := sq_nonneg r
    linarith
  have hcr1 : c ≤ 2 * r := by
    refine le_of_sq_le_sq ?_ (by linarith)
    linarith
  have bx : |toR q.x - toR p.x| ≤ c := abs_le_of_sq_le_sq (by linarith) c0.le
  have by' : |toR q.y - toR p.y| ≤ c := abs_le_of_sq_le_sq (by linarith) c0.le
  have hη0 : η ≤ 1 / 2 ^ 70 := hη.trans (by gcongr)
  have hη1 : η ≤ c / 2 ^ 70 := hη.trans (by gcongr; exact i1.trans hcS)
  have hη2 : η ≤ c ^ 2 / 2 ^ 70 := hη.trans (by gcongr; rw [hc2]; exact hlo')
  have g1 : 4 * r ≤ G := by linarith
  have h1 : 8 * r ^ 2 ≤ H := by linarith
  have h2 : 6 * (r / c) ≤ H := by linarith
  have h3 : 6 * (r / c) * r ≤ H := by rw [mul_assoc]; linarith
  have h4 : 10 * r + 2 * X + 2 ≤ H := by linarith
  obtain ⟨fdx, edx, fsx, psx, esx⟩ := side_near W LR c0 hη1 hη2 (by linarith) (by linarith) tq.1.1 tp.1.1 bx
  obtain ⟨fdy, edy, fsy, psy, esy⟩ := side_near W LR c0 hη1 hη2 (by linarith) (by linarith) tq.2.1.1 tp.2.1.1 by'
  obtain ⟨fu, eu⟩ := under_near W LR r0 hcr' (hη2.trans (by linarith)) (by linarith) (by linarith) fR hr.symm fsx fsy hcc esx esy
  obtain ⟨fs, ps, n1, n2⟩ := first_root LR r0 hup' fu eu
  have key := fun τ hτ es => arcMidF_near W LR c0 r0 (R := R) (p := p) (q := q) (τ := τ) fR hr.symm tp tq hcc hup' hη0 hη1 hη2 g1 h1 h2 h3 h4 hτ es
  have X0 : 0 ≤ X := (abs_nonneg _).trans tp.1.2
  refine ⟨arcMidF L R p q, el.setCpt e (arcMidF L R p q), ?_, arcMid Real.sqrt (toR R) (toR3 p) (toR3 q), ?_, ?_, ?_⟩
  · rw [edgeMidF_eq L el e he, if_neg (by rw [hc]; decide), if_neg (by rw [hc]; decide), if_pos hc, hp, hq, hR]
  · have hroot : 0 ≤ toR R ^ 2 - ((toR3 q).x - (toR3 p).x) ^ 2 / 4 - ((toR3 q).y - (toR3 p).y) ^ 2 / 4 := by
      have hcc' : ((toR3 q).x - (toR3 p).x) ^ 2 + ((toR3 q).y - (toR3 p).y) ^ 2 = c ^ 2 := hcc
      rw [← hr2]
      linarith
    obtain ⟨a1, a2, a3, a4, a5, a6⟩ := arcMid_spec Real.sqrt (toR R) (toR3 p) (toR3 q) hd0 (by
      have hcc' : ((toR3 q).x - (toR3 p).x) ^ 2 + ((toR3 q).y - (toR3 p).y) ^ 2 = c ^ 2 := hcc
      rw [hcc', ← hr2]
      linarith) (isRoot_sqrt _ hd0.le) (isRoot_sqrt _ hroot)
    exact ⟨a1, a2, a3, a4, a5, a6⟩
  · obtain ⟨f1, f2, f3, e1, e2, e3⟩ := key (r / 2 ^ 23) (by linarith) n1
    have : r / 2 ^ 23 + r / 2 ^ 43 + X / 2 ^ 50 ≤ r / 2 ^ 22 + X / 2 ^ 50 := by linarith
    exact ⟨⟨f1, f2, f3⟩, e1.trans this, e2.trans this, e3.trans this⟩
  · intro hsmall
    have hcr : c ≤ r := by
      refine le_of_sq_le_sq ?_ r0.le
      rw [hc2, hr2]
      exact hsmall
    obtain ⟨f1, f2, f3, e1, e2, e3⟩ := key (r / 2 ^ 45) (by linarith) (n2 hcr c0.le)
    have : r / 2 ^ 45 + r / 2 ^ 43 + X / 2 ^ 50 ≤ r / 2 ^ 42 + X / 2 ^ 50 := by linarith
    exact ⟨⟨f1, f2, f3⟩, e1.trans this, e2.trans this, e3.trans this⟩

namespace Samples

/-- Half a circle of radius 94906409 about the origin: the ends are (-64048041, -70036240) and (64048041, 70036240), and
64048041² + 70036240² = 94906409². -/
def halfCircle : Elem F64 := edgeF ['C'] ((94906409 : Nat) : F64) ⟨((64048041 : Nat) : F64).flip, ((70036240 : Nat) : F64).flip, 0⟩
  ⟨((64048041 : Nat) : F64), ((70036240 : Nat) : F64), 0⟩

end Samples

/-- **C139** is false without the condition on the chord: for half a circle between points with whole coordinates both coordinates of the
midpoint become NaN, because rounding makes the number under the root negative. -/
theorem C139_false : HasEdge Samples.halfCircle 0 ∧ Samples.halfCircle.ccurv 0 = ['C'] ∧
    chordSqR (toR3 (edgeFrom Samples.halfCircle 0)) (toR3 (edgeTo Samples.halfCircle 0)) = 4 * toR (Samples.halfCircle.curv 0 0) ^ 2 ∧
    ∃ m el', edgeMidF libm Samples.halfCircle 0 = .ok (m, el') ∧ m.x.IsNaN ∧ m.y.IsNaN := by
  refine ⟨Samples.edgeF_has _ _ _ _, rfl, ?_, _, _, rfl, ?_, ?_⟩
  · have v1 : toR (((64048041 : Nat) : F64)) = 64048041 := by
      unfold toR
      rw [(natCast_exact 64048041 (by norm_num)).2]
      norm_num
    have v2 : toR (((70036240 : Nat) : F64)) = 70036240 := by
      unfold toR
      rw [(natCast_exact 70036240 (by norm_num)).2]
      norm_num
    have v3 : toR (((94906409 : Nat) : F64)) = 94906409 := by
      unfold toR
      rw [(natCast_exact 94906409 (by norm_num)).2]
      norm_num
    have neg : ∀ x : F64, toR x.flip = -toR x := fun x => by
      unfold toR
      rw [flip_val]
      push_cast
      rfl
    have e : chordSqR (toR3 (edgeFrom Samples.halfCircle 0)) (toR3 (edgeTo Samples.halfCircle 0)) =
        (toR (((64048041 : Nat) : F64)) - toR (((64048041 : Nat) : F64)).flip) ^ 2 + (toR (((70036240 : Nat) : F64)) - toR (((70036240 : Nat) : F64)).flip) ^ 2 := rfl
    have e2 : toR (Samples.halfCircle.curv 0 0) = toR (((94906409 : Nat) : F64)) := rfl
    rw [e, e2, neg, neg, v1, v2, v3]
    norm_num
  · decide +kernel
  · decide +kernel

namespace Samples

theorem natR (n : Nat) (h : n ≤ 2 ^ 53) : toR ((n : Nat) : F64) = n := by
  unfold toR
  rw [(natCast_exact n h).2]
  norm_num

theorem zeroR : toR (0 : F64) = 0 := by
  unfold toR
  rw [zeroF_val]
  norm_num

/-- The arc of radius 5 over a chord of length 6. -/
example : ∃ m el', edgeMidF libm arcA 0 = .ok (m, el') ∧ ∃ t, ArcMiddle 5 ⟨0, 0, 0⟩ ⟨6, 0, 0⟩ t ∧ WithinR m t (5 / 2 ^ 22 + 6 / 2 ^ 50) := by
  have n5 : toR ((5 : Nat) : F64) = 5 := by rw [natR 5 (by norm_num)]; norm_num
  have n6 : toR ((6 : Nat) : F64) = 6 := by rw [natR 6 (by norm_num)]; norm_num
  have hp : toR3 (⟨0, 0, 0⟩ : V3 F64) = ⟨0, 0, 0⟩ := by unfold toR3; rw [zeroR]
  have hq : toR3 (⟨((6 : Nat) : F64), 0, 0⟩ : V3 F64) = ⟨6, 0, 0⟩ := by unfold toR3; dsimp only; rw [zeroR, n6]
  have z : ∀ X : ℝ, 0 ≤ X → (0 : F64).Finite ∧ |toR 0| ≤ X := fun X h => ⟨by decide +kernel, by rw [zeroR, abs_zero]; exact h⟩
  obtain ⟨m, el', h1, t, h2, h3, -⟩ := C139_partial libm libm_accurate arcA 0 (edgeF_has _ _ _ _) rfl ⟨0, 0, 0⟩ ⟨((6 : Nat) : F64), 0, 0⟩ rfl rfl
    ((5 : Nat) : F64) rfl 6 (by norm_num) ⟨z 6 (by norm_num), z 6 (by norm_num), z 6 (by norm_num)⟩
    ⟨⟨(natCast_exact 6 (by norm_num)).1, by rw [n6]; norm_num⟩, z 6 (by norm_num), z 6 (by norm_num)⟩ (natCast_exact 5 (by norm_num)).1
    (by rw [n5]; norm_num) (by
      rw [hp, hq]
      refine le_trans ((div_le_one (by positivity)).mpr (one_le_pow₀ (by norm_num))) (?_ : (1 : ℝ) ≤ _)
      norm_num [chordSqR]) (by rw [hp, hq, n5]; norm_num [chordSqR])
  rw [hp, hq, n5] at h2
  rw [n5] at h3
  refine ⟨m, el', h1, t, h2, ?_⟩
  norm_num at h3 ⊢
  exact h3

end Samples

end Pymech
