import Verif.Props.SquareFloat

/-!
# C151: where the quarter O of `gen_circle` begins and ends, in double precision
-/

set_option autoImplicit false

namespace Pymech

open Spec Flt

/-- What is used of the functions of `math`: for angles up to 1 the cosine is between 1/2 and 1 and the sine between -1 and 1, they do not
depend on the sign of zero, the arcus tangent of numbers up to 1 is at most 1, `pi` is between 3 and 4 and the root of two between 1 and 2. -/
structure TrigRough (m : MathFns F64) : Prop where
  cos : ∀ x : F64, x.Finite → |x.val| ≤ 1 → (m.cos x).Finite ∧ 1 / 2 ≤ (m.cos x).val ∧ (m.cos x).val ≤ 1
  sin : ∀ x : F64, x.Finite → |x.val| ≤ 1 → (m.sin x).Finite ∧ |(m.sin x).val| ≤ 1
  cosv : ∀ x y : F64, x.Finite → y.Finite → x.val = y.val → (m.cos x).val = (m.cos y).val
  sinv : ∀ x y : F64, x.Finite → y.Finite → x.val = y.val → (m.sin x).val = (m.sin y).val
  atan : ∀ x : F64, x.Finite → |x.val| ≤ 1 → (m.atan x).Finite ∧ |(m.atan x).val| ≤ 1
  pi : m.pi.Finite ∧ 3 ≤ m.pi.val ∧ m.pi.val ≤ 4
  sqrt2 : m.sqrt2.Finite ∧ 1 ≤ m.sqrt2.val ∧ m.sqrt2.val ≤ 2

theorem op_rep (z : Bool) (q : ℚ) (w : F64) (hw : w.Finite) (hq : q = w.val) (hb : |w.val| ≤ 2 ^ 1000) :
    (ofQ z q).Finite ∧ (ofQ z q).val = w.val := by
  subst hq
  exact ⟨ofQ_fin _ _ hb, ofQ_rep _ _ hw⟩

theorem pyTrigF_fin (g : F64 → F64) (x : F64) (h : x.Finite) : pyTrigF g x = .ok (g x) := by
  unfold pyTrigF
  rw [if_neg (fun h' => h'.2 h)]

theorem pyDivF_ok (a b : F64) (h : b.val ≠ 0) : pyDivF a b = .ok (a / b) := by
  unfold pyDivF
  rw [if_neg (fun h' => h ((val_zero_iff b).2 h'))]

/-- The angle of the ray in the circle, as computed. -/
def rayAlphaF (m : MathFns F64) (ns j : Nat) : F64 := halfF * m.pi * ((j : F64) / (ns : F64) - halfF)

/-- The angle of the ray in the square, as computed. -/
def rayBetaF (m : MathFns F64) (ns j : Nat) : F64 := m.atan (((2 * j : Nat) : F64) / (ns : F64) - 1)

theorem oneF_val : (1 : F64).Finite ∧ (1 : F64).val = 1 := by decide +kernel

theorem existsTwoF : ∃ t : F64, t.Finite ∧ t.val = 2 := ⟨2, by decide +kernel, by decide +kernel⟩

theorem ofQ_two (z : Bool) : (ofQ z 2).val = 2 := by
  obtain ⟨t, t1, t2⟩ := existsTwoF
  rw [← t2, ofQ_rep z t t1]

theorem two_small : (2 : ℚ) ≤ 2 ^ 1000 := le_self_pow₀ (by norm_num) (by norm_num)

theorem rayAlphaF_le (m : MathFns F64) (hm : TrigRough m) (ns j : Nat) (h0 : 0 < ns) (hns : ns ≤ 2 ^ 52) (hj : j ≤ ns) :
    (rayAlphaF m ns j).Finite ∧ |(rayAlphaF m ns j).val| ≤ 1 := by
  obtain ⟨pf, p0, p1⟩ := hm.pi
  obtain ⟨rf, _, rb, _⟩ := squareRatio ns j h0 (hns.trans (by norm_num)) hj
  unfold rayAlphaF
  have e := mul_fin halfF_val.1 pf
  rw [halfF_val.2] at e
  have q0 : 0 ≤ 1 / 2 * m.pi.val := by linarith
  have q1 : 1 / 2 * m.pi.val ≤ 2 := by linarith
  have hf : (halfF * m.pi).Finite := by
    rw [e]; exact ofQ_fin _ _ (by rw [abs_of_nonneg q0]; exact q1.trans two_small)
  have h0' : 0 ≤ (halfF * m.pi).val := by
    rw [e]; have := ofQ_mono (halfF.neg ^^ m.pi.neg) (halfF.neg ^^ m.pi.neg) 0 _ q0; rwa [ofQ_zero_val] at this
  have h2 : (halfF * m.pi).val ≤ 2 := by
    rw [e]; have := ofQ_mono (halfF.neg ^^ m.pi.neg) (halfF.neg ^^ m.pi.neg) _ 2 q1; rwa [ofQ_two] at this
  rw [mul_fin hf rf]
  set a := halfF * m.pi
  set b := (j : F64) / (ns : F64) - halfF
  have hb : |a.val * b.val| ≤ 1 := by
    rw [abs_mul, abs_of_nonneg h0']
    calc a.val * |b.val| ≤ 2 * (1 / 2) := mul_le_mul h2 rb (abs_nonneg _) (by norm_num)
      _ = 1 := by norm_num
  refine ⟨ofQ_fin _ _ (small_fin _ hb), ?_⟩
  have u := ofQ_mono (a.neg ^^ b.neg) (a.neg ^^ b.neg) _ 1 (abs_le.1 hb).2
  have l := ofQ_mono (a.neg ^^ b.neg) (a.neg ^^ b.neg) (-1) _ (abs_le.1 hb).1
  rw [ofQ_one] at u
  rw [ofQ_neg _ false, ofQ_one] at l
  exact abs_le.2 ⟨l, u⟩

theorem rayBetaF_le (m : MathFns F64) (hm : TrigRough m) (ns j : Nat) (h0 : 0 < ns) (hns : ns ≤ 2 ^ 52) (hj : j ≤ ns) :
    (rayBetaF m ns j).Finite ∧ |(rayBetaF m ns j).val| ≤ 1 := by
  obtain ⟨kf, kv⟩ := natCast_exact (2 * j) (by omega)
  obtain ⟨nf, nv⟩ := natCast_exact ns (hns.trans (by norm_num))
  have n0 : (0 : ℚ) < ns := by exact_mod_cast h0
  have q0 : (0 : ℚ) ≤ ((2 * j : Nat) : ℚ) / ns := by positivity
  have q2 : ((2 * j : Nat) : ℚ) / ns ≤ 2 := by
    rw [div_le_iff₀ n0]; exact_mod_cast (show 2 * j ≤ 2 * ns by omega)
  have e1 := div_fin kf nf (by rw [nv]; exact n0.ne')
  rw [kv, nv] at e1
  set a := ((2 * j : Nat) : F64) / (ns : F64) with ha
  have af : a.Finite := by rw [e1]; exact ofQ_fin _ _ (by rw [abs_of_nonneg q0]; exact q2.trans two_small)
  have a0 : 0 ≤ a.val := by rw [e1]; have := ofQ_mono false (((2 * j : Nat) : F64).neg ^^ (ns : F64).neg) 0 _ q0; rwa [ofQ_zero_val] at this
  have a2 : a.val ≤ 2 := by rw [e1]; have := ofQ_mono (((2 * j : Nat) : F64).neg ^^ (ns : F64).neg) false _ 2 q2; rwa [ofQ_two] at this
  have e2 := sub_fin af oneF_val.1
  rw [oneF_val.2] at e2
  have hb : |a.val - 1| ≤ 1 := by rw [abs_le]; constructor <;> linarith
  unfold rayBetaF
  rw [← ha]
  refine hm.atan _ ?_ ?_
  · rw [e2]; exact ofQ_fin _ _ (small_fin _ hb)
  · rw [e2]
    have u := ofQ_mono (a.neg && !(1 : F64).neg) false _ 1 (abs_le.1 hb).2
    have l := ofQ_mono false (a.neg && !(1 : F64).neg) (-1) _ (abs_le.1 hb).1
    rw [ofQ_one] at u
    rw [ofQ_neg _ false, ofQ_one] at l
    exact abs_le.2 ⟨l, u⟩

/-- Division by a cosine of a small angle. -/
theorem divCos (a k : F64) (B : ℚ) (hB : 2 * B ≤ 2 ^ 1000) (af : a.Finite) (a0 : 0 ≤ a.val) (aB : a.val ≤ B) (kf : k.Finite) (k0 : 1 / 2 ≤ k.val) :
    (a / k).Finite ∧ |(a / k).val - a.val / k.val| ≤ a.val / k.val / 2 ^ 53 + 1 / 2 ^ 1075 ∧ 0 ≤ (a / k).val ∧ a.val / k.val ≤ 2 * a.val := by
  have kp : 0 < k.val := lt_of_lt_of_le (by norm_num) k0
  have q0 : 0 ≤ a.val / k.val := div_nonneg a0 kp.le
  have q2 : a.val / k.val ≤ 2 * a.val := by
    rw [div_le_iff₀ kp]
    nlinarith
  have qa : |a.val / k.val| ≤ 2 ^ 1000 := by
    rw [abs_of_nonneg q0]
    exact q2.trans ((mul_le_mul_of_nonneg_left aB (by norm_num)).trans hB)
  rw [div_fin af kf kp.ne']
  refine ⟨ofQ_fin _ _ qa, ?_, ?_, q2⟩
  · have := ofQ_err (a.neg ^^ k.neg) _ qa
    rwa [abs_of_nonneg q0] at this
  · have := ofQ_mono false (a.neg ^^ k.neg) 0 _ q0
    rwa [ofQ_zero_val] at this

theorem mul_zeroVal {x y : F64} (hx : x.Finite) (hy : y.Finite) (h : x.val = 0) : (x * y).Finite ∧ (x * y).val = 0 := by
  rw [mul_fin hx hy, h, zero_mul]
  exact ⟨ofQ_fin _ _ (by rw [abs_zero]; positivity), ofQ_zero_val _⟩

theorem mul_oneVal {x y : F64} (hx : x.Finite) (hy : y.Finite) (h : x.val = 1) (hb : |y.val| ≤ 2 ^ 1000) :
    (x * y).Finite ∧ (x * y).val = y.val := by
  rw [mul_fin hx hy, h, one_mul]
  exact op_rep _ _ y hy rfl hb

theorem add_zeroVal {x y : F64} (hx : x.Finite) (hy : y.Finite) (h : y.val = 0) (hb : |x.val| ≤ 2 ^ 1000) :
    (x + y).Finite ∧ (x + y).val = x.val := by
  rw [add_fin hx hy, h, add_zero]
  exact op_rep _ _ x hx rfl hb

theorem zeroVal_add {x y : F64} (hx : x.Finite) (hy : y.Finite) (h : x.val = 0) (hb : |y.val| ≤ 2 ^ 1000) :
    (x + y).Finite ∧ (x + y).val = y.val := by
  rw [add_fin hx hy, h, zero_add]
  exact op_rep _ _ y hy rfl hb

theorem one_sub_zeroVal {x : F64} (hx : x.Finite) (h : x.val = 0) : (1 - x).Finite ∧ (1 - x).val = 1 := by
  rw [sub_fin oneF_val.1 hx, h, oneF_val.2, sub_zero]
  exact ⟨ofQ_fin _ _ (small_fin _ (by norm_num)), ofQ_one _⟩

theorem one_sub_oneVal {x : F64} (hx : x.Finite) (h : x.val = 1) : (1 - x).Finite ∧ (1 - x).val = 0 := by
  rw [sub_fin oneF_val.1 hx, h, oneF_val.2, sub_self]
  exact ⟨ofQ_fin _ _ (small_fin _ (by norm_num)), ofQ_zero_val _⟩

/-- Sizes for which nothing overflows or gets lost. -/
structure RingSize (r c : F64) : Prop where
  rf : r.Finite
  cf : c.Finite
  c0 : 1 / 2 ^ 900 ≤ c.val
  cr : c.val ≤ 2 * r.val
  r1 : r.val ≤ 2 ^ 899

/-- The steps of the computation of a corner. -/
theorem oCornerF_steps (m : MathFns F64) (hm : TrigRough m) (cf : F64 → Py F64) (r c : F64) (H : RingSize r c) (ns j : Nat) (h0 : 0 < ns)
    (hns : ns ≤ 2 ^ 52) (hj : j ≤ ns) (eta gamma : F64) (hg : cf eta = .ok gamma) :
    ∃ lsa lsb lc lh : F64, lsa.Finite ∧ lsb.Finite ∧ lc.Finite ∧ lh.Finite ∧
      (0 ≤ lsa.val ∧ lsa.val ≤ 2 * c.val) ∧ (0 ≤ lsb.val ∧ lsb.val ≤ 2 * c.val) ∧ |lh.val| ≤ 2 ^ 910 ∧
      |lc.val - (r.val - lsa.val)| ≤ |r.val - lsa.val| / 2 ^ 53 + 1 / 2 ^ 1075 ∧
      |lsb.val - c.val / 2 / (m.cos (rayBetaF m ns j)).val| ≤ c.val / 2 / (m.cos (rayBetaF m ns j)).val / 2 ^ 53 + 1 / 2 ^ 1075 ∧
      ∀ theta d, theta = gamma * rayAlphaF m ns j + (1 - gamma) * rayBetaF m ns j →
        d = gamma * (lsa + eta * lc) + (1 - gamma) * (lsb + eta * lh) → theta.Finite →
        oCornerF m cf r c ns j eta = .ok (d * m.cos theta, d * m.sin theta) := by
  obtain ⟨rf, cf', c0, cr, r1⟩ := H
  obtain ⟨af, ab⟩ := rayAlphaF_le m hm ns j h0 hns hj
  obtain ⟨bf, bb⟩ := rayBetaF_le m hm ns j h0 hns hj
  obtain ⟨caf, ca0, ca1⟩ := hm.cos _ af ab
  obtain ⟨cbf, cb0, cb1⟩ := hm.cos _ bf bb
  obtain ⟨sf, s0, s1⟩ := hm.sqrt2
  have T0 : (1 : ℚ) / 2 ^ 1075 ≤ 1 / 2 ^ 900 :=
    one_div_le_one_div_of_le (by positivity) (pow_le_pow_right₀ (by norm_num) (by norm_num))
  have Tc := T0.trans c0
  have cp : 0 < c.val := lt_of_lt_of_le (by positivity) c0
  have rp : 0 < r.val := by linarith
  have p899 : (2 : ℚ) ^ 900 = 2 * 2 ^ 899 := by rw [← pow_succ']
  have p910 : (2 : ℚ) ^ 910 = 2048 * 2 ^ 899 := by rw [show 910 = 11 + 899 from rfl, pow_add]; norm_num
  have p1000 : (2 : ℚ) ^ 910 ≤ 2 ^ 1000 := pow_le_pow_right₀ (by norm_num) (by norm_num)
  have c1 : c.val ≤ 2 ^ 900 := by rw [p899]; exact cr.trans (mul_le_mul_of_nonneg_left r1 (by norm_num))
  -- half of `c`
  have hh : (halfF * c).Finite ∧ (halfF * c).val = c.val / 2 := by
    rw [mul_fin halfF_val.1 cf', halfF_val.2, one_div_mul_eq_div]
    refine ⟨ofQ_fin _ _ ?_, half_exact _ c c0 c1⟩
    rw [abs_of_pos (by positivity)]
    have : c.val / 2 ≤ c.val := by linarith
    exact this.trans (c1.trans (pow_le_pow_right₀ (by norm_num) (by norm_num)))
  -- the distance of the square from the centre
  have hB : 2 * (2 : ℚ) ^ 900 ≤ 2 ^ 1000 := by
    rw [← pow_succ']; exact pow_le_pow_right₀ (by norm_num) (by norm_num)
  have hc2 : c.val / 2 ≤ 2 ^ 900 := by
    have : c.val / 2 ≤ c.val := by linarith
    exact this.trans c1
  obtain ⟨laf, lae, la0, la2⟩ := divCos (halfF * c) _ _ hB hh.1 (by rw [hh.2]; linarith) (by rw [hh.2]; exact hc2) caf ca0
  obtain ⟨lbf, lbe, lb0, lb2⟩ := divCos (halfF * c) _ _ hB hh.1 (by rw [hh.2]; linarith) (by rw [hh.2]; exact hc2) cbf cb0
  -- half of the root of two, times `r`
  have hg1 : (halfF * m.sqrt2).Finite ∧ 0 ≤ (halfF * m.sqrt2).val ∧ (halfF * m.sqrt2).val ≤ 1 := by
    rw [mul_fin halfF_val.1 sf, halfF_val.2]
    have q0 : 0 ≤ 1 / 2 * m.sqrt2.val := by linarith
    have q1 : 1 / 2 * m.sqrt2.val ≤ 1 := by linarith
    refine ⟨ofQ_fin _ _ (small_fin _ (by rw [abs_of_nonneg q0]; exact q1)), ?_, ?_⟩
    · have := ofQ_mono false (halfF.neg ^^ m.sqrt2.neg) 0 _ q0
      rwa [ofQ_zero_val] at this
    · have := ofQ_mono (halfF.neg ^^ m.sqrt2.neg) false _ 1 q1
      rwa [ofQ_one] at this
  obtain ⟨gf, g0, g1⟩ := hg1
  have r900 : r.val ≤ 2 ^ 900 := r1.trans (pow_le_pow_right₀ (by norm_num) (by norm_num))
  have hgr : (halfF * m.sqrt2 * r).Finite ∧ 0 ≤ (halfF * m.sqrt2 * r).val ∧ (halfF * m.sqrt2 * r).val ≤ r.val := by
    rw [mul_fin gf rf]
    have q0 : 0 ≤ (halfF * m.sqrt2).val * r.val := mul_nonneg g0 rp.le
    have q1 : (halfF * m.sqrt2).val * r.val ≤ r.val := mul_le_of_le_one_left rp.le g1
    refine ⟨ofQ_fin _ _ ?_, ?_, ?_⟩
    · rw [abs_of_nonneg q0]
      exact q1.trans (r900.trans (pow_le_pow_right₀ (by norm_num) (by norm_num)))
    · have := ofQ_mono false ((halfF * m.sqrt2).neg ^^ r.neg) 0 _ q0
      rwa [ofQ_zero_val] at this
    · have := ofQ_mono ((halfF * m.sqrt2).neg ^^ r.neg) false _ r.val q1
      rwa [ofQ_rep _ _ rf] at this
  obtain ⟨hf, he, hv0, hv2⟩ := divCos (halfF * m.sqrt2 * r) _ _ hB hgr.1 hgr.2.1 (hgr.2.2.trans r900) cbf cb0
  rw [hh.2] at lae la2 lbe lb2
  set lsa := halfF * c / m.cos (rayAlphaF m ns j) with elsa
  set lsb := halfF * c / m.cos (rayBetaF m ns j) with elsb
  set h := halfF * m.sqrt2 * r / m.cos (rayBetaF m ns j) with eh
  have T4 : (1 : ℚ) / 2 ^ 1075 ≤ c.val / 4 := by
    have a : (1 : ℚ) / 2 ^ 1075 ≤ 1 / 2 ^ 902 := one_div_le_one_div_of_le (by positivity) (pow_le_pow_right₀ (by norm_num) (by norm_num))
    have b : (1 : ℚ) / 2 ^ 902 = 1 / 2 ^ 900 / 4 := by rw [show 902 = 900 + 2 from rfl, pow_add, div_div]; norm_num
    rw [b] at a
    exact a.trans (div_le_div_of_nonneg_right c0 (by norm_num))
  have r910 : 16 * r.val ≤ 2 ^ 910 := by
    rw [p910]
    calc 16 * r.val ≤ 16 * 2 ^ 899 := mul_le_mul_of_nonneg_left r1 (by norm_num)
      _ ≤ 2048 * 2 ^ 899 := mul_le_mul_of_nonneg_right (by norm_num) (by positivity)
  clear_value lsa lsb h
  clear T0 Tc p899 p910 c1 hB hc2 r900 c0 r1
  have lcerr : ∀ q : ℚ, |q| ≤ 4 * r.val → |q| ≤ 2 ^ 1000 := fun q h => h.trans ((by linarith : 4 * r.val ≤ 16 * r.val).trans (r910.trans p1000))
  have p53 : ∀ q : ℚ, 0 ≤ q → q / 2 ^ 53 ≤ q / 2 := fun q q0 => div_le_div_of_nonneg_left q0 (by norm_num) (by norm_num)
  have er : ∀ q : ℚ, |q| ≤ 4 * r.val → ∀ z, |(ofQ z q).val - q| ≤ |q| / 2 ^ 53 + 1 / 2 ^ 1075 := fun q h z => ofQ_err z q (lcerr q h)
  have fin : ∀ q : ℚ, |q| ≤ 4 * r.val → ∀ z, (ofQ z q).Finite := fun q h z => ofQ_fin z q (lcerr q h)
  have subs : ∀ x y : F64, x.Finite → y.Finite → x - y = ofQ (x.neg && !y.neg) (x.val - y.val) := fun x y => sub_fin
  have cab0 : 0 ≤ c.val / 2 / (m.cos (rayAlphaF m ns j)).val := div_nonneg (by linarith) (by linarith)
  have cbb0 : 0 ≤ c.val / 2 / (m.cos (rayBetaF m ns j)).val := div_nonneg (by linarith) (by linarith)
  have hq0 : 0 ≤ (halfF * m.sqrt2 * r).val / (m.cos (rayBetaF m ns j)).val := div_nonneg hgr.2.1 (by linarith)
  have la3 : lsa.val ≤ 2 * c.val := by
    have a := (abs_le.1 lae).2
    have b := p53 _ cab0
    clear * - a b la2 T4 cp
    generalize (1 : ℚ) / 2 ^ 1075 = T at *
    generalize (2 : ℚ) ^ 53 = P at *
    linarith
  have lb3 : lsb.val ≤ 2 * c.val := by
    have a := (abs_le.1 lbe).2
    have b := p53 _ cbb0
    clear * - a b lb2 T4 cp
    generalize (1 : ℚ) / 2 ^ 1075 = T at *
    generalize (2 : ℚ) ^ 53 = P at *
    linarith
  have h3 : h.val ≤ 4 * r.val := by
    have a := (abs_le.1 he).2
    have b := p53 _ hq0
    have d := hgr.2.2
    clear * - a b d hv2 T4 cp cr rp
    generalize (1 : ℚ) / 2 ^ 1075 = T at *
    generalize (2 : ℚ) ^ 53 = P at *
    linarith
  have qc : |r.val - lsa.val| ≤ 4 * r.val := by rw [abs_le]; clear * - la0 la3 cr rp; constructor <;> linarith
  have qh : |h.val - lsb.val| ≤ 4 * r.val := by rw [abs_le]; clear * - lb0 lb3 cr rp h3 hv0; constructor <;> linarith
  refine ⟨lsa, lsb, r - lsa, h - lsb, laf, lbf, ?_, ?_, ⟨la0, la3⟩, ⟨lb0, lb3⟩, ?_, ?_, lbe, ?_⟩
  · rw [subs _ _ rf laf]; exact fin _ qc _
  · rw [subs _ _ hf lbf]; exact fin _ qh _
  · rw [subs _ _ hf lbf]
    have a := er _ qh (h.neg && !lsb.neg)
    have b := p53 _ (abs_nonneg (h.val - lsb.val))
    have e := abs_sub_abs_le_abs_sub (ofQ (h.neg && !lsb.neg) (h.val - lsb.val)).val (h.val - lsb.val)
    refine le_trans ?_ r910
    clear * - a b e qh T4 cr rp
    generalize (1 : ℚ) / 2 ^ 1075 = T at *
    generalize (2 : ℚ) ^ 53 = P at *
    linarith
  · rw [subs _ _ rf laf]; exact er _ qc _
  · intro theta d et ed tf
    unfold oCornerF
    simp only [bind, Except.bind]
    have ea : halfF * m.pi * ((j : F64) / (ns : F64) - halfF) = rayAlphaF m ns j := rfl
    have eb : m.atan (((2 * j : Nat) : F64) / (ns : F64) - 1) = rayBetaF m ns j := rfl
    have na : (m.cos (rayAlphaF m ns j)).val ≠ 0 := by linarith
    have nb : (m.cos (rayBetaF m ns j)).val ≠ 0 := by linarith
    simp only [ea, eb, pyTrigF_fin _ _ af, pyTrigF_fin _ _ bf, pyDivF_ok _ _ na, pyDivF_ok _ _ nb, hg, ← elsa, ← elsb, ← eh, ← et, ← ed,
      pyTrigF_fin _ _ tf]
    rfl

theorem RingSize.small {r c : F64} (H : RingSize r c) (q : ℚ) (h : |q| ≤ 64 * r.val) : |q| ≤ 2 ^ 1000 := by
  have p : (2 : ℚ) ^ 905 = 64 * 2 ^ 899 := by rw [show 905 = 6 + 899 from rfl, pow_add]; norm_num
  calc |q| ≤ 64 * r.val := h
    _ ≤ 64 * 2 ^ 899 := mul_le_mul_of_nonneg_left H.r1 (by norm_num)
    _ = 2 ^ 905 := p.symm
    _ ≤ 2 ^ 1000 := pow_le_pow_right₀ (by norm_num) (by norm_num)

theorem RingSize.tiny {r c : F64} (H : RingSize r c) : (1 : ℚ) / 2 ^ 1075 ≤ c.val / 2 ^ 60 := by
  have a : (1 : ℚ) / 2 ^ 1075 ≤ 1 / 2 ^ 960 := one_div_le_one_div_of_le (by positivity) (pow_le_pow_right₀ (by norm_num) (by norm_num))
  have b : (1 : ℚ) / 2 ^ 960 = 1 / 2 ^ 900 / 2 ^ 60 := by rw [show 960 = 900 + 60 from rfl, pow_add, div_div]
  rw [b] at a
  exact a.trans (div_le_div_of_nonneg_right H.c0 (by positivity))

/-- **C151, inside.** Where the spacing and the curvature are zero, the corners of the quarter O are on the side of the square up to rounding. -/
theorem C151_inner (m : MathFns F64) (hm : TrigRough m) (cf : F64 → Py F64) (r c : F64) (H : RingSize r c) (ns j : Nat) (h0 : 0 < ns)
    (hns : ns ≤ 2 ^ 52) (hj : j ≤ ns) (eta gamma : F64) (ef : eta.Finite) (e0 : eta.val = 0) (hg : cf eta = .ok gamma) (gf : gamma.Finite)
    (g0 : gamma.val = 0) : ∃ x y, oCornerF m cf r c ns j eta = .ok (x, y) ∧ x.Finite ∧ |x.val - c.val / 2| ≤ c.val / 2 ^ 52 := by
  obtain ⟨lsa, lsb, lc, lh, laf, lbf, lcf, lhf, ⟨la0, la2⟩, ⟨lb0, lb2⟩, _, _, lbe, step⟩ := oCornerF_steps m hm cf r c H ns j h0 hns hj eta gamma hg
  obtain ⟨af, ab⟩ := rayAlphaF_le m hm ns j h0 hns hj
  obtain ⟨bf, bb⟩ := rayBetaF_le m hm ns j h0 hns hj
  obtain ⟨cbf, cb0, cb1⟩ := hm.cos _ bf bb
  have cp : 0 < c.val := lt_of_lt_of_le (by positivity) H.c0
  have cr := H.cr
  have rp : 0 < r.val := by linarith
  have sa : |lsa.val| ≤ 2 ^ 1000 := H.small _ (by rw [abs_of_nonneg la0]; clear * - la2 cr rp; linarith)
  have sb : |lsb.val| ≤ 2 ^ 1000 := H.small _ (by rw [abs_of_nonneg lb0]; clear * - lb2 cr rp; linarith)
  -- the two distances
  obtain ⟨u1, u2⟩ := mul_zeroVal ef lcf e0
  obtain ⟨v1, v2⟩ := mul_zeroVal ef lhf e0
  obtain ⟨dcf, dcv⟩ := add_zeroVal laf u1 u2 sa
  obtain ⟨dhf, dhv⟩ := add_zeroVal lbf v1 v2 sb
  obtain ⟨of, ov⟩ := one_sub_zeroVal gf g0
  -- the angle
  obtain ⟨w1, w2⟩ := mul_zeroVal gf af g0
  obtain ⟨w3, w4⟩ := mul_oneVal of bf ov (small_fin _ bb)
  obtain ⟨tf, tv⟩ := zeroVal_add w1 w3 w2 (by rw [w4]; exact small_fin _ bb)
  -- the distance
  obtain ⟨x1, x2⟩ := mul_zeroVal gf dcf g0
  obtain ⟨x3, x4⟩ := mul_oneVal of dhf ov (by rw [dhv]; exact sb)
  obtain ⟨df, dv⟩ := zeroVal_add x1 x3 x2 (by rw [x4, dhv]; exact sb)
  rw [w4] at tv
  rw [x4, dhv] at dv
  have st := step _ _ rfl rfl tf
  set theta := gamma * rayAlphaF m ns j + (1 - gamma) * rayBetaF m ns j with etheta
  set d := gamma * (lsa + eta * lc) + (1 - gamma) * (lsb + eta * lh) with ed
  have ctv := hm.cosv theta _ tf bf tv
  have ctf := (hm.cos theta tf (by rw [tv]; exact bb)).1
  refine ⟨_, _, st, ?_⟩
  rw [mul_fin df ctf, dv, ctv]
  have kp : 0 < (m.cos (rayBetaF m ns j)).val := lt_of_lt_of_le (by norm_num) cb0
  set k := (m.cos (rayBetaF m ns j)).val with hk
  have q0 : 0 ≤ lsb.val * k := mul_nonneg lb0 kp.le
  have q1 : lsb.val * k ≤ 2 * c.val := (mul_le_of_le_one_right lb0 cb1).trans lb2
  have qs : |lsb.val * k| ≤ 2 ^ 1000 := H.small _ (by rw [abs_of_nonneg q0]; clear * - q1 cr rp; linarith)
  have err := ofQ_err (d.neg ^^ (m.cos theta).neg) _ qs
  refine ⟨ofQ_fin _ _ qs, ?_⟩
  -- the first rounding, times the cosine
  have e1 : |lsb.val * k - c.val / 2| ≤ c.val / 2 / 2 ^ 53 + 1 / 2 ^ 1075 := by
    have a : lsb.val * k - c.val / 2 = (lsb.val - c.val / 2 / k) * k := by rw [sub_mul, div_mul_cancel₀ _ kp.ne']
    rw [a, abs_mul, abs_of_pos kp]
    calc |lsb.val - c.val / 2 / k| * k ≤ (c.val / 2 / k / 2 ^ 53 + 1 / 2 ^ 1075) * k := mul_le_mul_of_nonneg_right lbe kp.le
      _ = c.val / 2 / 2 ^ 53 + 1 / 2 ^ 1075 * k := by
        rw [add_mul, div_right_comm (c.val / 2) k, div_mul_cancel₀ _ kp.ne']
      _ ≤ c.val / 2 / 2 ^ 53 + 1 / 2 ^ 1075 := by
        have : (1 : ℚ) / 2 ^ 1075 * k ≤ 1 / 2 ^ 1075 := mul_le_of_le_one_right (by positivity) cb1
        exact add_le_add (le_refl _) this
  have T := H.tiny
  rw [abs_of_nonneg q0] at err
  have tri := abs_sub_le (ofQ (d.neg ^^ (m.cos theta).neg) (lsb.val * k)).val (lsb.val * k) (c.val / 2)
  have e1' := (abs_le.1 e1).2
  clear * - err e1 e1' T tri cp
  generalize (1 : ℚ) / 2 ^ 1075 = t at *
  generalize (ofQ (d.neg ^^ (m.cos theta).neg) (lsb.val * k)).val = v at *
  generalize lsb.val * k = q at *
  generalize c.val = c at *
  norm_num at *
  linarith

/-- **C151, outside.** Where the spacing and the curvature are one, the corners of the quarter O are on the circle at the angle of the ray, up
to rounding. -/
theorem C151_outer (m : MathFns F64) (hm : TrigRough m) (cf : F64 → Py F64) (r c : F64) (H : RingSize r c) (ns j : Nat) (h0 : 0 < ns)
    (hns : ns ≤ 2 ^ 52) (hj : j ≤ ns) (eta gamma : F64) (ef : eta.Finite) (e0 : eta.val = 1) (hg : cf eta = .ok gamma) (gf : gamma.Finite)
    (g0 : gamma.val = 1) : ∃ x y, oCornerF m cf r c ns j eta = .ok (x, y) ∧ x.Finite ∧ y.Finite ∧
      |x.val - r.val * (m.cos (rayAlphaF m ns j)).val| ≤ r.val / 2 ^ 50 ∧ |y.val - r.val * (m.sin (rayAlphaF m ns j)).val| ≤ r.val / 2 ^ 50 := by
  obtain ⟨lsa, lsb, lc, lh, laf, lbf, lcf, lhf, ⟨la0, la2⟩, ⟨lb0, lb2⟩, lhb, lce, _, step⟩ := oCornerF_steps m hm cf r c H ns j h0 hns hj eta gamma hg
  obtain ⟨af, ab⟩ := rayAlphaF_le m hm ns j h0 hns hj
  obtain ⟨bf, bb⟩ := rayBetaF_le m hm ns j h0 hns hj
  have cp : 0 < c.val := lt_of_lt_of_le (by positivity) H.c0
  have cr := H.cr
  have rp : 0 < r.val := by linarith
  have T := H.tiny
  have T' : (1 : ℚ) / 2 ^ 1075 ≤ r.val / 2 ^ 59 := by
    refine T.trans ?_
    rw [show (2 : ℚ) ^ 60 = 2 * 2 ^ 59 by norm_num, div_le_div_iff₀ (by positivity) (by positivity)]
    have : (0 : ℚ) ≤ 2 ^ 59 := by positivity
    nlinarith
  -- the distance from the square to the circle
  have qc : |r.val - lsa.val| ≤ 3 * r.val := by rw [abs_le]; clear * - la0 la2 cr rp; constructor <;> linarith
  have lcb : |lc.val| ≤ 4 * r.val := by
    have e := abs_sub_abs_le_abs_sub lc.val (r.val - lsa.val)
    clear * - e lce qc T' rp
    generalize (1 : ℚ) / 2 ^ 1075 = t at *
    norm_num at *
    linarith
  obtain ⟨u1, u2⟩ := mul_oneVal ef lcf e0 (H.small _ (by clear * - lcb rp; linarith))
  obtain ⟨v1, v2⟩ := mul_oneVal ef lhf e0 (lhb.trans (pow_le_pow_right₀ (by norm_num) (by norm_num)))
  -- the point at the end of the ray
  have sum : |lsa.val + lc.val - r.val| ≤ 3 * r.val / 2 ^ 53 + r.val / 2 ^ 59 := by
    have : lsa.val + lc.val - r.val = lc.val - (r.val - lsa.val) := by ring
    rw [this]
    clear * - lce qc T'
    generalize (1 : ℚ) / 2 ^ 1075 = t at *
    norm_num at *
    linarith
  have sumb : |lsa.val + lc.val| ≤ 3 / 2 * r.val := by
    rw [abs_le] at sum ⊢
    clear * - sum rp
    norm_num at *
    constructor <;> linarith [sum.1, sum.2]
  have sums : |lsa.val + lc.val| ≤ 2 ^ 1000 := H.small _ (by clear * - sumb rp; linarith)
  have edc := add_fin laf u1
  rw [u2] at edc
  set zc := (lsa.neg && (eta * lc).neg) with hzc
  have dcf : (lsa + eta * lc).Finite := by rw [edc]; exact ofQ_fin _ _ sums
  have dce := ofQ_err zc _ sums
  rw [← edc] at dce
  have dcr : |(lsa + eta * lc).val - r.val| ≤ 5 * r.val / 2 ^ 53 := by
    have tri := abs_sub_le (lsa + eta * lc).val (lsa.val + lc.val) r.val
    clear * - dce tri sum sumb T' rp
    generalize (1 : ℚ) / 2 ^ 1075 = t at *
    generalize (lsa + eta * lc).val = v at *
    norm_num at *
    linarith
  have dcb : |(lsa + eta * lc).val| ≤ 2 * r.val := by
    rw [abs_le] at dcr ⊢
    clear * - dcr rp
    norm_num at *
    constructor <;> linarith [dcr.1, dcr.2]
  have dcs : |(lsa + eta * lc).val| ≤ 2 ^ 1000 := H.small _ (by clear * - dcb rp; linarith)
  have dhf : (lsb + eta * lh).Finite := by
    rw [add_fin lbf v1, v2]
    refine ofQ_fin _ _ ((abs_add_le _ _).trans ?_)
    have a : |lsb.val| ≤ 2 ^ 910 := by
      rw [abs_of_nonneg lb0]
      have p : (2 : ℚ) ^ 910 = 2048 * 2 ^ 899 := by rw [show 910 = 11 + 899 from rfl, pow_add]; norm_num
      have r1 := H.r1
      rw [p]
      clear * - lb2 cr r1 rp
      generalize (2 : ℚ) ^ 899 = X at *
      linarith
    calc |lsb.val| + |lh.val| ≤ 2 ^ 910 + 2 ^ 910 := add_le_add a lhb
      _ = 2 ^ 911 := by rw [← two_mul, ← pow_succ']
      _ ≤ 2 ^ 1000 := pow_le_pow_right₀ (by norm_num) (by norm_num)
  obtain ⟨of, ov⟩ := one_sub_oneVal gf g0
  -- the angle
  obtain ⟨w1, w2⟩ := mul_oneVal gf af g0 (small_fin _ ab)
  obtain ⟨w3, w4⟩ := mul_zeroVal of bf ov
  obtain ⟨tf, tv⟩ := add_zeroVal w1 w3 w4 (by rw [w2]; exact small_fin _ ab)
  -- the distance
  obtain ⟨x1, x2⟩ := mul_oneVal gf dcf g0 dcs
  obtain ⟨x3, x4⟩ := mul_zeroVal of dhf ov
  obtain ⟨df, dv⟩ := add_zeroVal x1 x3 x4 (by rw [x2]; exact dcs)
  rw [w2] at tv
  rw [x2] at dv
  have st := step _ _ rfl rfl tf
  set theta := gamma * rayAlphaF m ns j + (1 - gamma) * rayBetaF m ns j with etheta
  set d := gamma * (lsa + eta * lc) + (1 - gamma) * (lsb + eta * lh) with ed
  have ctv := hm.cosv theta _ tf af tv
  have stv := hm.sinv theta _ tf af tv
  obtain ⟨ctf, ct0, ct1⟩ := hm.cos theta tf (by rw [tv]; exact ab)
  obtain ⟨stf, st1⟩ := hm.sin theta tf (by rw [tv]; exact ab)
  have last : ∀ k : F64, k.Finite → |k.val| ≤ 1 → (d * k).Finite ∧ |(d * k).val - r.val * k.val| ≤ r.val / 2 ^ 50 := by
    intro k kf k1
    rw [mul_fin df kf, dv]
    have b : |(lsa + eta * lc).val * k.val| ≤ 2 * r.val := by
      rw [abs_mul]
      exact (mul_le_of_le_one_right (abs_nonneg _) k1).trans dcb
    have bs : |(lsa + eta * lc).val * k.val| ≤ 2 ^ 1000 := H.small _ (by clear * - b rp; linarith)
    have e := ofQ_err (d.neg ^^ k.neg) _ bs
    refine ⟨ofQ_fin _ _ bs, ?_⟩
    have e2 : |(lsa + eta * lc).val * k.val - r.val * k.val| ≤ 5 * r.val / 2 ^ 53 := by
      rw [← sub_mul, abs_mul]
      exact (mul_le_of_le_one_right (abs_nonneg _) k1).trans dcr
    have tri := abs_sub_le (ofQ (d.neg ^^ k.neg) ((lsa + eta * lc).val * k.val)).val ((lsa + eta * lc).val * k.val) (r.val * k.val)
    clear * - e e2 tri b T' rp
    generalize (1 : ℚ) / 2 ^ 1075 = t at *
    generalize (ofQ (d.neg ^^ k.neg) ((lsa + eta * lc).val * k.val)).val = v at *
    generalize |v - r.val * k.val| = v1 at *
    generalize |(lsa + eta * lc).val * k.val - r.val * k.val| = v2 at *
    generalize |v - (lsa + eta * lc).val * k.val| = v3 at *
    generalize |(lsa + eta * lc).val * k.val| = v4 at *
    norm_num at *
    linarith
  have cl := last (m.cos theta) ctf (by rw [abs_of_nonneg (by linarith)]; exact ct1)
  have sl := last (m.sin theta) stf st1
  rw [ctv] at cl
  rw [stv] at sl
  exact ⟨_, _, st, cl.1, sl.1, cl.2, sl.2⟩

/-- **C151.** The quarter O of `gen_circle`, for spacing and curvature functions that map 0 to 0 and 1 to 1: its first ring begins at the side of
the square (which is exactly at `c / 2`, C149), and its last ring ends on the circle at the angles of the rays, up to rounding. -/
theorem C151 (native : Endian) (m : MathFns F64) (hm : TrigRough m) (cf bl : F64 → Py F64) (r s : F64) (ns no : Nat) (var : Var) (bc : List Name)
    (ib : Bool) (H : RingSize r (s * r * m.sqrt2)) (hns : ns ≤ 2 ^ 52) (hno : 0 < no)
    (b0 b1 g0 g1 : F64) (hb0 : bl (((0 : Nat) : F64) / (no : F64)) = .ok b0) (vb0 : b0.Finite ∧ b0.val = 0) (hg0 : cf b0 = .ok g0) (vg0 : g0.Finite ∧ g0.val = 0)
    (hb1 : bl ((no : F64) / (no : F64)) = .ok b1) (vb1 : b1.Finite ∧ b1.val = 1) (hg1 : cf b1 = .ok g1) (vg1 : g1.Finite ∧ g1.val = 1)
    (O : HexaData F64) (h : circleOF native m cf bl r s ns no var bc ib = .ok O) (j : Nat) (hj : j < ns) (sy : Bool) :
    (let x := Spec.corner (O.el (0 + no * j)) false sy false 0
     x.Finite ∧ |x.val - (s * r * m.sqrt2).val / 2| ≤ (s * r * m.sqrt2).val / 2 ^ 52) ∧
    (let x := Spec.corner (O.el (no - 1 + no * j)) true sy false 0
     let y := Spec.corner (O.el (no - 1 + no * j)) true sy false 1
     let alpha := rayAlphaF m ns (j + if sy then 1 else 0)
     x.Finite ∧ y.Finite ∧ |x.val - r.val * (m.cos alpha).val| ≤ r.val / 2 ^ 50 ∧ |y.val - r.val * (m.sin alpha).val| ≤ r.val / 2 ^ 50) := by
  obtain ⟨_, _, _, _, hel⟩ := circleOF_el h
  have key : ∀ i < no, ∀ sx : Bool, oPointF m cf bl r (s * r * m.sqrt2) ns no (i + if sx then 1 else 0) (j + if sy then 1 else 0) =
      .ok (Spec.corner (O.el (i + no * j)) sx sy false 0, Spec.corner (O.el (i + no * j)) sx sy false 1) := by
    intro i hi sx
    obtain ⟨a, a1, a2, _⟩ := hel _ (elnum_lt hi hj)
    rw [Nat.add_mul_mod_self_left, Nat.mod_eq_of_lt hi, Nat.add_mul_div_left _ _ (by omega), Nat.div_eq_of_lt hi, Nat.zero_add] at a1
    obtain ⟨_, q2, q3, q4, _, q6⟩ := oPosF_points _ _ _ _ _ _ _ _ _ _ _ a1
    have w := q6 (if sy then 1 else 0) (by split_ifs <;> omega) (if sx then 1 else 0) (by split_ifs <;> omega)
    unfold Spec.corner
    rw [a2, w, q3, q4]
    cases sx <;> cases sy <;> simp [Arr.zeros]
  have hj' : j + (if sy then 1 else 0) ≤ ns := by split_ifs <;> omega
  constructor
  · have k := key 0 hno false
    have e : 0 + (if (false : Bool) = true then 1 else 0) = 0 := by simp
    rw [e] at k
    unfold oPointF at k
    rw [hb0] at k
    obtain ⟨x, y, st, xf, xe⟩ := C151_inner m hm cf r _ H ns _ (by omega) hns hj' b0 g0 vb0.1 vb0.2 hg0 vg0.1 vg0.2
    simp only [bind, Except.bind] at k
    rw [st] at k
    have k' := Except.ok.inj k
    have kx : x = _ := congrArg Prod.fst k'
    dsimp only at kx ⊢
    rw [← kx]
    exact ⟨xf, xe⟩
  · have k := key (no - 1) (by omega) true
    have e : no - 1 + (if (true : Bool) = true then 1 else 0) = no := by simp; omega
    rw [e] at k
    unfold oPointF at k
    rw [hb1] at k
    obtain ⟨x, y, st, xf, yf, xe, ye⟩ := C151_outer m hm cf r _ H ns _ (by omega) hns hj' b1 g1 vb1.1 vb1.2 hg1 vg1.1 vg1.2
    simp only [bind, Except.bind] at k
    rw [st] at k
    have k' := Except.ok.inj k
    have kx : x = _ := congrArg Prod.fst k'
    have ky : y = _ := congrArg Prod.snd k'
    dsimp only at kx ky ⊢
    rw [← kx, ← ky]
    exact ⟨xf, yf, xe, ye⟩

/-- A rounded result stays between bounds that are doubles. -/
theorem ofQ_between (z : Bool) (q : ℚ) (l u : F64) (lf : l.Finite) (uf : u.Finite) (h1 : l.val ≤ q) (h2 : q ≤ u.val) :
    l.val ≤ (ofQ z q).val ∧ (ofQ z q).val ≤ u.val := by
  have a := ofQ_mono false z l.val q h1
  have b := ofQ_mono z false q u.val h2
  rw [ofQ_rep _ _ lf] at a
  rw [ofQ_rep _ _ uf] at b
  exact ⟨a, b⟩

theorem sq_between (x : F64) (hx : x.Finite) (h : |x.val| ≤ 1) : (x * x).Finite ∧ 0 ≤ (x * x).val ∧ (x * x).val ≤ 1 := by
  have q0 : 0 ≤ x.val * x.val := mul_self_nonneg _
  have q1 : x.val * x.val ≤ 1 := by rw [abs_le] at h; nlinarith
  rw [mul_fin hx hx]
  have b := ofQ_between (x.neg ^^ x.neg) (x.val * x.val) 0 1 (by decide +kernel) oneF_val.1 (by rw [zeroF_val]; exact q0) (by rw [oneF_val.2]; exact q1)
  rw [zeroF_val, oneF_val.2] at b
  exact ⟨ofQ_fin _ _ (small_fin _ (by rw [abs_of_nonneg q0]; exact q1)), b⟩

theorem sq_val (x y : F64) (hx : x.Finite) (hy : y.Finite) (h : x.val = y.val) : x * x = y * y := by
  rw [mul_fin hx hx, mul_fin hy hy, h, Bool.xor_self, Bool.xor_self]

/-- The library of the examples meets the conditions. -/
theorem roughMath_rough : TrigRough roughMath := by
  have t2 : (2 : F64).Finite ∧ (2 : F64).val = 2 := by decide +kernel
  have t5 : (5 : F64).Finite ∧ (5 : F64).val = 5 := by decide +kernel
  have quot : ∀ x : F64, x.Finite → |x.val| ≤ 1 → ∀ k : F64, k.Finite → 2 ≤ k.val →
      (1 - x * x / k).Finite ∧ 1 / 2 ≤ (1 - x * x / k).val ∧ (1 - x * x / k).val ≤ 1 := by
    intro x hx h k kf k2
    obtain ⟨sf, s0, s1⟩ := sq_between x hx h
    have kp : 0 < k.val := by linarith
    have q0 : 0 ≤ (x * x).val / k.val := div_nonneg s0 kp.le
    have q1 : (x * x).val / k.val ≤ 1 / 2 := by rw [div_le_iff₀ kp]; linarith
    have e := div_fin sf kf kp.ne'
    have b := ofQ_between ((x * x).neg ^^ k.neg) ((x * x).val / k.val) 0 halfF (by decide +kernel) halfF_val.1 (by rw [zeroF_val]; exact q0) (by rw [halfF_val.2]; exact q1)
    rw [zeroF_val, halfF_val.2, ← e] at b
    have df : (x * x / k).Finite := by rw [e]; exact ofQ_fin _ _ (small_fin _ (by rw [abs_of_nonneg q0]; linarith))
    rw [sub_fin oneF_val.1 df, oneF_val.2]
    have b2 := ofQ_between ((1 : F64).neg && !(x * x / k).neg) (1 - (x * x / k).val) halfF 1 halfF_val.1 oneF_val.1
      (by rw [halfF_val.2]; linarith [b.2]) (by rw [oneF_val.2]; linarith [b.1])
    rw [halfF_val.2, oneF_val.2] at b2
    exact ⟨ofQ_fin _ _ (small_fin _ (by rw [abs_le]; constructor <;> linarith [b.1, b.2])), b2⟩
  refine ⟨?_, fun x hx h => ⟨hx, h⟩, ?_, fun x y _ _ h => h, ?_, by decide +kernel, by decide +kernel⟩
  · intro x hx h
    exact quot x hx h 2 t2.1 (by rw [t2.2])
  · intro x y hx hy h
    change (1 - x * x / 2).val = (1 - y * y / 2).val
    rw [sq_val x y hx hy h]
  · intro x hx h
    obtain ⟨wf, w0, w1⟩ := quot x hx h 5 t5.1 (by rw [t5.2]; norm_num)
    change (x * (1 - x * x / 5)).Finite ∧ |(x * (1 - x * x / 5)).val| ≤ 1
    rw [mul_fin hx wf]
    have q : |x.val * (1 - x * x / 5).val| ≤ 1 := by
      rw [abs_mul, abs_of_nonneg (by linarith : (0 : ℚ) ≤ (1 - x * x / 5).val)]
      exact mul_le_one₀ h (by linarith) w1
    refine ⟨ofQ_fin _ _ (small_fin _ q), ?_⟩
    have m1 : (0 - 1 : F64).Finite ∧ (0 - 1 : F64).val = -1 := by decide +kernel
    have b := ofQ_between (x.neg ^^ (1 - x * x / 5).neg) (x.val * (1 - x * x / 5).val) (0 - 1) 1 m1.1 oneF_val.1 (by rw [m1.2]; exact (abs_le.1 q).1) (by rw [oneF_val.2]; exact (abs_le.1 q).2)
    rw [m1.2, oneF_val.2] at b
    exact abs_le.2 b

/-- The circle of radius 1 with ratio 1/2, three elements along a side and two rings, with the curvature `x ** 2` and equal spacing. -/
example (O : HexaData F64) (h : circleOF .little roughMath (fun x => .ok (x * x)) .ok 1 (1 / 2) 3 2 ⟨2, 2, 0, 0, 0⟩ [['W']] true = .ok O) :
    |(Spec.corner (O.el 0) false true false 0).val - (1 / 2 * 1 * roughMath.sqrt2 : F64).val / 2| ≤ (1 / 2 * 1 * roughMath.sqrt2 : F64).val / 2 ^ 52 := by
  have hc : (1 / 2 * 1 * roughMath.sqrt2 : F64).Finite ∧ 1 / 2 ^ 1 ≤ (1 / 2 * 1 * roughMath.sqrt2 : F64).val ∧ (1 / 2 * 1 * roughMath.sqrt2 : F64).val ≤ 1 := by
    decide +kernel
  have a : (1 : ℚ) / 2 ^ 900 ≤ 1 / 2 ^ 1 := one_div_le_one_div_of_le (by positivity) (pow_le_pow_right₀ (by norm_num) (by norm_num))
  have H : RingSize 1 (1 / 2 * 1 * roughMath.sqrt2) :=
    ⟨oneF_val.1, hc.1, a.trans hc.2.1, by rw [oneF_val.2]; linarith [hc.2.2], by rw [oneF_val.2]; exact one_le_pow₀ (by norm_num)⟩
  have v0 : (((0 : Nat) : F64) / ((2 : Nat) : F64)).Finite ∧ (((0 : Nat) : F64) / ((2 : Nat) : F64)).val = 0 := by decide +kernel
  have v1 : (((2 : Nat) : F64) / ((2 : Nat) : F64)).Finite ∧ (((2 : Nat) : F64) / ((2 : Nat) : F64)).val = 1 := by decide +kernel
  have k := (C151 .little roughMath roughMath_rough (fun x => .ok (x * x)) .ok 1 (1 / 2) 3 2 ⟨2, 2, 0, 0, 0⟩ [['W']] true H (by norm_num) (by norm_num)
    (((0 : Nat) : F64) / ((2 : Nat) : F64)) (((2 : Nat) : F64) / ((2 : Nat) : F64)) _ _ rfl v0 rfl (mul_zeroVal v0.1 v0.1 v0.2) rfl v1 rfl
    (by have := mul_oneVal v1.1 v1.1 v1.2 (small_fin _ (by rw [v1.2]; norm_num)); rwa [v1.2] at this) O h 0 (by norm_num) true).1
  rw [Nat.mul_zero, Nat.add_zero] at k
  exact k.2

end Pymech
