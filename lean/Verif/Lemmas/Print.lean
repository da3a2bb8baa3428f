import Verif.Lemmas.Text

/-!
# Printing a number twice

A number with fourteen digits survives the conversion to double precision and back, so printing the number that
was read from a printed number gives the same text.
-/

namespace Pymech

open Flt

theorem roundEven_unique (q : ℚ) (hq : 0 ≤ q) (n : Nat) (h : |q - n| < 1 / 2) : roundEven q = n := by
  have h1 := roundEven_dist q hq
  rw [abs_le] at h1
  rw [abs_lt] at h
  have h2 : (roundEven q : ℚ) < n + 1 := by linarith
  have h3 : (n : ℚ) < roundEven q + 1 := by linarith
  have h4 : roundEven q < n + 1 := by exact_mod_cast h2
  have h5 : n < roundEven q + 1 := by exact_mod_cast h3
  omega

theorem log10_eq {q : ℚ} {e : Int} (h1 : (10 : ℚ) ^ e ≤ q) (h2 : q < 10 ^ (e + 1)) : Int.log 10 q = e := by
  have hq : 0 < q := lt_of_lt_of_le (zpow10_pos e) h1
  have a := log10_le hq
  have b := lt_log10 q
  have c : (10 : ℚ) ^ e < 10 ^ (Int.log 10 q + 1) := lt_of_le_of_lt h1 b
  have d : (10 : ℚ) ^ Int.log 10 q < 10 ^ (e + 1) := lt_of_le_of_lt a h2
  rw [zpow_lt_zpow_iff_right₀ (by norm_num)] at c d
  omega

/-- A number close enough to a decimal is printed as this decimal. -/
theorem sigDigits_unique (p m : Nat) (e : Int) (y : ℚ) (h1 : 10 ^ p ≤ m) (h2 : m < 10 ^ (p + 1))
    (hy : |y - m * 10 ^ (e - p)| < 10 ^ (e - p) / 2)
    (hy' : m = 10 ^ p → |y - m * 10 ^ (e - p)| < 10 ^ (e - p - 1) / 2) : sigDigits p y = (m, e) := by
  have hu := zpow10_pos (e - p)
  set u := (10 : ℚ) ^ (e - p) with hudef
  have hue : (10 : ℚ) ^ e = (10 ^ p : Nat) * u := by
    rw [hudef, ← ten_zpow_add_nat, sub_add_cancel]
  have hue1 : (10 : ℚ) ^ (e + 1) = (10 ^ (p + 1) : Nat) * u := by
    rw [hudef, ← ten_zpow_add_nat]; congr 1; push_cast; ring
  have hm1 : ((10 ^ p : Nat) : ℚ) ≤ m := by exact_mod_cast h1
  have hm2 : (m : ℚ) + 1 ≤ ((10 ^ (p + 1) : Nat) : ℚ) := by exact_mod_cast h2
  have hyl := abs_lt.mp hy
  by_cases hge : (10 : ℚ) ^ e ≤ y
  · have hlt : y < 10 ^ (e + 1) := by
      rw [hue1]
      nlinarith
    have hlog := log10_eq hge hlt
    have hq : 0 < y := lt_of_lt_of_le (zpow10_pos e) hge
    have hr : roundEven (y / u) = m := by
      apply roundEven_unique _ (by positivity)
      have : y / u - m = (y - m * u) / u := by field_simp
      rw [this, abs_div, abs_of_pos hu, div_lt_iff₀ hu]
      linarith
    unfold sigDigits
    dsimp only
    rw [hlog, ← hudef, hr, if_neg (by omega)]
  · rw [not_le] at hge
    have hm : m = 10 ^ p := by
      by_contra hne
      have h3 : 10 ^ p + 1 ≤ m := by omega
      have h4 : ((10 ^ p : Nat) : ℚ) + 1 ≤ m := by exact_mod_cast h3
      rw [hue] at hge
      nlinarith
    have hy2 := abs_lt.mp (hy' hm)
    have hv := zpow10_pos (e - p - 1)
    set v := (10 : ℚ) ^ (e - p - 1) with hvdef
    have huv : u = 10 * v := by
      rw [hudef, hvdef, show e - (p : Int) = e - p - 1 + 1 by ring, zpow_add_one₀ (by norm_num)]
      rw [show e - (p : Int) - 1 + 1 - 1 = e - p - 1 by ring]; ring
    have hmu : (m : ℚ) * u = 10 ^ e := by rw [hm, hue]
    have hve : (10 : ℚ) ^ e = (10 ^ (p + 1) : Nat) * v := by
      rw [hue, huv]; push_cast; ring
    have hve1 : (10 : ℚ) ^ (e - 1) = (10 ^ p : Nat) * v := by
      rw [hvdef, ← ten_zpow_add_nat]; congr 1; ring
    have h10 : (1 : ℚ) ≤ ((10 ^ p : Nat) : ℚ) := by exact_mod_cast Nat.one_le_pow _ _ (by norm_num)
    have hlow : (10 : ℚ) ^ (e - 1) ≤ y := by
      rw [hmu, hve] at hy2
      rw [hve1]
      push_cast at hy2 h10 ⊢
      rw [pow_succ] at hy2
      nlinarith
    have hlog : Int.log 10 y = e - 1 := log10_eq hlow (by rw [sub_add_cancel]; exact hge)
    have hq : 0 < y := lt_of_lt_of_le (zpow10_pos _) hlow
    have hr : roundEven (y / v) = 10 ^ (p + 1) := by
      apply roundEven_unique _ (by positivity)
      have : y / v - ((10 ^ (p + 1) : Nat) : ℚ) = (y - 10 ^ e) / v := by rw [hve]; field_simp
      rw [this, abs_div, abs_of_pos hv, div_lt_iff₀ hv, ← hmu]
      have := hy' hm
      linarith
    unfold sigDigits
    dsimp only
    rw [hlog, show e - 1 - (p : Int) = e - p - 1 by ring, ← hvdef, hr, if_pos rfl, hm]
    simp

/-- The rounding error is at most half a unit in the last place. -/
theorem roundMag_error {eb mb : Nat} (q : ℚ) (hq : 0 < q) (hfin : roundMag eb mb q < infMag eb mb) :
    |magVal eb mb (roundMag eb mb q) - q| ≤ 2 ^ ulpExp eb mb q / 2 := by
  obtain ⟨K, hK, h1, h2, h3⟩ := roundMag_form (eb := eb) (mb := mb) q hq
  have hu := zpow2_pos (ulpExp eb mb q)
  have e1 : roundMag eb mb q = K * 2 ^ mb + roundEven (q / 2 ^ ulpExp eb mb q) := by
    rw [h1] at hfin ⊢
    omega
  rw [e1, magVal_assemble K _ h2 (by tauto), ← hK]
  have h4 := roundEven_dist (q / 2 ^ ulpExp eb mb q) (by positivity)
  have : (roundEven (q / 2 ^ ulpExp eb mb q) : ℚ) * 2 ^ ulpExp eb mb q - q =
      ((roundEven (q / 2 ^ ulpExp eb mb q) : ℚ) - q / 2 ^ ulpExp eb mb q) * 2 ^ ulpExp eb mb q := by
    field_simp
  rw [this, abs_mul, abs_of_pos hu]
  nlinarith

/-- Numbers are multiples of the smallest one. -/
theorem magVal_min_multiple {eb mb : Nat} (m : Nat) : ∃ j : Nat, magVal eb mb m = j * 2 ^ minExp eb mb := by
  obtain ⟨k, n, h, -⟩ := magVal_form (eb := eb) (mb := mb) m
  exact ⟨2 ^ k * n, by rw [h, two_zpow_add_nat]; push_cast; ring⟩

/-- The decimal printed for a finite number. -/
def decOf (x : F64) : ℚ := (sigDigits 13 (magVal 11 52 x.mag)).1 * 10 ^ ((sigDigits 13 (magVal 11 52 x.mag)).2 - (13 : Nat))

/-- The decimal of a finite number does not overflow. -/
theorem decOf_finite (x : F64) (hx : x.Finite) (h0 : 0 < x.mag) : roundMag 11 52 (decOf x) < infMag 11 52 := by
  have hpos := magVal_pos (eb := 11) (mb := 52) x.mag h0
  have hspec := (sigDigits_spec 13 _ hpos).2.2
  set q := magVal 11 52 x.mag with hq
  have hmax : q ≤ magVal 11 52 (infMag 11 52 - 1) := magVal_mono (by have : x.mag < infMag 11 52 := hx; omega)
  have hlt : q < 10 ^ (309 : Int) := lt_of_le_of_lt hmax (by decide +kernel)
  have hlog : Int.log 10 q ≤ 308 := by
    have := lt_of_le_of_lt (log10_le hpos) hlt
    rw [zpow_lt_zpow_iff_right₀ (by norm_num)] at this
    omega
  have hD : decOf x ≤ 17976931348623 * 10 ^ (295 : Int) := by
    rw [decOf, ← hq, hspec]
    rcases Int.lt_or_eq_of_le hlog with h | h
    · have h1 : roundEven (q / 10 ^ (Int.log 10 q - (13 : Nat))) ≤ roundEven ((10 ^ 14 : Nat) : ℚ) := by
        apply roundEven_mono (div_nonneg hpos.le (zpow10_pos _).le)
        rw [div_le_iff₀ (zpow10_pos _), ← ten_zpow_add_nat]
        refine (lt_log10 q).le.trans (le_of_eq ?_)
        congr 1; push_cast; ring
      rw [roundEven_natCast] at h1
      have h2 : (roundEven (q / 10 ^ (Int.log 10 q - (13 : Nat))) : ℚ) ≤ ((10 ^ 14 : Nat) : ℚ) := by exact_mod_cast h1
      calc (roundEven (q / 10 ^ (Int.log 10 q - (13 : Nat))) : ℚ) * 10 ^ (Int.log 10 q - (13 : Nat))
          ≤ ((10 ^ 14 : Nat) : ℚ) * 10 ^ (Int.log 10 q - (13 : Nat)) := mul_le_mul_of_nonneg_right h2 (zpow10_pos _).le
        _ = 10 ^ (Int.log 10 q + 1) := by rw [← ten_zpow_add_nat]; congr 1; push_cast; ring
        _ ≤ 10 ^ (308 : Int) := zpow_le_zpow_right₀ (by norm_num) (by omega)
        _ ≤ _ := by decide +kernel
    · rw [h, show (308 : Int) - (13 : Nat) = 295 by norm_num]
      have h1 : roundEven (q / 10 ^ (295 : Int)) ≤ roundEven (magVal 11 52 (infMag 11 52 - 1) / 10 ^ (295 : Int)) :=
        roundEven_mono (div_nonneg hpos.le (zpow10_pos _).le) (div_le_div_of_nonneg_right hmax (zpow10_pos _).le)
      have h2 : roundEven (magVal 11 52 (infMag 11 52 - 1) / 10 ^ (295 : Int)) = 17976931348623 := by decide +kernel
      rw [h2] at h1
      have h3 : (roundEven (q / 10 ^ (295 : Int)) : ℚ) ≤ 17976931348623 := by exact_mod_cast h1
      exact mul_le_mul_of_nonneg_right h3 (zpow10_pos _).le
  refine lt_of_le_of_lt (roundMag_mono hD) ?_
  decide +kernel

theorem u_eq : (2 : ℚ) ^ (-1074 : Int) = 2 ^ minExp 11 52 := by rw [minExp64]

/-- Printing again gives the same digits. -/
theorem sigDigits_idem (x : F64) (hx : x.Finite) (h0 : 0 < x.mag) :
    0 < roundMag 11 52 (decOf x) ∧
      sigDigits 13 (magVal 11 52 (roundMag 11 52 (decOf x))) = sigDigits 13 (magVal 11 52 x.mag) := by
  have hpos := magVal_pos (eb := 11) (mb := 52) x.mag h0
  obtain ⟨hm1, hm2, hspec⟩ := sigDigits_spec 13 _ hpos
  have hfin := decOf_finite x hx h0
  have hD : decOf x = (sigDigits 13 (magVal 11 52 x.mag)).1 * 10 ^ ((sigDigits 13 (magVal 11 52 x.mag)).2 - (13 : Nat)) := rfl
  have hnear := sigDigits_nearest 13 _ hpos
  -- the decimal is within half a unit of the number
  have hdist : |decOf x - magVal 11 52 x.mag| ≤ 10 ^ ((sigDigits 13 (magVal 11 52 x.mag)).2 - (13 : Nat)) / 2 := by
    have hle : Int.log 10 (magVal 11 52 x.mag) ≤ (sigDigits 13 (magVal 11 52 x.mag)).2 := by
      unfold sigDigits; dsimp only; split <;> dsimp only <;> omega
    have hle' : (10 : ℚ) ^ (Int.log 10 (magVal 11 52 x.mag) - (13 : Nat)) ≤ 10 ^ ((sigDigits 13 (magVal 11 52 x.mag)).2 - (13 : Nat)) :=
      zpow_le_zpow_right₀ (by norm_num) (by omega)
    rw [decOf, hspec]
    have hu := zpow10_pos (Int.log 10 (magVal 11 52 x.mag) - (13 : Nat))
    have h4 := roundEven_dist (magVal 11 52 x.mag / 10 ^ (Int.log 10 (magVal 11 52 x.mag) - (13 : Nat))) (by positivity)
    set u := (10 : ℚ) ^ (Int.log 10 (magVal 11 52 x.mag) - (13 : Nat)) with hudef
    have : (roundEven (magVal 11 52 x.mag / u) : ℚ) * u - magVal 11 52 x.mag =
        ((roundEven (magVal 11 52 x.mag / u) : ℚ) - magVal 11 52 x.mag / u) * u := by field_simp
    rw [this, abs_mul, abs_of_pos hu]
    refine (mul_le_mul_of_nonneg_right h4 hu.le).trans ?_
    generalize (10 : ℚ) ^ ((sigDigits 13 (magVal 11 52 x.mag)).2 - (13 : Nat)) = w at hle'
    linarith
  generalize hme : sigDigits 13 (magVal 11 52 x.mag) = me at *
  obtain ⟨m, e⟩ := me
  dsimp only at *
  set w := (10 : ℚ) ^ (e - (13 : Nat)) with hw
  have hwpos : 0 < w := zpow10_pos _
  have hmpos : (0 : ℚ) < m := by
    have : 0 < m := lt_of_lt_of_le (by norm_num) hm1
    exact_mod_cast this
  have hDpos : 0 < decOf x := by rw [hD]; positivity
  by_cases hc : w < 2 ^ minExp 11 52
  · -- below the spacing of the numbers: the same number is read
    have hn := roundMag_nearest (eb := 11) (mb := 52) (decOf x) hDpos.le hfin x.mag
    obtain ⟨j1, hj1⟩ := magVal_min_multiple (eb := 11) (mb := 52) (roundMag 11 52 (decOf x))
    obtain ⟨j2, hj2⟩ := magVal_min_multiple (eb := 11) (mb := 52) x.mag
    have hs := zpow2_pos (minExp 11 52)
    have h5 : |magVal 11 52 (roundMag 11 52 (decOf x)) - magVal 11 52 x.mag| < 2 ^ minExp 11 52 := by
      have t1 := abs_sub_le (magVal 11 52 (roundMag 11 52 (decOf x))) (decOf x) (magVal 11 52 x.mag)
      have t2 : |magVal 11 52 x.mag - decOf x| = |decOf x - magVal 11 52 x.mag| := abs_sub_comm _ _
      rw [t2] at hn
      linarith
    have h6 : j1 = j2 := by
      rw [hj1, hj2, ← sub_mul, abs_mul, abs_of_pos hs] at h5
      have h7 : |(j1 : ℚ) - j2| < 1 := by
        by_contra hcc
        rw [not_lt] at hcc
        nlinarith
      rw [abs_lt] at h7
      have a : (j1 : ℚ) < j2 + 1 := by linarith
      have b : (j2 : ℚ) < j1 + 1 := by linarith
      have a' : j1 < j2 + 1 := by exact_mod_cast a
      have b' : j2 < j1 + 1 := by exact_mod_cast b
      omega
    have h8 : roundMag 11 52 (decOf x) = x.mag := magVal_inj _ _ hfin hx (by rw [hj1, hj2, h6])
    rw [h8]
    exact ⟨h0, hme⟩
  · rw [not_lt] at hc
    have hne : w ≠ 2 ^ minExp 11 52 := by
      intro heq
      -- a power of ten is not this power of two
      rw [← u_eq] at heq
      rcases le_or_gt (e - (13 : Nat)) (-324) with h | h
      · have : w ≤ 10 ^ (-324 : Int) := zpow_le_zpow_right₀ (by norm_num) h
        have h2 : (10 : ℚ) ^ (-324 : Int) < 2 ^ (-1074 : Int) := by decide +kernel
        linarith
      · have : (10 : ℚ) ^ (-323 : Int) ≤ w := zpow_le_zpow_right₀ (by norm_num) (by omega)
        have h2 : (2 : ℚ) ^ (-1074 : Int) < 10 ^ (-323 : Int) := by decide +kernel
        linarith
    have hlt : (2 : ℚ) ^ minExp 11 52 < w := lt_of_le_of_ne hc (Ne.symm hne)
    have herr := roundMag_error (eb := 11) (mb := 52) (decOf x) hDpos hfin
    have hw1 : (10 : ℚ) ^ (e - (13 : Nat) - 1) = w / 10 := by
      rw [hw, zpow_sub_one₀ (by norm_num)]; ring
    have hpos' : 0 < roundMag 11 52 (decOf x) := by
      have h1 : magVal 11 52 1 ≤ decOf x := by
        have : magVal 11 52 1 = 2 ^ minExp 11 52 := by rw [minExp64]; decide +kernel
        rw [this, hD]
        have h2 : (1 : ℚ) ≤ m := by
          have : 1 ≤ m := le_trans (by norm_num) hm1
          exact_mod_cast this
        nlinarith
      have := roundMag_mono (eb := 11) (mb := 52) h1
      rw [roundMag_magVal 1 (by decide)] at this
      omega
    refine ⟨hpos', ?_⟩
    by_cases hsub : Int.log 2 (decOf x) - (52 : Nat) ≤ minExp 11 52
    · have hulp : ulpExp 11 52 (decOf x) = minExp 11 52 := max_eq_right hsub
      rw [hulp] at herr
      by_cases hspecial : m = 10 ^ 13 ∧ w / 10 ≤ 2 ^ minExp 11 52
      · -- the only power of ten in between
        have he : e = -310 := by
          obtain ⟨-, h2⟩ := hspecial
          rw [← hw1, ← u_eq] at h2
          rw [← u_eq] at hlt
          have a1 : (2 : ℚ) ^ (-1074 : Int) < 10 ^ (-323 : Int) := by decide +kernel
          have a2 : (10 : ℚ) ^ (-324 : Int) < 2 ^ (-1074 : Int) := by decide +kernel
          have b1 : (10 : ℚ) ^ (e - (13 : Nat) - 1) < 10 ^ (-323 : Int) := lt_of_le_of_lt h2 a1
          have b2 : (10 : ℚ) ^ (-324 : Int) < 10 ^ (e - (13 : Nat)) := lt_trans a2 hlt
          rw [zpow_lt_zpow_iff_right₀ (by norm_num)] at b1 b2
          omega
        rw [hD, hspecial.1, hw, he]
        decide +kernel
      · apply sigDigits_unique 13 m e _ hm1 hm2
        · rw [← hw, ← hD]; linarith
        · intro hm
          have : ¬ w / 10 ≤ 2 ^ minExp 11 52 := fun h => hspecial ⟨hm, h⟩
          rw [hw1, ← hw, ← hD]
          linarith
    · have hulp : ulpExp 11 52 (decOf x) = Int.log 2 (decOf x) - (52 : Nat) := max_eq_left (by omega)
      have h2 : (2 : ℚ) ^ ulpExp 11 52 (decOf x) ≤ decOf x / 2 ^ 52 := by
        rw [hulp, le_div_iff₀ (by norm_num)]
        have h3 : (2 : ℚ) ^ Int.log 2 (decOf x) ≤ decOf x := (le_log hDpos).mp le_rfl
        have h4 := two_zpow_add_nat 52 (Int.log 2 (decOf x) - (52 : Nat))
        rw [sub_add_cancel] at h4
        rw [h4] at h3
        generalize (2 : ℚ) ^ (Int.log 2 (decOf x) - (52 : Nat)) = g at h3 ⊢
        push_cast at h3
        linarith
      have h5 : decOf x < 10 ^ 14 * w := by
        rw [hD]
        have : (m : ℚ) < 10 ^ 14 := by exact_mod_cast hm2
        nlinarith
      have h6 : (2 : ℚ) ^ ulpExp 11 52 (decOf x) < w / 10 := by
        have : decOf x / 2 ^ 52 < w / 10 := by
          rw [div_lt_iff₀ (by norm_num)]
          nlinarith
        linarith
      apply sigDigits_unique 13 m e _ hm1 hm2
      · rw [← hw, ← hD]; linarith
      · intro _
        rw [hw1, ← hw, ← hD]; linarith

/-- The number that is read back is finite if the number printed was. -/
theorem printed_cases (x : F64) : (x.IsNaN ∧ printed 13 x = nan64 false) ∨ (printed 13 x = x) ∨
    (x.Finite ∧ 0 < x.mag ∧ printed 13 x = Flt.ofRat x.neg (decOf x)) := by
  by_cases hn : x.IsNaN
  · left; exact ⟨hn, by rw [printed, if_pos hn]⟩
  · by_cases hf : x.Finite
    · by_cases h0 : x.mag = 0
      · right; left; rw [printed, if_neg hn, if_neg (not_not.mpr hf), if_pos h0]
      · right; right
        exact ⟨hf, by omega, by rw [printed, if_neg hn, if_neg (not_not.mpr hf), if_neg h0]; rfl⟩
    · right; left; rw [printed, if_neg hn, if_pos hf]

theorem finite_not_nan {x : F64} (h : x.Finite) : ¬ x.IsNaN := by
  simp only [Flt.IsNaN, Flt.Finite, not_lt] at h ⊢; exact h.le

/-- Printing the number that was read gives the same text again. -/
theorem fmtE_printed (x : F64) : fmtE 'E' 13 (printed 13 x) = fmtE 'E' 13 x := by
  rcases printed_cases x with ⟨hn, h⟩ | h | ⟨hf, h0, h⟩
  · rw [h, fmtE, fmtE, if_pos hn, if_pos (by decide +kernel)]
  · rw [h]
  · rw [h]
    obtain ⟨hpos, hsig⟩ := sigDigits_idem x hf h0
    have hfin : (Flt.ofRat x.neg (decOf x) : F64).Finite := decOf_finite x hf h0
    rw [fmtE, fmtE, if_neg (finite_not_nan hfin), if_neg (finite_not_nan hf), if_neg (not_not.mpr hfin), if_neg (not_not.mpr hf)]
    have e1 : (Flt.ofRat x.neg (decOf x) : F64).mag = roundMag 11 52 (decOf x) := rfl
    have e2 : (Flt.ofRat x.neg (decOf x) : F64).neg = x.neg := rfl
    dsimp only
    rw [e1, e2, if_neg (show ¬ roundMag 11 52 (decOf x) = 0 by omega), if_neg (show ¬ x.mag = 0 by omega), hsig]

/-- Reading a printed number is idempotent. -/
theorem printed_idem (x : F64) : printed 13 (printed 13 x) = printed 13 x := by
  have h1 := pyFloat_fmtE 'E' (.inl rfl) 13 (by norm_num) (printed 13 x)
  rw [fmtE_printed, pyFloat_fmtE 'E' (.inl rfl) 13 (by norm_num)] at h1
  exact (Option.some.inj h1).symm

end Pymech
