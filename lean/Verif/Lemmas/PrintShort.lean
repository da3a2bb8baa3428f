import Verif.Lemmas.Print
import Verif.Spec.Number

/-!
# Printing a number twice with fewer digits
-/

set_option autoImplicit false

namespace Pymech

open Flt

/-- The decimal with `p + 1` digits printed for a finite number. -/
def decP (p : Nat) (x : F64) : ℚ := (sigDigits p (magVal 11 52 x.mag)).1 * 10 ^ ((sigDigits p (magVal 11 52 x.mag)).2 - (p : Int))

/-- The decimal of the largest number does not overflow. -/
def Caps (p : Nat) : Prop :=
  p ≤ 13 ∧ roundMag 11 52 ((roundEven (magVal 11 52 (infMag 11 52 - 1) / 10 ^ ((308 : Int) - p)) : ℚ) * 10 ^ ((308 : Int) - p)) < infMag 11 52

theorem caps_six : Caps 6 := ⟨by omega, by decide +kernel⟩

theorem caps_eleven : Caps 11 := ⟨by omega, by decide +kernel⟩

theorem decP_finite (p : Nat) (hp : Caps p) (x : F64) (hx : x.Finite) (h0 : 0 < x.mag) : roundMag 11 52 (decP p x) < infMag 11 52 := by
  have hpos := magVal_pos (eb := 11) (mb := 52) x.mag h0
  have hspec := (sigDigits_spec p _ hpos).2.2
  set q := magVal 11 52 x.mag with hq
  have hmax : q ≤ magVal 11 52 (infMag 11 52 - 1) := magVal_mono (by have : x.mag < infMag 11 52 := hx; omega)
  have hlt : q < 10 ^ (309 : Int) := lt_of_le_of_lt hmax (by decide +kernel)
  have hlog : Int.log 10 q ≤ 308 := by
    have := lt_of_le_of_lt (log10_le hpos) hlt
    rw [zpow_lt_zpow_iff_right₀ (by norm_num)] at this
    omega
  rcases Int.lt_or_eq_of_le hlog with h | h
  · have hD : decP p x ≤ 10 ^ (308 : Int) := by
      rw [decP, ← hq, hspec]
      have h1 : roundEven (q / 10 ^ (Int.log 10 q - (p : Int))) ≤ roundEven ((10 ^ (p + 1) : Nat) : ℚ) := by
        apply roundEven_mono (div_nonneg hpos.le (zpow10_pos _).le)
        rw [div_le_iff₀ (zpow10_pos _), ← ten_zpow_add_nat]
        refine (lt_log10 q).le.trans (le_of_eq ?_)
        congr 1; push_cast; ring
      rw [roundEven_natCast] at h1
      have h2 : (roundEven (q / 10 ^ (Int.log 10 q - (p : Int))) : ℚ) ≤ ((10 ^ (p + 1) : Nat) : ℚ) := by exact_mod_cast h1
      calc (roundEven (q / 10 ^ (Int.log 10 q - (p : Int))) : ℚ) * 10 ^ (Int.log 10 q - (p : Int))
          ≤ ((10 ^ (p + 1) : Nat) : ℚ) * 10 ^ (Int.log 10 q - (p : Int)) := mul_le_mul_of_nonneg_right h2 (zpow10_pos _).le
        _ = 10 ^ (Int.log 10 q + 1) := by rw [← ten_zpow_add_nat]; congr 1; push_cast; ring
        _ ≤ 10 ^ (308 : Int) := zpow_le_zpow_right₀ (by norm_num) (by omega)
    refine lt_of_le_of_lt (roundMag_mono hD) ?_
    decide +kernel
  · refine lt_of_le_of_lt (roundMag_mono ?_) hp.2
    rw [decP, ← hq, hspec, h]
    have h1 : roundEven (q / 10 ^ ((308 : Int) - p)) ≤ roundEven (magVal 11 52 (infMag 11 52 - 1) / 10 ^ ((308 : Int) - p)) :=
      roundEven_mono (div_nonneg hpos.le (zpow10_pos _).le) (div_le_div_of_nonneg_right hmax (zpow10_pos _).le)
    have h3 : (roundEven (q / 10 ^ ((308 : Int) - p)) : ℚ) ≤ roundEven (magVal 11 52 (infMag 11 52 - 1) / 10 ^ ((308 : Int) - p)) := by
      exact_mod_cast h1
    exact mul_le_mul_of_nonneg_right h3 (zpow10_pos _).le

/-- Printing again gives the same digits, if the one power of ten between two numbers does. -/
theorem sigDigits_always (p : Nat) (hp : Caps p)
    (hsp : sigDigits p (magVal 11 52 (roundMag 11 52 ((10 ^ p : Nat) * 10 ^ (-323 : Int)))) = (10 ^ p, (p : Int) - 323)) (x : F64) (hx : x.Finite) (h0 : 0 < x.mag) :
    0 < roundMag 11 52 (decP p x) ∧
      sigDigits p (magVal 11 52 (roundMag 11 52 (decP p x))) = sigDigits p (magVal 11 52 x.mag) := by
  have hpos := magVal_pos (eb := 11) (mb := 52) x.mag h0
  obtain ⟨hm1, hm2, hspec⟩ := sigDigits_spec p _ hpos
  have hfin := decP_finite p hp x hx h0
  have hD : decP p x = (sigDigits p (magVal 11 52 x.mag)).1 * 10 ^ ((sigDigits p (magVal 11 52 x.mag)).2 - (p : Int)) := rfl
    -- the decimal is within half a unit of the number
  have hdist : |decP p x - magVal 11 52 x.mag| ≤ 10 ^ ((sigDigits p (magVal 11 52 x.mag)).2 - (p : Int)) / 2 := by
    have hle : Int.log 10 (magVal 11 52 x.mag) ≤ (sigDigits p (magVal 11 52 x.mag)).2 := by
      unfold sigDigits; dsimp only; split <;> dsimp only <;> omega
    have hle' : (10 : ℚ) ^ (Int.log 10 (magVal 11 52 x.mag) - (p : Int)) ≤ 10 ^ ((sigDigits p (magVal 11 52 x.mag)).2 - (p : Int)) :=
      zpow_le_zpow_right₀ (by norm_num) (by omega)
    rw [decP, hspec]
    have hu := zpow10_pos (Int.log 10 (magVal 11 52 x.mag) - (p : Int))
    have h4 := roundEven_dist (magVal 11 52 x.mag / 10 ^ (Int.log 10 (magVal 11 52 x.mag) - (p : Int))) (by positivity)
    set u := (10 : ℚ) ^ (Int.log 10 (magVal 11 52 x.mag) - (p : Int)) with hudef
    have : (roundEven (magVal 11 52 x.mag / u) : ℚ) * u - magVal 11 52 x.mag =
        ((roundEven (magVal 11 52 x.mag / u) : ℚ) - magVal 11 52 x.mag / u) * u := by field_simp
    rw [this, abs_mul, abs_of_pos hu]
    refine (mul_le_mul_of_nonneg_right h4 hu.le).trans ?_
    generalize (10 : ℚ) ^ ((sigDigits p (magVal 11 52 x.mag)).2 - (p : Int)) = w at hle'
    linarith
  generalize hme : sigDigits p (magVal 11 52 x.mag) = me at *
  obtain ⟨m, e⟩ := me
  dsimp only at *
  set w := (10 : ℚ) ^ (e - (p : Int)) with hw
  have hwpos : 0 < w := zpow10_pos _
  have hmpos : (0 : ℚ) < m := by
    have : 0 < m := lt_of_lt_of_le (Nat.pow_pos (by norm_num)) hm1
    exact_mod_cast this
  have hDpos : 0 < decP p x := by rw [hD]; positivity
  by_cases hc : w < 2 ^ minExp 11 52
  · -- below the spacing of the numbers: the same number is read
    have hn := roundMag_nearest (eb := 11) (mb := 52) (decP p x) hDpos.le hfin x.mag
    obtain ⟨j1, hj1⟩ := magVal_min_multiple (eb := 11) (mb := 52) (roundMag 11 52 (decP p x))
    obtain ⟨j2, hj2⟩ := magVal_min_multiple (eb := 11) (mb := 52) x.mag
    have hs := zpow2_pos (minExp 11 52)
    have h5 : |magVal 11 52 (roundMag 11 52 (decP p x)) - magVal 11 52 x.mag| < 2 ^ minExp 11 52 := by
      have t1 := abs_sub_le (magVal 11 52 (roundMag 11 52 (decP p x))) (decP p x) (magVal 11 52 x.mag)
      have t2 : |magVal 11 52 x.mag - decP p x| = |decP p x - magVal 11 52 x.mag| := abs_sub_comm _ _
      rw [t2] at hn
      linarith
    have h6 : j1 = j2 := by
      rw [hj1, hj2, ← sub_mul, abs_mul, abs_of_pos hs] at h5
      have h7 : |(j1 : ℚ) - j2| < 1 := by
        by_contra hcc
        rw [not_lt] at hcc
        nlinarith
      rw [abs_lt] at h7
      have a : (j1 : ℚ) < j2 + 1 := by linarith
      have b : (j2 : ℚ) < j1 + 1 := by linarith
      have a' : j1 < j2 + 1 := by exact_mod_cast a
      have b' : j2 < j1 + 1 := by exact_mod_cast b
      omega
    have h8 : roundMag 11 52 (decP p x) = x.mag := magVal_inj _ _ hfin hx (by rw [hj1, hj2, h6])
    rw [h8]
    exact ⟨h0, hme⟩
  · rw [not_lt] at hc
    have hne : w ≠ 2 ^ minExp 11 52 := by
      intro heq
      -- a power of ten is not this power of two
      rw [← u_eq] at heq
      rcases le_or_gt (e - (p : Int)) (-324) with h | h
      · have : w ≤ 10 ^ (-324 : Int) := zpow_le_zpow_right₀ (by norm_num) h
        have h2 : (10 : ℚ) ^ (-324 : Int) < 2 ^ (-1074 : Int) := by decide +kernel
        linarith
      · have : (10 : ℚ) ^ (-323 : Int) ≤ w := zpow_le_zpow_right₀ (by norm_num) (by omega)
        have h2 : (2 : ℚ) ^ (-1074 : Int) < 10 ^ (-323 : Int) := by decide +kernel
        linarith
    have hlt : (2 : ℚ) ^ minExp 11 52 < w := lt_of_le_of_ne hc (Ne.symm hne)
    have herr := roundMag_error (eb := 11) (mb := 52) (decP p x) hDpos hfin
    have hw1 : (10 : ℚ) ^ (e - (p : Int) - 1) = w / 10 := by
      rw [hw, zpow_sub_one₀ (by norm_num)]; ring
    have hpos' : 0 < roundMag 11 52 (decP p x) := by
      have h1 : magVal 11 52 1 ≤ decP p x := by
        have : magVal 11 52 1 = 2 ^ minExp 11 52 := by rw [minExp64]; decide +kernel
        rw [this, hD]
        have h2 : (1 : ℚ) ≤ m := by
          have : 1 ≤ m := le_trans (Nat.one_le_pow _ _ (by norm_num)) hm1
          exact_mod_cast this
        nlinarith
      have := roundMag_mono (eb := 11) (mb := 52) h1
      rw [roundMag_magVal 1 (by decide)] at this
      omega
    refine ⟨hpos', ?_⟩
    by_cases hsub : Int.log 2 (decP p x) - (52 : Nat) ≤ minExp 11 52
    · have hulp : ulpExp 11 52 (decP p x) = minExp 11 52 := max_eq_right hsub
      rw [hulp] at herr
      by_cases hspecial : m = 10 ^ p ∧ w / 10 ≤ 2 ^ minExp 11 52
      · -- the only power of ten in between
        have he : e = (p : Int) - 323 := by
          obtain ⟨-, h2⟩ := hspecial
          rw [← hw1, ← u_eq] at h2
          rw [← u_eq] at hlt
          have a1 : (2 : ℚ) ^ (-1074 : Int) < 10 ^ (-323 : Int) := by decide +kernel
          have a2 : (10 : ℚ) ^ (-324 : Int) < 2 ^ (-1074 : Int) := by decide +kernel
          have b1 : (10 : ℚ) ^ (e - (p : Int) - 1) < 10 ^ (-323 : Int) := lt_of_le_of_lt h2 a1
          have b2 : (10 : ℚ) ^ (-324 : Int) < 10 ^ (e - (p : Int)) := lt_trans a2 hlt
          rw [zpow_lt_zpow_iff_right₀ (by norm_num)] at b1 b2
          omega
        rw [hD, hspecial.1, hw, he, show (p : Int) - 323 - p = -323 by ring]
        exact hsp
      · apply sigDigits_unique p m e _ hm1 hm2
        · rw [← hw, ← hD]; linarith
        · intro hm
          have : ¬ w / 10 ≤ 2 ^ minExp 11 52 := fun h => hspecial ⟨hm, h⟩
          rw [hw1, ← hw, ← hD]
          linarith
    · have hulp : ulpExp 11 52 (decP p x) = Int.log 2 (decP p x) - (52 : Nat) := max_eq_left (by omega)
      have h2 : (2 : ℚ) ^ ulpExp 11 52 (decP p x) ≤ decP p x / 2 ^ 52 := by
        rw [hulp, le_div_iff₀ (by norm_num)]
        have h3 : (2 : ℚ) ^ Int.log 2 (decP p x) ≤ decP p x := (le_log hDpos).mp le_rfl
        have h4 := two_zpow_add_nat 52 (Int.log 2 (decP p x) - (52 : Nat))
        rw [sub_add_cancel] at h4
        rw [h4] at h3
        generalize (2 : ℚ) ^ (Int.log 2 (decP p x) - (52 : Nat)) = g at h3 ⊢
        push_cast at h3
        linarith
      have h5 : decP p x < 10 ^ 14 * w := by
        rw [hD]
        have h6 : m < 10 ^ 14 := lt_of_lt_of_le hm2 (Nat.pow_le_pow_right (by norm_num) (by have := hp.1; omega))
        have : (m : ℚ) < 10 ^ 14 := by exact_mod_cast h6
        nlinarith
      have h6 : (2 : ℚ) ^ ulpExp 11 52 (decP p x) < w / 10 := by
        have : decP p x / 2 ^ 52 < w / 10 := by
          rw [div_lt_iff₀ (by norm_num)]
          nlinarith
        linarith
      apply sigDigits_unique p m e _ hm1 hm2
      · rw [← hw, ← hD]; linarith
      · intro _
        rw [hw1, ← hw, ← hD]; linarith

/-- Printing again gives the same digits, if the number is not tiny. -/
theorem sigDigits_again (p : Nat) (hp : Caps p) (x : F64) (hx : x.Finite) (h0 : 0 < x.mag) (hbig : (10 : ℚ) ^ (-300 : Int) ≤ magVal 11 52 x.mag) :
    0 < roundMag 11 52 (decP p x) ∧
      sigDigits p (magVal 11 52 (roundMag 11 52 (decP p x))) = sigDigits p (magVal 11 52 x.mag) := by
  have hpos := magVal_pos (eb := 11) (mb := 52) x.mag h0
  obtain ⟨hm1, hm2, hspec⟩ := sigDigits_spec p _ hpos
  have hfin := decP_finite p hp x hx h0
  have hD : decP p x = (sigDigits p (magVal 11 52 x.mag)).1 * 10 ^ ((sigDigits p (magVal 11 52 x.mag)).2 - (p : Int)) := rfl
  have hp13 := hp.1
  have he : -300 ≤ (sigDigits p (magVal 11 52 x.mag)).2 := by
    have hle : Int.log 10 (magVal 11 52 x.mag) ≤ (sigDigits p (magVal 11 52 x.mag)).2 := by
      unfold sigDigits; dsimp only; split <;> dsimp only <;> omega
    have := lt_of_le_of_lt hbig (lt_log10 (magVal 11 52 x.mag))
    rw [zpow_lt_zpow_iff_right₀ (by norm_num)] at this
    omega
  generalize hme : sigDigits p (magVal 11 52 x.mag) = me at *
  obtain ⟨m, e⟩ := me
  dsimp only at *
  set w := (10 : ℚ) ^ (e - (p : Int)) with hw
  have hwpos : 0 < w := zpow10_pos _
  have h10 : 1 ≤ 10 ^ p := Nat.one_le_pow _ _ (by norm_num)
  have hm1' : 1 ≤ m := le_trans h10 hm1
  have h1m : (1 : ℚ) ≤ m := by exact_mod_cast hm1'
  have hDpos : 0 < decP p x := by rw [hD]; positivity
  have herr := roundMag_error (eb := 11) (mb := 52) (decP p x) hDpos hfin
  have hw1 : (10 : ℚ) ^ (e - (p : Int) - 1) = w / 10 := by
    rw [hw, zpow_sub_one₀ (by norm_num)]; ring
  have hsmall : (2 : ℚ) ^ minExp 11 52 < w / 10 := by
    rw [← hw1, ← u_eq]
    have h2 : (2 : ℚ) ^ (-1074 : Int) < 10 ^ (-323 : Int) := by decide +kernel
    have h3 : (10 : ℚ) ^ (-323 : Int) ≤ 10 ^ (e - (p : Int) - 1) := zpow_le_zpow_right₀ (by norm_num) (by omega)
    linarith
  have hpos' : 0 < roundMag 11 52 (decP p x) := by
    have h1 : magVal 11 52 1 ≤ decP p x := by
      have : magVal 11 52 1 = 2 ^ minExp 11 52 := by rw [minExp64]; decide +kernel
      rw [this, hD]
      nlinarith
    have := roundMag_mono (eb := 11) (mb := 52) h1
    rw [roundMag_magVal 1 (by decide)] at this
    omega
  refine ⟨hpos', ?_⟩
  have hulp : (2 : ℚ) ^ ulpExp 11 52 (decP p x) < w / 10 := by
    by_cases hsub : Int.log 2 (decP p x) - (52 : Nat) ≤ minExp 11 52
    · have hu : ulpExp 11 52 (decP p x) = minExp 11 52 := max_eq_right hsub
      rw [hu]
      exact hsmall
    · have hu : ulpExp 11 52 (decP p x) = Int.log 2 (decP p x) - (52 : Nat) := max_eq_left (by omega)
      have h2 : (2 : ℚ) ^ ulpExp 11 52 (decP p x) ≤ decP p x / 2 ^ 52 := by
        rw [hu, le_div_iff₀ (by norm_num)]
        have h3 : (2 : ℚ) ^ Int.log 2 (decP p x) ≤ decP p x := (le_log hDpos).mp le_rfl
        have h4 := two_zpow_add_nat 52 (Int.log 2 (decP p x) - (52 : Nat))
        rw [sub_add_cancel] at h4
        rw [h4] at h3
        generalize (2 : ℚ) ^ (Int.log 2 (decP p x) - (52 : Nat)) = g at h3 ⊢
        push_cast at h3
        linarith
      have h5 : decP p x < 10 ^ 14 * w := by
        rw [hD]
        have h6 : m < 10 ^ 14 := lt_of_lt_of_le hm2 (Nat.pow_le_pow_right (by norm_num) (by omega))
        have : (m : ℚ) < 10 ^ 14 := by exact_mod_cast h6
        nlinarith
      have : decP p x / 2 ^ 52 < w / 10 := by
        rw [div_lt_iff₀ (by norm_num)]
        nlinarith
      linarith
  apply sigDigits_unique p m e _ hm1 hm2
  · rw [← hw, ← hD]; linarith
  · intro _
    rw [hw1, ← hw, ← hD]; linarith

/-- A number that is printed in the same way after it was read: not finite, zero, or not tiny. -/
def Spec.Lasting (x : F64) : Prop := ¬ x.Finite ∨ x.mag = 0 ∨ (10 : ℚ) ^ (-300 : Int) ≤ Spec.absVal x

instance (x : F64) : Decidable (Spec.Lasting x) := inferInstanceAs (Decidable (_ ∨ _ ∨ _))

/-- Printing the number that was read gives the same text again, if it gives the same digits. -/
theorem fmtE_again' (p : Nat) (hp : Caps p) (x : F64) (h : x.Finite → 0 < x.mag → 0 < roundMag 11 52 (decP p x) ∧
    sigDigits p (magVal 11 52 (roundMag 11 52 (decP p x))) = sigDigits p (magVal 11 52 x.mag)) : fmtE 'e' p (printed p x) = fmtE 'e' p x := by
  by_cases hn : x.IsNaN
  · rw [printed, if_pos hn, fmtE, fmtE, if_pos hn, if_pos (by decide +kernel)]
  · by_cases hf : x.Finite
    · by_cases h0 : x.mag = 0
      · rw [printed, if_neg hn, if_neg (not_not.mpr hf), if_pos h0]
      · obtain ⟨hpos, hsig⟩ := h hf (by omega)
        have e : printed p x = Flt.ofRat x.neg (decP p x) := by
          rw [printed, if_neg hn, if_neg (not_not.mpr hf), if_neg h0]
          rfl
        rw [e]
        have hfin : (Flt.ofRat x.neg (decP p x) : F64).Finite := decP_finite p hp x hf (by omega)
        rw [fmtE, fmtE, if_neg (finite_not_nan hfin), if_neg (finite_not_nan hf), if_neg (not_not.mpr hfin), if_neg (not_not.mpr hf)]
        have e1 : (Flt.ofRat x.neg (decP p x) : F64).mag = roundMag 11 52 (decP p x) := rfl
        have e2 : (Flt.ofRat x.neg (decP p x) : F64).neg = x.neg := rfl
        dsimp only
        rw [e1, e2, if_neg (show ¬ roundMag 11 52 (decP p x) = 0 by omega), if_neg h0, hsig]
    · rw [printed, if_neg hn, if_pos hf]

/-- With seven digits every number is printed in the same way after it was read. -/
theorem fmtE_six (x : F64) : fmtE 'e' 6 (printed 6 x) = fmtE 'e' 6 x :=
  fmtE_again' 6 caps_six x (sigDigits_always 6 caps_six (by decide +kernel) x)

/-- With twelve digits numbers that are not tiny are. -/
theorem fmtE_eleven (x : F64) (h : Spec.Lasting x) : fmtE 'e' 11 (printed 11 x) = fmtE 'e' 11 x :=
  fmtE_again' 11 caps_eleven x fun hf h0 => sigDigits_again 11 caps_eleven x hf h0 (by
    rcases h with h | h | h
    · exact absurd hf h
    · omega
    · exact h)

end Pymech
