import Verif.IO.FloatOps
import Verif.Lemmas.Round
import Mathlib.Tactic.Linarith

/-!
# Rounding errors of the operations on doubles
-/

set_option autoImplicit false

namespace Pymech.Flt

/-- The error of rounding: half a unit in the last place. -/
theorem roundMag_err (q : ℚ) (hq : 0 ≤ q) (hfin : roundMag 11 52 q < infMag 11 52) :
    |magVal 11 52 (roundMag 11 52 q) - q| ≤ q / 2 ^ 53 + 1 / 2 ^ 1075 := by
  rcases hq.eq_or_lt with rfl | hpos
  · have : roundMag 11 52 0 = 0 := by rw [roundMag, if_pos le_rfl]
    rw [this, magVal_zero]
    norm_num
  obtain ⟨K, hK, hr, hle, hor⟩ := roundMag_form (eb := 11) (mb := 52) q hpos
  have hu := zpow2_pos (ulpExp 11 52 q)
  rw [hr] at hfin
  have hr' : roundMag 11 52 q = K * 2 ^ 52 + roundEven (q / 2 ^ ulpExp 11 52 q) := by omega
  have hval : magVal 11 52 (roundMag 11 52 q) = roundEven (q / 2 ^ ulpExp 11 52 q) * 2 ^ ulpExp 11 52 q := by
    rw [hr', magVal_assemble K _ hle (hor.imp_right And.left), hK]
  have e1 : ∀ t : ℚ, |t * 2 ^ ulpExp 11 52 q - q| = |t - q / 2 ^ ulpExp 11 52 q| * 2 ^ ulpExp 11 52 q := by
    intro t
    rw [← abs_of_pos hu, ← abs_mul, abs_of_pos hu, sub_mul, div_mul_cancel₀ _ hu.ne']
  rw [hval, e1]
  have h1 := roundEven_dist (q / 2 ^ ulpExp 11 52 q) (by positivity)
  have h2 : (2 : ℚ) ^ ulpExp 11 52 q ≤ q / 2 ^ 52 + 1 / 2 ^ 1074 := by
    rcases hor with h | ⟨-, h⟩
    · rw [hK, h, minExp64]
      have : (2 : ℚ) ^ (-1074 + ((0 : Nat) : Int)) = 1 / 2 ^ 1074 := by
        rw [Nat.cast_zero, add_zero, zpow_neg, one_div]
        rfl
      rw [this]
      have : 0 ≤ q / 2 ^ 52 := by positivity
      exact le_add_of_nonneg_left this
    · have e : (2 : ℚ) ^ (ulpExp 11 52 q + ((52 : Nat) : Int)) = 2 ^ 52 * 2 ^ ulpExp 11 52 q := by
        rw [two_zpow_add_nat]
        norm_num
      rw [e] at h
      have h3 : (2 : ℚ) ^ ulpExp 11 52 q ≤ q / 2 ^ 52 := by
        rw [le_div_iff₀ (by positivity)]
        linarith
      have : (0 : ℚ) ≤ 1 / 2 ^ 1074 := by positivity
      exact h3.trans (le_add_of_nonneg_right this)
  calc _ ≤ 1 / 2 * (2 : ℚ) ^ ulpExp 11 52 q := mul_le_mul_of_nonneg_right h1 hu.le
    _ ≤ 1 / 2 * (q / 2 ^ 52 + 1 / 2 ^ 1074) := mul_le_mul_of_nonneg_left h2 (by norm_num)
    _ = q / 2 ^ 53 + 1 / 2 ^ 1075 := by rw [pow_succ (2 : ℚ) 52, pow_succ (2 : ℚ) 1074]; ring

/-- Whole numbers with few bits, times a power of two. -/
theorem roundMag_exact (n : Nat) (e : Int) (hn : n < 2 ^ 53) (h1 : -1074 ≤ e) (h2 : e ≤ 971) :
    roundMag 11 52 (n * 2 ^ e) < infMag 11 52 ∧ magVal 11 52 (roundMag 11 52 (n * 2 ^ e)) = n * 2 ^ e := by
  obtain ⟨m, hm, hv⟩ := exists_mag (eb := 11) (mb := 52) n e hn (by rw [minExp64]; exact h1) (by
    rw [minExp64]
    have : (2 : Nat) ^ 11 = 2048 := rfl
    omega)
  rw [← hv, roundMag_magVal m hm]
  exact ⟨hm, rfl⟩

theorem roundMag_fin (q : ℚ) (h : q ≤ 2 ^ 1000) : roundMag 11 52 q < infMag 11 52 := by
  refine lt_of_le_of_lt (roundMag_mono h) ?_
  have := (roundMag_exact (2 ^ 50) 950 (by norm_num) (by norm_num) (by norm_num)).1
  have e : ((2 ^ 50 : Nat) : ℚ) * 2 ^ (950 : Int) = 2 ^ 1000 := by
    rw [show (950 : Int) = ((950 : Nat) : Int) from rfl, zpow_natCast]
    rw [Nat.cast_pow, Nat.cast_ofNat, ← pow_add]
  rwa [e] at this

theorem ofQ_mag (z : Bool) (q : ℚ) : (ofQ z q).mag = roundMag 11 52 |q| := by
  unfold ofQ
  by_cases h : q = 0
  · rw [if_pos h, h, abs_zero]
    rfl
  · rw [if_neg h]
    rfl

theorem ofQ_val (z : Bool) (q : ℚ) : (ofQ z q).val = if q < 0 then -magVal 11 52 (roundMag 11 52 |q|) else magVal 11 52 (roundMag 11 52 |q|) := by
  unfold val
  rw [ofQ_mag]
  by_cases h : q = 0
  · subst h
    have : roundMag 11 52 |(0 : ℚ)| = 0 := by rw [abs_zero, roundMag, if_pos le_rfl]
    rw [this, magVal_zero]
    simp
  · unfold ofQ
    rw [if_neg h]
    unfold ofRat
    simp only [decide_eq_true_eq]

theorem ofQ_fin (z : Bool) (q : ℚ) (h : |q| ≤ 2 ^ 1000) : (ofQ z q).Finite := by
  unfold Finite
  rw [ofQ_mag]
  exact roundMag_fin _ h

/-- Relative error `2 ^ -53`, absolute error `2 ^ -1075`. -/
theorem ofQ_err (z : Bool) (q : ℚ) (h : |q| ≤ 2 ^ 1000) : |(ofQ z q).val - q| ≤ |q| / 2 ^ 53 + 1 / 2 ^ 1075 := by
  have := roundMag_err |q| (abs_nonneg q) (roundMag_fin _ h)
  rw [ofQ_val]
  by_cases h0 : q < 0
  · rw [if_pos h0]
    have e : -magVal 11 52 (roundMag 11 52 |q|) - q = -(magVal 11 52 (roundMag 11 52 |q|) - |q|) := by
      rw [abs_of_neg h0]
      ring
    rwa [e, abs_neg]
  · rw [if_neg h0]
    have e : |q| = q := abs_of_nonneg (not_lt.mp h0)
    rwa [e] at this ⊢

/-- Rounding is monotone. -/
theorem ofQ_mono (z z' : Bool) (q q' : ℚ) (h : q ≤ q') : (ofQ z q).val ≤ (ofQ z' q').val := by
  rw [ofQ_val, ofQ_val]
  by_cases h0 : q < 0
  · rw [if_pos h0]
    by_cases h1 : q' < 0
    · rw [if_pos h1]
      refine neg_le_neg (magVal_mono (roundMag_mono ?_))
      rw [abs_of_neg h0, abs_of_neg h1]
      linarith
    · rw [if_neg h1]
      have := magVal_nonneg (eb := 11) (mb := 52) (roundMag 11 52 |q|)
      have := magVal_nonneg (eb := 11) (mb := 52) (roundMag 11 52 |q'|)
      linarith
  · rw [if_neg h0, if_neg (by linarith)]
    refine magVal_mono (roundMag_mono ?_)
    rw [abs_of_nonneg (not_lt.mp h0), abs_of_nonneg (by linarith)]
    exact h

theorem abs_val (x : F64) : |x.val| = magVal 11 52 x.mag := by
  have := magVal_nonneg (eb := 11) (mb := 52) x.mag
  unfold val
  split
  · rw [abs_neg, abs_of_nonneg this]
  · rw [abs_of_nonneg this]

theorem val_neg_iff (x : F64) : x.val < 0 ↔ x.neg = true ∧ x.mag ≠ 0 := by
  have h0 := magVal_nonneg (eb := 11) (mb := 52) x.mag
  have hp : x.mag ≠ 0 → 0 < magVal 11 52 x.mag := fun h => magVal_pos _ (Nat.pos_of_ne_zero h)
  have hz : x.mag = 0 → magVal 11 52 x.mag = 0 := fun h => by rw [h, magVal_zero]
  unfold val
  cases hn : x.neg
  · simp only [Bool.false_eq_true, if_false, false_and, iff_false, not_lt]
    exact h0
  · simp only [if_true, true_and]
    constructor
    · intro h e
      rw [hz e] at h
      norm_num at h
    · intro h
      have := hp h
      linarith

theorem val_zero_iff (x : F64) : x.val = 0 ↔ x.mag = 0 := by
  rw [← abs_eq_zero, abs_val]
  constructor
  · intro h
    by_contra hc
    have := magVal_pos (eb := 11) (mb := 52) x.mag (Nat.pos_of_ne_zero hc)
    linarith
  · intro h
    rw [h, magVal_zero]

/-- Numbers that are doubles stay as they are. -/
theorem ofQ_rep (z : Bool) (x : F64) (hx : x.Finite) : (ofQ z x.val).val = x.val := by
  rw [ofQ_val, abs_val, roundMag_magVal _ hx]
  by_cases h : x.val < 0
  · rw [if_pos h]
    have := (val_neg_iff x).mp h
    unfold val
    rw [if_pos this.1]
  · rw [if_neg h, ← abs_val, abs_of_nonneg (not_lt.mp h)]

/-- They stay as they are bit for bit, apart from the sign of zero. -/
theorem ofQ_self (z : Bool) (x : F64) (hx : x.Finite) (h0 : x.mag ≠ 0) : ofQ z x.val = x := by
  refine ext' ?_ ?_
  · unfold ofQ
    rw [if_neg (fun h => h0 ((val_zero_iff x).mp h))]
    change decide (x.val < 0) = x.neg
    cases hn : x.neg
    · rw [decide_eq_false_iff_not, val_neg_iff, hn]
      simp
    · rw [decide_eq_true_eq, val_neg_iff]
      exact ⟨hn, h0⟩
  · rw [ofQ_mag, abs_val, roundMag_magVal _ hx]

theorem not_nan {x : F64} (hx : x.Finite) : ¬ x.IsNaN := by
  unfold Finite at hx
  unfold IsNaN
  omega

theorem add_fin {x y : F64} (hx : x.Finite) (hy : y.Finite) : x + y = ofQ (x.neg && y.neg) (x.val + y.val) := by
  change add x y = _
  unfold add
  rw [if_neg (not_or.mpr ⟨not_nan hx, not_nan hy⟩), if_pos hx, if_pos hy]

theorem flip_val (x : F64) : x.flip.val = -x.val := by
  unfold flip val
  cases x.neg <;> simp

theorem sub_fin {x y : F64} (hx : x.Finite) (hy : y.Finite) : x - y = ofQ (x.neg && !y.neg) (x.val - y.val) := by
  change add x y.flip = _
  have hy' : y.flip.Finite := hy
  rw [show add x y.flip = x + y.flip from rfl, add_fin hx hy', flip_val, sub_eq_add_neg]
  rfl

theorem mul_fin {x y : F64} (hx : x.Finite) (hy : y.Finite) : x * y = ofQ (x.neg ^^ y.neg) (x.val * y.val) := by
  change mul x y = _
  unfold mul
  rw [if_neg (not_or.mpr ⟨not_nan hx, not_nan hy⟩), if_pos ⟨hx, hy⟩]

theorem div_fin {x y : F64} (hx : x.Finite) (hy : y.Finite) (h0 : y.val ≠ 0) : x / y = ofQ (x.neg ^^ y.neg) (x.val / y.val) := by
  change div x y = _
  unfold div
  rw [if_neg (not_or.mpr ⟨not_nan hx, not_nan hy⟩), if_pos hx, if_pos hy, if_neg (fun h => h0 ((val_zero_iff y).mpr h))]

/-- Whole numbers up to `2 ^ 53` are exact. -/
theorem natCast_exact (n : Nat) (hn : n ≤ 2 ^ 53) : ((n : F64)).Finite ∧ ((n : F64)).val = n := by
  have key : roundMag 11 52 (n : ℚ) < infMag 11 52 ∧ magVal 11 52 (roundMag 11 52 (n : ℚ)) = n := by
    rcases hn.lt_or_eq with h | h
    · have := roundMag_exact n 0 h (by norm_num) (by norm_num)
      rwa [zpow_zero, mul_one] at this
    · have := roundMag_exact (2 ^ 52) 1 (by norm_num) (by norm_num) (by norm_num)
      have e : ((2 ^ 52 : Nat) : ℚ) * 2 ^ (1 : Int) = (n : ℚ) := by
        rw [h]
        norm_num
      rwa [e] at this
  have h0 : (0 : ℚ) ≤ n := Nat.cast_nonneg n
  change (ofQ false n).Finite ∧ (ofQ false n).val = n
  constructor
  · unfold Finite
    rw [ofQ_mag, abs_of_nonneg h0]
    exact key.1
  · rw [ofQ_val, if_neg (not_lt.mpr h0), abs_of_nonneg h0]
    exact key.2

/-- `<=` of doubles is `≤` of their values. -/
theorem leF_iff {x y : F64} (hx : x.Finite) (hy : y.Finite) : x ≤ y ↔ x.val ≤ y.val := by
  change (¬ x.IsNaN ∧ ¬ y.IsNaN ∧ le x y = true) ↔ _
  have key : le x y = true ↔ x.val ≤ y.val := by
    have hm : ∀ a b : Nat, magVal 11 52 a ≤ magVal 11 52 b ↔ a ≤ b :=
      fun a b => ⟨fun h => not_lt.mp fun hc => absurd (magVal_lt hc) (not_lt.mpr h), magVal_mono⟩
    have h0 := magVal_nonneg (eb := 11) (mb := 52) x.mag
    have h1 := magVal_nonneg (eb := 11) (mb := 52) y.mag
    have hz : ∀ a : Nat, magVal 11 52 a ≤ 0 ↔ a = 0 := fun a => by
      have := hm a 0
      rw [magVal_zero] at this
      rw [this]
      omega
    unfold le val
    dsimp only
    rw [decide_eq_true_eq]
    cases x.neg <;> cases y.neg <;> simp only [Bool.false_eq_true, if_false, if_true]
    · rw [hm]
      omega
    · constructor
      · intro h
        have e1 : x.mag = 0 := by omega
        have e2 : y.mag = 0 := by omega
        rw [e1, e2, magVal_zero, neg_zero]
      · intro h
        have e1 := (hz x.mag).mp (by linarith)
        have e2 := (hz y.mag).mp (by linarith)
        omega
    · constructor
      · intro _
        linarith
      · intro _
        omega
    · rw [neg_le_neg_iff, neg_le_neg_iff, hm]
      omega
  rw [key]
  exact ⟨fun h => h.2.2, fun h => ⟨not_nan hx, not_nan hy, h⟩⟩

/-- All doubles are multiples of the smallest one, so that differences do not underflow. -/
theorem val_multiple (x : F64) : ∃ k : Int, x.val = k * 2 ^ (-1074 : Int) := by
  obtain ⟨k, n, h, -⟩ := magVal_form (eb := 11) (mb := 52) x.mag
  have e : magVal 11 52 x.mag = ((n * 2 ^ k : Nat) : Int) * (2 : ℚ) ^ (-1074 : Int) := by
    rw [h, minExp64, two_zpow_add_nat]
    push_cast
    ring
  unfold val
  split
  · exact ⟨-((n * 2 ^ k : Nat) : Int), by rw [e]; push_cast; ring⟩
  · exact ⟨_, e⟩

/-- The difference of different doubles is not zero. -/
theorem sub_pos_iff {x y : F64} (hx : x.Finite) (hy : y.Finite) : 0 < (x - y).val ↔ y.val < x.val := by
  rw [sub_fin hx hy]
  constructor
  · intro h
    by_contra hc
    have := ofQ_mono (x.neg && !y.neg) false (x.val - y.val) 0 (by linarith)
    have e : (ofQ false 0).val = 0 := by
      rw [ofQ_val, abs_zero, roundMag, if_pos le_rfl, magVal_zero]
      simp
    rw [e] at this
    linarith
  · intro h
    obtain ⟨a, ha⟩ := val_multiple x
    obtain ⟨b, hb⟩ := val_multiple y
    have hu := zpow2_pos (-1074)
    have hab : b < a := by
      rw [ha, hb] at h
      have := lt_of_mul_lt_mul_right h hu.le
      exact_mod_cast this
    have hd : (2 : ℚ) ^ (-1074 : Int) ≤ x.val - y.val := by
      rw [ha, hb, ← sub_mul]
      have : (1 : ℚ) ≤ (a : ℚ) - b := by
        have : b + 1 ≤ a := hab
        have : ((b + 1 : Int) : ℚ) ≤ (a : ℚ) := by exact_mod_cast this
        push_cast at this
        linarith
      calc (2 : ℚ) ^ (-1074 : Int) = 1 * 2 ^ (-1074 : Int) := (one_mul _).symm
        _ ≤ _ := mul_le_mul_of_nonneg_right this hu.le
    have := ofQ_mono false (x.neg && !y.neg) _ _ hd
    have e := (roundMag_exact 1 (-1074) (by norm_num) (by norm_num) (by norm_num)).2
    rw [Nat.cast_one, one_mul] at e
    rw [ofQ_val, if_neg (not_lt.mpr hu.le), abs_of_pos hu, e] at this
    exact lt_of_lt_of_le hu this

end Pymech.Flt
