import Verif.IO.Float
import Mathlib.Tactic.Ring
import Mathlib.Tactic.Linarith
import Mathlib.Tactic.Positivity
import Mathlib.Tactic.FieldSimp
import Mathlib.Tactic.NormNum.Pow
import Mathlib.Tactic.Push

/-!
# Correctness of the conversions between numbers and bit patterns
-/

namespace Pymech.Flt

variable {eb mb : Nat}

theorem roundEven_natCast (n : Nat) : roundEven (n : ℚ) = n := by
  simp [roundEven]

/-- The rounded number is at distance at most one half. -/
theorem roundEven_dist (q : ℚ) (hq : 0 ≤ q) : |(roundEven q : ℚ) - q| ≤ 1 / 2 := by
  have h1 : (⌊q⌋₊ : ℚ) ≤ q := Nat.floor_le hq
  have h2 : q < ⌊q⌋₊ + 1 := Nat.lt_floor_add_one q
  unfold roundEven
  dsimp only
  split_ifs with c1 c2 c3
  · rw [abs_le]; constructor <;> linarith
  · push_cast; rw [abs_le]; constructor <;> linarith
  · rw [abs_le]; constructor <;> linarith
  · push_cast; rw [abs_le]; constructor <;> linarith

/-- No integer is nearer. -/
theorem roundEven_nearest (q : ℚ) (hq : 0 ≤ q) (k : Int) : |(roundEven q : ℚ) - q| ≤ |(k : ℚ) - q| := by
  by_cases h : k = (roundEven q : Int)
  · rw [h]; simp
  · have h1 := roundEven_dist q hq
    have h2 : (1 : ℚ) ≤ |(k : ℚ) - (roundEven q : ℚ)| := by
      have h3 : (1 : Int) ≤ |k - (roundEven q : Int)| := Int.one_le_abs (sub_ne_zero.mpr h)
      have h4 : ((1 : Int) : ℚ) ≤ ((|k - (roundEven q : Int)| : Int) : ℚ) := by exact_mod_cast h3
      simpa using h4
    have h3 : |(k : ℚ) - (roundEven q : ℚ)| ≤ |(k : ℚ) - q| + |(roundEven q : ℚ) - q| := by
      have := abs_sub_le (k : ℚ) q (roundEven q : ℚ)
      rwa [abs_sub_comm q] at this
    linarith

/-- At equal distance the even integer is chosen. -/
theorem roundEven_even (q : ℚ) (hq : 0 ≤ q) (k : Int) (hk : |(k : ℚ) - q| = |(roundEven q : ℚ) - q|)
    (hne : k ≠ roundEven q) : roundEven q % 2 = 0 := by
  have h1 : (⌊q⌋₊ : ℚ) ≤ q := Nat.floor_le hq
  have h2 : q < ⌊q⌋₊ + 1 := Nat.lt_floor_add_one q
  have h4 : (1 : ℚ) ≤ |(k : ℚ) - (roundEven q : ℚ)| := by
    have h3 : (1 : Int) ≤ |k - (roundEven q : Int)| := Int.one_le_abs (sub_ne_zero.mpr hne)
    have h4 : ((1 : Int) : ℚ) ≤ ((|k - (roundEven q : Int)| : Int) : ℚ) := by exact_mod_cast h3
    simpa using h4
  have h3 : |(k : ℚ) - (roundEven q : ℚ)| ≤ |(k : ℚ) - q| + |(roundEven q : ℚ) - q| := by
    have := abs_sub_le (k : ℚ) q (roundEven q : ℚ)
    rwa [abs_sub_comm q] at this
  have h5 : 1 / 2 ≤ |(roundEven q : ℚ) - q| := by rw [hk] at h3; linarith
  revert h5
  unfold roundEven
  dsimp only
  split_ifs with c1 c2 c3
  · intro h5; rw [abs_sub_comm, abs_of_nonneg (by linarith)] at h5; linarith
  · intro h5; push_cast at h5; rw [abs_of_nonneg (by linarith)] at h5; linarith
  · intro _; exact c3
  · intro _; omega

theorem zpow2_pos (e : Int) : (0 : ℚ) < 2 ^ e := zpow_pos (by norm_num) e

/-- A pattern as mantissa times power of two; `k` is the exponent relative to the smallest one. -/
theorem magVal_form (m : Nat) : ∃ k n : Nat, magVal eb mb m = n * 2 ^ (minExp eb mb + k) ∧
    (m < 2 ^ mb ∧ k = 0 ∧ n = m ∨ 2 ^ mb ≤ m ∧ k = m / 2 ^ mb - 1 ∧ n = 2 ^ mb + m % 2 ^ mb) := by
  have hp : 0 < 2 ^ mb := Nat.two_pow_pos mb
  by_cases h : m / 2 ^ mb = 0
  · refine ⟨0, m, ?_, Or.inl ⟨?_, rfl, rfl⟩⟩
    · simp [magVal, h]
    · rcases (Nat.div_eq_zero_iff).mp h with h | h
      · omega
      · exact h
  · refine ⟨m / 2 ^ mb - 1, 2 ^ mb + m % 2 ^ mb, ?_, Or.inr ⟨?_, rfl, rfl⟩⟩
    · rw [magVal, if_neg h]
      congr 2
      have : 1 ≤ m / 2 ^ mb := Nat.one_le_iff_ne_zero.mpr h
      push_cast [this]
      ring
    · by_contra hc
      exact h (Nat.div_eq_of_lt (by omega))

theorem magVal_nonneg (m : Nat) : 0 ≤ magVal eb mb m := by
  obtain ⟨k, n, h, -⟩ := magVal_form (eb := eb) (mb := mb) m
  rw [h]; have := zpow2_pos (minExp eb mb + k); positivity

theorem magVal_pos (m : Nat) (hm : 0 < m) : 0 < magVal eb mb m := by
  obtain ⟨k, n, h, h'⟩ := magVal_form (eb := eb) (mb := mb) m
  have hn : 0 < n := by
    rcases h' with ⟨-, -, rfl⟩ | ⟨-, -, rfl⟩
    · exact hm
    · have := Nat.two_pow_pos mb; omega
  rw [h]; have := zpow2_pos (minExp eb mb + k); positivity

theorem magVal_zero : magVal eb mb 0 = 0 := by simp [magVal]

theorem log_lt {q : ℚ} (hq : 0 < q) {x : Int} : Int.log 2 q < x ↔ q < 2 ^ x := by
  have := Int.lt_zpow_iff_log_lt (R := ℚ) (b := 2) (by norm_num) (x := x) hq
  push_cast at this; exact this.symm

theorem le_log {q : ℚ} (hq : 0 < q) {x : Int} : x ≤ Int.log 2 q ↔ 2 ^ x ≤ q := by
  have := Int.zpow_le_iff_le_log (R := ℚ) (b := 2) (by norm_num) (x := x) hq
  push_cast at this; exact this.symm

theorem two_zpow_add_nat (k : Nat) (e : Int) : (2 : ℚ) ^ (e + k) = (2 ^ k : Nat) * 2 ^ e := by
  rw [zpow_add₀ (by norm_num)]; push_cast; rw [zpow_natCast]; ring

/-- The last-bit exponent around a representable number. -/
theorem ulpExp_magVal (m : Nat) (hm : 0 < m) :
    ulpExp eb mb (magVal eb mb m) = minExp eb mb + ((m / 2 ^ mb - 1 : Nat) : Int) := by
  obtain ⟨k, n, h, h'⟩ := magVal_form (eb := eb) (mb := mb) m
  have hpos := magVal_pos (eb := eb) (mb := mb) m hm
  have hz := zpow2_pos (minExp eb mb + k)
  rcases h' with ⟨hlt, rfl, hn⟩ | ⟨hge, rfl, rfl⟩
  · subst hn
    have h0 : n / 2 ^ mb = 0 := Nat.div_eq_of_lt hlt
    have : Int.log 2 (magVal eb mb n) < minExp eb mb + mb := by
      rw [log_lt hpos, h, two_zpow_add_nat mb]
      simp only [Nat.cast_zero, add_zero]
      have : (n : ℚ) < ((2 ^ mb : Nat) : ℚ) := by exact_mod_cast hlt
      simp only [Nat.cast_zero, add_zero] at hz
      exact mul_lt_mul_of_pos_right this hz
    rw [ulpExp, h0]
    simp only [Nat.zero_sub, Nat.cast_zero, add_zero]
    omega
  · have h1 : 1 ≤ m / 2 ^ mb := (Nat.one_le_div_iff (Nat.two_pow_pos mb)).mpr hge
    have hmod : m % 2 ^ mb < 2 ^ mb := Nat.mod_lt _ (Nat.two_pow_pos mb)
    have hlog : Int.log 2 (magVal eb mb m) = minExp eb mb + ((m / 2 ^ mb - 1 : Nat) : Int) + mb := by
      apply le_antisymm
      · have : Int.log 2 (magVal eb mb m) < minExp eb mb + ((m / 2 ^ mb - 1 : Nat) : Int) + (mb + 1 : Nat) := by
          rw [log_lt hpos, h, two_zpow_add_nat (mb + 1)]
          refine mul_lt_mul_of_pos_right ?_ hz
          have : 2 ^ mb + m % 2 ^ mb < 2 ^ (mb + 1) := by rw [Nat.pow_succ]; omega
          exact_mod_cast this
        push_cast at this ⊢
        omega
      · rw [le_log hpos, h, two_zpow_add_nat mb (minExp eb mb + _)]
        refine mul_le_mul_of_nonneg_right ?_ hz.le
        have : 2 ^ mb ≤ 2 ^ mb + m % 2 ^ mb := by omega
        exact_mod_cast this
    rw [ulpExp, hlog]
    omega

/-- Rounding a representable number gives the number itself, so `float` of an exact value is exact. -/
theorem roundMag_magVal (m : Nat) (hm : m < infMag eb mb) : roundMag eb mb (magVal eb mb m) = m := by
  rcases Nat.eq_zero_or_pos m with rfl | hp
  · simp [magVal_zero, roundMag]
  · have hpos := magVal_pos (eb := eb) (mb := mb) m hp
    rw [roundMag, if_neg (not_le.mpr hpos)]
    dsimp only
    rw [ulpExp_magVal m hp]
    obtain ⟨k, n, h, h'⟩ := magVal_form (eb := eb) (mb := mb) m
    have hk : k = m / 2 ^ mb - 1 := by
      rcases h' with ⟨hlt, rfl, -⟩ | ⟨-, rfl, -⟩
      · rw [Nat.div_eq_of_lt hlt]
      · rfl
    rw [← hk, h, mul_div_assoc, div_self (zpow2_pos _).ne', mul_one, roundEven_natCast]
    have e1 : (minExp eb mb + (k : Int) - minExp eb mb).toNat = k := by omega
    rw [e1]
    have e2 : k * 2 ^ mb + n = m := by
      rcases h' with ⟨hlt, rfl, rfl⟩ | ⟨hge, hk', rfl⟩
      · simp
      · have h1 : 1 ≤ m / 2 ^ mb := (Nat.one_le_div_iff (Nat.two_pow_pos mb)).mpr hge
        have h2 := Nat.div_add_mod m (2 ^ mb)
        rw [hk']
        obtain ⟨j, hj⟩ := Nat.exists_eq_add_of_le h1
        rw [hj] at h2 ⊢
        have : 1 + j - 1 = j := by omega
        rw [this]
        calc j * 2 ^ mb + (2 ^ mb + m % 2 ^ mb) = 2 ^ mb * (1 + j) + m % 2 ^ mb := by ring
          _ = m := h2
    rw [e2, Nat.min_eq_left hm.le]

/-- Patterns with different values are different: the value determines the pattern. -/
theorem magVal_inj (m n : Nat) (hm : m < infMag eb mb) (hn : n < infMag eb mb) (h : magVal eb mb m = magVal eb mb n) :
    m = n := by
  rw [← roundMag_magVal m hm, ← roundMag_magVal n hn, h]

/-- A finite number is recovered from its value. -/
theorem ofRat_val (x : Flt eb mb) (hx : x.Finite) : ofRat x.neg (magVal eb mb x.mag) = x := by
  obtain ⟨s, m, h⟩ := x
  simp only [ofRat, mk.injEq, true_and]
  exact roundMag_magVal m hx

/-- Value of the pattern assembled by `roundMag`, also when the mantissa overflows into the exponent. -/
theorem magVal_assemble (K n : Nat) (hn : n ≤ 2 ^ (mb + 1)) (hK : K = 0 ∨ 2 ^ mb ≤ n) :
    magVal eb mb (K * 2 ^ mb + n) = n * 2 ^ (minExp eb mb + K) := by
  have hp : 0 < 2 ^ mb := Nat.two_pow_pos mb
  rw [Nat.pow_succ] at hn
  by_cases h1 : n < 2 ^ mb
  · have hK0 : K = 0 := by rcases hK with h | h; exact h; omega
    subst hK0
    simp [magVal, Nat.div_eq_of_lt h1]
  · by_cases h2 : n < 2 * 2 ^ mb
    · obtain ⟨r, rfl⟩ := Nat.exists_eq_add_of_le (not_lt.mp h1)
      have hr : r < 2 ^ mb := by omega
      have hd : (K * 2 ^ mb + (2 ^ mb + r)) / 2 ^ mb = K + 1 := by
        rw [show K * 2 ^ mb + (2 ^ mb + r) = r + (K + 1) * 2 ^ mb by ring, Nat.add_mul_div_right _ _ hp,
          Nat.div_eq_of_lt hr]; omega
      have hm : (K * 2 ^ mb + (2 ^ mb + r)) % 2 ^ mb = r := by
        rw [show K * 2 ^ mb + (2 ^ mb + r) = r + (K + 1) * 2 ^ mb by ring, Nat.add_mul_mod_self_right,
          Nat.mod_eq_of_lt hr]
      rw [magVal, hd, hm, if_neg (by omega)]
      congr 2
      push_cast; ring
    · have hn2 : n = 2 * 2 ^ mb := by omega
      subst hn2
      have hd : (K * 2 ^ mb + 2 * 2 ^ mb) / 2 ^ mb = K + 2 := by
        rw [← Nat.add_mul, Nat.mul_div_cancel _ hp]
      have hm : (K * 2 ^ mb + 2 * 2 ^ mb) % 2 ^ mb = 0 := by
        rw [← Nat.add_mul, Nat.mul_mod_left]
      rw [magVal, hd, hm, if_neg (by omega)]
      have e : minExp eb mb + ((K + 2 : Nat) : Int) - 1 = minExp eb mb + K + 1 := by push_cast; ring
      rw [e, zpow_add_one₀ (by norm_num)]
      push_cast; ring

/-- What `roundMag` computes for a positive number. -/
theorem roundMag_form (q : ℚ) (hq : 0 < q) : ∃ K : Nat, ulpExp eb mb q = minExp eb mb + K ∧
    roundMag eb mb q = min (K * 2 ^ mb + roundEven (q / 2 ^ ulpExp eb mb q)) (infMag eb mb) ∧
    roundEven (q / 2 ^ ulpExp eb mb q) ≤ 2 ^ (mb + 1) ∧
    (K = 0 ∨ (2 ^ mb ≤ roundEven (q / 2 ^ ulpExp eb mb q) ∧ 2 ^ (ulpExp eb mb q + mb) ≤ q)) := by
  have hu := zpow2_pos (ulpExp eb mb q)
  have hge : minExp eb mb ≤ ulpExp eb mb q := le_max_right _ _
  refine ⟨(ulpExp eb mb q - minExp eb mb).toNat, by omega, ?_, ?_, ?_⟩
  · rw [roundMag, if_neg (not_le.mpr hq)]
  · have h1 : q / 2 ^ ulpExp eb mb q < ((2 ^ (mb + 1) : Nat) : ℚ) := by
      rw [div_lt_iff₀ hu, ← two_zpow_add_nat, ← log_lt hq]
      have : Int.log 2 q - mb ≤ ulpExp eb mb q := le_max_left _ _
      push_cast; omega
    have h2 := abs_le.mp (roundEven_dist (q / 2 ^ ulpExp eb mb q) (by positivity))
    by_contra hc
    have h3 : 2 ^ (mb + 1) + 1 ≤ roundEven (q / 2 ^ ulpExp eb mb q) := by omega
    have h4 : ((2 ^ (mb + 1) : Nat) : ℚ) + 1 ≤ (roundEven (q / 2 ^ ulpExp eb mb q) : ℚ) := by exact_mod_cast h3
    linarith [h2.2]
  · by_cases hlog : Int.log 2 q - mb ≤ minExp eb mb
    · left
      rw [ulpExp, max_eq_right hlog]; simp
    · right
      have he : ulpExp eb mb q = Int.log 2 q - mb := max_eq_left (by omega)
      have h0 : 2 ^ (ulpExp eb mb q + mb) ≤ q := by
        rw [he, sub_add_cancel]; exact (le_log hq).mp le_rfl
      refine ⟨?_, h0⟩
      have h1 : ((2 ^ mb : Nat) : ℚ) ≤ q / 2 ^ ulpExp eb mb q := by
        rw [le_div_iff₀ hu, ← two_zpow_add_nat]; exact h0
      have h2 := abs_le.mp (roundEven_dist (q / 2 ^ ulpExp eb mb q) (by positivity))
      by_contra hc
      have h3 : roundEven (q / 2 ^ ulpExp eb mb q) + 1 ≤ 2 ^ mb := by omega
      have h4 : (roundEven (q / 2 ^ ulpExp eb mb q) : ℚ) + 1 ≤ ((2 ^ mb : Nat) : ℚ) := by exact_mod_cast h3
      linarith [h2.1]

/-- A representable number is a multiple of the last bit of `q`, or lies below the power of two under `q`. -/
theorem magVal_multiple (q : ℚ) (K : Nat) (hK : ulpExp eb mb q = minExp eb mb + K)
    (m : Nat) : (∃ j : Int, magVal eb mb m = j * 2 ^ ulpExp eb mb q) ∨
      (0 < K ∧ magVal eb mb m < (2 ^ mb : Nat) * 2 ^ ulpExp eb mb q) := by
  obtain ⟨k, n, h, h'⟩ := magVal_form (eb := eb) (mb := mb) m
  have hn : n < 2 ^ (mb + 1) := by
    have := Nat.mod_lt m (Nat.two_pow_pos mb)
    rw [Nat.pow_succ]
    rcases h' with ⟨hlt, -, rfl⟩ | ⟨-, -, rfl⟩ <;> omega
  by_cases hkK : K ≤ k
  · left
    obtain ⟨d, rfl⟩ := Nat.exists_eq_add_of_le hkK
    refine ⟨((n * 2 ^ d : Nat) : Int), ?_⟩
    rw [h, hK, show minExp eb mb + ((K + d : Nat) : Int) = minExp eb mb + K + (d : Nat) by push_cast; ring,
      two_zpow_add_nat]
    push_cast; ring
  · right
    refine ⟨by omega, ?_⟩
    rw [h, ← two_zpow_add_nat, hK]
    calc (n : ℚ) * 2 ^ (minExp eb mb + k) < ((2 ^ (mb + 1) : Nat) : ℚ) * 2 ^ (minExp eb mb + k) :=
          mul_lt_mul_of_pos_right (by exact_mod_cast hn) (zpow2_pos _)
      _ = 2 ^ (minExp eb mb + k + (mb + 1 : Nat)) := (two_zpow_add_nat _ _).symm
      _ ≤ 2 ^ (minExp eb mb + K + mb) := zpow_le_zpow_right₀ (by norm_num) (by push_cast; omega)

/-- **Correct rounding.** If the result is finite then no representable number is nearer. -/
theorem roundMag_nearest (q : ℚ) (hq : 0 ≤ q) (hfin : roundMag eb mb q < infMag eb mb) (m : Nat) :
    |magVal eb mb (roundMag eb mb q) - q| ≤ |magVal eb mb m - q| := by
  rcases hq.eq_or_lt with rfl | hpos
  · simp [roundMag, magVal_zero]
  obtain ⟨K, hK, hr, hle, hor⟩ := roundMag_form (eb := eb) (mb := mb) q hpos
  have hu := zpow2_pos (ulpExp eb mb q)
  rw [hr] at hfin
  have hr' : roundMag eb mb q = K * 2 ^ mb + roundEven (q / 2 ^ ulpExp eb mb q) := by omega
  have hval : magVal eb mb (roundMag eb mb q) = roundEven (q / 2 ^ ulpExp eb mb q) * 2 ^ ulpExp eb mb q := by
    rw [hr', magVal_assemble K _ hle (hor.imp_right And.left), hK]
  have key : ∀ j : Int, |magVal eb mb (roundMag eb mb q) - q| ≤ |(j : ℚ) * 2 ^ ulpExp eb mb q - q| := by
    intro j
    have h1 := roundEven_nearest (q / 2 ^ ulpExp eb mb q) (by positivity) j
    have e1 : ∀ t : ℚ, |t * 2 ^ ulpExp eb mb q - q| = |t - q / 2 ^ ulpExp eb mb q| * 2 ^ ulpExp eb mb q := by
      intro t
      rw [← abs_of_pos hu, ← abs_mul, abs_of_pos hu, sub_mul, div_mul_cancel₀ _ hu.ne']
    rw [hval, e1, e1]
    exact mul_le_mul_of_nonneg_right h1 hu.le
  rcases magVal_multiple (eb := eb) (mb := mb) q K hK m with ⟨j, hj⟩ | ⟨hK0, hlt⟩
  · rw [hj]; exact key j
  · rcases hor with h | ⟨-, h0⟩
    · omega
    · rw [two_zpow_add_nat] at h0
      refine (key ((2 ^ mb : Nat) : Int)).trans ?_
      rw [Int.cast_natCast, abs_of_nonpos (by linarith), abs_of_nonpos (by linarith)]
      linarith

/-- At equal distance the pattern with last bit zero is chosen. -/
theorem roundMag_even (hmb : 0 < mb) (q : ℚ) (hq : 0 ≤ q) (hfin : roundMag eb mb q < infMag eb mb) (m : Nat)
    (hm : m < infMag eb mb) (hne : m ≠ roundMag eb mb q)
    (htie : |magVal eb mb m - q| = |magVal eb mb (roundMag eb mb q) - q|) : roundMag eb mb q % 2 = 0 := by
  rcases hq.eq_or_lt with rfl | hpos
  · simp [roundMag]
  obtain ⟨K, hK, hr, hle, hor⟩ := roundMag_form (eb := eb) (mb := mb) q hpos
  have hu := zpow2_pos (ulpExp eb mb q)
  have hfin' := hfin
  rw [hr] at hfin'
  have hr' : roundMag eb mb q = K * 2 ^ mb + roundEven (q / 2 ^ ulpExp eb mb q) := by omega
  have hval : magVal eb mb (roundMag eb mb q) = roundEven (q / 2 ^ ulpExp eb mb q) * 2 ^ ulpExp eb mb q := by
    rw [hr', magVal_assemble K _ hle (hor.imp_right And.left), hK]
  have e1 : ∀ t : ℚ, |t * 2 ^ ulpExp eb mb q - q| = |t - q / 2 ^ ulpExp eb mb q| * 2 ^ ulpExp eb mb q := by
    intro t
    rw [← abs_of_pos hu, ← abs_mul, abs_of_pos hu, sub_mul, div_mul_cancel₀ _ hu.ne']
  rcases magVal_multiple (eb := eb) (mb := mb) q K hK m with ⟨j, hj⟩ | ⟨hK0, hlt⟩
  · have hjne : j ≠ roundEven (q / 2 ^ ulpExp eb mb q) := by
      rintro rfl
      apply hne
      apply magVal_inj m _ hm hfin
      rw [hj, hval]; rfl
    rw [hj, hval, e1, e1] at htie
    have h2 := roundEven_even _ (by positivity) j (mul_right_cancel₀ hu.ne' htie) hjne
    rw [hr']
    obtain ⟨k, rfl⟩ : ∃ k, mb = k + 1 := ⟨mb - 1, by omega⟩
    rw [Nat.pow_succ, ← Nat.mul_assoc]
    omega
  · rcases hor with h | ⟨-, h0⟩
    · omega
    · exfalso
      rw [two_zpow_add_nat] at h0
      have h1 := roundEven_nearest (q / 2 ^ ulpExp eb mb q) (by positivity) ((2 ^ mb : Nat) : Int)
      have h2 : |magVal eb mb (roundMag eb mb q) - q| ≤ |(((2 ^ mb : Nat) : Int) : ℚ) * 2 ^ ulpExp eb mb q - q| := by
        rw [hval, e1, e1]; exact mul_le_mul_of_nonneg_right h1 hu.le
      rw [Int.cast_natCast, abs_of_nonpos (show ((2 ^ mb : Nat) : ℚ) * 2 ^ ulpExp eb mb q - q ≤ 0 by linarith)] at h2
      rw [abs_of_nonpos (show magVal eb mb m - q ≤ 0 by linarith)] at htie
      linarith

/-- Values increase with the pattern. -/
theorem magVal_mono {m n : Nat} (h : m ≤ n) : magVal eb mb m ≤ magVal eb mb n := by
  induction n, h using Nat.le_induction with
  | base => exact le_rfl
  | succ n _ ih =>
    refine ih.trans ?_
    obtain ⟨k, a, h, h'⟩ := magVal_form (eb := eb) (mb := mb) n
    have hp : 0 < 2 ^ mb := Nat.two_pow_pos mb
    have hmod := Nat.mod_lt n hp
    have e : n + 1 = k * 2 ^ mb + (a + 1) ∧ (k = 0 ∨ 2 ^ mb ≤ a + 1) ∧ a + 1 ≤ 2 ^ (mb + 1) := by
      rw [Nat.pow_succ]
      rcases h' with ⟨hlt, rfl, rfl⟩ | ⟨hge, hk, rfl⟩
      · refine ⟨by omega, Or.inl rfl, by omega⟩
      · have h1 : 1 ≤ n / 2 ^ mb := (Nat.one_le_div_iff hp).mpr hge
        have h2 := Nat.div_add_mod n (2 ^ mb)
        refine ⟨?_, Or.inr (by omega), by omega⟩
        obtain ⟨j, hj⟩ := Nat.exists_eq_add_of_le h1
        rw [hj] at h2
        have : k = j := by omega
        rw [this]
        have : 2 ^ mb * (1 + j) = j * 2 ^ mb + 2 ^ mb := by ring
        omega
    rw [e.1, magVal_assemble k (a + 1) e.2.2 e.2.1, h]
    have := zpow2_pos (minExp eb mb + k)
    refine mul_le_mul_of_nonneg_right ?_ this.le
    push_cast; linarith

theorem infMag32 : infMag 8 23 = 2139095040 := by decide
theorem infMag64 : infMag 11 52 = 9218868437227405312 := by decide
theorem minExp32 : minExp 8 23 = -149 := by decide
theorem minExp64 : minExp 11 52 = -1074 := by decide

/-- Every single-precision number is a double-precision number. -/
theorem widen_exists (m : Nat) (hm : m < infMag 8 23) :
    ∃ n < infMag 11 52, magVal 11 52 n = magVal 8 23 m := by
  rcases Nat.eq_zero_or_pos m with rfl | hp
  · exact ⟨0, by decide, by simp [magVal_zero]⟩
  rw [infMag32] at hm
  by_cases h : m < 2 ^ 23
  · -- subnormal: normalise
    have hlog := Nat.pow_log_le_self 2 hp.ne'
    have hlog' := Nat.lt_pow_succ_log_self (b := 2) (by norm_num) m
    set k := Nat.log 2 m with hk
    have hk23 : k < 23 := (Nat.pow_lt_pow_iff_right (by norm_num : 1 < 2)).mp (lt_of_le_of_lt hlog h)
    have hpk : 0 < 2 ^ (52 - k) := Nat.two_pow_pos _
    have e52 : 2 ^ k * 2 ^ (52 - k) = 2 ^ 52 := by rw [← Nat.pow_add]; congr 1; omega
    have hb : m * 2 ^ (52 - k) < 2 ^ 53 := by
      calc m * 2 ^ (52 - k) < 2 ^ (k + 1) * 2 ^ (52 - k) := Nat.mul_lt_mul_of_pos_right hlog' hpk
        _ = 2 ^ 53 := by rw [← Nat.pow_add]; congr 1; omega
    have ha : 2 ^ 52 ≤ m * 2 ^ (52 - k) := by rw [← e52]; exact Nat.mul_le_mul_right _ hlog
    refine ⟨(873 + k) * 2 ^ 52 + m * 2 ^ (52 - k), ?_, ?_⟩
    · rw [infMag64]; omega
    · rw [magVal_assemble (873 + k) _ (by norm_num; omega) (Or.inr ha), minExp64, magVal,
        if_pos (Nat.div_eq_of_lt h), minExp32]
      push_cast
      rw [show (-1074 + (873 + (k : Int))) = -149 + -((52 - k : Nat) : Int) by omega, zpow_add₀ (by norm_num),
        show (2 : ℚ) ^ (-((52 - k : Nat) : Int)) = (2 ^ (52 - k))⁻¹ by rw [zpow_neg, zpow_natCast]]
      have : (2 : ℚ) ^ (52 - k) ≠ 0 := by positivity
      field_simp
  · refine ⟨(m / 2 ^ 23 + 895) * 2 ^ 52 + (2 ^ 23 + m % 2 ^ 23) * 2 ^ 29, ?_, ?_⟩
    · rw [infMag64]; omega
    · rw [magVal_assemble _ _ (by omega) (Or.inr (by omega)), minExp64, magVal, if_neg (by omega), minExp32]
      generalize m / 2 ^ 23 = E
      generalize m % 2 ^ 23 = r
      push_cast
      rw [show (-1074 + ((E : Int) + 895)) = (-149 + (E : Int) - 1) + (-29) by ring, zpow_add₀ (by norm_num)]
      norm_num
      ring

/-- Widening is exact. -/
theorem toF64_val (x : F32) (hx : x.Finite) : (toF64 x).Finite ∧ (toF64 x).neg = x.neg ∧
    magVal 11 52 (toF64 x).mag = magVal 8 23 x.mag := by
  obtain ⟨n, hn, h⟩ := widen_exists x.mag hx
  have e : toF64 x = ofRat x.neg (magVal 8 23 x.mag) := by rw [toF64, if_pos (show x.mag < infMag 8 23 from hx)]
  rw [e, ← h]
  simp only [ofRat, roundMag_magVal n hn, Finite]
  exact ⟨hn, trivial, trivial⟩

attribute [local irreducible] infMag

theorem toF32_nan (s : Bool) (p : Nat) (hp : 0 < p) (h : infMag 11 52 + p < 2 ^ (11 + 52)) :
    (toF32 ⟨s, infMag 11 52 + p, h⟩).neg = s ∧
      (toF32 ⟨s, infMag 11 52 + p, h⟩).mag = infMag 8 23 + quiet 23 (p / 2 ^ 29) := by
  unfold toF32
  dsimp only
  rw [if_neg (Nat.not_lt.mpr (Nat.le_add_right _ _)), if_neg (Nat.ne_of_gt (Nat.lt_add_of_pos_right hp))]
  refine ⟨rfl, ?_⟩
  dsimp only
  rw [Nat.add_sub_cancel_left]

theorem toF64_nan (s : Bool) (p : Nat) (hp : 0 < p) (h : infMag 8 23 + p < 2 ^ (8 + 23)) :
    (toF64 ⟨s, infMag 8 23 + p, h⟩).neg = s ∧
      (toF64 ⟨s, infMag 8 23 + p, h⟩).mag = infMag 11 52 + quiet 23 p * 2 ^ 29 := by
  unfold toF64
  dsimp only
  rw [if_neg (Nat.not_lt.mpr (Nat.le_add_right _ _)), if_neg (Nat.ne_of_gt (Nat.lt_add_of_pos_right hp))]
  refine ⟨rfl, ?_⟩
  dsimp only
  rw [Nat.add_sub_cancel_left]

theorem ext' {x y : Flt eb mb} (h1 : x.neg = y.neg) (h2 : x.mag = y.mag) : x = y := by
  cases x; cases y; simp_all

/-- Writing in single precision what was read from single precision loses nothing, except the signalling bit of
a NaN. -/
theorem toF32_toF64 (x : F32) (hx : ¬ x.IsNaN ∨ infMag 8 23 + 2 ^ 22 ≤ x.mag) : toF32 (toF64 x) = x := by
  by_cases hf : x.Finite
  · obtain ⟨h1, h2, h3⟩ := toF64_val x hf
    rw [toF32, if_pos (show (toF64 x).mag < infMag 11 52 from h1), h2, h3, ofRat_val x hf]
  · obtain ⟨s, m, hm⟩ := x
    simp only [Finite, IsNaN, not_lt] at hf hx
    by_cases hi : m = infMag 8 23
    · subst hi
      simp only [toF64, lt_irrefl, if_false, if_true, toF32]
    · obtain ⟨p, rfl⟩ := Nat.exists_eq_add_of_le hf
      have hp : 0 < p := by
        rcases Nat.eq_zero_or_pos p with h | h
        · subst h; exact absurd rfl hi
        · exact h
      have hq : 2 ^ (23 - 1) ≤ p := by
        rcases hx with h | h
        · exact absurd (Nat.lt_add_of_pos_right hp) (Nat.not_lt.mpr h)
        · exact Nat.le_of_add_le_add_left h
      have e1 : quiet 23 p = p := by
        unfold quiet
        rw [if_neg (Nat.not_lt.mpr hq)]
      obtain ⟨h1, h2⟩ := toF64_nan s p hp hm
      rw [e1] at h2
      have h29 : (0 : Nat) < 2 ^ 29 := Nat.two_pow_pos _
      have h3 : infMag 11 52 + p * 2 ^ 29 < 2 ^ (11 + 52) := by
        rw [← h2]; exact (toF64 _).lt
      have h4 : toF64 ⟨s, infMag 8 23 + p, hm⟩ = ⟨s, infMag 11 52 + p * 2 ^ 29, h3⟩ := ext' h1 h2
      obtain ⟨h5, h6⟩ := toF32_nan s (p * 2 ^ 29) (Nat.mul_pos hp h29) h3
      rw [h4]
      refine ext' h5 ?_
      rw [h6, Nat.mul_div_cancel _ h29, e1]

theorem quiet_idem (mb p : Nat) : quiet mb (quiet mb p) = quiet mb p := by
  unfold quiet
  split_ifs <;> omega

/-- Rounding a widened number to single precision and widening it again changes nothing. -/
theorem toF64_stable (x : F32) : toF64 (toF32 (toF64 x)) = toF64 x := by
  by_cases hq : ¬ x.IsNaN ∨ infMag 8 23 + 2 ^ 22 ≤ x.mag
  · rw [toF32_toF64 x hq]
  · rw [not_or, not_not, not_le] at hq
    obtain ⟨s, m, hm⟩ := x
    obtain ⟨p, rfl⟩ := Nat.exists_eq_add_of_le (Nat.le_of_lt hq.1)
    have hp : 0 < p := Nat.pos_of_lt_add_right hq.1
    have h29 : (0 : Nat) < 2 ^ 29 := Nat.two_pow_pos _
    have hqp : 0 < quiet 23 p := by unfold quiet; split <;> omega
    obtain ⟨h1, h2⟩ := toF64_nan s p hp hm
    have h3 : infMag 11 52 + quiet 23 p * 2 ^ 29 < 2 ^ (11 + 52) := by
      rw [← h2]; exact (toF64 _).lt
    have h4 : toF64 ⟨s, infMag 8 23 + p, hm⟩ = ⟨s, infMag 11 52 + quiet 23 p * 2 ^ 29, h3⟩ := ext' h1 h2
    obtain ⟨h5, h6⟩ := toF32_nan s (quiet 23 p * 2 ^ 29) (Nat.mul_pos hqp h29) h3
    rw [Nat.mul_div_cancel _ h29, quiet_idem] at h6
    have h7 : infMag 8 23 + quiet 23 p < 2 ^ (8 + 23) := by
      rw [← h6]; exact (toF32 _).lt
    have h8 : toF32 (toF64 ⟨s, infMag 8 23 + p, hm⟩) = ⟨s, infMag 8 23 + quiet 23 p, h7⟩ := by
      rw [h4]; exact ext' h5 h6
    obtain ⟨h9, h10⟩ := toF64_nan s (quiet 23 p) hqp h7
    rw [h8, h4]
    refine ext' h9 ?_
    rw [h10, quiet_idem]

/-- The result of a conversion to single precision is never a signalling NaN. -/
theorem toF32_quiet (x : F64) : ¬ (toF32 x).IsNaN ∨ infMag 8 23 + 2 ^ 22 ≤ (toF32 x).mag := by
  unfold toF32
  split_ifs with h1 h2
  · left
    simp only [IsNaN, not_lt, ofRat]
    exact roundMag_le _ _ _
  · left; simp [IsNaN]
  · right
    simp only [quiet]
    split <;> omega

/-- Rounding to single precision is idempotent. -/
theorem toF32_idem (x : F64) : toF32 (toF64 (toF32 x)) = toF32 x := toF32_toF64 _ (toF32_quiet x)

/-! ### Monotonicity -/

theorem roundEven_mono {q q' : ℚ} (hq : 0 ≤ q) (h : q ≤ q') : roundEven q ≤ roundEven q' := by
  have h1 : (⌊q⌋₊ : ℚ) ≤ q := Nat.floor_le hq
  have h2 : q < ⌊q⌋₊ + 1 := Nat.lt_floor_add_one q
  have h3 : (⌊q'⌋₊ : ℚ) ≤ q' := Nat.floor_le (hq.trans h)
  have h4 : ⌊q⌋₊ ≤ ⌊q'⌋₊ := Nat.floor_mono h
  rcases Nat.lt_or_ge ⌊q⌋₊ ⌊q'⌋₊ with h5 | h5
  · have e1 : roundEven q ≤ ⌊q⌋₊ + 1 := by unfold roundEven; dsimp only; split_ifs <;> omega
    have e2 : ⌊q'⌋₊ ≤ roundEven q' := by unfold roundEven; dsimp only; split_ifs <;> omega
    omega
  · have e : ⌊q'⌋₊ = ⌊q⌋₊ := le_antisymm h5 h4
    unfold roundEven
    dsimp only
    rw [e]
    split_ifs <;> first | omega | (exfalso; linarith)

theorem roundMag_mono {q q' : ℚ} (h : q ≤ q') : roundMag eb mb q ≤ roundMag eb mb q' := by
  rcases le_or_gt q 0 with h0 | h0
  · rw [roundMag, if_pos h0]; exact Nat.zero_le _
  · have h0' := lt_of_lt_of_le h0 h
    obtain ⟨K, hK, e, hle, -⟩ := roundMag_form (eb := eb) (mb := mb) q h0
    obtain ⟨K', hK', e', -, hge'⟩ := roundMag_form (eb := eb) (mb := mb) q' h0'
    have hu : ulpExp eb mb q ≤ ulpExp eb mb q' := by
      unfold ulpExp
      have : Int.log 2 q ≤ Int.log 2 q' := Int.log_mono_right h0 h
      omega
    rw [e, e']
    apply min_le_min_right
    rcases Nat.lt_or_ge K K' with hlt | hge
    · rcases hge' with h | ⟨h, -⟩
      · omega
      · have : (K + 1) * 2 ^ mb ≤ K' * 2 ^ mb := Nat.mul_le_mul_right _ hlt
        rw [Nat.add_mul, Nat.one_mul] at this
        rw [Nat.pow_succ] at hle
        omega
    · have hKK : K = K' := by omega
      subst hKK
      apply Nat.add_le_add_left
      rw [show ulpExp eb mb q' = ulpExp eb mb q by omega]
      exact roundEven_mono (div_nonneg h0.le (zpow2_pos _).le) (div_le_div_of_nonneg_right h (zpow2_pos _).le)

/-- A multiple of a power of two with few enough bits is representable. -/
theorem exists_mag (n : Nat) (e : Int) (hn : n < 2 ^ (mb + 1)) (he : minExp eb mb ≤ e)
    (he' : (e - minExp eb mb).toNat + 2 < 2 ^ eb) : ∃ m < infMag eb mb, magVal eb mb m = n * 2 ^ e := by
  have hinf : ∀ K r : Nat, K ≤ (e - minExp eb mb).toNat → r < 2 ^ (mb + 1) → K * 2 ^ mb + r < infMag eb mb := by
    intro K r hK hr
    unfold infMag
    calc K * 2 ^ mb + r < K * 2 ^ mb + 2 ^ (mb + 1) := by omega
      _ = (K + 2) * 2 ^ mb := by rw [Nat.pow_succ]; ring
      _ ≤ (2 ^ eb - 1) * 2 ^ mb := Nat.mul_le_mul_right _ (by omega)
  rcases Nat.eq_zero_or_pos n with rfl | hp
  · exact ⟨0, by simpa using hinf 0 0 (Nat.zero_le _) (Nat.two_pow_pos _), by simp [magVal_zero]⟩
  have hlog := Nat.pow_log_le_self 2 hp.ne'
  have hlog' := Nat.lt_pow_succ_log_self (b := 2) (by norm_num) n
  set k := Nat.log 2 n with hk
  have hkm : k < mb + 1 := (Nat.pow_lt_pow_iff_right (by norm_num : 1 < 2)).mp (lt_of_le_of_lt hlog hn)
  obtain ⟨j, hj1, hj2, hj3⟩ : ∃ j : Nat, j ≤ mb - k ∧ (j : Int) ≤ e - minExp eb mb ∧
      ((j : Int) = e - minExp eb mb ∨ j = mb - k) := by
    refine ⟨min (mb - k) (e - minExp eb mb).toNat, by omega, by omega, by omega⟩
  have hb : n * 2 ^ j < 2 ^ (mb + 1) := by
    calc n * 2 ^ j < 2 ^ (k + 1) * 2 ^ j := Nat.mul_lt_mul_of_pos_right hlog' (Nat.two_pow_pos _)
      _ = 2 ^ (k + 1 + j) := (Nat.pow_add _ _ _).symm
      _ ≤ 2 ^ (mb + 1) := Nat.pow_le_pow_right (by norm_num) (by omega)
  refine ⟨(e - minExp eb mb - j).toNat * 2 ^ mb + n * 2 ^ j, hinf _ _ (by omega) hb, ?_⟩
  rw [magVal_assemble _ _ hb.le]
  · rw [show minExp eb mb + ((e - minExp eb mb - j).toNat : Int) = e + -(j : Int) by omega, zpow_add₀ (by norm_num),
      zpow_neg, zpow_natCast]
    push_cast
    have : (2 : ℚ) ^ j ≠ 0 := by positivity
    field_simp
  · rcases hj3 with h | h
    · left; omega
    · right
      calc 2 ^ mb = 2 ^ k * 2 ^ j := by rw [← Nat.pow_add]; congr 1; omega
        _ ≤ n * 2 ^ j := Nat.mul_le_mul_right _ hlog

end Pymech.Flt
