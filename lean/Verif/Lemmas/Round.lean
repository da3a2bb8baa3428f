import Verif.Lemmas.Float

/-!
# Rounding beyond the largest double
-/

set_option autoImplicit false

namespace Pymech.Flt

variable {eb mb : Nat}

theorem magVal_lt_succ (n : Nat) : magVal eb mb n < magVal eb mb (n + 1) := by
  obtain ⟨k, a, h, h'⟩ := magVal_form (eb := eb) (mb := mb) n
  have hp : 0 < 2 ^ mb := Nat.two_pow_pos mb
  have hmod := Nat.mod_lt n hp
  have e : n + 1 = k * 2 ^ mb + (a + 1) ∧ (k = 0 ∨ 2 ^ mb ≤ a + 1) ∧ a + 1 ≤ 2 ^ (mb + 1) := by
    rw [Nat.pow_succ]
    rcases h' with ⟨hlt, rfl, rfl⟩ | ⟨hge, hk, rfl⟩
    · refine ⟨by omega, Or.inl rfl, by omega⟩
    · have h1 : 1 ≤ n / 2 ^ mb := (Nat.one_le_div_iff hp).mpr hge
      have h2 := Nat.div_add_mod n (2 ^ mb)
      refine ⟨?_, Or.inr (by omega), by omega⟩
      obtain ⟨j, hj⟩ := Nat.exists_eq_add_of_le h1
      rw [hj] at h2
      have : k = j := by omega
      rw [this]
      have : 2 ^ mb * (1 + j) = j * 2 ^ mb + 2 ^ mb := by ring
      omega
  rw [e.1, magVal_assemble k (a + 1) e.2.2 e.2.1, h]
  refine mul_lt_mul_of_pos_right ?_ (zpow2_pos (minExp eb mb + k))
  push_cast; linarith

theorem magVal_lt {m n : Nat} (h : m < n) : magVal eb mb m < magVal eb mb n :=
  (magVal_lt_succ m).trans_le (magVal_mono h)

/-- At equal distance the pattern with last bit zero is chosen, also when the other one is infinity. -/
theorem roundMag_even_any (hmb : 0 < mb) (q : ℚ) (hq : 0 ≤ q) (hfin : roundMag eb mb q < infMag eb mb) (m : Nat)
    (hne : m ≠ roundMag eb mb q)
    (htie : |magVal eb mb m - q| = |magVal eb mb (roundMag eb mb q) - q|) : roundMag eb mb q % 2 = 0 := by
  rcases hq.eq_or_lt with rfl | hpos
  · simp [roundMag]
  obtain ⟨K, hK, hr, hle, hor⟩ := roundMag_form (eb := eb) (mb := mb) q hpos
  have hu := zpow2_pos (ulpExp eb mb q)
  have hfin' := hfin
  rw [hr] at hfin'
  have hr' : roundMag eb mb q = K * 2 ^ mb + roundEven (q / 2 ^ ulpExp eb mb q) := by omega
  have hval : magVal eb mb (roundMag eb mb q) = roundEven (q / 2 ^ ulpExp eb mb q) * 2 ^ ulpExp eb mb q := by
    rw [hr', magVal_assemble K _ hle (hor.imp_right And.left), hK]
  have e1 : ∀ t : ℚ, |t * 2 ^ ulpExp eb mb q - q| = |t - q / 2 ^ ulpExp eb mb q| * 2 ^ ulpExp eb mb q := by
    intro t
    rw [← abs_of_pos hu, ← abs_mul, abs_of_pos hu, sub_mul, div_mul_cancel₀ _ hu.ne']
  rcases magVal_multiple (eb := eb) (mb := mb) q K hK m with ⟨j, hj⟩ | ⟨hK0, hlt⟩
  · have hjne : j ≠ roundEven (q / 2 ^ ulpExp eb mb q) := by
      rintro rfl
      apply hne
      have hv : magVal eb mb m = magVal eb mb (roundMag eb mb q) := by rw [hj, hval]; rfl
      rcases lt_trichotomy m (roundMag eb mb q) with h | h | h
      · exact absurd hv (magVal_lt h).ne
      · exact h
      · exact absurd hv (magVal_lt h).ne'
    rw [hj, hval, e1, e1] at htie
    have h2 := roundEven_even _ (by positivity) j (mul_right_cancel₀ hu.ne' htie) hjne
    rw [hr']
    obtain ⟨k, rfl⟩ : ∃ k, mb = k + 1 := ⟨mb - 1, by omega⟩
    rw [Nat.pow_succ, ← Nat.mul_assoc]
    omega
  · rcases hor with h | ⟨-, h0⟩
    · omega
    · exfalso
      rw [two_zpow_add_nat] at h0
      have h1 := roundEven_nearest (q / 2 ^ ulpExp eb mb q) (by positivity) ((2 ^ mb : Nat) : Int)
      have h2 : |magVal eb mb (roundMag eb mb q) - q| ≤ |(((2 ^ mb : Nat) : Int) : ℚ) * 2 ^ ulpExp eb mb q - q| := by
        rw [hval, e1, e1]; exact mul_le_mul_of_nonneg_right h1 hu.le
      rw [Int.cast_natCast, abs_of_nonpos (show ((2 ^ mb : Nat) : ℚ) * 2 ^ ulpExp eb mb q - q ≤ 0 by linarith)] at h2
      rw [abs_of_nonpos (show magVal eb mb m - q ≤ 0 by linarith)] at htie
      linarith

/-- Beyond the largest number, infinity, which counts as the next number, is at least as near as any other. -/
theorem roundMag_inf (q : ℚ) (hq : 0 ≤ q) (hinf : ¬ roundMag eb mb q < infMag eb mb) (m : Nat) (hm : m ≤ infMag eb mb) :
    |magVal eb mb (infMag eb mb) - q| ≤ |magVal eb mb m - q| := by
  rcases hq.eq_or_lt with rfl | hpos
  · have h0 : infMag eb mb = 0 := by
      have : roundMag eb mb 0 = 0 := by simp [roundMag]
      omega
    have hm0 : m = 0 := by omega
    rw [h0, hm0]
  obtain ⟨K, hK, hr, hle, hor⟩ := roundMag_form (eb := eb) (mb := mb) q hpos
  have hu := zpow2_pos (ulpExp eb mb q)
  set r := K * 2 ^ mb + roundEven (q / 2 ^ ulpExp eb mb q) with hrdef
  have hr' : infMag eb mb ≤ r := by omega
  have hval : magVal eb mb r = roundEven (q / 2 ^ ulpExp eb mb q) * 2 ^ ulpExp eb mb q := by
    rw [hrdef, magVal_assemble K _ hle (hor.imp_right And.left), hK]
  have key : ∀ j : Int, |magVal eb mb r - q| ≤ |(j : ℚ) * 2 ^ ulpExp eb mb q - q| := by
    intro j
    have h1 := roundEven_nearest (q / 2 ^ ulpExp eb mb q) (by positivity) j
    have e1 : ∀ t : ℚ, |t * 2 ^ ulpExp eb mb q - q| = |t - q / 2 ^ ulpExp eb mb q| * 2 ^ ulpExp eb mb q := by
      intro t
      rw [← abs_of_pos hu, ← abs_mul, abs_of_pos hu, sub_mul, div_mul_cancel₀ _ hu.ne']
    rw [hval, e1, e1]
    exact mul_le_mul_of_nonneg_right h1 hu.le
  have near : ∀ m, |magVal eb mb r - q| ≤ |magVal eb mb m - q| := by
    intro m
    rcases magVal_multiple (eb := eb) (mb := mb) q K hK m with ⟨j, hj⟩ | ⟨hK0, hlt⟩
    · rw [hj]; exact key j
    · rcases hor with h | ⟨-, h0⟩
      · omega
      · rw [two_zpow_add_nat] at h0
        refine (key ((2 ^ mb : Nat) : Int)).trans ?_
        rw [Int.cast_natCast, abs_of_nonpos (by linarith), abs_of_nonpos (by linarith)]
        linarith
  rcases hr'.eq_or_lt with he | hlt
  · rw [he]; exact near m
  · have h1 := near (infMag eb mb)
    have h2 := magVal_lt (eb := eb) (mb := mb) hlt
    have h3 := magVal_mono (eb := eb) (mb := mb) hm
    have h4 : magVal eb mb (infMag eb mb) ≤ q := by
      by_contra hc
      rw [abs_of_pos (by linarith), abs_of_pos (by linarith)] at h1
      linarith
    rw [abs_of_nonpos (by linarith), abs_of_nonpos (by linarith)]
    linarith

theorem infMag_even (hmb : 0 < mb) : infMag eb mb % 2 = 0 := by
  obtain ⟨k, rfl⟩ : ∃ k, mb = k + 1 := ⟨mb - 1, by omega⟩
  unfold infMag
  rw [Nat.pow_succ, ← Nat.mul_assoc]
  omega

/-- Two different patterns cannot both be preferred. -/
theorem nearest_eq (q : ℚ) (I m n : Nat) (hm : m ≤ I) (hn : n ≤ I)
    (h1 : ∀ k ≤ I, |magVal eb mb m - q| ≤ |magVal eb mb k - q| ∧ (k ≠ m → |magVal eb mb k - q| = |magVal eb mb m - q| → m % 2 = 0))
    (h2 : ∀ k ≤ I, |magVal eb mb n - q| ≤ |magVal eb mb k - q| ∧ (k ≠ n → |magVal eb mb k - q| = |magVal eb mb n - q| → n % 2 = 0)) :
    m = n := by
  have main : ∀ m n : Nat, m ≤ I → n ≤ I → m < n →
      (∀ k ≤ I, |magVal eb mb m - q| ≤ |magVal eb mb k - q| ∧ (k ≠ m → |magVal eb mb k - q| = |magVal eb mb m - q| → m % 2 = 0)) →
      (∀ k ≤ I, |magVal eb mb n - q| ≤ |magVal eb mb k - q| ∧ (k ≠ n → |magVal eb mb k - q| = |magVal eb mb n - q| → n % 2 = 0)) → False := by
    intro m n hm hn hlt h1 h2
    have he : |magVal eb mb n - q| = |magVal eb mb m - q| := le_antisymm (h2 m hm).1 (h1 n hn).1
    have e1 := (h1 n hn).2 (by omega) he
    have e2 := (h2 m hm).2 (by omega) he.symm
    have h3 := (h1 (m + 1) (by omega)).1
    have l1 := magVal_lt (eb := eb) (mb := mb) (show m < m + 1 by omega)
    have l2 := magVal_lt (eb := eb) (mb := mb) (show m + 1 < n by omega)
    rcases abs_eq_abs.mp he with e | e
    · linarith
    · rw [abs_of_nonpos (show magVal eb mb m - q ≤ 0 by linarith)] at h3
      rcases abs_cases (magVal eb mb (m + 1) - q) with ⟨a, _⟩ | ⟨a, _⟩ <;> rw [a] at h3 <;> linarith
  rcases lt_trichotomy m n with h | h | h
  · exact (main m n hm hn h h1 h2).elim
  · exact h
  · exact (main n m hn hm h h2 h1).elim

end Pymech.Flt
