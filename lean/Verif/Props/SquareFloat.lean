import Mathlib.Tactic.Linarith
import Mathlib.Tactic.FieldSimp
import Verif.Props.CircleFloat
import Verif.Props.KeepFloat

/-!
# C149, C150: the square of `gen_circle` in double precision
-/

set_option autoImplicit false

namespace Pymech

open Spec Flt

theorem ofQ_neg (z z' : Bool) (q : ℚ) : (ofQ z (-q)).val = -(ofQ z' q).val := by
  rcases lt_trichotomy q 0 with h | h | h
  · rw [ofQ_val, ofQ_val, if_neg (by linarith), if_pos h, abs_neg, neg_neg]
  · subst h
    have e : (ofQ z (-0)).mag = 0 ∧ (ofQ z' 0).mag = 0 := by
      constructor
      · rw [ofQ_mag]; decide +kernel
      · rw [ofQ_mag]; decide +kernel
    rw [(val_zero_iff _).2 e.1, (val_zero_iff _).2 e.2, neg_zero]
  · rw [ofQ_val, ofQ_val, if_pos (by linarith), if_neg (by linarith), abs_neg]

theorem halfF_val : halfF.Finite ∧ halfF.val = 1 / 2 := by decide +kernel

theorem ofQ_one (z : Bool) : (ofQ z 1).val = 1 := by
  have h : (1 : F64).Finite ∧ (1 : F64).val = 1 := by decide +kernel
  rw [← h.2, ofQ_rep z 1 h.1]

theorem ofQ_zero_val (z : Bool) : (ofQ z 0).val = 0 := by
  rw [← zeroF_val, ofQ_rep z 0 (by decide +kernel)]

theorem ofQ_half (z : Bool) : (ofQ z (1 / 2)).val = 1 / 2 := by
  rw [← halfF_val.2, ofQ_rep z halfF halfF_val.1]

theorem small_fin (q : ℚ) (h : |q| ≤ 1) : |q| ≤ 2 ^ 1000 := h.trans (one_le_pow₀ (by norm_num))

/-- `k / ns - 0.5`. -/
theorem squareRatio (ns k : Nat) (h0 : 0 < ns) (hns : ns ≤ 2 ^ 53) (hk : k ≤ ns) :
    ((k : F64) / (ns : F64) - halfF).Finite ∧ |((k : F64) / (ns : F64) - halfF).val - ((k : ℚ) / ns - 1 / 2)| ≤ 1 / 2 ^ 52 ∧
    |((k : F64) / (ns : F64) - halfF).val| ≤ 1 / 2 ∧
    (k = 0 → ((k : F64) / (ns : F64) - halfF).val = -(1 / 2)) ∧ (k = ns → ((k : F64) / (ns : F64) - halfF).val = 1 / 2) := by
  obtain ⟨kf, kv⟩ := natCast_exact k (hk.trans hns)
  obtain ⟨nf, nv⟩ := natCast_exact ns hns
  have n0 : (0 : ℚ) < ns := by exact_mod_cast h0
  have q0 : (0 : ℚ) ≤ (k : ℚ) / ns := by positivity
  have q1 : (k : ℚ) / ns ≤ 1 := by
    rw [div_le_one n0]; exact_mod_cast hk
  have e1 := div_fin kf nf (by rw [nv]; exact n0.ne')
  rw [kv, nv] at e1
  set z := ((k : F64).neg ^^ (ns : F64).neg) with hz
  have qa : |(k : ℚ) / ns| ≤ 1 := by rw [abs_of_nonneg q0]; exact q1
  have af : ((k : F64) / (ns : F64)).Finite := by rw [e1]; exact ofQ_fin _ _ (small_fin _ qa)
  have aerr := ofQ_err z _ (small_fin _ qa)
  have a0 := ofQ_mono z z 0 ((k : ℚ) / ns) q0
  have a1 := ofQ_mono z z ((k : ℚ) / ns) 1 q1
  rw [ofQ_zero_val] at a0
  rw [ofQ_one] at a1
  have e2 := sub_fin af halfF_val.1
  rw [halfF_val.2] at e2
  set w := (((k : F64) / (ns : F64)).neg && !halfF.neg) with hw
  rw [e1] at e2 ⊢
  rw [e2]
  set a := (ofQ z ((k : ℚ) / ns)).val with ha
  have ba : |a - 1 / 2| ≤ 1 / 2 := by rw [abs_le]; constructor <;> linarith
  have bs : |a - 1 / 2| ≤ 1 := ba.trans (by norm_num)
  have berr := ofQ_err w _ (small_fin _ bs)
  have b0 := ofQ_mono w w (-(1 / 2)) (a - 1 / 2) (by linarith)
  have b1 := ofQ_mono w w (a - 1 / 2) (1 / 2) (by linarith)
  rw [ofQ_neg w w, ofQ_half] at b0
  rw [ofQ_half] at b1
  refine ⟨ofQ_fin _ _ (small_fin _ bs), ?_, abs_le.2 ⟨b0, b1⟩, ?_, ?_⟩
  · have t : (1 : ℚ) / 2 ^ 1075 ≤ 1 / 2 ^ 55 := by
      apply one_div_le_one_div_of_le (by positivity)
      exact pow_le_pow_right₀ (by norm_num) (by norm_num)
    have u1 : |(k : ℚ) / ns| / 2 ^ 53 ≤ 1 / 2 ^ 53 := div_le_div_of_nonneg_right qa (by positivity)
    have u2 : |a - 1 / 2| / 2 ^ 53 ≤ 1 / 2 / 2 ^ 53 := div_le_div_of_nonneg_right ba (by positivity)
    have tri : |(ofQ w (a - 1 / 2)).val - ((k : ℚ) / ns - 1 / 2)| ≤ |(ofQ w (a - 1 / 2)).val - (a - 1 / 2)| + |a - (k : ℚ) / ns| := by
      calc _ = |((ofQ w (a - 1 / 2)).val - (a - 1 / 2)) + (a - (k : ℚ) / ns)| := by congr 1; ring
        _ ≤ _ := abs_add_le _ _
    generalize (1 : ℚ) / 2 ^ 1075 = T at *
    have num : (1 : ℚ) / 2 / 2 ^ 53 + 1 / 2 ^ 55 + (1 / 2 ^ 53 + 1 / 2 ^ 55) ≤ 1 / 2 ^ 52 := by norm_num
    linarith
  · intro h
    have : a = 0 := by rw [ha, h, Nat.cast_zero, zero_div, ofQ_zero_val]
    rw [this, show (0 : ℚ) - 1 / 2 = -(1 / 2) by norm_num, ofQ_neg w w, ofQ_half]
  · intro h
    have : a = 1 := by rw [ha, h, div_self n0.ne', ofQ_one]
    rw [this, show (1 : ℚ) - 1 / 2 = 1 / 2 by norm_num, ofQ_half]

/-- Half of a double that is not tiny is a double. -/
theorem half_exact (z : Bool) (c : F64) (h0 : 1 / 2 ^ 900 ≤ c.val) (h1 : c.val ≤ 2 ^ 900) : (ofQ z (c.val / 2)).val = c.val / 2 := by
  have cp : 0 < c.val := lt_of_lt_of_le (by positivity) h0
  obtain ⟨k, e, hk, he, hv⟩ := magVal_form64 c.mag
  rw [← abs_val, abs_of_pos cp] at hv
  have he2 : -1074 < e := by
    by_contra hn
    have he3 : e = -1074 := by omega
    have : (k : ℚ) * 2 ^ e < 1 / 2 ^ 900 := by
      rw [he3]
      have k1 : (k : ℚ) < 2 ^ 53 := by exact_mod_cast hk
      calc (k : ℚ) * 2 ^ (-1074 : Int) < 2 ^ 53 * 2 ^ (-1074 : Int) := mul_lt_mul_of_pos_right k1 (by positivity)
        _ = (2 : ℚ) ^ ((53 : Int) + -1074) := by rw [zpow_add₀ two_ne_zero]; rfl
        _ ≤ (2 : ℚ) ^ (-900 : Int) := zpow_le_zpow_right₀ (by norm_num) (by norm_num)
        _ = 1 / 2 ^ 900 := by rw [zpow_neg, one_div, ← zpow_natCast]; rfl
    exact absurd (hv ▸ h0) (not_le.2 this)
  have hk0 : 0 < k := by
    rcases Nat.eq_zero_or_pos k with h | h
    · subst h; rw [Nat.cast_zero, zero_mul] at hv; linarith
    · exact h
  have he4 : e ≤ 900 := by
    by_contra hn
    have : (2 : ℚ) ^ (900 : Int) < (k : ℚ) * 2 ^ e := by
      have k1 : (1 : ℚ) ≤ k := by exact_mod_cast hk0
      calc (2 : ℚ) ^ (900 : Int) < 2 ^ e := zpow_lt_zpow_right₀ (by norm_num) (by omega)
        _ ≤ k * 2 ^ e := le_mul_of_one_le_left (by positivity) k1
    rw [← hv] at this
    have t : (2 : ℚ) ^ (900 : Int) = 2 ^ 900 := by rw [← zpow_natCast]; rfl
    rw [t] at this
    exact absurd h1 (not_le.2 this)
  have hh : c.val / 2 = k * 2 ^ (e - 1) := by
    rw [hv, zpow_sub_one₀ (by norm_num)]; ring
  rw [ofQ_val, if_neg (not_lt.2 (by positivity)), abs_of_pos (by positivity), hh]
  exact (roundMag_exact k (e - 1) hk (by omega) (by omega)).2

/-- Coordinates of the square. -/
theorem squareCoordF_near (c : F64) (hc : c.Finite) (h0 : 1 / 2 ^ 900 ≤ c.val) (h1 : c.val ≤ 2 ^ 900) (ns k : Nat) (hns0 : 0 < ns) (hns : ns ≤ 2 ^ 53)
    (hk : k ≤ ns) :
    (squareCoordF c ns k).Finite ∧ |(squareCoordF c ns k).val - c.val * ((k : ℚ) / ns - 1 / 2)| ≤ c.val / 2 ^ 51 ∧
    (k = 0 → (squareCoordF c ns k).val = -(c.val / 2)) ∧ (k = ns → (squareCoordF c ns k).val = c.val / 2) := by
  have cp : 0 < c.val := lt_of_lt_of_le (by positivity) h0
  obtain ⟨bf, berr, bb, bz, be⟩ := squareRatio ns k hns0 hns hk
  unfold squareCoordF
  rw [mul_fin hc bf]
  set b := ((k : F64) / (ns : F64) - halfF) with hb
  have m1 : |c.val * b.val| ≤ c.val * (1 / 2) := by
    rw [abs_mul, abs_of_pos cp]
    exact mul_le_mul_of_nonneg_left bb cp.le
  have m2 : |c.val * b.val| ≤ 2 ^ 1000 := by
    have : (2 : ℚ) ^ 900 ≤ 2 ^ 1000 := pow_le_pow_right₀ (by norm_num) (by norm_num)
    have m3 : c.val * (1 / 2) ≤ c.val := by clear * - cp; linarith
    exact m1.trans (m3.trans (h1.trans this))
  have err := ofQ_err (c.neg ^^ b.neg) _ m2
  refine ⟨ofQ_fin _ _ m2, ?_, ?_, ?_⟩
  · have t : (1 : ℚ) / 2 ^ 1075 ≤ c.val / 2 ^ 55 := by
      rw [div_le_div_iff₀ (by positivity) (by positivity), one_mul]
      have e : (2 : ℚ) ^ 1075 = 2 ^ 900 * 2 ^ 175 := by rw [← pow_add]
      have p : (1 : ℚ) ≤ c.val * 2 ^ 900 := by rw [div_le_iff₀ (by positivity)] at h0; exact h0
      have p2 : (2 : ℚ) ^ 55 ≤ 2 ^ 175 := pow_le_pow_right₀ (by norm_num) (by norm_num)
      calc (2 : ℚ) ^ 55 ≤ 2 ^ 175 := p2
        _ ≤ (c.val * 2 ^ 900) * 2 ^ 175 := le_mul_of_one_le_left (by positivity) p
        _ = c.val * 2 ^ 1075 := by rw [e, mul_assoc]
    have u1 : |c.val * b.val| / 2 ^ 53 ≤ c.val * (1 / 2) / 2 ^ 53 := div_le_div_of_nonneg_right m1 (by positivity)
    have u2 : |c.val * b.val - c.val * ((k : ℚ) / ns - 1 / 2)| ≤ c.val * (1 / 2 ^ 52) := by
      rw [← mul_sub, abs_mul, abs_of_pos cp]
      exact mul_le_mul_of_nonneg_left berr cp.le
    have tri : |(ofQ (c.neg ^^ b.neg) (c.val * b.val)).val - c.val * ((k : ℚ) / ns - 1 / 2)| ≤
        |(ofQ (c.neg ^^ b.neg) (c.val * b.val)).val - c.val * b.val| + |c.val * b.val - c.val * ((k : ℚ) / ns - 1 / 2)| := by
      calc _ = |((ofQ (c.neg ^^ b.neg) (c.val * b.val)).val - c.val * b.val) + (c.val * b.val - c.val * ((k : ℚ) / ns - 1 / 2))| := by rw [sub_add_sub_cancel]
        _ ≤ _ := abs_add_le _ _
    generalize (1 : ℚ) / 2 ^ 1075 = T at *
    have num : c.val * (1 / 2) / 2 ^ 53 + c.val / 2 ^ 55 + c.val * (1 / 2 ^ 52) ≤ c.val / 2 ^ 51 := by
      have : c.val * (1 / 2) / 2 ^ 53 + c.val / 2 ^ 55 + c.val * (1 / 2 ^ 52) = c.val * (1 / 2 / 2 ^ 53 + 1 / 2 ^ 55 + 1 / 2 ^ 52) := by ring
      rw [this, div_eq_mul_one_div c.val (2 ^ 51)]
      exact mul_le_mul_of_nonneg_left (by norm_num) cp.le
    linarith
  · intro h
    rw [bz h, mul_neg, ofQ_neg _ false, mul_one_div, half_exact false c h0 h1]
  · intro h
    rw [be h, mul_one_div, half_exact _ c h0 h1]

/-- Coordinates of the square increase. -/
theorem squareCoordF_lt (c : F64) (hc : c.Finite) (h0 : 1 / 2 ^ 900 ≤ c.val) (h1 : c.val ≤ 2 ^ 900) (ns k : Nat) (hns : ns * ns ≤ 2 ^ 53)
    (hk : k < ns) : (squareCoordF c ns k).val < (squareCoordF c ns (k + 1)).val := by
  have cp : 0 < c.val := lt_of_lt_of_le (by positivity) h0
  have n53 : ns ≤ 2 ^ 53 := le_trans (Nat.le_mul_self ns) hns
  obtain ⟨_, e1, _⟩ := squareCoordF_near c hc h0 h1 ns k (by omega) n53 hk.le
  obtain ⟨_, e2, _⟩ := squareCoordF_near c hc h0 h1 ns (k + 1) (by omega) n53 hk
  have n0 : (0 : ℚ) < ns := by exact_mod_cast (show 0 < ns by omega)
  have n27 : ns < 2 ^ 27 := by
    by_contra h
    have := Nat.mul_le_mul (not_lt.1 h) (not_lt.1 h)
    have t : 2 ^ 27 * 2 ^ 27 = 2 ^ 54 := by norm_num
    omega
  have n27' : (ns : ℚ) < 2 ^ 27 := by exact_mod_cast n27
  have d : c.val * (((k + 1 : Nat) : ℚ) / ns - 1 / 2) - c.val * ((k : ℚ) / ns - 1 / 2) = c.val / ns := by
    push_cast
    field_simp
    ring
  have d2 : c.val / 2 ^ 27 < c.val / ns := div_lt_div_of_pos_left cp n0 n27'
  have d3 : c.val / 2 ^ 51 + c.val / 2 ^ 51 ≤ c.val / 2 ^ 27 := by
    rw [div_eq_mul_one_div c.val (2 ^ 51), div_eq_mul_one_div c.val (2 ^ 27), ← mul_add]
    exact mul_le_mul_of_nonneg_left (by norm_num) cp.le
  have f1 := (abs_le.1 e1).2
  have f2 := (abs_le.1 e2).1
  linarith

theorem squareF_corner (native : Endian) (m : MathFns F64) (r s : F64) (ns : Nat) (var : Var) (nbc : Nat) (ib : Bool) (i j : Nat) (hi : i < ns)
    (hj : j < ns) (sx sy sz : Bool) :
    Spec.corner ((circleSquareF native m r s ns var nbc ib).el (i + ns * j)) sx sy sz 0 = squareCoordF (s * r * m.sqrt2) ns (i + if sx then 1 else 0) ∧
    Spec.corner ((circleSquareF native m r s ns var nbc ib).el (i + ns * j)) sx sy sz 1 = squareCoordF (s * r * m.sqrt2) ns (j + if sy then 1 else 0) := by
  unfold Spec.corner
  rw [circleSquareF_el native m r s ns var nbc ib _ (elnum_lt hi hj), Nat.add_mul_mod_self_left, Nat.mod_eq_of_lt hi,
    Nat.add_mul_div_left _ _ (by omega), Nat.div_eq_of_lt hi, Nat.zero_add]
  cases sx <;> cases sy <;> cases sz <;> simp [squarePosF, Elem.new, Arr.zeros]

/-- **C149.** The square of `gen_circle` in double precision: corners are near their exact places, no element is flat, and the sides of the
square are exactly at plus and minus half of the computed length. -/
theorem C149 (native : Endian) (m : MathFns F64) (r s : F64) (ns : Nat) (var : Var) (nbc : Nat) (ib : Bool) (hns : ns * ns ≤ 2 ^ 53)
    (c : F64) (ec : s * r * m.sqrt2 = c) (hc : c.Finite) (h0 : 1 / 2 ^ 900 ≤ c.val) (h1 : c.val ≤ 2 ^ 900) (i j : Nat) (hi : i < ns) (hj : j < ns) :
    let X := fun sx sy d => (Spec.corner ((circleSquareF native m r s ns var nbc ib).el (i + ns * j)) sx sy false d : F64)
    (∀ sx sy, (X sx sy 0).Finite ∧ |(X sx sy 0).val - c.val * (((i + if sx then 1 else 0 : Nat) : ℚ) / ns - 1 / 2)| ≤ c.val / 2 ^ 51) ∧
    (∀ sx sy, (X sx sy 1).Finite ∧ |(X sx sy 1).val - c.val * (((j + if sy then 1 else 0 : Nat) : ℚ) / ns - 1 / 2)| ≤ c.val / 2 ^ 51) ∧
    (∀ sy sy', (X false sy 0).val < (X true sy' 0).val) ∧ (∀ sx sx', (X sx false 1).val < (X sx' true 1).val) ∧
    (∀ sy, (i = 0 → (X false sy 0).val = -(c.val / 2)) ∧ (i + 1 = ns → (X true sy 0).val = c.val / 2)) ∧
    (∀ sx, (j = 0 → (X sx false 1).val = -(c.val / 2)) ∧ (j + 1 = ns → (X sx true 1).val = c.val / 2)) := by
  have n53 : ns ≤ 2 ^ 53 := le_trans (Nat.le_mul_self ns) hns
  have near : ∀ k ≤ ns, _ := fun k hk => squareCoordF_near c hc h0 h1 ns k (by omega) n53 hk
  have c0 := fun sx sy => (squareF_corner native m r s ns var nbc ib i j hi hj sx sy false).1
  have c1 := fun sx sy => (squareF_corner native m r s ns var nbc ib i j hi hj sx sy false).2
  rw [ec] at c0 c1
  dsimp only
  simp only [c0, c1]
  refine ⟨?_, ?_, ?_, ?_, ?_, ?_⟩
  · intro sx _
    obtain ⟨a, b, _⟩ := near (i + if sx then 1 else 0) (by split_ifs <;> omega)
    exact ⟨a, b⟩
  · intro _ sy
    obtain ⟨a, b, _⟩ := near (j + if sy then 1 else 0) (by split_ifs <;> omega)
    exact ⟨a, b⟩
  · intro _ _
    exact squareCoordF_lt c hc h0 h1 ns i hns hi
  · intro _ _
    exact squareCoordF_lt c hc h0 h1 ns j hns hj
  · intro _
    exact ⟨fun h => (near i hi.le).2.2.1 h, fun h => (near (i + 1) hi).2.2.2 h⟩
  · intro _
    exact ⟨fun h => (near j hj.le).2.2.1 h, fun h => (near (j + 1) hj).2.2.2 h⟩

/-- The circle of radius 1 with three elements along the square. -/
example : (Spec.corner ((circleSquareF .little roughMath 1 (1 / 2) 3 ⟨2, 2, 0, 0, 0⟩ 1 true).el 0) false false false 0).val = -((1 / 2 * 1 * roughMath.sqrt2 : F64).val / 2) := by
  have h : (1 / 2 * 1 * roughMath.sqrt2 : F64).Finite ∧ 1 / 2 ^ 1 ≤ (1 / 2 * 1 * roughMath.sqrt2 : F64).val ∧ (1 / 2 * 1 * roughMath.sqrt2 : F64).val ≤ 1 := by
    decide +kernel
  have a : (1 : ℚ) / 2 ^ 900 ≤ 1 / 2 ^ 1 := one_div_le_one_div_of_le (by positivity) (pow_le_pow_right₀ (by norm_num) (by norm_num))
  exact ((C149 .little roughMath 1 (1 / 2) 3 ⟨2, 2, 0, 0, 0⟩ 1 true (by norm_num) _ rfl h.1 (a.trans h.2.1)
    (h.2.2.trans (one_le_pow₀ (by norm_num))) 0 0 (by norm_num) (by norm_num)).2.2.2.2.1 false).1 rfl

/-- **C150.** Opposite coordinates of the square differ in absolute value by little. -/
theorem C150_partial (c : F64) (hc : c.Finite) (h0 : 1 / 2 ^ 900 ≤ c.val) (h1 : c.val ≤ 2 ^ 900) (ns k : Nat) (hns0 : 0 < ns) (hns : ns ≤ 2 ^ 53)
    (hk : k ≤ ns) : |(squareCoordF c ns (ns - k)).val + (squareCoordF c ns k).val| ≤ c.val / 2 ^ 50 ∧
    (k = 0 → (squareCoordF c ns (ns - k)).val = -(squareCoordF c ns k).val) := by
  obtain ⟨_, e1, z1, _⟩ := squareCoordF_near c hc h0 h1 ns k hns0 hns hk
  obtain ⟨_, e2, _, z2⟩ := squareCoordF_near c hc h0 h1 ns (ns - k) hns0 hns (by omega)
  have n0 : (0 : ℚ) < ns := by exact_mod_cast hns0
  refine ⟨?_, fun h => by rw [z1 h, z2 (by omega), neg_neg]⟩
  have d : c.val * (((ns - k : Nat) : ℚ) / ns - 1 / 2) = -(c.val * ((k : ℚ) / ns - 1 / 2)) := by
    rw [Nat.cast_sub hk]
    field_simp
    ring
  rw [d] at e2
  have h2 : c.val / 2 ^ 50 = c.val / 2 ^ 51 + c.val / 2 ^ 51 := by ring
  rw [h2]
  rw [abs_le] at e1 e2 ⊢
  constructor <;> linarith [e1.1, e1.2, e2.1, e2.2]

/-- **C150 is false.** In the circle of radius 1 and ratio 1/2, with the correctly rounded root of two and three elements along a side, the inner
lines of the square are not opposite to each other. -/
theorem C150_false : ∃ M : HexaData F64, M = circleSquareF .little { roughMath with sqrt2 := Flt.sqrt 2 } 1 (1 / 2) 3 ⟨2, 2, 0, 0, 0⟩ 1 true ∧
    (Spec.corner (M.el 2) false false false 0).val ≠ -(Spec.corner (M.el 0) true false false 0).val := by
  refine ⟨_, rfl, ?_⟩
  have a := (squareF_corner .little { roughMath with sqrt2 := Flt.sqrt 2 } 1 (1 / 2) 3 ⟨2, 2, 0, 0, 0⟩ 1 true 2 0 (by norm_num) (by norm_num) false false false).1
  have b := (squareF_corner .little { roughMath with sqrt2 := Flt.sqrt 2 } 1 (1 / 2) 3 ⟨2, 2, 0, 0, 0⟩ 1 true 0 0 (by norm_num) (by norm_num) true false false).1
  rw [Nat.mul_zero, Nat.add_zero] at a b
  rw [a, b]
  decide +kernel

/-- With four elements along the side of the same square. -/
example : |(squareCoordF 1 4 3).val + (squareCoordF 1 4 1).val| ≤ (1 : F64).val / 2 ^ 50 := by
  have h : (1 : F64).Finite ∧ (1 : F64).val = 1 := by decide +kernel
  refine (C150_partial 1 h.1 ?_ ?_ 4 1 (by norm_num) (by norm_num) (by norm_num)).1
  · rw [h.2]
    exact div_le_one_of_le₀ (one_le_pow₀ (by norm_num)) (by positivity)
  · rw [h.2]
    exact one_le_pow₀ (by norm_num)

end Pymech
