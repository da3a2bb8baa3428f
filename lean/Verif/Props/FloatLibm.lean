import Verif.Props.FloatNear

/-!
# C136: a C library that is accurate enough, and meshes for which the check of the distances does not work
-/

set_option autoImplicit false

namespace Pymech

open Spec Flt

/-! ## Correct rounding is accurate enough -/

/-- Error of a rounded root. -/
theorem root_err {q v r : ℚ} (q0 : 0 ≤ q) (h1 : |q ^ 2 - v| ≤ v / 2 ^ 60) (h2 : |r - q| ≤ q / 2 ^ 53 + q / 2 ^ 60) : |r ^ 2 - v| ≤ v / 2 ^ 51 := by
  have a := abs_le.mp h1
  have b := abs_le.mp h2
  norm_num at a b ⊢
  have v0 : 0 ≤ v := by nlinarith [sq_nonneg q]
  obtain ⟨e, rfl⟩ : ∃ e, r = q + e := ⟨r - q, by ring⟩
  have be : |e| ≤ q * (1 / 9007199254740992 + 1 / 1152921504606846976) := by
    refine abs_le.mpr ⟨?_, ?_⟩ <;> linarith
  have b1 : |q * e| ≤ q ^ 2 * (1 / 9007199254740992 + 1 / 1152921504606846976) := by
    rw [abs_mul, abs_of_nonneg q0]
    calc q * |e| ≤ q * (q * (1 / 9007199254740992 + 1 / 1152921504606846976)) := mul_le_mul_of_nonneg_left be q0
      _ = _ := by ring
  have b2 : e ^ 2 ≤ q ^ 2 * (1 / 9007199254740992 + 1 / 1152921504606846976) ^ 2 := by
    rw [← sq_abs]
    calc |e| ^ 2 ≤ (q * (1 / 9007199254740992 + 1 / 1152921504606846976)) ^ 2 := pow_le_pow_left₀ (abs_nonneg e) be 2
      _ = _ := by ring
  have b3 := abs_le.mp b1
  have b4 := sq_nonneg e
  have b5 : q ^ 2 ≤ v + v / 1152921504606846976 := by linarith
  norm_num at b2 b3
  refine abs_le.mpr ⟨?_, ?_⟩ <;> nlinarith

/-- The middle between two neighbours on a fine grid is close to any root between them. -/
theorem mid_err {n s : Nat} {K : ℚ} (hK : 0 < K) (h1 : s * s ≤ n) (h2 : n ≤ s * s + 2 * s) (hs : 2 ^ 61 ≤ s) :
    |((2 * s + 1 : ℚ) / (2 * K)) ^ 2 - n / K ^ 2| ≤ (n / K ^ 2) / 2 ^ 60 := by
  have e : ((2 * s + 1 : ℚ) / (2 * K)) ^ 2 - n / K ^ 2 = (((s : ℚ) + 1 / 2) ^ 2 - n) / K ^ 2 := by field_simp
  have h1' : (s : ℚ) * s ≤ n := by exact_mod_cast h1
  have h2' : (n : ℚ) ≤ s * s + 2 * s := by exact_mod_cast h2
  have hs' : (2 : ℚ) ^ 61 ≤ s := by exact_mod_cast hs
  have hb : |((s : ℚ) + 1 / 2) ^ 2 - (n : ℚ)| ≤ (n : ℚ) / 2 ^ 60 := by
    clear * - h1' h2' hs'
    generalize (s : ℚ) = a at *
    generalize (n : ℚ) = b at *
    norm_num at hs' ⊢
    refine abs_le.mpr ⟨?_, ?_⟩ <;> nlinarith
  rw [e, abs_div, abs_of_pos (pow_pos hK 2)]
  calc |((s : ℚ) + 1 / 2) ^ 2 - (n : ℚ)| / K ^ 2 ≤ ((n : ℚ) / 2 ^ 60) / K ^ 2 := div_le_div_of_nonneg_right hb (pow_pos hK 2).le
    _ = _ := by ring

theorem le_of_sq_leQ {x y : ℚ} (hy : 0 ≤ y) (h : x ^ 2 ≤ y ^ 2) : x ≤ y := (le_abs_self x).trans (abs_le_of_sq_le_sq h hy)

/-- The fraction that is rounded is close to the root. -/
theorem rootQ_near {v : ℚ} {k : Nat} (hk : 0 < k) (hv : v = k * 2 ^ (-1074 : Int)) : 0 < rootQ v ∧ |rootQ v ^ 2 - v| ≤ v / 2 ^ 60 := by
  obtain ⟨K, hK⟩ : ∃ K : ℚ, K = 2 ^ 1200 := ⟨_, rfl⟩
  have K0 : 0 < K := by rw [hK]; positivity
  have hn : v * 2 ^ 2400 = ((k * 2 ^ 1326 : Nat) : ℚ) := by
    rw [hv, mul_assoc, ← zpow_natCast (2 : ℚ) 2400, ← zpow_add₀ (by norm_num), Nat.cast_mul, Nat.cast_pow,
      show ((2 : Nat) : ℚ) = 2 from Nat.cast_ofNat, ← zpow_natCast (2 : ℚ) 1326]
    rfl
  have hfl : (v * 2 ^ 2400).floor.toNat = k * 2 ^ 1326 := by
    have : (v * 2 ^ 2400).floor = ((k * 2 ^ 1326 : Nat) : Int) := by
      rw [hn]
      exact Int.floor_natCast (R := ℚ) _
    rw [this]
    rfl
  obtain ⟨n, hn'⟩ : ∃ n : Nat, n = k * 2 ^ 1326 := ⟨_, rfl⟩
  have hvn : v = n / K ^ 2 := by
    rw [hn', ← hn, hK, ← pow_mul, mul_div_assoc, div_self (by positivity), mul_one]
  have hs : 2 ^ 61 ≤ Nat.sqrt n := by
    rw [Nat.le_sqrt, hn', ← pow_add]
    exact (Nat.pow_le_pow_right (by norm_num) (by norm_num)).trans (Nat.le_mul_of_pos_left _ hk)
  have hK1 : (2 : ℚ) ^ 1201 = 2 * K := by rw [hK, pow_succ]; ring
  have hr : rootQ v = if Nat.sqrt n * Nat.sqrt n = n then (Nat.sqrt n : ℚ) / K else (2 * Nat.sqrt n + 1 : ℚ) / (2 * K) := by
    rw [← hK1, hK, hn', ← hfl]
    rfl
  have s0 : (0 : ℚ) < Nat.sqrt n := by exact Nat.cast_pos.mpr (lt_of_lt_of_le (Nat.two_pow_pos 61) hs)
  have v0 : 0 ≤ v := hvn ▸ div_nonneg (Nat.cast_nonneg n) (sq_nonneg K)
  rw [hr]
  by_cases h : Nat.sqrt n * Nat.sqrt n = n
  · rw [if_pos h]
    refine ⟨div_pos s0 K0, ?_⟩
    have : ((Nat.sqrt n : ℚ) / K) ^ 2 = v := by
      rw [hvn, div_pow, sq (Nat.sqrt n : ℚ)]
      congr 1
      exact_mod_cast h
    rw [this, _root_.sub_self, abs_zero]
    exact div_nonneg v0 (by positivity)
  · rw [if_neg h, hvn]
    refine ⟨div_pos (by linarith) (by positivity), mid_err K0 (Nat.sqrt_le n) ?_ hs⟩
    have := Nat.sqrt_le_add n
    omega

theorem val_lt (x : F64) (hx : x.Finite) : |x.val| ≤ 2 ^ 1024 := by
  rw [abs_val]
  have h : magVal 11 52 (infMag 11 52) = 2 ^ 1024 := by decide +kernel
  rw [← h]
  exact (magVal_lt hx).le

/-- Products and roots that are rounded correctly satisfy the demands of C136. -/
theorem libm_accurate : LibmAccurate libm := by
  refine ⟨fun x hx h => ?_, fun x hx h => ?_⟩
  · change (x * x).Finite ∧ 0 ≤ (x * x).val ∧ |(x * x).val - x.val ^ 2| ≤ _
    have hs : |x.val * x.val| ≤ 2 ^ 1000 := by
      rw [abs_mul]
      calc |x.val| * |x.val| ≤ 2 ^ 450 * 2 ^ 450 := mul_le_mul h h (abs_nonneg _) (by positivity)
        _ = 2 ^ 900 := by rw [← pow_add]
        _ ≤ 2 ^ 1000 := pow_le_pow_right₀ (by norm_num) (by norm_num)
    rw [mul_fin hx hx]
    refine ⟨ofQ_fin _ _ hs, ?_, ?_⟩
    · have := ofQ_mono false (x.neg ^^ x.neg) 0 (x.val * x.val) (mul_self_nonneg _)
      rwa [show (ofQ false 0).val = 0 by decide +kernel] at this
    · have e := ofQ_err (x.neg ^^ x.neg) _ hs
      rw [abs_of_nonneg (mul_self_nonneg x.val), ← sq] at e
      rw [← sq]
      refine e.trans (add_le_add ?_ ?_)
      · exact div_le_div_of_nonneg_left (sq_nonneg _) (by positivity) (pow_le_pow_right₀ (by norm_num) (by norm_num))
      · exact one_div_le_one_div_of_le (by positivity) (pow_le_pow_right₀ (by norm_num) (by norm_num))
  · change (Flt.sqrt x).Finite ∧ 0 ≤ (Flt.sqrt x).val ∧ |(Flt.sqrt x).val ^ 2 - x.val| ≤ _
    unfold Flt.sqrt
    rw [if_neg (not_nan hx)]
    by_cases h0 : x.mag = 0
    · rw [if_pos h0]
      have := (val_zero_iff x).mpr h0
      rw [this]
      exact ⟨hx, le_rfl, by norm_num⟩
    · have hneg : ¬ (x.neg = true) := fun hn => absurd ((val_neg_iff x).mpr ⟨hn, h0⟩) (not_lt.2 h)
      rw [if_neg h0, if_neg hneg, if_pos hx]
      obtain ⟨k, hk⟩ := val_multiple x
      have v0 : 0 < x.val := lt_of_le_of_ne h (fun e => h0 ((val_zero_iff x).mp e.symm))
      have kpos : 0 < k := by
        rw [hk] at v0
        have : (0 : ℚ) < k := pos_of_mul_pos_left v0 (by positivity)
        exact_mod_cast this
      obtain ⟨m, rfl⟩ := Int.eq_ofNat_of_zero_le kpos.le
      have mpos : 0 < m := by exact_mod_cast kpos
      have hk' : x.val = (m : ℚ) * 2 ^ (-1074 : Int) := by rw [hk]; norm_cast
      obtain ⟨r0, r1⟩ := rootQ_near mpos hk'
      have hb := val_lt x hx
      rw [abs_of_pos v0] at hb
      have vlow : 1 / 2 ^ 1074 ≤ x.val := by
        rw [hk', zpow_neg, ← zpow_natCast, one_div]
        exact le_mul_of_one_le_left (by positivity) (by exact_mod_cast mpos)
      generalize rootQ x.val = q at r0 r1 ⊢
      generalize x.val = v at v0 hb vlow r1 ⊢
      have r1' := abs_le.mp r1
      have vhalf : v / 2 ^ 60 ≤ v / 2 := div_le_div_of_nonneg_left v0.le (by norm_num) (by norm_num)
      have up : q ^ 2 ≤ 2 * v := by linarith [r1'.2]
      have lo : v / 2 ≤ q ^ 2 := by linarith [r1'.1]
      have qb : |q| ≤ 2 ^ 1000 := by
        rw [abs_of_pos r0]
        refine le_of_sq_leQ (by positivity) (up.trans ?_)
        calc 2 * v ≤ 2 * 2 ^ 1024 := by linarith
          _ = 2 ^ 1025 := by rw [pow_succ (2 : ℚ) 1024]; ring
          _ ≤ (2 ^ 1000) ^ 2 := by rw [← pow_mul]; exact pow_le_pow_right₀ (by norm_num) (by norm_num)
      have ql : 1 / 2 ^ 1075 ≤ q / 2 ^ 60 := by
        rw [le_div_iff₀ (by positivity)]
        refine le_of_sq_leQ r0.le (le_trans ?_ lo)
        calc ((1 : ℚ) / 2 ^ 1075 * 2 ^ 60) ^ 2 = 2 ^ 120 / 2 ^ 2150 := by rw [mul_pow, div_pow, one_pow, ← pow_mul, ← pow_mul]; ring
          _ ≤ 1 / 2 ^ 1075 := by
            rw [div_le_div_iff₀ (by positivity) (by positivity), one_mul, ← pow_add]
            exact pow_le_pow_right₀ (by norm_num) (by norm_num)
          _ = 1 / 2 ^ 1074 / 2 := by rw [div_div, ← pow_succ]
          _ ≤ v / 2 := div_le_div_of_nonneg_right vlow (by norm_num)
      refine ⟨ofQ_fin _ _ qb, ?_, ?_⟩
      · have := ofQ_mono false false 0 q r0.le
        rwa [show (ofQ false 0).val = 0 by decide +kernel] at this
      · have e := ofQ_err false q qb
        rw [abs_of_pos r0] at e
        exact root_err r0.le r1 (e.trans (add_le_add_right ql _))

/-! ## Meshes -/

namespace Samples

/-- Two squares: one from `a` to `b` in x, one from `c` to `d`, both from `a` to `b` in y. Face 1 of the first is linked to face 3 of the second. -/
def pairF (a b c d : F64) : HexaData F64 :=
  let el (x0 x1 : F64) (bcs : Nat → Nat → BC F64) : Elem F64 := { (Elem.new 0 0 0 2 2 1 1 : Elem F64) with
    pos := ⟨3, 1, 2, 2, fun i _ j k => if i = 0 then (if k = 0 then x0 else x1) else if i = 1 then (if j = 0 then a else b) else 0⟩
    bcs := bcs }
  { (HexaData.new .little 2 2 ⟨2, 2, 1, false⟩ ⟨2, 0, 0, 0, 0⟩ 1 : HexaData F64) with
    elem := [el a b (fun _ f => if f = 1 then ⟨nE, 1, 2, ((2 : Nat) : F64), ((4 : Nat) : F64), 0, 0, 0⟩ else ⟨['W'], 1, 0, 0, 0, 0, 0, 0⟩),
      el c d (fun _ f => if f = 3 then ⟨nE, 2, 4, ((1 : Nat) : F64), ((2 : Nat) : F64), 0, 0, 0⟩ else ⟨['W'], 2, 0, 0, 0, 0, 0, 0⟩)] }

theorem pairF_wff (a b c d : F64) : WFF (pairF a b c d) := by
  refine ⟨rfl, ?_, Or.inl rfl, ?_⟩
  · intro el h
    rcases List.mem_pair.mp h with rfl | rfl <;> rfl
  · intro el h
    rcases List.mem_pair.mp h with rfl | rfl <;> exact ⟨le_rfl, le_rfl, le_rfl⟩

theorem pairF_tame {a b c d : F64} {X : ℚ} (h : ∀ x ∈ [a, b, c, d], x.Finite ∧ |x.val| ≤ X) (hX : 0 ≤ X) : Tame (pairF a b c d) X := by
  have z : (0 : F64).Finite ∧ |(0 : F64).val| ≤ X := by
    rw [zeroF_val, abs_zero]
    exact ⟨by decide +kernel, hX⟩
  have ha := h a (by simp)
  have hb := h b (by simp)
  have hc := h c (by simp)
  have hd := h d (by simp)
  intro el hel i hi k hk j hj m hm
  rcases List.mem_pair.mp hel with rfl | rfl
  all_goals
    dsimp only
    split_ifs <;> assumption

/-- 0.001, 2, 1e200, 5e200, 6e200, 1e-200, 5e-200, 6e-200. -/
def milli : F64 := ofBits 0x3F50624DD2F1A9FC
def two : F64 := ofBits 0x4000000000000000
def big1 : F64 := ofBits 0x6974E718D7D7625A
def big5 : F64 := ofBits 0x699A20DF0DCD3AF1
def big6 : F64 := ofBits 0x699F5AA543C31387
def tiny1 : F64 := ofBits 0x16687E92154EF7AC
def tiny5 : F64 := ofBits 0x168E9E369AA2B597
def tiny6 : F64 := ofBits 0x16925EED8FFB39C1

/-- Two unit squares side by side are accepted, and C136 applies. -/
example : (pairF f0 one one two).checkConnectivityF libm milli = .ok true ∧
    LinkedF (pairF f0 one one two) (NearUpTo (pairF f0 one one two) 2 milli.val) := by
  have h : (pairF f0 one one two).checkConnectivityF libm milli = .ok true := by decide +kernel
  refine ⟨h, (C136_partial libm libm_accurate _ (pairF_wff _ _ _ _) 2 ?_ (pairF_tame ?_ (by norm_num)) milli (by decide +kernel) (by decide +kernel) ?_).1 h⟩
  · exact (pow_one (2 : ℚ)).symm.le.trans (pow_le_pow_right₀ (by norm_num) (by norm_num))
  · decide +kernel
  · exact (show milli.val ≤ 1 by decide +kernel).trans (one_le_pow₀ (by norm_num))

/-- A gap of one tenth is refused. -/
example : (pairF f0 one (ofBits 0x3FF199999999999A) two).checkConnectivityF libm milli = .error .valueError := by decide +kernel

/-- An infinite element number raises, and so does one that is not a number. -/
example : truncF (ofBits 0x7FF0000000000000) = .error .overflow ∧ truncF nan = .error .valueError := by decide +kernel

end Samples

namespace Spec

/-- The centres of two faces are further apart in x than three times the smallest edge of each of their elements. -/
def FarApartF (M : HexaData F64) (x y : Face) : Prop :=
  ∃ s0 s1 : ℚ, (M.el x.1).vals.smallestEdgeSq = .ok s0 ∧ (M.el y.1).vals.smallestEdgeSq = .ok s1 ∧
    9 * max s0 s1 < (faceMean (M.el y.1).vals y.2 0 - faceMean (M.el x.1).vals x.2 0) ^ 2

end Spec

open Samples

/-- **C136 is false in the code.** With a correctly rounding library and the tolerance 0.001 two squares that are three and more edges apart
pass, with all coordinates finite: if they are very large (the squares overflow, and `inf > inf` is false) and if they are very small (the
squares vanish). Coordinates of the face that are not numbers hide any distance. -/
theorem C136_false :
    (∃ M : HexaData F64, WFF M ∧ Tame M (2 ^ 670) ∧ (M.bc 0 0 1).typ = nE ∧ PointsToF (M.bc 0 0 1) (1, 3) ∧ FarApartF M (0, 1) (1, 3) ∧
      M.checkConnectivityF libm milli = .ok true) ∧
    (∃ M : HexaData F64, WFF M ∧ Tame M 1 ∧ (M.bc 0 0 1).typ = nE ∧ PointsToF (M.bc 0 0 1) (1, 3) ∧ FarApartF M (0, 1) (1, 3) ∧
      M.checkConnectivityF libm milli = .ok true) ∧
    (∃ M : HexaData F64, WFF M ∧ (M.bc 0 0 1).typ = nE ∧ PointsToF (M.bc 0 0 1) (1, 3) ∧
      (∀ j < 2, ∀ i < 2, ((M.el 0).pos.dat 0 0 j i).val ≤ 1) ∧ (∀ j < 2, ((M.el 1).pos.dat 0 0 j 0).IsNaN) ∧ (∀ j < 2, ((M.el 1).pos.dat 0 0 j 1).val = 5) ∧
      M.checkConnectivityF libm milli = .ok true) := by
  refine ⟨⟨pairF f0 big1 big5 big6, pairF_wff _ _ _ _, pairF_tame ?_ (by positivity), rfl, ?_, ?_, ?_⟩,
    ⟨pairF f0 tiny1 tiny5 tiny6, pairF_wff _ _ _ _, pairF_tame ?_ (by norm_num), rfl, ?_, ?_, ?_⟩,
    ⟨pairF f0 one nan (ofBits 0x4014000000000000), pairF_wff _ _ _ _, rfl, ?_, ?_, ?_, ?_, ?_⟩⟩
  · decide +kernel
  · exact ⟨by decide +kernel, by decide +kernel, by decide +kernel, by decide +kernel⟩
  · exact ⟨big1.val ^ 2, (big6.val - big5.val) ^ 2, by decide +kernel, by decide +kernel, by decide +kernel⟩
  · decide +kernel
  · decide +kernel
  · exact ⟨by decide +kernel, by decide +kernel, by decide +kernel, by decide +kernel⟩
  · exact ⟨tiny1.val ^ 2, (tiny6.val - tiny5.val) ^ 2, by decide +kernel, by decide +kernel, by decide +kernel⟩
  · decide +kernel
  · exact ⟨by decide +kernel, by decide +kernel, by decide +kernel, by decide +kernel⟩
  · decide +kernel
  · decide +kernel
  · decide +kernel
  · decide +kernel

end Pymech
