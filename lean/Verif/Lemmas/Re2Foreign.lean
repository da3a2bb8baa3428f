import Verif.Lemmas.Re2Round

/-!
# What `readre2` keeps while it reads boundary conditions, and counts in the wrong byte order
-/

namespace Pymech

open Spec

/-! ### Counts in the wrong byte order -/

/-- The two lowest bytes of a small integer stored as a double are zero. -/
theorem natF64_low (n : Nat) (hn : n < 2 ^ 36) : (natF64 n).bits % 2 ^ 16 = 0 := by
  rcases Nat.eq_zero_or_pos n with rfl | hpos
  · rw [natF64_zero_bits]; decide
  · have hlog : Nat.log 2 n < 36 := Nat.log_lt_of_lt_pow (by omega) hn
    have hlo := Nat.pow_log_le_self 2 (x := n) (by omega)
    have hhi := Nat.lt_pow_succ_log_self (b := 2) (by omega) n
    generalize Nat.log 2 n = l at hlog hlo hhi
    obtain ⟨s, hs⟩ : ∃ s, s + l = 36 := ⟨36 - l, by omega⟩
    have e1 : 2 ^ l * (2 ^ s * 2 ^ 16) = 2 ^ 52 := by rw [← pow_add, ← pow_add]; congr 1; omega
    have h1 : 2 ^ 52 ≤ n * (2 ^ s * 2 ^ 16) := by rw [← e1]; exact Nat.mul_le_mul_right _ hlo
    have h2 : n * (2 ^ s * 2 ^ 16) < 2 ^ 53 := by
      have : 2 ^ (l + 1) * (2 ^ s * 2 ^ 16) = 2 ^ 53 := by rw [← pow_add, ← pow_add]; congr 1; omega
      rw [← this]
      exact Nat.mul_lt_mul_of_pos_right hhi (by positivity)
    have hm := Flt.magVal_assemble (eb := 11) (mb := 52) (1058 - s) (n * (2 ^ s * 2 ^ 16)) (by omega) (.inr h1)
    have hv : ((n * (2 ^ s * 2 ^ 16) : Nat) : ℚ) * 2 ^ (Flt.minExp 11 52 + ((1058 - s : Nat) : Int)) = n := by
      rw [Flt.minExp64, Nat.cast_sub (by omega)]
      rw [← pow_add, Nat.cast_mul, Nat.cast_pow, Nat.cast_ofNat, mul_assoc, ← zpow_natCast, ← zpow_add₀ (by norm_num)]
      have : (((s + 16 : Nat) : Int) + (-1074 + (((1058 : Nat) : Int) - (s : Int)))) = 0 := by push_cast; ring
      rw [this]; simp
    rw [hv] at hm
    have hinf : (1058 - s) * 2 ^ 52 + n * (2 ^ s * 2 ^ 16) < Flt.infMag 11 52 := by rw [Flt.infMag64]; omega
    have hmag : (natF64 n).mag = (1058 - s) * 2 ^ 52 + n * (2 ^ s * 2 ^ 16) := by
      show Flt.roundMag 11 52 (n : ℚ) = _
      rw [← hm, Flt.roundMag_magVal _ hinf]
    have hb : (natF64 n).bits = 0 + (natF64 n).mag := rfl
    rw [hb, hmag, ← Nat.mul_assoc]
    generalize n * 2 ^ s = q
    omega

theorem leNat_rev8 (v : Nat) (hv : v % 2 ^ 16 = 0) : leNat (leBytes 8 v).reverse < 2 ^ 48 := by
  have h0 : v % 256 = 0 := by omega
  have h1 : v / 256 % 256 = 0 := by omega
  simp only [leBytes, List.reverse_cons, List.reverse_nil, List.nil_append, List.cons_append, leNat, h0, h1]
  have hb := fun x : UInt8 => x.toNat_lt
  generalize UInt8.ofNat (v / 256 / 256 % 256) = a2
  generalize UInt8.ofNat (v / 256 / 256 / 256 % 256) = a3
  generalize UInt8.ofNat (v / 256 / 256 / 256 / 256 % 256) = a4
  generalize UInt8.ofNat (v / 256 / 256 / 256 / 256 / 256 % 256) = a5
  generalize UInt8.ofNat (v / 256 / 256 / 256 / 256 / 256 / 256 % 256) = a6
  generalize UInt8.ofNat (v / 256 / 256 / 256 / 256 / 256 / 256 / 256 % 256) = a7
  have := hb a2; have := hb a3; have := hb a4; have := hb a5; have := hb a6; have := hb a7
  have e0 : (UInt8.ofNat 0).toNat = 0 := rfl
  rw [e0]
  omega

/-- A small count in the wrong byte order is read as zero. -/
theorem countAt_foreign (native e : Endian) (hne : native ≠ e) (n : Nat) (hn : n < 2 ^ 36) :
    countAt native (encW e 8 (natF64 n).bits) = .ok 0 := by
  have hlt : decW native (encW e 8 (natF64 n).bits) < 2 ^ 48 := by
    cases native <;> cases e <;> first | exact absurd rfl hne | exact leNat_rev8 _ (natF64_low n hn)
  generalize hw : decW native (encW e 8 (natF64 n).bits) = w at hlt
  unfold countAt
  rw [if_neg (by rw [encW_length]; simp), hw]
  have hmag : (Flt.ofBits w : F64).mag = w := by
    show w % 2 ^ (11 + 52) = w
    exact Nat.mod_eq_of_lt (by omega)
  have hneg : (Flt.ofBits w : F64).neg = false := by
    show decide (w / 2 ^ (11 + 52) % 2 = 1) = false
    rw [Nat.div_eq_of_lt (by omega)]
    rfl
  have hfin : (Flt.ofBits w : F64).Finite := by
    unfold Flt.Finite
    rw [hmag, Flt.infMag64]
    omega
  have hval : (Flt.ofBits w : F64).val = (w : ℚ) * 2 ^ (-1074 : Int) := by
    unfold Flt.val
    rw [hneg, hmag]
    obtain ⟨k, m, h1, h2 | h2⟩ := Flt.magVal_form (eb := 11) (mb := 52) w
    · obtain ⟨-, rfl, rfl⟩ := h2
      rw [h1, Flt.minExp64]
      simp
    · omega
  have a2 : (0 : ℚ) < 2 ^ (-1074 : Int) := Flt.zpow2_pos _
  have h0 : (0 : ℚ) ≤ (w : ℚ) * 2 ^ (-1074 : Int) := mul_nonneg (Nat.cast_nonneg _) a2.le
  have h1 : (w : ℚ) * 2 ^ (-1074 : Int) < 1 := by
    have a1 : (w : ℚ) < 2 ^ (48 : Int) := by exact_mod_cast hlt
    calc (w : ℚ) * 2 ^ (-1074 : Int) < 2 ^ (48 : Int) * 2 ^ (-1074 : Int) := mul_lt_mul_of_pos_right a1 a2
      _ = 2 ^ (-1026 : Int) := by rw [← zpow_add₀ (by norm_num)]; norm_num
      _ ≤ 2 ^ (0 : Int) := zpow_le_zpow_right₀ (by norm_num) (by norm_num)
      _ = 1 := by norm_num
  unfold f64Int
  rw [if_pos hfin, hval]
  unfold trunc
  rw [if_pos h0, Int.floor_eq_zero_iff.mpr ⟨h0, h1⟩]

/-! ### What is kept -/

/-- `M'` has the dimensions, counts, coordinates and curved edges of `M`. -/
structure KeepGeom (M M' : HexaData F64) : Prop where
  ndim : M'.ndim = M.ndim
  nel : M'.nel = M.nel
  ncurv : M'.ncurv = M.ncurv
  len : M'.elem.length = M.elem.length
  pos : ∀ i, (M'.el i).pos = (M.el i).pos
  curv : ∀ i, (M'.el i).curv = (M.el i).curv
  ccurv : ∀ i, (M'.el i).ccurv = (M.el i).ccurv

theorem KeepGeom.refl (M : HexaData F64) : KeepGeom M M := ⟨rfl, rfl, rfl, rfl, fun _ => rfl, fun _ => rfl, fun _ => rfl⟩

theorem KeepGeom.trans {A B C : HexaData F64} (h : KeepGeom A B) (h' : KeepGeom B C) : KeepGeom A C :=
  ⟨h'.ndim.trans h.ndim, h'.nel.trans h.nel, h'.ncurv.trans h.ncurv, h'.len.trans h.len, fun i => (h'.pos i).trans (h.pos i),
    fun i => (h'.curv i).trans (h.curv i), fun i => (h'.ccurv i).trans (h.ccurv i)⟩

theorem el_out (M : HexaData F64) (i : Nat) (h : ¬ i < M.elem.length) : M.el i = Elem.blank := by
  unfold HexaData.el
  rw [List.getD_eq_getElem?_getD, List.getElem?_eq_none (by omega)]
  rfl

theorem el_map (M : HexaData F64) (n : Nat) (g : Elem F64 → Elem F64) (i : Nat) (h : i < M.elem.length) :
    ({ M with nbc := n, elem := M.elem.map g } : HexaData F64).el i = g (M.el i) := by
  unfold HexaData.el
  simp only [List.getD_eq_getElem?_getD, List.getElem?_map, List.getElem?_eq_getElem h]
  rfl

theorem keep_addField (M : HexaData F64) : KeepGeom M M.addField := by
  have hl : M.addField.elem.length = M.elem.length := by simp [HexaData.addField]
  have he : ∀ i, i < M.elem.length → M.addField.el i = (M.el i).addRow := fun i h => el_map M _ _ i h
  refine ⟨rfl, rfl, rfl, hl, fun i => ?_, fun i => ?_, fun i => ?_⟩ <;>
  · by_cases h : i < M.elem.length
    · rw [he i h]; rfl
    · rw [el_out _ i h, el_out _ i (by rw [hl]; exact h)]

theorem modBC_len (M : HexaData F64) (i b k : Nat) (g : BC F64 → BC F64) : (M.modBC i b k g).elem.length = M.elem.length := by
  unfold HexaData.modBC
  simp

theorem keep_modBC (M : HexaData F64) (i b k : Nat) (g : BC F64 → BC F64) : KeepGeom M (M.modBC i b k g) := by
  have hl : (M.modBC i b k g).elem.length = M.elem.length := modBC_len M i b k g
  refine ⟨rfl, rfl, rfl, hl, fun j => ?_, fun j => ?_, fun j => ?_⟩ <;>
  · by_cases h : j < M.elem.length
    · rw [modBC_el' M i b k j g h]
      split <;> rfl
    · rw [el_out _ j h, el_out _ j (by rw [hl]; exact h)]

/-- The effect of one record. -/
theorem putBC_form (native e : Endian) (b : Nat) (M M' : HexaData F64) (w : Bytes) (h : putBC native e b M w = .ok M') :
    ∃ i k g, M' = M.modBC i b k g := by
  unfold putBC at h
  split at h
  · exact absurd h (by simp)
  · cases h1 : f64Int (recNum e w 0) with
    | error _ => simp [h1, bind, Except.bind] at h
    | ok v1 =>
    cases h2 : f64Int (recNum e w 1) with
    | error _ => simp [h1, h2, bind, Except.bind] at h
    | ok v2 =>
    cases h3 : decodeAscii (recRaw native e w) with
    | error _ => simp [h1, h2, h3, bind, Except.bind] at h
    | ok v3 =>
    cases h4 : pyIndex M.elem.length (v1 - 1) with
    | error _ => simp [h1, h2, h3, h4, bind, Except.bind] at h
    | ok v4 =>
    cases h5 : pyIndex 6 (v2 - 1) with
    | error _ => simp [h1, h2, h3, h4, h5, bind, Except.bind] at h
    | ok v5 =>
      simp only [h1, h2, h3, h4, h5, bind, Except.bind, pure, Except.pure, Except.ok.injEq] at h
      exact ⟨_, _, _, h.symm⟩

theorem foldBC_keep (native e : Endian) (b : Nat) (l : List Bytes) (M M' : HexaData F64) (h : l.foldlM (putBC native e b) M = .ok M') :
    KeepGeom M M' ∧ ∀ i b', b' ≠ b → (M'.el i).bcs b' = (M.el i).bcs b' := by
  induction l generalizing M with
  | nil =>
    simp only [List.foldlM_nil, pure, Except.pure, Except.ok.injEq] at h
    subst h
    exact ⟨KeepGeom.refl M, fun _ _ _ => rfl⟩
  | cons w l ih =>
    rw [List.foldlM_cons] at h
    cases h1 : putBC native e b M w with
    | error _ => simp [h1, bind, Except.bind] at h
    | ok M1 =>
      simp only [h1, bind, Except.bind] at h
      obtain ⟨i, k, g, rfl⟩ := putBC_form _ _ _ _ _ _ h1
      obtain ⟨a1, a2⟩ := ih _ h
      refine ⟨(keep_modBC M i b k g).trans a1, fun j b' hb => (a2 j b' hb).trans ?_⟩
      by_cases hj : j < M.elem.length
      · rw [modBC_el' M i b k j g hj]
        split
        · funext f
          simp [Elem.modBC, hb]
        · rfl
      · rw [el_out _ j hj, el_out _ j (by rw [modBC_len]; exact hj)]

theorem readFields_keep (native e : Endian) (fuel k : Nat) (rest : Bytes) (M M' : HexaData F64)
    (h : readFields native e fuel k rest M = .ok M') : KeepGeom M M' := by
  induction fuel generalizing k rest M with
  | zero => simp [readFields] at h
  | succ fuel ih =>
    unfold readFields at h
    split at h
    · simp only [Except.ok.injEq] at h
      subst h
      exact KeepGeom.refl M
    · cases h1 : countAt native (rest.take 8) with
      | error _ => simp [h1, bind, Except.bind] at h
      | ok n =>
        simp only [h1, bind, Except.bind] at h
        split at h
        · exact absurd h (by simp)
        · rename_i M1 h2
          have k1 := (foldBC_keep _ _ _ _ _ _ h2).1
          have k0 : KeepGeom M (if k > 0 then M.addField else M) := by
            split
            · exact keep_addField M
            · exact KeepGeom.refl M
          exact (k0.trans k1).trans (ih _ _ _ h)

/-- All elements have at least one row of boundary conditions. -/
def OneRow (M : HexaData F64) : Prop := ∀ i < M.elem.length, 1 ≤ (M.el i).rows

theorem foldBC_rows (native e : Endian) (b : Nat) (l : List Bytes) (M M' : HexaData F64) (h : l.foldlM (putBC native e b) M = .ok M')
    (hr : OneRow M) : OneRow M' := by
  induction l generalizing M with
  | nil =>
    simp only [List.foldlM_nil, pure, Except.pure, Except.ok.injEq] at h
    subst h
    exact hr
  | cons w l ih =>
    rw [List.foldlM_cons] at h
    cases h1 : putBC native e b M w with
    | error _ => simp [h1, bind, Except.bind] at h
    | ok M1 =>
      simp only [h1, bind, Except.bind] at h
      obtain ⟨i, k, g, rfl⟩ := putBC_form _ _ _ _ _ _ h1
      refine ih _ h fun j hj => ?_
      have hj : j < M.elem.length := by rwa [modBC_len] at hj
      rw [modBC_el' M i b k j g hj]
      split
      · exact hr j hj
      · exact hr j hj

/-- Fields after the first one do not touch the first one. -/
theorem readFields_first (native e : Endian) (fuel k : Nat) (hk : 0 < k) (rest : Bytes) (M M' : HexaData F64) (hr : OneRow M)
    (h : readFields native e fuel k rest M = .ok M') (i : Nat) : (M'.el i).bcs 0 = (M.el i).bcs 0 := by
  induction fuel generalizing k rest M with
  | zero => simp [readFields] at h
  | succ fuel ih =>
    unfold readFields at h
    split at h
    · simp only [Except.ok.injEq] at h
      subst h
      rfl
    · cases h1 : countAt native (rest.take 8) with
      | error _ => simp [h1, bind, Except.bind] at h
      | ok n =>
        simp only [h1, bind, Except.bind] at h
        split at h
        · exact absurd h (by simp)
        · rename_i M1 h2
          have hr0 : OneRow M.addField := by
            intro j hj
            have hj : j < M.elem.length := by simpa [HexaData.addField] using hj
            have : M.addField.el j = (M.el j).addRow := el_map M _ _ j hj
            rw [this]
            exact Nat.le_add_left _ _
          rw [ih (k + 1) (by omega) _ _ (foldBC_rows _ _ _ _ _ _ h2 hr0) h, (foldBC_keep _ _ _ _ _ _ h2).2 i 0 (by omega)]
          by_cases hi : i < M.elem.length
          · have : M.addField.el i = (M.el i).addRow := el_map M _ _ i hi
            rw [this]
            funext f
            have := hr i hi
            have h0 : ¬ 0 = (M.el i).rows := by omega
            simp [Elem.addRow, h0]
          · rw [el_out _ i hi, el_out _ i (by simpa [HexaData.addField] using hi)]

theorem putCurve_form (native e : Endian) (M M' : HexaData F64) (w : Bytes) (h : putCurve native e M w = .ok M') :
    M'.ndim = M.ndim ∧ M'.nel = M.nel ∧ M'.ncurv = M.ncurv ∧ M'.nbc = M.nbc := by
  unfold putCurve at h
  split at h
  · exact absurd h (by simp)
  · cases h1 : f64Int (recNum e w 0) with
    | error _ => simp [h1, bind, Except.bind] at h
    | ok v1 =>
    cases h2 : f64Int (recNum e w 1) with
    | error _ => simp [h1, h2, bind, Except.bind] at h
    | ok v2 =>
    cases h3 : decodeAscii ((recRaw native e w).take 1) with
    | error _ => simp [h1, h2, h3, bind, Except.bind] at h
    | ok v3 =>
    cases h4 : pyIndex M.elem.length (v1 - 1) with
    | error _ => simp [h1, h2, h3, h4, bind, Except.bind] at h
    | ok v4 =>
    cases h5 : pyIndex 12 (v2 - 1) with
    | error _ => simp [h1, h2, h3, h4, h5, bind, Except.bind] at h
    | ok v5 =>
      simp only [h1, h2, h3, h4, h5, bind, Except.bind, pure, Except.pure, Except.ok.injEq] at h
      subst h
      exact ⟨rfl, rfl, rfl, rfl⟩

theorem foldCurve_keep (native e : Endian) (l : List Bytes) (M M' : HexaData F64) (h : l.foldlM (putCurve native e) M = .ok M') :
    M'.ndim = M.ndim ∧ M'.nel = M.nel ∧ M'.ncurv = M.ncurv ∧ M'.nbc = M.nbc := by
  induction l generalizing M with
  | nil =>
    simp only [List.foldlM_nil, pure, Except.pure, Except.ok.injEq] at h
    subst h
    exact ⟨rfl, rfl, rfl, rfl⟩
  | cons w l ih =>
    rw [List.foldlM_cons] at h
    cases h1 : putCurve native e M w with
    | error _ => simp [h1, bind, Except.bind] at h
    | ok M1 =>
      simp only [h1, bind, Except.bind] at h
      obtain ⟨a1, a2, a3, a4⟩ := putCurve_form _ _ _ _ _ h1
      obtain ⟨b1, b2, b3, b4⟩ := ih _ h
      exact ⟨b1.trans a1, b2.trans a2, b3.trans a3, b4.trans a4⟩

end Pymech
