import Verif.Props.Header

/-!
# The byte-order tag: C13
-/

namespace Pymech

/-- The tag arithmetic in double precision is exact enough: it selects the numbers in `[6.54321, 6.54322)`. -/
theorem isTag_iff (x : F32) (hx : x.Finite) :
    isTag x = .ok (decide (654321 / 100000 ≤ x.val ∧ x.val < 654322 / 100000)) := by
  -- the product is exact
  have hex : ∃ m < Flt.infMag 11 52, Flt.magVal 11 52 m = Flt.magVal 8 23 x.mag * 100000 := by
    obtain ⟨k, n, hv, hc⟩ := Flt.magVal_form (eb := 8) (mb := 23) x.mag
    have hm : x.mag < 2139095040 := by rw [← Flt.infMag32]; exact hx
    have hk : k ≤ 254 ∧ n < 2 ^ 24 := by omega
    obtain ⟨m, hm1, hm2⟩ := Flt.exists_mag (eb := 11) (mb := 52) (n * 100000) (Flt.minExp 8 23 + k) (by omega)
      (by rw [Flt.minExp32, Flt.minExp64]; omega) (by rw [Flt.minExp32, Flt.minExp64]; omega)
    refine ⟨m, hm1, ?_⟩
    rw [hm2, hv]; push_cast; ring
  obtain ⟨m, hm, hmv⟩ := hex
  have hprod : (Flt.ofRat x.neg (Flt.magVal 8 23 x.mag * 100000) : F64).val = x.val * 100000 := by
    show (if x.neg then -Flt.magVal 11 52 (Flt.roundMag 11 52 (Flt.magVal 8 23 x.mag * 100000)) else
      Flt.magVal 11 52 (Flt.roundMag 11 52 (Flt.magVal 8 23 x.mag * 100000))) = _
    rw [← hmv, Flt.roundMag_magVal m hm, hmv, Flt.val]
    split <;> ring
  -- the integer decides
  have hint : ∀ n : Int, (Flt.ofRat (Flt.ofRat (eb := 11) (mb := 52) (decide (n < 0)) n.natAbs).neg
      (Flt.magVal 11 52 (Flt.ofRat (eb := 11) (mb := 52) (decide (n < 0)) n.natAbs).mag / 100000) = tagValue) ↔ n = 654321 := by
    intro n
    constructor
    · intro h
      have h1 : decide (n < 0) = false := congrArg Flt.neg h
      have h2 : Flt.roundMag 11 52 (Flt.magVal 11 52 (Flt.roundMag 11 52 (n.natAbs : ℚ)) / 100000) =
        Flt.roundMag 11 52 (654321 / 100000) := congrArg Flt.mag h
      have h0 : 0 ≤ n := by simpa using h1
      by_contra hne
      rcases lt_or_gt_of_ne hne with hlt | hgt
      · have a : (n.natAbs : ℚ) ≤ 654320 := by exact_mod_cast (by omega : n.natAbs ≤ 654320)
        have b := Flt.magVal_mono (eb := 11) (mb := 52) (Flt.roundMag_mono (eb := 11) (mb := 52) a)
        have c := Flt.roundMag_mono (eb := 11) (mb := 52) (div_le_div_of_nonneg_right b (by norm_num : (0 : ℚ) ≤ 100000))
        rw [h2] at c
        revert c; decide +kernel
      · have a : (654322 : ℚ) ≤ n.natAbs := by exact_mod_cast (by omega : 654322 ≤ n.natAbs)
        have b := Flt.magVal_mono (eb := 11) (mb := 52) (Flt.roundMag_mono (eb := 11) (mb := 52) a)
        have c := Flt.roundMag_mono (eb := 11) (mb := 52) (div_le_div_of_nonneg_right b (by norm_num : (0 : ℚ) ≤ 100000))
        rw [h2] at c
        revert c; decide +kernel
    · rintro rfl; decide +kernel
  rw [isTag, if_neg (not_not.mpr hx)]
  dsimp only
  simp only [hint, hprod]
  congr 1
  apply decide_eq_decide.mpr
  unfold trunc
  split
  · next h =>
    rw [Int.floor_eq_iff]
    push_cast
    constructor <;> rintro ⟨h1, h2⟩ <;> constructor <;> linarith
  · next h =>
    rw [not_le] at h
    constructor
    · intro hc
      have := Int.le_ceil (x.val * 100000)
      have h2 : (⌈x.val * 100000⌉ : Int) ≤ 0 := Int.ceil_le.mpr (by push_cast; linarith)
      omega
    · rintro ⟨h1, h2⟩; linarith

/-- The patterns of the numbers in `[6.54321, 6.54322)`. -/
theorem tag_mag (x : F32) (h1 : 654321 / 100000 ≤ x.val) (h2 : x.val < 654322 / 100000) :
    x.neg = false ∧ 1087463930 ≤ x.mag ∧ x.mag < 1087463951 := by
  have hn : x.neg = false := by
    by_contra hc
    have := Flt.magVal_nonneg (eb := 8) (mb := 23) x.mag
    rw [Flt.val, if_pos (by simpa using hc)] at h1
    linarith
  rw [Flt.val, hn, if_neg (by simp)] at h1 h2
  refine ⟨hn, ?_, ?_⟩
  · by_contra hc
    have := Flt.magVal_mono (eb := 8) (mb := 23) (m := x.mag) (n := 1087463929) (by omega)
    have h3 : Flt.magVal 8 23 1087463929 < 654321 / 100000 := by decide +kernel
    linarith
  · by_contra hc
    have := Flt.magVal_mono (eb := 8) (mb := 23) (m := 1087463951) (n := x.mag) (by omega)
    have h3 : 654322 / 100000 ≤ Flt.magVal 8 23 1087463951 := by decide +kernel
    linarith

/-- The single-precision number stored in four bytes. -/
def single (e : Endian) (b : Bytes) : F32 := Flt.ofBits (decW e b)

/-- The number lies in `[6.54321, 6.54322)`. -/
def IsTagNumber (x : F32) : Prop := x.Finite ∧ 654321 / 100000 ≤ x.val ∧ x.val < 654322 / 100000

theorem isTag_true (x : F32) : isTag x = .ok true ↔ IsTagNumber x := by
  constructor
  · intro h
    by_cases hx : x.Finite
    · rw [isTag_iff x hx] at h
      exact ⟨hx, of_decide_eq_true (Except.ok.inj h)⟩
    · rw [isTag, if_pos hx] at h; cases h
  · rintro ⟨hx, h⟩
    rw [isTag_iff x hx, decide_eq_true h]

theorem isTag_false (x : F32) (hx : x.Finite) (h : ¬ IsTagNumber x) : isTag x = .ok false := by
  rw [isTag_iff x hx, decide_eq_false (fun hc => h ⟨hx, hc⟩)]

/-- The bytes of a tag, from the number. -/
theorem bytes_of_tag (e : Endian) (b : Bytes) (hb : b.length = 4) (h : IsTagNumber (single e b)) :
    ∃ m, 1087463930 ≤ m ∧ m < 1087463951 ∧ b = encW e 4 m := by
  obtain ⟨-, h1, h2⟩ := h
  obtain ⟨h3, h4, h5⟩ := tag_mag _ h1 h2
  have e1 : (single e b).mag = decW e b % 2 ^ (8 + 23) := rfl
  have e2 : (single e b).neg = decide (decW e b / 2 ^ (8 + 23) % 2 = 1) := rfl
  have hlt := decW_lt e b
  rw [hb] at hlt
  rw [e2] at h3
  rw [e1] at h4 h5
  have h6 : ¬ decW e b / 2 ^ (8 + 23) % 2 = 1 := by simpa using h3
  refine ⟨decW e b, by omega, by omega, ?_⟩
  rw [← hb, encW_decW]

/-- In the other byte order a tag is a finite number and not a tag. -/
theorem tag_other (e : Endian) (m : Nat) (h1 : 1087463930 ≤ m) (h2 : m < 1087463951) :
    isTag (single e.flip (encW e 4 m)) = .ok false := by
  interval_cases m <;> cases e <;> decide +kernel

/-- **C13**. A four-byte tag is accepted in a byte order exactly if in this order it is a single-precision number in
`[6.54321, 6.54322)`. -/
theorem C13_tag (b : Bytes) (hb : b.length = 4) (e : Endian) : tagEndian b = .ok e ↔ IsTagNumber (single e b) := by
  have hL : isTag (Flt.ofBits (decW .little b)) = isTag (single .little b) := rfl
  have hB : isTag (Flt.ofBits (decW .big b)) = isTag (single .big b) := rfl
  rw [tagEndian, if_neg (by omega), hL, hB]
  constructor
  · intro h
    cases h1 : isTag (single .little b) with
    | error _ => rw [h1] at h; cases h
    | ok l =>
      cases h2 : isTag (single .big b) with
      | error _ => rw [h1, h2] at h; cases h
      | ok g =>
        rw [h1, h2] at h
        simp only [bind, Except.bind] at h
        cases l
        · cases g
          · cases h
          · have : Endian.big = e := Except.ok.inj h
            rw [← this, ← isTag_true]; exact h2
        · have : Endian.little = e := Except.ok.inj h
          rw [← this, ← isTag_true]; exact h1
  · intro h
    obtain ⟨m, h1, h2, h3⟩ := bytes_of_tag e b hb h
    have ho := tag_other e m h1 h2
    rw [← h3] at ho
    have ht := (isTag_true _).mpr h
    cases e
    · rw [ht, show single .big b = single Endian.little.flip b from rfl, ho]; rfl
    · rw [ht, show single .little b = single Endian.big.flip b from rfl, ho]; rfl

/-- Anything else makes the readers raise. -/
theorem C13_tag_error (b : Bytes) (h : b.length ≠ 4 ∨ ∀ e, ¬ IsTagNumber (single e b)) : ∃ err, tagEndian b = .error err := by
  by_cases hb : b.length = 4
  · have h := h.resolve_left (by omega)
    cases ht : tagEndian b with
    | error e => exact ⟨e, rfl⟩
    | ok e => exact absurd ((C13_tag b hb e).mp ht) (h e)
  · exact ⟨.structError, by rw [tagEndian, if_pos hb]⟩

/-- **C13**. The tag written by `writenek` and `writere2` is recognised in the byte order in which it was written. -/
theorem C13_written (native : Endian) (swap : Bool) :
    tagEndian (item native swap 4 (Flt.ofRat (eb := 8) (mb := 23) false (654321 / 100000)).bits) =
      .ok (outEndian native swap) := by
  cases native <;> cases swap <;> decide +kernel

example : tagEndian [0xFA, 0x61, 0xD1, 0x40] = .ok .little ∧ tagEndian [0x40, 0xD1, 0x61, 0xFA] = .ok .big ∧
    tagEndian [0xFA, 0x61, 0xD1, 0x41] = .error .valueError := by decide +kernel

end Pymech
