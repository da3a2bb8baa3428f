import Verif.IO.Text
import Verif.Lemmas.Float
import Mathlib.Data.List.Basic
import Mathlib.Tactic.IntervalCases

/-!
# Formatting followed by parsing
-/

namespace Pymech

theorem char_ofNat_toNat (c : Char) : Char.ofNat c.toNat = c := Char.ofNat_toNat c

theorem decodeB_encodeT (s : Text) (h : ∀ c ∈ s, c.toNat < 256) : decodeB (encodeT s) = s := by
  induction s with
  | nil => rfl
  | cons c s ih =>
    have hc := h c (by simp)
    simp only [encodeT, decodeB, List.map_cons, List.cons.injEq] at ih ⊢
    refine ⟨?_, ih fun d hd => h d (by simp [hd])⟩
    have : (UInt8.ofNat c.toNat).toNat = c.toNat := by
      simp [UInt8.toNat_ofNat', Nat.mod_eq_of_lt hc]
    rw [this, char_ofNat_toNat]

theorem encodeT_length (s : Text) : (encodeT s).length = s.length := by simp [encodeT]

/-! ### Words -/

/-- A word: not empty and without white space. -/
def IsWord (w : Text) : Prop := w ≠ [] ∧ ∀ c ∈ w, isSpaceC c = false

theorem splitGo_word (cur w t : Text) (hw : ∀ c ∈ w, isSpaceC c = false) :
    splitGo cur (w ++ t) = splitGo (cur ++ w) t := by
  induction w generalizing cur with
  | nil => simp
  | cons c w ih =>
    have hc := hw c (by simp)
    rw [List.cons_append, splitGo, hc, if_neg (by simp), ih _ fun d hd => hw d (by simp [hd])]
    simp

theorem splitGo_blanks (n : Nat) (t : Text) : splitGo [] (List.replicate n ' ' ++ t) = splitGo [] t := by
  induction n with
  | zero => simp
  | succ n ih =>
    rw [List.replicate_succ, List.cons_append, splitGo, if_pos (by decide), if_pos rfl, ih]

/-- The first word of a text. -/
theorem splitT_word (n : Nat) (w : Text) (hw : IsWord w) (t : Text) :
    splitT (List.replicate n ' ' ++ w ++ ' ' :: t) = w :: splitT t := by
  rw [splitT, List.append_assoc, splitGo_blanks, splitGo_word _ _ _ hw.2, List.nil_append, splitGo,
    if_pos (by decide), if_neg hw.1]
  rfl

theorem splitT_rjust (n : Nat) (w : Text) (hw : IsWord w) (t : Text) :
    splitT (rjust n w ++ ' ' :: t) = w :: splitT t := splitT_word _ w hw t

/-- The last word, followed by blanks only. -/
theorem splitT_last (w : Text) (hw : IsWord w) (n : Nat) : splitT (w ++ List.replicate n ' ') = [w] := by
  rw [splitT, splitGo_word _ _ _ hw.2, List.nil_append]
  cases n with
  | zero => simp [splitGo, hw.1]
  | succ n =>
    rw [List.replicate_succ, splitGo, if_pos (by decide), if_neg hw.1]
    have := splitGo_blanks n []
    rw [List.append_nil] at this
    rw [this]; rfl

/-! ### Natural numbers -/

/-- The decimal digits of a number. -/
def digitsN (n : Nat) : List Nat := if n < 10 then [n] else digitsN (n / 10) ++ [n % 10]
decreasing_by omega

theorem decN_eq (n : Nat) : decN n = (digitsN n).map digitC := by
  induction n using Nat.strong_induction_on with
  | _ n ih =>
    rw [decN, digitsN]
    split
    · rfl
    · rw [ih (n / 10) (by omega)]; simp

theorem digitsN_lt (n : Nat) : ∀ d ∈ digitsN n, d < 10 := by
  induction n using Nat.strong_induction_on with
  | _ n ih =>
    rw [digitsN]
    split
    · simpa
    · intro d hd
      rw [List.mem_append, List.mem_singleton] at hd
      rcases hd with hd | rfl
      · exact ih _ (by omega) d hd
      · omega

theorem digitsN_ne_nil (n : Nat) : digitsN n ≠ [] := by
  rw [digitsN]; split <;> simp

/-- Value of a list of digits. -/
def digVal (a : Nat) (l : List Nat) : Nat := l.foldl (fun a d => a * 10 + d) a

theorem digVal_append (a : Nat) (l l' : List Nat) : digVal a (l ++ l') = digVal (digVal a l) l' := by
  simp [digVal]

theorem digVal_shift (a : Nat) (l : List Nat) : digVal a l = a * 10 ^ l.length + digVal 0 l := by
  induction l generalizing a with
  | nil => simp [digVal]
  | cons d l ih =>
    have e : ∀ b, digVal b (d :: l) = digVal (b * 10 + d) l := fun b => rfl
    rw [e, e, ih (a * 10 + d), ih (0 * 10 + d), List.length_cons]
    ring

theorem digVal_digitsN (n : Nat) : digVal 0 (digitsN n) = n := by
  induction n using Nat.strong_induction_on with
  | _ n ih =>
    rw [digitsN]
    split
    · simp [digVal]
    · rw [digVal_append, ih _ (by omega)]
      simp only [digVal, List.foldl_cons, List.foldl_nil]
      omega

theorem digitsN_length (k n : Nat) (h1 : 10 ^ k ≤ n) (h2 : n < 10 ^ (k + 1)) : (digitsN n).length = k + 1 := by
  induction k generalizing n with
  | zero => rw [digitsN, if_pos (by simpa using h2)]; rfl
  | succ k ih =>
    have hk : 10 ≤ n := by
      have : 1 ≤ 10 ^ k := Nat.one_le_pow _ _ (by norm_num)
      rw [Nat.pow_succ] at h1; omega
    rw [digitsN, if_neg (by omega), List.length_append, ih (n / 10)]
    · rfl
    · rw [Nat.pow_succ] at h1; omega
    · rw [Nat.pow_succ] at h2; omega

theorem digitC_toNat {d : Nat} (h : d < 10) : (digitC d).toNat = 48 + d := by
  interval_cases d <;> decide

theorem digitV_digitC {d : Nat} (h : d < 10) : digitV (digitC d) = some d := by
  interval_cases d <;> decide

theorem runGo_digits (a n : Nat) (l : List Nat) (hl : ∀ d ∈ l, d < 10) :
    runGo a n (l.map digitC) = some (digVal a l, n + l.length) := by
  induction l generalizing a n with
  | nil => rfl
  | cons d l ih =>
    have hd := digitV_digitC (hl d (by simp))
    have hr := ih (a * 10 + d) (n + 1) fun e he => hl e (by simp [he])
    cases l with
    | nil => simp [runGo, hd, digVal]
    | cons d' l =>
      rw [List.map_cons, List.map_cons, runGo, hd]
      dsimp only
      rw [List.map_cons] at hr
      rw [hr]
      simp [digVal]
      omega

theorem runV_digits (l : List Nat) (hl : ∀ d ∈ l, d < 10) (hne : l ≠ []) :
    runV (l.map digitC) = some (digVal 0 l, l.length) := by
  cases l with
  | nil => exact absurd rfl hne
  | cons d l =>
    rw [List.map_cons, runV, digitV_digitC (hl d (by simp)), Option.bind_some, runGo_digits _ _ _ fun e he => hl e (by simp [he])]
    simp only [digVal, List.foldl_cons, List.length_cons]
    congr 2
    · congr 1; omega
    · omega

theorem runV_decN (n : Nat) : runV (decN n) = some (n, (digitsN n).length) := by
  rw [decN_eq, runV_digits _ (digitsN_lt n) (digitsN_ne_nil n), digVal_digitsN]

theorem signOf_digit (d : Nat) (hd : d < 10) (l : Text) : signOf (digitC d :: l) = (false, digitC d :: l) := by
  have h := digitC_toNat hd
  have h1 : digitC d ≠ '-' := by rintro e; rw [e] at h; simp at h; omega
  have h2 : digitC d ≠ '+' := by rintro e; rw [e] at h; simp at h; omega
  simp [signOf, h1, h2]

theorem decN_cons (n : Nat) : ∃ d l, d < 10 ∧ (∀ e ∈ l, e < 10) ∧ digitsN n = d :: l ∧ decN n = digitC d :: l.map digitC := by
  cases h : digitsN n with
  | nil => exact absurd h (digitsN_ne_nil n)
  | cons d l =>
    have := digitsN_lt n
    rw [h] at this
    exact ⟨d, l, this d (by simp), fun e he => this e (by simp [he]), rfl, by rw [decN_eq, h]; rfl⟩

theorem pyInt_decI (i : Int) : pyInt (decI i) = some i := by
  by_cases hi : i < 0
  · have : signOf ('-' :: decN i.natAbs) = (true, decN i.natAbs) := rfl
    rw [decI, if_pos hi, pyInt, this]
    simp only [runV_decN, Option.map_some, if_true, Option.some.injEq]
    omega
  · have : signOf (decN i.natAbs) = (false, decN i.natAbs) := by
      obtain ⟨d, l, hd, -, -, e⟩ := decN_cons i.natAbs
      rw [e, signOf_digit d hd]
    rw [decI, if_neg hi, pyInt, this]
    simp only [runV_decN, Option.map_some, Option.some.injEq]
    norm_num
    omega

/-- Digits are not white space. -/
theorem isSpaceC_digitC {d : Nat} (h : d < 10) : isSpaceC (digitC d) = false := by
  interval_cases d <;> decide

theorem isWord_digits (l : List Nat) (hl : ∀ d ∈ l, d < 10) (hne : l ≠ []) : IsWord (l.map digitC) := by
  refine ⟨by simpa using hne, fun c hc => ?_⟩
  obtain ⟨d, hd, rfl⟩ := List.mem_map.mp hc
  exact isSpaceC_digitC (hl d hd)

theorem isWord_decN (n : Nat) : IsWord (decN n) := by
  rw [decN_eq]; exact isWord_digits _ (digitsN_lt n) (digitsN_ne_nil n)

theorem IsWord.cons {c : Char} {w : Text} (hc : isSpaceC c = false) (hw : ∀ d ∈ w, isSpaceC d = false) : IsWord (c :: w) :=
  ⟨by simp, fun d hd => by rcases List.mem_cons.mp hd with rfl | h; exact hc; exact hw d h⟩

theorem isWord_decI (i : Int) : IsWord (decI i) := by
  unfold decI
  split
  · exact IsWord.cons (by decide) (isWord_decN _).2
  · exact isWord_decN _

/-! ### `f"{n:02d}"` -/

theorem dec02_digits (n : Nat) : ∃ l : List Nat, l ≠ [] ∧ (∀ d ∈ l, d < 10) ∧ dec02 n = l.map digitC ∧ digVal 0 l = n := by
  unfold dec02
  split
  · refine ⟨0 :: digitsN n, by simp, ?_, by rw [decN_eq]; rfl, ?_⟩
    · intro d hd
      rcases List.mem_cons.mp hd with rfl | h
      · norm_num
      · exact digitsN_lt n d h
    · have : digVal 0 (0 :: digitsN n) = digVal 0 (digitsN n) := rfl
      rw [this, digVal_digitsN]
  · exact ⟨digitsN n, digitsN_ne_nil n, digitsN_lt n, decN_eq n, digVal_digitsN n⟩

theorem pyInt_dec02 (n : Nat) : pyInt (dec02 n) = some (n : Int) := by
  obtain ⟨l, hne, hl, e, hv⟩ := dec02_digits n
  rw [pyInt, e]
  have hs : signOf (l.map digitC) = (false, l.map digitC) := by
    cases l with
    | nil => exact absurd rfl hne
    | cons d l => exact signOf_digit d (hl d (by simp)) _
  rw [hs]
  simp [runV_digits l hl hne, hv]

theorem pyInt_signed02 (e : Int) : pyInt ((if e < 0 then '-' else '+') :: dec02 e.natAbs) = some e := by
  obtain ⟨l, hne, hl, h, hv⟩ := dec02_digits e.natAbs
  rw [pyInt, h]
  by_cases he : e < 0
  · have : signOf ('-' :: l.map digitC) = (true, l.map digitC) := rfl
    rw [if_pos he, this]
    simp only [runV_digits l hl hne, hv, Option.map_some, if_true, Option.some.injEq]
    omega
  · have : signOf ('+' :: l.map digitC) = (false, l.map digitC) := rfl
    rw [if_neg he, this]
    simp only [runV_digits l hl hne, hv, Option.map_some, Option.some.injEq]
    norm_num; omega

/-! ### `%.pE` -/

theorem zpow10_pos (e : Int) : (0 : ℚ) < 10 ^ e := zpow_pos (by norm_num) e

theorem ten_zpow_add_nat (k : Nat) (e : Int) : (10 : ℚ) ^ (e + k) = (10 ^ k : Nat) * 10 ^ e := by
  rw [zpow_add₀ (by norm_num)]; push_cast; rw [zpow_natCast]; ring

theorem log10_le {q : ℚ} (hq : 0 < q) : (10 : ℚ) ^ Int.log 10 q ≤ q := by
  have := Int.zpow_log_le_self (R := ℚ) (b := 10) (r := q) (by norm_num) hq
  push_cast at this; exact this

theorem lt_log10 (q : ℚ) : q < (10 : ℚ) ^ (Int.log 10 q + 1) := by
  have := Int.lt_zpow_succ_log_self (R := ℚ) (b := 10) (by norm_num) q
  push_cast at this; exact this

/-- The value of the printed digits and the number of digits. -/
theorem sigDigits_spec (p : Nat) (q : ℚ) (hq : 0 < q) :
    10 ^ p ≤ (sigDigits p q).1 ∧ (sigDigits p q).1 < 10 ^ (p + 1) ∧
      ((sigDigits p q).1 : ℚ) * 10 ^ ((sigDigits p q).2 - p) =
        Flt.roundEven (q / 10 ^ (Int.log 10 q - p)) * 10 ^ (Int.log 10 q - p) := by
  have hu := zpow10_pos (Int.log 10 q - p)
  have h1 : ((10 ^ p : Nat) : ℚ) ≤ q / 10 ^ (Int.log 10 q - p) := by
    rw [le_div_iff₀ hu, ← ten_zpow_add_nat, sub_add_cancel]; exact log10_le hq
  have h2 : q / 10 ^ (Int.log 10 q - p) < ((10 ^ (p + 1) : Nat) : ℚ) := by
    rw [div_lt_iff₀ hu, ← ten_zpow_add_nat]
    have := lt_log10 q
    rwa [show Int.log 10 q - (p : Int) + ((p + 1 : Nat) : Int) = Int.log 10 q + 1 by push_cast; ring]
  have h3 := abs_le.mp (Flt.roundEven_dist (q / 10 ^ (Int.log 10 q - p)) (by positivity))
  have h4 : 10 ^ p ≤ Flt.roundEven (q / 10 ^ (Int.log 10 q - p)) := by
    by_contra hc
    have : Flt.roundEven (q / 10 ^ (Int.log 10 q - p)) + 1 ≤ 10 ^ p := by omega
    have : (Flt.roundEven (q / 10 ^ (Int.log 10 q - p)) : ℚ) + 1 ≤ ((10 ^ p : Nat) : ℚ) := by exact_mod_cast this
    linarith [h3.1]
  have h5 : Flt.roundEven (q / 10 ^ (Int.log 10 q - p)) ≤ 10 ^ (p + 1) := by
    by_contra hc
    have : 10 ^ (p + 1) + 1 ≤ Flt.roundEven (q / 10 ^ (Int.log 10 q - p)) := by omega
    have : ((10 ^ (p + 1) : Nat) : ℚ) + 1 ≤ (Flt.roundEven (q / 10 ^ (Int.log 10 q - p)) : ℚ) := by exact_mod_cast this
    linarith [h3.2]
  have hp : 10 ^ p < 10 ^ (p + 1) := Nat.pow_lt_pow_right (by norm_num) (by omega)
  unfold sigDigits
  dsimp only
  split
  · next h =>
    refine ⟨le_rfl, hp, ?_⟩
    dsimp only
    rw [h, show Int.log 10 q + 1 - (p : Int) = Int.log 10 q - p + 1 by ring, zpow_add_one₀ (by norm_num)]
    push_cast; ring
  · next h => exact ⟨h4, by dsimp only; omega, rfl⟩

/-- No decimal with at most `p + 1` digits is nearer to the printed number. -/
theorem sigDigits_nearest (p : Nat) (q : ℚ) (hq : 0 < q) (m : Nat) (hm : m < 10 ^ (p + 1)) (k : Int) :
    |((sigDigits p q).1 : ℚ) * 10 ^ ((sigDigits p q).2 - p) - q| ≤ |(m : ℚ) * 10 ^ k - q| := by
  rw [(sigDigits_spec p q hq).2.2]
  have hu := zpow10_pos (Int.log 10 q - p)
  have key : ∀ j : Int, |(Flt.roundEven (q / 10 ^ (Int.log 10 q - p)) : ℚ) * 10 ^ (Int.log 10 q - p) - q| ≤
      |(j : ℚ) * 10 ^ (Int.log 10 q - p) - q| := by
    intro j
    have h1 := Flt.roundEven_nearest (q / 10 ^ (Int.log 10 q - p)) (by positivity) j
    have e1 : ∀ t : ℚ, |t * 10 ^ (Int.log 10 q - p) - q| = |t - q / 10 ^ (Int.log 10 q - p)| * 10 ^ (Int.log 10 q - p) := by
      intro t
      rw [← abs_of_pos hu, ← abs_mul, abs_of_pos hu, sub_mul, div_mul_cancel₀ _ hu.ne']
    rw [e1, e1]
    exact mul_le_mul_of_nonneg_right h1 hu.le
  by_cases hk : Int.log 10 q - p ≤ k
  · obtain ⟨d, hd⟩ := Int.eq_ofNat_of_zero_le (sub_nonneg.mpr hk)
    have := key ((m * 10 ^ d : Nat) : Int)
    have e : (m : ℚ) * 10 ^ k = (((m * 10 ^ d : Nat) : Int) : ℚ) * 10 ^ (Int.log 10 q - p) := by
      rw [show k = Int.log 10 q - p + (d : Nat) by omega, ten_zpow_add_nat]
      push_cast; ring
    rw [e]; exact this
  · have h1 : (m : ℚ) * 10 ^ k < ((10 ^ p : Nat) : ℚ) * 10 ^ (Int.log 10 q - p) := by
      calc (m : ℚ) * 10 ^ k < ((10 ^ (p + 1) : Nat) : ℚ) * 10 ^ k :=
            mul_lt_mul_of_pos_right (by exact_mod_cast hm) (zpow10_pos _)
        _ = 10 ^ (k + (p + 1 : Nat)) := (ten_zpow_add_nat _ _).symm
        _ ≤ 10 ^ (Int.log 10 q - p + (p : Nat)) := zpow_le_zpow_right₀ (by norm_num) (by push_cast; omega)
        _ = _ := ten_zpow_add_nat _ _
    have h2 : ((10 ^ p : Nat) : ℚ) * 10 ^ (Int.log 10 q - p) ≤ q := by
      rw [← ten_zpow_add_nat, sub_add_cancel]; exact log10_le hq
    refine (key ((10 ^ p : Nat) : Int)).trans ?_
    rw [Int.cast_natCast, abs_of_nonpos (by linarith), abs_of_nonpos (by linarith)]
    linarith

theorem cutAt_append (P : Char → Bool) (a : Text) (c : Char) (b : Text) (ha : ∀ d ∈ a, P d = false) (hc : P c = true) :
    cutAt P (a ++ c :: b) = (a, some b) := by
  induction a with
  | nil => simp [cutAt, hc]
  | cons d a ih =>
    rw [List.cons_append, cutAt, ha d (by simp), if_neg (by simp), ih fun e he => ha e (by simp [he])]

theorem cutAt_none (P : Char → Bool) (a : Text) (ha : ∀ d ∈ a, P d = false) : cutAt P a = (a, none) := by
  induction a with
  | nil => rfl
  | cons d a ih => rw [cutAt, ha d (by simp), if_neg (by simp), ih fun e he => ha e (by simp [he])]

/-- The letter `E` or `e` of the format. -/
def IsExpChar (E : Char) : Prop := E = 'E' ∨ E = 'e'

theorem digitC_not_dot {d : Nat} (h : d < 10) : (digitC d == '.') = false := by interval_cases d <;> decide
theorem digitC_not_e {d : Nat} (h : d < 10) : (digitC d == 'e' || digitC d == 'E') = false := by
  interval_cases d <;> decide

/-- The mantissa text of `%.pE`. -/
theorem mantV_pointed (d : Nat) (l : List Nat) (hd : d < 10) (hl : ∀ e ∈ l, e < 10) (hne : l ≠ []) :
    mantV (pointed (digitC d :: l.map digitC)) = some (digVal 0 (d :: l), l.length) := by
  have e : pointed (digitC d :: l.map digitC) = [digitC d] ++ '.' :: l.map digitC := rfl
  have hc : cutAt (· == '.') ([digitC d] ++ '.' :: l.map digitC) = ([digitC d], some (l.map digitC)) := by
    apply cutAt_append
    · intro c hc
      rw [List.mem_singleton] at hc
      rw [hc]; exact digitC_not_dot hd
    · rfl
  rw [e, mantV, hc]
  have h1 : runV [digitC d] = some (d, 1) := by
    have := runV_digits [d] (by simpa using hd) (by simp)
    simpa [digVal] using this
  have h2 := runV_digits l hl hne
  have hne' : l.map digitC ≠ [] := by simpa using hne
  simp only [List.cons_ne_nil, if_false, hne', h1, h2, Option.bind_some, Option.map_some]
  congr 2
  have := digVal_shift d l
  have e2 : digVal 0 (d :: l) = digVal d l := by simp [digVal]
  rw [e2, this]

theorem decLit_digits (s : Bool) (d : Nat) (l : List Nat) (hd : d < 10) (hl : ∀ e ∈ l, e < 10) (hne : l ≠ [])
    (E : Char) (hE : IsExpChar E) (e : Int) :
    decLit ((if s then ['-'] else []) ++ pointed (digitC d :: l.map digitC) ++ expPart E e) =
      some ⟨s, digVal 0 (d :: l), e - l.length⟩ := by
  have hs : signOf ((if s then ['-'] else []) ++ pointed (digitC d :: l.map digitC) ++ expPart E e) =
      (s, pointed (digitC d :: l.map digitC) ++ expPart E e) := by
    cases s
    · simp only [Bool.false_eq_true, if_false, List.nil_append]
      exact signOf_digit d hd _
    · rfl
  have hcut : cutAt (fun c => c == 'e' || c == 'E') (pointed (digitC d :: l.map digitC) ++ expPart E e) =
      (pointed (digitC d :: l.map digitC), some ((if e < 0 then '-' else '+') :: dec02 e.natAbs)) := by
    apply cutAt_append
    · intro c hc
      simp only [pointed, List.mem_cons, List.mem_map] at hc
      rcases hc with rfl | rfl | ⟨x, hx, rfl⟩
      · exact digitC_not_e hd
      · decide
      · exact digitC_not_e (hl x hx)
    · rcases hE with rfl | rfl <;> decide
  rw [decLit, hs]
  dsimp only
  rw [hcut]
  dsimp only
  rw [mantV_pointed d l hd hl hne, Option.bind_some, pyInt_signed02, Option.map_some]

theorem lowerC_digitC {d : Nat} (h : d < 10) : lowerC (digitC d) = digitC d := by interval_cases d <;> decide

theorem pyFloat_digits (s : Bool) (d : Nat) (l : List Nat) (hd : d < 10) (hl : ∀ e ∈ l, e < 10) (hne : l ≠ [])
    (E : Char) (hE : IsExpChar E) (e : Int) :
    pyFloat ((if s then ['-'] else []) ++ pointed (digitC d :: l.map digitC) ++ expPart E e) =
      some (Dec.toF64 ⟨s, digVal 0 (d :: l), e - l.length⟩) := by
  have hs : signOf ((if s then ['-'] else []) ++ pointed (digitC d :: l.map digitC) ++ expPart E e) =
      (s, digitC d :: ('.' :: l.map digitC ++ expPart E e)) := by
    cases s
    · simp only [Bool.false_eq_true, if_false, List.nil_append]
      exact signOf_digit d hd _
    · rfl
  rw [pyFloat, hs]
  dsimp only
  rw [List.map_cons, lowerC_digitC hd]
  have hx : ∀ (c : Char) (a b : Text), c.toNat ≥ 60 → digitC d :: a ≠ c :: b := by
    intro c a b hc h
    have h' := (List.cons.inj h).1
    have := digitC_toNat hd
    rw [h'] at this; omega
  have hx1 : ∀ a, digitC d :: a ≠ "nan".toList := fun a => hx 'n' a ['a', 'n'] (by decide)
  have hx2 : ∀ a, digitC d :: a ≠ "inf".toList := fun a => hx 'i' a ['n', 'f'] (by decide)
  have hx3 : ∀ a, digitC d :: a ≠ "infinity".toList := fun a => hx 'i' a "nfinity".toList (by decide)
  rw [if_neg (hx1 _), if_neg (not_or.mpr ⟨hx2 _, hx3 _⟩),
    decLit_digits s d l hd hl hne E hE e]
  rfl

/-- The number read back from `"%.pE" % x`: the double nearest to the decimal with `p + 1` digits nearest to `x`. -/
def printed (p : Nat) (x : F64) : F64 :=
  if x.IsNaN then nan64 false
  else if ¬ x.Finite then x
  else if x.mag = 0 then x
  else Flt.ofRat x.neg ((sigDigits p (Flt.magVal 11 52 x.mag)).1 * 10 ^ ((sigDigits p (Flt.magVal 11 52 x.mag)).2 - p))

theorem digVal_zeros (n : Nat) : digVal 0 (List.replicate n 0) = 0 := by
  induction n with
  | zero => rfl
  | succ n ih => simpa [digVal, List.replicate_succ] using ih

theorem inf_ext (x : F64) (h1 : ¬ x.IsNaN) (h2 : ¬ x.Finite) : inf64 x.neg = x := by
  refine Flt.ext' (show (inf64 x.neg).neg = x.neg from rfl) ?_
  simp only [Flt.IsNaN, Flt.Finite, not_lt] at h1 h2
  exact le_antisymm h2 h1

/-- Parsing a formatted number. -/
theorem pyFloat_fmtE (E : Char) (hE : IsExpChar E) (p : Nat) (hp : 0 < p) (x : F64) :
    pyFloat (fmtE E p x) = some (printed p x) := by
  unfold fmtE printed
  by_cases hn : x.IsNaN
  · rw [if_pos hn, if_pos hn]
    rcases hE with rfl | rfl <;> decide +kernel
  rw [if_neg hn, if_neg hn]
  dsimp only
  by_cases hf : x.Finite
  swap
  · rw [if_pos hf, if_pos hf, ← inf_ext x hn hf]
    rcases hE with rfl | rfl <;> cases x.neg <;> decide +kernel
  rw [if_neg (not_not.mpr hf), if_neg (not_not.mpr hf)]
  by_cases h0 : x.mag = 0
  · rw [if_pos h0, if_pos h0]
    have h := pyFloat_digits x.neg 0 (List.replicate p 0) (by norm_num)
      (fun e he => by rw [(List.mem_replicate.mp he).2]; norm_num)
      (by simp; omega) E hE 0
    rw [List.map_replicate] at h
    rw [show ('0' :: List.replicate p '0') = digitC 0 :: List.replicate p (digitC 0) from rfl, h]
    congr 1
    have e : digVal 0 (0 :: List.replicate p 0) = 0 := by
      have := digVal_zeros (p + 1); rwa [List.replicate_succ] at this
    rw [Dec.toF64, e]
    refine Flt.ext' (show x.neg = x.neg from rfl) ?_
    rw [h0]
    simp [Flt.ofRat, Flt.roundMag]
  · rw [if_neg h0, if_neg h0]
    have hpos := Flt.magVal_pos (eb := 11) (mb := 52) x.mag (by omega)
    obtain ⟨h1, h2, -⟩ := sigDigits_spec p _ hpos
    obtain ⟨d, l, hd, hl, hdl, hdec⟩ := decN_cons (sigDigits p (Flt.magVal 11 52 x.mag)).1
    have hlen := digitsN_length p _ h1 h2
    have hval := digVal_digitsN (sigDigits p (Flt.magVal 11 52 x.mag)).1
    rw [hdl] at hlen hval
    have hll : l.length = p := by simpa using hlen
    have hne : l ≠ [] := by rintro rfl; simp at hll; omega
    rw [hdec, pyFloat_digits x.neg d l hd hl hne E hE, hval, hll]
    rfl

/-- A number with at most `p + 1` decimal digits survives formatting. -/
theorem printed_exact (p : Nat) (x : F64) (hx : x.Finite)
    (h : ∃ (m : Nat) (k : Int), m < 10 ^ (p + 1) ∧ Flt.magVal 11 52 x.mag = m * 10 ^ k) : printed p x = x := by
  obtain ⟨m, k, hm, hv⟩ := h
  have hn : ¬ x.IsNaN := by
    simp only [Flt.IsNaN, Flt.Finite, not_lt] at hx ⊢; exact hx.le
  rw [printed, if_neg hn, if_neg (not_not.mpr hx)]
  split
  · rfl
  · next h0 =>
    have hpos := Flt.magVal_pos (eb := 11) (mb := 52) x.mag (by omega)
    have h1 := sigDigits_nearest p _ hpos m hm k
    rw [← hv, sub_self, abs_zero] at h1
    have h2 := sub_eq_zero.mp (abs_eq_zero.mp (le_antisymm h1 (abs_nonneg _)))
    rw [h2, Flt.ofRat_val x hx]

/-- The characters of a formatted number. -/
theorem fmtE_forall (P : Char → Prop) (hdig : ∀ d < 10, P (digitC d)) (hch : ∀ c ∈ "+-.EeNAIFnaif".toList, P c)
    (E : Char) (hE : IsExpChar E) (p : Nat) (x : F64) : ∀ c ∈ fmtE E p x, P c := by
  have hexp : ∀ e, ∀ c ∈ expPart E e, P c := by
    intro e c hc
    obtain ⟨l, hne, hl, h, hv⟩ := dec02_digits e.natAbs
    rw [expPart, h] at hc
    simp only [List.mem_cons, List.mem_map] at hc
    rcases hc with rfl | rfl | ⟨d, hd, rfl⟩
    · rcases hE with rfl | rfl <;> exact hch _ (by decide)
    · split <;> exact hch _ (by decide)
    · exact hdig d (hl d hd)
  have hpt : ∀ t : Text, (∀ c ∈ t, P c) → ∀ c ∈ pointed t, P c := by
    intro t ht c hc
    cases t with
    | nil => simp [pointed] at hc
    | cons d t =>
      simp only [pointed, List.mem_cons] at hc
      rcases hc with rfl | rfl | h
      · exact ht _ (by simp)
      · exact hch _ (by decide)
      · exact ht _ (by simp [h])
  have hs : ∀ c ∈ (if x.neg then ['-'] else [] : Text), P c := by
    intro c hc
    cases hx : x.neg
    · rw [hx] at hc; simp at hc
    · rw [hx] at hc; simp at hc; rw [hc]; exact hch _ (by decide)
  have hsub : ∀ l : Text, (∀ c ∈ l, c ∈ "+-.EeNAIFnaif".toList) → ∀ c ∈ l, P c := fun l h c hc => hch c (h c hc)
  unfold fmtE
  split
  · split <;> exact hsub _ (by decide)
  · dsimp only
    split
    · intro c hc
      rw [List.mem_append] at hc
      rcases hc with hc | hc
      · exact hs c hc
      · revert hc; split <;> exact hsub _ (by decide) c
    · split
      · intro c hc
        simp only [List.mem_append] at hc
        rcases hc with (hc | hc) | hc
        · exact hs c hc
        · refine hpt _ ?_ c hc
          intro d hd
          simp only [List.mem_cons, List.mem_replicate] at hd
          rcases hd with rfl | ⟨-, rfl⟩ <;> exact hdig 0 (by norm_num)
        · exact hexp _ c hc
      · intro c hc
        simp only [List.mem_append] at hc
        rcases hc with (hc | hc) | hc
        · exact hs c hc
        · refine hpt _ ?_ c hc
          intro d hd
          rw [decN_eq, List.mem_map] at hd
          obtain ⟨n, hn, rfl⟩ := hd
          exact hdig n (digitsN_lt _ n hn)
        · exact hexp _ c hc

theorem isWord_fmtE (E : Char) (hE : IsExpChar E) (p : Nat) (x : F64) : IsWord (fmtE E p x) := by
  refine ⟨?_, fmtE_forall _ (fun d hd => isSpaceC_digitC hd) (by decide) E hE p x⟩
  unfold fmtE
  split
  · split <;> decide
  · dsimp only
    split
    · split <;> split <;> simp
    · split <;> simp [expPart]

/-- ASCII text. -/
def IsAscii (s : Text) : Prop := ∀ c ∈ s, c.toNat < 128

theorem isAscii_fmtE (E : Char) (hE : IsExpChar E) (p : Nat) (x : F64) : IsAscii (fmtE E p x) :=
  fmtE_forall _ (fun d hd => by rw [digitC_toNat hd]; omega) (by decide) E hE p x

theorem isAscii_digits (l : List Nat) (hl : ∀ d ∈ l, d < 10) : IsAscii (l.map digitC) := by
  intro c hc
  obtain ⟨d, hd, rfl⟩ := List.mem_map.mp hc
  have := hl d hd
  rw [digitC_toNat this]; omega

theorem isAscii_decI (i : Int) : IsAscii (decI i) := by
  have h := isAscii_digits _ (digitsN_lt i.natAbs)
  rw [← decN_eq] at h
  unfold decI
  split
  · intro c hc
    rw [List.mem_cons] at hc
    rcases hc with rfl | hc
    · decide
    · exact h c hc
  · exact h

theorem isAscii_blanks (n : Nat) : IsAscii (List.replicate n ' ') := by
  intro c hc
  rw [(List.mem_replicate.mp hc).2]; decide

theorem IsAscii.append {a b : Text} (ha : IsAscii a) (hb : IsAscii b) : IsAscii (a ++ b) := by
  intro c hc
  rcases List.mem_append.mp hc with h | h
  · exact ha c h
  · exact hb c h

theorem isAscii_rjust (n : Nat) {w : Text} (hw : IsAscii w) : IsAscii (rjust n w) := (isAscii_blanks _).append hw

theorem isAscii_ljust (n : Nat) {w : Text} (hw : IsAscii w) : IsAscii (ljust n w) := hw.append (isAscii_blanks _)

theorem decodeB_ascii {s : Text} (h : IsAscii s) : decodeB (encodeT s) = s :=
  decodeB_encodeT s fun c hc => by have := h c hc; omega

end Pymech
