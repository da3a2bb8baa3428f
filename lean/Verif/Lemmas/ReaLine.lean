import Verif.IO.Rea
import Verif.Lemmas.Print
import Verif.Lemmas.Re2Round

/-!
# Lines and columns of `.rea` files
-/

namespace Pymech

/-! ### Lines -/

theorem linesGo_line (cur l s : Text) (h : '\n' ∉ l) : linesGo cur (l ++ '\n' :: s) = (cur ++ l ++ ['\n']) :: linesGo [] s := by
  induction l generalizing cur with
  | nil => simp [linesGo]
  | cons c l ih =>
    rw [List.mem_cons, not_or] at h
    rw [List.cons_append, linesGo, if_neg (Ne.symm h.1), ih _ h.2]
    simp

/-- The lines written are the lines read. -/
theorem linesT_lines (ls : List Text) (h : ∀ l ∈ ls, '\n' ∉ l) : linesT (ls.map lineT).flatten = ls.map lineT := by
  induction ls with
  | nil => rfl
  | cons l ls ih =>
    rw [List.map_cons, List.flatten_cons, linesT, lineT, List.append_assoc, List.singleton_append,
      linesGo_line _ _ _ (h l List.mem_cons_self), List.nil_append]
    exact congrArg _ (ih fun k hk => h k (List.mem_cons_of_mem _ hk))

theorem runLines_ok (l : List Text) : runLines (l.map .ok) = ((l.map lineT).flatten, none) := by
  induction l with
  | nil => rfl
  | cons t l ih => rw [List.map_cons, runLines, ih]; rfl

/-! ### Words -/

/-- No character that `str.split` or `str.strip` removes. -/
def NoBlank (t : Text) : Prop := ∀ c ∈ t, isSpaceU c = false

theorem NoBlank.word {t : Text} (h : NoBlank t) (hne : t ≠ []) : IsWord t := by
  refine ⟨hne, fun c hc => ?_⟩
  have := h c hc
  unfold isSpaceU at this
  rw [Bool.or_eq_false_iff] at this
  exact this.1

theorem NoBlank.map {t : Text} (h : NoBlank t) : (t.map fun c => if isSpaceU c then ' ' else c) = t := by
  conv_rhs => rw [← List.map_id t]
  apply List.map_congr_left
  intro c hc
  rw [h c hc]
  rfl

theorem map_blanks (n : Nat) : ((List.replicate n ' ').map fun c => if isSpaceU c then ' ' else c) = List.replicate n ' ' := by
  rw [List.map_replicate]
  rfl

/-- The first word of a line, and the rest. -/
theorem splitU_word (n : Nat) (w : Text) (hw : NoBlank w) (hne : w ≠ []) (c : Char) (hc : isSpaceU c = true) (t : Text) :
    splitU (rjust n w ++ c :: t) = w :: splitU t := by
  unfold splitU rjust
  rw [List.map_append, List.map_append, map_blanks, hw.map, List.map_cons, if_pos hc, splitT_word _ _ (hw.word hne)]

theorem splitU_blank (c : Char) (hc : isSpaceU c = true) (t : Text) : splitU (c :: t) = splitU t := by
  unfold splitU
  rw [List.map_cons, if_pos hc]
  rfl

theorem splitU_nil : splitU [] = [] := rfl

theorem stripT_rjust (n : Nat) (w : Text) (hw : NoBlank w) : stripT (rjust n w) = w := by
  unfold stripT rjust
  have h1 : ∀ m, (List.replicate m ' ' ++ w).dropWhile isSpaceU = w := by
    intro m
    induction m with
    | zero =>
      cases w with
      | nil => rfl
      | cons c w => rw [List.replicate_zero, List.nil_append, List.dropWhile_cons_of_neg (by rw [hw c List.mem_cons_self]; decide)]
    | succ m ih =>
      rw [List.replicate_succ, List.cons_append, List.dropWhile_cons_of_pos (by decide)]
      exact ih
  rw [h1]
  unfold rstripT
  cases h : w.reverse with
  | nil => simpa using h.symm
  | cons c l =>
    have hc : isSpaceU c = false := hw c (by rw [← List.mem_reverse, h]; exact List.mem_cons_self)
    rw [List.dropWhile_cons_of_neg (by rw [hc]; decide), ← h, List.reverse_reverse]

theorem stripT_ljust (n : Nat) (w : Text) (hw : NoBlank w) : stripT (ljust n w) = w := by
  unfold stripT ljust
  have h0 : (w ++ List.replicate (n - w.length) ' ').dropWhile isSpaceU =
      if w = [] then [] else w ++ List.replicate (n - w.length) ' ' := by
    cases w with
    | nil =>
      rw [if_pos rfl, List.nil_append]
      generalize n - ([] : Text).length = m
      induction m with
      | zero => rfl
      | succ m ih => rw [List.replicate_succ, List.dropWhile_cons_of_pos (by decide)]; exact ih
    | cons c w =>
      rw [List.cons_append, List.dropWhile_cons_of_neg (by rw [hw c List.mem_cons_self]; decide), if_neg (by simp)]
  rw [h0]
  by_cases hne : w = []
  · rw [if_pos hne, hne]; rfl
  · rw [if_neg hne]
    unfold rstripT
    rw [List.reverse_append, List.reverse_replicate]
    have : ∀ m, (List.replicate m ' ' ++ w.reverse).dropWhile isSpaceU = w.reverse := by
      intro m
      induction m with
      | zero =>
        rw [List.replicate_zero, List.nil_append]
        cases h : w.reverse with
        | nil => rfl
        | cons c l =>
          have hc : isSpaceU c = false := hw c (by rw [← List.mem_reverse, h]; exact List.mem_cons_self)
          rw [List.dropWhile_cons_of_neg (by rw [hc]; decide)]
      | succ m ih =>
        rw [List.replicate_succ, List.cons_append, List.dropWhile_cons_of_pos (by decide)]
        exact ih
    rw [this, List.reverse_reverse]

/-- The columns that hold a piece of a line. -/
theorem cols_at (a w l : Text) (i j : Nat) (hi : i = a.length) (hj : j = a.length + w.length) : cols (a ++ (w ++ l)) i j = w := by
  subst hi hj
  unfold cols
  rw [List.drop_left, Nat.add_sub_cancel_left, List.take_left]

theorem rjust_length (n : Nat) (t : Text) (h : t.length ≤ n) : (rjust n t).length = n := by
  rw [rjust, List.length_append, List.length_replicate]; omega

theorem ljust_length (n : Nat) (t : Text) (h : t.length ≤ n) : (ljust n t).length = n := by
  rw [ljust, List.length_append, List.length_replicate]; omega

/-! ### Numbers -/

theorem isSpaceU_digitC {d : Nat} (h : d < 10) : isSpaceU (digitC d) = false := by interval_cases d <;> decide

theorem noBlank_fmtE (p : Nat) (x : F64) : NoBlank (fmtE 'e' p x) :=
  fmtE_forall _ (fun _ hd => isSpaceU_digitC hd) (by decide) 'e' (Or.inr rfl) p x

theorem decN_forall (P : Char → Prop) (hdig : ∀ d < 10, P (digitC d)) (n : Nat) : ∀ c ∈ decN n, P c := by
  intro c hc
  rw [decN_eq, List.mem_map] at hc
  obtain ⟨d, hd, rfl⟩ := hc
  exact hdig d (digitsN_lt n d hd)

theorem decI_forall (P : Char → Prop) (hdig : ∀ d < 10, P (digitC d)) (hm : P '-') (i : Int) : ∀ c ∈ decI i, P c := by
  unfold decI
  split
  · intro c hc
    rcases List.mem_cons.mp hc with rfl | hc
    · exact hm
    · exact decN_forall P hdig _ c hc
  · exact decN_forall P hdig _

theorem noBlank_decI (i : Int) : NoBlank (decI i) := decI_forall _ (fun _ hd => isSpaceU_digitC hd) (by decide) i

theorem decI_ne_nil (i : Int) : decI i ≠ [] := (isWord_decI i).1
theorem fmtE_ne_nil (p : Nat) (x : F64) : fmtE 'e' p x ≠ [] := (isWord_fmtE 'e' (Or.inr rfl) p x).1

theorem colInt_rjust (a l : Text) (n i j : Nat) (k : Int) (hk : (decI k).length ≤ n) (hi : i = a.length) (hj : j = i + n) :
    colInt (a ++ (rjust n (decI k) ++ l)) i j = .ok k := by
  unfold colInt
  rw [cols_at _ _ _ _ _ hi (by rw [rjust_length _ _ hk]; omega), stripT_rjust _ _ (noBlank_decI k), pyInt_decI]
  rfl

theorem colFloat_fmt (a l : Text) (n i j p : Nat) (hp : 0 < p) (x : F64) (hk : (fmtE 'e' p x).length ≤ n) (hi : i = a.length) (hj : j = i + n) :
    colFloat (a ++ (rjust n (fmtE 'e' p x) ++ l)) i j = .ok (printed p x) := by
  unfold colFloat
  rw [cols_at _ _ _ _ _ hi (by rw [rjust_length _ _ hk]; omega), stripT_rjust _ _ (noBlank_fmtE p x), pyFloat_fmtE 'e' (Or.inr rfl) p hp]
  rfl

/-! ### Lengths of printed numbers -/

theorem dec02_length (n : Nat) : (n < 100 → (dec02 n).length = 2) ∧ (n < 1000 → (dec02 n).length ≤ 3) := by
  unfold dec02
  constructor
  · intro h
    split
    · rename_i h'
      rw [List.length_cons, decN_eq, List.length_map, digitsN, if_pos h']
      rfl
    · rw [decN_length_eq 1 n (by omega) (by omega)]
  · intro h
    split
    · rename_i h'
      rw [List.length_cons, decN_eq, List.length_map, digitsN, if_pos h']
      simp
    · exact decN_length_le 2 n (by omega)

theorem pointed_length (t : Text) (h : t ≠ []) : (pointed t).length = t.length + 1 := by
  cases t with
  | nil => exact absurd rfl h
  | cons c t => rfl

/-- Exponent of the leading digit. -/
theorem sigDigits_exp (p : Nat) (q : ℚ) : (sigDigits p q).2 = Int.log 10 q ∨ (sigDigits p q).2 = Int.log 10 q + 1 := by
  unfold sigDigits
  dsimp only
  split
  · exact Or.inr rfl
  · exact Or.inl rfl

theorem log10_bounds {q : ℚ} (hq : 0 < q) (a b : Int) (h1 : 10 ^ a ≤ q) (h2 : q < 10 ^ b) : a ≤ Int.log 10 q ∧ Int.log 10 q < b := by
  constructor
  · have := lt_of_le_of_lt h1 (lt_log10 q)
    rw [zpow_lt_zpow_iff_right₀ (by norm_num)] at this
    omega
  · have := lt_of_le_of_lt (log10_le hq) h2
    rwa [zpow_lt_zpow_iff_right₀ (by norm_num)] at this

theorem mag_bounds (x : F64) (hx : x.Finite) (h0 : x.mag ≠ 0) :
    (10 : ℚ) ^ (-324 : Int) ≤ Flt.magVal 11 52 x.mag ∧ Flt.magVal 11 52 x.mag < 10 ^ (309 : Int) := by
  constructor
  · refine le_trans ?_ (Flt.magVal_mono (show 1 ≤ x.mag by omega))
    decide +kernel
  · refine lt_of_le_of_lt (Flt.magVal_mono (show x.mag ≤ Flt.infMag 11 52 - 1 by have : x.mag < Flt.infMag 11 52 := hx; omega)) ?_
    decide +kernel

/-- Length of a printed number: at most `p + 8`, and one less unless the sign is negative and the exponent has three digits. -/
theorem fmtE_length (p : Nat) (x : F64) :
    (fmtE 'e' p x).length ≤ p + 8 ∧
      ((x.neg = false ∨ ¬ x.Finite ∨ x.mag = 0 ∨ (10 : ℚ) ^ (-99 : Int) ≤ Flt.magVal 11 52 x.mag ∧ Flt.magVal 11 52 x.mag < 10 ^ (99 : Int)) →
        (fmtE 'e' p x).length ≤ p + 7) := by
  unfold fmtE
  split
  · simp
  · dsimp only
    have hs : (if x.neg = true then ['-'] else ([] : Text)).length = if x.neg then 1 else 0 := by cases x.neg <;> rfl
    split
    · rw [List.length_append, hs]
      cases x.neg <;> simp
    · split
      · rw [List.length_append, List.length_append, hs, pointed_length _ (by simp)]
        have : (expPart 'e' 0).length = 4 := by decide +kernel
        rw [this, List.length_cons, List.length_replicate]
        constructor
        · split <;> omega
        · intro _
          split <;> omega
      · rename_i hn hf h0
        rw [not_not] at hf
        rw [List.length_append, List.length_append, hs]
        have hpos := Flt.magVal_pos (eb := 11) (mb := 52) x.mag (by omega)
        obtain ⟨d1, d2, -⟩ := sigDigits_spec p _ hpos
        have hl := decN_length_eq p _ d1 d2
        rw [pointed_length _ (by intro h; rw [h] at hl; simp at hl), hl]
        have he := sigDigits_exp p (Flt.magVal 11 52 x.mag)
        obtain ⟨b1, b2⟩ := mag_bounds x hf h0
        obtain ⟨l1, l2⟩ := log10_bounds hpos _ _ b1 b2
        have h3 := dec02_length (sigDigits p (Flt.magVal 11 52 x.mag)).2.natAbs
        have hex : (expPart 'e' (sigDigits p (Flt.magVal 11 52 x.mag)).2).length = (dec02 (sigDigits p (Flt.magVal 11 52 x.mag)).2.natAbs).length + 2 := rfl
        rw [hex]
        have h4 := h3.2 (by omega)
        constructor
        · split <;> omega
        · rintro (h | h | h | ⟨h, h'⟩)
          · rw [h]
            simp only [Bool.false_eq_true, if_false]
            omega
          · exact absurd hf h
          · exact absurd h h0
          · obtain ⟨l3, l4⟩ := log10_bounds hpos _ _ h h'
            have h5 := h3.1 (by omega)
            split <;> omega

/-- A printed number is zero only if the number is. -/
theorem printed_zero (p : Nat) (hp : 0 < p) (x : F64) : (printed p x).mag = 0 ↔ x.mag = 0 := by
  unfold printed
  split
  · rename_i h
    simp only [Flt.IsNaN] at h
    refine ⟨fun h' => absurd h' (by decide), fun h' => ?_⟩
    omega
  · split
    · rfl
    · split
      · rfl
      · rename_i hn hf h0
        refine ⟨fun h => ?_, fun h => absurd h h0⟩
        rw [not_not] at hf
        exfalso
        have hpos := Flt.magVal_pos (eb := 11) (mb := 52) x.mag (by omega)
        have hspec := (sigDigits_spec p _ hpos).2.2
        have h1 : Flt.roundMag 11 52 (Flt.magVal 11 52 1 * (9 / 10)) ≤
            Flt.roundMag 11 52 ((sigDigits p (Flt.magVal 11 52 x.mag)).1 * 10 ^ ((sigDigits p (Flt.magVal 11 52 x.mag)).2 - p)) := by
          apply Flt.roundMag_mono
          rw [hspec]
          have hm := Flt.magVal_mono (eb := 11) (mb := 52) (show 1 ≤ x.mag by omega)
          generalize Flt.magVal 11 52 x.mag = q at *
          have hu := zpow10_pos (Int.log 10 q - p)
          have hd := abs_le.mp (Flt.roundEven_dist (q / 10 ^ (Int.log 10 q - p)) (by positivity))
          have hw : (10 : ℚ) ^ (Int.log 10 q - p) * 10 ≤ q := by
            refine le_trans ?_ (log10_le hpos)
            rw [← zpow_add_one₀ (by norm_num)]
            exact zpow_le_zpow_right₀ (by norm_num) (by omega)
          have hq : q / 10 ^ (Int.log 10 q - p) * 10 ^ (Int.log 10 q - p) = q := by field_simp
          generalize (10 : ℚ) ^ (Int.log 10 q - p) = u at *
          generalize (Flt.roundEven (q / u) : ℚ) = r at *
          generalize Flt.magVal 11 52 1 = v at *
          nlinarith [hd.1]
        have h2 : Flt.roundMag 11 52 (Flt.magVal 11 52 1 * (9 / 10)) = 1 := by decide +kernel
        rw [h2] at h1
        have h3 : (Flt.ofRat (eb := 11) (mb := 52) x.neg ((sigDigits p (Flt.magVal 11 52 x.mag)).1 * 10 ^ ((sigDigits p (Flt.magVal 11 52 x.mag)).2 - p))).mag =
            Flt.roundMag 11 52 ((sigDigits p (Flt.magVal 11 52 x.mag)).1 * 10 ^ ((sigDigits p (Flt.magVal 11 52 x.mag)).2 - p)) := rfl
        rw [h3] at h
        omega

/-! ### Titles of boundary conditions -/

theorem splitGo_mem (cur s : Text) : ∀ w ∈ splitGo cur s, ∀ c ∈ w, c ∈ cur ∨ c ∈ s := by
  induction s generalizing cur with
  | nil =>
    intro w hw c hc
    unfold splitGo at hw
    split at hw
    · simp at hw
    · rw [List.mem_singleton] at hw
      subst hw
      exact Or.inl hc
  | cons d s ih =>
    intro w hw c hc
    unfold splitGo at hw
    split at hw
    · split at hw
      · rcases ih [] w hw c hc with h | h
        · simp at h
        · exact Or.inr (List.mem_cons_of_mem _ h)
      · rcases List.mem_cons.mp hw with rfl | hw
        · exact Or.inl hc
        · rcases ih [] w hw c hc with h | h
          · simp at h
          · exact Or.inr (List.mem_cons_of_mem _ h)
    · rcases ih _ w hw c hc with h | h
      · rw [List.mem_append, List.mem_singleton] at h
        rcases h with h | rfl
        · exact Or.inl h
        · exact Or.inr List.mem_cons_self
      · exact Or.inr (List.mem_cons_of_mem _ h)

/-- The characters of a word are characters of the line. -/
theorem splitU_mem (s w : Text) (hw : w ∈ splitU s) (c : Char) (hc : c ∈ w) (hb : c ≠ ' ') : c ∈ s := by
  rcases splitGo_mem [] _ w hw c hc with h | h
  · simp at h
  · obtain ⟨d, hd, he⟩ := List.mem_map.mp h
    split at he
    · exact absurd he.symm hb
    · rwa [← he]

/-- A line without one of the letters of `BOUNDARY` is not a title. -/
theorem not_bcHead (l : Text) (c : Char) (hc : c ∈ "BOUNDARY".toList) (h : c ∉ l) : isBcHead l = false := by
  unfold isBcHead
  rw [Bool.and_eq_false_iff]
  left
  rw [decide_eq_false_iff_not]
  intro hm
  refine h (splitU_mem l _ (List.mem_of_mem_drop hm) c hc ?_)
  rintro rfl
  revert hc
  decide

end Pymech
