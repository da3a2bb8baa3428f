import Verif.IO.Field
import Verif.Spec.Number
import Verif.Lemmas.Words
import Verif.Lemmas.Bytes

/-!
# The header of a field file: C06, C07, C08, C13
-/

namespace Pymech

open Spec

theorem printed_spec (p : Nat) (x : F64) : Printed p x (printed p x) := by
  refine ⟨fun h => ?_, fun h1 h2 => ?_, fun h => ?_⟩
  · rw [printed, if_pos h]; decide +kernel
  · rw [printed, if_neg h1, if_pos h2]
  · have hn : ¬ x.IsNaN := by
      simp only [Flt.IsNaN, Flt.Finite, not_lt] at h ⊢; exact h.le
    by_cases h0 : x.mag = 0
    · refine ⟨0, 0, by positivity, ?_, ?_⟩
      · have := Flt.ofRat_val x h
        rw [h0, Flt.magVal_zero] at this
        rw [printed, if_neg hn, if_neg (not_not.mpr h), if_pos h0]
        simpa using this.symm
      · intro m' k' _
        rw [absVal, h0, Flt.magVal_zero]
        simp only [Nat.cast_zero, zero_mul, sub_zero, abs_zero]
        exact abs_nonneg _
    · have hpos := Flt.magVal_pos (eb := 11) (mb := 52) x.mag (by omega)
      refine ⟨_, _, (sigDigits_spec p _ hpos).2.1, ?_, fun m' k' hm' => sigDigits_nearest p _ hpos m' hm' k'⟩
      rw [printed, if_neg hn, if_neg (not_not.mpr h), if_neg h0]

/-- A number with few enough digits is printed exactly, whatever value is chosen in case of ties. -/
theorem Spec.Printed.exact {p : Nat} {x y : F64} (h : Printed p x y) (hx : HasDigits p x) : y = x := by
  obtain ⟨hf, m', k', hm', hv⟩ := hx
  obtain ⟨m, k, -, hy, hn⟩ := h.2.2 hf
  have := hn m' k' hm'
  rw [← hv, sub_self, abs_zero] at this
  have := sub_eq_zero.mp (abs_eq_zero.mp (le_antisymm this (abs_nonneg _)))
  rw [hy, this, absVal, Flt.ofRat_val x hf]

/-- The header text is ASCII. -/
theorem header_ascii (h : Header) (hv : IsAscii h.vstr) : IsAscii h.text := by
  have h1 : IsAscii "#std ".toList := by unfold IsAscii; decide
  have h2 : IsAscii [' '] := isAscii_blanks 1
  have hI : ∀ n i, IsAscii (rjust n (decI i)) := fun n i => isAscii_rjust n (isAscii_decI i)
  have hF : IsAscii (rjust 20 (fmtE 'E' 13 h.time)) := isAscii_rjust 20 (isAscii_fmtE 'E' (.inl rfl) 13 h.time)
  exact (((((((((((((((((((((h1).append (hI _ _)).append h2).append (hI _ _)).append h2).append (hI _ _)).append h2).append (hI _ _)).append h2).append (hI _ _)).append h2).append (hI _ _)).append h2).append hF).append h2).append (hI _ _)).append h2).append (hI _ _)).append h2).append (hI _ _)).append h2).append hv

/-- The words of the header text. -/
theorem header_words (h : Header) (hv : IsWord h.vstr) (n : Nat) :
    splitT (h.text ++ List.replicate n ' ') =
      ["#std".toList, decI h.wdsz, decI h.ox, decI h.oy, decI h.oz, decI h.nbElems, decI h.nbElemsFile,
        fmtE 'E' 13 h.time, decI h.istep, decI h.fid, decI h.nbFiles, h.vstr] := by
  have hI : ∀ n i t, splitT (rjust n (decI i) ++ ' ' :: t) = decI i :: splitT t :=
    fun n i t => splitT_rjust n _ (isWord_decI i) t
  have hF : ∀ t, splitT (rjust 20 (fmtE 'E' 13 h.time) ++ ' ' :: t) = fmtE 'E' 13 h.time :: splitT t :=
    fun t => splitT_rjust 20 _ (isWord_fmtE 'E' (.inl rfl) 13 h.time) t
  have h0 : ∀ t, splitT ("#std ".toList ++ t) = "#std".toList :: splitT t := fun t =>
    splitT_word 0 "#std".toList ⟨by decide, by decide⟩ t
  unfold Header.text
  simp only [List.append_assoc, List.cons_append, List.nil_append]
  rw [h0, hI, hI, hI, hI, hI, hI, hF, hI, hI, hI, splitT_last _ hv]

theorem asBytes_length (h : Header) (hl : h.text.length ≤ 132) : h.asBytes.length = 132 := by
  rw [Header.asBytes, encodeT_length, ljust, List.length_append, List.length_replicate]
  omega

/-- What `read_header` makes of a header that fits its 132 bytes. -/
theorem readHeader_asBytes (h : Header) (hv : IsWord h.vstr) (ha : IsAscii h.vstr) (hl : h.text.length ≤ 132) (t : Bytes) :
    readHeader (h.asBytes ++ t) = Header.make h.wdsz h.ox h.oy h.oz h.nbElems h.nbElemsFile (printed 13 h.time)
      h.istep h.fid h.nbFiles h.vstr none := by
  have h1 : (h.asBytes ++ t).take 132 = h.asBytes := by
    rw [← asBytes_length h hl, List.take_left']; rfl
  have h2 : ¬ ∃ c ∈ h.vstr, 127 < c.toNat := by
    rintro ⟨c, hc, hc'⟩
    have := ha c hc
    omega
  rw [readHeader, h1, Header.asBytes, decodeB_ascii (isAscii_ljust _ (header_ascii h ha)), ljust, header_words h hv]
  simp only [pyInt_decI, pyFloat_fmtE 'E' (.inl rfl) 13 (by norm_num), orValueError]
  simp only [bind, Except.bind]
  rw [if_neg h2]

/-- **C06**. A header that the constructor accepts and whose text fits is 132 bytes long, and `read_header` recovers
every field from it; the time is recovered up to the fourteen printed digits. -/
theorem C06_header (h : Header) (hv : IsWord h.vstr) (ha : IsAscii h.vstr) (hl : h.text.length ≤ 132)
    (hmk : Header.make h.wdsz h.ox h.oy h.oz h.nbElems h.nbElemsFile h.time h.istep h.fid h.nbFiles h.vstr none = .ok h)
    (rest : Bytes) :
    h.asBytes.length = 132 ∧
      ∃ t, Printed 13 h.time t ∧ readHeader (h.asBytes ++ rest) = .ok { h with time := t } := by
  refine ⟨asBytes_length h hl, printed 13 h.time, printed_spec 13 h.time, ?_⟩
  rw [readHeader_asBytes h hv ha hl]
  unfold Header.make at hmk ⊢
  split
  · next h1 => rw [if_pos h1] at hmk; cases hmk
  · next h1 =>
    rw [if_neg h1] at hmk
    dsimp only at hmk ⊢
    rw [if_pos hv.1] at hmk ⊢
    cases hvv : variablesToVars h.vstr (2 + if h.oz > 1 then 1 else 0) with
    | error e => rw [hvv] at hmk; cases hmk
    | ok v =>
      rw [hvv] at hmk
      have : h = _ := (Except.ok.inj hmk).symm
      simp only [bind, Except.bind, pure, Except.pure]
      congr 1
      rw [this]

/-- **C06**, times with at most fourteen digits come back exactly. -/
theorem C06_header_exact (h : Header) (hv : IsWord h.vstr) (ha : IsAscii h.vstr) (hl : h.text.length ≤ 132)
    (hmk : Header.make h.wdsz h.ox h.oy h.oz h.nbElems h.nbElemsFile h.time h.istep h.fid h.nbFiles h.vstr none = .ok h)
    (ht : HasDigits 13 h.time) (rest : Bytes) : readHeader (h.asBytes ++ rest) = .ok h := by
  obtain ⟨-, t, h1, h2⟩ := C06_header h hv ha hl hmk rest
  rw [h2, h1.exact ht]

/-! ### C07 -/

/-- The part of the variable string before the scalars. -/
def letters (v : HVars) : Text :=
  (if v.pos > 0 then ['X'] else []) ++ (if v.vel > 0 then ['U'] else []) ++ (if v.pres > 0 then ['P'] else []) ++
  (if v.temp > 0 then ['T'] else [])

theorem mem_letters (v : HVars) (c : Char) : c ∈ letters v ↔
    (c = 'X' ∧ 0 < v.pos) ∨ (c = 'U' ∧ 0 < v.vel) ∨ (c = 'P' ∧ 0 < v.pres) ∨ (c = 'T' ∧ 0 < v.temp) := by
  have hm : ∀ (n : Nat) (d : Char), (c ∈ (if n > 0 then [d] else [] : Text)) ↔ c = d ∧ 0 < n := by
    intro n d
    split
    · next h => simp [h]
    · next h => simp; intro _; omega
  simp only [letters, List.mem_append, hm, or_assoc]

theorem varsToVariables_eq (v : HVars) :
    varsToVariables v = letters v ++ (if v.scal > 0 then 'S' :: dec02 v.scal.toNat else []) := rfl

theorem letters_not_S (v : HVars) : ∀ c ∈ letters v, (c == 'S') = false := by
  intro c hc
  rw [mem_letters] at hc
  rcases hc with ⟨rfl, -⟩ | ⟨rfl, -⟩ | ⟨rfl, -⟩ | ⟨rfl, -⟩ <;> decide

theorem not_mem_dec02 (c : Char) (hc : ∀ d < 10, digitC d ≠ c) (n : Nat) : c ∉ dec02 n := by
  obtain ⟨l, -, hl, h, -⟩ := dec02_digits n
  rw [h]
  intro hm
  obtain ⟨d, hd, he⟩ := List.mem_map.mp hm
  exact hc d (hl d hd) he

theorem mem_variables (v : HVars) (c : Char) (hc : ∀ d < 10, digitC d ≠ c) (hS : c ≠ 'S') :
    c ∈ varsToVariables v ↔ c ∈ letters v := by
  rw [varsToVariables_eq, List.mem_append]
  constructor
  · rintro (h | h)
    · exact h
    · exfalso
      split at h
      · rw [List.mem_cons] at h
        rcases h with h | h
        · exact hS h
        · exact not_mem_dec02 c hc _ h
      · simp at h
  · exact Or.inl

/-- The counts for which the variable string is defined: all components or none. -/
def HVars.Ok (v : HVars) (d : Nat) : Prop :=
  (v.pos = 0 ∨ v.pos = d) ∧ (v.vel = 0 ∨ v.vel = d) ∧ v.pres ≤ 1 ∧ v.temp ≤ 1 ∧ 0 ≤ v.scal

theorem variables_inverse (v : HVars) (d : Nat) (hd : 0 < d) (hv : v.Ok d) : variablesToVars (varsToVariables v) d = .ok v := by
  have hX : 'X' ∈ varsToVariables v ↔ 0 < v.pos := by
    rw [mem_variables v _ (by decide) (by decide), mem_letters]; simp
  have hU : 'U' ∈ varsToVariables v ↔ 0 < v.vel := by
    rw [mem_variables v _ (by decide) (by decide), mem_letters]; simp
  have hP : 'P' ∈ varsToVariables v ↔ 0 < v.pres := by
    rw [mem_variables v _ (by decide) (by decide), mem_letters]; simp
  have hT : 'T' ∈ varsToVariables v ↔ 0 < v.temp := by
    rw [mem_variables v _ (by decide) (by decide), mem_letters]; simp
  obtain ⟨h1, h2, h3, h4, h5⟩ := hv
  have e1 : (if 0 < v.pos then d else 0) = v.pos := by split <;> omega
  have e2 : (if 0 < v.vel then d else 0) = v.vel := by split <;> omega
  have e3 : (if 0 < v.pres then 1 else 0) = v.pres := by split <;> omega
  have e4 : (if 0 < v.temp then 1 else 0) = v.temp := by split <;> omega
  unfold variablesToVars
  simp only [hX, hU, hP, hT, e1, e2, e3, e4]
  by_cases hs : 0 < v.scal
  · have : cutAt (· == 'S') (varsToVariables v) = (letters v, some (dec02 v.scal.toNat)) := by
      rw [varsToVariables_eq, if_pos hs, cutAt_append _ _ _ _ (letters_not_S v) rfl]
    rw [this]
    dsimp only
    rw [pyInt_dec02]
    dsimp only
    rw [Int.toNat_of_nonneg h5]
  · have : cutAt (· == 'S') (varsToVariables v) = (letters v, none) := by
      rw [varsToVariables_eq, if_neg hs, List.append_nil, cutAt_none _ _ (letters_not_S v)]
    rw [this]
    dsimp only
    have : v.scal = 0 := by omega
    rw [← this]

theorem variables_ne_nil (v : HVars) (h : 0 < v.pos ∨ 0 < v.vel ∨ 0 < v.pres ∨ 0 < v.temp ∨ 0 < v.scal) :
    varsToVariables v ≠ [] := by
  intro h0
  rw [varsToVariables_eq, List.append_eq_nil_iff] at h0
  have hm : ∀ c, c ∉ letters v := by rw [h0.1]; simp
  rcases h with h | h | h | h | h
  · exact hm 'X' ((mem_letters v _).mpr (by simp [h]))
  · exact hm 'U' ((mem_letters v _).mpr (by simp [h]))
  · exact hm 'P' ((mem_letters v _).mpr (by simp [h]))
  · exact hm 'T' ((mem_letters v _).mpr (by simp [h]))
  · rw [if_pos h] at h0; exact absurd h0.2 (by simp)

/-- The variable string is a word of ASCII characters. -/
theorem variables_word (v : HVars) (h : 0 < v.pos ∨ 0 < v.vel ∨ 0 < v.pres ∨ 0 < v.temp ∨ 0 < v.scal) :
    IsWord (varsToVariables v) ∧ IsAscii (varsToVariables v) := by
  have key : ∀ c ∈ varsToVariables v, isSpaceC c = false ∧ c.toNat < 128 := by
    intro c hc
    rw [varsToVariables_eq, List.mem_append] at hc
    rcases hc with hc | hc
    · rw [mem_letters] at hc
      rcases hc with ⟨rfl, -⟩ | ⟨rfl, -⟩ | ⟨rfl, -⟩ | ⟨rfl, -⟩ <;> decide
    · split at hc
      · rw [List.mem_cons] at hc
        rcases hc with rfl | hc
        · decide
        · obtain ⟨l, -, hl, h, -⟩ := dec02_digits v.scal.toNat
          rw [h] at hc
          obtain ⟨d, hd, rfl⟩ := List.mem_map.mp hc
          refine ⟨isSpaceC_digitC (hl d hd), ?_⟩
          rw [digitC_toNat (hl d hd)]; have := hl d hd; omega
      · simp at hc
  exact ⟨⟨variables_ne_nil v h, fun c hc => (key c hc).1⟩, fun c hc => (key c hc).2⟩

/-- **C07**. The header made from variable counts (not all zero) stores a variable string from which the constructor
derives the same counts again; the two headers are the same. -/
theorem C07_variables (wdsz ox oy oz ne nf : Int) (t : F64) (st fid nfl : Int) (v : HVars) (h : Header)
    (hv : v.Ok (if 1 < oz then 3 else 2)) (hne : 0 < v.pos ∨ 0 < v.vel ∨ 0 < v.pres ∨ 0 < v.temp ∨ 0 < v.scal)
    (hmk : Header.make wdsz ox oy oz ne nf t st fid nfl [] (some v) = .ok h) :
    h.nbVars = v ∧ Header.make wdsz ox oy oz ne nf t st fid nfl h.vstr none = .ok h := by
  unfold Header.make at hmk ⊢
  split at hmk
  · cases hmk
  · next h1 =>
    dsimp only at hmk
    rw [if_neg (by simp)] at hmk
    have hd : (2 + if oz > 1 then 1 else 0) = if 1 < oz then 3 else 2 := by split <;> rfl
    rw [hd] at hmk
    have := Except.ok.inj hmk
    subst this
    refine ⟨rfl, ?_⟩
    rw [if_neg h1]
    dsimp only
    rw [if_pos (variables_ne_nil v hne), hd, variables_inverse v _ (by split <;> omega) hv]
    rfl

/-! ### C08 -/

/-- **C08**. Fewer than twelve words in the first 132 bytes: `IOError`. -/
theorem C08_short (b : Bytes) (l : List Text) (hw : Words blank (decodeB (b.take 132)) l) (h : l.length < 12) :
    readHeader b = .error .ioError := by
  unfold readHeader
  rw [splitT_of_words _ _ hw]
  split
  · simp at h; omega
  · rfl

/-- **C08**. A word size other than 4 and 8 is refused. -/
theorem C08_wordsize (wdsz ox oy oz ne nf : Int) (t : F64) (st fid nfl : Int) (vs : Text) (v : Option HVars)
    (h4 : wdsz ≠ 4) (h8 : wdsz ≠ 8) : Header.make wdsz ox oy oz ne nf t st fid nfl vs v = .error .valueError := by
  rw [Header.make, if_pos ⟨h4, h8⟩]

/-- **C08**. A header without variables and counts is refused. -/
theorem C08_no_variables (wdsz ox oy oz ne nf : Int) (t : F64) (st fid nfl : Int) :
    Header.make wdsz ox oy oz ne nf t st fid nfl [] none = .error .valueError := by
  rw [Header.make]
  split
  · rfl
  · dsimp only; rw [if_neg (by simp)]

theorem orValueError_ok {α : Type} {x : Option α} {a : α} (h : orValueError x = .ok a) : x = some a := by
  cases x with
  | none => cases h
  | some b => exact congrArg some (Except.ok.inj h)

/-- **C08**. A header is never misread: if `read_header` returns, then the words of the first 132 bytes are, in this
order, numerals of the values returned, the word size is 4 or 8 and the variable string is the twelfth word. -/
theorem C08_sound (b : Bytes) (h : Header) (hr : readHeader b = .ok h) :
    ∃ w0 w1 w2 w3 w4 w5 w6 w7 w8 w9 w10 more,
      Words blank (decodeB (b.take 132)) (w0 :: w1 :: w2 :: w3 :: w4 :: w5 :: w6 :: w7 :: w8 :: w9 :: w10 :: h.vstr :: more) ∧
      pyInt w1 = some h.wdsz ∧ pyInt w2 = some h.ox ∧ pyInt w3 = some h.oy ∧ pyInt w4 = some h.oz ∧
      pyInt w5 = some h.nbElems ∧ pyInt w6 = some h.nbElemsFile ∧ pyFloat w7 = some h.time ∧
      pyInt w8 = some h.istep ∧ pyInt w9 = some h.fid ∧ pyInt w10 = some h.nbFiles ∧
      (h.wdsz = 4 ∨ h.wdsz = 8) ∧ IsAscii h.vstr := by
  unfold readHeader at hr
  split at hr
  · next w0 w1 w2 w3 w4 w5 w6 w7 w8 w9 w10 vars more heq =>
    simp only [bind, Except.bind] at hr
    cases h1 : orValueError (pyInt w1) <;> rw [h1] at hr <;> first | cases hr; done | skip
    cases h2 : orValueError (pyInt w2) <;> rw [h2] at hr <;> first | cases hr; done | skip
    cases h3 : orValueError (pyInt w3) <;> rw [h3] at hr <;> first | cases hr; done | skip
    cases h4 : orValueError (pyInt w4) <;> rw [h4] at hr <;> first | cases hr; done | skip
    cases h5 : orValueError (pyInt w5) <;> rw [h5] at hr <;> first | cases hr; done | skip
    cases h6 : orValueError (pyInt w6) <;> rw [h6] at hr <;> first | cases hr; done | skip
    cases h7 : orValueError (pyFloat w7) <;> rw [h7] at hr <;> first | cases hr; done | skip
    cases h8 : orValueError (pyInt w8) <;> rw [h8] at hr <;> first | cases hr; done | skip
    cases h9 : orValueError (pyInt w9) <;> rw [h9] at hr <;> first | cases hr; done | skip
    cases h10 : orValueError (pyInt w10) <;> rw [h10] at hr <;> first | cases hr; done | skip
    dsimp only at hr
    split at hr
    · cases hr
    · next hasc =>
      unfold Header.make at hr
      split at hr
      · cases hr
      · next hw =>
        dsimp only at hr
        split at hr
        · next hne =>
          generalize hvv : variablesToVars vars _ = r at hr
          cases r with
          | error e => cases hr
          | ok v =>
            have := (Except.ok.inj hr).symm
            subst this
            refine ⟨w0, w1, w2, w3, w4, w5, w6, w7, w8, w9, w10, more, (splitT_iff _ _).mp heq, orValueError_ok h1, orValueError_ok h2,
              orValueError_ok h3, orValueError_ok h4, orValueError_ok h5, orValueError_ok h6, orValueError_ok h7,
              orValueError_ok h8, orValueError_ok h9, orValueError_ok h10, ?_, ?_⟩
            · dsimp only; by_contra hc; rw [not_or] at hc; exact hw hc
            · intro c hc
              by_contra hc'
              exact hasc ⟨c, hc, by omega⟩
        · cases hr
  · cases hr

/-! ### Examples -/

/-- A header of a three-dimensional file with 103 scalars. -/
def Samples.header : Header :=
  ⟨8, 6, 7, 2, 1203, 1203, Flt.ofRat true (5 / 4), -7, 12, 40, "XUPTS103".toList, 3, ⟨3, 3, 1, 1, 103⟩⟩

example : IsWord Samples.header.vstr ∧ IsAscii Samples.header.vstr ∧ Samples.header.text.length ≤ 132 ∧
    Header.make 8 6 7 2 1203 1203 (Flt.ofRat true (5 / 4)) (-7) 12 40 "XUPTS103".toList none = .ok Samples.header ∧
    HasDigits 13 Samples.header.time :=
  ⟨⟨by decide, by decide⟩, by unfold IsAscii; decide, by decide +kernel, by decide +kernel, by decide +kernel, 125, -2, by norm_num,
    by decide +kernel⟩

example : (⟨3, 0, 1, 0, 103⟩ : HVars).Ok (if (1 : Int) < 5 then 3 else 2) ∧
    (Header.make 4 5 5 5 9 9 0 0 0 1 [] (some ⟨3, 0, 1, 0, 103⟩)).isOk = true :=
  ⟨⟨.inr rfl, .inl rfl, by decide, by decide, by decide⟩, by decide +kernel⟩

example : readHeader (encodeT "#std 4  6  6  1          1          1  0.0".toList) = .error .ioError :=
  C08_short _ _ ((splitT_iff _ _).mp rfl) (by decide +kernel)

example : (readHeader (encodeT "#std 4 6 6 1 1 1 0.5 0 0 1 UP".toList)).isOk = true := by decide +kernel

end Pymech
