import Verif.IO.Newlines
import Verif.Props.ReaCropWritten
import Verif.Props.Rea

/-!
# C129: line ends in `.rea` files
-/

set_option autoImplicit false

namespace Pymech

open Spec

namespace Spec

/-- How a line ends. -/
inductive Ending | unix | dos | mac
  deriving DecidableEq

/-- The characters that end a line. -/
def Ending.chars : Ending → Text
  | .unix => ['\n']
  | .dos => ['\r', '\n']
  | .mac => ['\r']

/-- A text: lines with their ends, then a line without end. -/
def textOf (L : List (Text × Ending)) (t : Text) : Text := (L.flatMap fun l => l.1 ++ l.2.chars) ++ t

/-- An empty line that ends with `\n` does not follow a line that ends with `\r` (together they would be one line end). -/
def Distinct : List (Text × Ending) → Prop
  | [] => True
  | [_] => True
  | a :: b :: L => (a.2 = .mac → b.2 = .unix → b.1 ≠ []) ∧ Distinct (b :: L)

instance decDistinct : (L : List (Text × Ending)) → Decidable (Distinct L)
  | [] => inferInstanceAs (Decidable True)
  | [_] => inferInstanceAs (Decidable True)
  | a :: b :: L => by
    have := decDistinct (b :: L)
    exact inferInstanceAs (Decidable ((a.2 = .mac → b.2 = .unix → b.1 ≠ []) ∧ Distinct (b :: L)))

/-- A piece of a line. -/
def Unbroken (l : Text) : Prop := '\n' ∉ l ∧ '\r' ∉ l

instance (l : Text) : Decidable (Unbroken l) := inferInstanceAs (Decidable (_ ∧ _))

end Spec

theorem univ_nil : univ [] = [] := by unfold univ; rfl

theorem univ_cons {c : Char} (h : c ≠ '\r') (s : Text) : univ (c :: s) = c :: univ s := by
  rw [univ.eq_def]
  exact if_neg h

theorem univ_dos (s : Text) : univ ('\r' :: '\n' :: s) = '\n' :: univ s := by
  rw [univ.eq_def]
  dsimp only
  rw [if_pos rfl, if_pos rfl]

theorem univ_mac (s : Text) (h : ∀ t, s ≠ '\n' :: t) : univ ('\r' :: s) = '\n' :: univ s := by
  cases s with
  | nil => rfl
  | cons d t =>
    rw [univ.eq_def]
    dsimp only
    rw [if_pos rfl, if_neg]
    rintro rfl
    exact h t rfl

/-- A text without `\r` is read as it is. -/
theorem univ_plain (s : Text) (h : '\r' ∉ s) : univ s = s := by
  induction s with
  | nil => exact univ_nil
  | cons c s ih =>
    rw [List.mem_cons, not_or] at h
    rw [univ_cons (Ne.symm h.1), ih h.2]

theorem univ_append (l s : Text) (h : '\r' ∉ l) : univ (l ++ s) = l ++ univ s := by
  induction l with
  | nil => rfl
  | cons c l ih =>
    rw [List.mem_cons, not_or] at h
    rw [List.cons_append, univ_cons (Ne.symm h.1), ih h.2, List.cons_append]

theorem textOf_cons (a : Text × Ending) (L : List (Text × Ending)) (t : Text) : textOf (a :: L) t = a.1 ++ a.2.chars ++ textOf L t := by
  unfold textOf
  rw [List.flatMap_cons, List.append_assoc]

theorem textOf_head (L : List (Text × Ending)) (t : Text) (hL : ∀ l ∈ L, Unbroken l.1) (ht : Unbroken t) (u : Text) (h : textOf L t = '\n' :: u) :
    ∃ b R, L = b :: R ∧ b.2 = .unix ∧ b.1 = [] := by
  cases L with
  | nil =>
    unfold textOf at h
    rw [List.flatMap_nil, List.nil_append] at h
    exact absurd (h ▸ List.mem_cons_self) ht.1
  | cons b R =>
    refine ⟨b, R, rfl, ?_⟩
    rw [textOf_cons] at h
    obtain ⟨l, e⟩ := b
    cases l with
    | nil =>
      cases e with
      | unix => exact ⟨rfl, rfl⟩
      | dos => cases h
      | mac => cases h
    | cons c l =>
      have : c = '\n' := (List.cons.inj h).1
      exact absurd (this ▸ List.mem_cons_self) (hL _ List.mem_cons_self).1

/-- All lines end with `\n`. -/
theorem univ_textOf (L : List (Text × Ending)) (t : Text) (hL : ∀ l ∈ L, Unbroken l.1) (ht : Unbroken t) (hd : Distinct L) :
    univ (textOf L t) = textOf (L.map fun l => (l.1, .unix)) t := by
  induction L with
  | nil => exact univ_plain _ ht.2
  | cons a L ih =>
    have hL' : ∀ l ∈ L, Unbroken l.1 := fun l hl => hL l (List.mem_cons_of_mem _ hl)
    have hd' : Distinct L := by
      cases L with
      | nil => trivial
      | cons b R => exact hd.2
    rw [List.map_cons, textOf_cons, textOf_cons, List.append_assoc, univ_append _ _ (hL a List.mem_cons_self).2, ← ih hL' hd', List.append_assoc]
    congr 1
    obtain ⟨l, e⟩ := a
    cases e with
    | unix => exact univ_cons (by decide) _
    | dos => exact univ_dos _
    | mac =>
      refine univ_mac _ fun u hu => ?_
      obtain ⟨b, R, rfl, h1, h2⟩ := textOf_head L t hL' ht u hu
      exact hd.1 rfl h1 h2

/-- **C129**: the line ends of a `.rea` file do not matter. Whatever end each line has, the file reads like the one in which all lines end
with `\n`; and a file without `\r` is read as it is. -/
theorem C129 (native : Endian) (L : List (Text × Ending)) (t : Text) (hL : ∀ l ∈ L, Unbroken l.1) (ht : Unbroken t) (hd : Distinct L) :
    readreaFile native (textOf L t) = readrea native (textOf (L.map fun l => (l.1, .unix)) t) := by
  unfold readreaFile
  rw [univ_textOf L t hL ht hd]

theorem C129_plain (native : Endian) (s : Text) (h : '\r' ∉ s) : readreaFile native s = readrea native s := by
  unfold readreaFile
  rw [univ_plain s h]

/-- Three kinds of lines, a line that is not ended, and an empty line. -/
example (native : Endian) : readreaFile native "a\r\n\nb c\r\rd\ne".toList = readrea native "a\n\nb c\n\nd\ne".toList :=
  C129 native [("a".toList, .dos), ([], .unix), ("b c".toList, .mac), ([], .mac), ("d".toList, .unix)] "e".toList (by decide) (by decide) (by decide)

/-! ### Truncated files -/

theorem univ_take (s : Text) (m : Nat) : ∃ k, univ (s.take m) = (univ s).take k := by
  induction hn : s.length using Nat.strong_induction_on generalizing s m with
  | _ n ih =>
    subst hn
    cases m with
    | zero => exact ⟨0, by rw [List.take_zero, List.take_zero, univ_nil]⟩
    | succ m =>
      cases s with
      | nil => exact ⟨0, by rw [List.take_nil, univ_nil, List.take_zero]⟩
      | cons c s =>
        rw [List.take_succ_cons]
        by_cases hc : c = '\r'
        · subst hc
          by_cases hs : ∃ t, s = '\n' :: t
          · obtain ⟨t, rfl⟩ := hs
            cases m with
            | zero =>
              refine ⟨1, ?_⟩
              rw [univ_dos, List.take_zero, univ_mac _ (by simp), univ_nil, List.take_succ_cons, List.take_zero]
            | succ m =>
              obtain ⟨k, hk⟩ := ih t.length (by simp only [List.length_cons]; omega) t m rfl
              refine ⟨k + 1, ?_⟩
              rw [List.take_succ_cons, univ_dos, univ_dos, hk, List.take_succ_cons]
          · push Not at hs
            obtain ⟨k, hk⟩ := ih s.length (by simp only [List.length_cons]; omega) s m rfl
            refine ⟨k + 1, ?_⟩
            rw [univ_mac s hs, univ_mac, hk, List.take_succ_cons]
            intro t ht
            cases m with
            | zero => cases ht
            | succ m =>
              cases s with
              | nil => cases ht
              | cons d u =>
                rw [List.take_succ_cons] at ht
                exact hs u (by rw [(List.cons.inj ht).1])
        · obtain ⟨k, hk⟩ := ih s.length (by simp only [List.length_cons]; omega) s m rfl
          refine ⟨k + 1, ?_⟩
          rw [univ_cons hc, univ_cons hc, hk, List.take_succ_cons]

/-- **C129** for truncated files: what **C121** says holds for files with any line ends. -/
theorem C129_truncated (native : Endian) (s : Text) (m : Nat) (M M' : HexaData F64) (h : readreaFile native s = .ok M)
    (h' : readreaFile native (s.take m) = .ok M') : Remains M M' := by
  unfold readreaFile at h h'
  obtain ⟨k, hk⟩ := univ_take s m
  rw [hk] at h'
  exact C121_partial native (univ s) k M M' h h'

/-! ### Written files -/

/-- No carriage return. -/
def NoCr (l : Text) : Prop := ∀ c ∈ l, c ≠ '\r'

instance (l : Text) : Decidable (NoCr l) := inferInstanceAs (Decidable (∀ c ∈ l, c ≠ '\r'))

theorem noCr_append {a b : Text} (ha : NoCr a) (hb : NoCr b) : NoCr (a ++ b) := by
  intro c hc
  rcases List.mem_append.mp hc with h | h
  · exact ha c h
  · exact hb c h

theorem noCr_blanks (n : Nat) : NoCr (List.replicate n ' ') := by
  intro c hc
  rw [List.eq_of_mem_replicate hc]
  decide

theorem noCr_digit {d : Nat} (h : d < 10) : digitC d ≠ '\r' := by interval_cases d <;> decide

theorem noCr_decI (i : Int) : NoCr (decI i) := decI_forall _ (fun _ hd => noCr_digit hd) (by decide) i

theorem noCr_rjust (n : Nat) {w : Text} (h : NoCr w) : NoCr (rjust n w) := noCr_append (noCr_blanks _) h

theorem noCr_e14 (x : F64) : NoCr (e14 x) :=
  noCr_rjust _ (fmtE_forall _ (fun _ hd => noCr_digit hd) (by decide) 'e' (Or.inr rfl) _ x)

theorem noCr_e18 (x : F64) : NoCr (e18 x) :=
  noCr_rjust _ (fmtE_forall _ (fun _ hd => noCr_digit hd) (by decide) 'e' (Or.inr rfl) _ x)

theorem noCr_label {n : Nat} {t : Name} (h : Label n t) : NoCr t := by
  intro c hc e
  have := (h.2 c hc).2.1
  rw [e] at this
  revert this
  decide

theorem noCr_quad (a : Arr F64) (d z : Nat) : NoCr (quadT a d z) :=
  noCr_append (noCr_append (noCr_append (noCr_e14 _) (noCr_e14 _)) (noCr_e14 _)) (noCr_e14 _)

theorem noCr_top (nel nd : Nat) : ∀ l ∈ topT nel nd, NoCr l := by
  have h1 : ∀ l ∈ reaParams, NoCr l := by decide +kernel
  have h2 : ∀ l ∈ reaSwitches, NoCr l := by decide +kernel
  intro l hl
  unfold topT at hl
  rw [List.mem_append, List.mem_append, List.mem_append] at hl
  rcases hl with h | h | h | h
  · unfold reaHead at h
    simp only [List.mem_cons, List.not_mem_nil, or_false] at h
    rcases h with rfl | rfl | rfl | rfl
    · decide +kernel
    · decide +kernel
    · exact noCr_append (noCr_append (by decide) (noCr_decI _)) (by decide)
    · decide +kernel
  · exact h1 l h
  · exact h2 l h
  · simp only [List.mem_cons, List.not_mem_nil, or_false] at h
    rcases h with rfl | rfl
    · decide +kernel
    · unfold reaNel
      exact noCr_append (noCr_append (noCr_append (noCr_append (noCr_append (noCr_append (by decide) (noCr_rjust _ (noCr_decI _))) (by decide))
        (noCr_decI _)) (by decide)) (noCr_rjust _ (noCr_decI _))) (by decide)

theorem noCr_geo (nd i : Nat) (a : Arr F64) : ∀ l ∈ reaGeo nd i a, NoCr l := by
  intro l hl
  unfold reaGeo at hl
  rcases List.mem_cons.mp hl with rfl | h
  · exact noCr_append (noCr_append (by decide) (noCr_rjust _ (noCr_decI _))) (by decide)
  · split at h
    · simp only [List.mem_cons, List.not_mem_nil, or_false] at h
      rcases h with rfl | rfl <;> exact noCr_quad _ _ _
    · split at h
      · simp only [List.mem_cons, List.not_mem_nil, or_false] at h
        rcases h with rfl | rfl | rfl | rfl | rfl | rfl <;> exact noCr_quad _ _ _
      · simp at h

theorem noCr_curve (nel i k : Nat) (p : Nat → F64) (t : Name) (ht : Label 3 t) : NoCr (reaCurve nel i k p t) := by
  unfold reaCurve
  have hd : NoCr (if nel < 10 ^ 3 then rjust 3 (decI (k + 1 : Nat)) ++ rjust 3 (decI (i + 1 : Nat))
    else if nel < 10 ^ 6 then rjust 2 (decI (k + 1 : Nat)) ++ rjust 6 (decI (i + 1 : Nat))
    else rjust 2 (decI (k + 1 : Nat)) ++ rjust 10 (decI (i + 1 : Nat))) := by
    split
    · exact noCr_append (noCr_rjust _ (noCr_decI _)) (noCr_rjust _ (noCr_decI _))
    · split <;> exact noCr_append (noCr_rjust _ (noCr_decI _)) (noCr_rjust _ (noCr_decI _))
  repeat' first
    | exact hd
    | exact noCr_e14 _
    | exact noCr_rjust _ (noCr_label ht)
    | apply noCr_append

theorem noCr_bc (nel : Nat) (r : BC F64) (ht : Label 2 r.typ) : NoCr (reaBC nel r) := by
  unfold reaBC ljust
  refine noCr_append (noCr_append (noCr_append (by decide) (noCr_append (noCr_label ht) (noCr_blanks _))) (by decide)) ?_
  split
  · exact noCr_append (noCr_append (noCr_append (noCr_append (noCr_append (noCr_append (noCr_rjust _ (noCr_decI _)) (noCr_rjust _ (noCr_decI _)))
      (noCr_e14 _)) (noCr_e14 _)) (noCr_e14 _)) (noCr_e14 _)) (noCr_e14 _)
  · split
    · exact noCr_append (noCr_append (noCr_append (noCr_append (noCr_append (noCr_rjust _ (noCr_decI _))
        (noCr_e14 _)) (noCr_e14 _)) (noCr_e14 _)) (noCr_e14 _)) (noCr_e14 _)
    · exact noCr_append (noCr_append (noCr_append (noCr_append (noCr_append (noCr_append (noCr_rjust _ (noCr_decI _)) (noCr_decI _))
        (noCr_e18 _)) (noCr_e18 _)) (noCr_e18 _)) (noCr_e18 _)) (noCr_e18 _)

theorem noCr_title (b : Nat) : NoCr (bcTitle b) := by
  unfold bcTitle
  split
  · decide +kernel
  · split
    · decide +kernel
    · exact noCr_append (noCr_append (by decide) (noCr_rjust _ (noCr_decI _))) (by decide)

/-- No line of the text contains a carriage return. -/
theorem noCr_lines (M : HexaData F64) (h : ReaMesh M) : ∀ l ∈ reaText M, NoCr l := by
  intro l hl
  unfold reaText at hl
  simp only [List.mem_append, List.mem_cons] at hl
  rcases hl with h1 | h1 | h1 | h1 | h1 | h1 | h1
  · exact noCr_top _ _ l h1
  · obtain ⟨i, -, h2⟩ := List.mem_flatMap.mp h1
    exact noCr_geo _ _ _ l h2
  · unfold curveTop at h1
    simp only [List.mem_cons, List.not_mem_nil, or_false] at h1
    rcases h1 with rfl | rfl
    · decide +kernel
    · exact noCr_append (noCr_append (by decide) (noCr_rjust _ (noCr_decI _))) (by decide)
  · obtain ⟨⟨i, k⟩, h2, rfl⟩ := List.mem_map.mp h1
    obtain ⟨a1, a2, a3⟩ := (mem_reaEdges M i k).mp h2
    exact noCr_curve _ _ _ _ _ (h.curv i a1 k a2)
  · rw [h1]; decide +kernel
  · unfold fieldsT at h1
    split at h1
    · rw [List.mem_singleton] at h1
      exact h1 ▸ noCr_title 0
    · obtain ⟨b, hb, h2⟩ := List.mem_flatMap.mp h1
      rcases List.mem_cons.mp h2 with rfl | h3
      · exact noCr_title b
      · obtain ⟨⟨i, f⟩, h4, rfl⟩ := List.mem_map.mp h3
        rw [mem_prod2, List.mem_range, List.mem_range] at h4
        exact noCr_bc _ _ (mark_label (h.names i h4.1 b (List.mem_range.mp hb) f h4.2))
  · have hT : ∀ l ∈ reaTail, NoCr l := by decide +kernel
    unfold restT at h1
    rcases List.mem_append.mp h1 with h2 | h2
    · split at h2
      · rw [List.mem_singleton] at h2
        rw [h2]
        decide +kernel
      · simp at h2
    · exact hT l h2

theorem platform_line (e l : Text) (h : '\n' ∉ l) : platform e (lineT l) = l ++ e := by
  unfold platform lineT
  rw [List.flatMap_append, List.flatMap_singleton, if_pos rfl]
  congr 1
  induction l with
  | nil => rfl
  | cons c l ih =>
    rw [List.mem_cons, not_or] at h
    rw [List.flatMap_cons, if_neg (Ne.symm h.1), ih h.2]
    rfl

theorem platform_lines (e : Ending) (L : List Text) (h : ∀ l ∈ L, '\n' ∉ l) :
    platform e.chars (L.map lineT).flatten = textOf (L.map fun l => (l, e)) [] := by
  induction L with
  | nil => rfl
  | cons a L ih =>
    rw [List.map_cons, List.flatten_cons, List.map_cons, textOf_cons, ← ih fun l hl => h l (List.mem_cons_of_mem _ hl),
      ← platform_line _ _ (h a List.mem_cons_self)]
    unfold platform
    rw [List.flatMap_append]

theorem distinct_same (e : Ending) (L : List Text) : Distinct (L.map fun l => (l, e)) := by
  induction L with
  | nil => trivial
  | cons a L ih =>
    cases L with
    | nil => trivial
    | cons b R =>
      refine ⟨fun h1 h2 => ?_, ih⟩
      dsimp only at h1 h2
      rw [h1] at h2
      cases h2

/-- **C129** for files written by `writerea` on any platform: they read like the text written. -/
theorem C129_written (native : Endian) (e : Ending) (M : HexaData F64) (h : ReaMesh M) :
    readreaFile native (platform e.chars (writerea M).1) = readrea native (writerea M).1 := by
  rw [writerea_ok M h]
  dsimp only
  have hl : ∀ p ∈ (reaText M).map (fun l => (l, e)), Unbroken p.1 := by
    intro p hp
    obtain ⟨l, hm, rfl⟩ := List.mem_map.mp hp
    exact ⟨reaText_lines M h l hm, fun hr => noCr_lines M h l hm _ hr rfl⟩
  rw [platform_lines e _ (reaText_lines M h), C129 native _ _ hl (by decide) (distinct_same e _), List.map_map]
  have := platform_lines .unix (reaText M) (reaText_lines M h)
  have e1 : ((fun l : Text × Ending => (l.1, Ending.unix)) ∘ fun l => (l, e)) = fun l : Text => (l, Ending.unix) := rfl
  rw [e1, ← this]
  congr 1
  unfold platform Ending.chars
  generalize ((reaText M).map lineT).flatten = s
  induction s with
  | nil => rfl
  | cons c s ih =>
    rw [List.flatMap_cons, ih]
    by_cases hc : c = '\n'
    · rw [if_pos hc, hc]; rfl
    · rw [if_neg hc]; rfl

/-- **C22** for files: written on any platform and read back, the mesh is restored. -/
theorem C129_roundtrip (native : Endian) (e : Ending) (M : HexaData F64) (h : ReaMesh M) (hb : 0 < M.nbc) (hn : M.ncurv = curvedCount M) :
    ∃ M', readreaFile native (platform e.chars (writerea M).1) = .ok M' ∧ ReaRestored M M' := by
  rw [C129_written native e M h]
  exact C22 native M h hb hn

/-- Written on Windows. -/
example : ∃ M', readreaFile .little (platform "\r\n".toList (writerea Samples.reaMesh).1) = .ok M' ∧ ReaRestored Samples.reaMesh M' :=
  C129_roundtrip .little .dos Samples.reaMesh Samples.reaMesh_ok (by decide) (by decide)

/-- The hypotheses of `C129_truncated` are met by a file with DOS line ends that lacks its last five characters (the last line has none of its own
then). -/
example : ∃ M M' : HexaData F64, readreaFile .little (platform "\r\n".toList Samples.cropText) = .ok M ∧
    readreaFile .little ((platform "\r\n".toList Samples.cropText).take ((platform "\r\n".toList Samples.cropText).length - 6)) = .ok M' ∧ Remains M M' := by
  obtain ⟨M, e, -, -⟩ := Samples.lastIs_ok (r := readreaFile .little (platform "\r\n".toList Samples.cropText)) (n := 1) (x := Samples.quarter64)
    (by decide +kernel)
  obtain ⟨M', e', -, -⟩ := Samples.lastIs_ok
    (r := readreaFile .little ((platform "\r\n".toList Samples.cropText).take ((platform "\r\n".toList Samples.cropText).length - 6))) (n := 1)
    (x := Samples.big64) (by decide +kernel)
  exact ⟨M, M', e, e', C129_truncated .little _ _ M M' e e'⟩

end Pymech
