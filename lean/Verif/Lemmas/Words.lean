import Verif.Spec.Words
import Verif.Lemmas.Text

/-!
# `split()` finds the words
-/

set_option autoImplicit false

namespace Pymech

open Spec

theorem isSpaceC_eq (c : Char) : isSpaceC c = blank c := by
  rw [Bool.eq_iff_iff]
  unfold isSpaceC blank
  simp only [Bool.or_eq_true, beq_iff_eq, Bool.and_eq_true, decide_eq_true_eq, List.contains_eq_mem, List.mem_cons, List.not_mem_nil, or_false]
  omega

theorem splitGo_white (s t : Text) (h : ∀ c ∈ s, blank c = true) : splitGo [] (s ++ t) = splitGo [] t := by
  induction s with
  | nil => rfl
  | cons c s ih =>
    rw [List.cons_append, splitGo, if_pos (by rw [isSpaceC_eq]; exact h c List.mem_cons_self), if_pos rfl]
    exact ih fun d hd => h d (List.mem_cons_of_mem _ hd)

theorem splitT_of_words (s : Text) (l : List Text) (h : Words blank s l) : splitT s = l := by
  induction h with
  | @none s hs =>
    have := splitGo_white s [] hs
    rw [List.append_nil] at this
    exact this
  | @more s w t l hs hne hw ht _ ih =>
    unfold splitT at ih ⊢
    rw [List.append_assoc, splitGo_white s _ hs, splitGo_word _ _ _ fun c hc => by rw [isSpaceC_eq]; exact hw c hc, List.nil_append]
    cases t with
    | nil =>
      have hl : l = [] := by rw [← ih]; rfl
      rw [splitGo, if_neg hne, hl]
    | cons c t =>
      have hc : isSpaceC c = true := by rw [isSpaceC_eq]; exact ht c rfl
      rw [splitGo, if_pos hc, if_neg hne]
      rw [splitGo, if_pos hc, if_pos rfl] at ih
      rw [ih]

theorem splitGo_words (t : Text) : ∀ cur : Text, (∀ c ∈ cur, blank c = false) → Words blank (cur ++ t) (splitGo cur t) := by
  induction t with
  | nil =>
    intro cur hc
    rw [List.append_nil, splitGo]
    split
    · rename_i h
      subst h
      exact .none (by simp)
    · rename_i h
      have := Words.more (ws := blank) (s := []) (w := cur) (t := []) (l := []) (by simp) h hc (by simp) (.none (by simp))
      simpa using this
  | cons c t ih =>
    intro cur hc
    rw [splitGo, isSpaceC_eq]
    split
    · rename_i hb
      have h0 := ih [] (by simp)
      rw [List.nil_append] at h0
      have hcons : Words blank (c :: t) (splitGo [] t) := by
        generalize splitGo [] t = l at h0
        cases h0 with
        | none hs => exact .none fun d hd => (List.mem_cons.mp hd).elim (fun e => e ▸ hb) (hs d)
        | @more s w t l hs hne hw ht hl =>
          exact Words.more (s := c :: s) (fun d hd => (List.mem_cons.mp hd).elim (fun e => e ▸ hb) (hs d)) hne hw ht hl
      split
      · rename_i h
        rw [h]
        exact hcons
      · rename_i h
        exact Words.more (s := []) (w := cur) (t := c :: t) (by simp) h hc
          (fun d hd => by rw [← Option.some.inj hd]; exact hb) hcons
    · rename_i hb
      have := ih (cur ++ [c]) fun d hd => by
        rcases List.mem_append.mp hd with hd | hd
        · exact hc d hd
        · rw [List.mem_singleton.mp hd]
          exact Bool.eq_false_iff.mpr hb
      rw [List.append_assoc] at this
      exact this

/-- `split()` returns the words of a text, and there is only one way to divide a text into words. -/
theorem splitT_iff (s : Text) (l : List Text) : splitT s = l ↔ Words blank s l :=
  ⟨fun h => h ▸ splitGo_words s [] (by simp), splitT_of_words s l⟩

end Pymech
