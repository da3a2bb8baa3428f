import Verif.Lemmas.Words
import Verif.Lemmas.Re2
import Verif.Lemmas.ReaLine

/-!
# `split()` and `strip()` of strings
-/

set_option autoImplicit false

namespace Pymech

open Spec

/-- White characters are replaced by blanks. -/
def blanked (s : Text) : Text := s.map fun c => if isSpaceU c then ' ' else c

theorem blanked_white (s : Text) (h : ∀ c ∈ s, white c = true) : ∀ c ∈ blanked s, blank c = true := by
  intro c hc
  obtain ⟨d, hd, rfl⟩ := List.mem_map.mp hc
  rw [isSpaceU_eq, h d hd]
  rfl

theorem blank_white (c : Char) (h : blank c = true) : white c = true := by
  unfold blank at h
  unfold white
  simp only [List.contains_eq_mem, List.mem_cons, List.not_mem_nil, or_false, decide_eq_true_eq] at h ⊢
  omega

theorem blanked_word (w : Text) (h : ∀ c ∈ w, white c = false) : blanked w = w := by
  unfold blanked
  conv_rhs => rw [← List.map_id w]
  apply List.map_congr_left
  intro c hc
  rw [isSpaceU_eq, h c hc]
  rfl

theorem words_blanked {s : Text} {l : List Text} (h : Words white s l) : Words blank (blanked s) l := by
  induction h with
  | none hs => exact .none (blanked_white _ hs)
  | @more s w t l hs hne hw ht _ ih =>
    have e : blanked (s ++ w ++ t) = blanked s ++ w ++ blanked t := by
      conv_rhs => rw [← blanked_word w hw]
      unfold blanked
      rw [List.map_append, List.map_append]
    rw [e]
    refine .more (blanked_white _ hs) hne (fun c hc => ?_) ?_ ih
    · by_contra hb
      have := blank_white c (by simpa using hb)
      rw [hw c hc] at this
      cases this
    · intro c hc
      unfold blanked at hc
      rw [List.head?_map] at hc
      obtain ⟨d, hd, rfl⟩ := Option.map_eq_some_iff.mp hc
      rw [isSpaceU_eq, ht d hd]
      rfl

/-- `split()` returns the words of a string. -/
theorem splitU_of_words {s : Text} {l : List Text} (h : Words white s l) : splitU s = l := splitT_of_words _ _ (words_blanked h)

theorem white_blanked (s : Text) (h : ∀ c ∈ blanked s, blank c = true) : ∀ c ∈ s, white c = true := by
  intro c hc
  have := h _ (List.mem_map.mpr ⟨c, hc, rfl⟩)
  rw [isSpaceU_eq] at this
  split at this
  · assumption
  · exact blank_white c this

theorem word_blanked (w : Text) (h : ∀ c ∈ blanked w, blank c = false) : ∀ c ∈ w, white c = false := by
  intro c hc
  have := h _ (List.mem_map.mpr ⟨c, hc, rfl⟩)
  rw [isSpaceU_eq] at this
  split at this
  · cases this
  · rename_i hw
    simpa using hw

theorem words_of_blanked {s' : Text} {l : List Text} (h : Words blank s' l) : ∀ s, blanked s = s' → Words white s l := by
  induction h with
  | none hs =>
    intro s e
    subst e
    exact .none (white_blanked _ hs)
  | @more a w t l hs hne hw ht _ ih =>
    intro s e
    obtain ⟨s1, s2, rfl, e1, e2⟩ := List.map_eq_append_iff.mp e
    obtain ⟨s3, s4, rfl, e3, e4⟩ := List.map_eq_append_iff.mp e1
    have hw4 := word_blanked s4 (by unfold blanked; rw [e4]; exact hw)
    have : s4 = w := by rw [← e4]; exact (blanked_word s4 hw4).symm
    subst this
    refine .more (white_blanked s3 (by unfold blanked; rw [e3]; exact hs)) hne hw4 ?_ (ih s2 e2)
    intro c hc
    have := ht _ (by rw [← e2, List.head?_map, hc]; rfl)
    dsimp only at this
    rw [isSpaceU_eq] at this
    split at this
    · assumption
    · exact blank_white c this

/-- `split()` of a string returns its words, and there is only one way to divide it into words. -/
theorem splitU_iff (s : Text) (l : List Text) : splitU s = l ↔ Words white s l :=
  ⟨fun h => words_of_blanked ((splitT_iff _ _).mp h) s rfl, splitU_of_words⟩

/-- `strip()` removes white space at both ends. -/
theorem stripT_pad (u w v : Text) (hu : ∀ c ∈ u, white c = true) (hv : ∀ c ∈ v, white c = true) (hw : ∀ c ∈ w, white c = false) :
    stripT (u ++ w ++ v) = w := by
  unfold stripT rstripT
  have h1 : ∀ (a b : Text), (∀ c ∈ a, white c = true) → (a ++ b).dropWhile isSpaceU = b.dropWhile isSpaceU := by
    intro a b ha
    induction a with
    | nil => rfl
    | cons c a ih =>
      rw [List.cons_append, List.dropWhile_cons_of_pos (by rw [isSpaceU_eq]; exact ha c List.mem_cons_self)]
      exact ih fun d hd => ha d (List.mem_cons_of_mem _ hd)
  have h2 : ∀ b : Text, (∀ c ∈ b, white c = false) → b.dropWhile isSpaceU = b := by
    intro b hb
    cases b with
    | nil => rfl
    | cons c b => rw [List.dropWhile_cons_of_neg (by rw [isSpaceU_eq, hb c List.mem_cons_self]; decide)]
  have h3 : ∀ a : Text, (∀ c ∈ a, white c = true) → a.dropWhile isSpaceU = [] := by
    intro a ha
    have := h1 a [] ha
    rwa [List.append_nil] at this
  rw [List.append_assoc, h1 _ _ hu]
  cases w with
  | nil => rw [List.nil_append, h3 v hv]; rfl
  | cons c w =>
    rw [List.cons_append, List.dropWhile_cons_of_neg (by rw [isSpaceU_eq, hw c List.mem_cons_self]; decide), ← List.cons_append,
      List.reverse_append, h1 _ _ (fun d hd => hv d (List.mem_reverse.mp hd)), h2 _ (fun d hd => hw d (List.mem_reverse.mp hd)), List.reverse_reverse]

end Pymech
