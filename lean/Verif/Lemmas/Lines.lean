import Verif.Spec.Words
import Verif.IO.Rea
import Mathlib.Data.List.Basic

/-!
# The lines of a text
-/

set_option autoImplicit false

namespace Pymech

open Spec

theorem linesGo_spec (t : Text) : ∀ cur : Text, '\n' ∉ cur → (cur ++ t ≠ [] → linesGo cur t ≠ []) ∧ LinesOf (cur ++ t) (linesGo cur t) := by
  induction t with
  | nil =>
    intro cur hc
    rw [List.append_nil, linesGo]
    split
    · rename_i h
      rw [h]
      exact ⟨fun h => absurd rfl h, rfl, by simp, by simp⟩
    · rename_i h
      refine ⟨fun _ => by simp, by simp, ?_, by simp⟩
      intro x hx
      rw [List.mem_singleton.mp hx]
      exact ⟨h, fun hm => hc ((List.dropLast_sublist _).subset hm)⟩
  | cons c t ih =>
    intro cur hc
    rw [linesGo]
    split
    · rename_i h
      subst h
      obtain ⟨h0, h1, h2, h3⟩ := ih [] (by simp)
      rw [List.nil_append] at h0 h1
      refine ⟨fun _ => by simp, by rw [List.flatten_cons, h1]; simp, ?_, ?_⟩
      · intro x hx
        rcases List.mem_cons.mp hx with rfl | hx
        · exact ⟨by simp, by rw [List.dropLast_concat]; exact hc⟩
        · exact h2 x hx
      · intro x hx
        by_cases ht : linesGo [] t = []
        · rw [ht] at hx
          simp at hx
        · rw [List.dropLast_cons_of_ne_nil ht] at hx
          rcases List.mem_cons.mp hx with rfl | hx
          · simp
          · exact h3 x hx
    · rename_i h
      have := ih (cur ++ [c]) (by simp [hc, Ne.symm h])
      rw [List.append_assoc] at this
      exact this

theorem lines_unique (l : List Text) : ∀ (l' : List Text) (s : Text), LinesOf s l → LinesOf s l' → l = l' := by
  have key : ∀ (x y a b : Text), x ++ a = y ++ b → x ≠ [] → y ≠ [] → '\n' ∉ x.dropLast → '\n' ∉ y.dropLast →
      (x.getLast? = some '\n' ∨ a = []) → (y.getLast? = some '\n' ∨ b = []) → x = y := by
    intro x
    induction x with
    | nil => intro y a b _ hx; exact absurd rfl hx
    | cons c x ih =>
      intro y a b h _ hy hx' hy' hxa hyb
      cases y with
      | nil => exact absurd rfl hy
      | cons d y =>
        simp only [List.cons_append, List.cons.injEq] at h
        obtain ⟨rfl, h⟩ := h
        by_cases h1 : x = []
        · subst h1
          by_cases h2 : y = []
          · rw [h2]
          · rw [List.dropLast_cons_of_ne_nil h2] at hy'
            rcases hxa with hxa | hxa
            · simp only [List.getLast?_singleton, Option.some.injEq] at hxa
              exact absurd (hxa ▸ List.mem_cons_self) hy'
            · rw [hxa, List.nil_append] at h
              have := congrArg List.length h
              rw [List.length_append, List.length_nil] at this
              exact absurd (List.length_eq_zero_iff.mp (by omega)) h2
        · by_cases h2 : y = []
          · subst h2
            rw [List.dropLast_cons_of_ne_nil h1] at hx'
            rcases hyb with hyb | hyb
            · simp only [List.getLast?_singleton, Option.some.injEq] at hyb
              exact absurd (hyb ▸ List.mem_cons_self) hx'
            · rw [hyb, List.nil_append] at h
              have := congrArg List.length h
              rw [List.length_append, List.length_nil] at this
              exact absurd (List.length_eq_zero_iff.mp (by omega)) h1
          · rw [List.dropLast_cons_of_ne_nil h1] at hx'
            rw [List.dropLast_cons_of_ne_nil h2] at hy'
            rw [List.getLast?_cons_of_ne_nil h1] at hxa
            rw [List.getLast?_cons_of_ne_nil h2] at hyb
            rw [ih y a b h h1 h2 (fun hm => hx' (List.mem_cons_of_mem _ hm)) (fun hm => hy' (List.mem_cons_of_mem _ hm)) hxa hyb]
  induction l with
  | nil =>
    rintro l' s ⟨rfl, -, -⟩ ⟨h, h2, -⟩
    cases l' with
    | nil => rfl
    | cons x l' =>
      rw [List.flatten_cons, List.flatten_nil] at h
      exact absurd (List.append_eq_nil_iff.mp h).1 (h2 x List.mem_cons_self).1
  | cons x l ih =>
    rintro l' s ⟨rfl, h2, h3⟩ ⟨g1, g2, g3⟩
    cases l' with
    | nil =>
      rw [List.flatten_cons, List.flatten_nil] at g1
      exact absurd (List.append_eq_nil_iff.mp g1.symm).1 (h2 x List.mem_cons_self).1
    | cons y l' =>
      rw [List.flatten_cons, List.flatten_cons] at g1
      have last : ∀ (x : Text) (l : List Text), (∀ z ∈ (x :: l).dropLast, z.getLast? = some '\n') → x.getLast? = some '\n' ∨ l.flatten = [] := by
        intro x l h
        by_cases hl : l = []
        · right
          rw [hl]
          rfl
        · left
          rw [List.dropLast_cons_of_ne_nil hl] at h
          exact h x List.mem_cons_self
      have tail : ∀ (x : Text) (l : List Text), (∀ z ∈ (x :: l).dropLast, z.getLast? = some '\n') → ∀ z ∈ l.dropLast, z.getLast? = some '\n' := by
        intro x l h z hz
        by_cases hl : l = []
        · rw [hl] at hz
          simp at hz
        · rw [List.dropLast_cons_of_ne_nil hl] at h
          exact h z (List.mem_cons_of_mem _ hz)
      have hxy : x = y := key x y _ _ g1.symm (h2 x List.mem_cons_self).1 (g2 y List.mem_cons_self).1 (h2 x List.mem_cons_self).2
        (g2 y List.mem_cons_self).2 (last x l h3) (last y l' g3)
      subst hxy
      rw [ih l' l.flatten ⟨rfl, fun z hz => h2 z (List.mem_cons_of_mem _ hz), tail x l h3⟩
        ⟨List.append_cancel_left g1, fun z hz => g2 z (List.mem_cons_of_mem _ hz), tail x l' g3⟩]

/-- **C22**, the lines: the reader takes a file apart into its lines, a last line without line feed included. -/
theorem C22_lines (s : Text) (l : List Text) : linesT s = l ↔ LinesOf s l := by
  have h := (linesGo_spec s [] (by simp)).2
  rw [List.nil_append] at h
  exact ⟨fun e => e ▸ h, fun g => lines_unique _ _ s h g⟩

example : LinesOf "a b\n\nc".toList ["a b\n".toList, ['\n'], ['c']] := (C22_lines _ _).mp (by decide)

end Pymech
