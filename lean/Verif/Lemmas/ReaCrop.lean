import Verif.IO.Rea
import Verif.Lemmas.WordsU
import Verif.Lemmas.Round
import Mathlib.Data.List.Basic

/-!
# The lines of a text that lost its end
-/

set_option autoImplicit false

namespace Pymech

/-- The lines `ls'` agree with `ls` before line `K`, of which only the beginning is left; nothing follows. -/
structure Cropped (K : Nat) (ls ls' : List Text) : Prop where
  before : ∀ i < K, ls'.getD i [] = ls.getD i []
  here : ls'.getD K [] <+: ls.getD K []
  after : ∀ i, K < i → ls'.getD i [] = []

theorem linesGo_first (t : Text) : ∀ cur : Text, cur <+: (linesGo cur t).getD 0 [] := by
  induction t with
  | nil =>
    intro cur
    rw [linesGo]
    split
    · rename_i h
      simp [h]
    · simp
  | cons c t ih =>
    intro cur
    rw [linesGo]
    split
    · simp
    · exact (List.prefix_append cur [c]).trans (ih _)

theorem linesGo_crop (t : Text) : ∀ (cur : Text) (m : Nat), ∃ K, Cropped K (linesGo cur t) (linesGo cur (t.take m)) := by
  induction t with
  | nil =>
    intro cur m
    rw [List.take_nil]
    refine ⟨(linesGo cur []).length, fun _ _ => rfl, List.prefix_refl _, fun i hi => ?_⟩
    rw [List.getD_eq_getElem?_getD, List.getElem?_eq_none (by omega)]
    rfl
  | cons c t ih =>
    intro cur m
    cases m with
    | zero =>
      refine ⟨0, by omega, ?_, ?_⟩
      · rw [List.take_zero]
        refine List.IsPrefix.trans ?_ (linesGo_first (c :: t) cur)
        rw [linesGo]
        split <;> simp
      · intro i hi
        rw [List.take_zero, linesGo, List.getD_eq_getElem?_getD, List.getElem?_eq_none]
        · rfl
        · split <;> (simp; try omega)
    | succ m =>
      rw [List.take_succ_cons, linesGo, linesGo]
      split
      · obtain ⟨K, h1, h2, h3⟩ := ih [] m
        refine ⟨K + 1, fun i hi => ?_, by simpa using h2, fun i hi => ?_⟩
        · cases i with
          | zero => rfl
          | succ i => simpa using h1 i (by omega)
        · cases i with
          | zero => omega
          | succ i => simpa using h3 i (by omega)
      · exact ih _ m

theorem linesT_crop (s : Text) (m : Nat) : ∃ K, Cropped K (linesT s) (linesT (s.take m)) := linesGo_crop s [] m

/-- Lines of a kind that is not made by cutting another line do not become more. -/
theorem linesGo_count (p : Text → Bool) (t : Text) : ∀ (cur : Text) (m : Nat), (∀ l ∈ linesGo cur t, ∀ q, q <+: l → p q = true → p l = true) →
    ((linesGo cur (t.take m)).filter p).length ≤ ((linesGo cur t).filter p).length := by
  induction t with
  | nil => intro cur m _; rw [List.take_nil]
  | cons c t ih =>
    intro cur m h
    cases m with
    | zero =>
      rw [List.take_zero]
      have h0 := linesGo_first (c :: t) cur
      generalize linesGo cur (c :: t) = L at *
      rw [linesGo]
      split
      · simp
      · rename_i hc
        cases L with
        | nil =>
          simp at h0
          exact absurd h0 hc
        | cons l L =>
          by_cases hp : p cur = true
          · have : p l = true := h l (by simp) cur (by simpa using h0) hp
            simp [hp, this]
          · simp [hp]
    | succ m =>
      rw [List.take_succ_cons]
      rw [linesGo] at h
      rw [linesGo, linesGo]
      split
      · rename_i hc
        rw [if_pos hc] at h
        have := ih [] m (fun l hl => h l (List.mem_cons_of_mem _ hl))
        rw [List.filter_cons, List.filter_cons]
        split
        · simp only [List.length_cons]
          omega
        · exact this
      · rename_i hc
        rw [if_neg hc] at h
        exact ih _ m h

theorem Cropped.drop {K : Nat} {ls ls' : List Text} (h : Cropped K ls ls') (a : Nat) (ha : a ≤ K) :
    Cropped (K - a) (ls.drop a) (ls'.drop a) := by
  have e : ∀ (l : List Text) (i : Nat), (l.drop a).getD i [] = l.getD (a + i) [] := by
    intro l i
    simp [List.getD_eq_getElem?_getD, List.getElem?_drop]
  refine ⟨fun i hi => ?_, ?_, fun i hi => ?_⟩
  · rw [e, e]; exact h.before _ (by omega)
  · rw [e, e, show a + (K - a) = K by omega]; exact h.here
  · rw [e]; exact h.after _ (by omega)

theorem getD_drop (l : List Text) (a i : Nat) : (l.drop a).getD i [] = l.getD (a + i) [] := by
  simp [List.getD_eq_getElem?_getD, List.getElem?_drop]

/-- A line that is not empty is not behind the place of the cut. -/
theorem Cropped.le {K : Nat} {ls ls' : List Text} (h : Cropped K ls ls') (i : Nat) (hi : ls'.getD i [] ≠ []) : i ≤ K := by
  by_contra hc
  exact hi (h.after i (by omega))

theorem py_bind {α β : Type} {x : Py α} {f : α → Py β} {b : β} : (x >>= f) = .ok b ↔ ∃ a, x = .ok a ∧ f a = .ok b := by
  cases x with
  | error e => simp [bind, Except.bind]
  | ok a => simp [bind, Except.bind]

theorem intWord_ne {l : Text} {n : Int} (h : intWord l = .ok n) : l ≠ [] := by
  rintro rfl
  have : intWord [] = .error .indexError := by decide +kernel
  rw [this] at h
  cases h

theorem floatWord_ne {l : Text} {k : Nat} {x : F64} (h : floatWord l k = .ok x) : l ≠ [] := by
  rintro rfl
  have : floatWord [] k = .error .indexError := by
    unfold floatWord wordAt
    have : splitU [] = [] := by decide
    rw [this]
    rfl
  rw [this] at h
  cases h

theorem colFloat_long {l : Text} {a b : Nat} {x : F64} (h : colFloat l a b = .ok x) : a < l.length := by
  by_contra hc
  have e : cols l a b = [] := by
    unfold cols
    rw [List.drop_of_length_le (by omega), List.take_nil]
  unfold colFloat at h
  rw [e] at h
  have : (orValueError (pyFloat (stripT [])) : Py F64) = .error .valueError := by decide +kernel
  rw [this] at h
  cases h

theorem wordAt_long {l : Text} {a b : Nat} {t : Text} (h : wordAt (cols l a b) 0 = .ok t) : a < l.length := by
  by_contra hc
  have e : cols l a b = [] := by
    unfold cols
    rw [List.drop_of_length_le (by omega), List.take_nil]
  rw [e] at h
  have : wordAt [] 0 = .error .indexError := by decide
  rw [this] at h
  cases h

theorem cols_prefix {q l : Text} (h : q <+: l) (a b : Nat) (hb : b ≤ q.length) : cols q a b = cols l a b := by
  obtain ⟨r, rfl⟩ := h
  unfold cols
  by_cases ha : a ≤ q.length
  · rw [List.drop_append_of_le_length ha, List.take_append_of_le_length (by rw [List.length_drop]; omega)]
  · rw [show b - a = 0 by omega, List.take_zero, List.take_zero]

theorem cols_cut {q l : Text} (h : q <+: l) (a b : Nat) : cols q a b <+: cols l a b := by
  unfold cols
  exact (h.drop a).take _

open Spec in
/-- The first word of the beginning of a text is the beginning of its first word. -/
theorem words_first {q : Text} {w : Text} {ws : List Text} (h : Words white q (w :: ws)) (l : Text) (hl : q <+: l) :
    ∃ v vs, Words white l (v :: vs) ∧ w <+: v := by
  obtain ⟨r, rfl⟩ := hl
  cases h with
  | @more s _ t _ hs hne hw ht hrest =>
    obtain ⟨vs, hvs⟩ : ∃ vs, Words white (t ++ r) vs := ⟨_, (splitU_iff _ _).mp rfl⟩
    by_cases htn : t = []
    · subst htn
      refine ⟨w ++ r.takeWhile fun c => !white c, splitU (r.dropWhile fun c => !white c), ?_, List.prefix_append _ _⟩
      have e : s ++ w ++ [] ++ r = s ++ (w ++ r.takeWhile fun c => !white c) ++ r.dropWhile fun c => !white c := by
        simp
      rw [e]
      refine .more hs (by simp [hne]) ?_ ?_ ((splitU_iff _ _).mp rfl)
      · intro c hc
        rcases List.mem_append.mp hc with hc | hc
        · exact hw c hc
        · simpa using List.all_eq_true.mp List.all_takeWhile c hc
      · intro c hc
        have := List.head?_dropWhile_not (fun c => !white c) r
        rw [Option.mem_def.mp hc] at this
        simpa using this
    · refine ⟨w, vs, ?_, List.prefix_refl _⟩
      rw [List.append_assoc]
      refine .more hs hne hw ?_ hvs
      intro c hc
      apply ht
      cases t with
      | nil => exact absurd rfl htn
      | cons d t => simpa using hc

theorem wordAt_cut {q l : Text} (h : q <+: l) {t u : Text} (hq : wordAt q 0 = .ok t) (hl : wordAt l 0 = .ok u) : t ≠ [] ∧ t <+: u := by
  unfold wordAt at hq hl
  cases hs : splitU q with
  | nil => rw [hs] at hq; cases hq
  | cons w ws =>
    rw [hs] at hq
    cases hq
    have hw := (splitU_iff _ _).mp hs
    obtain ⟨v, vs, hv, hp⟩ := words_first hw l h
    rw [splitU_of_words hv] at hl
    cases hl
    refine ⟨?_, hp⟩
    cases hw with
    | more _ hne _ _ _ => exact hne

end Pymech
