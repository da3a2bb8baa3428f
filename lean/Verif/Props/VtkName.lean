import Verif.Suite.VtkName
import Mathlib.Data.List.Basic

/-!
# The name of the file that `writevtk` writes: C95 and C96
-/

set_option autoImplicit false

namespace Pymech

namespace Spec

/-- A name is made of a stem and an extension: the last dot is neither the first nor the last character. -/
def Splits (n s e : List Char) : Prop := n = s ++ '.' :: e ∧ s ≠ [] ∧ e ≠ [] ∧ '.' ∉ e

/-- A name without extension. -/
def Bare (n : List Char) : Prop := ∀ s e, ¬ Splits n s e

/-- The name without the extension, if there is one. -/
def IsStem (n s : List Char) : Prop := (∃ e, Splits n s e) ∨ Bare n ∧ s = n

end Spec

open Spec

theorem rfindDot_none (n : List Char) : rfindDot n = none ↔ '.' ∉ n := by
  induction n with
  | nil => simp [rfindDot]
  | cons c cs ih =>
    rw [rfindDot]
    cases h : rfindDot cs with
    | some i =>
      have : '.' ∈ cs := by
        by_contra hc
        rw [ih.mpr hc] at h
        cases h
      simp [this]
    | none =>
      have := ih.mp h
      by_cases hc : c = '.'
      · simp [hc]
      · simp [hc, this, Ne.symm hc]

theorem rfindDot_append (s e : List Char) (h : '.' ∉ e) : rfindDot (s ++ '.' :: e) = some s.length := by
  induction s with
  | nil => simp [rfindDot, (rfindDot_none e).mpr h]
  | cons c cs ih =>
    rw [List.cons_append, rfindDot, ih]
    rfl

theorem rfindDot_some (n : List Char) (h : '.' ∈ n) : ∃ s e, n = s ++ '.' :: e ∧ '.' ∉ e := by
  induction n with
  | nil => cases h
  | cons c cs ih =>
    by_cases hc : '.' ∈ cs
    · obtain ⟨s, e, rfl, he⟩ := ih hc
      exact ⟨c :: s, e, rfl, he⟩
    · rcases List.mem_cons.mp h with rfl | h
      · exact ⟨[], cs, rfl, hc⟩
      · exact absurd h hc

theorem suffix_splits (n s e : List Char) (h : Splits n s e) : pathSuffix n = '.' :: e := by
  obtain ⟨rfl, hs, he, hd⟩ := h
  unfold pathSuffix
  rw [rfindDot_append s e hd]
  have h1 : 0 < s.length := List.length_pos_iff.mpr hs
  have h2 : 0 < e.length := List.length_pos_iff.mpr he
  simp only
  rw [if_pos ⟨h1, by simp; omega⟩, List.drop_left' rfl]

theorem suffix_bare (n : List Char) (h : Bare n) : pathSuffix n = [] := by
  unfold pathSuffix
  by_cases hd : '.' ∈ n
  · obtain ⟨s, e, rfl, he⟩ := rfindDot_some n hd
    rw [rfindDot_append s e he]
    simp only
    rw [if_neg]
    rintro ⟨h1, h2⟩
    refine h s e ⟨rfl, List.length_pos_iff.mp h1, ?_, he⟩
    rintro rfl
    simp at h2
  · rw [(rfindDot_none n).mpr hd]

theorem splits_or_bare (n : List Char) : (∃ s e, Splits n s e) ∨ Bare n := by
  by_cases h : ∃ s e, Splits n s e
  · exact .inl h
  · exact .inr fun s e hs => h ⟨s, e, hs⟩

theorem exists_stem (n : List Char) : ∃ s, IsStem n s := by
  rcases splits_or_bare n with ⟨s, e, h⟩ | h
  · exact ⟨s, .inl ⟨e, h⟩⟩
  · exact ⟨n, .inr ⟨h, rfl⟩⟩

theorem splits_unique (n s e s' e' : List Char) (h : Splits n s e) (h' : Splits n s' e') : s = s' ∧ e = e' := by
  have h1 := suffix_splits n s e h
  rw [suffix_splits n s' e' h'] at h1
  have he : e' = e := (List.cons.inj h1).2
  subst he
  exact ⟨List.append_cancel_right (h.1.symm.trans h'.1), rfl⟩

theorem stem_unique (n s s' : List Char) (h : IsStem n s) (h' : IsStem n s') : s = s' := by
  rcases h with ⟨e, h⟩ | ⟨h, rfl⟩ <;> rcases h' with ⟨e', h'⟩ | ⟨h', rfl⟩
  · exact (splits_unique n s e s' e' h h').1
  · exact absurd h (h' s e)
  · exact absurd h' (h s' e')
  · rfl

theorem vtkName_stem (n s : List Char) (hn : n ≠ []) (h : IsStem n s) : vtkName n = .ok (s ++ vtp) := by
  unfold vtkName withSuffix
  rcases h with ⟨e, h⟩ | ⟨h, rfl⟩
  · rw [suffix_splits n s e h]
    split
    · rw [if_neg (by simp)]
      congr 2
      rw [h.1]
      rw [List.take_left']
      simp
    · next he =>
      rw [not_not] at he
      rw [h.1, he]
  · rw [suffix_bare _ h, if_pos (by decide), if_neg hn, if_pos rfl]

/-- **C95**: the file that is written has the extension `.vtp` and otherwise the name that was given; a name with this extension is
not changed. -/
theorem C95 (n : List Char) (hn : n ≠ []) :
    ∃ s m, IsStem n s ∧ vtkName n = .ok m ∧ Splits m s ['v', 't', 'p'] ∧ vtkName m = .ok m ∧ (∀ s', Splits n s' ['v', 't', 'p'] → m = n) := by
  obtain ⟨s, hs⟩ := exists_stem n
  have hs0 : s ≠ [] := by
    rcases hs with ⟨e, h⟩ | ⟨-, rfl⟩
    · exact h.2.1
    · exact hn
  have hm : Splits (s ++ vtp) s ['v', 't', 'p'] := ⟨rfl, hs0, by simp, by decide⟩
  refine ⟨s, s ++ vtp, hs, vtkName_stem n s hn hs, hm, vtkName_stem _ s (by simp [vtp]) (.inl ⟨_, hm⟩), fun s' h => ?_⟩
  rw [stem_unique n s s' hs (.inl ⟨_, h⟩)]
  exact h.1.symm

/-- The empty name, as in `writevtk(".", data)`, is refused. -/
theorem C95_empty : vtkName [] = .error .valueError := rfl

example : vtkName "a.b.vtp".toList = .ok "a.b.vtp".toList ∧ vtkName "nek.f00001".toList = .ok "nek.vtp".toList ∧
    vtkName ".hidden".toList = .ok ".hidden.vtp".toList ∧ vtkName "end.".toList = .ok "end..vtp".toList := by decide

example : ∃ s m, IsStem "nek.f00001".toList s ∧ vtkName "nek.f00001".toList = .ok m ∧ Splits m s ['v', 't', 'p'] := by
  obtain ⟨s, m, h1, h2, h3, -⟩ := C95 "nek.f00001".toList (by decide)
  exact ⟨s, m, h1, h2, h3⟩

/-- **C96** is false in the code: the fields of two times are written to the same file. -/
theorem C96_false : "channel0.f00001".toList ≠ "channel0.f00002".toList ∧ vtkName "channel0.f00001".toList = .ok "channel0.vtp".toList ∧
    vtkName "channel0.f00002".toList = .ok "channel0.vtp".toList := by decide

/-- **C96**, the part that holds: two names give the same file if and only if they have the same stem, so that different names without extension, or with the same extension,
give different files. Missing: names that differ in the extension, see `C96_false`. -/
theorem C96_partial (a b s t : List Char) (ha : a ≠ []) (hb : b ≠ []) (hs : IsStem a s) (ht : IsStem b t) :
    (vtkName a = vtkName b ↔ s = t) ∧ ((Bare a ∧ Bare b ∨ ∃ e, Splits a s e ∧ Splits b t e) → a ≠ b → vtkName a ≠ vtkName b) := by
  have h1 : vtkName a = vtkName b ↔ s = t := by
    rw [vtkName_stem a s ha hs, vtkName_stem b t hb ht, Except.ok.injEq, List.append_cancel_right_eq]
  refine ⟨h1, ?_⟩
  rintro (⟨h, h'⟩ | ⟨e, h, h'⟩) hab hv
  · rw [stem_unique a s a hs (.inr ⟨h, rfl⟩), stem_unique b t b ht (.inr ⟨h', rfl⟩)] at h1
    exact hab (h1.mp hv)
  · rw [h1] at hv
    exact hab (by rw [h.1, h'.1, hv])

/-- Two names with the same extension. -/
example : vtkName "a.rea".toList ≠ vtkName "b.rea".toList :=
  (C96_partial "a.rea".toList "b.rea".toList ['a'] ['b'] (by decide) (by decide) (.inl ⟨"rea".toList, rfl, by decide, by decide, by decide⟩)
    (.inl ⟨"rea".toList, rfl, by decide, by decide, by decide⟩)).2
    (.inr ⟨"rea".toList, ⟨rfl, by decide, by decide, by decide⟩, ⟨rfl, by decide, by decide, by decide⟩⟩) (by decide)

end Pymech
