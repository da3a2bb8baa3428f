import Verif.Spec.Rea
import Verif.Lemmas.ReaLine
import Verif.Lemmas.List
import Mathlib.Data.List.Perm.Subperm

/-!
# The lines written by `writerea`
-/

namespace Pymech
open Spec

/-! ### Generalities -/

theorem mapM_eq_ok {α β : Type} (f : α → Py β) (g : α → β) (l : List α) (h : ∀ x ∈ l, f x = .ok (g x)) : l.mapM f = .ok (l.map g) := by
  induction l with
  | nil => rfl
  | cons a l ih =>
    rw [List.mapM_cons, h a List.mem_cons_self, ih fun x hx => h x (List.mem_cons_of_mem _ hx)]
    rfl

theorem forM_ok {α : Type} (f : α → Py PUnit) (l : List α) (h : ∀ x ∈ l, f x = .ok ⟨⟩) : l.forM f = .ok ⟨⟩ := by
  induction l with
  | nil => rfl
  | cons a l ih =>
    show (f a >>= fun _ => l.forM f) = _
    rw [h a List.mem_cons_self]
    exact ih fun x hx => h x (List.mem_cons_of_mem _ hx)

theorem getElem?_prod2 (n m i j : Nat) (hi : i < n) (hj : j < m) : (prod2 (List.range n) (List.range m))[i * m + j]? = some (i, j) := by
  unfold prod2
  rw [getElem?_flatMap_range n m _ (fun _ _ => by simp) i j hi hj, List.getElem?_map, List.getElem?_range hj]
  rfl

theorem length_prod3 (n m k : Nat) : (prod3 (List.range n) (List.range m) (List.range k)).length = n * (m * k) := by
  unfold prod3
  exact length_flatMap_range n (m * k) _ fun i _ => length_flatMap_range m k _ fun _ _ => by simp

theorem getElem?_prod3 (n m k b i f : Nat) (hb : b < n) (hi : i < m) (hf : f < k) :
    (prod3 (List.range n) (List.range m) (List.range k))[(b * m + i) * k + f]? = some (b, i, f) := by
  unfold prod3
  have e : (b * m + i) * k + f = b * (m * k) + (i * k + f) := by ring
  rw [e, getElem?_flatMap_range n (m * k) _ (fun _ _ => length_flatMap_range m k _ fun _ _ => by simp) b _ hb (row_lt hi hf),
    getElem?_flatMap_range m k _ (fun _ _ => by simp) i f hi hf, List.getElem?_map, List.getElem?_range hf]
  rfl

/-! ### Words of lines -/

theorem splitGo_append (cur a : Text) (c : Char) (hc : isSpaceC c = true) (t : Text) :
    splitGo cur (a ++ c :: t) = splitGo cur a ++ splitGo [] t := by
  induction a generalizing cur with
  | nil =>
    rw [List.nil_append, splitGo.eq_2, if_pos hc, splitGo.eq_1]
    split <;> simp
  | cons d a ih =>
    rw [List.cons_append, splitGo]
    conv_rhs => rw [splitGo]
    split
    · split
      · exact ih []
      · rw [ih [], List.cons_append]
    · exact ih _

theorem splitU_append (a : Text) (c : Char) (hc : isSpaceU c = true) (t : Text) : splitU (a ++ c :: t) = splitU a ++ splitU t := by
  unfold splitU splitT
  rw [List.map_append, List.map_cons, if_pos hc, splitGo_append _ _ _ (by decide)]

theorem splitU_rjust (n : Nat) (w : Text) (hw : NoBlank w) (hne : w ≠ []) : splitU (rjust n w) = [w] := by
  have h := splitU_word n w hw hne ' ' (by decide) []
  rw [splitU_append _ _ (by decide)] at h
  simpa [splitU_nil] using h

theorem splitU_single (w : Text) (hw : NoBlank w) (hne : w ≠ []) : splitU w = [w] := by
  have h := splitU_rjust 0 w hw hne
  rwa [rjust, Nat.zero_sub] at h

theorem splitU_line (t : Text) : splitU (lineT t) = splitU t := by
  unfold lineT
  rw [splitU_append _ _ (by decide), splitU_nil, List.append_nil]

theorem isBcHead_line (t : Text) : isBcHead (lineT t) = isBcHead t := by unfold isBcHead; rw [splitU_line]

theorem intWord_of (l w : Text) (ws : List Text) (h : splitU l = w :: ws) : intWord l = orValueError (pyInt w) := by
  unfold intWord wordAt
  rw [h]
  rfl

/-! ### Lines that are no titles -/

/-- No newline and none of four letters of `BOUNDARY`. -/
def Free (l : Text) : Prop := ∀ c ∈ l, c ∉ ['B', 'O', 'U', 'D', '\n']

theorem free_append {a b : Text} (ha : Free a) (hb : Free b) : Free (a ++ b) := by
  intro c hc
  rcases List.mem_append.mp hc with h | h
  · exact ha c h
  · exact hb c h

theorem free_blanks (n : Nat) : Free (List.replicate n ' ') := by
  intro c hc
  rw [List.eq_of_mem_replicate hc]
  decide

theorem free_digits {d : Nat} (h : d < 10) : digitC d ∉ ['B', 'O', 'U', 'D', '\n'] := by interval_cases d <;> decide

theorem free_decI (i : Int) : Free (decI i) := decI_forall _ (fun _ hd => free_digits hd) (by decide) i

theorem free_fmtE (p : Nat) (x : F64) : Free (fmtE 'e' p x) := fmtE_forall _ (fun _ hd => free_digits hd) (by decide) 'e' (Or.inr rfl) p x

theorem free_rjust (n : Nat) {w : Text} (h : Free w) : Free (rjust n w) := free_append (free_blanks _) h

theorem free_e14 (x : F64) : Free (e14 x) := free_rjust _ (free_fmtE _ _)
theorem free_e18 (x : F64) : Free (e18 x) := free_rjust _ (free_fmtE _ _)

/-- A short name leaves out one of four letters. -/
theorem missing (t : Text) (h : t.length ≤ 3) : ∃ c ∈ ['B', 'O', 'U', 'D'], c ∉ t := by
  by_contra hc
  push Not at hc
  have := (List.subperm_of_subset (by decide : ['B', 'O', 'U', 'D'].Nodup) hc).length_le
  simp at this
  omega

/-- A line of data: numbers and one name. -/
theorem data_line (a t b : Text) (ha : Free a) (hb : Free b) (ht : t.length ≤ 3) (hn : '\n' ∉ t) :
    '\n' ∉ a ++ t ++ b ∧ ∀ q ∈ (a ++ t ++ b).inits, isBcHead q = false := by
  have hmem : ∀ c ∈ ['B', 'O', 'U', 'D', '\n'], c ∉ t → c ∉ a ++ t ++ b := by
    intro c hc hct hm
    rw [List.mem_append, List.mem_append] at hm
    rcases hm with (h | h) | h
    · exact ha c h hc
    · exact hct h
    · exact hb c h hc
  refine ⟨hmem _ (by decide) hn, ?_⟩
  obtain ⟨c, hc, hct⟩ := missing t ht
  intro q hq
  refine not_bcHead _ c ?_ fun hm => hmem c ?_ hct (((List.mem_inits _ _).mp hq).subset hm)
  · exact (by decide : ∀ c ∈ ['B', 'O', 'U', 'D'], c ∈ "BOUNDARY".toList) c hc
  · exact (by decide : ∀ c ∈ ['B', 'O', 'U', 'D'], c ∈ ['B', 'O', 'U', 'D', '\n']) c hc

/-- A line of numbers and text without `B`. -/
theorem plain_line (a : Text) (h : 'B' ∉ a) (hn : '\n' ∉ a) : '\n' ∉ a ∧ ∀ q ∈ a.inits, isBcHead q = false :=
  ⟨hn, fun q hq => not_bcHead _ 'B' (by decide) fun hm => h (((List.mem_inits _ _).mp hq).subset hm)⟩

theorem Free.noB {a : Text} (h : Free a) : 'B' ∉ a := fun hm => h _ hm (by decide)
theorem Free.noNl {a : Text} (h : Free a) : '\n' ∉ a := fun hm => h _ hm (by decide)

end Pymech
