import Verif.Lemmas.Merge
import Verif.Mesh.Internal
import Verif.Samples

/-!
# C52 `delete_internal_bcs`
-/

set_option linter.unusedSectionVars false

namespace Pymech

open Spec

variable {F : Type} [Field F] [LinearOrder F] [IsStrictOrderedRing F] [FloorRing F]

namespace Spec

/-- All positions (element, field, face) of a mesh whose record satisfies `p`; six faces per element whatever the
dimension. -/
def positions (M : HexaData F) (p : BC F → Bool) : List (Nat × Nat × Nat) :=
  (prod3 (List.range M.elem.length) (List.range M.nbc) (List.range 6)).filter fun t => p (M.bc t.1 t.2.1 t.2.2)

/-- An absent condition: empty name and seven zeros. -/
def blankBC : BC F := ⟨[], 0, 0, 0, 0, 0, 0, 0⟩

end Spec

theorem delete_el (M : HexaData F) (e : Nat) (he : e < M.elem.length) :
    (deleteInternalBcs M).1.el e = (M.el e).mapBC M.nbc 6 BC.clearE := by
  have h2 : e < (deleteInternalBcs M).1.elem.length := by simp [deleteInternalBcs, he]
  rw [HexaData.el_eq_getElem _ e h2, HexaData.el_eq_getElem _ e he]
  simp [deleteInternalBcs]

theorem delete_frame (M : HexaData F) : Frame M (deleteInternalBcs M).1 := by
  refine ⟨rfl, by simp [deleteInternalBcs], fun i hi => ?_⟩
  rw [delete_el M i hi]; rfl

theorem delete_bc (M : HexaData F) (e b f : Nat) (he : e < M.elem.length) :
    (deleteInternalBcs M).1.bc e b f = if b < M.nbc ∧ f < 6 then BC.clearE (M.bc e b f) else M.bc e b f := by
  unfold HexaData.bc; rw [delete_el M e he]; rfl

theorem length_flatMap' {α β : Type} (l : List α) (g : α → List β) : (l.flatMap g).length = (l.map fun a => (g a).length).sum := by
  induction l with
  | nil => rfl
  | cons a l ih => simp [ih]

theorem filter_flatMap' {α β : Type} (l : List α) (g : α → List β) (p : β → Bool) :
    (l.flatMap g).filter p = l.flatMap fun a => (g a).filter p := by
  induction l with
  | nil => rfl
  | cons a l ih => simp [ih]

theorem map_range_getD {α β : Type} (l : List α) (d : α) (g : α → β) :
    (List.range l.length).map (fun i => g (l.getD i d)) = l.map g := by
  apply List.ext_getElem
  · simp
  · intro i h1 h2
    simp at h1 h2
    simp [h1]

theorem countE_eq (M : HexaData F) :
    (deleteInternalBcs M).2 = (positions M fun r => decide (r.typ = nE)).length := by
  unfold positions prod3 deleteInternalBcs
  rw [filter_flatMap', length_flatMap']
  rw [← map_range_getD M.elem Elem.blank fun el => el.countE M.nbc]
  refine congrArg List.sum ?_
  apply List.map_congr_left
  intro e _
  unfold Elem.countE prod2
  rw [filter_flatMap', filter_flatMap', length_flatMap', length_flatMap']
  congr 1
  apply List.map_congr_left
  intro b _
  simp only [List.filter_map, List.length_map]
  rfl

/-- **C52.** `delete_internal_bcs` changes only conditions; each `'E'` becomes blank with all numbers zero, every other
condition stays; the result has no `'E'`, and the value returned is the number of `'E'` there were. -/
theorem delete_internal_bcs_spec (M : HexaData F) :
    let M' := (deleteInternalBcs M).1
    M' = { M with elem := M'.elem } ∧ M'.elem.length = M.elem.length ∧
    (∀ e < M.elem.length, M'.el e = { M.el e with bcs := (M'.el e).bcs }) ∧
    (∀ e < M.elem.length, ∀ b < M.nbc, ∀ f < 6,
      ((M.bc e b f).typ = nE → M'.bc e b f = blankBC) ∧ ((M.bc e b f).typ ≠ nE → M'.bc e b f = M.bc e b f)) ∧
    (∀ e < M.elem.length, ∀ b < M.nbc, ∀ f < 6, (M'.bc e b f).typ ≠ nE) ∧
    (deleteInternalBcs M).2 = (positions M fun r => decide (r.typ = nE)).length := by
  intro M'
  have F := delete_frame M
  refine ⟨F.hdr, F.len, F.el, ?_, ?_, countE_eq M⟩
  · intro e he b hb f hf
    have := delete_bc M e b f he
    rw [if_pos ⟨hb, hf⟩] at this
    constructor
    · intro h; rw [this, BC.clearE, if_pos h]; rfl
    · intro h; rw [this, BC.clearE, if_neg h]
  · intro e he b hb f hf
    rw [delete_bc M e b f he, if_pos ⟨hb, hf⟩, BC.clearE]
    split_ifs with h
    · exact fun h => by cases h
    · exact h

example : (deleteInternalBcs Samples.channel).2 = 8 := by decide +kernel
example : ((deleteInternalBcs Samples.channel).1.bc 0 0 1).typ = [] ∧ ((deleteInternalBcs Samples.channel).1.bc 0 0 3).typ = nP := by
  decide +kernel

theorem clearE_idem (r : BC F) : BC.clearE (BC.clearE r) = BC.clearE r := by
  unfold BC.clearE
  by_cases h : r.typ = nE
  · rw [if_pos h, if_neg (fun h => by cases h)]
  · rw [if_neg h, if_neg h]

/-- **C52, second call.** Deleting again returns 0 and changes nothing. -/
theorem delete_internal_bcs_idem (M : HexaData F) :
    deleteInternalBcs (deleteInternalBcs M).1 = ((deleteInternalBcs M).1, 0) := by
  apply Prod.ext
  · unfold deleteInternalBcs
    simp only [List.map_map]
    congr 1
    apply List.map_congr_left
    intro el _
    simp only [Function.comp, Elem.mapBC]
    congr 1
    funext b f
    split_ifs
    · exact clearE_idem _
    · rfl
  · rw [countE_eq]
    simp only [List.length_eq_zero_iff, positions, List.filter_eq_nil_iff, mem_prod3, List.mem_range, decide_eq_true_eq]
    rintro ⟨e, b, f⟩ ⟨he, hb, hf⟩
    have := (delete_internal_bcs_spec M).2.1
    exact (delete_internal_bcs_spec M).2.2.2.2.1 e (by omega) b hb f hf

/-- Deleting the internal conditions of a valid mesh leaves a valid mesh (only periodic links remain). -/
theorem delete_valid (M : HexaData F) (hd : 2 * M.ndim ≤ 6) (C : Face → Face → Prop) (h : Valid M C) :
    Valid (deleteInternalBcs M).1 C := by
  have Fr := delete_frame M
  intro b hb
  rw [Fr.len, Fr.ndim]
  rw [Fr.nbc] at hb
  intro x hx hx2 hl
  have e : ∀ x : Face, x.1 < M.elem.length → x.2 < 2 * M.ndim →
      (deleteInternalBcs M).1.bc x.1 b x.2 = BC.clearE (M.bc x.1 b x.2) := fun x h1 h2 => by
    rw [delete_bc M _ _ _ h1, if_pos ⟨hb, by omega⟩]
  simp only [e x hx hx2] at hl ⊢
  have hn : (M.bc x.1 b x.2).typ ≠ nE := by
    intro h
    unfold BC.clearE at hl
    rw [if_pos h] at hl
    rcases hl with h | h <;> cases h
  have ex : BC.clearE (M.bc x.1 b x.2) = M.bc x.1 b x.2 := by rw [BC.clearE, if_neg hn]
  rw [ex] at hl ⊢
  obtain ⟨y, y1, y2, y3, y4, y5, y6⟩ := h b hb x hx hx2 hl
  dsimp only at y3 y4 y5
  refine ⟨y, y1, y2, y3, ?_⟩
  have ey : BC.clearE (M.bc y.1 b y.2) = M.bc y.1 b y.2 := by rw [BC.clearE, if_neg (y4 ▸ hn)]
  rw [e y y1 y2, ey]
  exact ⟨y4, y5, fun h => absurd h hn⟩

example : Valid (deleteInternalBcs Samples.channel).1 fun _ _ => True :=
  delete_valid _ (by decide +kernel) _ (Samples.valid_of_validB _ (by decide +kernel))

end Pymech
