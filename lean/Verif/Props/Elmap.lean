import Verif.Props.Extrude
import Verif.Props.Keep
import Verif.Props.Rotate

/-!
# C51 the element map
-/

set_option linter.unusedSectionVars false

namespace Pymech

open Spec

variable {F : Type} [Field F] [LinearOrder F] [IsStrictOrderedRing F] [FloorRing F]

theorem permMap_length {n : Nat} {l : List Int} (h : PermMap n l) : l.length = n := by
  have := h.length_eq; simpa using this

/-- **C51, construction.** -/
theorem new_elmap (native : Endian) (ndim nel : Nat) (lr1 : Lr1) (var : Var) (nbc : Nat) :
    let M : HexaData F := HexaData.new native ndim nel lr1 var nbc
    PermMap M.nel M.elmap ∧ M.elem.length = M.nel := ⟨List.Perm.refl _, by simp [HexaData.new]⟩

/-- **C51, `gen_box`.** -/
theorem gen_box_elmap (native : Endian) (nx ny : Nat) (xmin xmax ymin ymax : F) (var : Var)
    (o1 o2 o3 o4 : Option (List Name)) (internal : Bool) (A : BoxArgs nx ny xmin xmax ymin ymax var o1 o2 o3 o4) :
    ∃ M, genBox native nx ny xmin xmax ymin ymax var o1 o2 o3 o4 internal = .ok M ∧ PermMap M.nel M.elmap := by
  obtain ⟨M, h1, h2, -⟩ := genBox_ok (native := native) (internal := internal) A
  refine ⟨M, h1, ?_⟩
  rw [h2]
  exact List.Perm.refl _

/-- **C51, `rotate_2d`.** -/
theorem rotate_2d_elmap (M : HexaData ℝ) (x0 y0 θ : ℝ) (h : PermMap M.nel M.elmap) :
    PermMap (rotateR M x0 y0 θ).nel (rotateR M x0 y0 θ).elmap := h

/-- **C51 for `extrude`**: the element map is valid only if there is one layer (or no element).
Missing: two or more layers, where it is wrong. -/
theorem extrude_elmap_partial (M : HexaData F) (z : List F) (o1 o2 : Option (List Name)) (A : ExtrudeArgs M z o1 o2) (ib : Bool)
    (h : PermMap M.nel M.elmap) :
    ∃ R, extrude M z o1 o2 ib = .ok R ∧ (PermMap R.nel R.elmap ↔ (z.length = 2 ∨ M.nel = 0)) := by
  obtain ⟨R, h1, ⟨-, a2, -, -, -, -, a7, -⟩, -⟩ := extrude_ok A ib
  refine ⟨R, h1, ?_⟩
  rw [a2, a7]
  have hz := A.z
  constructor
  · intro h'
    have e1 := permMap_length h
    have e2 := permMap_length h'
    rcases Nat.eq_zero_or_pos M.nel with h0 | h0
    · exact Or.inr h0
    · left
      have : M.nel * 1 = M.nel * (z.length - 1) := by omega
      have := Nat.eq_of_mul_eq_mul_left h0 this
      omega
  · rintro (h' | h')
    · rw [h']; simpa using h
    · rw [h'] at h ⊢; simpa using h

/-- **C51 for `keep_elements`**: the element map is valid only if all elements are kept.
Missing: any proper subset, where it is wrong. -/
theorem keep_elements_elmap_partial (M : HexaData F) (hn : M.nel = M.elem.length) (elems : List Int) (A : KeepArgs M elems) (ext : Name)
    (hl : LinksExist M) (h : PermMap M.nel M.elmap) :
    ∃ R, keepElements M elems ext = .ok R ∧ (PermMap R.nel R.elmap ↔ elems.length = M.nel) := by
  obtain ⟨S, R, h1, h2, h3, -⟩ := keep_elements_spec M hn elems A ext hl
  refine ⟨R, h2, ?_⟩
  have e : R.elmap = M.elmap := by rw [h3]
  have e' : R.nel = elems.length := by rw [h3]
  rw [e, e']
  constructor
  · intro h'
    rw [← permMap_length h', permMap_length h]
  · intro h'; rw [h']; exact h

/-- **C51 is false**: the channel extruded to two layers has 8 elements but an element map of 4, and the channel reduced to
one element has an element map of 4. -/
theorem elmap_inconsistent :
    (∃ R, extrude Samples.channel [0, 1, 2] none none true = .ok R ∧ R.nel = 8 ∧ R.elmap = [1, 2, 3, 4]) ∧
    (∃ R, keepElements Samples.channel [2] [] = .ok R ∧ R.nel = 1 ∧ R.elmap = [1, 2, 3, 4]) := by
  constructor
  · have A : ExtrudeArgs Samples.channel [0, 1, 2] none none := ⟨Samples.wf_of_wfB _ (by decide +kernel), by decide +kernel,
      by decide +kernel, by decide +kernel, by decide, (by simp), (by simp), (by rw [← oneSidedP_iff]; decide +kernel)⟩
    obtain ⟨R, h1, ⟨-, a2, -, -, -, -, a7, -⟩, -⟩ := extrude_ok A true
    exact ⟨R, h1, by rw [a2]; decide +kernel, by rw [a7]; decide +kernel⟩
  · have hl : LinksExist Samples.channel := by
      intro e he b hb f hf hlk
      obtain ⟨y, y1, _, y3, _⟩ := Samples.channel_sameCentre b hb (e, f) he hf hlk
      exact ⟨y.1, by rw [show Samples.channel.nel = Samples.channel.elem.length by decide +kernel]; exact y1, y3.1⟩
    obtain ⟨S, R, h1, h2, h3, -⟩ := keep_elements_spec Samples.channel (by decide +kernel) [2] ⟨by decide, by decide +kernel⟩ [] hl
    exact ⟨R, h2, by rw [h3]; rfl, by
      have : Samples.channel.elmap = [1, 2, 3, 4] := by decide +kernel
      rw [h3]; exact this⟩

example : PermMap Samples.channel.nel Samples.channel.elmap := by
  have h1 : Samples.channel.elmap = [1, 2, 3, 4] := by decide +kernel
  have h2 : Samples.channel.nel = 4 := by decide +kernel
  rw [h1, h2]; exact List.Perm.refl _

end Pymech
