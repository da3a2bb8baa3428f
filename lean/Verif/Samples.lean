import Verif.Lemmas.Basic
import Verif.Mesh.Box

/-!
# Concrete meshes for the examples

These meshes and Boolean tests are only used in `example`s (to show that the hypotheses of the theorems can be met) and
in counterexamples. Nothing is proved about the package here.
-/

namespace Pymech.Samples

open Pymech Spec

set_option linter.unusedSectionVars false

section
variable {F : Type} [Field F] [LinearOrder F] [FloorRing F]

/-- Boolean form of the mutual link condition at one face. -/
def linkB (M : HexaData F) (b : Nat) (x : Face) : Bool :=
  let r := M.bc x.1 b x.2
  if r.typ = nE ∨ r.typ = nP then
    let r' := M.bc (trunc r.p3 - 1).toNat b (trunc r.p4 - 1).toNat
    decide (1 ≤ trunc r.p3 ∧ trunc r.p3 ≤ M.elem.length ∧ 1 ≤ trunc r.p4 ∧ trunc r.p4 ≤ 2 * (M.ndim : Int) ∧
      r'.typ = r.typ ∧ trunc r'.p3 = (x.1 : Int) + 1 ∧ trunc r'.p4 = (x.2 : Int) + 1)
  else true

def allFaces (M : HexaData F) : List Face := prod2 (List.range M.elem.length) (List.range (2 * M.ndim))

def validB (M : HexaData F) : Bool := (List.range M.nbc).all fun b => (allFaces M).all fun x => linkB M b x

theorem valid_of_validB (M : HexaData F) (h : validB M = true) : Valid M fun _ _ => True := by
  intro b hb x hx hx2 hl
  unfold validB at h
  rw [List.all_eq_true] at h
  have h1 := h b (by simpa using hb)
  rw [List.all_eq_true] at h1
  have h2 := h1 x (by simp [allFaces, hx, hx2])
  unfold linkB at h2
  simp only at h2 hl
  have hl' : (M.bc x.1 b x.2).typ = nE ∨ (M.bc x.1 b x.2).typ = nP := hl
  rw [if_pos hl'] at h2
  simp only [decide_eq_true_eq] at h2
  obtain ⟨a1, a2, a3, a4, a5, a6, a7⟩ := h2
  refine ⟨((trunc (M.bc x.1 b x.2).p3 - 1).toNat, (trunc (M.bc x.1 b x.2).p4 - 1).toNat), ?_, ?_, ?_, a5, ⟨a6, a7⟩, fun _ => trivial⟩
  · simp only; omega
  · simp only; omega
  · constructor <;> simp only <;> omega

def uniformB (M : HexaData F) : Bool := (List.range M.nbc).all fun b => (allFaces M).all fun x =>
  let r := M.bc x.1 b x.2
  let r0 := M.bc x.1 0 x.2
  decide ((r.typ = nE ↔ r0.typ = nE) ∧ (r.typ = nP ↔ r0.typ = nP)) && decide (trunc r.p3 = trunc r0.p3 ∧ trunc r.p4 = trunc r0.p4)

theorem uniform_of_uniformB (M : HexaData F) (h : uniformB M = true) : Uniform M := by
  intro b hb x hx hx2
  unfold uniformB at h
  rw [List.all_eq_true] at h
  have h1 := h b (by simpa using hb)
  rw [List.all_eq_true] at h1
  have h2 := h1 x (by simp [allFaces, hx, hx2])
  simp only [Bool.and_eq_true, decide_eq_true_eq] at h2
  obtain ⟨⟨a1, a2⟩, a3, a4⟩ := h2
  refine ⟨a1, a2, fun _ y hy => ?_⟩
  unfold PointsTo at hy ⊢
  rw [a3, a4]; exact hy

def noSelfB (M : HexaData F) : Bool := (List.range M.nbc).all fun b => (allFaces M).all fun x =>
  let r := M.bc x.1 b x.2
  decide (r.typ = nP → ¬ (trunc r.p3 = (x.1 : Int) + 1 ∧ trunc r.p4 = (x.2 : Int) + 1))

theorem noSelf_of_noSelfB (M : HexaData F) (h : noSelfB M = true) : NoSelf M := by
  intro b hb x hx hx2
  unfold noSelfB at h
  rw [List.all_eq_true] at h
  have h1 := h b (by simpa using hb)
  rw [List.all_eq_true] at h1
  have h2 := h1 x (by simp [allFaces, hx, hx2])
  simp only [decide_eq_true_eq] at h2
  exact h2

def wfB (M : HexaData F) : Bool :=
  decide (M.nel = M.elem.length) && M.elem.all (fun el => decide (el.rows = M.nbc)) && decide (M.ndim = 2 ∨ M.ndim = 3)

theorem wf_of_wfB (M : HexaData F) (h : wfB M = true) : WF M := by
  unfold wfB at h
  simp only [Bool.and_eq_true, decide_eq_true_eq, List.all_eq_true] at h
  exact ⟨h.1.1, h.1.2, h.2⟩

def gridB (M : HexaData F) : Bool :=
  M.elem.all fun el => decide (2 ≤ el.pos.lx ∧ 2 ≤ el.pos.ly ∧ 1 ≤ el.pos.lz)

theorem grid_of_gridB (M : HexaData F) (h : gridB M = true) : Grid M := by
  unfold gridB at h
  simp only [List.all_eq_true, decide_eq_true_eq] at h
  exact h

end

/-- The mesh of a computation known to succeed. -/
def get (x : Py (HexaData ℚ)) : HexaData ℚ :=
  match x with
  | .ok M => M
  | .error _ => HexaData.new .little 2 0 ⟨2, 2, 1, true⟩ ⟨2, 0, 0, 0, 0⟩ 0

/-- `nx` by `ny` unit squares starting at `(x0, 0)`: velocity conditions `w`, `e`, `s`, `n` on the four sides. -/
def box (nx ny : Nat) (x0 : ℚ) (w e s n : Name) : HexaData ℚ :=
  get (genBox .little nx ny x0 (x0 + nx) 0 ny ⟨2, 2, 0, 0, 0⟩ (some [w]) (some [e]) (some [s]) (some [n]) true)

/-- A wall. -/
def nW : Name := ['W']

/-- A channel of 2×2 unit squares, periodic in x, with walls at the bottom and top. -/
def channel : HexaData ℚ := box 2 2 0 nP nP nW nW

example : validB channel = true := by decide +kernel
example : wfB channel = true ∧ uniformB channel = true ∧ noSelfB channel = true ∧ gridB channel = true := by decide +kernel
example : (channel.bc 0 0 1).typ = nE ∧ (channel.bc 0 0 3).typ = nP ∧ (channel.bc 0 0 0).typ = nW := by decide +kernel

end Pymech.Samples
