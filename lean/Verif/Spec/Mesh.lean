import Verif.Core.Conn

/-!
# Specification of valid meshes

These definitions say what a correct mesh is, without reference to the functions of the model
(only to its data types and to `int()`, i.e. `trunc`, which is how every consumer of a mesh reads a link).
-/

namespace Pymech.Spec

variable {F : Type} [Field F] [LinearOrder F] [FloorRing F]

/-- A face of a mesh: element number and face number, both zero-based. -/
abbrev Face := Nat × Nat

/-- The condition links the face to another face (internal or periodic). -/
def IsLink (r : BC F) : Prop := r.typ = nE ∨ r.typ = nP

/-- The (one-based) element and face numbers stored in a record are those of `y`. -/
def PointsTo (r : BC F) (y : Face) : Prop := trunc r.p3 = (y.1 : Int) + 1 ∧ trunc r.p4 = (y.2 : Int) + 1

/-- In a set of `n` elements with `nf` faces each, with conditions `g`: every linked face points to an existing
face which has the same condition and points back; internal links moreover satisfy the relation `C`
(for instance: the faces are at the same location). -/
def Mutual (n nf : Nat) (g : Face → BC F) (C : Face → Face → Prop) : Prop :=
  ∀ x : Face, x.1 < n → x.2 < nf → IsLink (g x) →
    ∃ y : Face, y.1 < n ∧ y.2 < nf ∧ PointsTo (g x) y ∧ (g y).typ = (g x).typ ∧ PointsTo (g y) x ∧
      ((g x).typ = nE → C x y)

/-- The connectivity of a mesh is valid: in each field all links are mutual. -/
def Valid (M : HexaData F) (C : Face → Face → Prop) : Prop :=
  ∀ b < M.nbc, Mutual M.elem.length (2 * M.ndim) (fun x => M.bc x.1 b x.2) C

/-- The metadata of a mesh agree with its element list. -/
structure WF (M : HexaData F) : Prop where
  nel : M.nel = M.elem.length
  rows : ∀ el ∈ M.elem, el.rows = M.nbc
  dim : M.ndim = 2 ∨ M.ndim = 3

/-- Each element has at least two points in x and y and one in z. -/
def Grid (M : HexaData F) : Prop :=
  ∀ el ∈ M.elem, 2 ≤ el.pos.lx ∧ 2 ≤ el.pos.ly ∧ 1 ≤ el.pos.lz

/-- All fields of a mesh have the same links (periodicity and internal faces are a matter of geometry). -/
def Uniform (M : HexaData F) : Prop :=
  ∀ b < M.nbc, ∀ x : Face, x.1 < M.elem.length → x.2 < 2 * M.ndim →
    ((M.bc x.1 b x.2).typ = nE ↔ (M.bc x.1 0 x.2).typ = nE) ∧
    ((M.bc x.1 b x.2).typ = nP ↔ (M.bc x.1 0 x.2).typ = nP) ∧
    (IsLink (M.bc x.1 0 x.2) → ∀ y, PointsTo (M.bc x.1 0 x.2) y → PointsTo (M.bc x.1 b x.2) y)

/-- No periodic face is its own partner. -/
def NoSelf (M : HexaData F) : Prop :=
  ∀ b < M.nbc, ∀ x : Face, x.1 < M.elem.length → x.2 < 2 * M.ndim →
    (M.bc x.1 b x.2).typ = nP → ¬ PointsTo (M.bc x.1 b x.2) x

/-- `elmap` is a permutation of `1..n`. -/
def PermMap (n : Nat) (elmap : List Int) : Prop :=
  elmap.Perm ((List.range n).map fun i : Nat => (i : Int) + 1)

end Pymech.Spec
