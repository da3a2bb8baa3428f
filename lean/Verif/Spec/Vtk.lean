import Verif.Suite.Vtk

/-! # What a VTK dataset of a field should be

Stated without the definitions of the model of `hexa2vtk`, except for the types of its argument and result. -/

set_option autoImplicit false

namespace Pymech.Spec

variable {F : Type} [Zero F]

/-- The indices of the grid lines which are shown: all of them, or the first and the last one. -/
def gridIndex (down : Bool) (l : Nat) : List Nat := if down then (if l = 1 then [0] else [0, l - 1]) else List.range l

/-- The arrays of a field have the shapes given by `lr1` and `var`, and there are at least two points in each direction. -/
structure VtkField (M : HexaData F) : Prop where
  length : M.elem.length = M.nel
  pos : ∀ el ∈ M.elem, el.pos.n = 3 ∧ el.pos.lz = M.lr1.z ∧ el.pos.ly = M.lr1.y ∧ el.pos.lx = M.lr1.x
  vel : ∀ el ∈ M.elem, el.vel.n = 3 ∧ el.vel.lz = M.lr1.z ∧ el.vel.ly = M.lr1.y ∧ el.vel.lx = M.lr1.x
  pres : ∀ el ∈ M.elem, el.pres.n = M.var.pres ∧ el.pres.lz = M.lr1.z ∧ el.pres.ly = M.lr1.y ∧ el.pres.lx = M.lr1.x
  temp : ∀ el ∈ M.elem, el.temp.n = M.var.temp ∧ el.temp.lz = M.lr1.z ∧ el.temp.ly = M.lr1.y ∧ el.temp.lx = M.lr1.x
  scal : ∀ el ∈ M.elem, el.scal.n = M.var.scal ∧ el.scal.lz = M.lr1.z ∧ el.scal.ly = M.lr1.y ∧ el.scal.lx = M.lr1.x
  x : 2 ≤ M.lr1.x
  y : 2 ≤ M.lr1.y
  z : (M.ndim = 3 ∧ 2 ≤ M.lr1.z) ∨ (M.ndim = 2 ∧ M.lr1.z = 1)

/-- Numbers of points shown in the three directions. -/
def nx (M : HexaData F) (down : Bool) : Nat := (gridIndex down M.lr1.x).length
def ny (M : HexaData F) (down : Bool) : Nat := (gridIndex down M.lr1.y).length
def nz (M : HexaData F) (down : Bool) : Nat := (gridIndex down M.lr1.z).length

/-- The value of `g` at point `z, y, x` (counted among the points shown) of element `e`. -/
def at_ {β : Type} (M : HexaData F) (down : Bool) (g : Elem F → Nat → Nat → Nat → β) (e z y x : Nat) : β :=
  g (M.el e) ((gridIndex down M.lr1.z).getD z 0) ((gridIndex down M.lr1.y).getD y 0) ((gridIndex down M.lr1.x).getD x 0)

/-- The points are numbered without collision. -/
def Numbering (M : HexaData F) (down : Bool) (no : Nat → Nat → Nat → Nat → Nat) : Prop :=
  ∀ e < M.nel, ∀ z < nz M down, ∀ y < ny M down, ∀ x < nx M down,
  ∀ e' < M.nel, ∀ z' < nz M down, ∀ y' < ny M down, ∀ x' < nx M down,
    no e z y x = no e' z' y' x' → e = e' ∧ z = z' ∧ y = y' ∧ x = x'

/-- Row `no e z y x` of an array exists and holds the value of `g` at the point. -/
def RowsHold (M : HexaData F) (down : Bool) (no : Nat → Nat → Nat → Nat → Nat) (g : Elem F → Nat → Nat → Nat → List F)
    (A : Rows (List F)) : Prop :=
  ∀ e < M.nel, ∀ z < nz M down, ∀ y < ny M down, ∀ x < nx M down,
    no e z y x < A.n ∧ A.row (no e z y x) = at_ M down g e z y x

/-- The three components of a vector and the only component of a scalar at a grid point. -/
def coords (el : Elem F) (z y x : Nat) : List F := [el.pos.dat 0 z y x, el.pos.dat 1 z y x, el.pos.dat 2 z y x]
def velocity (el : Elem F) (z y x : Nat) : List F := [el.vel.dat 0 z y x, el.vel.dat 1 z y x, el.vel.dat 2 z y x]
def pressure (el : Elem F) (z y x : Nat) : List F := [el.pres.dat 0 z y x]
def temperature (el : Elem F) (z y x : Nat) : List F := [el.temp.dat 0 z y x]
def scalar (i : Nat) (el : Elem F) (z y x : Nat) : List F := [el.scal.dat i z y x]

/-- The corners of a hexahedron in the order of VTK, as offsets in `x`, `y`, `z`; the first four are those of a quad. -/
def vtkCorners : List (Nat × Nat × Nat) :=
  [(0, 0, 0), (1, 0, 0), (1, 1, 0), (0, 1, 0), (0, 0, 1), (1, 0, 1), (1, 1, 1), (0, 1, 1)]

/-- The sub-cells of an element: cells between neighbouring points (one layer in two dimensions). -/
def IsCell (M : HexaData F) (down : Bool) (e z y x : Nat) : Prop :=
  e < M.nel ∧ z < max (nz M down - 1) 1 ∧ y + 1 < ny M down ∧ x + 1 < nx M down

/-- The cells are the sub-cells, each once, and cell `c` is the number `nv` of its corners followed by the numbers of the corners. -/
structure Cells (M : HexaData F) (down : Bool) (nv : Nat) (no : Nat → Nat → Nat → Nat → Nat) (V : Vtk F) : Prop where
  size : V.cells.n = (nv + 1) * V.ncells
  cell : ∃ cell : Nat → Nat → Nat → Nat → Nat,
    (∀ e z y x, IsCell M down e z y x → cell e z y x < V.ncells ∧ V.cells.row ((nv + 1) * cell e z y x) = nv ∧
      ∀ q < nv, ∀ dx dy dz, vtkCorners[q]? = some (dx, dy, dz) →
        V.cells.row ((nv + 1) * cell e z y x + 1 + q) = no e (z + dz) (y + dy) (x + dx)) ∧
    (∀ e z y x e' z' y' x', IsCell M down e z y x → IsCell M down e' z' y' x' → cell e z y x = cell e' z' y' x' →
      e = e' ∧ z = z' ∧ y = y' ∧ x = x') ∧
    (∀ c < V.ncells, ∃ e z y x, IsCell M down e z y x ∧ cell e z y x = c)

end Pymech.Spec
