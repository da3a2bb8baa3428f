import Verif.IO.Re2

/-!
# What a `.re2` file keeps of a mesh
-/

namespace Pymech.Spec

/-- White space among the ASCII characters: tab, line feed, vertical tab, form feed, carriage return, the four separators, blank. -/
def white (c : Char) : Bool := [9, 10, 11, 12, 13, 28, 29, 30, 31, 32].contains c.toNat

/-- A name of a boundary condition that the file can hold: at most three ASCII characters, the last one neither white
space nor NUL. -/
def BCName (t : Name) : Prop :=
  t.length ≤ 3 ∧ (∀ c ∈ t, c.toNat < 128) ∧ ∀ c, t.getLast? = some c → white c = false ∧ c.toNat ≠ 0

instance (t : Name) : Decidable (BCName t) :=
  decidable_of_iff (t.length ≤ 3 ∧ (∀ c ∈ t, c.toNat < 128) ∧ t.getLast?.all (fun c => !white c && c.toNat != 0) = true) (by
    unfold BCName
    cases t.getLast? <;> simp)

/-- A vertex mesh: two or three dimensions, the arrays and lists have the sizes announced, one-character curvature
types. -/
structure Re2Mesh (M : HexaData F64) : Prop where
  dim : M.ndim = 2 ∨ M.ndim = 3
  lr1 : M.lr1 = ⟨2, 2, M.ndim - 1, true⟩
  var : M.var.pos = M.ndim
  len : M.elem.length = M.nel
  shape : ∀ i < M.nel, M.ndim ≤ (M.el i).pos.n ∧ (M.el i).pos.lz = M.ndim - 1 ∧ (M.el i).pos.ly = 2 ∧ (M.el i).pos.lx = 2
  rows : ∀ i < M.nel, M.nbc ≤ (M.el i).rows
  curv : ∀ i < M.nel, ∀ e < 12, (M.el i).ccurv e = [] ∨ ∃ c, (M.el i).ccurv e = [c] ∧ c.toNat < 128
  names : ∀ i < M.nel, ∀ b < M.nbc, ∀ f < 2 * M.ndim, BCName (M.bc i b f).typ

/-- A boundary condition that is stored in the file: neither empty nor an internal connection. -/
def Stored (t : Name) : Prop := t ≠ [] ∧ t ≠ nE

instance (t : Name) : Decidable (Stored t) := inferInstanceAs (Decidable (_ ∧ _))

/-- What is kept of element `i`: the coordinates, the curved edges with their five parameters, the stored boundary
conditions with name and five parameters. The two indices of a stored condition are those of element and face. -/
def re2Elem (M : HexaData F64) (i : Nat) : Elem F64 where
  pos := ⟨3, M.ndim - 1, 2, 2, fun d z y x =>
    if d < M.ndim ∧ z < M.ndim - 1 ∧ y < 2 ∧ x < 2 then (M.el i).pos.dat d z y x else 0⟩
  vel := Arr.zeros 3 2 2 (M.ndim - 1)
  pres := Arr.zeros 0 2 2 (M.ndim - 1)
  temp := Arr.zeros 0 2 2 (M.ndim - 1)
  scal := Arr.zeros 0 2 2 (M.ndim - 1)
  curv := fun e j => if e < 12 ∧ (M.el i).ccurv e ≠ [] ∧ j < 5 then (M.el i).curv e j else 0
  ccurv := fun e => if e < 12 then (M.el i).ccurv e else []
  rows := max 1 M.nbc
  bcs := fun b f =>
    if b < M.nbc ∧ f < 2 * M.ndim ∧ Stored (M.bc i b f).typ then
      { M.bc i b f with own := (i : Int) + 1, ownFace := (f : Int) + 1 }
    else BC.zero

/-- Number of curved edges. -/
def curvedCount (M : HexaData F64) : Nat :=
  (M.elem.map fun el => ((List.range 12).filter fun e => el.ccurv e ≠ []).length).sum

/-- The mesh that a `.re2` file in byte order `e` stands for. There is always at least one field of boundary conditions. -/
def re2Image (e : Endian) (M : HexaData F64) : HexaData F64 where
  ndim := M.ndim
  nel := M.nel
  ncurv := curvedCount M
  nbc := max 1 M.nbc
  var := ⟨M.ndim, 0, 0, 0, 0⟩
  lr1 := ⟨2, 2, M.ndim - 1, true⟩
  time := 0
  istep := 0
  wdsz := 8
  endian := some e
  elem := (List.range M.nel).map (re2Elem M)
  elmap := (List.range M.nel).map fun i : Nat => (i : Int) + 1

/-- `M'` is `M` as far as a `.re2` file is meant to keep it: dimension, number of elements, coordinates of the vertices,
curved edges, external and periodic boundary conditions; other boundary conditions are empty. -/
def Restored (M M' : HexaData F64) : Prop :=
  M'.ndim = M.ndim ∧ M'.nel = M.nel ∧ M'.elem.length = M.nel ∧ ∀ i < M.nel,
    (∀ d < M.ndim, ∀ z < M.ndim - 1, ∀ y < 2, ∀ x < 2, (M'.el i).pos.dat d z y x = (M.el i).pos.dat d z y x) ∧
    (∀ e < 12, (M'.el i).ccurv e = (M.el i).ccurv e ∧ ((M.el i).ccurv e ≠ [] → ∀ j < 5, (M'.el i).curv e j = (M.el i).curv e j)) ∧
    ∀ b < M.nbc, ∀ f < 2 * M.ndim,
      (Stored (M.bc i b f).typ → (M'.bc i b f).typ = (M.bc i b f).typ ∧
        (M'.bc i b f).p3 = (M.bc i b f).p3 ∧ (M'.bc i b f).p4 = (M.bc i b f).p4 ∧ (M'.bc i b f).p5 = (M.bc i b f).p5 ∧
        (M'.bc i b f).p6 = (M.bc i b f).p6 ∧ (M'.bc i b f).p7 = (M.bc i b f).p7) ∧
      (¬ Stored (M.bc i b f).typ → (M'.bc i b f).typ = [])

/-- Nothing but coordinates is stored: no curved edges, no boundary conditions except internal ones. -/
def Plain (M : HexaData F64) : Prop :=
  (∀ i < M.nel, ∀ e < 12, (M.el i).ccurv e = []) ∧ ∀ i < M.nel, ∀ b < M.nbc, ∀ f < 2 * M.ndim, ¬ Stored (M.bc i b f).typ

end Pymech.Spec
