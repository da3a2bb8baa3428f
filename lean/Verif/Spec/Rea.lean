import Verif.Spec.Re2
import Verif.Spec.Number

/-!
# What a `.rea` file keeps of a mesh
-/

namespace Pymech.Spec

/-- A name that a column of `n` characters can hold: ASCII, no white space, no NUL. -/
def Label (n : Nat) (t : Name) : Prop := t.length ≤ n ∧ ∀ c ∈ t, c.toNat < 128 ∧ white c = false ∧ c.toNat ≠ 0

instance (n : Nat) (t : Name) : Decidable (Label n t) := inferInstanceAs (Decidable (_ ∧ _))

/-- A number that leaves a blank in its column: it is not both negative and in need of an exponent with three digits. -/
def Narrow (x : F64) : Prop :=
  x.neg = false ∨ ¬ x.Finite ∨ x.mag = 0 ∨ (10 : ℚ) ^ (-99 : Int) ≤ absVal x ∧ absVal x < 10 ^ (99 : Int)

/-- First or last index of an axis of length `n`. -/
def endOf (k n : Nat) : Nat := if k = 0 then 0 else n - 1

/-- Coordinate `d` of the vertex `z, y, x` (each 0 or 1) of an element with any number of points. -/
def vertex (a : Arr F64) (d z y x : Nat) : F64 := a.dat d (endOf z a.lz) (endOf y a.ly) (endOf x a.lx)

/-- The indices of a boundary condition fit into their columns. -/
def FitsColumns (nel : Nat) (r : BC F64) : Prop :=
  (nel < 10 ^ 3 → -99 ≤ r.own ∧ r.own ≤ 999 ∧ -99 ≤ r.ownFace ∧ r.ownFace ≤ 999) ∧
  (10 ^ 3 ≤ nel → nel < 10 ^ 6 → -99999 ≤ r.own ∧ r.own ≤ 999999) ∧
  (10 ^ 6 ≤ nel → -9999999999 ≤ r.own ∧ r.own ≤ 99999999999 ∧ 0 ≤ r.ownFace ∧ r.ownFace ≤ 9 ∧
    Narrow r.p3 ∧ Narrow r.p4 ∧ Narrow r.p5 ∧ Narrow r.p6 ∧ Narrow r.p7)

/-- A mesh that a `.rea` file can hold, whatever its `ncurv` attribute. -/
structure ReaMesh (M : HexaData F64) : Prop where
  dim : M.ndim = 2 ∨ M.ndim = 3
  len : M.elem.length = M.nel
  size : M.nel < 10 ^ 10
  shape : ∀ i < M.nel, M.ndim ≤ (M.el i).pos.n ∧ 0 < (M.el i).pos.lz ∧ 0 < (M.el i).pos.ly ∧ 0 < (M.el i).pos.lx
  coords : ∀ i < M.nel, ∀ d < M.ndim, ∀ z < M.ndim - 1, ∀ y < 2, ∀ x < 2, Narrow (vertex (M.el i).pos d z y x)
  rows : ∀ i < M.nel, M.nbc ≤ (M.el i).rows
  curv : ∀ i < M.nel, ∀ e < 12, Label 3 ((M.el i).ccurv e)
  names : ∀ i < M.nel, ∀ b < M.nbc, ∀ f < 2 * M.ndim, Label 2 (M.bc i b f).typ
  columns : ∀ i < M.nel, ∀ b < M.nbc, ∀ f < 2 * M.ndim, (M.bc i b f).typ ≠ [] → FitsColumns M.nel (M.bc i b f)
  plain : 10 ^ 6 ≤ M.nel → ∀ i < M.nel, ∀ b < M.nbc, ∀ f < 2 * M.ndim, (M.bc i b f).typ = [] →
    Narrow (M.bc i b f).p3 ∧ Narrow (M.bc i b f).p4 ∧ Narrow (M.bc i b f).p5 ∧ Narrow (M.bc i b f).p6 ∧ Narrow (M.bc i b f).p7

/-- Number of digits after the point in the parameters of a boundary condition. -/
def bcDigits (nel : Nat) : Nat := if nel < 10 ^ 6 then 6 else 11

/-- A boundary condition that is read as empty: it is empty or internal, and its first parameter is zero. -/
def Silent (r : BC F64) : Prop := (r.typ = [] ∨ r.typ = nE) ∧ r.p3.mag = 0

/-- `M'` is `M` up to the digits printed. From 1000 elements on, and below a million, the two indices of a condition
are those of its element and face. -/
structure ReaRestored (M M' : HexaData F64) : Prop where
  ndim : M'.ndim = M.ndim
  nel : M'.nel = M.nel
  nbc : M'.nbc = M.nbc
  ncurv : M'.ncurv = curvedCount M
  len : M'.elem.length = M.nel
  shape : ∀ i < M.nel, (M'.el i).pos.n = 3 ∧ (M'.el i).pos.lz = M.ndim - 1 ∧ (M'.el i).pos.ly = 2 ∧ (M'.el i).pos.lx = 2
  pos : ∀ i < M.nel, ∀ d < M.ndim, ∀ z < M.ndim - 1, ∀ y < 2, ∀ x < 2,
    Printed 6 (vertex (M.el i).pos d z y x) ((M'.el i).pos.dat d z y x)
  ccurv : ∀ i < M.nel, ∀ e < 12, (M'.el i).ccurv e = (M.el i).ccurv e
  curv : ∀ i < M.nel, ∀ e < 12, (M.el i).ccurv e ≠ [] → ∀ j < 5, Printed 6 ((M.el i).curv e j) ((M'.el i).curv e j)
  silent : ∀ i < M.nel, ∀ b < M.nbc, ∀ f < 2 * M.ndim, Silent (M.bc i b f) → M'.bc i b f = BC.zero
  bcs : ∀ i < M.nel, ∀ b < M.nbc, ∀ f < 2 * M.ndim, ¬ Silent (M.bc i b f) →
    (M'.bc i b f).typ = (if (M.bc i b f).typ = [] then nE else (M.bc i b f).typ) ∧
    (M'.bc i b f).own = (if 10 ^ 3 ≤ M.nel ∧ M.nel < 10 ^ 6 ∨ (M.bc i b f).typ = [] then (i : Int) + 1 else (M.bc i b f).own) ∧
    (M'.bc i b f).ownFace = (if 10 ^ 3 ≤ M.nel ∧ M.nel < 10 ^ 6 ∨ (M.bc i b f).typ = [] then (f : Int) + 1 else (M.bc i b f).ownFace) ∧
    Printed (bcDigits M.nel) (M.bc i b f).p3 (M'.bc i b f).p3 ∧ Printed (bcDigits M.nel) (M.bc i b f).p4 (M'.bc i b f).p4 ∧
    Printed (bcDigits M.nel) (M.bc i b f).p5 (M'.bc i b f).p5 ∧ Printed (bcDigits M.nel) (M.bc i b f).p6 (M'.bc i b f).p6 ∧
    Printed (bcDigits M.nel) (M.bc i b f).p7 (M'.bc i b f).p7

/-- All numbers of the mesh have at most seven significant decimal digits, empty conditions have no parameters, and the
indices of the others are those of element and face if there are 1000 elements or more. -/
structure Clean (M : HexaData F64) : Prop where
  pos : ∀ i < M.nel, ∀ d < M.ndim, ∀ z < M.ndim - 1, ∀ y < 2, ∀ x < 2, HasDigits 6 (vertex (M.el i).pos d z y x)
  curv : ∀ i < M.nel, ∀ e < 12, (M.el i).ccurv e ≠ [] → ∀ j < 5, HasDigits 6 ((M.el i).curv e j)
  bcs : ∀ i < M.nel, ∀ b < M.nbc, ∀ f < 2 * M.ndim, (M.bc i b f).typ ≠ [] →
    HasDigits 6 (M.bc i b f).p3 ∧ HasDigits 6 (M.bc i b f).p4 ∧ HasDigits 6 (M.bc i b f).p5 ∧ HasDigits 6 (M.bc i b f).p6 ∧
    HasDigits 6 (M.bc i b f).p7
  empty : ∀ i < M.nel, ∀ b < M.nbc, ∀ f < 2 * M.ndim, (M.bc i b f).typ = [] → M.bc i b f = BC.zero
  internal : ∀ i < M.nel, ∀ b < M.nbc, ∀ f < 2 * M.ndim, (M.bc i b f).typ = nE → (M.bc i b f).p3.mag ≠ 0
  own : 10 ^ 3 ≤ M.nel → ∀ i < M.nel, ∀ b < M.nbc, ∀ f < 2 * M.ndim, (M.bc i b f).typ ≠ [] →
    (M.bc i b f).own = (i : Int) + 1 ∧ (M.bc i b f).ownFace = (f : Int) + 1

/-- `M'` is `M`: dimension, number of elements, vertices, curved sides and boundary conditions. -/
structure ReaSame (M M' : HexaData F64) : Prop where
  ndim : M'.ndim = M.ndim
  nel : M'.nel = M.nel
  nbc : M'.nbc = M.nbc
  len : M'.elem.length = M.nel
  pos : ∀ i < M.nel, ∀ d < M.ndim, ∀ z < M.ndim - 1, ∀ y < 2, ∀ x < 2, (M'.el i).pos.dat d z y x = vertex (M.el i).pos d z y x
  ccurv : ∀ i < M.nel, ∀ e < 12, (M'.el i).ccurv e = (M.el i).ccurv e
  curv : ∀ i < M.nel, ∀ e < 12, (M.el i).ccurv e ≠ [] → ∀ j < 5, (M'.el i).curv e j = (M.el i).curv e j
  bcs : ∀ i < M.nel, ∀ b < M.nbc, ∀ f < 2 * M.ndim, M'.bc i b f = M.bc i b f

end Pymech.Spec
