import Verif.Py
import Verif.IO.Float

/-!
# Data structures of `pymech.core`

`/repo/src/pymech/core.py`, classes `Elem` (102–137) and `HexaData` (231–250).

Arrays are a shape together with a total index function; only indices inside the shape are part of the
Python object, and statements about arrays only speak about these. Indices that are computed from
*data* (connectivity) are always range checked with `pyIndex` in the model, so that `IndexError`s are
not hidden by the totalisation.
-/

namespace Pymech

/-- One record of the structured array `Elem.bcs`, core.py:137 (`"U3, i4, i4"` and five floats).
Simplification: the two `i4` are unbounded integers. -/
structure BC (F : Type) where
  typ : Name
  own : Int
  ownFace : Int
  p3 : F
  p4 : F
  p5 : F
  p6 : F
  p7 : F
  deriving DecidableEq, Repr

/-- The record of `np.zeros`, core.py:137. -/
def BC.zero {F : Type} [Zero F] : BC F := ⟨[], 0, 0, 0, 0, 0, 0, 0⟩

/-- A four-dimensional NumPy array of shape `(n, lz, ly, lx)`. -/
structure Arr (F : Type) where
  n : Nat
  lz : Nat
  ly : Nat
  lx : Nat
  dat : Nat → Nat → Nat → Nat → F

/-- `np.zeros((n, lr1[2], lr1[1], lr1[0]))`. -/
def Arr.zeros {F : Type} [Zero F] (n lx ly lz : Nat) : Arr F := ⟨n, lz, ly, lx, fun _ _ _ _ => 0⟩

/-- Python class `Elem`, core.py:102–137. `bcs` has `rows` rows (the `nbc` given to the constructor)
and 6 columns; `curv` is 12×5; `ccurv` has 12 entries. -/
structure Elem (F : Type) where
  pos : Arr F
  vel : Arr F
  pres : Arr F
  temp : Arr F
  scal : Arr F
  curv : Nat → Nat → F
  ccurv : Nat → Name
  rows : Nat
  bcs : Nat → Nat → BC F

/-- `Elem.__init__`, core.py:120–137. -/
def Elem.new {F : Type} [Zero F] (v2 v3 v4 : Nat) (lx ly lz : Nat) (nbc : Nat) : Elem F where
  pos := Arr.zeros 3 lx ly lz
  vel := Arr.zeros 3 lx ly lz
  pres := Arr.zeros v2 lx ly lz
  temp := Arr.zeros v3 lx ly lz
  scal := Arr.zeros v4 lx ly lz
  curv := fun _ _ => 0
  ccurv := fun _ => []
  rows := nbc
  bcs := fun _ _ => BC.zero

/-- Byte order names (`sys.byteorder`). -/
inductive Endian | little | big
  deriving DecidableEq, Repr

/-- `var`, a sequence of five integers (core.py:108). -/
structure Var where
  pos : Nat
  vel : Nat
  pres : Nat
  temp : Nat
  scal : Nat
  deriving DecidableEq, Repr

/-- `lr1`, a sequence `(lx, ly, lz)`. `isList` records whether it is a Python list or a tuple, since the
code compares it with `!=` against list literals (meshtools.py:38, mesh.py:765). -/
structure Lr1 where
  x : Nat
  y : Nat
  z : Nat
  isList : Bool
  deriving DecidableEq, Repr

/-- Python class `HexaData`, core.py:231–250. The type `F` stands for the dtype of the element
arrays (exact numbers for the mesh tools, `F32`/`F64` bit patterns for input and output). `time` is a Python
`float`, whatever the dtype. `endian` is the byte order named by the attribute, `none` for a string that is
neither `'big'` nor `'little'`. -/
structure HexaData (F : Type) where
  ndim : Nat
  nel : Nat
  ncurv : Nat
  nbc : Nat
  var : Var
  lr1 : Lr1
  time : F64
  istep : Int
  wdsz : Nat
  endian : Option Endian
  elem : List (Elem F)
  elmap : List Int

/-- `HexaData.__init__`, core.py:234–250, on a machine with byte order `native`.
`np.linspace(1, nel, nel, dtype=int32)` is `1, …, nel`. -/
def HexaData.new {F : Type} [Zero F] (native : Endian) (ndim nel : Nat) (lr1 : Lr1) (var : Var)
    (nbc : Nat) : HexaData F where
  ndim := ndim
  nel := nel
  ncurv := 0
  nbc := nbc
  var := var
  lr1 := lr1
  time := 0
  istep := 0
  wdsz := 8
  endian := some native
  elem := List.replicate nel (Elem.new var.pres var.temp var.scal lr1.x lr1.y lr1.z nbc)
  elmap := (List.range nel).map fun i : Nat => ((i : Int) + 1)

/-- A blank element used as default value of total list access (never reached by in-range indices). -/
def Elem.blank {F : Type} [Zero F] : Elem F := Elem.new 0 0 0 0 0 0 0

/-- `self.elem[i]` for an index known to be in range (loops over `range(nel)`); data-driven indices are
range checked by the caller. -/
def HexaData.el {F : Type} [Zero F] (M : HexaData F) (i : Nat) : Elem F := M.elem.getD i Elem.blank

/-- `self.elem[i].bcs[b, f]`. -/
def HexaData.bc {F : Type} [Zero F] (M : HexaData F) (i b f : Nat) : BC F := (M.el i).bcs b f

/-- `el.bcs[b, f] = g(el.bcs[b, f])`. -/
def Elem.modBC {F : Type} (el : Elem F) (b f : Nat) (g : BC F → BC F) : Elem F :=
  { el with bcs := fun b' f' => if b' = b ∧ f' = f then g (el.bcs b' f') else el.bcs b' f' }

/-- In-place update of the record `self.elem[i].bcs[b, f]` (NumPy structured scalars are views). -/
def HexaData.modBC {F : Type} (M : HexaData F) (i b f : Nat) (g : BC F → BC F) : HexaData F :=
  { M with elem := M.elem.modify i fun el => el.modBC b f g }

/-- Store a link: sets the fields 0, 3 and 4 of a record. -/
def BC.link {F : Type} [IntCast F] (t : Name) (e f : Int) (r : BC F) : BC F :=
  { r with typ := t, p3 := (e : F), p4 := (f : F) }

end Pymech
