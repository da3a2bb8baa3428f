import Verif.IO.Field

/-!
# Layout of a field file

Independent description of the format: which block of numbers comes where and how a number is stored.
-/

namespace Pymech.Spec

/-- Number of components of an array that are stored in a file. -/
def count (v : Var) : Fld → Nat
  | .pos => v.pos | .vel => v.vel | .pres => v.pres | .temp => v.temp | .scal => v.scal

/-- The blocks of the data section: geometry, velocity, pressure and temperature with the elements in the outer
loop, scalars with the elements in the inner loop. Elements are named by their global number. -/
def blocks (order : List Int) (v : Var) : List (Fld × Int × Nat) :=
  ([Fld.pos, .vel, .pres, .temp].flatMap fun f => order.flatMap fun n => (List.range (count v f)).map fun d => (f, n, d)) ++
  (List.range v.scal).flatMap fun d => order.map fun n => (.scal, n, d)

/-- The order of the elements in a file with the given element map: as named by the map, or consecutive if there
is a zero in it. -/
def fileOrder (elmap : List Int) (nf : Nat) : List Int :=
  if (0 : Int) ∈ elmap then (List.range nf).map fun i : Nat => (i : Int) + 1 else elmap

/-- Bytes per number in a file. -/
def wordSize (F : Type) [FloatTy F] (wdsz : Nat) : Nat := if wdsz = 4 then 4 else FloatTy.sz F

/-- The bits stored for a number: single precision if the word size is 4, otherwise the bits in memory. -/
def wordBits {F : Type} [FloatTy F] (wdsz : Nat) (x : F) : Nat :=
  if wdsz = 4 then (FloatTy.toF32 x).bits else FloatTy.bits x

/-- `b` holds component `d` of the array, last index fastest, in byte order `e`. -/
def Holds {F : Type} [FloatTy F] (e : Endian) (wdsz : Nat) (a : Arr F) (d : Nat) (b : Bytes) : Prop :=
  b.length = a.lz * a.ly * a.lx * wordSize F wdsz ∧
    ∀ z < a.lz, ∀ y < a.ly, ∀ x < a.lx,
      (b.drop (((z * a.ly + y) * a.lx + x) * wordSize F wdsz)).take (wordSize F wdsz) =
        encW e (wordSize F wdsz) (wordBits wdsz (a.dat d z y x))

/-- The array has the shape given by `lr1`. -/
def Shape {F : Type} (lr1 : Lr1) (a : Arr F) : Prop := a.lx = lr1.x ∧ a.ly = lr1.y ∧ a.lz = lr1.z

/-- A consistent field: as many elements as `nel` says, all stored arrays of the announced shape, an element map
naming existing elements. -/
structure FieldOK {F : Type} [Zero F] (M : HexaData F) : Prop where
  wdsz : M.wdsz = 4 ∨ M.wdsz = 8
  len : M.elem.length = M.nel
  shape : ∀ i < M.nel, ∀ f, 0 < count M.var f → Shape M.lr1 ((M.el i).arr f) ∧ count M.var f ≤ ((M.el i).arr f).n
  map : ∀ n ∈ M.elmap, 1 ≤ n ∧ n ≤ M.nel
  small : M.nel < 2 ^ 31

end Pymech.Spec
