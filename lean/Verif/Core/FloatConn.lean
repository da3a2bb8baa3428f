import Verif.Core.Conn
import Verif.IO.FloatOps

/-!
# `check_connectivity` in double precision

`/repo/src/pymech/core.py`, 147–227 and 276–347, with doubles and their rounding in place of exact numbers. The records and positions of a mesh
are doubles (`dtype="float64"`, the only type used by the mesh tools and the mesh readers).
-/

set_option autoImplicit false

namespace Pymech

namespace Flt

instance : OfNat F64 1 := ⟨((1 : Nat) : F64)⟩
instance : OfNat F64 2 := ⟨((2 : Nat) : F64)⟩
instance : OfNat F64 4 := ⟨((4 : Nat) : F64)⟩

/-- A fraction between the square root of `q ≥ 0` and its neighbours on a grid that is finer than all midpoints of doubles; it is the root
itself if the root is on the grid, and so rounds to the same double as the root. -/
def rootQ (q : ℚ) : ℚ :=
  let n := (q * 2 ^ 2400).floor.toNat
  let s := Nat.sqrt n
  if s * s = n then (s : ℚ) / 2 ^ 1200 else (2 * s + 1 : ℚ) / 2 ^ 1201

/-- `np.sqrt(x)`. -/
def sqrt (x : F64) : F64 :=
  if x.IsNaN then nan
  else if x.mag = 0 then x
  else if x.neg then nan
  else if x.Finite then ofQ false (rootQ x.val)
  else x

/-- `x > y`: false if one of them is NaN. -/
def gt (x y : F64) : Bool := decide (y ≤ x) && !decide (x ≤ y)

end Flt

open Flt

/-- The two operations that are left to the C library: `x ** 2` (NumPy calls `pow`) and `np.sqrt`. -/
structure Libm where
  sq : F64 → F64
  sqrt : F64 → F64

/-- A library that rounds correctly. -/
def libm : Libm := ⟨fun x => x * x, Flt.sqrt⟩

/-- `int(x)`: NaN raises `ValueError`, an infinity `OverflowError`. -/
def truncF (x : F64) : Py Int :=
  if x.IsNaN then .error .valueError else if x.Finite then .ok (trunc x.val) else .error .overflow

/-- `(x2-x1)**2 + (y2-y1)**2 + (z2-z1)**2`. -/
def sumSqF (L : Libm) (p q : V3 F64) : F64 := L.sq (q.x - p.x) + L.sq (q.y - p.y) + L.sq (q.z - p.z)

/-- The smaller of two entries for `.min()` of an array: a NaN wins. -/
def npMin (a b : F64) : F64 := if a.IsNaN then a else if b.IsNaN then b else if a ≤ b then a else b

/-- Python `min(a, b)`. -/
def pyMin (a b : F64) : F64 := if gt a b then b else a

/-- `Elem.smallest_edge()`, core.py:147–182. -/
def Elem.smallestEdgeF (L : Libm) (el : Elem F64) : Py F64 :=
  if el.pos.lx < 2 ∨ el.pos.ly < 2 ∨ el.pos.lz < 1 then .error .indexError
  else
    let p1 := el.pt 0 0 0
    let p2 := el.pt 0 0 1
    let p3 := el.pt 0 1 0
    let p4 := el.pt 0 1 1
    let e0 := sumSqF L p1 p2
    let e1 := sumSqF L p2 p3
    let e2 := sumSqF L p3 p4
    let e3 := sumSqF L p4 p1
    if el.pos.lz > 1 then
      let p5 := el.pt 1 0 0
      let p6 := el.pt 1 0 1
      let p7 := el.pt 1 1 0
      let p8 := el.pt 1 1 1
      .ok (L.sqrt ([e1, e2, e3, sumSqF L p5 p6, sumSqF L p6 p7, sumSqF L p7 p8, sumSqF L p8 p5,
        sumSqF L p1 p5, sumSqF L p2 p6, sumSqF L p3 p7, sumSqF L p4 p8].foldl npMin e0))
    else .ok (L.sqrt ([e1, e2, e3].foldl npMin e0))

/-- The test `dist > max_dist` of core.py:321–328. -/
def farF (L : Libm) (a : Elem F64) (c : V3 F64) (b : Elem F64) (c1 : V3 F64) (tol : F64) : Py Bool := do
  let dist := L.sqrt (sumSqF L c1 c)
  let s0 ← a.smallestEdgeF L
  let s1 ← b.smallestEdgeF L
  pure (gt dist (tol * pyMin s0 s1))

/-- Body of the loop of `check_connectivity`, core.py:292–340: `true` iff the iteration sets `err`. -/
def HexaData.checkFaceF (L : Libm) (M : HexaData F64) (tol : F64) (t : Nat × Nat × Nat) : Py Bool := do
  let (iel, ibc, iface) := t
  let el := M.el iel
  let r ← el.bcAt ibc iface
  let cbc := r.typ
  if cbc = nE ∨ cbc = nP then
    let p3 ← truncF r.p3
    let ciel := p3 - 1
    let p4 ← truncF r.p4
    let cface := p4 - 1
    let c ← el.faceCenter iface
    if ciel < 0 ∨ ciel ≥ M.nel then pure true
    else
      let ce ← pyIndex M.elem.length ciel
      let el1 := M.el ce
      let r1 ← el1.bcAt ibc cface
      let q3 ← truncF r1.p3
      let iel1 := q3 - 1
      let q4 ← truncF r1.p4
      let iface1 := q4 - 1
      let c1 ← el1.faceCenter cface
      if r1.typ ≠ cbc ∨ iel1 ≠ iel ∨ iface1 ≠ iface then pure true
      else if cbc = nE then farF L el c el1 c1 tol
      else pure false
  else pure false

/-- `HexaData.check_connectivity`, core.py:276–347. -/
def HexaData.checkConnectivityF (L : Libm) (M : HexaData F64) (tol : F64) : Py Bool := do
  let err ← anyErr (M.checkFaceF L tol)
    (prod3 (List.range M.elem.length) (List.range M.nbc) (List.range (2 * M.ndim)))
  if err then .error .valueError else pure true

/-! Checked against a machine: the square roots of 2, 9, 0.1, 5e-324, 1e308, -1, and of the largest double. -/

example : Flt.sqrt (ofBits 0x4000000000000000) = ofBits 0x3FF6A09E667F3BCD := by decide +kernel
example : Flt.sqrt (ofBits 0x4022000000000000) = ofBits 0x4008000000000000 := by decide +kernel
example : Flt.sqrt (ofBits 0x3FB999999999999A) = ofBits 0x3FD43D136248490F := by decide +kernel
example : Flt.sqrt (ofBits 1) = ofBits 0x1E60000000000000 := by decide +kernel
example : Flt.sqrt (ofBits 0x7FE1CCF385EBC8A0) = ofBits 0x5FE7DDDF6B095FF1 := by decide +kernel
example : Flt.sqrt (ofBits 0x7FEFFFFFFFFFFFFF) = ofBits 0x5FEFFFFFFFFFFFFF := by decide +kernel
example : (Flt.sqrt (ofBits 0xBFF0000000000000)).IsNaN := by decide +kernel

end Pymech
