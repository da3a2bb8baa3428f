import Verif.Core.Types

/-!
# Geometry of one element: `Elem.centroid`, `Elem.smallest_edge`, `Elem.face_center`

`/repo/src/pymech/core.py`, 143–227.
-/

namespace Pymech

/-- A point. -/
structure V3 (F : Type) where
  x : F
  y : F
  z : F
  deriving DecidableEq, Repr

/-- `pos[:, kz, ky, kx]` where each index is `0` (`false`) or `-1` (`true`), core.py:219–222.
An empty axis raises `IndexError`. -/
def Arr.corner {F : Type} (a : Arr F) (k : Bool × Bool × Bool) : Py (V3 F) :=
  if a.lx = 0 ∨ a.ly = 0 ∨ a.lz = 0 then .error .indexError
  else
    let ix := if k.1 then a.lx - 1 else 0
    let iy := if k.2.1 then a.ly - 1 else 0
    let iz := if k.2.2 then a.lz - 1 else 0
    .ok ⟨a.dat 0 iz iy ix, a.dat 1 iz iy ix, a.dat 2 iz iy ix⟩

/-- The table of corner indices `(kx, ky, kz)` of `face_center`, core.py:187–216. An invalid face number
is only logged (218) and the unassigned names then raise `UnboundLocalError`. -/
def faceCorners (i : Int) : Py ((Bool × Bool × Bool) × (Bool × Bool × Bool) × (Bool × Bool × Bool) × (Bool × Bool × Bool)) :=
  if i = 0 then .ok ((false, false, false), (false, false, true), (true, false, false), (true, false, true))
  else if i = 1 then .ok ((true, false, false), (true, false, true), (true, true, false), (true, true, true))
  else if i = 2 then .ok ((false, true, false), (false, true, true), (true, true, false), (true, true, true))
  else if i = 3 then .ok ((false, false, false), (false, false, true), (false, true, false), (false, true, true))
  else if i = 4 then .ok ((false, false, false), (false, true, false), (true, false, false), (true, true, false))
  else if i = 5 then .ok ((false, false, true), (false, true, true), (true, false, true), (true, true, true))
  else .error .unboundLocal

/-- `Elem.face_center`, core.py:184–227. -/
def Elem.faceCenter {F : Type} [Add F] [Mul F] [Div F] [OfNat F 1] [OfNat F 4] (el : Elem F) (i : Int) : Py (V3 F) := do
  let (k1, k2, k3, k4) ← faceCorners i
  let p1 ← el.pos.corner k1
  let p2 ← el.pos.corner k2
  let p3 ← el.pos.corner k3
  let p4 ← el.pos.corner k4
  pure ⟨1 / 4 * (p1.x + p2.x + p3.x + p4.x), 1 / 4 * (p1.y + p2.y + p3.y + p4.y),
        1 / 4 * (p1.z + p2.z + p3.z + p4.z)⟩

/-- Square of the distance of two points, `(x2-x1)**2 + (y2-y1)**2 + (z2-z1)**2`. -/
def distSq {F : Type} [Field F] (p q : V3 F) : F :=
  (q.x - p.x) ^ 2 + (q.y - p.y) ^ 2 + (q.z - p.z) ^ 2

/-- `self.pos[:, iz, iy, ix]` with literal indices, core.py:151–171. -/
def Elem.pt {F : Type} (el : Elem F) (iz iy ix : Nat) : V3 F :=
  ⟨el.pos.dat 0 iz iy ix, el.pos.dat 1 iz iy ix, el.pos.dat 2 iz iy ix⟩

/-- `min()` of a non-empty list. -/
def minList {F : Type} [LinearOrder F] (a : F) (l : List F) : F := l.foldl min a

/-- The *square* of `Elem.smallest_edge()`, core.py:147–182: the function returns `np.sqrt` of this.
Indices 1 out of range raise `IndexError`. -/
def Elem.smallestEdgeSq {F : Type} [Field F] [LinearOrder F] (el : Elem F) : Py F :=
  if el.pos.lx < 2 ∨ el.pos.ly < 2 ∨ el.pos.lz < 1 then .error .indexError
  else
    let p1 := el.pt 0 0 0
    let p2 := el.pt 0 0 1
    let p3 := el.pt 0 1 0
    let p4 := el.pt 0 1 1
    let e0 := distSq p1 p2
    let e1 := distSq p2 p3
    let e2 := distSq p3 p4
    let e3 := distSq p4 p1
    if el.pos.lz > 1 then
      let p5 := el.pt 1 0 0
      let p6 := el.pt 1 0 1
      let p7 := el.pt 1 1 0
      let p8 := el.pt 1 1 1
      .ok (minList e0 [e1, e2, e3, distSq p5 p6, distSq p6 p7, distSq p7 p8, distSq p8 p5,
        distSq p1 p5, distSq p2 p6, distSq p3 p7, distSq p4 p8])
    else .ok (minList e0 [e1, e2, e3])

/-- Face `f0` of `a` and face `f1` of `b` are closer than `tol` times the smaller of the two smallest edges:
`dist <= tol * min(...)`, core.py:444–448; the negation of the test `dist > max_dist` in 324–330.
Squares are compared, see `closeB`. -/
def closeFaces {F : Type} [Field F] [LinearOrder F] (a : Elem F) (f0 : Int) (b : Elem F) (f1 : Int)
    (tol : F) : Py Bool := do
  let c0 ← a.faceCenter f0
  let c1 ← b.faceCenter f1
  let s0 ← a.smallestEdgeSq
  let s1 ← b.smallestEdgeSq
  pure (closeB (distSq c0 c1) tol (min s0 s1))

/-- Sum over a box of indices in C order. -/
def sumBox {F : Type} [AddCommMonoid F] (lz ly lx : Nat) (g : Nat → Nat → Nat → F) : F :=
  ((List.range lz).map fun k => ((List.range ly).map fun j => ((List.range lx).map fun i => g k j i).sum).sum).sum

/-- `Elem.centroid`, core.py:143–145: mean over all grid points (division by zero gives NaN in NumPy;
only meaningful for non-empty arrays). -/
def Elem.centroid {F : Type} [Field F] (el : Elem F) : V3 F :=
  let n : F := ((el.pos.lz * el.pos.ly * el.pos.lx : Nat) : F)
  let m (d : Nat) := sumBox el.pos.lz el.pos.ly el.pos.lx (fun k j i => el.pos.dat d k j i) / n
  ⟨m 0, m 1, m 2⟩

end Pymech
