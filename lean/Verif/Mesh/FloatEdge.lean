import Verif.Core.FloatConn
import Verif.Mesh.Edge

/-!
# `edge_mid` in double precision

`/repo/src/pymech/meshtools.py`, 886–975, with doubles and their rounding in place of exact numbers. `x ** 2` and `x ** 0.5` are left to the C
library and are the parameters `L.sq` and `L.sqrt`.
-/

set_option autoImplicit false

namespace Pymech

open Flt

/-- `abs(x)`. -/
def absF (x : F64) : F64 := { x with neg := false }

/-- The middle of an arc from `p1` to `p2`, meshtools.py:947–963. -/
def arcMidF (L : Libm) (R : F64) (p1 p2 : V3 F64) : V3 F64 :=
  let dmid := absF R - L.sqrt (L.sq R - L.sq (p2.x - p1.x) / 4 - L.sq (p2.y - p1.y) / 4)
  let ch := L.sqrt (L.sq (p2.x - p1.x) + L.sq (p2.y - p1.y))
  ⟨(p2.x + p1.x) / 2 + dmid / ch * R / absF R * (p2.y - p1.y), (p2.y + p1.y) / 2 - dmid / ch * R / absF R * (p2.x - p1.x), (p2.z + p1.z) / 2⟩

/-- The middle of an edge on a sphere, meshtools.py:966–972. -/
def sphereMidF (L : Libm) (radius : F64) (c p1 p2 : V3 F64) : V3 F64 :=
  let d : V3 F64 := ⟨(p2.x + p1.x) / 2 - c.x, (p2.y + p1.y) / 2 - c.y, (p2.z + p1.z) / 2 - c.z⟩
  let n := L.sqrt (L.sq d.x + L.sq d.y + L.sq d.z)
  ⟨c.x + d.x * radius / n, c.y + d.y * radius / n, c.z + d.z * radius / n⟩

/-- `edge_mid`, meshtools.py:886–975, for a non-negative edge number: the midpoint and the element afterwards. -/
def edgeMidF (L : Libm) (el : Elem F64) (e : Nat) : Py (V3 F64 × Elem F64) :=
  if 12 ≤ e then .error .indexError
  else if el.ccurv e = ['m'] then .ok (el.cpt e, el)
  else do
    let p1 ← el.ptAt (edgeEnds e).1
    let p2 ← el.ptAt (edgeEnds e).2
    if el.ccurv e = [] then
      .ok (⟨(p1.x + p2.x) / 2, (p1.y + p2.y) / 2, (p1.z + p2.z) / 2⟩, el)
    else if el.ccurv e = ['C'] then
      let m := arcMidF L (el.curv e 0) p1 p2
      .ok (m, el.setCpt e m)
    else if el.ccurv e = ['s'] then .ok (sphereMidF L (el.curv e 4) (el.cpt e) p1 p2, el)
    else .ok (el.cpt e, el)

end Pymech
