import Verif.Core.Geom

/-!
# Curved edges: `edge_mid`, `edge_circle`

`/repo/src/pymech/meshtools.py`, 886–1062. Square roots (`x ** 0.5`) are a parameter `rt`; the root of a negative number and
the quotient by zero, which NumPy makes NaN or infinite, are not modelled (theorems assume that they do not occur).
`el.curv[iedge][:3]` is a view, so that assignments to it change the element: both functions return the new element as well.
-/

namespace Pymech

/-- Indices `(iz, iy, ix)` of the end points of the edges 0 to 11, meshtools.py:901–936 and 992–1027. -/
def edgeEnds : Nat → (Nat × Nat × Nat) × (Nat × Nat × Nat)
  | 0 => ((0, 0, 0), (0, 0, 1))
  | 1 => ((0, 0, 1), (0, 1, 1))
  | 2 => ((0, 1, 1), (0, 1, 0))
  | 3 => ((0, 1, 0), (0, 0, 0))
  | 4 => ((1, 0, 0), (1, 0, 1))
  | 5 => ((1, 0, 1), (1, 1, 1))
  | 6 => ((1, 1, 1), (1, 1, 0))
  | 7 => ((1, 1, 0), (1, 0, 0))
  | 8 => ((0, 0, 0), (1, 0, 0))
  | 9 => ((0, 0, 1), (1, 0, 1))
  | 10 => ((0, 1, 1), (1, 1, 1))
  | _ => ((0, 1, 0), (1, 1, 0))

/-- `el.pos[:, iz, iy, ix]`. -/
def Elem.ptAt {F : Type} (el : Elem F) (k : Nat × Nat × Nat) : Py (V3 F) :=
  if k.1 < el.pos.lz ∧ k.2.1 < el.pos.ly ∧ k.2.2 < el.pos.lx then .ok (el.pt k.1 k.2.1 k.2.2) else .error .indexError

/-- `el.curv[iedge][:3]`. -/
def Elem.cpt {F : Type} (el : Elem F) (e : Nat) : V3 F := ⟨el.curv e 0, el.curv e 1, el.curv e 2⟩

/-- `el.curv[iedge][:3] = p`. -/
def Elem.setCpt {F : Type} (el : Elem F) (e : Nat) (p : V3 F) : Elem F :=
  { el with curv := fun e' q => if e' = e then (if q = 0 then p.x else if q = 1 then p.y else if q = 2 then p.z else el.curv e' q) else el.curv e' q }

variable {F : Type} [Field F] [LinearOrder F]

/-- The middle of an arc from `p1` to `p2`, meshtools.py:947–963. -/
def arcMid (rt : F → F) (R : F) (p1 p2 : V3 F) : V3 F :=
  let dmid := |R| - rt (R ^ 2 - (p2.x - p1.x) ^ 2 / 4 - (p2.y - p1.y) ^ 2 / 4)
  let ch := rt ((p2.x - p1.x) ^ 2 + (p2.y - p1.y) ^ 2)
  ⟨(p2.x + p1.x) / 2 + dmid / ch * R / |R| * (p2.y - p1.y), (p2.y + p1.y) / 2 - dmid / ch * R / |R| * (p2.x - p1.x), (p2.z + p1.z) / 2⟩

/-- The middle of an edge on a sphere, meshtools.py:966–972. -/
def sphereMid (rt : F → F) (radius : F) (c p1 p2 : V3 F) : V3 F :=
  let d : V3 F := ⟨(p2.x + p1.x) / 2 - c.x, (p2.y + p1.y) / 2 - c.y, (p2.z + p1.z) / 2 - c.z⟩
  let n := rt (d.x ^ 2 + d.y ^ 2 + d.z ^ 2)
  ⟨c.x + d.x * radius / n, c.y + d.y * radius / n, c.z + d.z * radius / n⟩

/-- `edge_mid`, meshtools.py:886–975, for a non-negative edge number: the midpoint and the element afterwards. -/
def edgeMid (rt : F → F) (el : Elem F) (e : Nat) : Py (V3 F × Elem F) :=
  if 12 ≤ e then .error .indexError
  else if el.ccurv e = ['m'] then .ok (el.cpt e, el)
  else do
    let p1 ← el.ptAt (edgeEnds e).1
    let p2 ← el.ptAt (edgeEnds e).2
    if el.ccurv e = [] then
      .ok (⟨(p1.x + p2.x) / 2, (p1.y + p2.y) / 2, (p1.z + p2.z) / 2⟩, el)
    else if el.ccurv e = ['C'] then
      let m := arcMid rt (el.curv e 0) p1 p2
      .ok (m, el.setCpt e m)
    else if el.ccurv e = ['s'] then .ok (sphereMid rt (el.curv e 4) (el.cpt e) p1 p2, el)
    else .ok (el.cpt e, el)

/-- `el.curv[iedge][:4] = (r, c)`. -/
def Elem.setCircle (el : Elem F) (e : Nat) (r : F) (c : V3 F) : Elem F :=
  { el with curv := fun e' q => if e' = e then
      (if q = 0 then r else if q = 1 then c.x else if q = 2 then c.y else if q = 3 then c.z else el.curv e' q) else el.curv e' q }

/-- Radius and centre of the circle through three points, meshtools.py:1029–1055. -/
def circle3 (rt : F → F) (p1 m p2 : V3 F) : F × V3 F :=
  let s1 : V3 F := ⟨m.x - p1.x, m.y - p1.y, m.z - p1.z⟩
  let s2 : V3 F := ⟨p2.x - m.x, p2.y - m.y, p2.z - m.z⟩
  let s3 : V3 F := ⟨p1.x - p2.x, p1.y - p2.y, p1.z - p2.z⟩
  let d1 := rt (s1.x ^ 2 + s1.y ^ 2 + s1.z ^ 2)
  let d2 := rt (s2.x ^ 2 + s2.y ^ 2 + s2.z ^ 2)
  let d3 := rt (s3.x ^ 2 + s3.y ^ 2 + s3.z ^ 2)
  let sper := (d1 + d2 + d3) / 2
  let area := rt (sper * (sper - d1) * (sper - d2) * (sper - d3))
  if area > 1 / 10000 * d1 * d2 then
    let radius := d1 * d2 * d3 / (4 * area)
    let a1 := d2 ^ 2 * (d1 ^ 2 + d3 ^ 2 - d2 ^ 2) / 2
    let a2 := d3 ^ 2 * (d2 ^ 2 + d1 ^ 2 - d3 ^ 2) / 2
    let a3 := d1 ^ 2 * (d3 ^ 2 + d2 ^ 2 - d1 ^ 2) / 2
    let c : V3 F := ⟨(a1 * p1.x + a2 * m.x + a3 * p2.x) / (8 * area ^ 2), (a1 * p1.y + a2 * m.y + a3 * p2.y) / (8 * area ^ 2),
      (a1 * p1.z + a2 * m.z + a3 * p2.z) / (8 * area ^ 2)⟩
    if (s1.x - s3.x) * (s2.y - s1.y) - (s1.x - s2.x) * (s3.y - s1.y) < 0 then (-radius, c) else (radius, c)
  else (0, ⟨0, 0, 0⟩)

/-- `edge_circle`, meshtools.py:979–1062, for a non-negative edge number (beyond 11 the end points are not assigned): radius
and centre, and the element afterwards. -/
def edgeCircle (rt : F → F) (el : Elem F) (e : Nat) (m : V3 F) : Py ((F × V3 F) × Elem F) :=
  if 12 ≤ e then .error .unboundLocal
  else do
    let p1 ← el.ptAt (edgeEnds e).1
    let p2 ← el.ptAt (edgeEnds e).2
    let r := circle3 rt p1 m p2
    .ok (r, el.setCircle e r.1 r.2)

end Pymech
