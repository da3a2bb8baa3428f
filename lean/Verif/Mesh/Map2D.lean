import Verif.Mesh.Edge

/-!
# Coordinate transformation of a 2D mesh: `map2D`

`/repo/src/pymech/meshtools.py`, 1801–1856. The transformation is a function without side effects. The elements in the list
are assumed to be distinct objects. Because `edge_mid` may change the element it is given (see `C70_arc`), the model also returns
the input mesh as it is after the call.
-/

namespace Pymech

/-- The loop over the vertices, meshtools.py:1833–1838. -/
def mapVertices {F : Type} (T : F → F → F × F) (el : Elem F) : Py (Elem F) :=
  if 2 ≤ el.pos.n ∧ 1 ≤ el.pos.lz ∧ 2 ≤ el.pos.ly ∧ 2 ≤ el.pos.lx then
    let dat := fun d kz ky kx =>
      if kz = 0 ∧ ky < 2 ∧ kx < 2 then
        (if d = 0 then (T (el.pos.dat 0 0 ky kx) (el.pos.dat 1 0 ky kx)).1
         else if d = 1 then (T (el.pos.dat 0 0 ky kx) (el.pos.dat 1 0 ky kx)).2
         else el.pos.dat d kz ky kx)
      else el.pos.dat d kz ky kx
    .ok { el with pos := { el.pos with dat := dat } }
  else .error .indexError

/-- The condition for curving an edge, meshtools.py:1847–1851. Without conditions `el.bcs[0]` raises `IndexError`. -/
def needCurve {F : Type} (curvature bcurv : Bool) (el : Elem F) (e : Nat) : Py Bool :=
  if curvature = true then .ok true
  else if el.ccurv e ≠ [] then .ok true
  else if bcurv = true then
    if el.rows = 0 then .error .indexError else .ok (decide ((el.bcs 0 e).typ ≠ [] ∧ (el.bcs 0 e).typ ≠ nE))
  else .ok false

/-- One turn of the loop over edges, meshtools.py:1846–1855: element `s.1` of the input and `s.2` of the result. `mid` is `edge_mid`. -/
def mapEdgeBy {F : Type} (mid : Elem F → Nat → Py (V3 F × Elem F)) (T : F → F → F × F) (curvature bcurv : Bool) (s : Elem F × Elem F) (e : Nat) : Py (Elem F × Elem F) := do
  let c ← needCurve curvature bcurv s.1 e
  if c then
    let (m, el) ← mid s.1 e
    let q := T m.x m.y
    let ccurv := fun e' => if e' = e then ['m'] else s.2.ccurv e'
    let curv := fun e' k => if e' = e then (if k = 0 then q.1 else if k = 1 then q.2 else s.2.curv e' k) else s.2.curv e' k
    pure (el, { s.2 with ccurv := ccurv, curv := curv })
  else pure s

/-- The body of the loop over elements, meshtools.py:1830–1855. -/
def mapElemBy {F : Type} (mid : Elem F → Nat → Py (V3 F × Elem F)) (T : F → F → F × F) (curvature bcurv : Bool) (el : Elem F) :
    Py (Elem F × Elem F) := do
  let el' ← mapVertices T el
  (List.range 4).foldlM (mapEdgeBy mid T curvature bcurv) (el, el')

/-- `map2D`, meshtools.py:1801–1856: the input mesh afterwards, and the result. -/
def map2DBy {F : Type} (mid : Elem F → Nat → Py (V3 F × Elem F)) (T : F → F → F × F) (curvature bcurv : Bool) (M : HexaData F) :
    Py (HexaData F × HexaData F) := do
  let l ← M.elem.mapM (mapElemBy mid T curvature bcurv)
  pure ({ M with elem := l.map Prod.fst }, { M with elem := l.map Prod.snd })

variable {F : Type} [Field F] [LinearOrder F]

/-- `map2D` of an element in exact arithmetic, meshtools.py:1830–1855. -/
abbrev mapElem (rt : F → F) (T : F → F → F × F) (curvature bcurv : Bool) (el : Elem F) : Py (Elem F × Elem F) :=
  mapElemBy (edgeMid rt) T curvature bcurv el

/-- `map2D` in exact arithmetic, meshtools.py:1801–1856. -/
abbrev map2D (rt : F → F) (T : F → F → F × F) (curvature bcurv : Bool) (M : HexaData F) : Py (HexaData F × HexaData F) :=
  map2DBy (edgeMid rt) T curvature bcurv M

end Pymech
