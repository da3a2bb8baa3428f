import Verif.Core.FloatMerge
import Verif.Mesh.Circle
import Verif.Mesh.FloatEdge

/-!
# The blocks of `gen_circle` in double precision

`/repo/src/pymech/meshtools.py`, 1622–1780. The functions of `math` are parameters, like the curvature and spacing functions, which may raise
exceptions but have no side effects. The defaults of the last two (1575–1620) and the merging of the blocks (1782–1793) are not part of this file.
-/

set_option autoImplicit false

namespace Pymech

open Flt

/-- Division of Python floats. -/
def pyDivF (a b : F64) : Py F64 := if b.mag = 0 then .error .zeroDivision else .ok (a / b)

/-- `cos` and `sin` of Python raise `ValueError` for infinite angles. -/
def pyTrigF (g : F64 → F64) (x : F64) : Py F64 := if ¬ x.IsNaN ∧ ¬ x.Finite then .error .valueError else .ok (g x)

/-- The literal `0.5`. -/
def halfF : F64 := 1 / 2

/-- `c * (k / ns - 0.5)`, meshtools.py:1682–1685. -/
def squareCoordF (c : F64) (ns k : Nat) : F64 := c * ((k : F64) / (ns : F64) - halfF)

/-- Corners of element `(i, j)` of the square, meshtools.py:1680–1691. -/
def squarePosF (c : F64) (ns i j : Nat) (old : Arr F64) : Arr F64 :=
  let x0 := squareCoordF c ns i
  let x1 := squareCoordF c ns (i + 1)
  let y0 := squareCoordF c ns j
  let y1 := squareCoordF c ns (j + 1)
  { old with dat := fun d kz ky kx =>
      if kz = 0 ∧ ky < 2 ∧ kx < 2 then
        if d = 0 then (if kx = 0 then x0 else x1)
        else if d = 1 then (if ky = 0 then y0 else y1)
        else old.dat d kz ky kx
      else old.dat d kz ky kx }

/-- The square, meshtools.py:1674–1704. -/
def circleSquareF (native : Endian) (m : MathFns F64) (r s : F64) (ns : Nat) (var : Var) (nbc : Nat) (ib : Bool) : HexaData F64 :=
  let box : HexaData F64 := HexaData.new native 2 (ns * ns) ⟨2, 2, 1, true⟩ var nbc
  let con := List.replicate nbc nCon
  { box with elem := box.elem.mapIdx fun iel el =>
      { el with
        pos := squarePosF (s * r * m.sqrt2) ns (iel % ns) (iel / ns) el.pos
        bcs := circleBcs ib nbc ns ns (iel % ns) (iel / ns) con con con con el.bcs } }

/-- The corner of the O mesh at radial position `eta` on ray `j`, meshtools.py:1711–1759, in the order of the operations of the code. -/
def oCornerF (m : MathFns F64) (cf : F64 → Py F64) (r c : F64) (ns j : Nat) (eta : F64) : Py (F64 × F64) := do
  let alpha := halfF * m.pi * ((j : F64) / (ns : F64) - halfF)
  let beta := m.atan (((2 * j : Nat) : F64) / (ns : F64) - 1)
  let ca ← pyTrigF m.cos alpha
  let cb ← pyTrigF m.cos beta
  let lsa ← pyDivF (halfF * c) ca
  let lsb ← pyDivF (halfF * c) cb
  let lc := r - lsa
  let h ← pyDivF (halfF * m.sqrt2 * r) cb
  let lh := h - lsb
  let gamma ← cf eta
  let dc := lsa + eta * lc
  let dh := lsb + eta * lh
  let theta := gamma * alpha + (1 - gamma) * beta
  let d := gamma * dc + (1 - gamma) * dh
  let ct ← pyTrigF m.cos theta
  let st ← pyTrigF m.sin theta
  pure (d * ct, d * st)

/-- Corners of element `(i, j)` of the quarter O, meshtools.py:1709–1769. -/
def oPosF (m : MathFns F64) (cf bl : F64 → Py F64) (r c : F64) (ns no i j : Nat) (old : Arr F64) : Py (Arr F64) := do
  let eta0 ← bl ((i : F64) / (no : F64))
  let eta1 ← bl (((i + 1 : Nat) : F64) / (no : F64))
  let p00 ← oCornerF m cf r c ns j eta0
  let p01 ← oCornerF m cf r c ns j eta1
  let p10 ← oCornerF m cf r c ns (j + 1) eta0
  let p11 ← oCornerF m cf r c ns (j + 1) eta1
  let pt := fun ky kx => if ky = 0 then (if kx = 0 then p00 else p01) else (if kx = 0 then p10 else p11)
  pure { old with dat := fun d kz ky kx =>
      if kz = 0 ∧ ky < 2 ∧ kx < 2 then
        if d = 0 then (pt ky kx).1 else if d = 1 then (pt ky kx).2 else old.dat d kz ky kx
      else old.dat d kz ky kx }

/-- The quarter O, meshtools.py:1706–1780. The order of computations only matters for which of several exceptions is raised. -/
def circleOF (native : Endian) (m : MathFns F64) (cf bl : F64 → Py F64) (r s : F64) (ns no : Nat) (var : Var) (bc : List Name) (ib : Bool) :
    Py (HexaData F64) := do
  let nbc := bc.length
  let box : HexaData F64 := HexaData.new native 2 (no * ns) ⟨2, 2, 1, true⟩ var nbc
  let con := List.replicate nbc nCon
  let pos ← (List.range (no * ns)).mapM fun iel => oPosF m cf bl r (s * r * m.sqrt2) ns no (iel % no) (iel / no) (box.el iel).pos
  pure { box with elem := (List.range (no * ns)).map fun iel =>
      let el := box.el iel
      { el with
        pos := pos.getD iel el.pos
        bcs := circleBcs ib nbc no ns (iel % no) (iel / no) con bc con con el.bcs
        ccurv := fun e => if e = 1 ∧ iel % no = no - 1 then ['C'] else el.ccurv e
        curv := fun e q => if e = 1 ∧ q = 0 ∧ iel % no = no - 1 then r else el.curv e q } }

end Pymech
