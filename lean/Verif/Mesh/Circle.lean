import Verif.Mesh.Box

/-!
# `exponential_refinement_parameter`, `gen_circle`

`/repo/src/pymech/meshtools.py`, 1240–1316 and 1522–1795. The functions of the `math` module are parameters. Numbers are Python
floats, whose division by zero raises `ZeroDivisionError` (NumPy scalars, which only warn, are not modelled).
-/

namespace Pymech

/-- The functions of the `math` module used here, and the power `**` of floats, which can raise `ZeroDivisionError`. -/
structure MathFns (F : Type) where
  sin : F → F
  cos : F → F
  atan : F → F
  log : F → F
  pow : F → F → Py F
  pi : F
  sqrt2 : F

variable {F : Type} [Field F] [LinearOrder F]

/-- Division of floats. -/
def pyDiv (a b : F) : Py F := if b = 0 then .error .zeroDivision else .ok (a / b)

/-- `math.log` raises `ValueError` unless its argument is positive. -/
def pyLog (m : MathFns F) (x : F) : Py F := if x ≤ 0 then .error .valueError else .ok (m.log x)

/-- `err`, meshtools.py:1271–1285. -/
def refineErr (m : MathFns F) (l0 ltot : F) (n : Nat) (x : F) : Py F :=
  if |x - 1| < 2 / 1000000 then do
    let q ← pyDiv ((n : F) * l0) ltot
    let a ← pyLog m q
    let b ← pyLog m (1 + ((n : F) - 1) / 2 * (x - 1) + ((n : F) - 1) * ((n : F) - 2) / 6 * (x - 1) ^ 2
      + ((n : F) - 1) * ((n : F) - 2) * ((n : F) - 3) / 24 * (x - 1) ^ 3)
    pure (a + b)
  else do
    let q ← pyDiv (x ^ n - 1) (x - 1)
    let q ← pyDiv (q * l0) ltot
    pyLog m q

/-- `err_prime`, meshtools.py:1287–1301. -/
def refineErrPrime (n : Nat) (x : F) : Py F :=
  if |x - 1| < 2 / 1000000 then .ok (1 / 2 * ((n : F) - 1) + ((n : F) - 1) * ((n : F) - 5) / 12 * (x - 1))
  else pyDiv (((n : F) - 1) / 2 + ((n : F) - 1) * ((n : F) - 2) / 3 * (x - 1) + ((n : F) - 1) * ((n : F) - 2) * ((n : F) - 3) / 8 * (x - 1) ^ 2)
    (1 + ((n : F) - 1) / 2 * (x - 1) + ((n : F) - 1) * ((n : F) - 2) / 6 * (x - 1) ^ 2)

/-- One step of the iteration, meshtools.py:1309–1311. -/
def refineStep (m : MathFns F) (l0 ltot : F) (n : Nat) (alpha : F) : Py F := do
  let fx ← refineErr m l0 ltot n alpha
  let fpx ← refineErrPrime n alpha
  let d ← pyDiv fx fpx
  pure (alpha - d)

/-- The loop, meshtools.py:1308–1316; the first argument is `maxiter - iter`. -/
def refineLoop (m : MathFns F) (l0 ltot : F) (n : Nat) (tol : F) : Nat → F → F → Py F
  | 0, _, alpha => .ok alpha
  | k + 1, residual, alpha =>
    if residual > tol then do
      let alpha1 ← refineStep m l0 ltot n alpha
      refineLoop m l0 ltot n tol k |alpha1 - alpha| alpha1
    else .ok alpha

/-- `exponential_refinement_parameter`, meshtools.py:1240–1316. -/
def refineParam (m : MathFns F) (l0 ltot : F) (n : Nat) (tol : F) : Py F := refineLoop m l0 ltot n tol 10000 1 1

/-! ### `gen_circle` -/

/-- `err_stretching`, meshtools.py:1590–1594. -/
def stretchErr (m : MathFns F) (cf : F → Py F) (r s width lnew lref : F) : Py F := do
  let q ← pyDiv lnew width
  let eta ← cf q
  let total := r * (1 - 1 / 2 * m.sqrt2 * s)
  pure (q * ((1 - eta) * width + eta * total) - lref)

/-- The secant iteration, meshtools.py:1603–1608: the final `l1`. -/
def secant (f : F → Py F) : Nat → F → F → F → Py F
  | 0, _, l1, _ => .ok l1
  | k + 1, l0, l1, f0 =>
    if |f0| > 1 / 1000000000000 then do
      let f1 ← f l1
      let q ← pyDiv (l1 - l0) (f1 - f0)
      secant f k l1 (l1 - q * f1) f1
    else .ok l1

/-- The default spacing function, meshtools.py:1582–1620. -/
def defaultBl (m : MathFns F) (cf : F → Py F) (r s : F) (ns no : Nat) : Py (F → Py F) := do
  let spacing ← pyDiv (s * r * m.sqrt2) (ns : F)
  let width := 1 / 2 * r * (1 - s) * m.sqrt2
  let f0 ← stretchErr m cf r s width 1 spacing
  let l1 ← secant (fun l => stretchErr m cf r s width l spacing) 10000 1 0 f0
  let alpha ← refineParam m l1 width no (1 / 100000000000000)
  pure fun x =>
    if |alpha - 1| < 1 / 1000000000000 then .ok x
    else do
      let q ← pyDiv l1 width
      let p ← m.pow alpha (x * (no : F))
      pyDiv (q * (p - 1)) (alpha - 1)

/-- The spacing function used, meshtools.py:1582. -/
def circleBl (m : MathFns F) (cf : F → Py F) (r s : F) (ns no : Nat) : Option (F → Py F) → Py (F → Py F)
  | some bl => .ok bl
  | none => defaultBl m cf r s ns no

/-- `apply_bcs` for face `f` of element `(i, j)` of `ni * nj` in one field, meshtools.py:1627–1638; only the type is written. -/
def circleBc {F : Type} (ni nj i j : Nat) (bc0 bc1 bc2 bc3 : Name) (f : Nat) (r : BC F) : BC F :=
  if f = 0 ∧ j = 0 then { r with typ := u3 bc0 }
  else if f = 2 ∧ j = nj - 1 then { r with typ := u3 bc2 }
  else if f = 1 ∧ i = ni - 1 then { r with typ := u3 bc1 }
  else if f = 3 ∧ i = 0 then { r with typ := u3 bc3 }
  else r

/-- The conditions of an element: `build_connectivity` (1641–1672, which writes what `gen_box` does, see `boxInner`) and `apply_bcs`. -/
def circleBcs {F : Type} [NatCast F] (ib : Bool) (nbc ni nj i j : Nat) (bc0 bc1 bc2 bc3 : List Name) (g : Nat → Nat → BC F) (b f : Nat) : BC F :=
  if b < nbc then circleBc ni nj i j (bc0.getD b []) (bc1.getD b []) (bc2.getD b []) (bc3.getD b []) f (if ib then boxInner ni nj i j f (g b f) else g b f)
  else g b f

/-- `'con'`, the condition of faces to be glued. -/
def nCon : Name := ['c', 'o', 'n']

/-- Corners of element `(i, j)` of the square, meshtools.py:1679–1690. -/
def squarePos (c : F) (ns i j : Nat) (old : Arr F) : Arr F :=
  let x0 := c * ((i : F) / (ns : F) - 1 / 2)
  let x1 := c * (((i + 1 : Nat) : F) / (ns : F) - 1 / 2)
  let y0 := c * ((j : F) / (ns : F) - 1 / 2)
  let y1 := c * (((j + 1 : Nat) : F) / (ns : F) - 1 / 2)
  { old with dat := fun d kz ky kx =>
      if kz = 0 ∧ ky < 2 ∧ kx < 2 then
        if d = 0 then (if kx = 0 then x0 else x1)
        else if d = 1 then (if ky = 0 then y0 else y1)
        else old.dat d kz ky kx
      else old.dat d kz ky kx }

/-- The square, meshtools.py:1674–1704. -/
def circleSquare (native : Endian) (m : MathFns F) (r s : F) (ns : Nat) (var : Var) (nbc : Nat) (ib : Bool) : HexaData F :=
  let box : HexaData F := HexaData.new native 2 (ns * ns) ⟨2, 2, 1, true⟩ var nbc
  let con := List.replicate nbc nCon
  { box with elem := box.elem.mapIdx fun iel el =>
      { el with
        pos := squarePos (s * r * m.sqrt2) ns (iel % ns) (iel / ns) el.pos
        bcs := circleBcs ib nbc ns ns (iel % ns) (iel / ns) con con con con el.bcs } }

/-- The corner of the O mesh at radial position `eta` on ray `j`, meshtools.py:1711–1759 (the code computes the four corners of an
element, two on each of the rays `j` and `j + 1`, with the same formulas). -/
def oCorner (m : MathFns F) (cf : F → Py F) (r c : F) (ns j : Nat) (eta : F) : Py (F × F) := do
  let alpha := 1 / 2 * m.pi * ((j : F) / (ns : F) - 1 / 2)
  let beta := m.atan (2 * (j : F) / (ns : F) - 1)
  let lsa ← pyDiv (1 / 2 * c) (m.cos alpha)
  let lsb ← pyDiv (1 / 2 * c) (m.cos beta)
  let lc := r - lsa
  let h ← pyDiv (1 / 2 * m.sqrt2 * r) (m.cos beta)
  let lh := h - lsb
  let gamma ← cf eta
  let dc := lsa + eta * lc
  let dh := lsb + eta * lh
  let theta := gamma * alpha + (1 - gamma) * beta
  let d := gamma * dc + (1 - gamma) * dh
  pure (d * m.cos theta, d * m.sin theta)

/-- Corners of element `(i, j)` of the quarter O, meshtools.py:1709–1769. -/
def oPos (m : MathFns F) (cf bl : F → Py F) (r c : F) (ns no i j : Nat) (old : Arr F) : Py (Arr F) := do
  let eta0 ← bl ((i : F) / (no : F))
  let eta1 ← bl (((i + 1 : Nat) : F) / (no : F))
  let p00 ← oCorner m cf r c ns j eta0
  let p01 ← oCorner m cf r c ns j eta1
  let p10 ← oCorner m cf r c ns (j + 1) eta0
  let p11 ← oCorner m cf r c ns (j + 1) eta1
  let pt := fun ky kx => if ky = 0 then (if kx = 0 then p00 else p01) else (if kx = 0 then p10 else p11)
  pure { old with dat := fun d kz ky kx =>
      if kz = 0 ∧ ky < 2 ∧ kx < 2 then
        if d = 0 then (pt ky kx).1 else if d = 1 then (pt ky kx).2 else old.dat d kz ky kx
      else old.dat d kz ky kx }

/-- The quarter O, meshtools.py:1706–1780. The order in which the corners of different elements are computed, and of the
computations within one element, only matters for which of several exceptions is raised. -/
def circleO (native : Endian) (m : MathFns F) (cf bl : F → Py F) (r s : F) (ns no : Nat) (var : Var) (bc : List Name) (ib : Bool) : Py (HexaData F) := do
  let nbc := bc.length
  let box : HexaData F := HexaData.new native 2 (no * ns) ⟨2, 2, 1, true⟩ var nbc
  let con := List.replicate nbc nCon
  let pos ← (List.range (no * ns)).mapM fun iel => oPos m cf bl r (s * r * m.sqrt2) ns no (iel % no) (iel / no) (box.el iel).pos
  pure { box with elem := (List.range (no * ns)).map fun iel =>
      let el := box.el iel
      { el with
        pos := pos.getD iel el.pos
        bcs := circleBcs ib nbc no ns (iel % no) (iel / no) con bc con con el.bcs
        ccurv := fun e => if e = 1 ∧ iel % no = no - 1 then ['C'] else el.ccurv e
        curv := fun e q => if e = 1 ∧ q = 0 ∧ iel % no = no - 1 then r else el.curv e q } }

/-- `gen_circle`, meshtools.py:1522–1795. `none` for the functions means the defaults. Without elements in the O mesh, but not on the
side, the loops over its boundary raise `IndexError` (1631, 1636, 1777). -/
def genCircle (native : Endian) [FloorRing F] (m : MathFns F) (r s : F) (ns no : Nat) (cf bl : Option (F → Py F)) (var : Var)
    (bc : List Name) (ib : Bool) : Py (HexaData F) := do
  let cf := cf.getD fun x => .ok (m.sin (1 / 2 * m.pi * x) ^ 2)
  let bl ← circleBl m cf r s ns no bl
  if (0 < ns ∧ no = 0) ∨ (ns = 0 ∧ 0 < no ∧ 0 < bc.length) then .error .indexError
  else do
    let sq := circleSquare native m r s ns var bc.length ib
    let o ← circleO native m cf bl r s ns no var bc ib
    let c := m.cos (1 / 2 * m.pi)
    let t := m.sin (1 / 2 * m.pi)
    let (sq, _) ← sq.merge o (1 / 100) true (!ib)
    let o := rotate2d o 0 0 c t
    let (sq, _) ← sq.merge o (1 / 100) true (!ib)
    let o := rotate2d o 0 0 c t
    let (sq, _) ← sq.merge o (1 / 100) true (!ib)
    let o := rotate2d o 0 0 c t
    let (sq, _) ← sq.merge o (1 / 100) true (!ib)
    pure sq

end Pymech
