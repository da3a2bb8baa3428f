import Verif.Core.Conn

/-!
# `rotate_2d`, `gen_box`

`/repo/src/pymech/meshtools.py`, 1322–1516.
-/

namespace Pymech

variable {F : Type}

/-- `rotate_2d`, meshtools.py:1340–1343: rotation of the positions. `c`, `s` are `cos(theta)`, `sin(theta)`. -/
def rotatePos [Add F] [Sub F] [Mul F] (c s : F) (a : Arr F) : Arr F :=
  { a with dat := fun d k j i =>
      (if d = 0 then c * a.dat 0 k j i - s * a.dat 1 k j i
       else if d = 1 then s * a.dat 0 k j i + c * a.dat 1 k j i
       else a.dat d k j i) }

/-- Loop body of `rotate_2d`, meshtools.py:1339–1350: positions and `'m'` midpoints. -/
def rotateElem [Add F] [Sub F] [Mul F] (c s : F) (el : Elem F) : Elem F :=
  { el with
    pos := rotatePos c s el.pos
    curv := fun e q =>
      (if e < 12 ∧ el.ccurv e = ['m'] then
         if q = 0 then c * el.curv e 0 - s * el.curv e 1
         else if q = 1 then s * el.curv e 0 + c * el.curv e 1
         else el.curv e q
       else el.curv e q) }

/-- `rotate_2d`, meshtools.py:1322–1350. The arguments `x0`, `y0` are not used by the code. -/
def rotate2d [Add F] [Sub F] [Mul F] (M : HexaData F) (_x0 _y0 : F) (c s : F) : HexaData F :=
  { M with elem := M.elem.map (rotateElem c s) }

/-- `elnum`, meshtools.py:1423. -/
def elnum (i j ni : Nat) : Nat := i + ni * j

/-- Coordinates of the corners of element `(i, j)`, meshtools.py:1428–1437. -/
def boxPos [Add F] [Mul F] [Div F] [NatCast F] (nx ny : Nat) (xmin ymin lx ly : F) (i j : Nat) (old : Arr F) : Arr F :=
  let x0 := xmin + lx * (i : F) / (nx : F)
  let x1 := xmin + lx * ((i + 1 : Nat) : F) / (nx : F)
  let y0 := ymin + ly * (j : F) / (ny : F)
  let y1 := ymin + ly * ((j + 1 : Nat) : F) / (ny : F)
  { old with dat := fun d kz ky kx =>
      if kz = 0 ∧ ky < 2 ∧ kx < 2 then
        if d = 0 then (if kx = 0 then x0 else x1)
        else if d = 1 then (if ky = 0 then y0 else y1)
        else old.dat d kz ky kx
      else old.dat d kz ky kx }

/-- The five assignments of one connection, e.g. meshtools.py:1444–1448. -/
def wrLink [NatCast F] (t : Name) (own ownFace pe pf : Nat) (r : BC F) : BC F :=
  { r with typ := t, own := (own : Int), ownFace := (ownFace : Int), p3 := (pe : F), p4 := (pf : F) }

/-- Connectivity of element `(i, j)` in one field, meshtools.py:1443–1469. -/
def boxInner [NatCast F] (nx ny i j f : Nat) (r : BC F) : BC F :=
  let me := elnum i j nx + 1
  if f = 0 ∧ j ≠ 0 then wrLink nE me 1 (elnum i (j - 1) nx + 1) 3 r
  else if f = 1 ∧ i ≠ nx - 1 then wrLink nE me 2 (elnum (i + 1) j nx + 1) 4 r
  else if f = 2 ∧ j ≠ ny - 1 then wrLink nE me 3 (elnum i (j + 1) nx + 1) 1 r
  else if f = 3 ∧ i ≠ 0 then wrLink nE me 4 (elnum (i - 1) j nx + 1) 2 r
  else r

/-- External condition `bc` on a face whose periodic partner is face `pf` of element `pe` (one-based),
meshtools.py:1477–1483: the link is only written for `'P'`. -/
def wrExt [NatCast F] (bc : Name) (own ownFace pe pf : Nat) (r : BC F) : BC F :=
  let r := { r with typ := u3 bc, own := (own : Int), ownFace := (ownFace : Int) }
  if bc = nP then { r with p3 := (pe : F), p4 := (pf : F) } else r

/-- External conditions of element `(i, j)` in one field, meshtools.py:1472–1514. -/
def boxOuter [NatCast F] (nx ny i j : Nat) (bxmin bxmax bymin bymax : Name) (f : Nat) (r : BC F) : BC F :=
  let me := elnum i j nx + 1
  if f = 0 ∧ j = 0 then wrExt bymin me 1 (elnum i (ny - 1) nx + 1) 3 r
  else if f = 2 ∧ j = ny - 1 then wrExt bymax me 3 (elnum i 0 nx + 1) 1 r
  else if f = 3 ∧ i = 0 then wrExt bxmin me 4 (elnum (nx - 1) j nx + 1) 2 r
  else if f = 1 ∧ i = nx - 1 then wrExt bxmax me 2 (elnum 0 j nx + 1) 4 r
  else r

/-- Number of BC fields, meshtools.py:1396–1401. -/
def boxNbc (var : Var) : Nat :=
  (if var.vel > 0 then 1 else 0) + (if var.temp > 0 then 1 else 0) + var.scal

/-- `gen_box`, meshtools.py:1356–1516. Every loop visits each element once, so the result is the list of elements with
index `iel = i + nx*j`. A list of conditions that is too short raises `IndexError` (if there is a face to apply it to);
so does an empty grid that is not empty in both directions (1476, 1497). -/
def genBox [Zero F] [Add F] [Sub F] [Mul F] [Div F] [NatCast F] [LE F] [DecidableLE F] (native : Endian) (nx ny : Nat) (xmin xmax ymin ymax : F) (var : Var)
    (bxmin bxmax bymin bymax : Option (List Name)) (internalBcs : Bool) : Py (HexaData F) :=
  let nbc := boxNbc var
  let dflt := List.replicate nbc nP
  let bxmin := bxmin.getD dflt
  let bxmax := bxmax.getD dflt
  let bymin := bymin.getD dflt
  let bymax := bymax.getD dflt
  let box : HexaData F := HexaData.new native 2 (nx * ny) ⟨2, 2, 1, true⟩ var nbc
  let lx := xmax - xmin
  let ly := ymax - ymin
  if lx ≤ 0 then .error .valueError
  else if ly ≤ 0 then .error .valueError
  else if nx * ny ≠ 0 ∧ (bxmin.length < nbc ∨ bxmax.length < nbc ∨ bymin.length < nbc ∨ bymax.length < nbc) then
    .error .indexError
  else if nbc ≠ 0 ∧ nx * ny = 0 ∧ ¬ (nx = 0 ∧ ny = 0) then .error .indexError
  else .ok { box with elem := box.elem.mapIdx fun iel el =>
    let i := iel % nx
    let j := iel / nx
    { el with
      pos := boxPos nx ny xmin ymin lx ly i j el.pos
      bcs := fun b f =>
        if b < nbc then
          let r := if internalBcs then boxInner nx ny i j f (el.bcs b f) else el.bcs b f
          boxOuter nx ny i j (bxmin.getD b []) (bxmax.getD b []) (bymin.getD b []) (bymax.getD b []) f r
        else el.bcs b f } }

end Pymech
