import Verif.Mesh.Extrude
import Verif.Mesh.Edge

/-!
# `extrude_mid`

`/repo/src/pymech/meshtools.py`, 384–880. The parameter `f` is `fun(·, ·, funpar)`; a function that raises is not modelled. As for
`edge_mid` and `edge_circle`, square roots are a parameter and NaN is not modelled. The mesh is assumed to have as many elements as its
attribute `nel` says, with three coordinates.
-/

namespace Pymech

variable {F : Type} [Field F] [LinearOrder F] [FloorRing F]

/-- The corners `(iy, ix)` in the order of the loops, meshtools.py:482–483. -/
def midCorners : List (Nat × Nat) := [(0, 0), (1, 0), (0, 1), (1, 1)]

/-- One corner, meshtools.py:484–500. -/
def classifyStep (f : F → F → F) (el : Elem F) (s : List (Nat × Nat) × List (Nat × Nat)) (c : Nat × Nat) :
    Py (List (Nat × Nat) × List (Nat × Nat)) := do
  let p ← el.ptAt (0, c.1, c.2)
  if f p.x p.y ≤ 0 then
    if 1 < s.1.length then .error .valueError else .ok (s.1 ++ [c], s.2)
  else
    if 1 < s.2.length then .error .valueError else .ok (s.1, s.2 ++ [c])

/-- The low and the high corners, meshtools.py:482–504. -/
def classify (f : F → F → F) (el : Elem F) : Py (List (Nat × Nat) × List (Nat × Nat)) := do
  let s ← midCorners.foldlM (classifyStep f el) ([], [])
  if s.1.length ≠ 2 ∨ s.2.length ≠ 2 then .error .valueError else .ok s

/-- The indices found by `extrude_mid`: low and high corners, `iedgehi`, `iedgelo`, `iedgelat`, `iedgeconlat`, meshtools.py:469–480. -/
structure Split where
  lo : Nat → Nat × Nat
  hi : Nat → Nat × Nat
  ehi : Nat
  elo : Nat
  lat : Nat → Nat
  con : Nat → Nat

/-- A pair as a function. -/
def pair {α : Type} (a b : α) (q : Nat) : α := if q = 0 then a else b

/-- The edges, meshtools.py:513–541. `index_lo[0]` is never `[1, 1]`, the last corner visited. -/
def splitOf (lo hi : List (Nat × Nat)) : Split :=
  let l := pair (lo.getD 0 (0, 0)) (lo.getD 1 (0, 0))
  let h := pair (hi.getD 0 (0, 0)) (hi.getD 1 (0, 0))
  if l 0 = (0, 0) then
    if h 0 = (0, 1) then ⟨l, h, 1, 3, pair 0 2, pair 9 10⟩ else ⟨l, h, 2, 0, pair 3 1, pair 11 10⟩
  else if l 0 = (1, 0) then ⟨l, h, 0, 2, pair 3 1, pair 8 9⟩
  else ⟨l, h, 3, 1, pair 0 2, pair 8 11⟩

/-! ### Positions -/

/-- Which of the points of a pair is at corner `c`, and on which side: `true` for the high one
(the indexing with `index_lo` and `index_hi` in meshtools.py:556–574). -/
def Split.side (sp : Split) (c : Nat × Nat) : Bool × Nat :=
  if c = sp.hi 0 then (true, 0) else if c = sp.hi 1 then (true, 1) else if c = sp.lo 0 then (false, 0) else (false, 1)

/-- The points in the plane of element `iell` at level `kz`, meshtools.py:544–574. -/
def midPlane (plo pmid phi : Nat → V3 F) (iell kz : Nat) (s : Bool × Nat) : V3 F :=
  if iell = 0 ∨ iell = 5 then (if s.1 then pmid s.2 else plo s.2)
  else if iell = 1 ∨ iell = 4 then (if s.1 then phi s.2 else pmid s.2)
  else if iell = 2 then (if s.1 then (if kz = 0 then pmid s.2 else phi s.2) else plo s.2)
  else (if s.1 then (if kz = 0 then phi s.2 else pmid s.2) else plo s.2)

/-- The heights of element `iell`, meshtools.py:577–599; `z j` is `z[k + j]`, that is `z1[k + j]` and `z2[k + j - 1]`. -/
def midZ (z : Nat → F) (iell kz : Nat) (hi : Bool) : F :=
  if iell = 0 then (if kz = 0 then z 0 else z 1)
  else if iell = 1 then (if kz = 0 then z 0 else if hi then z 2 else z 1)
  else if iell = 2 then (if kz = 0 then z 1 else z 2)
  else if iell = 3 then (if kz = 0 then z 2 else z 3)
  else if iell = 4 then (if kz = 0 then (if hi then z 2 else z 3) else z 4)
  else (if kz = 0 then z 3 else z 4)

/-- `mesh3d.elem[iel + iell].pos`, meshtools.py:464 and 556–599. -/
def midPos (sp : Split) (plo pmid phi : Nat → V3 F) (z : Nat → F) (iell : Nat) : Arr F :=
  ⟨3, 2, 2, 2, fun d kz ky kx =>
    let s := sp.side (ky, kx)
    if d = 0 then (midPlane plo pmid phi iell kz s).x
    else if d = 1 then (midPlane plo pmid phi iell kz s).y
    else midZ z iell kz s.1⟩

/-! ### Curvature -/

/-- `el.ccurv[e] = t`. -/
def Elem.setType (el : Elem F) (e : Nat) (t : Name) : Elem F := { el with ccurv := fun e' => if e' = e then t else el.ccurv e' }

/-- `el.curv[e][q] = x`. -/
def Elem.setCurv (el : Elem F) (e q : Nat) (x : F) : Elem F :=
  { el with curv := fun e' q' => if e' = e ∧ q' = q then x else el.curv e' q' }

/-- `el.curv[e] = 0`. -/
def Elem.zeroCurv (el : Elem F) (e : Nat) : Elem F := { el with curv := fun e' q => if e' = e then 0 else el.curv e' q }

/-- The curvature of the edge between the elements 0 and 1, meshtools.py:620–662: the element of the mesh afterwards, and the elements 0
and 1. -/
def midEdge (rt : F → F) (sp : Split) (plo pmid phi : Nat → V3 F) (z0 : F) (base e0 e1 : Elem F) : Py (Elem F × Elem F × Elem F) :=
  let th := base.ccurv sp.ehi
  let tl := base.ccurv sp.elo
  if th = [] ∧ tl = [] then .ok (base, e0, e1)
  else do
    let (mh, base) ← edgeMid rt base sp.ehi
    let (ml, base) ← edgeMid rt base sp.elo
    let g : (V3 F → F) → F := fun c => 1 / 2 * (c (pmid 0) + c (pmid 1)) +
      1 / 2 * (c mh - 1 / 2 * (c (phi 0) + c (phi 1)) + c ml - 1 / 2 * (c (plo 0) + c (plo 1)))
    let mm : V3 F := ⟨g V3.x, g V3.y, g V3.z⟩
    if th = ['m'] ∨ tl = ['m'] then
      .ok (base, (e0.setType sp.ehi ['m']).setCpt sp.ehi mm, (e1.setType sp.elo ['m']).setCpt sp.elo mm)
    else if th = ['C'] ∨ tl = ['C'] then do
      let (rc, e0) ← edgeCircle rt e0 sp.ehi ⟨mm.x, mm.y, z0⟩
      if rc.1 = 0 then
        .ok (base, (e0.setType sp.ehi []).setCircle sp.ehi 0 ⟨0, 0, 0⟩, (e1.setType sp.elo []).setCircle sp.elo 0 ⟨0, 0, 0⟩)
      else
        .ok (base, (e0.setType sp.ehi ['C']).setCircle sp.ehi rc.1 ⟨0, 0, 0⟩, (e1.setType sp.elo ['C']).setCircle sp.elo (-rc.1) ⟨0, 0, 0⟩)
    else .ok (base, (e0.setType sp.ehi []).zeroCurv sp.ehi, (e1.setType sp.elo []).zeroCurv sp.elo)

/-- One of the edges divided in half, meshtools.py:664–693: the elements 0 and 1; `t` is the type in the mesh. -/
def midHalf (rt : F → F) (e : Nat) (lo mid hi : V3 F) (t : Name) (e0 e1 : Elem F) : Py (Elem F × Elem F) :=
  if t = ['m'] then
    let dmid := ((hi.x - lo.x) * (lo.y - mid.y) - (lo.x - mid.x) * (hi.y - lo.y)) / ((hi.x - lo.x) ^ 2 + (hi.y - lo.y) ^ 2)
    .ok ((e0.setCurv e 0 (1 / 2 * (lo.x + mid.x) + dmid / 4 * (hi.y - lo.y))).setCurv e 1 (1 / 2 * (lo.y + mid.y) - dmid / 4 * (hi.x - lo.x)),
      (e1.setCurv e 0 (1 / 2 * (mid.x + hi.x) + dmid / 4 * (hi.y - lo.y))).setCurv e 1 (1 / 2 * (mid.y + hi.y) - dmid / 4 * (hi.x - lo.x)))
  else if t = ['C'] then do
    let (m, e1) ← edgeMid rt e1 e
    .ok (e0, (e1.setCpt e m).setType e ['m'])
  else .ok (e0, e1)

/-- The edges 4 to 7 become copies of the edges 0 to 3, meshtools.py:695–706. -/
def topEdges (el : Elem F) : Elem F :=
  { el with
    ccurv := fun e => if 4 ≤ e ∧ e < 8 then el.ccurv (e - 4) else el.ccurv e
    curv := fun e => if 4 ≤ e ∧ e < 8 then el.curv (e - 4) else el.curv e }

/-- The elements 2 to 5 take over curvature of the elements 0 and 1, meshtools.py:708–715. -/
def midCopies (E : Nat → Elem F) (iell : Nat) : Elem F :=
  let el := E iell
  if iell = 2 then
    { el with ccurv := fun e => if e < 4 then (E 0).ccurv e else el.ccurv e, curv := fun e => if e < 4 then (E 0).curv e else el.curv e }
  else if iell = 3 then
    { el with
      ccurv := fun e => if 4 ≤ e ∧ e < 8 then (E 0).ccurv (e - 4) else el.ccurv e
      curv := fun e => if 4 ≤ e ∧ e < 8 then (E 0).curv (e - 4) else el.curv e }
  else if iell = 4 then { el with ccurv := (E 1).ccurv, curv := (E 1).curv }
  else if iell = 5 then { el with ccurv := (E 0).ccurv, curv := (E 0).curv }
  else el

/-- The height written for edge `e` of element `iell`, meshtools.py:717–749. -/
def midCurvZ (sp : Split) (z : Nat → F) (iell e : Nat) : F :=
  if iell = 0 then (if e < 4 then z 0 else z 1)
  else if iell = 2 then (if e < 4 then z 1 else z 2)
  else if iell = 3 then (if e < 4 then z 2 else z 3)
  else if iell = 5 then (if e < 4 then z 3 else z 4)
  else if iell = 1 then
    (if e < 4 then z 0 else if e - 4 = sp.ehi then z 2 else if e - 4 = sp.elo then z 1 else 1 / 2 * (z 1 + z 2))
  else
    (if 4 ≤ e then z 4 else if e = sp.ehi then z 2 else if e = sp.elo then z 3 else 1 / 2 * (z 2 + z 3))

/-- The heights of midpoints, meshtools.py:717–749: decided by the types in element 0 for the elements 0, 2, 3, 5 and by those in
element 1 for the others. -/
def midHeights (sp : Split) (z : Nat → F) (E : Nat → Elem F) (iell : Nat) : Elem F :=
  let el := E iell
  let ref := if iell = 1 ∨ iell = 4 then E 1 else E 0
  { el with curv := fun e q => if q = 2 ∧ e < 8 ∧ ref.ccurv (e % 4) = ['m'] then midCurvZ sp z iell e else el.curv e q }

/-- The diagonal edges of the elements 2 and 3, meshtools.py:752–764. -/
def midDiag (sp : Split) (E : Nat → Elem F) (iell : Nat) : Elem F :=
  let el := E iell
  if iell = 2 then
    { el with
      ccurv := fun e => if e = sp.con 0 then (E 1).ccurv (sp.lat 0 + 4) else if e = sp.con 1 then (E 1).ccurv (sp.lat 1 + 4) else el.ccurv e
      curv := fun e => if e = sp.con 0 then (E 1).curv (sp.lat 0 + 4) else if e = sp.con 1 then (E 1).curv (sp.lat 1 + 4) else el.curv e }
  else if iell = 3 then
    { el with
      ccurv := fun e => if e = sp.con 0 then (E 4).ccurv (sp.lat 0) else if e = sp.con 1 then (E 4).ccurv (sp.lat 1) else el.ccurv e
      curv := fun e => if e = sp.con 0 then (E 4).curv (sp.lat 0) else if e = sp.con 1 then (E 4).curv (sp.lat 1) else el.curv e }
  else el

/-! ### Conditions -/

/-- The conditions on internal faces of element `iel + iell`, meshtools.py:770–816; `n` is `nel2d`. -/
def midInner (sp : Split) (n iel iell f : Nat) (r : BC F) : BC F :=
  let s : Int := iel
  let lk (p3 : Int) (p4 : Nat) (r : BC F) : BC F := { r with typ := nE, p3 := (p3 : F), p4 := (p4 : F) }
  if f = 4 then
    let r := { r with own := s + iell + 1, ownFace := 5 }
    if iell = 0 then lk (s + 1 + 5 - 6 * n) 6 r
    else if iell = 1 then lk (s + 1 + 4 - 6 * n) 6 r
    else if iell = 2 then lk (s + 1) 6 r
    else if iell = 3 then lk (s + 1 + 2) 6 r
    else if iell = 4 then lk (s + 1 + 3) (sp.ehi + 1) r
    else lk (s + 1 + 3) 6 r
  else if f = 5 then
    let r := { r with own := s + iell + 1, ownFace := 6 }
    if iell = 0 then lk (s + 1 + 2) 5 r
    else if iell = 1 then lk (s + 1 + 2) (sp.ehi + 1) r
    else if iell = 2 then lk (s + 1 + 3) 5 r
    else if iell = 3 then lk (s + 1 + 5) 5 r
    else if iell = 4 then lk (s + 1 + 1 + 6 * n) 5 r
    else lk (s + 1 + 6 * n) 5 r
  else if f = sp.ehi then
    if iell = 0 then lk (s + 1 + 1) (sp.elo + 1) r
    else if iell = 2 then lk (s + 1 + 1) 6 r
    else if iell = 3 then lk (s + 1 + 4) 5 r
    else if iell = 5 then lk (s + 1 + 4) (sp.elo + 1) r
    else r
  else if f = sp.elo then
    if iell = 1 then lk (s + 1) (sp.ehi + 1) r
    else if iell = 4 then lk (s + 1 + 5) (sp.ehi + 1) r
    else r
  else r

/-- The links of the side faces, meshtools.py:818–830; `kb` is `k // 4`, `r0` the condition in the mesh. -/
def midSide (sp : Split) (n kb iell f : Nat) (r0 r : BC F) : BC F :=
  if (f = sp.lat 0 ∨ f = sp.lat 1) ∧ (r0.typ = nP ∨ r0.typ = nE) then
    { r with p3 := 6 * (r0.p3 - 1 + (n * kb : Nat)) + (iell : F) + 1, p4 := r0.p4 }
  else r

/-- The conditions of element `iel + iell` before those of the ends, meshtools.py:768–830. -/
def midBcs (sp : Split) (ib : Bool) (nbc n kb iel iell : Nat) (g : Nat → Nat → BC F) (b f : Nat) : BC F :=
  if b < nbc then midSide sp n kb iell f (g b f) (if ib then midInner sp n iel iell f (g b f) else g b f)
  else g b f

/-- The end conditions of element number `e` of `nel`, meshtools.py:834–869; `n` is `nel2d`. -/
def midEnds (n nel nbc : Nat) (bc1 bc2 : Nat → Name) (e : Nat) (el : Elem F) : Elem F :=
  { el with bcs := fun b f =>
      let r := el.bcs b f
      if b < nbc then
        if f = 4 ∧ e < 6 * n ∧ e % 6 ≤ 1 then
          let i1 := e / 6 * 6 + nel - 6 * n + 5 - e % 6
          { r with typ := u3 (bc1 b), own := (e : Int) + 1, ownFace := 5
                   p3 := if bc1 b = nP then ((i1 + 1 : Nat) : F) else 0
                   p4 := if bc1 b = nP then 6 else 0 }
        else if f = 5 ∧ nel - 6 * n ≤ e ∧ 4 ≤ e % 6 then
          let i0 := (e - (nel - 6 * n)) / 6 * 6 + (5 - e % 6)
          { r with typ := u3 (bc2 b), own := (e : Int) + 1, ownFace := 6
                   p3 := if bc2 b = nP then ((i0 + 1 : Nat) : F) else 0
                   p4 := if bc2 b = nP then 5 else 0 }
        else r
      else r }

/-! ### The function -/

/-- The six elements made from element `i` in block `kb`, meshtools.py:460–830, before the end conditions; the first component is the
element of the mesh afterwards. -/
def midElem (rt : F → F) (f : F → F → F) (ib : Bool) (nbc n : Nat) (z : List F) (kb i : Nat) (base0 : Elem F) : Py (Elem F × (Nat → Elem F)) := do
  let (lo, hi) ← classify f base0
  let sp := splitOf lo hi
  let plo := fun q => base0.pt 0 (sp.lo q).1 (sp.lo q).2
  let phi := fun q => base0.pt 0 (sp.hi q).1 (sp.hi q).2
  let (m0, base) ← edgeMid rt base0 (sp.lat 0)
  let (m1, base) ← edgeMid rt base (sp.lat 1)
  let pmid := pair m0 m1
  let zz := fun j => z.getD (4 * kb + j) 0
  let E := fun iell => { base0 with pos := midPos sp plo pmid phi zz iell }
  -- `mesh.elem[i].ccurv[icurv][4]` is a character beyond the end of the string `'s'`, meshtools.py:608
  if ∃ e < 4, base0.ccurv e = ['s'] then .error .indexError
  else do
    let (base, e0, e1) ← midEdge rt sp plo pmid phi (zz 0) base (E 0) (E 1)
    let (e0, e1) ← midHalf rt (sp.lat 0) (plo 0) (pmid 0) (phi 0) (base0.ccurv (sp.lat 0)) e0 e1
    let (e0, e1) ← midHalf rt (sp.lat 1) (plo 1) (pmid 1) (phi 1) (base0.ccurv (sp.lat 1)) e0 e1
    let E := fun iell => if iell = 0 then e0 else if iell = 1 then e1 else E iell
    let E := midCopies fun iell => topEdges (E iell)
    let E := midDiag sp (midHeights sp zz E)
    pure (base, fun iell => { E iell with bcs := midBcs sp ib nbc n kb (6 * (i + n * kb)) iell base0.bcs })

/-- One block of four layers, meshtools.py:459–460: the elements of the mesh afterwards and the new elements. -/
def midBlock (rt : F → F) (f : F → F → F) (ib : Bool) (nbc n : Nat) (z : List F) (s : List (Elem F) × List (Elem F)) (kb : Nat) :
    Py (List (Elem F) × List (Elem F)) := do
  let l ← (List.range s.1.length).mapM fun i => midElem rt f ib nbc n z kb i (s.1.getD i Elem.blank)
  pure (l.map Prod.fst, s.2 ++ l.flatMap fun p => (List.range 6).map p.2)

/-- Number of curved edges, meshtools.py:871–877. -/
def countCurved (l : List (Elem F)) : Nat := (l.map fun el => ((List.range 12).filter fun e => el.ccurv e ≠ []).length).sum

/-- `extrude_mid`, meshtools.py:384–880: the mesh afterwards and the result. Without layers (`len(z) = 1`) the loop over the end
conditions addresses elements that do not exist, and without conditions the copy of the mesh is returned with `nel = 0`. A list of
conditions with fewer than `nbc` entries raises `IndexError` as well. `elmap` is the result of the merges, meshtools.py:441–443. -/
def extrudeMid (rt : F → F) (M : HexaData F) (z : List F) (bc1 bc2 : List Name) (f : F → F → F) (ib : Bool) : Py (HexaData F × HexaData F) :=
  if M.ndim ≠ 2 then .error .valueError
  else if M.lr1 ≠ ⟨2, 2, 1, true⟩ then .error .valueError
  else if M.var.pos < 2 then .error .valueError
  else if oneSidedP bc1 bc2 then .error .valueError
  else if z = [] ∨ (z.length - 1) % 4 ≠ 0 then .error .valueError
  else do
    let n := M.nel
    let nb := (z.length - 1) / 4
    let (base, els) ← (List.range nb).foldlM (midBlock rt f ib M.nbc n z) (M.elem, [])
    if 0 < n ∧ 0 < M.nbc ∧ (nb = 0 ∨ bc1.length < M.nbc ∨ bc2.length < M.nbc) then .error .indexError
    else
      let els := if nb = 0 then M.elem else els
      let els := els.mapIdx fun e el => midEnds n (n * 6 * nb) M.nbc (fun b => bc1.getD b []) (fun b => bc2.getD b []) e el
      .ok ({ M with elem := base },
        { M with
          lr1 := ⟨2, 2, 2, true⟩
          var := ⟨3, 0, 0, 0, 0⟩
          nel := n * 6 * nb
          ndim := 3
          ncurv := countCurved els
          elem := els
          elmap := (List.range (max 1 (6 * nb))).flatMap fun k => M.elmap.map (· + ((k * n : Nat) : Int)) })

end Pymech
