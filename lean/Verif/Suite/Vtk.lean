import Verif.Core.Types

/-!
# `hexa2vtk`

`/repo/src/pymech/vtksuite.py`, 25–180, up to the construction of the VTK objects: the arrays of points, cells and point data handed to `tvtk`.
Orders zero are not modelled. The array of cells (of dtype float in the code) holds natural numbers. The numbers of the cell types are those
of VTK (`VTK_QUAD` = 9, `VTK_HEXAHEDRON` = 12). `writevtk` only passes the result on.
-/

namespace Pymech

variable {F : Type} [Zero F]

/-- A NumPy array seen as `n` rows. -/
structure Rows (α : Type) where
  n : Nat
  row : Nat → α

/-- `a[i, :] = v` or `a[i] = v`. -/
def Rows.set {α : Type} (a : Rows α) (i : Nat) (v : α) : Py (Rows α) :=
  if i < a.n then .ok { a with row := fun j => if j = i then v else a.row j } else .error .indexError

/-- The right hand side `a[:, ez, ey, ex]` of the assignment to a row with `m` entries; a single value is broadcast, other numbers of values
raise `ValueError`. -/
def Arr.column (a : Arr F) (m ez ey ex : Nat) : Py (List F) :=
  if ez < a.lz ∧ ey < a.ly ∧ ex < a.lx then
    if a.n = m then .ok ((List.range m).map fun d => a.dat d ez ey ex)
    else if a.n = 1 then .ok (List.replicate m (a.dat 0 ez ey ex))
    else .error .valueError
  else .error .indexError

/-- The arrays `r`, `v`, `p`, `T`, `S` (`none` if not defined) and `ce`, and the number of cells written so far: `ice` is `(nvert + 1)` times
the number of the current cell, vtksuite.py:120 and 143. -/
structure VtkState (F : Type) where
  pts : Option (Rows (List F))
  vel : Option (Rows (List F))
  pres : Option (Rows (List F))
  temp : Option (Rows (List F))
  scal : Option (Rows (List F))
  ce : Rows Nat
  cell : Nat

/-- One of the conditional assignments of vtksuite.py:129–138. -/
def putRow (on : Bool) (m : Nat) (a : Arr F) (i ez ey ex : Nat) (o : Option (Rows (List F))) : Py (Option (Rows (List F))) :=
  if on then
    match o with
    | none => .error .unboundLocal
    | some r => do
      let v ← a.column m ez ey ex
      let r ← r.set i v
      pure (some r)
  else .ok o

/-- Steps of the three ranges, vtksuite.py:76–83. -/
def vtkStep (down : Bool) (l : Nat) : Nat := if down then l - 1 else 1

/-- `len(range(0, l, s))`. -/
def rangeLen (l s : Nat) : Nat := (l + s - 1) / s

/-- One grid point, vtksuite.py:123–138; `t` holds the indices `iz`, `iy` and `ix` of the point in the three ranges. -/
def vtkPoint (M : HexaData F) (sx sy sz nix niy nppel iel : Nat) (s : VtkState F) (t : Nat × Nat × Nat) : Py (VtkState F) := do
  let i := iel * nppel + t.2.2 + t.2.1 * nix + t.1 * (nix * niy)
  let ez := t.1 * sz
  let ey := t.2.1 * sy
  let ex := t.2.2 * sx
  let el := M.el iel
  let pts ← putRow (M.var.pos == 3) 3 el.pos i ez ey ex s.pts
  let vel ← putRow (M.var.vel == 3) 3 el.vel i ez ey ex s.vel
  let pres ← putRow (M.var.pres == 1) 1 el.pres i ez ey ex s.pres
  let temp ← putRow (M.var.temp == 1) 1 el.temp i ez ey ex s.temp
  let scal ← putRow (M.var.scal != 0) M.var.scal el.scal i ez ey ex s.scal
  pure { s with pts := pts, vel := vel, pres := pres, temp := temp, scal := scal }

/-- The four entries of one face of a cell, vtksuite.py:145–150. -/
def vtkFace (nvert nix niy nppel iel : Nat) (t : Nat × Nat × Nat) (cell : Nat) (ce : Rows Nat) (face : Nat) : Py (Rows Nat) := do
  let id := iel * nppel + t.2.2 + t.2.1 * nix + (t.1 + face) * nix * niy
  let ice := (nvert + 1) * cell
  let ce ← ce.set (ice + face * 4 + 1) id
  let ce ← ce.set (ice + face * 4 + 2) (id + 1)
  let ce ← ce.set (ice + face * 4 + 3) (id + nix + 1)
  ce.set (ice + face * 4 + 4) (id + nix)

/-- One cell, vtksuite.py:140–150. -/
def vtkCell (ndim nvert nix niy nppel iel : Nat) (s : VtkState F) (t : Nat × Nat × Nat) : Py (VtkState F) := do
  let ce ← (List.range (ndim - 1)).foldlM (vtkFace nvert nix niy nppel iel t s.cell) s.ce
  pure { s with ce := ce, cell := s.cell + 1 }

/-- One element, vtksuite.py:122–150. -/
def vtkElem (M : HexaData F) (sx sy sz nix niy niz nvert : Nat) (s : VtkState F) (iel : Nat) : Py (VtkState F) := do
  let nppel := nix * niy * niz
  if M.elem.length ≤ iel then .error .indexError
  else
    let s ← (prod3 (List.range niz) (List.range niy) (List.range nix)).foldlM (vtkPoint M sx sy sz nix niy nppel iel) s
    if M.var.pos = 3 then
      (prod3 (List.range (max (niz - 1) 1)) (List.range (niy - 1)) (List.range (nix - 1))).foldlM (vtkCell M.ndim nvert nix niy nppel iel) s
    else pure s

/-- What is handed to VTK: the number of cells, their type and offsets, the array of cells, the points and the named data. -/
structure Vtk (F : Type) where
  ncells : Nat
  cellType : Nat
  offsets : List Nat
  cells : Rows Nat
  points : Rows (List F)
  data : List (Name × Rows (List F))

/-- Column `j` of an array. -/
def Rows.col (a : Rows (List F)) (j : Nat) : Rows (List F) := ⟨a.n, fun i => [(a.row i).getD j 0]⟩

/-- The arrays of point data with their names, vtksuite.py:160–176. Each name goes to the array added last, as `idata` counts the arrays
added before. -/
def vtkData (var : Var) (s : VtkState F) : List (Name × Rows (List F)) :=
  (match s.vel with
    | some v => [("vel".toList, v)]
    | none => []) ++
  (match s.pres with
    | some p => [("pres".toList, p)]
    | none => []) ++
  (match s.temp with
    | some t => [("temp".toList, t)]
    | none => []) ++
  (match s.scal with
    | some c => (List.range var.scal).map fun i => ("scal_".toList ++ (Nat.repr (i + 1)).toList, c.col i)
    | none => [])

/-- An array of zeros, `m` numbers in each row, if it is defined. -/
def zeroRows (on : Bool) (n m : Nat) : Option (Rows (List F)) := if on then some ⟨n, fun _ => List.replicate m 0⟩ else none

/-- `hexa2vtk`, vtksuite.py:25–180. A step of zero raises `ValueError` (orders one with `downsample`). -/
def hexa2vtk (M : HexaData F) (down : Bool) : Py (Vtk F) :=
  let sx := vtkStep down M.lr1.x
  let sy := vtkStep down M.lr1.y
  let sz := if down then max (M.lr1.z - 1) 1 else 1
  if sx = 0 ∨ sy = 0 then .error .valueError
  else do
    let nix := rangeLen M.lr1.x sx
    let niy := rangeLen M.lr1.y sy
    let niz := rangeLen M.lr1.z sz
    let nepel := (nix - 1) * (niy - 1) * max (niz - 1) 1
    let nel := M.nel * nepel
    let nvert := if M.ndim = 3 then 8 else 4
    let n := nvert * nel
    let s0 : VtkState F := {
      pts := zeroRows (M.var.pos != 0) n 3
      vel := zeroRows (M.var.vel != 0) n 3
      pres := zeroRows (M.var.pres == 1) n 1
      temp := zeroRows (M.var.temp == 1) n 1
      scal := zeroRows (M.var.scal != 0) n M.var.scal
      ce := ⟨nel * (nvert + 1), fun i => if i % (nvert + 1) = 0 then nvert else 0⟩
      cell := 0 }
    let s ← (List.range M.nel).foldlM (vtkElem M sx sy sz nix niy niz nvert) s0
    match s.pts with
    | none => .error .unboundLocal
    | some r => .ok {
        ncells := nel
        cellType := if M.ndim = 3 then 12 else 9
        offsets := (List.range nel).map (· * nvert)
        cells := s.ce
        points := r
        data := vtkData M.var s }

end Pymech
