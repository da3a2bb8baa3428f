import Verif.IO.Re2
import Verif.IO.ReaText

/-!
# ASCII meshes: `readrea` and `writerea`

`/repo/src/pymech/neksuite/mesh.py`:12–598. A file is a text. Simplifications: texts are ASCII; carriage returns (which
Python turns into newlines) are dealt with in `IO/Newlines.lean`; line numbers are positions in the list of lines, so a loop that reads the
same number of lines in every round addresses its lines directly; a negative number of curved sides is stored as zero;
what `data` looks like after `writerea` raised an exception is not modelled.
-/

namespace Pymech

/-! ### Lines -/

/-- The lines of a text, each with its newline. -/
def linesGo (cur : Text) : Text → List Text
  | [] => if cur = [] then [] else [cur]
  | c :: cs => if c = '\n' then (cur ++ [c]) :: linesGo [] cs else linesGo (cur ++ [c]) cs

/-- The lines of a text. -/
def linesT (s : Text) : List Text := linesGo [] s

/-- `s.split()` of a string: the separators FS, GS, RS, US count as blanks, unlike for bytes. -/
def splitU (s : Text) : List Text := splitT (s.map fun c => if isSpaceU c then ' ' else c)

/-- `s.strip()`. -/
def stripT (s : Text) : Text := rstripT (s.dropWhile isSpaceU)

/-- `line[a:b]`. -/
def cols (l : Text) (a b : Nat) : Text := (l.drop a).take (b - a)

/-- `line.split()[k]`. -/
def wordAt (l : Text) (k : Nat) : Py Text :=
  match (splitU l)[k]? with
  | some w => .ok w
  | none => .error .indexError

/-- `int(line.split()[0])`. -/
def intWord (l : Text) : Py Int := do
  let w ← wordAt l 0
  orValueError (pyInt w)

/-- `float(line.split()[k])`. -/
def floatWord (l : Text) (k : Nat) : Py F64 := do
  let w ← wordAt l k
  orValueError (pyFloat w)

/-- `int(line[a:b])`. -/
def colInt (l : Text) (a b : Nat) : Py Int := orValueError (pyInt (stripT (cols l a b)))

/-- `float(line[a:b])`. -/
def colFloat (l : Text) (a b : Nat) : Py F64 := orValueError (pyFloat (stripT (cols l a b)))

/-! ### Reading -/

/-- A line that starts a field of boundary conditions, mesh.py:31–33. -/
def isBcHead (l : Text) : Bool :=
  decide ("BOUNDARY".toList ∈ (splitU l).drop 2) && decide ("NO".toList ∉ splitU l)

/-- One line of coordinates, mesh.py:97–101. -/
def readQuad (jdim : Nat) (l : Text) : Py (Nat → F64) := do
  let x0 ← floatWord l 0
  if 3 ≤ jdim then .error .indexError
  else do
    let x1 ← floatWord l 1
    let x2 ← floatWord l 2
    let x3 ← floatWord l 3
    pure fun c => if c = 0 then x0 else if c = 1 then x1 else if c = 2 then x2 else x3

/-- Number of lines of coordinates of an element, mesh.py:95–96. -/
def geoLines (nd : Nat) : Nat := (nd - 1) * nd

/-- One element, mesh.py:93–101; the first line is skipped. -/
def readPos (nd : Nat) (ls : List Text) : Py (Arr F64) := do
  let q ← (List.range (geoLines nd)).mapM fun k => readQuad (k % nd) (ls.getD (1 + k) [])
  pure ⟨3, nd - 1, 2, 2, fun d z y x =>
    if d < nd ∧ z < nd - 1 ∧ y < 2 ∧ x < 2 then (q.getD (z * nd + d) fun _ => 0) (vertNo y x) else 0⟩

/-- Columns of a line for a curved side: end of the number of the edge and end of the number of the element,
mesh.py:112–138. -/
def curveCols (nel : Nat) : Nat × Nat := if nel < 10 ^ 3 then (3, 6) else if nel < 10 ^ 6 then (2, 8) else (2, 12)

/-- One curved side, mesh.py:111–138. -/
def putReaCurve (nel : Nat) (M : HexaData F64) (l : Text) : Py (HexaData F64) := do
  let a := (curveCols nel).1
  let b := (curveCols nel).2
  let iedge ← colInt l 0 a
  let iel ← colInt l a b
  let x0 ← colFloat l b (b + 14)
  let i ← pyIndex M.elem.length (iel - 1)
  let k ← pyIndex 12 (iedge - 1)
  let x1 ← colFloat l (b + 14) (b + 28)
  let x2 ← colFloat l (b + 28) (b + 42)
  let x3 ← colFloat l (b + 42) (b + 56)
  let x4 ← colFloat l (b + 56) (b + 70)
  let t ← wordAt (cols l (b + 70) (b + 73)) 0
  let v : Nat → F64 := fun j => if j = 0 then x0 else if j = 1 then x1 else if j = 2 then x2 else if j = 3 then x3 else x4
  pure { M with elem := M.elem.modify i fun el => el.setCurve k v t }

/-- One boundary condition, mesh.py:149–185. -/
def readBC (nel iel iface : Nat) (l : Text) : Py (BC F64) :=
  if 6 ≤ iface then .error .indexError
  else do
    let t := npU3 (stripT (cols l 1 3))
    let own ← if nel < 10 ^ 3 then colInt l 4 7 else if nel < 10 ^ 6 then pure ((iel : Int) + 1) else colInt l 4 15
    let face ← if nel < 10 ^ 3 then colInt l 7 10 else if nel < 10 ^ 6 then pure ((iface : Int) + 1) else colInt l 15 16
    let s := if nel < 10 ^ 6 then 10 else 16
    let w := if nel < 10 ^ 6 then 14 else 18
    let x3 ← colFloat l s (s + w)
    let x4 ← colFloat l (s + w) (s + 2 * w)
    let x5 ← colFloat l (s + 2 * w) (s + 3 * w)
    let x6 ← colFloat l (s + 3 * w) (s + 4 * w)
    let x7 ← colFloat l (s + 4 * w) (s + 5 * w)
    if t = nE ∧ x3.mag = 0 then pure BC.zero else pure ⟨t, own, face, x3, x4, x5, x6, x7⟩

/-- The parameters, mesh.py:51–53. -/
def readParams (npar : Nat) (ls : List Text) : Py Unit :=
  (List.range npar).forM fun k => do
    let _ ← floatWord (ls.getD k []) 0
    pure ()

/-- The boundary conditions, mesh.py:141–187; `ls` starts with the title of the first field. -/
def readFaces (nd nel nbc : Nat) (M : HexaData F64) (ls : List Text) : Py (HexaData F64) := do
  let nf := 2 * nd
  let rs ← (prod3 (List.range nbc) (List.range nel) (List.range nf)).mapM fun t =>
    readBC nel t.2.1 t.2.2 (ls.getD ((1 + nel * nf) * t.1 + 1 + nf * t.2.1 + t.2.2) [])
  let put (i : Nat) (el : Elem F64) : Elem F64 :=
    { el with bcs := fun b f => if b < nbc ∧ f < nf then rs.getD ((b * nel + i) * nf + f) BC.zero else BC.zero }
  pure { M with elem := M.elem.mapIdx put }

/-- Curved sides and boundary conditions, mesh.py:103–187; `ps` are the coordinates and `ls` starts with the title of the
curved sides. -/
def readSides (native : Endian) (nd nel nbc : Nat) (ps : List (Arr F64)) (ls : List Text) : Py (HexaData F64) := do
  let ncurv ← intWord (ls.getD 1 [])
  let M : HexaData F64 := HexaData.new native nd nel ⟨2, 2, nd - 1, true⟩ ⟨nd, 0, 0, 0, 0⟩ nbc
  let M ← (List.range ncurv.toNat).foldlM (fun M k => putReaCurve nel M (ls.getD (2 + k) []))
    { M with ncurv := ncurv.toNat, elem := M.elem.zipWith (fun el p => { el with pos := p }) ps }
  readFaces nd nel nbc M (ls.drop (2 + ncurv.toNat + 1))

/-- The part of `readrea` after the number of elements, mesh.py:84–187; `ls` starts with the line that follows it. -/
def readMesh (native : Endian) (nd nel nbc : Nat) (ls : List Text) : Py (HexaData F64) := do
  let g := 1 + geoLines nd
  let ps ← (List.range nel).mapM fun i => readPos nd (ls.drop (g * i))
  readSides native nd nel nbc ps (ls.drop (g * nel))

/-- `readrea` on the content of the file, mesh.py:12–195. -/
def readrea (native : Endian) (s : Text) : Py (HexaData F64) := do
  let ls := linesT s
  let nbc := (ls.filter isBcHead).length
  let ndim ← intWord (ls.getD 2 [])
  let npar ← intWord (ls.getD 3 [])
  if npar < 0 then .error .valueError
  else do
    readParams npar.toNat (ls.drop 4)
    let ls := ls.drop (4 + npar.toNat)
    let npscal ← intWord (ls.getD 0 [])
    let ls := ls.drop (1 + npscal.toNat)
    let nswitch ← intWord (ls.getD 0 [])
    let ls := ls.drop (1 + nswitch.toNat)
    let nel ← intWord (ls.getD 2 [])
    if ndim < 1 ∨ nel < 0 then .error .valueError
    else readMesh native ndim.toNat nel.toNat nbc (ls.drop 3)

/-! ### Writing -/

/-- A line. -/
def lineT (t : Text) : Text := t ++ ['\n']

/-- A sequence of lines written to an empty file: content when the function ends, and the exception that ended it. -/
def runLines : List (Py Text) → Text × Option PyErr
  | [] => ([], none)
  | .ok t :: l => let r := runLines l; (lineT t ++ r.1, r.2)
  | .error e :: _ => ([], some e)

/-- `"{:14.6e}"`. -/
def e14 (x : F64) : Text := rjust 14 (fmtE 'e' 6 x)

/-- `"{:18.11e}"`. -/
def e18 (x : F64) : Text := rjust 18 (fmtE 'e' 11 x)

/-- The first four lines, mesh.py:216–219. -/
def reaHead (ndim : Nat) : List Text :=
  ["****** PARAMETERS ******".toList, "   2.6000     NEKTON VERSION".toList, "   ".toList ++ decI ndim ++ " DIMENSIONAL RUN".toList,
    "         118 PARAMETERS FOLLOW".toList]

/-- The line with the number of elements, mesh.py:373. -/
def reaNel (nel ndim : Nat) : Text :=
  "  ".toList ++ rjust 10 (decI nel) ++ [' '] ++ decI ndim ++ [' '] ++ rjust 10 (decI nel) ++ " NEL,NDIM,NELV".toList

/-- One line of coordinates: component `d` at the corners with third index `z`, mesh.py:378–384. -/
def quadT (a : Arr F64) (d z : Nat) : Text :=
  e14 (a.dat d z 0 0) ++ e14 (a.dat d z 0 (a.lx - 1)) ++ e14 (a.dat d z (a.ly - 1) (a.lx - 1)) ++ e14 (a.dat d z (a.ly - 1) 0)

/-- The lines of an element, mesh.py:375–442. -/
def reaGeo (nd i : Nat) (a : Arr F64) : List Text :=
  ("           ELEMENT ".toList ++ rjust 10 (decI (i + 1 : Nat)) ++ " [  1a]    GROUP 1".toList) ::
    (if nd = 2 then [quadT a 0 0, quadT a 1 0]
     else if nd = 3 then [quadT a 0 0, quadT a 1 0, quadT a 2 0, quadT a 0 (a.lz - 1), quadT a 1 (a.lz - 1), quadT a 2 (a.lz - 1)]
     else [])

/-- Component and third index of the lines of coordinates, mesh.py:376–442. -/
def reaCorners (nd lz : Nat) : List (Nat × Nat) :=
  if nd = 2 then [(0, 0), (1, 0)]
  else if nd = 3 then [(0, 0), (1, 0), (2, 0), (0, lz - 1), (1, lz - 1), (2, lz - 1)]
  else []

/-- The lines of element `i`; any of the lines of coordinates can raise `IndexError`, mesh.py:375–442. -/
def reaGeoW (M : HexaData F64) (i : Nat) : List (Py Text) :=
  let a := (M.el i).pos
  .ok ("           ELEMENT ".toList ++ rjust 10 (decI (i + 1 : Nat)) ++ " [  1a]    GROUP 1".toList) ::
    (reaCorners M.ndim a.lz).map fun t =>
      if i < M.elem.length ∧ t.1 < a.n ∧ 0 < a.lz ∧ 0 < a.ly ∧ 0 < a.lx then .ok (quadT a t.1 t.2) else .error .indexError

/-- The line of curved side `k` of element `i`, mesh.py:449–497. -/
def reaCurve (nel i k : Nat) (p : Nat → F64) (t : Name) : Text :=
  (if nel < 10 ^ 3 then rjust 3 (decI (k + 1 : Nat)) ++ rjust 3 (decI (i + 1 : Nat))
    else if nel < 10 ^ 6 then rjust 2 (decI (k + 1 : Nat)) ++ rjust 6 (decI (i + 1 : Nat))
    else rjust 2 (decI (k + 1 : Nat)) ++ rjust 10 (decI (i + 1 : Nat))) ++
    e14 (p 0) ++ e14 (p 1) ++ e14 (p 2) ++ e14 (p 3) ++ e14 (p 4) ++ rjust 2 t

/-- The edges written, mesh.py:449–497. -/
def reaEdges (M : HexaData F64) : List (Nat × Nat) :=
  (prod2 (List.range M.nel) (List.range 12)).filter fun t => decide ((M.el t.1).ccurv t.2 ≠ [])

/-- The lines of the curved sides, mesh.py:449–497; an element that is missing raises `IndexError`. -/
def reaCurvesW (M : HexaData F64) : List (Py Text) :=
  ((prod2 (List.range M.nel) (List.range 12)).filter fun t => decide (M.elem.length ≤ t.1 ∨ (M.el t.1).ccurv t.2 ≠ [])).map fun t =>
    if t.1 < M.elem.length then .ok (reaCurve M.nel t.1 t.2 ((M.el t.1).curv t.2) ((M.el t.1).ccurv t.2)) else .error .indexError

/-- The title of field `b`, mesh.py:502–510; that of the first field is written in any case. -/
def reaTitle (b : Nat) : List Text :=
  if b = 0 then []
  else if b = 1 then ["  ***** THERMAL BOUNDARY CONDITIONS *****".toList]
  else ["  ***** PASSIVE SCALAR ".toList ++ rjust 4 (decI (b - 1 : Nat)) ++ " BOUNDARY CONDITIONS *****".toList]

/-- An empty condition becomes an internal one, in `data` itself, mesh.py:515–518. -/
def BC.mark {F : Type} (i f : Nat) (r : BC F) : BC F :=
  if r.typ = [] then { r with typ := nE, own := (i : Int) + 1, ownFace := (f : Int) + 1 } else r

/-- The line of a boundary condition, mesh.py:519–556. -/
def reaBC (nel : Nat) (r : BC F64) : Text :=
  [' '] ++ ljust 2 r.typ ++ [' '] ++
    (if nel < 10 ^ 3 then rjust 3 (decI r.own) ++ rjust 3 (decI r.ownFace) ++ e14 r.p3 ++ e14 r.p4 ++ e14 r.p5 ++ e14 r.p6 ++ e14 r.p7
     else if nel < 10 ^ 6 then rjust 6 (decI r.own) ++ e14 r.p3 ++ e14 r.p4 ++ e14 r.p5 ++ e14 r.p6 ++ e14 r.p7
     else rjust 11 (decI r.own) ++ decI r.ownFace ++ e18 r.p3 ++ e18 r.p4 ++ e18 r.p5 ++ e18 r.p6 ++ e18 r.p7)

/-- The lines of field `b`, mesh.py:502–556. -/
def reaField (M : HexaData F64) (b : Nat) : List (Py Text) :=
  (reaTitle b).map .ok ++ (prod2 (List.range M.nel) (List.range (2 * M.ndim))).map fun t =>
    if t.1 < M.elem.length ∧ b < (M.el t.1).rows ∧ t.2 < 6 then .ok (reaBC M.nel ((M.bc t.1 b t.2).mark t.1 t.2))
    else .error .indexError

/-- All lines of `writerea`, mesh.py:216–592. -/
def reaLines (M : HexaData F64) : List (Py Text) :=
  (reaHead M.ndim ++ reaParams ++ reaSwitches ++
    ["  ***** MESH DATA *****  6 lines are X,Y,Z;X,Y,Z. Columns corners 1-4;5-8".toList, reaNel M.nel M.ndim]).map .ok ++
  (List.range M.nel).flatMap (reaGeoW M) ++
  [.ok "  ***** CURVED SIDE DATA *****".toList,
    .ok ("  ".toList ++ rjust 10 (decI M.ncurv) ++ " Curved sides follow IEDGE,IEL,CURVE(I),I=1,5, CCURVE".toList)] ++
  reaCurvesW M ++
  [.ok "  ***** BOUNDARY CONDITIONS *****".toList, .ok "  ***** FLUID BOUNDARY CONDITIONS *****".toList] ++
  (List.range M.nbc).flatMap (reaField M) ++
  (if M.nbc < 2 then [.ok "  ***** NO THERMAL BOUNDARY CONDITIONS *****".toList] else []) ++
  reaTail.map .ok

/-- `data` after `writerea`, mesh.py:513–518. -/
def reaMark (M : HexaData F64) : HexaData F64 :=
  let g (i : Nat) (el : Elem F64) : Elem F64 :=
    { el with bcs := fun b f => if b < M.nbc ∧ f < 2 * M.ndim ∧ i < M.nel then (el.bcs b f).mark i f else el.bcs b f }
  { M with elem := M.elem.mapIdx g }

/-- `writerea`, mesh.py:199–598: content of the file, and `data` after the call or the exception raised. -/
def writerea (M : HexaData F64) : Text × Py (HexaData F64) :=
  let r := runLines (reaLines M)
  (r.1, match r.2 with
    | some e => .error e
    | none => .ok (reaMark M))

end Pymech
