import Verif.Core.Geom

/-!
# Connectivity methods of `HexaData`

`/repo/src/pymech/core.py`, 276–531.
-/

namespace Pymech

/-- Row access `bcs[ibc, iface]`: raises `IndexError` if the element has fewer BC rows than the mesh
claims (possible after merging meshes with different `nbc`) or the face number is out of range; negative
face numbers wrap around. -/
def Elem.bcAt {F : Type} (el : Elem F) (ibc : Nat) (iface : Int) : Py (BC F) := do
  if el.rows ≤ ibc then .error .indexError
  else
    let f ← pyIndex 6 iface
    pure (el.bcs ibc f)

variable {F : Type} [Field F] [LinearOrder F] [FloorRing F]

/-- Body of the loop of `check_connectivity`, core.py:289–340: `true` iff the iteration sets `err`. -/
def HexaData.checkFace (M : HexaData F) (tol : F) (t : Nat × Nat × Nat) : Py Bool := do
  let (iel, ibc, iface) := t
  let el := M.el iel
  let r ← el.bcAt ibc iface
  let cbc := r.typ
  if cbc = nE ∨ cbc = nP then
    let ciel := trunc r.p3 - 1
    let cface := trunc r.p4 - 1
    let _ ← el.faceCenter iface
    if ciel < 0 ∨ ciel ≥ M.nel then pure true
    else
      let ce ← pyIndex M.elem.length ciel
      let el1 := M.el ce
      let r1 ← el1.bcAt ibc cface
      let iel1 := trunc r1.p3 - 1
      let iface1 := trunc r1.p4 - 1
      let _ ← el1.faceCenter cface
      if r1.typ ≠ cbc ∨ iel1 ≠ iel ∨ iface1 ≠ iface then pure true
      else if cbc = nE then do
        let c ← closeFaces el iface el1 cface tol
        pure (!c)
      else pure false
  else pure false

/-- `HexaData.check_connectivity`, core.py:276–347. -/
def HexaData.checkConnectivity (M : HexaData F) (tol : F) : Py Bool := do
  let err ← anyErr (M.checkFace tol)
    (prod3 (List.range M.elem.length) (List.range M.nbc) (List.range (2 * M.ndim)))
  if err then .error .valueError else pure true

/-- `HexaData.check_bcs_present`, core.py:349–372. -/
def HexaData.checkBcsPresent (M : HexaData F) : Py Bool := do
  let err ← anyErr (fun t : Nat × Nat × Nat => do
      let r ← (M.el t.1).bcAt t.2.1 t.2.2
      pure (decide (r.typ = [])))
    (prod3 (List.range M.elem.length) (List.range M.nbc) (List.range (2 * M.ndim)))
  if err then .error .valueError else pure true

/-- First loop body of `offset_connectivity`, core.py:519–524. -/
def BC.offsetLink (offset ielMin : Int) (r : BC F) : BC F :=
  if (r.typ = nE ∨ r.typ = nP) ∧ trunc r.p3 > ielMin then { r with p3 := r.p3 + (offset : F) } else r

/-- Second loop body of `offset_connectivity`, core.py:530–531. -/
def BC.offsetOwn {F : Type} (offset ielMin : Int) (r : BC F) : BC F :=
  if r.own > ielMin then { r with own := r.own + offset } else r

/-- Apply `g` to the records `[0..nbc) × [0..nf)` of an element. -/
def Elem.mapBC {F : Type} (el : Elem F) (nbc nf : Nat) (g : BC F → BC F) : Elem F :=
  { el with bcs := fun b f => if b < nbc ∧ f < nf then g (el.bcs b f) else el.bcs b f }

/-- Apply `g` to the elements `m, m+1, …` of a list (`for el in self.elem[m:]`). -/
def mapFrom {α : Type} (m : Nat) (g : α → α) (l : List α) : List α :=
  l.mapIdx fun i x => if m ≤ i then g x else x

/-- `HexaData.offset_connectivity`, core.py:504–531, for `iel_min ≥ 0`.
The loops touch each record once and the bodies only read the record they write, hence the `map`s.
Simplification: an element with fewer than `nbc` rows (which raises `IndexError`) is not considered here;
the theorems assume `rows = nbc`. -/
def HexaData.offsetConnectivity (M : HexaData F) (offset : Int) (ielMin : Nat) : HexaData F :=
  let M1 := { M with elem := M.elem.map fun el : Elem F => el.mapBC M.nbc (2 * M.ndim) (BC.offsetLink offset ielMin) }
  { M1 with elem := mapFrom ielMin (fun el : Elem F => el.mapBC M.nbc (2 * M.ndim) (BC.offsetOwn offset ielMin)) M1.elem }

/-- `HexaData.update_ncurv`, core.py:492–502. -/
def HexaData.updateNcurv {F : Type} (M : HexaData F) : HexaData F :=
  { M with ncurv := M.elem.foldl (fun n el =>
      (List.range 12).foldl (fun n i => if el.ccurv i ≠ [] then n + 1 else n) n) 0 }

/-- `pos[:, ...]` as the list of its points in C order (three times `ravel()`), core.py:487–488. -/
def Elem.ravel (el : Elem F) : List (V3 F) :=
  (List.range el.pos.lz).flatMap fun iz => (List.range el.pos.ly).flatMap fun iy =>
    (List.range el.pos.lx).map fun ix => el.pt iz iy ix

/-- `HexaData.get_points`, core.py:478–490. The result has `nel` rows of `lx1*ly1*lz1` points; rows without an element
stay zero (`zip` stops at the shorter list); an element with another number of points raises `ValueError`, except that
NumPy broadcasts a single point. -/
def HexaData.getPoints (M : HexaData F) : Py (List (List (V3 F))) :=
  let nxyz := M.lr1.x * M.lr1.y * M.lr1.z
  (List.range M.nel).mapM fun i =>
    if i < M.elem.length then
      let el := M.el i
      let n := el.pos.lz * el.pos.ly * el.pos.lx
      if n = nxyz then .ok el.ravel
      else if n = 1 then .ok (List.replicate nxyz (el.pt 0 0 0))
      else .error .valueError
    else .ok (List.replicate nxyz ⟨0, 0, 0⟩)

/-- Connect face `f0` of `e0` with face `f1` of `e1` in field `ibc`, core.py:466–472. -/
def HexaData.connect {F : Type} [IntCast F] (M : HexaData F) (ibc e0 f0 e1 f1 : Nat) : HexaData F :=
  (M.modBC e0 ibc f0 (BC.link nE ((e1 : Int) + 1) ((f1 : Int) + 1))).modBC e1 ibc f1
    (BC.link nE ((e0 : Int) + 1) ((f0 : Int) + 1))

/-- Reconnect the former partners `p0`, `p1` of two periodic faces in field `ibc`, core.py:455–464. The written
indices are those before NumPy resolves negative ones. Writing `p0` completely and then `p1` gives the same
result as the interleaved assignments of the code, also if both are the same record. -/
def HexaData.relink {F : Type} [IntCast F] (M : HexaData F) (ibc : Nat) (ip0 fp0 ip1 fp1 : Int) (e0 f0 e1 f1 : Nat) : HexaData F :=
  (M.modBC e0 ibc f0 (BC.link nP (ip1 + 1) (fp1 + 1))).modBC e1 ibc f1
    (BC.link nP (ip0 + 1) (fp0 + 1))

/-- Core of `merge` for one pair of touching faces, core.py:449–473. -/
def HexaData.mergePair (M : HexaData F) (nbc : Nat) (bc0 bc1 : Name) (e0 f0 e1 f1 : Nat) :
    Py (HexaData F) := do
  let M ←
    if bc0 = bc1 ∧ bc1 = nP then do
      let r0 := M.bc e0 0 f0
      let r1 := M.bc e1 0 f1
      let ip0 := trunc r0.p3 - 1
      let ip1 := trunc r1.p3 - 1
      let fp0 := trunc r0.p4 - 1
      let fp1 := trunc r1.p4 - 1
      let q0 ← pyIndex M.elem.length ip0
      let q1 ← pyIndex M.elem.length ip1
      let g0 ← pyIndex 6 fp0
      let g1 ← pyIndex 6 fp1
      pure ((List.range nbc).foldl (fun M ibc => M.relink ibc ip0 fp0 ip1 fp1 q0 g0 q1 g1) M)
    else pure M
  pure ((List.range nbc).foldl (fun M ibc => M.connect ibc e0 f0 e1 f1) M)

/-- Inner loop body of `merge`, core.py:438–473. `touch e0 f0 e1 f1` is the geometric test of 444–448; positions
are not changed by the loop, so it does not depend on the state. -/
def mergeInner (touch : Nat → Nat → Nat → Nat → Py Bool) (nbc : Nat) (ignoreEmpty : Bool) (e0 f0 : Nat)
    (bc0 : Name) (s : HexaData F × Nat) (t : Nat × Nat) : Py (HexaData F × Nat) := do
  let (M, n) := s
  let (e1, f1) := t
  let bc1 := (M.bc e1 0 f1).typ
  if bc1 ≠ nE ∧ ¬ (ignoreEmpty ∧ bc1 = []) then
    if ← touch e0 f0 e1 f1 then do
      let M ← M.mergePair nbc bc0 bc1 e0 f0 e1 f1
      pure (M, n + 1)
    else pure (M, n)
  else pure (M, n)

/-- Outer loop body of `merge`, core.py:432–438; `bc0` is read once per face of the new mesh. -/
def mergeOuter (touch : Nat → Nat → Nat → Nat → Py Bool) (nbc : Nat) (ignoreEmpty : Bool) (nel1 nfaces : Nat)
    (s : HexaData F × Nat) (t : Nat × Nat) : Py (HexaData F × Nat) := do
  let (e0, f0) := t
  let bc0 := (s.1.bc e0 0 f0).typ
  if bc0 ≠ nE ∧ ¬ (ignoreEmpty ∧ bc0 = []) then
    (prod2 (List.range nel1) (List.range nfaces)).foldlM
      (mergeInner touch nbc ignoreEmpty e0 f0 bc0) s
  else pure s

/-- The concatenation step of `merge`, core.py:411–418. -/
def HexaData.append (A B : HexaData F) : HexaData F :=
  { A with
    nel := A.nel + B.nel
    ncurv := A.ncurv + B.ncurv
    elmap := A.elmap ++ B.elmap.map (· + (A.nel : Int))
    elem := A.elem ++ (B.offsetConnectivity A.nel 0).elem }

/-- The loops of `merge`, core.py:420–476, for an arbitrary touching test. -/
def HexaData.mergeWith (A B : HexaData F) (touch : Nat → Nat → Nat → Nat → Py Bool)
    (ignoreEmpty ignoreAllBcs : Bool) : Py (HexaData F × Nat) :=
  let M := A.append B
  let nbc := min A.nbc B.nbc
  let nfaces := 2 * A.ndim
  if nbc = 0 ∨ ignoreAllBcs then .ok (M, 0)
  else
    (prod2 (List.range' A.nel B.nel) (List.range nfaces)).foldlM
      (mergeOuter touch nbc ignoreEmpty A.nel nfaces) (M, 0)

/-- `HexaData.merge`, core.py:374–476. Result: the new `self` and the returned count. (`other` is only deep
copied, 416.) -/
def HexaData.merge (A B : HexaData F) (tol : F) (ignoreEmpty ignoreAllBcs : Bool) :
    Py (HexaData F × Nat) :=
  if A.ndim ≠ B.ndim then .error .valueError
  else if A.lr1.x ≠ B.lr1.x then .error .valueError
  else
    let M := A.append B
    A.mergeWith B (fun e0 f0 e1 f1 => closeFaces (M.el e0) f0 (M.el e1) f1 tol) ignoreEmpty ignoreAllBcs

end Pymech
