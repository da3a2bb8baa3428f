import Verif.Core.Conn

/-!
# `delete_internal_bcs`, `generate_internal_bcs`

`/repo/src/pymech/meshtools.py`, 1068–1173.
-/

namespace Pymech

variable {F : Type} [Field F] [LinearOrder F] [FloorRing F]

/-- Loop body of `delete_internal_bcs`, meshtools.py:1084–1088: the seven numbers are zeroed. -/
def BC.clearE {F : Type} [Zero F] (r : BC F) : BC F := if r.typ = nE then BC.zero else r

/-- Number of `'E'` records in the rows `0..nbc-1` of one element (all six columns). -/
def Elem.countE {F : Type} (el : Elem F) (nbc : Nat) : Nat :=
  ((prod2 (List.range nbc) (List.range 6)).filter fun t => decide ((el.bcs t.1 t.2).typ = nE)).length

/-- `delete_internal_bcs`, meshtools.py:1068–1089. Each record is visited once, so the three nested loops are
a map and a sum over the elements. Result: the modified mesh and the number of deleted conditions. -/
def deleteInternalBcs {F : Type} [Zero F] (M : HexaData F) : HexaData F × Nat :=
  ({ M with elem := M.elem.map fun el => el.mapBC M.nbc 6 BC.clearE },
   (M.elem.map fun el => el.countE M.nbc).sum)

/-- Write the connection of face `f1` of `e1` with face `f2` of `e2` in field `ibc`, meshtools.py:1154–1163. -/
def HexaData.connectFull {F : Type} [IntCast F] (M : HexaData F) (ibc e1 f1 e2 f2 : Nat) : HexaData F :=
  let wr (oe of pe pf : Nat) (r : BC F) : BC F :=
    { r with typ := nE, own := (oe : Int) + 1, ownFace := (of : Int) + 1,
             p3 := (((pe : Int) + 1 : Int) : F), p4 := (((pf : Int) + 1 : Int) : F) }
  (M.modBC e1 ibc f1 (wr e1 f1 e2 f2)).modBC e2 ibc f2 (wr e2 f2 e1 f1)

/-- State of the main loop of `generate_internal_bcs`: mesh, table `lc` of connected faces, counter. -/
structure GenState (F : Type) where
  mesh : HexaData F
  lc : Nat → Nat → Bool
  n : Nat

/-- Body of the loop over `(iel1, iface1)`, meshtools.py:1132–1172. The two inner loops with their breaks find the first
later, not yet connected, close face. `close e1 f1 e2 f2` is the test of 1142–1149. -/
def genStep {F : Type} [IntCast F] (close : Nat → Nat → Nat → Nat → Bool) (nel nface : Nat) (s : GenState F) (t : Nat × Nat) : GenState F :=
  let (e1, f1) := t
  if s.lc e1 f1 then s
  else
    match (prod2 (List.range' (e1 + 1) (nel - (e1 + 1))) (List.range nface)).find?
        (fun u => !s.lc u.1 u.2 && close e1 f1 u.1 u.2) with
    | none => s
    | some (e2, f2) =>
      { mesh := (List.range s.mesh.nbc).foldl (fun M ibc => M.connectFull ibc e1 f1 e2 f2) s.mesh
        lc := fun e f => s.lc e f || (e == e1 && f == f1) || (e == e2 && f == f2)
        n := s.n + s.mesh.nbc }

/-- The loops of `generate_internal_bcs`, meshtools.py:1122–1173, for an arbitrary test of closeness. -/
def generateWith {F : Type} [Zero F] [IntCast F] (close : Nat → Nat → Nat → Nat → Bool) (M : HexaData F) : HexaData F × Nat :=
  let nface := 2 * M.ndim
  let lc := fun e f => decide ((M.bc e 0 f).typ ≠ [])
  let s := (prod2 (List.range M.nel) (List.range nface)).foldl (genStep close M.nel nface) ⟨M, lc, 0⟩
  (s.mesh, s.n)

/-- Squared length scale of an element with the check of meshtools.py:1113–1117. -/
def scaleSq (el : Elem F) : Py F := do
  let s ← el.smallestEdgeSq
  if s ≤ 0 then .error .valueError else pure s

/-- Value of a Python computation known to succeed. -/
def Py.getD {α : Type} (x : Py α) (d : α) : α := match x with | .ok a => a | .error _ => d

/-- `generate_internal_bcs`, meshtools.py:1095–1173. The scales (1111–1117) and the face centres (1121–1128) of all
elements are computed, and may raise, before anything is changed; `el.bcs[0, …]` raises `IndexError` if the mesh has
no BC field. -/
def generateInternalBcs (M : HexaData F) (tol : F) : Py (HexaData F × Nat) := do
  let _ ← M.elem.mapM scaleSq
  let _ ← M.elem.mapM fun el => (List.range (2 * M.ndim)).mapM fun f => do
    let c ← el.faceCenter f
    let _ ← el.bcAt 0 f
    pure c
  let close (e1 f1 e2 f2 : Nat) : Bool := Py.getD (closeFaces (M.el e1) f1 (M.el e2) f2 tol) false
  pure (generateWith close M)

end Pymech
