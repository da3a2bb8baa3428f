import Verif.Core.FloatMerge
import Verif.Mesh.Extrude

/-!
# `extrude` in double precision

`/repo/src/pymech/meshtools.py`, 12–154, with doubles in place of exact numbers. Coordinates and curvatures are copied; the only computed
numbers are those of linked elements.
-/

set_option autoImplicit false

namespace Pymech

open Flt

instance : OfNat F64 5 := ⟨((5 : Nat) : F64)⟩
instance : OfNat F64 6 := ⟨((6 : Nat) : F64)⟩

/-- `extrude`, meshtools.py:12–154, as in `extrude` for exact numbers, but with `offset_connectivity` (74) in double precision, which raises an exception
if it reads a link number that is not finite. With fewer than three z values it is not called. -/
def extrudeF (M : HexaData F64) (z : List F64) (bc1 bc2 : Option (List Name)) (internalBcs : Bool) : Py (HexaData F64) :=
  let bc1 := bc1.getD (List.replicate M.nbc nP)
  let bc2 := bc2.getD (List.replicate M.nbc nP)
  if M.ndim ≠ 2 then .error .valueError
  else if M.lr1 ≠ ⟨2, 2, 1, true⟩ then .error .valueError
  else if M.var.pos < 2 then .error .valueError
  else if oneSidedP bc1 bc2 then .error .valueError
  else do
    let M0 := if internalBcs then M else (deleteInternalBcs M).1
    let nel2d := M.nel
    let nz := z.length - 1
    let adds ← (List.range (nz - 1)).mapM fun k => M.offsetConnectivityF (((k + 1) * nel2d : Nat) : Int) 0
    if M.nel ≠ 0 ∧ (bc1.length < M.nbc ∨ bc2.length < M.nbc) then .error .indexError
    else if z.length < 2 then extrudeFew M M0 z bc1 bc2 internalBcs
    else
      let elems := M0.elem ++ adds.flatMap fun A => A.elem
      let elems := elems.mapIdx fun iel el =>
        extrudeGeom (M.el (iel % nel2d)) el (z.getD (iel / nel2d) 0) (z.getD (iel / nel2d + 1) 0)
      let elems := if internalBcs then elems.mapIdx fun iel el => extrudeInner nel2d M.nbc iel el else elems
      let elems := elems.mapIdx fun iel el =>
        extrudeEnds nel2d nz M.nbc (fun b => bc1.getD b []) (fun b => bc2.getD b []) iel el
      .ok { M0 with
        lr1 := ⟨2, 2, 2, true⟩
        var := ⟨3, 0, 0, 0, 0⟩
        nel := M.nel * nz
        ndim := 3
        ncurv := 2 * nz * M.ncurv
        elem := elems }

end Pymech
