import Verif.Core.FloatConn
import Verif.Core.FloatMerge
import Verif.Mesh.Keep

/-!
# `keep_elements` in double precision

`/repo/src/pymech/meshtools.py`, 1179–1234, with doubles for the numbers of linked elements.
-/

set_option autoImplicit false

namespace Pymech

open Flt

/-- New record of a kept element, meshtools.py:1214–1226. `int()` raises for NaN and infinities; the offset is a double (1201). -/
def keepBCF (s : KeepState) (nel : Nat) (external : Name) (iel offset : Int) (r : BC F64) : Py (BC F64) := do
  let r := { r with own := iel - offset + 1 }
  if r.typ = nE ∨ r.typ = nP then
    let n ← truncF r.p3
    let c ← pyIndex nel (n - 1)
    if s.kept c then pure { r with p3 := r.p3 - (s.offsets c : F64) }
    else pure { r with typ := u3 external, p3 := 0, p4 := 0 }
  else pure r

/-- `keep_elements`, meshtools.py:1179–1234. -/
def keepElementsF (M : HexaData F64) (elems : List Int) (external : Name) : Py (HexaData F64) :=
  keepElementsBy keepBCF M elems external

end Pymech
