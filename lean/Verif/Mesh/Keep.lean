import Verif.Core.Conn

/-!
# `keep_elements`

`/repo/src/pymech/meshtools.py`, 1179–1234.
-/

namespace Pymech

variable {F : Type} [Field F] [LinearOrder F] [FloorRing F]

/-- State of the first loop, meshtools.py:1198–1210. -/
structure KeepState where
  kept : Nat → Bool
  offsets : Nat → Int
  lastIel : Int
  cur : Int

/-- Body of the first loop, meshtools.py:1204–1210. Negative indices pass the check and wrap around. -/
def keepScan (nel : Nat) (s : KeepState) (iel : Int) : Py KeepState := do
  if iel ≥ nel then .error .valueError
  else
    let k ← pyIndex nel iel
    let cur := s.cur + (iel - s.lastIel - 1)
    pure { kept := fun i => if i = k then true else s.kept i
           offsets := fun i => if i = k then cur else s.offsets i
           lastIel := iel
           cur := cur }

/-- New record of a kept element, meshtools.py:1214–1226. -/
def keepBC (s : KeepState) (nel : Nat) (external : Name) (iel offset : Int) (r : BC F) : Py (BC F) := do
  let r := { r with own := iel - offset + 1 }
  if r.typ = nE ∨ r.typ = nP then
    let c ← pyIndex nel (trunc r.p3 - 1)
    if s.kept c then pure { r with p3 := r.p3 - (s.offsets c : F) }
    else pure { r with typ := u3 external, p3 := 0, p4 := 0 }
  else pure r

/-- The records of one kept element; raises if the update `upd` of some record raises. -/
def keepElemBy {F : Type} (upd : BC F → Py (BC F)) (nbc nf : Nat) (el : Elem F) : Py (Elem F) := do
  let _ ← (prod2 (List.range nbc) (List.range nf)).mapM fun t => upd (el.bcs t.1 t.2)
  pure { el with bcs := fun b f => if b < nbc ∧ f < nf then
    (match upd (el.bcs b f) with | .ok r => r | .error _ => el.bcs b f) else el.bcs b f }

/-- `keep_elements`, meshtools.py:1179–1234, with the update `upd` of a record (1214–1226). `elems` is sorted first (1195). `elmap` is left alone by
the code. -/
def keepElementsBy {F : Type} [Zero F] (upd : KeepState → Nat → Name → Int → Int → BC F → Py (BC F)) (M : HexaData F) (elems : List Int)
    (external : Name) : Py (HexaData F) := do
  let elems := elems.mergeSort (fun a b => decide (a ≤ b))
  let s ← elems.foldlM (keepScan M.nel) ⟨fun _ => false, fun _ => 0, -1, 0⟩
  let M1 ← elems.foldlM (fun M iel => do
    let k ← pyIndex M.elem.length iel
    let el ← keepElemBy (upd s M.nel external iel (s.offsets k)) M.nbc (2 * M.ndim) (M.el k)
    pure { M with elem := M.elem.set k el }) M
  let new ← elems.mapM fun iel => do
    let k ← pyIndex M1.elem.length iel
    pure (M1.el k)
  pure ({ M1 with elem := new, nel := new.length }).updateNcurv

/-- The records of one kept element in exact arithmetic. -/
abbrev keepElem (s : KeepState) (nel nbc nf : Nat) (external : Name) (iel offset : Int) (el : Elem F) : Py (Elem F) :=
  keepElemBy (keepBC s nel external iel offset) nbc nf el

/-- `keep_elements` in exact arithmetic, meshtools.py:1179–1234. -/
abbrev keepElements (M : HexaData F) (elems : List Int) (external : Name) : Py (HexaData F) :=
  keepElementsBy keepBC M elems external

end Pymech
