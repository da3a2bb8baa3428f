import Verif.Core.FloatConn
import Verif.Mesh.Internal

/-!
# `merge` and `generate_internal_bcs` in double precision

`/repo/src/pymech/core.py`, 374–476 and 504–531, and `/repo/src/pymech/meshtools.py`, 1095–1173, with doubles and their rounding in place of exact
numbers. The numbers of elements and faces in records are doubles, too (fields 3 and 4); `int(x)` raises an exception for NaN and infinities, and
adding to such a number is rounded.
-/

set_option autoImplicit false

namespace Pymech

open Flt

/-- A Python integer stored in a field of doubles. -/
instance : IntCast F64 := ⟨fun n => ofQ false (n : ℚ)⟩

/-- First loop body of `offset_connectivity`, core.py:519–524, for a record whose numbers could be read. -/
def BC.offsetLinkF (offset ielMin : Int) (r : BC F64) : BC F64 :=
  if (r.typ = nE ∨ r.typ = nP) ∧ trunc r.p3.val > ielMin then { r with p3 := r.p3 + (offset : F64) } else r

/-- The evaluation of `int(el.bcs[ibc, iface][3])` for a linked face, core.py:520–523. -/
def BC.readLink (r : BC F64) : Py Int := if r.typ = nE ∨ r.typ = nP then truncF r.p3 else pure 0

/-- `HexaData.offset_connectivity`, core.py:504–531, for `iel_min ≥ 0`. The numbers of the linked faces are read in the order of the loops, and the
first one that is not finite raises the exception; the state of the mesh after that is not modelled. -/
def HexaData.offsetConnectivityF (M : HexaData F64) (offset : Int) (ielMin : Nat) : Py (HexaData F64) := do
  let _ ← M.elem.mapM fun el => (prod2 (List.range M.nbc) (List.range (2 * M.ndim))).mapM fun t => (el.bcs t.1 t.2).readLink
  let M1 := { M with elem := M.elem.map fun el : Elem F64 => el.mapBC M.nbc (2 * M.ndim) (BC.offsetLinkF offset ielMin) }
  pure { M1 with elem := mapFrom ielMin (fun el : Elem F64 => el.mapBC M.nbc (2 * M.ndim) (BC.offsetOwn offset ielMin)) M1.elem }

/-- The concatenation step of `merge`, core.py:411–418. -/
def HexaData.appendF (A B : HexaData F64) : Py (HexaData F64) := do
  let B' ← B.offsetConnectivityF A.nel 0
  pure { A with
    nel := A.nel + B.nel
    ncurv := A.ncurv + B.ncurv
    elmap := A.elmap ++ B.elmap.map (· + (A.nel : Int))
    elem := A.elem ++ B'.elem }

/-- The test of `merge`, core.py:444–448, and of `generate_internal_bcs`, meshtools.py:1136–1149: `dist <= tol * min(…)`. -/
def closeFacesF (L : Libm) (a : Elem F64) (f0 : Int) (b : Elem F64) (f1 : Int) (tol : F64) : Py Bool := do
  let c0 ← a.faceCenter f0
  let c1 ← b.faceCenter f1
  let s0 ← a.smallestEdgeF L
  let s1 ← b.smallestEdgeF L
  pure (decide (L.sqrt (sumSqF L c0 c1) ≤ tol * pyMin s0 s1))

/-- Core of `merge` for one pair of touching faces, core.py:449–473. -/
def HexaData.mergePairF (M : HexaData F64) (nbc : Nat) (bc0 bc1 : Name) (e0 f0 e1 f1 : Nat) : Py (HexaData F64) := do
  let M ←
    if bc0 = bc1 ∧ bc1 = nP then do
      let r0 := M.bc e0 0 f0
      let r1 := M.bc e1 0 f1
      let k0 ← truncF r0.p3
      let k1 ← truncF r1.p3
      let l0 ← truncF r0.p4
      let l1 ← truncF r1.p4
      let ip0 := k0 - 1
      let ip1 := k1 - 1
      let fp0 := l0 - 1
      let fp1 := l1 - 1
      let q0 ← pyIndex M.elem.length ip0
      let q1 ← pyIndex M.elem.length ip1
      let g0 ← pyIndex 6 fp0
      let g1 ← pyIndex 6 fp1
      pure ((List.range nbc).foldl (fun M ibc => M.relink ibc ip0 fp0 ip1 fp1 q0 g0 q1 g1) M)
    else pure M
  pure ((List.range nbc).foldl (fun M ibc => M.connect ibc e0 f0 e1 f1) M)

/-- Inner loop body of `merge`, core.py:438–473. -/
def mergeInnerF (touch : Nat → Nat → Nat → Nat → Py Bool) (nbc : Nat) (ignoreEmpty : Bool) (e0 f0 : Nat)
    (bc0 : Name) (s : HexaData F64 × Nat) (t : Nat × Nat) : Py (HexaData F64 × Nat) := do
  let (M, n) := s
  let (e1, f1) := t
  let bc1 := (M.bc e1 0 f1).typ
  if bc1 ≠ nE ∧ ¬ (ignoreEmpty ∧ bc1 = []) then
    if ← touch e0 f0 e1 f1 then do
      let M ← M.mergePairF nbc bc0 bc1 e0 f0 e1 f1
      pure (M, n + 1)
    else pure (M, n)
  else pure (M, n)

/-- Outer loop body of `merge`, core.py:432–438. -/
def mergeOuterF (touch : Nat → Nat → Nat → Nat → Py Bool) (nbc : Nat) (ignoreEmpty : Bool) (nel1 nfaces : Nat)
    (s : HexaData F64 × Nat) (t : Nat × Nat) : Py (HexaData F64 × Nat) := do
  let (e0, f0) := t
  let bc0 := (s.1.bc e0 0 f0).typ
  if bc0 ≠ nE ∧ ¬ (ignoreEmpty ∧ bc0 = []) then
    (prod2 (List.range nel1) (List.range nfaces)).foldlM
      (mergeInnerF touch nbc ignoreEmpty e0 f0 bc0) s
  else pure s

/-- `HexaData.merge`, core.py:374–476. Result: the new `self` and the returned count. -/
def HexaData.mergeF (L : Libm) (A B : HexaData F64) (tol : F64) (ignoreEmpty ignoreAllBcs : Bool) : Py (HexaData F64 × Nat) :=
  if A.ndim ≠ B.ndim then .error .valueError
  else if A.lr1.x ≠ B.lr1.x then .error .valueError
  else do
    let M ← A.appendF B
    let nbc := min A.nbc B.nbc
    let nfaces := 2 * A.ndim
    if nbc = 0 ∨ ignoreAllBcs then pure (M, 0)
    else
      (prod2 (List.range' A.nel B.nel) (List.range nfaces)).foldlM
        (mergeOuterF (fun e0 f0 e1 f1 => closeFacesF L (M.el e0) f0 (M.el e1) f1 tol) nbc ignoreEmpty A.nel nfaces) (M, 0)

/-- Length scale of an element with the check of meshtools.py:1113–1117; `scale <= 0.0` is false for NaN. -/
def scaleF (L : Libm) (el : Elem F64) : Py F64 := do
  let s ← el.smallestEdgeF L
  if s ≤ 0 then .error .valueError else pure s

/-- `generate_internal_bcs`, meshtools.py:1095–1173. -/
def generateInternalBcsF (L : Libm) (M : HexaData F64) (tol : F64) : Py (HexaData F64 × Nat) := do
  let _ ← M.elem.mapM (scaleF L)
  let _ ← M.elem.mapM fun el => (List.range (2 * M.ndim)).mapM fun f => do
    let c ← el.faceCenter f
    let _ ← el.bcAt 0 f
    pure c
  let close (e1 f1 e2 f2 : Nat) : Bool := Py.getD (closeFacesF L (M.el e1) f1 (M.el e2) f2 tol) false
  pure (generateWith close M)

end Pymech
