import Verif.Mesh.Internal

/-!
# `extrude`

`/repo/src/pymech/meshtools.py`, 12–154.
-/

namespace Pymech

variable {F : Type} [Field F] [LinearOrder F] [FloorRing F]

/-- Consistency test of the end conditions, meshtools.py:43–49: true iff in some field exactly one end is periodic. -/
def oneSidedP (bc1 bc2 : List Name) : Bool :=
  (List.zip bc1 bc2).any fun p => decide ((p.1 = nP ∧ p.2 ≠ nP) ∨ (p.1 ≠ nP ∧ p.2 = nP))

/-- Geometry and curvature of an extruded element between `z1` and `z2`, meshtools.py:80–102. `base` is the 2D element
(`mesh.elem[i]`), `el` the copy in the 3D mesh. -/
def extrudeGeom {F : Type} (base el : Elem F) (z1 z2 : F) : Elem F :=
  { el with
    pos := ⟨3, 2, 2, 2, fun d k j i => if d = 2 then (if k = 0 then z1 else z2) else base.pos.dat d 0 j i⟩
    ccurv := fun e => if 4 ≤ e ∧ e < 8 then el.ccurv (e - 4) else el.ccurv e
    curv := fun e c =>
      if e < 4 then (if el.ccurv e = ['m'] ∧ c = 2 then z1 else el.curv e c)
      else if e < 8 then (if el.ccurv (e - 4) = ['m'] ∧ c = 2 then z2 else el.curv (e - 4) c)
      else el.curv e c }

/-- Records of the faces 4 and 5 and own indices of the side faces of element number `iel`,
meshtools.py:106–126. The correction of the side links (122–126) adds `iel - (iel + 1) + 1 = 0` since the own
index has just been overwritten. -/
def extrudeInner {F : Type} [Add F] [IntCast F] [OfNat F 5] [OfNat F 6] (nel2d nbc iel : Nat) (el : Elem F) : Elem F :=
  { el with bcs := fun b f =>
      let r := el.bcs b f
      if b < nbc then
        if f = 4 then { r with typ := nE, own := (iel : Int) + 1, ownFace := 5,
                               p3 := (((iel : Int) - nel2d + 1 : Int) : F), p4 := 6 }
        else if f = 5 then { r with typ := nE, own := (iel : Int) + 1, ownFace := 6,
                                    p3 := (((iel : Int) + nel2d + 1 : Int) : F), p4 := 5 }
        else if f < 4 then
          let r := { r with own := (iel : Int) + 1 }
          if r.typ = nE then { r with p3 := r.p3 + (((iel : Int) - r.own + 1 : Int) : F) } else r
        else r
      else r }

/-- End conditions, meshtools.py:130–151, for element number `iel`; `nz` slices of `nel2d` elements. -/
def extrudeEnds {F : Type} [Zero F] [IntCast F] [OfNat F 5] [OfNat F 6] (nel2d nz nbc : Nat) (bc1 bc2 : Nat → Name) (iel : Nat)
    (el : Elem F) : Elem F :=
  { el with bcs := fun b f =>
      let r := el.bcs b f
      if b < nbc then
        if f = 4 ∧ iel < nel2d then
          { r with typ := u3 (bc1 b), own := (iel : Int) + 1, ownFace := 5,
                   p3 := if bc1 b = nP then (((iel + (nz - 1) * nel2d : Nat) : Int) + 1 : Int) else 0
                   p4 := if bc1 b = nP then 6 else 0 }
        else if f = 5 ∧ (nz - 1) * nel2d ≤ iel then
          { r with typ := u3 (bc2 b), own := (iel : Int) + 1, ownFace := 6,
                   p3 := if bc2 b = nP then (((iel - (nz - 1) * nel2d : Nat) : Int) + 1 : Int) else 0
                   p4 := if bc2 b = nP then 5 else 0 }
        else r
      else r }

/-- Records of element number `iel` of the 2D mesh if there is only one z value, meshtools.py:130–151 with `nz = 0`: the index
`i1 = i - nel2d` is negative and means element `i` itself. -/
def extrudeEndsFew {F : Type} [Zero F] [IntCast F] [OfNat F 5] [OfNat F 6] (nel2d nbc : Nat) (bc1 bc2 : Nat → Name) (iel : Nat)
    (el : Elem F) : Elem F :=
  { el with bcs := fun b f =>
      let r := el.bcs b f
      if b < nbc ∧ iel < nel2d then
        if f = 4 then
          { r with typ := u3 (bc1 b), own := (iel : Int) + 1, ownFace := 5,
                   p3 := if bc1 b = nP then ((iel : Int) - nel2d + 1 : Int) else 0
                   p4 := if bc1 b = nP then 6 else 0 }
        else if f = 5 then
          { r with typ := u3 (bc2 b), own := (iel : Int) - nel2d + 1, ownFace := 6,
                   p3 := if bc2 b = nP then ((iel : Int) + 1 : Int) else 0
                   p4 := if bc2 b = nP then 5 else 0 }
        else r
      else r }

/-- `extrude` from line 51 on for fewer than two z values, `nz = 0` or `nz = -1`: there are no layers, but the elements of the 2D mesh
stay in the list, and the loops over the conditions (106–126, 130–151) still visit them. Without a z value the index `i1 = i - 2*nel2d` of
142 does not exist.
Simplification: without z values and without BC fields (or elements) the code sets `nel` to `-nel2d` and `ncurv` to `-2*ncurv`; here they are 0. -/
def extrudeFew {F : Type} [Zero F] [Add F] [IntCast F] [OfNat F 5] [OfNat F 6] (M M0 : HexaData F) (z : List F) (bc1 bc2 : List Name)
    (internalBcs : Bool) : Py (HexaData F) :=
  if z = [] ∧ M.nel ≠ 0 ∧ M.nbc ≠ 0 then .error .indexError
  else
    let elems := if internalBcs then M0.elem.mapIdx fun iel el => extrudeInner M.nel M.nbc iel el else M0.elem
    .ok { M0 with
      lr1 := ⟨2, 2, 2, true⟩
      var := ⟨3, 0, 0, 0, 0⟩
      nel := 0
      ndim := 3
      ncurv := 0
      elem := elems.mapIdx fun iel el => extrudeEndsFew M.nel M.nbc (fun b => bc1.getD b []) (fun b => bc2.getD b []) iel el }

/-- `extrude`, meshtools.py:12–154, for a mesh with `nel` elements. `bc1`, `bc2`: `None` means periodic. A list with fewer than `nbc`
entries raises `IndexError` at 133/136. The nested loops visit each (slice, element) pair once:
element number `iel = i + nel2d*k`, i.e. `k = iel / nel2d`, `i = iel % nel2d`. -/
def extrude (M : HexaData F) (z : List F) (bc1 bc2 : Option (List Name)) (internalBcs : Bool) : Py (HexaData F) :=
  let bc1 := bc1.getD (List.replicate M.nbc nP)
  let bc2 := bc2.getD (List.replicate M.nbc nP)
  if M.ndim ≠ 2 then .error .valueError
  else if M.lr1 ≠ ⟨2, 2, 1, true⟩ then .error .valueError
  else if M.var.pos < 2 then .error .valueError
  else if oneSidedP bc1 bc2 then .error .valueError
  else if M.nel ≠ 0 ∧ (bc1.length < M.nbc ∨ bc2.length < M.nbc) then .error .indexError
  else if z.length < 2 then extrudeFew M (if internalBcs then M else (deleteInternalBcs M).1) z bc1 bc2 internalBcs
  else
    let M0 := if internalBcs then M else (deleteInternalBcs M).1
    let nel2d := M.nel
    let nz := z.length - 1
    let elems := M0.elem ++ (List.range (nz - 1)).flatMap fun k =>
      (M.offsetConnectivity (((k + 1) * nel2d : Nat) : Int) 0).elem
    let elems := elems.mapIdx fun iel el =>
      extrudeGeom (M.el (iel % nel2d)) el (z.getD (iel / nel2d) 0) (z.getD (iel / nel2d + 1) 0)
    let elems := if internalBcs then elems.mapIdx fun iel el => extrudeInner nel2d M.nbc iel el else elems
    let elems := elems.mapIdx fun iel el =>
      extrudeEnds nel2d nz M.nbc (fun b => bc1.getD b []) (fun b => bc2.getD b []) iel el
    .ok { M0 with
      lr1 := ⟨2, 2, 2, true⟩
      var := ⟨3, 0, 0, 0, 0⟩
      nel := M.nel * nz
      ndim := 3
      ncurv := 2 * nz * M.ncurv
      elem := elems }

end Pymech
