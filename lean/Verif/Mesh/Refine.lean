import Verif.Mesh.Keep
import Verif.Mesh.Internal
import Verif.Mesh.Mid

/-!
# `extrude_refine`

`/repo/src/pymech/meshtools.py`, 158–378. `fun` is a list of functions of two coordinates and a parameter of an arbitrary type `P`;
functions that raise are not modelled (nor is NaN). The simplifications of `extrude_mid` apply.
The mesh given is only copied (253), so that the result is the new mesh.
-/

namespace Pymech

variable {F : Type} [Field F] [LinearOrder F] [FloorRing F] {P : Type}

/-- `z[::s]` for `s ≥ 1`. -/
def strided (z : List F) (s : Nat) : List F := (List.range ((z.length + s - 1) / s)).map fun i => z.getD (i * s) 0

/-- The values at the four corners of an element, meshtools.py:273–282; `par` is `funpar[k]`, which raises `TypeError` if `funpar` is
`None`. -/
def refineVals (f : F → F → P → F) (par : Option P) (el : Elem F) : Py (List F) :=
  midCorners.mapM fun c => do
    let p ← el.ptAt (0, c.1, c.2)
    match par with
    | none => .error .typeError
    | some q => .ok (f p.x p.y q)

/-- The lists `elems_int`, `elems_mid` and `elems_ext`. -/
structure Sorted where
  int : List Int
  mid : List Int
  ext : List Int

/-- One element, meshtools.py:272–292. -/
def refineSortStep (f : F → F → P → F) (par : Option P) (M : HexaData F) (s : Sorted) (iel : Nat) : Py Sorted := do
  let k ← pyIndex M.elem.length iel
  let r ← refineVals f par (M.el k)
  if r.tail.foldl max (r.headD 0) ≤ 0 then .ok { s with int := s.int ++ [(iel : Int)] }
  else if r.tail.foldl min (r.headD 0) > 0 then .ok { s with ext := s.ext ++ [(iel : Int)] }
  else .ok { s with mid := s.mid ++ [(iel : Int)] }

/-- The sorting of the elements, meshtools.py:268–292. -/
def refineSort (f : F → F → P → F) (par : Option P) (M : HexaData F) : Py Sorted :=
  (List.range M.nel).foldlM (refineSortStep f par M) ⟨[], [], []⟩

/-- One split, meshtools.py:264–302 and 309–312: the pairs of internal and intermediate meshes so far, and the remaining mesh. -/
def refineSplit (external : Name) (s : List (HexaData F × HexaData F) × HexaData F) (f : F → F → P → F) (par : Option P) :
    Py (List (HexaData F × HexaData F) × HexaData F) := do
  let l ← refineSort f par s.2
  let A ← keepElements s.2 l.int external
  let B ← keepElements s.2 l.mid external
  let C ← keepElements s.2 l.ext external
  pure (s.1 ++ [(A.updateNcurv, B.updateNcurv)], C)

/-- Number of halvings of the resolution in part `k`, meshtools.py:317–320. -/
def coarse (k : Nat) (ih : Int) : Nat := 2 ^ ((k : Int) - ih).natAbs

/-- Extrusion of the two parts of split `k`, meshtools.py:316–354. -/
def refinePart (rt : F → F) (z : List F) (bc1 bc2 : List Name) (ib : Bool) (ih : Int) (k : Nat) (f : F → F → P → F) (par : Option P)
    (A B : HexaData F) : Py (HexaData F × HexaData F) := do
  let n := (z.length - 1) / coarse k ih
  let zl := strided z (coarse k ih)
  let nm := if (k : Int) < ih then 2 * n else n
  let zm := if (k : Int) < ih then strided z (coarse (k + 1) ih) else zl
  if nm % 4 ≠ 0 then .error .valueError
  else
    let A3 ← extrude A zl (some bc1) (some bc2) ib
    match par with
    | none => .error .typeError
    | some p =>
      let B3 ← extrudeMid rt B zm bc1 bc2 (if (k : Int) < ih then fun x y => -(f x y p) else fun x y => f x y p) ib
      pure (A3, B3.2)

/-- `mesh3D.merge(mesh_part, ignore_all_bcs=not internal_bcs)`, meshtools.py:369–371, with the default tolerance `1e-2` and
`ignore_empty=True`, core.py:374. -/
def refineMerge (ib : Bool) (M part : HexaData F) : Py (HexaData F) := do
  let r ← M.merge part (1 / 100) true (!ib)
  pure r.1

/-- `extrude_refine`, meshtools.py:158–378. The branch for `fun is None` (248–251) is never reached as `len(fun)` (230) raises
`TypeError`. Without z values the number of elements is −1, which is not a multiple of both powers of two. -/
def extrudeRefine (rt : F → F) (M : HexaData F) (z : List F) (bc1 bc2 : Option (List Name)) (fs : Option (List (F → F → P → F)))
    (fp : Option (List P)) (ih : Int) (ib : Bool) : Py (HexaData F) :=
  let bc1 := bc1.getD (List.replicate M.nbc nP)
  let bc2 := bc2.getD (List.replicate M.nbc nP)
  if M.ndim ≠ 2 then .error .valueError
  else if M.lr1 ≠ ⟨2, 2, 1, true⟩ then .error .valueError
  else if M.var.pos < 2 then .error .valueError
  else if oneSidedP bc1 bc2 then .error .valueError
  else match fs with
    | none => .error .typeError
    | some fs =>
      if (fp.map List.length).getD fs.length ≠ fs.length then .error .valueError
      else if z = [] ∨ (z.length - 1) % 2 ^ (ih + 1).natAbs ≠ 0 ∨ (z.length - 1) % 2 ^ ((fs.length : Int) - ih + 1).natAbs ≠ 0 then
        .error .valueError
      else do
        let M0 := if ib then M else (deleteInternalBcs M).1
        let external : Name := if ib then ['c', 'o', 'n'] else []
        let par := fun k : Nat => fp.bind fun l => l[k]?
        let s ← fs.zipIdx.foldlM (fun s p => refineSplit external s p.1 (par p.2)) ([], M0)
        let ext := s.2.updateNcurv
        let parts ← (fs.zipIdx.zip s.1).mapM fun p => refinePart rt z bc1 bc2 ib ih p.1.2 p.1.1 (par p.1.2) p.2.1 p.2.2
        let ext3 ← extrude ext (strided z (coarse fs.length ih)) (some bc1) (some bc2) ib
        let R ← (parts.flatMap fun p => [p.1, p.2]).foldlM (refineMerge ib) ext3
        pure R.updateNcurv

end Pymech
