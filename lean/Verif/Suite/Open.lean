import Verif.Suite.Dataset

/-!
# `pymech.dataset.open_dataset` up to the combination of the elements

`/repo/src/pymech/dataset.py:40–96` without `xr.combine_by_coords` (and what follows). Of `xr.Dataset` the check of the dimensions is modelled: variables
that disagree about the size of a dimension raise `ValueError` (`calculate_dimensions` of `xarray`, which is not part of the repository). An
array without dimensions stored under the name of a dimension has this dimension.
-/

set_option autoImplicit false

namespace Pymech

variable {F : Type} [LinearOrder F]

/-- Dimensions and sizes of a variable: `xr.Variable(("z", "y", "x"), …)`, or an array with one dimension of the given name. -/
def DataVar.dims {G : Type} (k : Name) : DataVar G → List (Name × Nat)
  | .coord l => [(k, l.length)]
  | .field lz ly lx _ => [(['z'], lz), (['y'], ly), (['x'], lx)]

/-- Sizes of dimensions, the first ones found, with a check of the later ones. -/
def calcDims (d : List (Name × Nat)) : List (Name × Nat) → Py (List (Name × Nat))
  | [] => .ok d
  | p :: l => match d.find? (fun q => q.1 == p.1) with
    | none => calcDims (d ++ [p]) l
    | some q => if q.2 = p.2 then calcDims d l else .error .valueError

/-- `xr.Dataset.load_store(store).set_coords(store.axes)`, dataset.py:81. -/
def elemDataset (rnd : F → F) (el : Elem F) : Py (List (Name × DataVar F)) := do
  let v ← getVariables rnd el
  let _ ← calcDims [] (v.flatMap fun e => e.2.dims e.1)
  pure v

/-- `_open_nek_dataset` after `readnek` and before `combine_by_coords`, dataset.py:77–90: the data sets of all elements. -/
def openElems (rnd : F → F) (elems : List (Elem F)) : Py (List (List (Name × DataVar F))) :=
  match elems.mapM (elemDataset rnd) with
  | .error .valueError => .error .notImplemented
  | r => r

/-- `open_dataset`, dataset.py:40–60 : `elems` are the elements read by `readnek`. -/
def openDataset (digit : Char → Bool) (rnd : F → F) (path : List Char) (elems : List (Elem F)) : Py (List (List (Name × DataVar F))) :=
  if canOpenNek digit path then openElems rnd elems else .error .notImplemented

end Pymech
