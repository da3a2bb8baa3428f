import Verif.Py

/-!
# The name of the file that `writevtk` writes

`/repo/src/pymech/vtksuite.py:183–201`. A path is modelled by its last component `Path.name`, which has no slash; the directory in front of
it is not changed. `PurePath.suffix` and `PurePath.with_suffix` are those of Python up to 3.13 (from 3.14 on names that end in a
dot have the suffix `.`).
-/

set_option autoImplicit false

namespace Pymech

/-- `name.rfind(".")`; `none` is -1. -/
def rfindDot : List Char → Option Nat
  | [] => none
  | c :: cs =>
    match rfindDot cs with
    | some i => some (i + 1)
    | none => if c = '.' then some 0 else none

/-- `PurePath.suffix`. -/
def pathSuffix (n : List Char) : List Char :=
  match rfindDot n with
  | some i => if 0 < i ∧ i < n.length - 1 then n.drop i else []
  | none => []

/-- `PurePath.with_suffix(ext)` for an extension with a dot and something after it. -/
def withSuffix (n ext : List Char) : Py (List Char) :=
  if n = [] then .error .valueError
  else if pathSuffix n = [] then .ok (n ++ ext)
  else .ok (n.take (n.length - (pathSuffix n).length) ++ ext)

/-- `".vtp"`, vtksuite.py:194. -/
def vtp : List Char := ".vtp".toList

/-- The name of the file that is written, vtksuite.py:194–198. -/
def vtkName (n : List Char) : Py (List Char) :=
  if pathSuffix n ≠ vtp then withSuffix n vtp else .ok n

end Pymech
