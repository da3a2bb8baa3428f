import Verif.Core.Geom

/-!
# `DataLims`

`/repo/src/pymech/core.py`, 31–98. The functions that take the smaller and the larger of two numbers (`np.minimum`, `np.maximum` and the ones behind
`ndarray.min`, `ndarray.max`) are parameters of the definitions whose names end in `By`. The others use those of a linear order; doubles with NaN
are in `Props/LimsFloat`.
-/

namespace Pymech

/-- The five variable names of `DataLims._variables`, core.py:45. -/
inductive VarName | pos | vel | pres | temp | scal
  deriving DecidableEq, Repr

/-- `getattr(elem, var)`. -/
def Elem.get {F : Type} (el : Elem F) : VarName → Arr F
  | .pos => el.pos | .vel => el.vel | .pres => el.pres | .temp => el.temp | .scal => el.scal

/-- Values of one component of an array in C order. -/
def Arr.comp {F : Type} (a : Arr F) (c : Nat) : List F :=
  (List.range a.lz).flatMap fun k => (List.range a.ly).flatMap fun j =>
    (List.range a.lx).map fun i => a.dat c k j i

/-- `array.min(axis=(1,2,3))` / `.max`: one value per component. Reducing over an empty axis raises
`ValueError` (zero-size reduction) unless there is no component at all. -/
def Arr.reduceAxis {F : Type} (op : F → F → F) (a : Arr F) : Py (List F) :=
  (List.range a.n).mapM fun c =>
    match a.comp c with
    | [] => .error .valueError
    | x :: xs => .ok (xs.foldl op x)

/-- A dictionary of limits: minima and maxima of the components of each variable. -/
abbrev LimsDict (F : Type) := VarName → List F × List F

/-- `_lims_per_element` on an element, core.py:74–84. -/
def limsPerElementBy {F : Type} (mn mx : F → F → F) (el : Elem F) : Py (LimsDict F) := do
  let lim (v : VarName) : Py (List F × List F) := do
    let lo ← (el.get v).reduceAxis mn
    let hi ← (el.get v).reduceAxis mx
    pure (lo, hi)
  let a ← lim .pos; let b ← lim .vel; let c ← lim .pres; let d ← lim .temp; let e ← lim .scal
  pure fun | .pos => a | .vel => b | .pres => c | .temp => d | .scal => e

/-- `np.minimum(a, b)` on one-dimensional arrays: elementwise with broadcasting of length-1 arrays, other
length mismatches raise `ValueError`. -/
def npZip {F : Type} (op : F → F → F) (a b : List F) : Py (List F) :=
  if a.length = b.length then .ok (List.zipWith op a b)
  else match a, b with
    | [x], b => .ok (b.map (op x))
    | a, [y] => .ok (a.map (op · y))
    | _, _ => .error .valueError

/-- `_lims_aggregator`, core.py:86–98, on two dictionaries. -/
def limsAggregateBy {F : Type} (mn mx : F → F → F) (l1 l2 : LimsDict F) : Py (LimsDict F) := do
  let agg (v : VarName) : Py (List F × List F) := do
    let lo ← npZip mn (l1 v).1 (l2 v).1
    let hi ← npZip mx (l1 v).2 (l2 v).2
    pure (lo, hi)
  let a ← agg .pos; let b ← agg .vel; let c ← agg .pres; let d ← agg .temp; let e ← agg .scal
  pure fun | .pos => a | .vel => b | .pres => c | .temp => d | .scal => e

/-- `reduce(self._lims_aggregator, elements)`, core.py:47. With a single element `reduce` returns the
`Elem` object itself, which is not subscriptable: `aggregated_lims[var]` (49) raises `TypeError`;
with no element `reduce` raises `TypeError`. -/
def limsReduceBy {F : Type} (mn mx : F → F → F) : List (Elem F) → Py (LimsDict F)
  | [] => .error .typeError
  | [_] => .error .typeError
  | e1 :: e2 :: es => do
    let l1 ← limsPerElementBy mn mx e1
    let l2 ← limsPerElementBy mn mx e2
    let l ← limsAggregateBy mn mx l1 l2
    es.foldlM (fun l e => do let m ← limsPerElementBy mn mx e; limsAggregateBy mn mx l m) l

/-- `DataLims.__init__`, core.py:44–58: per variable the tuple of (min, max) pairs. -/
def dataLimsBy {F : Type} (mn mx : F → F → F) (els : List (Elem F)) : Py (VarName → List (F × F)) := do
  let l ← limsReduceBy mn mx els
  pure fun v => List.zip (l v).1 (l v).2

/-- `DataLims.__init__` for numbers of a linear order. -/
def dataLims {F : Type} [LinearOrder F] (els : List (Elem F)) : Py (VarName → List (F × F)) := dataLimsBy min max els

/-- Values stored in the attributes of a `DataLims` object. -/
inductive LimsVal (F : Type)
  | names (l : List VarName)
  | limits (l : List (F × F))
  | flag (b : Bool)
  | other (n : Nat)

/-- Python truth value: empty tuples, `False` and `0` are false. -/
def LimsVal.truthy {F : Type} : LimsVal F → Bool
  | .names l => !l.isEmpty
  | .limits l => !l.isEmpty
  | .flag b => b
  | .other n => n != 0

/-- The instance dictionary of a `DataLims` object. -/
abbrev LimsObj (F : Type) := String → Option (LimsVal F)

/-- `__setattr__`, core.py:68–72: raises once `_initialized` is set to something true. -/
def LimsObj.setattr {F : Type} (o : LimsObj F) (name : String) (v : LimsVal F) : Py (LimsObj F) :=
  if (o "_initialized").any LimsVal.truthy then .error .attributeError
  else .ok fun n => if n = name then some v else o n

/-- Attribute name of a variable, core.py:45. -/
def VarName.attr : VarName → String
  | .pos => "pos" | .vel => "vel" | .pres => "pres" | .temp => "temp" | .scal => "scal"

/-- `DataLims.__init__`, core.py:44–58, with the attribute assignments going through `__setattr__`. -/
def LimsObj.init {F : Type} [LinearOrder F] (els : List (Elem F)) : Py (LimsObj F) := do
  let vars := [VarName.pos, .vel, .pres, .temp, .scal]
  let o ← LimsObj.setattr (fun _ => none) "_variables" (.names vars)
  let l ← dataLims els
  let o ← vars.foldlM (fun o v => LimsObj.setattr o v.attr (.limits (l v))) o
  LimsObj.setattr o "_initialized" (.flag true)

/-- A sequence of attempted assignments `setattr(lims, name, value)` by a caller; each exception is caught and the next
one attempted. Returns the object and the list of outcomes. -/
def LimsObj.attempts {F : Type} (o : LimsObj F) : List (String × LimsVal F) → LimsObj F × List (Option PyErr)
  | [] => (o, [])
  | (n, v) :: rest =>
    match LimsObj.setattr o n v with
    | .ok o' => let r := LimsObj.attempts o' rest; (r.1, none :: r.2)
    | .error e => let r := LimsObj.attempts o rest; (r.1, some e :: r.2)

end Pymech
