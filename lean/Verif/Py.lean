import Mathlib.Algebra.Order.Floor.Ring
import Mathlib.Data.Rat.Floor
import Mathlib.Algebra.Order.Field.Basic
import Mathlib.Tactic.Ring
import Mathlib.Tactic.Linarith

/-!
# Python and NumPy primitives used by the model

Nothing here belongs to pymech itself; these are the language features its functions rely on.
-/

namespace Pymech

/-- The exceptions that the modelled functions can raise. -/
inductive PyErr
  | valueError | typeError | indexError | ioError | unboundLocal | zeroDivision
  | attributeError | keyError | notImplemented | structError | fileNotFound | overflow
  deriving DecidableEq, Repr

/-- A Python computation that returns a value or raises. -/
abbrev Py := Except PyErr

/-- Short strings (`U3` fields of the BC records, curvature types) as lists of characters. -/
abbrev Name := List Char

/-- `'E'`: internal connection. -/
def nE : Name := ['E']
/-- `'P'`: periodic connection. -/
def nP : Name := ['P']

/-- Assignment to a `U3` field of a structured array keeps the first three characters. -/
def u3 (s : Name) : Name := s.take 3

/-- Indexing of a Python list / NumPy axis of length `n`: negative indices count from the end,
anything else out of range raises `IndexError`. -/
def pyIndex (n : Nat) (i : Int) : Py Nat :=
  if 0 ≤ i then (if i < n then .ok i.toNat else .error .indexError)
  else (if 0 ≤ n + i then .ok (n + i).toNat else .error .indexError)

/-- `int(x)` for a float: truncation towards zero. -/
def trunc {F : Type} [Field F] [LinearOrder F] [FloorRing F] (x : F) : Int :=
  if 0 ≤ x then ⌊x⌋ else ⌈x⌉

/-- `itertools.product(range(a), range(b))`. -/
def prod2 (a b : List Nat) : List (Nat × Nat) :=
  a.flatMap fun i => b.map fun j => (i, j)

/-- `itertools.product(range(a), range(b), range(c))`. -/
def prod3 (a b c : List Nat) : List (Nat × Nat × Nat) :=
  a.flatMap fun i => b.flatMap fun j => c.map fun k => (i, j, k)

/-- `for x in l: err = err or body(x)` where every iteration may raise; the loop does not stop at the
first `True`. -/
def anyErr {α : Type} (body : α → Py Bool) (l : List α) : Py Bool :=
  l.foldlM (fun err x => do let e ← body x; pure (err || e)) false

/-- `np.sqrt(a) <= t * np.sqrt(b)` for `a, b ≥ 0`, decided without square roots.
`closeB_iff_sqrt` in `Verif/Props/Bridge.lean` proves that this is the comparison of real square roots. -/
def closeB {F : Type} [Field F] [LinearOrder F] (a t b : F) : Bool :=
  if 0 ≤ t then decide (a ≤ t * t * b) else decide (a = 0 ∧ b = 0)

end Pymech
