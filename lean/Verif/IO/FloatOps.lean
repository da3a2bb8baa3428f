import Verif.IO.Float

/-!
# Arithmetic of doubles

The operations of Python `float` and NumPy `float64` (IEEE 754 binary64, rounding to nearest, ties to even): the exact result, rounded once.
Nothing here belongs to pymech itself. Definitions of the mesh tools that only need these operations can be used with `F64` in place of exact
numbers, and are then what the code computes.

Simplifications: there is only one NaN as a result; division by zero follows NumPy (Python raises, the code modelled here never divides by
zero); a whole number of `2 ^ 1024` or more becomes infinity (Python raises `OverflowError`).
-/

set_option autoImplicit false

namespace Pymech.Flt

/-- The NaN that operations return. -/
def nan : F64 := ⟨false, infMag 11 52 + 2 ^ 51, by decide⟩

/-- The double nearest to `q`; `z` is the sign of the result if `q` is zero. -/
def ofQ (z : Bool) (q : ℚ) : F64 := if q = 0 then ofRat z 0 else ofRat (decide (q < 0)) |q|

/-- `-x`. -/
def flip (x : F64) : F64 := { x with neg := !x.neg }

/-- `x + y`. -/
def add (x y : F64) : F64 :=
  if x.IsNaN ∨ y.IsNaN then nan
  else if x.Finite then (if y.Finite then ofQ (x.neg && y.neg) (x.val + y.val) else y)
  else if y.Finite ∨ x.neg = y.neg then x
  else nan

/-- `x - y`. -/
def sub (x y : F64) : F64 := add x y.flip

/-- `x * y`. -/
def mul (x y : F64) : F64 :=
  if x.IsNaN ∨ y.IsNaN then nan
  else if x.Finite ∧ y.Finite then ofQ (x.neg ^^ y.neg) (x.val * y.val)
  else if x.mag = 0 ∨ y.mag = 0 then nan
  else ⟨x.neg ^^ y.neg, infMag 11 52, infMag_lt 11 52⟩

/-- `x / y`. -/
def div (x y : F64) : F64 :=
  if x.IsNaN ∨ y.IsNaN then nan
  else if x.Finite then
    if y.Finite then
      if y.mag = 0 then (if x.mag = 0 then nan else ⟨x.neg ^^ y.neg, infMag 11 52, infMag_lt 11 52⟩)
      else ofQ (x.neg ^^ y.neg) (x.val / y.val)
    else ofRat (x.neg ^^ y.neg) 0
  else if y.Finite then ⟨x.neg ^^ y.neg, infMag 11 52, infMag_lt 11 52⟩
  else nan

instance : Add F64 := ⟨add⟩
instance : Sub F64 := ⟨sub⟩
instance : Mul F64 := ⟨mul⟩
instance : Div F64 := ⟨div⟩

/-- Conversion of a whole number. -/
instance : NatCast F64 := ⟨fun n => ofQ false n⟩

/-- `x <= y`: false if one of them is NaN. -/
instance : LE F64 := ⟨fun x y => ¬ x.IsNaN ∧ ¬ y.IsNaN ∧ le x y = true⟩

instance : DecidableLE F64 := fun x y => inferInstanceAs (Decidable (¬ x.IsNaN ∧ ¬ y.IsNaN ∧ le x y = true))

/-! Checked against a machine: 0.1 + 0.2, 1 - 0.9, 0.1 * 3, 1 / 3, 2 ^ 53 + 1, 1e308 * 10, 5e-324 / 2, -1 + 1.1, inf - inf. -/

example : (ofBits 0x3FB999999999999A + ofBits 0x3FC999999999999A : F64) = ofBits 0x3FD3333333333334 := by decide +kernel
example : (ofBits 0x3FF0000000000000 - ofBits 0x3FECCCCCCCCCCCCD : F64) = ofBits 0x3FB9999999999998 := by decide +kernel
example : (ofBits 0x3FB999999999999A * ((3 : Nat) : F64) : F64) = ofBits 0x3FD3333333333334 := by decide +kernel
example : (((1 : Nat) : F64) / ((3 : Nat) : F64) : F64) = ofBits 0x3FD5555555555555 := by decide +kernel
example : (((2 ^ 53 + 1 : Nat) : F64)) = ofBits 0x4340000000000000 := by decide +kernel
example : (ofBits 0x7FE1CCF385EBC8A0 * ((10 : Nat) : F64) : F64) = ofBits 0x7FF0000000000000 := by decide +kernel
example : (ofBits 1 / ((2 : Nat) : F64) : F64) = 0 := by decide +kernel
example : (ofBits 0xBFF0000000000000 + ofBits 0x3FF199999999999A : F64) = ofBits 0x3FB99999999999A0 := by decide +kernel
example : (ofBits 0x7FF0000000000000 - ofBits 0x7FF0000000000000 : F64).IsNaN := by decide +kernel

end Pymech.Flt
