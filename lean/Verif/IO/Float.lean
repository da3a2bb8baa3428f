import Mathlib.Data.Int.Log
import Mathlib.Data.Rat.Floor

/-!
# IEEE 754 binary floating point numbers as bit patterns

Python `float`, NumPy `float64` and `float32`. Nothing here belongs to pymech itself. A number is its
sign bit and the remaining bits read as a natural number (`mag`), so two values are equal in the model
iff they are the same bit for bit. Conversions are defined through the exact rational value and the
rounding "to nearest, ties to even" of the standard.
-/

namespace Pymech

/-- A binary interchange format with `eb` exponent bits and `mb` mantissa bits. -/
structure Flt (eb mb : Nat) where
  neg : Bool
  mag : Nat
  lt : mag < 2 ^ (eb + mb)
  deriving DecidableEq

/-- NumPy `float32`. -/
abbrev F32 := Flt 8 23
/-- Python `float`, NumPy `float64`. -/
abbrev F64 := Flt 11 52

namespace Flt

variable {eb mb : Nat}

/-- The bit pattern of infinity without its sign; larger patterns are NaNs. -/
def infMag (eb mb : Nat) : Nat := (2 ^ eb - 1) * 2 ^ mb

/-- Exponent of the smallest positive number: `-149` for single, `-1074` for double precision. -/
def minExp (eb mb : Nat) : Int := -((2 ^ (eb - 1) - 2 + mb : Nat) : Int)

/-- The number encoded by a pattern below `infMag`. -/
def magVal (eb mb : Nat) (m : Nat) : ℚ :=
  if m / 2 ^ mb = 0 then (m : ℚ) * 2 ^ minExp eb mb
  else ((2 ^ mb + m % 2 ^ mb : Nat) : ℚ) * 2 ^ (minExp eb mb + ((m / 2 ^ mb : Nat) : Int) - 1)

/-- Not an infinity or NaN. -/
def Finite (x : Flt eb mb) : Prop := x.mag < infMag eb mb

instance (x : Flt eb mb) : Decidable x.Finite := inferInstanceAs (Decidable (_ < _))

/-- NaN. -/
def IsNaN (x : Flt eb mb) : Prop := infMag eb mb < x.mag

instance (x : Flt eb mb) : Decidable x.IsNaN := inferInstanceAs (Decidable (_ < _))

/-- The value of a finite number. -/
def val (x : Flt eb mb) : ℚ := if x.neg then -magVal eb mb x.mag else magVal eb mb x.mag

/-- Nearest integer, ties to even. -/
def roundEven (q : ℚ) : Nat :=
  let n := ⌊q⌋₊
  let r := q - n
  if r < 1 / 2 then n else if 1 / 2 < r then n + 1 else if n % 2 = 0 then n else n + 1

/-- Exponent of the last mantissa bit of the numbers around `q`. -/
def ulpExp (eb mb : Nat) (q : ℚ) : Int := max (Int.log 2 q - mb) (minExp eb mb)

/-- Pattern of the representable number nearest to `q ≥ 0`, ties to even, overflow to infinity. -/
def roundMag (eb mb : Nat) (q : ℚ) : Nat :=
  if q ≤ 0 then 0
  else
    let e := ulpExp eb mb q
    min ((e - minExp eb mb).toNat * 2 ^ mb + roundEven (q / 2 ^ e)) (infMag eb mb)

theorem infMag_lt (eb mb : Nat) : infMag eb mb < 2 ^ (eb + mb) := by
  unfold infMag
  rw [Nat.pow_add]
  have h1 : 0 < 2 ^ eb := Nat.two_pow_pos _
  have h2 : 0 < 2 ^ mb := Nat.two_pow_pos _
  exact Nat.mul_lt_mul_of_pos_right (by omega) h2

theorem roundMag_le (eb mb : Nat) (q : ℚ) : roundMag eb mb q ≤ infMag eb mb := by
  unfold roundMag
  split
  · exact Nat.zero_le _
  · exact Nat.min_le_right _ _

/-- The number nearest to `± q`. -/
def ofRat (neg : Bool) (q : ℚ) : Flt eb mb :=
  ⟨neg, roundMag eb mb q, lt_of_le_of_lt (roundMag_le _ _ _) (infMag_lt _ _)⟩

instance : Zero (Flt eb mb) := ⟨⟨false, 0, Nat.two_pow_pos _⟩⟩

/-- The quiet bit of a NaN payload is set by every conversion. -/
def quiet (mb p : Nat) : Nat := if p < 2 ^ (mb - 1) then p + 2 ^ (mb - 1) else p

/-- `astype(np.float32)` of a double. -/
def toF32 (x : F64) : F32 :=
  if x.mag < infMag 11 52 then ofRat x.neg (magVal 11 52 x.mag)
  else if x.mag = infMag 11 52 then ⟨x.neg, infMag 8 23, infMag_lt 8 23⟩
  else ⟨x.neg, infMag 8 23 + quiet 23 ((x.mag - infMag 11 52) / 2 ^ 29), by
    have := x.lt
    have h : infMag 11 52 = 9218868437227405312 := by decide
    have h' : infMag 8 23 = 2139095040 := by decide
    unfold quiet
    rw [h, h']
    split <;> omega⟩

/-- `astype(np.float64)` of a single. -/
def toF64 (x : F32) : F64 :=
  if x.mag < infMag 8 23 then ofRat x.neg (magVal 8 23 x.mag)
  else if x.mag = infMag 8 23 then ⟨x.neg, infMag 11 52, infMag_lt 11 52⟩
  else ⟨x.neg, infMag 11 52 + quiet 23 (x.mag - infMag 8 23) * 2 ^ 29, by
    have := x.lt
    have h : infMag 11 52 = 9218868437227405312 := by decide
    have h' : infMag 8 23 = 2139095040 := by decide
    unfold quiet
    rw [h, h']
    split <;> omega⟩

/-- All bits as one number, sign first. -/
def bits (x : Flt eb mb) : Nat := (if x.neg then 2 ^ (eb + mb) else 0) + x.mag

/-- The number with given bits. -/
def ofBits (n : Nat) : Flt eb mb :=
  ⟨decide (n / 2 ^ (eb + mb) % 2 = 1), n % 2 ^ (eb + mb), Nat.mod_lt _ (Nat.two_pow_pos _)⟩

/-- `a <= b` of two numbers that are not NaN. -/
def le (a b : Flt eb mb) : Bool :=
  let key (x : Flt eb mb) : Int := if x.neg then -(x.mag : Int) else x.mag
  decide (key a ≤ key b)

end Flt

end Pymech
