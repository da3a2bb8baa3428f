import Verif.IO.Float

/-!
# What it means to print a number with a given number of digits
-/

namespace Pymech.Spec

/-- The absolute value of a finite double. -/
abbrev absVal (x : F64) : ℚ := Flt.magVal 11 52 x.mag

/-- `y` is what is left of `x` after printing it with `p + 1` significant decimal digits: the double nearest to a
decimal with `p + 1` digits to which no other such decimal is preferable. -/
def Printed (p : Nat) (x y : F64) : Prop :=
  (x.IsNaN → y.IsNaN) ∧ (¬ x.IsNaN → ¬ x.Finite → y = x) ∧
    (x.Finite → ∃ (m : Nat) (k : Int), m < 10 ^ (p + 1) ∧ y = Flt.ofRat x.neg (m * 10 ^ k) ∧
      ∀ (m' : Nat) (k' : Int), m' < 10 ^ (p + 1) → |(m : ℚ) * 10 ^ k - absVal x| ≤ |(m' : ℚ) * 10 ^ k' - absVal x|)

/-- `x` has at most `p + 1` significant decimal digits. -/
def HasDigits (p : Nat) (x : F64) : Prop :=
  x.Finite ∧ ∃ (m : Nat) (k : Int), m < 10 ^ (p + 1) ∧ absVal x = m * 10 ^ k

end Pymech.Spec
