import Verif.IO.Bytes

/-!
# Text: formatting and parsing of numbers as done by Python

Texts are lists of characters. Everything pymech writes is ASCII. Only ASCII is decoded: a byte above 127 makes
the decoding fail.
-/

namespace Pymech

/-- Text. -/
abbrev Text := List Char

/-- `str.encode` of ASCII text. -/
def encodeT (s : Text) : Bytes := s.map fun c => UInt8.ofNat c.toNat

/-- Bytes as characters (one per byte). -/
def decodeB (b : Bytes) : Text := b.map fun x => Char.ofNat x.toNat

/-- Characters removed by `split()`: blank, tab, newline, carriage return, vertical tab, form feed. -/
def isSpaceC (c : Char) : Bool := c.toNat == 32 || (9 ≤ c.toNat && c.toNat ≤ 13)

/-- `split()`, with the word being collected as an argument. -/
def splitGo (cur : Text) : Text → List Text
  | [] => if cur = [] then [] else [cur]
  | c :: cs =>
    if isSpaceC c then (if cur = [] then splitGo [] cs else cur :: splitGo [] cs)
    else splitGo (cur ++ [c]) cs

/-- `s.split()`. -/
def splitT (s : Text) : List Text := splitGo [] s

/-- `s.rjust(w)`, also the padding of `%wi` and `{:w}` of numbers. -/
def rjust (w : Nat) (s : Text) : Text := List.replicate (w - s.length) ' ' ++ s

/-- `s.ljust(w)`. -/
def ljust (w : Nat) (s : Text) : Text := s ++ List.replicate (w - s.length) ' '

/-- The character of a digit. -/
def digitC (d : Nat) : Char := Char.ofNat (48 + d)

/-- `str(n)` of a natural number. -/
def decN (n : Nat) : Text :=
  if n < 10 then [digitC n] else decN (n / 10) ++ [digitC (n % 10)]
decreasing_by omega

/-- `str(i)`. -/
def decI (i : Int) : Text := if i < 0 then '-' :: decN i.natAbs else decN i.natAbs

/-- `f"{n:02d}"` for a natural number. -/
def dec02 (n : Nat) : Text := if n < 10 then '0' :: decN n else decN n

/-- The value of a digit. -/
def digitV (c : Char) : Option Nat :=
  if 48 ≤ c.toNat ∧ c.toNat ≤ 57 then some (c.toNat - 48) else none

/-- A run of digits in which single underscores may separate digits; `acc` and `n` are value and number of the
digits read so far. -/
def runGo (acc n : Nat) : Text → Option (Nat × Nat)
  | [] => some (acc, n)
  | [c] => (digitV c).map fun d => (acc * 10 + d, n + 1)
  | c :: c' :: cs =>
    match digitV c with
    | some d => runGo (acc * 10 + d) (n + 1) (c' :: cs)
    | none => if c = '_' then (digitV c').bind fun d => runGo (acc * 10 + d) (n + 1) cs else none

/-- A non-empty run of digits: value and number of digits. -/
def runV : Text → Option (Nat × Nat)
  | [] => none
  | c :: cs => (digitV c).bind fun d => runGo d 1 cs

/-- The sign in front of a number. -/
def signOf : Text → Bool × Text
  | [] => (false, [])
  | c :: cs => if c = '-' then (true, cs) else if c = '+' then (false, cs) else (false, c :: cs)

/-- `int(s)` of a word without blanks: `none` stands for `ValueError`. -/
def pyInt (s : Text) : Option Int :=
  let (neg, t) := signOf s
  (runV t).map fun (v, _) => if neg then -(v : Int) else v

/-- Text before the first character satisfying `p`, and the text after it if there is one. -/
def cutAt (p : Char → Bool) : Text → Text × Option Text
  | [] => ([], none)
  | c :: cs => if p c then ([], some cs) else let (a, b) := cutAt p cs; (c :: a, b)

/-- A decimal literal: sign, digits as a number, power of ten. -/
structure Dec where
  neg : Bool
  m : Nat
  e : Int
  deriving DecidableEq, Repr

/-- The part of a decimal literal after the sign and before the exponent. -/
def mantV (s : Text) : Option (Nat × Nat) :=
  match cutAt (· == '.') s with
  | (ip, none) => (runV ip).map fun (v, _) => (v, 0)
  | (ip, some fp) =>
    if ip = [] then runV fp
    else if fp = [] then (runV ip).map fun (v, _) => (v, 0)
    else (runV ip).bind fun (v, _) => (runV fp).map fun (w, n) => (v * 10 ^ n + w, n)

/-- A decimal literal. -/
def decLit (s : Text) : Option Dec :=
  let (neg, t) := signOf s
  match cutAt (fun c => c == 'e' || c == 'E') t with
  | (a, none) => (mantV a).map fun (v, n) => ⟨neg, v, -(n : Int)⟩
  | (a, some b) => (mantV a).bind fun (v, n) => (pyInt b).map fun e => ⟨neg, v, e - n⟩

/-- The double nearest to a decimal literal. -/
def Dec.toF64 (d : Dec) : F64 := Flt.ofRat d.neg ((d.m : ℚ) * 10 ^ d.e)

/-- Lower case of an ASCII letter. -/
def lowerC (c : Char) : Char := if 65 ≤ c.toNat ∧ c.toNat ≤ 90 then Char.ofNat (c.toNat + 32) else c

/-- The NaN of `float("nan")`. -/
def nan64 (neg : Bool) : F64 := ⟨neg, Flt.infMag 11 52 + 2 ^ 51, by decide⟩

/-- Infinity. -/
def inf64 (neg : Bool) : F64 := ⟨neg, Flt.infMag 11 52, Flt.infMag_lt 11 52⟩

/-- `float(s)` of a word without blanks: `none` stands for `ValueError`. -/
def pyFloat (s : Text) : Option F64 :=
  let (neg, t) := signOf s
  let l := t.map lowerC
  if l = "nan".toList then some (nan64 neg)
  else if l = "inf".toList ∨ l = "infinity".toList then some (inf64 neg)
  else (decLit s).map Dec.toF64

/-- The decimal with `p + 1` significant digits nearest to `q > 0` (ties to even): digits and exponent of
the leading digit. -/
def sigDigits (p : Nat) (q : ℚ) : Nat × Int :=
  let e := Int.log 10 q
  let m := Flt.roundEven (q / 10 ^ (e - p))
  if m = 10 ^ (p + 1) then (10 ^ p, e + 1) else (m, e)

/-- Insert the point after the first digit. -/
def pointed : Text → Text
  | [] => []
  | d :: ds => d :: '.' :: ds

/-- The exponent part of `%E`. -/
def expPart (E : Char) (e : Int) : Text := E :: (if e < 0 then '-' else '+') :: dec02 e.natAbs

/-- `"%.pE" % x` (`E = 'E'`) and `"%.pe" % x` (`E = 'e'`), `p > 0`. -/
def fmtE (E : Char) (p : Nat) (x : F64) : Text :=
  if x.IsNaN then (if E = 'E' then "NAN".toList else "nan".toList)
  else
    let s := if x.neg then ['-'] else []
    if ¬ x.Finite then s ++ (if E = 'E' then "INF".toList else "inf".toList)
    else if x.mag = 0 then s ++ pointed ('0' :: List.replicate p '0') ++ expPart E 0
    else
      let (m, e) := sigDigits p (Flt.magVal 11 52 x.mag)
      s ++ pointed (decN m) ++ expPart E e

end Pymech
