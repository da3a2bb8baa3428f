import Verif.IO.Re2

/-!
# Map files: `readma2`

`/repo/src/pymech/neksuite/map.py`. The result arrays have `float64` items; they hold `int32` numbers and are lists of
integers here (the conversion is exact). Memory is unlimited.
-/

namespace Pymech

/-- `int(header[k])`. -/
def headInt (hd : List Text) (k : Nat) : Py Int :=
  match hd[k]? with
  | some w => orValueError (pyInt w)
  | none => .error .indexError

/-- `int(a / b)` for integers: the quotient is rounded to double precision. (`OverflowError` is `valueError` here.) -/
def intDiv (a b : Int) : Py Int :=
  if b = 0 then .error .zeroDivision
  else f64Int (Flt.ofRat (decide (a < 0) ^^ decide (b < 0)) ((a.natAbs : ℚ) / b.natAbs))

/-- `readma2`, map.py:8–100: vertices and processors of the elements. -/
def readma2 (b : Bytes) : Py (List (List Int) × List Int) := do
  let hd := splitT (decodeB (b.take 132))
  let nel ← headInt hd 1
  let npts ← headInt hd 5
  let e ← tagEndian ((b.drop 132).take 4)
  let nvert ← intDiv npts nel
  let buf := (readMany ((nvert + 1) * 4 * nel) (b.drop 136)).1
  if nel < 0 ∨ nvert < 0 then .error .valueError
  else do
    let n := nvert.toNat + 1
    let fi ← (List.range nel.toNat).mapM fun i =>
      if buf.length < n * 4 * i + n * 4 then .error .valueError
      else .ok ((words 4 n (buf.drop (n * 4 * i))).map fun w => i32Val (decW e w))
    pure (fi.map List.tail, fi.map fun f => f.headD 0)

end Pymech
