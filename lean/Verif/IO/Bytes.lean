import Verif.Core.Types

/-!
# Bytes

Files are lists of bytes. `struct.unpack`, `ndarray.tofile`, `ndarray.byteswap`, `numpy.frombuffer`.
-/

namespace Pymech

/-- File content. -/
abbrev Bytes := List UInt8

/-- The `k` low bytes of `n`, least significant first. -/
def leBytes : Nat → Nat → Bytes
  | 0, _ => []
  | k + 1, n => UInt8.ofNat (n % 256) :: leBytes k (n / 256)

/-- The number with the given bytes, least significant first. -/
def leNat : Bytes → Nat
  | [] => 0
  | b :: l => b.toNat + 256 * leNat l

/-- The `k`-byte word `n` in byte order `e`. -/
def encW (e : Endian) (k n : Nat) : Bytes :=
  match e with
  | .little => leBytes k n
  | .big => (leBytes k n).reverse

/-- The number stored in the given bytes in byte order `e`. -/
def decW (e : Endian) (l : Bytes) : Nat :=
  match e with
  | .little => leNat l
  | .big => leNat l.reverse

/-- One item of an array in memory on a machine of byte order `native`, after `a.byteswap()` if `swap`. -/
def item (native : Endian) (swap : Bool) (k n : Nat) : Bytes :=
  if swap then (encW native k n).reverse else encW native k n

/-- The two's complement pattern of an `int32`. -/
def i32Bits (i : Int) : Nat := (i % 2 ^ 32).toNat

/-- The `int32` with a given pattern. -/
def i32Val (n : Nat) : Int := if n < 2 ^ 31 then n else (n : Int) - 2 ^ 32

/-- Consecutive words of `k` bytes. -/
def words (k : Nat) : Nat → Bytes → List Bytes
  | 0, _ => []
  | n + 1, l => l.take k :: words k n (l.drop k)

/-- The dtypes of field arrays: `float32` and `float64`. -/
class FloatTy (F : Type) extends Zero F where
  /-- item size -/
  sz : Nat
  /-- pattern of an item -/
  bits : F → Nat
  /-- assignment of a `float32` to an item -/
  ofF32 : F32 → F
  /-- assignment of a `float64` to an item -/
  ofF64 : F64 → F
  /-- `astype(np.float32)` -/
  toF32 : F → F32
  /-- the smaller of two items, `np.minimum` -/
  min2 : F → F → F
  /-- the larger of two items, `np.maximum` -/
  max2 : F → F → F

/-- `np.minimum`: a NaN wins. (Which of two equal zeros or two NaNs is returned depends on the vectorisation
in NumPy; here it is the first.) -/
def Flt.min2 {eb mb : Nat} (a b : Flt eb mb) : Flt eb mb :=
  if a.IsNaN then a else if b.IsNaN then b else if a.le b then a else b

/-- `np.maximum`. -/
def Flt.max2 {eb mb : Nat} (a b : Flt eb mb) : Flt eb mb :=
  if a.IsNaN then a else if b.IsNaN then b else if b.le a then a else b

instance : FloatTy F32 where
  sz := 4
  bits := Flt.bits
  ofF32 := id
  ofF64 := Flt.toF32
  toF32 := id
  min2 := Flt.min2
  max2 := Flt.max2

instance : FloatTy F64 where
  sz := 8
  bits := Flt.bits
  ofF32 := Flt.toF64
  ofF64 := id
  toF32 := Flt.toF32
  min2 := Flt.min2
  max2 := Flt.max2

end Pymech
