import Verif.IO.Re2

/-!
# SIMSON files: `readdns` and `readplane`

`/repo/src/pymech/simsonsuite.py`. Not modelled: what is printed, and the failure to open the file. The arithmetic on Fourier
coefficients, `np.fft.irfft2` and the coordinates are parameters; `IO/SimsonFft.lean` has them in exact arithmetic. Memory is
unlimited.
-/

namespace Pymech

/-! ### Reading from a file -/

/-- Reading from an open file: the state is what is left of it. -/
abbrev Rd := StateT Bytes Py

/-- `infile.read(n)`. -/
def rd (n : Nat) : Rd Bytes := fun b => .ok (b.take n, b.drop n)

/-- An exception or a value. -/
def Rd.of {α : Type} (p : Py α) : Rd α := fun b =>
  match p with
  | .ok a => .ok (a, b)
  | .error e => .error e

/-- `struct.unpack(emode + "i", b)[0]`. -/
def unpackI (e : Endian) (b : Bytes) : Py Int := if b.length = 4 then .ok (i32Val (decW e b)) else .error .structError

/-- `struct.unpack(emode + n * "d", b)`. -/
def unpackD (e : Endian) (n : Nat) (b : Bytes) : Py (List F64) :=
  if b.length = 8 * n then .ok ((words 8 n b).map fun w => Flt.ofBits (decW e w)) else .error .structError

/-- An integer. -/
def rdI (e : Endian) : Rd Int := do
  let b ← rd 4
  Rd.of (unpackI e b)

/-- `n` doubles. -/
def rdD (e : Endian) (n : Nat) : Rd (List F64) := do
  let b ← rd (8 * n)
  Rd.of (unpackD e n b)

/-- One double. -/
def rdD1 (e : Endian) : Rd F64 := do
  let l ← rdD e 1
  pure (l.headD 0)

/-! ### Planes -/

/-- What `readplane` returns for a two-dimensional plane. -/
structure Plane where
  /-- coordinates -/
  x : Nat → Nat → Nat → F64
  /-- data -/
  d : Nat → Nat → F64
  /-- numbers of points -/
  nn : List Int

/-- `np.reshape(l, (n0, n1), "F")`. -/
def reshapeF (n0 : Nat) (l : List F64) (i j : Nat) : F64 := l.getD (j * n0 + i) 0

/-- Two-dimensional planes, simsonsuite.py:324–332 and 349–356. -/
def planeBody2 (e : Endian) (n0 n1 : Nat) : Rd Plane := do
  let nt := n0 * n1
  let _ ← rd 4
  let x ← rdD e nt
  let _ ← rd 4
  let _ ← rd 4
  let y ← rdD e nt
  let _ ← rd 4
  let _ ← rd 4
  let d ← rdD e nt
  pure ⟨fun c i j => if c = 0 then reshapeF n0 x i j else reshapeF n0 y i j, reshapeF n0 d, [n0, n1]⟩

/-- `readplane` after the byte order is known, simsonsuite.py:284–369; `none` is the return value -3. `np.zeros` raises
`ValueError` for a negative size; `infile.read(nt1 * wdsz)` raises `TypeError` because `nt1` is a `float`. -/
def planeBody (e : Endian) (ndim : Int) : Rd (Option Plane) := do
  let nn ← (List.range ndim.toNat).mapM fun _ => rdI e
  let _ ← rd 4
  if ndim = 2 then
    if nn.getD 0 0 < 0 ∨ nn.getD 1 0 < 0 then Rd.of (.error .valueError)
    else do
      let p ← planeBody2 e (nn.getD 0 0).toNat (nn.getD 1 0).toNat
      pure (some p)
  else if ndim = 1 ∨ ndim = 3 then
    if nn.any (fun n => decide (n < 0)) then Rd.of (.error .valueError)
    else do
      let _ ← rdI e
      Rd.of (.error .typeError)
  else pure none

/-- `readplane`, simsonsuite.py:245–369. -/
def readplane (b : Bytes) : Py (Option Plane) :=
  let tag := b.take 4
  if tag.length ≠ 4 then .error .structError
  else
    let e : Endian := if i32Val (decW .little tag) ≤ 1000 then .little else .big
    (planeBody e ((i32Val (decW e tag)).tdiv 4) (b.drop 4)).map Prod.fst

/-! ### DNS fields -/

/-- `a[i] = b` for an array of `float64` and a `bytes` object, which is taken for a literal: NumPy drops zero bytes at the
end, `float` blanks at both ends. -/
def npFloat (b : Bytes) : Py F64 :=
  let b := (b.reverse.dropWhile (· == 0)).reverse
  orValueError (pyFloat ((((decodeB b).dropWhile isSpaceC).reverse.dropWhile isSpaceC).reverse))

/-- One passive scalar, simsonsuite.py:76–80: `pr[i]` and `m[i]`. The memory of the item is unpacked again. -/
def dnsScalar (native e : Endian) : Rd (F64 × F64) := do
  let p ← rd 8
  let p ← Rd.of (npFloat p)
  let m ← rd 8
  let m ← Rd.of (npFloat m)
  pure (Flt.ofBits (decW e (encW native 8 p.bits)), Flt.ofBits (decW e (encW native 8 m.bits)))

/-- The header of a field. -/
structure DnsHead where
  re : F64
  boxX : F64
  boxZ : F64
  time : F64
  nx : Nat
  ny : Nat
  nz : Nat
  fltype : Int
  dstar : F64

/-- The quantities that depend on the type of the flow, simsonsuite.py:116–145. -/
def dnsFlow (e : Endian) (nscal : Nat) (fltype : Int) : Rd Unit := do
  if fltype = -1 then do
    let _ ← rdD1 e
    let _ ← rd 8
    pure ()
  if fltype = -2 then do
    let _ ← rdD1 e
    let _ ← rdD1 e
    let _ ← rd 8
    pure ()
  if fltype = 4 ∨ fltype = 5 then do
    let _ ← rdD1 e
    let _ ← rdD1 e
    let _ ← rd 8
    pure ()
  if 4 ≤ fltype ∧ fltype ≤ 9 then do
    let _ ← rdD1 e
    let _ ← rdD1 e
    let _ ← rdD1 e
    let _ ← rdD1 e
    let _ ← rd 8
    pure ()
  if fltype.natAbs = 20 then do
    let _ ← rdD e nscal
    let _ ← rd 8
    pure ()

/-- The header, simsonsuite.py:51–191, after the tag. A negative number of points makes `np.zeros` raise; no points in x or z
and `dstar = 0` make a division raise. -/
def dnsHead (native e : Endian) (nscal : Nat) : Rd DnsHead := do
  let re ← rdD1 e
  let _ ← rdI e
  let bx ← rdD e 2
  let time ← rdD1 e
  let _ ← rd 8
  let _ ← (List.range nscal).mapM fun _ => dnsScalar native e
  let _ ← rd 8
  let nx ← rdI e
  let ny ← rdI e
  let nz ← rdI e
  let _ ← rdI e
  let _ ← rd 8
  let fltype ← rdI e
  let dstar ← rdD1 e
  if dstar.mag = 0 then Rd.of (.error .zeroDivision)
  else do
    let _ ← rd 8
    dnsFlow e nscal fltype
    if nx < 0 ∨ ny < 0 ∨ nz < 0 then Rd.of (.error .valueError)
    else if nx = 0 ∨ nz = 0 then Rd.of (.error .zeroDivision)
    else pure ⟨re, bx.getD 0 0, bx.getD 1 0, time, nx.toNat, ny.toNat, nz.toNat, fltype, dstar⟩

/-- `izf`, simsonsuite.py:196–199. -/
def slot (nz iz : Nat) : Nat := if 2 * iz ≤ nz then iz else nz / 2 * 3 - (iz + 1)

/-- One line of Fourier coefficients, simsonsuite.py:201–208. -/
def dnsLine (e : Endian) (nx : Nat) : Rd (List F64) := do
  let fi ← rdD e nx
  let _ ← rd 8
  pure fi

/-- The coefficients of one component, simsonsuite.py:195–208; `coef` makes a coefficient of two numbers. -/
def dnsFou {C : Type} (e : Endian) (nx ny nz : Nat) (coef : F64 → F64 → C) (fou : Nat → Nat → Nat → C) : Rd (Nat → Nat → Nat → C) :=
  (prod2 (List.range nz) (List.range ny)).foldlM (fun fou t => do
    let fi ← dnsLine e nx
    pure fun z y x => if z = slot nz t.1 ∧ y = t.2 ∧ x < nx / 2 then coef (fi.getD (2 * x) 0) (fi.getD (2 * x + 1) 0) else fou z y x) fou

/-- All components in turn, simsonsuite.py:194–231: the coefficients after each of them. The buffer is not cleared in between. -/
def dnsFous {C : Type} (e : Endian) (nx ny nz : Nat) (coef : Nat → F64 → F64 → C) :
    List Nat → (Nat → Nat → Nat → C) → Rd (List (Nat → Nat → Nat → C))
  | [], _ => pure []
  | c :: cs, fou => do
    let fou ← dnsFou e nx ny nz (coef c) fou
    let l ← dnsFous e nx ny nz coef cs fou
    pure (fou :: l)

/-- What `readdns` returns: header, coordinates (component, then indices in z, y and x), and the fields in physical space
(velocity, then scalars). -/
structure Dns (V : Type) where
  head : DnsHead
  endian : Endian
  pos : Nat → Nat → Nat → Nat → V
  fields : List (Nat → Nat → Nat → V)

/-- `readdns`, simsonsuite.py:13–241; `none` is the return value -3. `coef nppl c` makes coefficients of component `c` (0, 1, 2
for the velocity, 3, … for the scalars), `ift nx nz` is the inverse transform, `crd` makes the coordinates. -/
def readdns {C V : Type} (native : Endian) (zero : C) (coef : Nat → Nat → F64 → F64 → C)
    (ift : Nat → Nat → (Nat → Nat → Nat → C) → Nat → Nat → Nat → V) (crd : DnsHead → Nat → Nat → Nat → Nat → V) (b : Bytes) :
    Py (Option (Dns V)) :=
  let tag := b.take 4
  if tag.length ≠ 4 then .error .structError
  else
    let l := i32Val (decW .little tag)
    let g := i32Val (decW .big tag)
    let go (e : Endian) (t : Int) : Py (Option (Dns V)) :=
      let nscal := ((t - 44).tdiv 16).toNat
      ((do
        let h ← dnsHead native e nscal
        let fous ← dnsFous e h.nx h.ny h.nz (coef (h.nx * h.nz)) (List.range (3 + nscal)) fun _ _ _ => zero
        pure (some ⟨h, e, crd h, fous.map (ift h.nx h.nz)⟩) : Rd (Option (Dns V))) (b.drop 4)).map Prod.fst
    if 44 ≤ l ∧ l ≤ 1644 then go .little l
    else if 44 ≤ g ∧ g ≤ 1644 then go .big g
    else .ok none

end Pymech
