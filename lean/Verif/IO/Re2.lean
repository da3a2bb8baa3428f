import Verif.IO.Field

/-!
# Binary mesh files: `readre2`, `writere2`

`/repo/src/pymech/neksuite/mesh.py`, 601–910. The arrays of a mesh have dtype `float64`.

Simplifications. Names are ASCII; a byte above 127 in a name makes the reader fail. A file that announces a dimension
below one or a negative number of elements is always refused with `ValueError`. Warnings are left out.
-/

namespace Pymech

/-- `int(x)` of a double. NaN raises `ValueError` and infinity `OverflowError`; both are `valueError` here. -/
def f64Int (x : F64) : Py Int := if x.Finite then .ok (trunc x.val) else .error .valueError

/-- A non-negative integer stored in a `float64`. -/
def natF64 (n : Nat) : F64 := Flt.ofRat false n

/-- Characters removed by `str.rstrip()`, within ASCII. -/
def isSpaceU (c : Char) : Bool := isSpaceC c || (28 ≤ c.toNat && c.toNat ≤ 31)

/-- `s.rstrip()`. -/
def rstripT (s : Text) : Text := (s.reverse.dropWhile isSpaceU).reverse

/-- Assignment to a `U3` item and reading it back: three characters, trailing NULs are lost. -/
def npU3 (s : Text) : Name := ((s.take 3).reverse.dropWhile (· == Char.ofNat 0)).reverse

/-- `b.decode("utf-8")`, within ASCII. -/
def decodeAscii (b : Bytes) : Py Text := if ∀ x ∈ b, x.toNat < 128 then .ok (decodeB b) else .error .valueError

/-- Position of the vertex `[iy, ix]` among the four vertices of a face, mesh.py:672–675 and 845–848. -/
def vertNo (iy ix : Nat) : Nat := if iy = 0 then ix else 3 - ix

/-- Inverse of `vertNo`: `iy` of vertex `c`. -/
def vertY (c : Nat) : Nat := c / 2
/-- Inverse of `vertNo`: `ix` of vertex `c`. -/
def vertX (c : Nat) : Nat := if c / 2 = 0 then c else 3 - c

/-! ### Reading -/

/-- Number `j` of a record of doubles, `np.frombuffer(..., dtype=emode + "d")[j]`. -/
def recNum (e : Endian) (w : Bytes) (j : Nat) : F64 := Flt.ofBits (decW e ((w.drop (8 * j)).take 8))

/-- `rec[7].tobytes()`: taking an item out of an array converts it to the native byte order. -/
def recRaw (native e : Endian) (w : Bytes) : Bytes := encW native 8 (decW e ((w.drop 56).take 8))

/-- `int(np.frombuffer(buf)[0])`, mesh.py:684 and 719: the native byte order is used. -/
def countAt (native : Endian) (b : Bytes) : Py Int :=
  if b.length ≠ 8 then .error .valueError else f64Int (Flt.ofBits (decW native b))

/-- `infile.read(n)`: bytes read and bytes left; a negative `n` reads everything. -/
def readMany (n : Int) (rest : Bytes) : Bytes × Bytes :=
  if 0 ≤ n then (rest.take n.toNat, rest.drop n.toNat) else (rest, [])

/-- Position array of one element from its `ndim*2**ndim + 1` numbers, mesh.py:655–675. -/
def re2Pos (e : Endian) (nd : Nat) (fi : Bytes) (old : Arr F64) : Arr F64 :=
  { old with dat := fun d z y x =>
      if d < nd ∧ z < nd - 1 ∧ y < 2 ∧ x < 2 then recNum e fi (2 ^ nd * d + 4 * z + 1 + vertNo y x) else old.dat d z y x }

/-- Set curvature type and parameters of an edge, mesh.py:704–705. -/
def Elem.setCurve (el : Elem F64) (k : Nat) (p : Nat → F64) (t : Name) : Elem F64 :=
  { el with curv := fun e j => if e = k ∧ j < 5 then p j else el.curv e j
            ccurv := fun e => if e = k then t else el.ccurv e }

/-- One curved edge, mesh.py:688–705. -/
def putCurve (native e : Endian) (M : HexaData F64) (w : Bytes) : Py (HexaData F64) :=
  if w.length < 64 then .error .valueError
  else do
    let iel ← f64Int (recNum e w 0)
    let iedge ← f64Int (recNum e w 1)
    let t ← decodeAscii ((recRaw native e w).take 1)
    let i ← pyIndex M.elem.length (iel - 1)
    let k ← pyIndex 12 (iedge - 1)
    pure { M with elem := M.elem.modify i fun el => el.setCurve k (fun j => recNum e w (2 + j)) t }

/-- One boundary condition, mesh.py:724–741. The row `ifield` exists in all elements. -/
def putBC (native e : Endian) (ifield : Nat) (M : HexaData F64) (w : Bytes) : Py (HexaData F64) :=
  if w.length < 64 then .error .valueError
  else do
    let iel ← f64Int (recNum e w 0)
    let iface ← f64Int (recNum e w 1)
    let t ← decodeAscii (recRaw native e w)
    let i ← pyIndex M.elem.length (iel - 1)
    let k ← pyIndex 6 (iface - 1)
    pure (M.modBC i ifield k fun _ => ⟨npU3 (rstripT t), iel, iface, recNum e w 2, recNum e w 3, recNum e w 4, recNum e w 5,
      recNum e w 6⟩)

/-- One more row of boundary conditions, mesh.py:714–718. -/
def Elem.addRow (el : Elem F64) : Elem F64 :=
  { el with rows := el.rows + 1, bcs := fun b f => if b = el.rows then BC.zero else el.bcs b f }

/-- One more field of boundary conditions, mesh.py:713–718. -/
def HexaData.addField (M : HexaData F64) : HexaData F64 := { M with nbc := M.nbc + 1, elem := M.elem.map Elem.addRow }

/-- The loop over the fields of boundary conditions, mesh.py:710–744. Every round with a non-empty buffer consumes at
least one byte, so the number of bytes is enough fuel (`readFields_fuel` in `Verif/Lemmas/Re2.lean`). -/
def readFields (native e : Endian) : Nat → Nat → Bytes → HexaData F64 → Py (HexaData F64)
  | 0, _, _, _ => .error .valueError
  | fuel + 1, ifield, rest, M =>
    if rest.take 8 = [] then .ok M
    else do
      let M := if ifield > 0 then M.addField else M
      let n ← countAt native (rest.take 8)
      let r := readMany (64 * n) (rest.drop 8)
      let M ← (words 64 n.toNat r.1).foldlM (putBC native e ifield) M
      readFields native e fuel (ifield + 1) r.2 M

/-- `readre2` on the content of the file, mesh.py:601–746. The number of curved edges and of boundary conditions may be
any integer (`range` of a negative number is empty). -/
def readre2 (native : Endian) (b : Bytes) : Py (HexaData F64) :=
  match splitT (decodeB (b.take 80)) with
  | _ :: w1 :: w2 :: _ => do
    let nel ← orValueError (pyInt w1)
    let ndim ← orValueError (pyInt w2)
    let e ← tagEndian ((b.drop 80).take 4)
    if ndim < 1 ∨ nel < 0 then .error .valueError
    else
      let nel := nel.toNat
      let nd := ndim.toNat
      let gs := (nd * 2 ^ nd + 1) * 8
      let rest := b.drop 84
      -- `np.frombuffer` refuses a short buffer, `el.pos` has three components
      if rest.length < gs * nel then .error .valueError
      else if 3 < nd ∧ 0 < nel then .error .indexError
      else
        let M : HexaData F64 := HexaData.new native nd nel ⟨2, 2, nd - 1, true⟩ ⟨nd, 0, 0, 0, 0⟩ 1
        let g (iel : Nat) (el : Elem F64) : Elem F64 := { el with pos := re2Pos e nd (rest.drop (gs * iel)) el.pos }
        let M := { M with wdsz := 8, endian := some e, elem := M.elem.mapIdx g }
        let rest := rest.drop (gs * nel)
        let ncurv ← countAt native (rest.take 8)
        let r := readMany (64 * ncurv) (rest.drop 8)
        let M ← (words 64 ncurv.toNat r.1).foldlM (putCurve native e) { M with ncurv := ncurv.toNat }
        readFields native e (r.2.length + 1) 0 r.2 M
  | _ => .error .indexError

/-! ### Writing -/

/-- The header line, mesh.py:791–792. -/
def re2Text (nel ndim : Nat) : Text :=
  ljust 80 ("#v002".toList ++ rjust 9 (decI nel) ++ rjust 3 (decI ndim) ++ rjust 9 (decI nel) ++ " this is the hdr".toList)

/-- One double, as written in mesh.py:849, 865 and 893. -/
def w8 (native : Endian) (swap : Bool) (x : F64) : Bytes := item native swap 8 x.bits

/-- Entry `k` of the array `xyz` after the loops in mesh.py:831–848: entry 0 and entries that are never assigned stay
zero. -/
def re2Coord (nd : Nat) (a : Arr F64) (k : Nat) : F64 :=
  let d := (k - 1) / 2 ^ nd
  let z := (k - 1) % 2 ^ nd / 4
  let c := (k - 1) % 2 ^ nd % 4
  if k ≠ 0 ∧ d < nd ∧ z < nd - 1 then a.dat d z (vertY c) (vertX c) else 0

/-- Geometry of one element, mesh.py:831–849. -/
def re2Geom (native : Endian) (swap : Bool) (nd : Nat) (el : Elem F64) : Py Bytes :=
  if nd = 1 ∨ (nd ≤ el.pos.n ∧ nd - 1 ≤ el.pos.lz ∧ 2 ≤ el.pos.ly ∧ 2 ≤ el.pos.lx) then
    .ok ((List.range (2 ^ nd * nd + 1)).flatMap fun k => w8 native swap (re2Coord nd el.pos k))
  else .error .indexError

/-- An item of dtype `S8`, mesh.py:876 and 903: cut after eight bytes, filled with NULs. -/
def s8 (b : Bytes) : Bytes := b.take 8 ++ List.replicate (8 - b.length) 0

/-- A record of dtype `f8, f8, f8, f8, f8, f8, f8, S8`; `byteswap` leaves the string alone.
mesh.py:867–876 and 895–903. -/
def re2Rec (native : Endian) (swap : Bool) (i k : Nat) (p : Nat → F64) (t : Bytes) : Bytes :=
  w8 native swap (natF64 (i + 1)) ++ w8 native swap (natF64 (k + 1)) ++
    ((List.range 5).flatMap fun j => w8 native swap (p j)) ++ s8 t

/-- Parameter `j` of a boundary condition: fields 3 to 7 of the record, mesh.py:900–901. -/
def BC.par {F : Type} (r : BC F) (j : Nat) : F :=
  if j = 0 then r.p3 else if j = 1 then r.p4 else if j = 2 then r.p5 else if j = 3 then r.p6 else r.p7

/-- `curved_edges`, mesh.py:853–857. -/
def curvedEdges (M : HexaData F64) : List (Nat × Nat) :=
  (prod2 (List.range M.elem.length) (List.range 12)).filter fun t => decide ((M.el t.1).ccurv t.2 ≠ [])

/-- `bc_faces` of field `b`, mesh.py:883–890. -/
def bcFaces (M : HexaData F64) (b : Nat) : List (Nat × Nat) :=
  (prod2 (List.range M.elem.length) (List.range (2 * M.ndim))).filter fun t =>
    decide ((M.bc t.1 b t.2).typ ≠ [] ∧ (M.bc t.1 b t.2).typ ≠ nE)

/-- The curved edges, mesh.py:859–878. -/
def re2Curves (native : Endian) (swap : Bool) (M : HexaData F64) : Bytes :=
  w8 native swap (natF64 (curvedEdges M).length) ++ (curvedEdges M).flatMap fun t =>
    re2Rec native swap t.1 t.2 ((M.el t.1).curv t.2) (encodeT ((M.el t.1).ccurv t.2))

/-- The boundary conditions of field `b`, mesh.py:881–905. A missing row or column raises `IndexError`. -/
def re2Bcs (native : Endian) (swap : Bool) (M : HexaData F64) (b : Nat) : Py Bytes :=
  if ∃ el ∈ M.elem, el.rows ≤ b ∨ 6 < 2 * M.ndim then .error .indexError
  else .ok (w8 native swap (natF64 (bcFaces M b).length) ++ (bcFaces M b).flatMap fun t =>
    re2Rec native swap t.1 t.2 (M.bc t.1 b t.2).par (encodeT (ljust 8 (M.bc t.1 b t.2).typ)))

/-- `writere2`, mesh.py:749–910: content of the file afterwards (`none` if it was not opened) and the exception raised,
if any. Nothing in `data` is assigned. -/
def writere2 (native : Endian) (M : HexaData F64) : Option Bytes × Option PyErr :=
  if ¬ (M.lr1.isList = true ∧ M.lr1.x = 2 ∧ M.lr1.y = 2 ∧ M.lr1.z + 1 = M.ndim) then (none, some .valueError)
  else if M.var.pos ≠ M.ndim then (none, some .valueError)
  else
    let swap := match M.endian with
      | some e => decide (e ≠ native)
      | none => false
    let r := runWrites (
      [.ok (encodeT (re2Text M.nel M.ndim)),
        .ok (item native swap 4 (Flt.ofRat (eb := 8) (mb := 23) false (654321 / 100000)).bits)] ++
      M.elem.map (re2Geom native swap M.ndim) ++ [.ok (re2Curves native swap M)] ++
      (List.range M.nbc).map (re2Bcs native swap M))
    (some r.1, r.2)

end Pymech
