import Verif.IO.Text

/-!
# Field files: `Header`, `read_header`, `readnek`, `writenek`

`/repo/src/pymech/neksuite/field.py`.

Simplifications. Array sizes and the word counts are unbounded integers. A text that is not ASCII is refused.
A field with a negative order or a negative number of scalars is always refused with `ValueError`; in Python
this comes from `np.zeros` and therefore only if there is at least one element. Logging is left out.
-/

namespace Pymech

/-! ### Header -/

/-- `Header.nb_vars`; the number of scalars is parsed from the file and can be any integer. -/
structure HVars where
  pos : Nat
  vel : Nat
  pres : Nat
  temp : Nat
  scal : Int
  deriving DecidableEq, Repr

/-- Class `Header`, field.py:32–71. `realtype` (`"f"` or `"d"`) is determined by `wdsz` and `nb_pts_elem` by
`orders`, so they are not stored. -/
structure Header where
  wdsz : Int
  ox : Int
  oy : Int
  oz : Int
  nbElems : Int
  nbElemsFile : Int
  time : F64
  istep : Int
  fid : Int
  nbFiles : Int
  vstr : Text
  nbDims : Nat
  nbVars : HVars
  deriving DecidableEq

/-- `Header._variables_to_nb_vars`, field.py:100–123: `variables.index("S")` and the rest as a number. -/
def variablesToVars (vs : Text) (nbDims : Nat) : Py HVars :=
  let n (c : Char) (k : Nat) : Nat := if c ∈ vs then k else 0
  match cutAt (· == 'S') vs with
  | (_, none) => .ok ⟨n 'X' nbDims, n 'U' nbDims, n 'P' 1, n 'T' 1, 0⟩
  | (_, some rest) =>
    match pyInt rest with
    | some s => .ok ⟨n 'X' nbDims, n 'U' nbDims, n 'P' 1, n 'T' 1, s⟩
    | none => .error .valueError

/-- `Header._nb_vars_to_variables`, field.py:125–132. -/
def varsToVariables (v : HVars) : Text :=
  (if v.pos > 0 then ['X'] else []) ++ (if v.vel > 0 then ['U'] else []) ++ (if v.pres > 0 then ['P'] else []) ++
  (if v.temp > 0 then ['T'] else []) ++ (if v.scal > 0 then 'S' :: dec02 v.scal.toNat else [])

/-- `Header(...)` with `__attrs_post_init__`, field.py:73–96. `nbVars = none` is the default empty tuple. -/
def Header.make (wdsz ox oy oz nbElems nbElemsFile : Int) (time : F64) (istep fid nbFiles : Int)
    (vs : Text) (nbVars : Option HVars) : Py Header :=
  if wdsz ≠ 4 ∧ wdsz ≠ 8 then .error .valueError
  else
    let nbDims : Nat := 2 + (if oz > 1 then 1 else 0)
    if vs ≠ [] then do
      let v ← variablesToVars vs nbDims
      pure ⟨wdsz, ox, oy, oz, nbElems, nbElemsFile, time, istep, fid, nbFiles, vs, nbDims, v⟩
    else
      match nbVars with
      | none => .error .valueError
      | some v => .ok ⟨wdsz, ox, oy, oz, nbElems, nbElemsFile, time, istep, fid, nbFiles, varsToVariables v, nbDims, v⟩

/-- `Header.nb_pts_elem`, field.py:84–86. -/
def Header.nbPts (h : Header) : Int := h.ox * h.oy * h.oz

/-- The text of `Header.as_bytestring` before padding, field.py:135–147:
`"#std %1i %2i %2i %2i %10i %10i %20.13E %9i %6i %6i %s"`. -/
def Header.text (h : Header) : Text :=
  "#std ".toList ++ rjust 1 (decI h.wdsz) ++ [' '] ++ rjust 2 (decI h.ox) ++ [' '] ++ rjust 2 (decI h.oy) ++ [' '] ++
  rjust 2 (decI h.oz) ++ [' '] ++ rjust 10 (decI h.nbElems) ++ [' '] ++ rjust 10 (decI h.nbElemsFile) ++ [' '] ++
  rjust 20 (fmtE 'E' 13 h.time) ++ [' '] ++ rjust 9 (decI h.istep) ++ [' '] ++ rjust 6 (decI h.fid) ++ [' '] ++
  rjust 6 (decI h.nbFiles) ++ [' '] ++ h.vstr

/-- `Header.as_bytestring`, field.py:134–148. -/
def Header.asBytes (h : Header) : Bytes := encodeT (ljust 132 h.text)

/-- The attrs converters `int(...)`: a failure is a `ValueError`. -/
def orValueError {α : Type} : Option α → Py α
  | some a => .ok a
  | none => .error .valueError

/-- `read_header` on a buffer opened in binary mode, field.py:151–170. The bytes after the first 132 are left in
the buffer. -/
def readHeader (b : Bytes) : Py Header :=
  match splitT (decodeB (b.take 132)) with
  | _ :: w :: ox :: oy :: oz :: ne :: nf :: t :: st :: fid :: nfiles :: vars :: _ => do
    let w ← orValueError (pyInt w)
    let ox ← orValueError (pyInt ox)
    let oy ← orValueError (pyInt oy)
    let oz ← orValueError (pyInt oz)
    let ne ← orValueError (pyInt ne)
    let nf ← orValueError (pyInt nf)
    let t ← orValueError (pyFloat t)
    let st ← orValueError (pyInt st)
    let fid ← orValueError (pyInt fid)
    let nfiles ← orValueError (pyInt nfiles)
    if ∃ c ∈ vars, 127 < c.toNat then .error .valueError
    else Header.make w ox oy oz ne nf t st fid nfiles vars none
  | _ => .error .ioError

/-! ### Reading -/

/-- The double `6.54321`. -/
def tagValue : F64 := Flt.ofRat false (654321 / 100000)

/-- `int(etag * 1e5) / 1e5 == 6.54321` for a single-precision number, field.py:202–206, in double precision:
product, conversion of the integer and quotient are rounded. `int` of a NaN raises `ValueError` and of an
infinity `OverflowError`; both are `valueError` here. (Equality of numbers is equality of patterns because
`6.54321` is neither zero nor NaN.) -/
def isTag (x : F32) : Py Bool :=
  if ¬ x.Finite then .error .valueError
  else
    let prod : F64 := Flt.ofRat x.neg (Flt.magVal 8 23 x.mag * 100000)
    let n := trunc prod.val
    let d : F64 := Flt.ofRat (decide (n < 0)) n.natAbs
    .ok (decide (Flt.ofRat d.neg (Flt.magVal 11 52 d.mag / 100000) = tagValue))

/-- Byte order from the four bytes of the tag, field.py:201–213. `struct.unpack` of a short buffer raises. -/
def tagEndian (b : Bytes) : Py Endian :=
  if b.length ≠ 4 then .error .structError
  else do
    let l ← isTag (Flt.ofBits (decW .little b))
    let g ← isTag (Flt.ofBits (decW .big b))
    if l then pure .little else if g then pure .big else .error .valueError

/-- The five arrays of an element. -/
inductive Fld | pos | vel | pres | temp | scal
  deriving DecidableEq, Repr

/-- `el.pos`, `el.vel`, `el.pres`, `el.temp`, `el.scal`. -/
def Elem.arr {F : Type} (el : Elem F) : Fld → Arr F
  | .pos => el.pos | .vel => el.vel | .pres => el.pres | .temp => el.temp | .scal => el.scal

/-- Replace one of the arrays. -/
def Elem.setArr {F : Type} (el : Elem F) (f : Fld) (a : Arr F) : Elem F :=
  match f with
  | .pos => { el with pos := a } | .vel => { el with vel := a } | .pres => { el with pres := a }
  | .temp => { el with temp := a } | .scal => { el with scal := a }

/-- `data_var[index_var, ...] = fi.reshape((lz, ly, lx))`, field.py:244–245. -/
def Arr.fill {F : Type} (a : Arr F) (d : Nat) (v : Nat → F) : Arr F :=
  { a with dat := fun n z y x => if n = d then v ((z * a.ly + y) * a.lx + x) else a.dat n z y x }

/-- Number `i` of a buffer of `float32` (`wdsz = 4`) or `float64` values, field.py:240, converted to the dtype. -/
def bufVal {F : Type} [FloatTy F] (e : Endian) (wdsz : Int) (b : Bytes) (i : Nat) : F :=
  if wdsz = 4 then FloatTy.ofF32 (Flt.ofBits (decW e ((b.drop (i * 4)).take 4)))
  else FloatTy.ofF64 (Flt.ofBits (decW e ((b.drop (i * 8)).take 8)))

/-- State of the reader: the bytes not yet read and the data structure. -/
structure RS (F : Type) where
  rest : Bytes
  data : HexaData F

/-- `infile.seek(n, SEEK_CUR)` with `n ≥ 0`. -/
def RS.skip {F : Type} (s : RS F) (n : Nat) : RS F := { s with rest := s.rest.drop n }

/-- `read_file_into_data`, field.py:237–245, for array `f` of element `i`. -/
def RS.read {F : Type} [FloatTy F] (e : Endian) (h : Header) (f : Fld) (i d : Nat) (s : RS F) : Py (RS F) :=
  let nb := (h.nbPts * h.wdsz).toNat
  if s.rest.length < nb then .error .valueError
  else
    let g (el : Elem F) : Elem F := el.setArr f ((el.arr f).fill d (bufVal e h.wdsz (s.rest.take nb)))
    .ok ⟨s.rest.drop nb, { s.data with elem := s.data.elem.modify i g }⟩

/-- `element_idxs`, field.py:258–266: positions in `data.elem`, as Python indices. -/
def elemIdxs (h : Header) (elmap : List Int) : List Int :=
  if (0 : Int) ∈ elmap then (List.range h.nbElemsFile.toNat).map fun i : Nat => (i : Int)
  else elmap.map (· - 1)

/-- Elements in the outer, components in the inner loop, field.py:268–274, 296–302, 317–320, 335–338. -/
def readEM {F : Type} [FloatTy F] (e : Endian) (h : Header) (elmap : List Int) (f : Fld) (n : Nat)
    (skip : Nat → Bool) (s : RS F) : Py (RS F) :=
  (elemIdxs h elmap).foldlM (fun s j => do
    let i ← pyIndex s.data.elem.length j
    (List.range n).foldlM (fun s d =>
      if skip d then .ok (s.skip (h.nbPts * h.wdsz).toNat) else s.read e h f i d) s) s

/-- One variable group, field.py:250–338: absent, skipped as a whole or read. `all(skip_condition)` is given. -/
def readGroup {F : Type} [FloatTy F] (e : Endian) (h : Header) (elmap : List Int) (f : Fld) (n : Nat)
    (skip : Nat → Bool) (skipAll : Bool) (s : RS F) : Py (RS F) :=
  if n = 0 then .ok s
  else if skipAll then .ok (s.skip ((h.nbPts * h.wdsz).toNat * (h.nbElems.toNat * n)))
  else readEM e h elmap f n skip s

/-- Scalars: scalars in the outer, elements in the inner loop, field.py:340–364. -/
def readScalars {F : Type} [FloatTy F] (e : Endian) (h : Header) (elmap : List Int) (n : Nat)
    (skip : Nat → Bool) (s : RS F) : Py (RS F) :=
  if n = 0 then .ok s
  else if (List.range n).all skip then .ok (s.skip ((h.nbPts * h.wdsz).toNat * (h.nbElems.toNat * n)))
  else (List.range n).foldlM (fun s d =>
    if skip d then .ok (s.skip ((h.nbPts * h.wdsz).toNat * h.nbElems.toNat))
    else (elemIdxs h elmap).foldlM (fun s j => do
      let i ← pyIndex s.data.elem.length j
      s.read e h .scal i d) s) s

/-- `geometry_vars`, field.py:251. -/
def geomNames (d : Nat) : Text := if d = 0 then ['x'] else if d = 1 then ['y'] else ['z']
/-- `velocity_vars1`, field.py:277. -/
def velNames1 (d : Nat) : Text := 'u' :: geomNames d
/-- `velocity_vars2`, field.py:278. -/
def velNames2 (d : Nat) : Text := 'v' :: geomNames d
/-- `scalar_vars`, field.py:344. -/
def scalName (d : Nat) : Text := 's' :: dec02 (d + 1)

/-- The data section, field.py:247–364. -/
def readBody {F : Type} [FloatTy F] (e : Endian) (h : Header) (elmap : List Int) (skipVars : List Text) (v : Var)
    (s : RS F) : Py (RS F) := do
  let sk (t : Text) : Bool := decide (t ∈ skipVars)
  let s ← readGroup e h elmap .pos v.pos (fun d => sk (geomNames d))
    ((List.range v.pos).all fun d => sk (geomNames d)) s
  let s ← readGroup e h elmap .vel v.vel (fun d => sk (velNames1 d) || sk (velNames2 d))
    (((List.range v.vel).all fun d => sk (velNames1 d)) || (List.range v.vel).all fun d => sk (velNames2 d)) s
  let s ← readGroup e h elmap .pres v.pres (fun _ => false) (sk ['p'] || sk "pressure".toList) s
  let s ← readGroup e h elmap .temp v.temp (fun _ => false) (sk ['t'] || sk "temperature".toList) s
  readScalars e h elmap v.scal (fun d => sk (scalName d)) s

/-- `infile.read(4 * nb_elems_file)`, field.py:217: `read(n)` with a negative `n` reads everything. -/
def elmapBytes (h : Header) (rest : Bytes) : Bytes :=
  if 0 ≤ h.nbElemsFile then rest.take (4 * h.nbElemsFile.toNat) else rest

/-- `readnek(fname, dtype, skip_vars)` on the content of the file, field.py:174–372. -/
def readnek {F : Type} [FloatTy F] (native : Endian) (skipVars : List Text) (b : Bytes) : Py (HexaData F) := do
  let h ← readHeader b
  let e ← tagEndian ((b.drop 132).take 4)
  let rest := b.drop 136
  -- `struct.unpack` wants the exact length
  if (elmapBytes h rest).length ≠ 4 * h.nbElemsFile.toNat then .error .structError
  else
    let elmap := (words 4 h.nbElemsFile.toNat (elmapBytes h rest)).map fun w => i32Val (decW e w)
    -- `HexaData(...)`: `np.linspace` refuses a negative number, `np.zeros` a negative dimension
    if h.nbElems < 0 ∨ h.ox < 0 ∨ h.oy < 0 ∨ h.oz < 0 ∨ h.nbVars.scal < 0 then .error .valueError
    else
      let nel := h.nbElems.toNat
      let v : Var := ⟨h.nbVars.pos, h.nbVars.vel, h.nbVars.pres, h.nbVars.temp, h.nbVars.scal.toNat⟩
      let data : HexaData F :=
        { HexaData.new native h.nbDims nel ⟨h.ox.toNat, h.oy.toNat, h.oz.toNat, false⟩ v 0 with
          time := h.time, istep := h.istep, wdsz := h.wdsz.toNat, elmap := elmap, endian := some e }
      (readBody e h elmap skipVars v ⟨rest.drop (4 * h.nbElemsFile.toNat), data⟩).map (·.data)

/-! ### Writing -/

/-- A sequence of writes to a freshly truncated file: the content when the function ends, and the exception
that ended it, if any. -/
def runWrites : List (Py Bytes) → Bytes × Option PyErr
  | [] => ([], none)
  | .ok b :: l => let (c, e) := runWrites l; (b ++ c, e)
  | .error e :: _ => ([], some e)

/-- The items `a[d, :, :, :]` in C order; a component that does not exist raises `IndexError`. -/
def Arr.items {F : Type} (a : Arr F) (d : Nat) : Py (List F) :=
  if d < a.n then
    .ok ((List.range a.lz).flatMap fun z => (List.range a.ly).flatMap fun y => (List.range a.lx).map fun x => a.dat d z y x)
  else .error .indexError

/-- `write_ndarray_to_file`, field.py:452–457. -/
def wArr {F : Type} [FloatTy F] (native : Endian) (swap : Bool) (wdsz : Nat) (l : List F) : Bytes :=
  if wdsz = 4 then l.flatMap fun x => item native swap 4 (FloatTy.toF32 x).bits
  else l.flatMap fun x => item native swap (FloatTy.sz F) (FloatTy.bits x)

/-- `np.min(...)`, `np.max(...)` as `float32`, field.py:495–500. An empty array raises `ValueError`. -/
def wMinMax {F : Type} [FloatTy F] (native : Endian) (swap : Bool) (l : List F) : Py Bytes :=
  match l with
  | [] => .error .valueError
  | x :: xs => .ok (item native swap 4 (FloatTy.toF32 (xs.foldl FloatTy.min2 x)).bits ++
      item native swap 4 (FloatTy.toF32 (xs.foldl FloatTy.max2 x)).bits)

/-- `data.elem[iel - 1].f[d, :, :, :]`. -/
def HexaData.comp {F : Type} [Zero F] (M : HexaData F) (f : Fld) (iel : Int) (d : Nat) : Py (List F) := do
  let i ← pyIndex M.elem.length (iel - 1)
  ((M.el i).arr f).items d

/-- Loops `for iel in data.elmap: for d in range(n)`. -/
def chunksEM {F : Type} (M : HexaData F) (n : Nat) (g : Int → Nat → Py Bytes) : List (Py Bytes) :=
  M.elmap.flatMap fun iel => (List.range n).map fun d => g iel d

/-- `writenek`, field.py:376–538: the content of the file afterwards (it is opened with `"wb"` first) and the
exception raised, if any. -/
def writenek {F : Type} [FloatTy F] (native : Endian) (M : HexaData F) : Bytes × Option PyErr :=
  match Header.make M.wdsz M.lr1.x M.lr1.y M.lr1.z M.nel M.nel M.time M.istep 0 1 []
      (some ⟨M.var.pos, M.var.vel, M.var.pres, M.var.temp, M.var.scal⟩) with
  | .error e => ([], some e)
  | .ok h =>
    let swap := match M.endian with
      | some e => decide (e ≠ native)
      | none => false
    let w (f : Fld) (iel : Int) (d : Nat) : Py Bytes := (M.comp f iel d).map (wArr native swap M.wdsz)
    let mm (f : Fld) (iel : Int) (d : Nat) : Py Bytes := do wMinMax native swap (← M.comp f iel d)
    runWrites (
      [.ok h.asBytes, .ok (item native swap 4 (Flt.ofRat (eb := 8) (mb := 23) false (654321 / 100000)).bits),
        .ok (M.elmap.flatMap fun i => item native swap 4 (i32Bits i))] ++
      chunksEM M M.var.pos (w .pos) ++ chunksEM M M.var.vel (w .vel) ++ chunksEM M M.var.pres (w .pres) ++
      chunksEM M M.var.temp (w .temp) ++
      ((List.range M.var.scal).flatMap fun d => M.elmap.map fun iel => w .scal iel d) ++
      (if M.ndim = 3 then
        chunksEM M M.var.pos (mm .pos) ++ chunksEM M M.var.vel (mm .vel) ++ chunksEM M M.var.pres (mm .pres) ++
        chunksEM M M.var.temp (mm .temp) ++ chunksEM M M.var.scal (mm .scal)
       else []))

end Pymech
