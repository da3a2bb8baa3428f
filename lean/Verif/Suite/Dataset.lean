import Verif.Core.Types
import Verif.IO.Text

/-!
# The parts of `pymech.dataset` that do not depend on `xarray`

`/repo/src/pymech/dataset.py`: the pattern of file names and the variables of one element. The sets built from the variables (`xr.Dataset`,
`xr.combine_by_coords`) are not modelled.
-/

set_option autoImplicit false

namespace Pymech

/-- Regular expressions as used by the pattern: one character of a class, a character class repeated (`*`), sequence and alternative. -/
inductive Re
  | one (p : Char → Bool)
  | star (p : Char → Bool)
  | seq (a b : Re)
  | alt (a b : Re)

/-- Greedy repetition of a class with backtracking: the rest of the match is tried after as many characters as possible, then after fewer. -/
def starRun (p : Char → Bool) (k : List Char → Bool) : List Char → Bool
  | [] => k []
  | c :: s => (p c && starRun p k s) || k (c :: s)

/-- Backtracking match at the beginning of a string; `k` is the rest of the match. -/
def Re.run : Re → List Char → (List Char → Bool) → Bool
  | .one p, s, k => match s with
    | [] => false
    | c :: s => p c && k s
  | .star p, s, k => starRun p k s
  | .seq a b, s, k => a.run s fun s => b.run s k
  | .alt a b, s, k => a.run s k || b.run s k

/-- `nek_ext_pattern`, dataset.py:17–25: `.*\.f(\d{5}|ld)`; with `re.VERBOSE` blanks and comments are dropped. `.` does not match a newline and
`\d` matches the decimal digits of Unicode, given by `digit`. -/
def nekExtPattern (digit : Char → Bool) : Re :=
  .seq (.star fun c => c != '\n') (.seq (.one (· == '.')) (.seq (.one (· == 'f'))
    (.alt (.seq (.one digit) (.seq (.one digit) (.seq (.one digit) (.seq (.one digit) (.one digit)))))
      (.seq (.one (· == 'l')) (.one (· == 'd'))))))

/-- `can_open_nek_dataset`, dataset.py:28–37: whether `pattern.match` (a match at the beginning, of any length) succeeds. -/
def canOpenNek (digit : Char → Bool) (path : List Char) : Bool := (nekExtPattern digit).run path fun _ => true

variable {F : Type} [LinearOrder F]

/-- `argsort(kind="mergesort")` of `n` values: a stable sort of the indices. -/
def argsort (n : Nat) (k : Nat → F) : List Nat := (List.range n).mergeSort fun i j => decide (k i ≤ k j)

/-- The entries whose value differs from the previous one (`aux[1:] != aux[:-1]` in `np.unique`); `prev` is the index of the previous value. -/
def maskGo (k : Nat → F) : Option Nat → List Nat → List Nat
  | _, [] => []
  | none, i :: l => i :: maskGo k (some i) l
  | some p, i :: l => if k i ≠ k p then i :: maskGo k (some i) l else maskGo k (some i) l

/-- The indices returned by `np.unique(a, return_index=True)` for `n` values `k`. -/
def uniqueIdx (n : Nat) (k : Nat → F) : List Nat := maskGo k none (argsort n k)

/-- Entry `i` of a flattened array of shape `(lz, ly, lx)`. -/
def flatAt {α : Type} (ly lx : Nat) (mesh : Nat → Nat → Nat → α) (i : Nat) : α :=
  mesh (i / (ly * lx)) (i % (ly * lx) / lx) (i % (ly * lx) % lx)

/-- `meshgrid_to_dim`, dataset.py:134–142, for a mesh of shape `(lz, ly, lx)`; `rnd` is `np.round(·, 8)`. NaN is not modelled. -/
def meshgridToDim (rnd : F → F) (lz ly lx : Nat) (mesh : Nat → Nat → Nat → F) : List F :=
  let v := flatAt ly lx mesh
  (uniqueIdx (lz * (ly * lx)) fun i => rnd (v i)).map v

/-- The values of `data_vars`, dataset.py:161–184: an array with one dimension, or a variable with the dimensions `z, y, x`. -/
inductive DataVar (F : Type)
  | coord (l : List F)
  | field (lz ly lx : Nat) (v : Nat → Nat → Nat → F)

/-- `a[d]` of an array with four dimensions. -/
def Arr.component {G : Type} (a : Arr G) (d : Nat) : Py (Nat → Nat → Nat → G) := if d < a.n then .ok (a.dat d) else .error .indexError

/-- `a.size`. -/
def Arr.size {G : Type} (a : Arr G) : Nat := a.n * a.lz * a.ly * a.lx

/-- `d[k] = v` for a `dict` in the order of insertion. -/
def dictSet {α : Type} (d : List (Name × α)) (k : Name) (v : α) : List (Name × α) :=
  if d.any (fun e => e.1 == k) then d.map fun e => if e.1 = k then (e.1, v) else e else d ++ [(k, v)]

/-- `xr.Variable(ax, a[d])`. -/
def Arr.variable {G : Type} (a : Arr G) (d : Nat) : Py (DataVar G) := do
  let v ← a.component d
  pure (.field a.lz a.ly a.lx v)

/-- `self.meshgrid_to_dim(elem.pos[d])`. -/
def coordOf (rnd : F → F) (a : Arr F) (d : Nat) : Py (DataVar F) := do
  let v ← a.component d
  pure (.coord (meshgridToDim rnd a.lz a.ly a.lx v))

/-- `_NekDataStore.get_variables`, dataset.py:156–186. -/
def getVariables (rnd : F → F) (el : Elem F) : Py (List (Name × DataVar F)) := do
  let x ← coordOf rnd el.pos 0
  let y ← coordOf rnd el.pos 1
  let z ← coordOf rnd el.pos 2
  let xm ← el.pos.variable 0
  let ym ← el.pos.variable 1
  let zm ← el.pos.variable 2
  let ux ← el.vel.variable 0
  let uy ← el.vel.variable 1
  let uz ← el.vel.variable 2
  let d := [("x".toList, x), ("y".toList, y), ("z".toList, z), ("xmesh".toList, xm), ("ymesh".toList, ym), ("zmesh".toList, zm),
    ("ux".toList, ux), ("uy".toList, uy), ("uz".toList, uz)].foldl (fun d e => dictSet d e.1 e.2) []
  let d ← if el.pres.size ≠ 0 then do
      let p ← el.pres.variable 0
      pure (dictSet d "pressure".toList p)
    else pure d
  let d ← if el.temp.size ≠ 0 then do
      let t ← el.temp.variable 0
      pure (dictSet d "temperature".toList t)
    else pure d
  if el.scal.size ≠ 0 then do
    let s ← (List.range el.scal.n).mapM fun i => do
      let v ← el.scal.variable i
      pure ('s' :: dec02 (i + 1), v)
    -- the dictionary of the comprehension, then `update`
    pure ((s.foldl (fun d e => dictSet d e.1 e.2) []).foldl (fun d e => dictSet d e.1 e.2) d)
  else pure d

end Pymech
