import Verif.Suite.Vtk
import Verif.Lemmas.Loop
import Mathlib.Tactic.IntervalCases
import Mathlib.Tactic.Linarith

/-! # The loops of `hexa2vtk` -/

set_option autoImplicit false

namespace Pymech.Vtk

variable {F : Type} [Zero F]

/-- Number of the entry `z, y, x` of block `e`, the blocks having `nx * ny * nz` entries. -/
def no (nx ny nz e z y x : Nat) : Nat := e * (nz * (ny * nx)) + (z * (ny * nx) + y * nx + x)

/-- The entry with a given number. -/
def entry (nx ny nz i : Nat) : Nat × Nat × Nat × Nat :=
  (i / (nz * (ny * nx)), i % (nz * (ny * nx)) / (ny * nx), i % (nz * (ny * nx)) % (ny * nx) / nx, i % (nz * (ny * nx)) % (ny * nx) % nx)

theorem div_mod_of_lt {a b w : Nat} (h : b < w) : (a * w + b) / w = a ∧ (a * w + b) % w = b := by
  have hw : 0 < w := by omega
  constructor
  · rw [Nat.add_comm, Nat.add_mul_div_right _ _ hw, Nat.div_eq_of_lt h, Nat.zero_add]
  · rw [Nat.add_comm, Nat.add_mul_mod_self_right, Nat.mod_eq_of_lt h]

theorem inner_lt {nx ny nz z y x : Nat} (hz : z < nz) (hy : y < ny) (hx : x < nx) : z * (ny * nx) + y * nx + x < nz * (ny * nx) := by
  have h1 := row_lt hy hx
  have h2 := row_lt hz h1
  omega

theorem entry_no {nx ny nz e z y x : Nat} (hz : z < nz) (hy : y < ny) (hx : x < nx) : entry nx ny nz (no nx ny nz e z y x) = (e, z, y, x) := by
  have h0 := inner_lt hz hy hx
  have h1 := row_lt hy hx
  unfold entry no
  rw [(div_mod_of_lt h0).1, (div_mod_of_lt h0).2, Nat.add_assoc, (div_mod_of_lt h1).1, (div_mod_of_lt h1).2, (div_mod_of_lt hx).1,
    (div_mod_of_lt hx).2]

theorem no_lt {n nx ny nz e z y x : Nat} (he : e < n) (hz : z < nz) (hy : y < ny) (hx : x < nx) :
    no nx ny nz e z y x < n * (nz * (ny * nx)) := row_lt he (inner_lt hz hy hx)

theorem no_inj {nx ny nz e z y x e' z' y' x' : Nat} (hz : z < nz) (hy : y < ny) (hx : x < nx) (hz' : z' < nz) (hy' : y' < ny)
    (hx' : x' < nx) (h : no nx ny nz e z y x = no nx ny nz e' z' y' x') : e = e' ∧ z = z' ∧ y = y' ∧ x = x' := by
  have := congrArg (entry nx ny nz) h
  rw [entry_no hz hy hx, entry_no hz' hy' hx'] at this
  simpa using this

/-- Each number belongs to an entry. -/
theorem no_surj {n nx ny nz i : Nat} (h : i < n * (nz * (ny * nx))) :
    ∃ e < n, ∃ z < nz, ∃ y < ny, ∃ x < nx, no nx ny nz e z y x = i := by
  have h0 : 0 < nz * (ny * nx) := by
    rcases Nat.eq_zero_or_pos (nz * (ny * nx)) with h0 | h0
    · rw [h0] at h
      omega
    · exact h0
  have h1 : 0 < ny * nx := Nat.pos_of_mul_pos_left h0
  have h2 : 0 < nx := Nat.pos_of_mul_pos_left h1
  refine ⟨i / (nz * (ny * nx)), (Nat.div_lt_iff_lt_mul h0).2 h, i % (nz * (ny * nx)) / (ny * nx),
    (Nat.div_lt_iff_lt_mul h1).2 (Nat.mod_lt _ h0), i % (nz * (ny * nx)) % (ny * nx) / nx, (Nat.div_lt_iff_lt_mul h2).2 (Nat.mod_lt _ h1),
    i % (nz * (ny * nx)) % (ny * nx) % nx, Nat.mod_lt _ h2, ?_⟩
  unfold no
  rw [Nat.add_assoc (_ / (ny * nx) * (ny * nx)), Nat.div_add_mod', Nat.div_add_mod', Nat.div_add_mod']

/-- An array whose first `k` rows have been filled. -/
def fill {α : Type} (n k : Nat) (v : Nat → α) (d : α) : Rows α := ⟨n, fun i => if i < k then v i else d⟩

theorem set_fill {α : Type} {n k : Nat} {v : Nat → α} {d x : α} (h : k < n) (hx : x = v k) :
    (fill n k v d).set k x = .ok (fill n (k + 1) v d) := by
  unfold Rows.set
  refine (if_pos h).trans ?_
  unfold fill
  congr 2
  funext j
  by_cases h1 : j = k
  · subst h1
    simp [hx]
  · have : j < k + 1 ↔ j < k := by omega
    simp [h1, this]

/-- The values of the rows of an array of point data. -/
def value (M : HexaData F) (sx sy sz nx ny nz : Nat) (a : Elem F → Arr F) (m i : Nat) : List F :=
  let t := entry nx ny nz i
  (List.range m).map fun d => (a (M.el t.1)).dat d (t.2.1 * sz) (t.2.2.1 * sy) (t.2.2.2 * sx)

/-- An array of point data after `k` points; `on`: it exists, `put`: it is filled. -/
def optRows (on put : Bool) (n k : Nat) (v : Nat → List F) (m : Nat) : Option (Rows (List F)) :=
  if on then some (fill n (if put then k else 0) v (List.replicate m 0)) else none

theorem putRow_ok {on put : Bool} {n m k : Nat} {a : Arr F} {ez ey ex : Nat} {v : Nat → List F} (h1 : put = true → on = true)
    (h2 : k < n) (h3 : put = true → a.n = m ∧ ez < a.lz ∧ ey < a.ly ∧ ex < a.lx ∧ v k = (List.range m).map fun d => a.dat d ez ey ex) :
    putRow put m a k ez ey ex (optRows on put n k v m) = .ok (optRows on put n (k + 1) v m) := by
  unfold putRow optRows
  cases put with
  | false => simp
  | true =>
    obtain ⟨g1, g2, g3, g4, g5⟩ := h3 rfl
    have g0 := h1 rfl
    subst g0
    have g6 : a.column m ez ey ex = .ok ((List.range m).map fun d => a.dat d ez ey ex) := by
      unfold Arr.column
      rw [if_pos ⟨g2, g3, g4⟩, if_pos g1]
    simp only [if_true, g6]
    change (do let r ← (fill n k v (List.replicate m 0)).set k _; pure (some r)) = _
    rw [set_fill h2 g5.symm]
    rfl

/-- Offsets of the corners of a cell in the order of VTK, `z` first. -/
def corner : Nat → Nat × Nat × Nat
  | 0 => (0, 0, 0)
  | 1 => (0, 0, 1)
  | 2 => (0, 1, 1)
  | 3 => (0, 1, 0)
  | 4 => (1, 0, 0)
  | 5 => (1, 0, 1)
  | 6 => (1, 1, 1)
  | _ => (1, 1, 0)

/-- The entries of the array of cells. -/
def cellValue (nx ny nz nv j : Nat) : Nat :=
  if j % (nv + 1) = 0 then nv
  else
    let t := entry (nx - 1) (ny - 1) (max (nz - 1) 1) (j / (nv + 1))
    let d := corner (j % (nv + 1) - 1)
    no nx ny nz t.1 (t.2.1 + d.1) (t.2.2.1 + d.2.1) (t.2.2.2 + d.2.2)

/-- The array of cells after `c` cells. -/
def cellRows (nx ny nz nv n c : Nat) : Rows Nat :=
  ⟨n * (nv + 1), fun j => if j < (nv + 1) * c then cellValue nx ny nz nv j else if j % (nv + 1) = 0 then nv else 0⟩

/-- The state after `k` points and `c` cells. -/
def stateAt (M : HexaData F) (sx sy sz nx ny nz nv n k c : Nat) : VtkState F where
  pts := optRows (M.var.pos != 0) (M.var.pos == 3) (nv * n) k (value M sx sy sz nx ny nz Elem.pos 3) 3
  vel := optRows (M.var.vel != 0) (M.var.vel == 3) (nv * n) k (value M sx sy sz nx ny nz Elem.vel 3) 3
  pres := optRows (M.var.pres == 1) (M.var.pres == 1) (nv * n) k (value M sx sy sz nx ny nz Elem.pres 1) 1
  temp := optRows (M.var.temp == 1) (M.var.temp == 1) (nv * n) k (value M sx sy sz nx ny nz Elem.temp 1) 1
  scal := optRows (M.var.scal != 0) (M.var.scal != 0) (nv * n) k (value M sx sy sz nx ny nz Elem.scal M.var.scal) M.var.scal
  ce := cellRows nx ny nz nv n c
  cell := c

/-- The shape of an array of an element. -/
def ShapeOf (M : HexaData F) (a : Arr F) (m : Nat) : Prop := a.n = m ∧ a.lz = M.lr1.z ∧ a.ly = M.lr1.y ∧ a.lx = M.lr1.x

/-- The arrays which are used have the shapes given by `lr1` and `var`. -/
structure Shapes (M : HexaData F) : Prop where
  length : M.elem.length = M.nel
  pos : M.var.pos = 3 → ∀ e < M.nel, ShapeOf M (M.el e).pos 3
  vel : M.var.vel = 3 → ∀ e < M.nel, ShapeOf M (M.el e).vel 3
  pres : M.var.pres = 1 → ∀ e < M.nel, ShapeOf M (M.el e).pres 1
  temp : M.var.temp = 1 → ∀ e < M.nel, ShapeOf M (M.el e).temp 1
  scal : ∀ e < M.nel, ShapeOf M (M.el e).scal M.var.scal

theorem vtkPoint_ok {M : HexaData F} {sx sy sz nx ny nz nv n c e z y x : Nat} (hM : Shapes M) (he : e < M.nel) (hz : z < nz)
    (hy : y < ny) (hx : x < nx) (gz : z * sz < M.lr1.z) (gy : y * sy < M.lr1.y) (gx : x * sx < M.lr1.x)
    (hn : M.nel * (nz * (ny * nx)) ≤ nv * n) :
    vtkPoint M sx sy sz nx ny (nx * ny * nz) e (stateAt M sx sy sz nx ny nz nv n (no nx ny nz e z y x) c) (z, y, x)
      = .ok (stateAt M sx sy sz nx ny nz nv n (no nx ny nz e z y x + 1) c) := by
  have hi : e * (nx * ny * nz) + x + y * nx + z * (nx * ny) = no nx ny nz e z y x := by
    unfold no
    ring
  have hlt : no nx ny nz e z y x < nv * n := lt_of_lt_of_le (no_lt he hz hy hx) hn
  have key : ∀ (a : Elem F → Arr F) (m : Nat) (on put : Bool), (put = true → on = true) →
      (put = true → ShapeOf M (a (M.el e)) m) →
      putRow put m (a (M.el e)) (no nx ny nz e z y x) (z * sz) (y * sy) (x * sx)
        (optRows on put (nv * n) (no nx ny nz e z y x) (value M sx sy sz nx ny nz a m) m)
      = .ok (optRows on put (nv * n) (no nx ny nz e z y x + 1) (value M sx sy sz nx ny nz a m) m) := by
    intro a m on put h1 h2
    refine putRow_ok h1 hlt fun hp => ?_
    obtain ⟨g1, g2, g3, g4⟩ := h2 hp
    refine ⟨g1, by rw [g2]; exact gz, by rw [g3]; exact gy, by rw [g4]; exact gx, ?_⟩
    unfold value
    rw [entry_no hz hy hx]
  have k1 := key Elem.pos 3 (M.var.pos != 0) (M.var.pos == 3) (by simp; omega) fun h => hM.pos (by simpa using h) e he
  have k2 := key Elem.vel 3 (M.var.vel != 0) (M.var.vel == 3) (by simp; omega) fun h => hM.vel (by simpa using h) e he
  have k3 := key Elem.pres 1 (M.var.pres == 1) (M.var.pres == 1) id fun h => hM.pres (by simpa using h) e he
  have k4 := key Elem.temp 1 (M.var.temp == 1) (M.var.temp == 1) id fun h => hM.temp (by simpa using h) e he
  have k5 := key Elem.scal M.var.scal (M.var.scal != 0) (M.var.scal != 0) id fun _ => hM.scal e he
  unfold vtkPoint
  dsimp only
  rw [hi]
  unfold stateAt
  dsimp only
  rw [k1]
  change (do
    let vel ← putRow (M.var.vel == 3) 3 _ _ _ _ _ _
    _) = _
  rw [k2]
  change (do
    let vel ← putRow (M.var.pres == 1) 1 _ _ _ _ _ _
    _) = _
  rw [k3]
  change (do
    let vel ← putRow (M.var.temp == 1) 1 _ _ _ _ _ _
    _) = _
  rw [k4]
  change (do
    let vel ← putRow (M.var.scal != 0) M.var.scal _ _ _ _ _ _
    _) = _
  rw [k5]
  rfl

theorem set_ok {α : Type} {a : Rows α} {i : Nat} {v : α} (h : i < a.n) :
    a.set i v = .ok ⟨a.n, fun j => if j = i then v else a.row j⟩ := if_pos h

theorem vtkFace_ok {nv nx ny npp e z y x c face : Nat} {ce : Rows Nat} (h : (nv + 1) * c + face * 4 + 4 < ce.n) :
    vtkFace nv nx ny npp e (z, y, x) c ce face = .ok ⟨ce.n, fun j =>
      if j = (nv + 1) * c + face * 4 + 4 then e * npp + x + y * nx + (z + face) * nx * ny + nx
      else if j = (nv + 1) * c + face * 4 + 3 then e * npp + x + y * nx + (z + face) * nx * ny + nx + 1
      else if j = (nv + 1) * c + face * 4 + 2 then e * npp + x + y * nx + (z + face) * nx * ny + 1
      else if j = (nv + 1) * c + face * 4 + 1 then e * npp + x + y * nx + (z + face) * nx * ny
      else ce.row j⟩ := by
  unfold vtkFace
  dsimp only
  rw [set_ok (by omega)]
  change (do
    let ce ← Rows.set _ _ _
    _) = _
  rw [set_ok (by dsimp only; omega)]
  change (do
    let ce ← Rows.set _ _ _
    _) = _
  rw [set_ok (by dsimp only; omega)]
  change Rows.set _ _ _ = _
  rw [set_ok (by dsimp only; omega)]

theorem cellValue_eq {nx ny nz nv e z y x r : Nat} (hz : z < max (nz - 1) 1) (hy : y < ny - 1) (hx : x < nx - 1) (hr : r < nv) :
    cellValue nx ny nz nv ((nv + 1) * no (nx - 1) (ny - 1) (max (nz - 1) 1) e z y x + (r + 1))
      = no nx ny nz e (z + (corner r).1) (y + (corner r).2.1) (x + (corner r).2.2) := by
  have h := div_mod_of_lt (a := no (nx - 1) (ny - 1) (max (nz - 1) 1) e z y x) (b := r + 1) (w := nv + 1) (by omega)
  unfold cellValue
  rw [Nat.mul_comm (nv + 1), h.1, h.2, if_neg (by omega), entry_no hz hy hx]
  rfl

theorem cellValue_zero {nx ny nz nv c : Nat} : cellValue nx ny nz nv ((nv + 1) * c) = nv := by
  unfold cellValue
  rw [Nat.mul_mod_right, if_pos rfl]

/-- The array after one more cell. -/
theorem cellRows_succ {nx ny nz nv n e z y x : Nat} (g : Nat → Nat) (hz : z < max (nz - 1) 1) (hy : y < ny - 1) (hx : x < nx - 1)
    (h1 : ∀ r < nv, g ((nv + 1) * no (nx - 1) (ny - 1) (max (nz - 1) 1) e z y x + (r + 1))
      = no nx ny nz e (z + (corner r).1) (y + (corner r).2.1) (x + (corner r).2.2))
    (h2 : ∀ j, (∀ r < nv, j ≠ (nv + 1) * no (nx - 1) (ny - 1) (max (nz - 1) 1) e z y x + (r + 1)) →
      g j = (cellRows nx ny nz nv n (no (nx - 1) (ny - 1) (max (nz - 1) 1) e z y x)).row j) :
    (⟨n * (nv + 1), g⟩ : Rows Nat) = cellRows nx ny nz nv n (no (nx - 1) (ny - 1) (max (nz - 1) 1) e z y x + 1) := by
  unfold cellRows
  congr 1
  funext j
  generalize hc : no (nx - 1) (ny - 1) (max (nz - 1) 1) e z y x = c at *
  by_cases hj : ∃ r < nv, j = (nv + 1) * c + (r + 1)
  · obtain ⟨r, hr, rfl⟩ := hj
    rw [h1 r hr, if_pos (by rw [Nat.mul_add]; omega), ← hc, cellValue_eq hz hy hx hr]
  · rw [h2 j fun r hr he => hj ⟨r, hr, he⟩]
    unfold cellRows
    dsimp only
    by_cases g1 : j < (nv + 1) * c
    · rw [if_pos g1, if_pos (by rw [Nat.mul_add]; omega)]
    · rw [if_neg g1]
      by_cases g2 : j = (nv + 1) * c
      · subst g2
        rw [Nat.mul_mod_right, if_pos rfl, if_pos (by rw [Nat.mul_add]; omega), cellValue_zero]
      · have g3 : ¬ j < (nv + 1) * (c + 1) := by
          intro g3
          rw [Nat.mul_add] at g3
          exact hj ⟨j - (nv + 1) * c - 1, by omega, by omega⟩
        rw [if_neg g3]

/-- The two kinds of fields. -/
def Dims (M : HexaData F) (nz nv : Nat) : Prop := (M.ndim = 3 ∧ 2 ≤ nz ∧ nv = 8) ∨ (M.ndim = 2 ∧ nz = 1 ∧ nv = 4)

theorem vtkCell_ok {M : HexaData F} {sx sy sz nx ny nz nv n k e z y x : Nat} (hd : Dims M nz nv) (hz : z < max (nz - 1) 1)
    (hy : y < ny - 1) (hx : x < nx - 1) (hn : no (nx - 1) (ny - 1) (max (nz - 1) 1) e z y x < n) :
    vtkCell M.ndim nv nx ny (nx * ny * nz) e (stateAt M sx sy sz nx ny nz nv n k (no (nx - 1) (ny - 1) (max (nz - 1) 1) e z y x)) (z, y, x)
      = .ok (stateAt M sx sy sz nx ny nz nv n k (no (nx - 1) (ny - 1) (max (nz - 1) 1) e z y x + 1)) := by
  have hb : (nv + 1) * no (nx - 1) (ny - 1) (max (nz - 1) 1) e z y x + nv < n * (nv + 1) := by
    have := row_lt (i := no (nx - 1) (ny - 1) (max (nz - 1) 1) e z y x) (j := nv) (w := nv + 1) hn (by omega)
    rwa [Nat.mul_comm (nv + 1)]
  suffices h : (List.range (M.ndim - 1)).foldlM (vtkFace nv nx ny (nx * ny * nz) e (z, y, x) (no (nx - 1) (ny - 1) (max (nz - 1) 1) e z y x))
      (cellRows nx ny nz nv n (no (nx - 1) (ny - 1) (max (nz - 1) 1) e z y x))
      = .ok (cellRows nx ny nz nv n (no (nx - 1) (ny - 1) (max (nz - 1) 1) e z y x + 1)) by
    unfold vtkCell
    unfold stateAt
    dsimp only
    rw [h]
    rfl
  rcases hd with ⟨h1, h2, rfl⟩ | ⟨h1, h2, rfl⟩
  · rw [h1]
    change (List.foldlM (m := Py) _ _ [0, 1]) = _
    rw [List.foldlM_cons, vtkFace_ok (by simp only [cellRows]; omega)]
    change (List.foldlM (m := Py) _ _ [1]) = _
    rw [List.foldlM_cons, vtkFace_ok (by simp only [cellRows]; omega)]
    change Except.ok _ = _
    congr 1
    refine cellRows_succ _ hz hy hx ?_ ?_
    · intro r hr
      dsimp only
      generalize no (nx - 1) (ny - 1) (max (nz - 1) 1) e z y x = c
      interval_cases r
      all_goals
        simp [no, corner]
        try ring
    · intro j hj
      dsimp only
      generalize no (nx - 1) (ny - 1) (max (nz - 1) 1) e z y x = c at *
      have := hj 0; have := hj 1; have := hj 2; have := hj 3; have := hj 4; have := hj 5; have := hj 6; have := hj 7
      iterate 8 rw [if_neg (by omega)]
  · rw [h1]
    change (List.foldlM (m := Py) _ _ [0]) = _
    rw [List.foldlM_cons, vtkFace_ok (by simp only [cellRows]; omega)]
    change Except.ok _ = _
    congr 1
    refine cellRows_succ _ hz hy hx ?_ ?_
    · intro r hr
      generalize no (nx - 1) (ny - 1) (max (nz - 1) 1) e z y x = c
      interval_cases r
      all_goals
        simp [no, corner]
        try ring
    · intro j hj
      generalize no (nx - 1) (ny - 1) (max (nz - 1) 1) e z y x = c at *
      have := hj 0; have := hj 1; have := hj 2; have := hj 3
      iterate 4 rw [if_neg (by omega)]

/-- Number of cells after `e` elements. -/
def cellsDone (M : HexaData F) (nx ny nz e : Nat) : Nat :=
  if M.var.pos = 3 then e * (max (nz - 1) 1 * ((ny - 1) * (nx - 1))) else 0

/-- What is needed of the steps and numbers of points. -/
structure Steps (M : HexaData F) (sx sy sz nx ny nz nv n : Nat) : Prop where
  dims : Dims M nz nv
  z : ∀ k < nz, k * sz < M.lr1.z
  y : ∀ k < ny, k * sy < M.lr1.y
  x : ∀ k < nx, k * sx < M.lr1.x
  cells : n = M.nel * (max (nz - 1) 1 * ((ny - 1) * (nx - 1)))
  points : M.nel * (nz * (ny * nx)) ≤ nv * n

theorem vtkElem_ok {M : HexaData F} {sx sy sz nx ny nz nv n e : Nat} (hM : Shapes M) (hs : Steps M sx sy sz nx ny nz nv n) (he : e < M.nel) :
    vtkElem M sx sy sz nx ny nz nv (stateAt M sx sy sz nx ny nz nv n (e * (nz * (ny * nx))) (cellsDone M nx ny nz e)) e
      = .ok (stateAt M sx sy sz nx ny nz nv n ((e + 1) * (nz * (ny * nx))) (cellsDone M nx ny nz (e + 1))) := by
  have hp := foldlM_prod3 (f := vtkPoint M sx sy sz nx ny (nx * ny * nz) e)
    (fun k => stateAt M sx sy sz nx ny nz nv n (e * (nz * (ny * nx)) + k) (cellsDone M nx ny nz e)) nz ny nx
    fun z hz y hy x hx => vtkPoint_ok hM he hz hy hx (hs.z z hz) (hs.y y hy) (hs.x x hx) hs.points
  unfold vtkElem
  dsimp only
  rw [if_neg (by rw [hM.length]; omega)]
  rw [Nat.add_zero] at hp
  rw [hp, Nat.succ_mul]
  change (if M.var.pos = 3 then _ else _) = _
  by_cases h3 : M.var.pos = 3
  · have hc := foldlM_prod3 (f := vtkCell (F := F) M.ndim nv nx ny (nx * ny * nz) e)
      (fun k => stateAt M sx sy sz nx ny nz nv n (e * (nz * (ny * nx)) + nz * (ny * nx))
        (e * (max (nz - 1) 1 * ((ny - 1) * (nx - 1))) + k)) (max (nz - 1) 1) (ny - 1) (nx - 1)
      fun z hz y hy x hx => vtkCell_ok hs.dims hz hy hx (by rw [hs.cells]; exact no_lt he hz hy hx)
    rw [Nat.add_zero] at hc
    unfold cellsDone
    rw [if_pos h3, if_pos h3, if_pos h3, hc, Nat.succ_mul]
  · unfold cellsDone
    rw [if_neg h3, if_neg h3, if_neg h3]
    rfl

/-- The whole loop. -/
theorem loop_ok {M : HexaData F} {sx sy sz nx ny nz nv n : Nat} (hM : Shapes M) (hs : Steps M sx sy sz nx ny nz nv n) :
    (List.range M.nel).foldlM (vtkElem M sx sy sz nx ny nz nv) (stateAt M sx sy sz nx ny nz nv n 0 0)
      = .ok (stateAt M sx sy sz nx ny nz nv n (M.nel * (nz * (ny * nx))) (cellsDone M nx ny nz M.nel)) := by
  have := foldlM_range (f := vtkElem M sx sy sz nx ny nz nv)
    (fun e => stateAt M sx sy sz nx ny nz nv n (e * (nz * (ny * nx))) (cellsDone M nx ny nz e)) M.nel fun e he => vtkElem_ok hM hs he
  have h0 : cellsDone M nx ny nz 0 = 0 := by simp [cellsDone]
  rwa [Nat.zero_mul, h0] at this

theorem zeroRows_eq (on put : Bool) (n m : Nat) (v : Nat → List F) : zeroRows on n m = optRows on put n 0 v m := by
  unfold zeroRows optRows fill
  simp

/-- Points in one direction. -/
def count (down : Bool) (l : Nat) : Nat := if down then min l 2 else l

/-- Distance of the points in one direction. -/
def step (down : Bool) (l : Nat) : Nat := if down then max (l - 1) 1 else 1

theorem rangeLen_step {down : Bool} {l : Nat} (h : 1 ≤ l) : rangeLen l (step down l) = count down l := by
  unfold rangeLen step count
  cases down with
  | false => simp
  | true =>
    simp only [if_true]
    rcases Nat.lt_or_ge l 2 with h1 | h1
    · have : l = 1 := by omega
      subst this
      rfl
    · have : l + max (l - 1) 1 - 1 = 2 * max (l - 1) 1 := by omega
      rw [this, Nat.mul_div_cancel _ (by omega)]
      omega

theorem step_lt {down : Bool} {l k : Nat} (hk : k < count down l) : k * step down l < l := by
  unfold step
  unfold count at hk
  cases down with
  | false => simpa using hk
  | true =>
    simp only [if_true] at hk ⊢
    have : k = 0 ∨ k = 1 := by omega
    rcases this with rfl | rfl <;> omega

theorem two_le_count {down : Bool} {l : Nat} (h : 2 ≤ l) : 2 ≤ count down l := by
  unfold count
  split_ifs <;> omega

/-- A field for which the orders and the shapes are fine: three dimensions and at least two points in each direction, or two dimensions. -/
structure Fits (M : HexaData F) : Prop where
  shapes : Shapes M
  x : 2 ≤ M.lr1.x
  y : 2 ≤ M.lr1.y
  z : (M.ndim = 3 ∧ 2 ≤ M.lr1.z) ∨ (M.ndim = 2 ∧ M.lr1.z = 1)

/-- Number of vertices of a cell. -/
def nverts (M : HexaData F) : Nat := if M.ndim = 3 then 8 else 4

/-- Number of cells. -/
def ncell (M : HexaData F) (nx ny nz : Nat) : Nat := M.nel * (max (nz - 1) 1 * ((ny - 1) * (nx - 1)))

theorem half_le {n : Nat} (h : 2 ≤ n) : n ≤ 2 * (n - 1) := by omega

theorem steps_of_fits {M : HexaData F} (h : Fits M) (down : Bool) :
    Steps M (step down M.lr1.x) (step down M.lr1.y) (step down M.lr1.z) (count down M.lr1.x) (count down M.lr1.y) (count down M.lr1.z)
      (nverts M) (ncell M (count down M.lr1.x) (count down M.lr1.y) (count down M.lr1.z)) := by
  have hx := two_le_count (down := down) h.x
  have hy := two_le_count (down := down) h.y
  generalize hnx : count down M.lr1.x = nx at *
  generalize hny : count down M.lr1.y = ny at *
  generalize hnz : count down M.lr1.z = nz at *
  refine ⟨?_, fun k hk => step_lt (by omega), fun k hk => step_lt (by omega), fun k hk => step_lt (by omega), rfl, ?_⟩
  · rcases h.z with ⟨h1, h2⟩ | ⟨h1, h2⟩
    · exact .inl ⟨h1, by rw [← hnz]; exact two_le_count h2, by simp [nverts, h1]⟩
    · refine .inr ⟨h1, ?_, by simp [nverts, h1]⟩
      rw [← hnz, h2]
      cases down <;> rfl
  · have hxy : ny * nx ≤ 4 * ((ny - 1) * (nx - 1)) := by
      calc ny * nx ≤ (2 * (ny - 1)) * (2 * (nx - 1)) := Nat.mul_le_mul (half_le hy) (half_le hx)
        _ = 4 * ((ny - 1) * (nx - 1)) := by ring
    unfold ncell nverts
    rcases h.z with ⟨h1, h2⟩ | ⟨h1, h2⟩
    · have hz : 2 ≤ nz := by
        rw [← hnz]
        exact two_le_count h2
      rw [if_pos h1]
      calc M.nel * (nz * (ny * nx)) ≤ M.nel * ((2 * max (nz - 1) 1) * (4 * ((ny - 1) * (nx - 1)))) :=
            Nat.mul_le_mul_left _ (Nat.mul_le_mul (by omega) hxy)
        _ = 8 * (M.nel * (max (nz - 1) 1 * ((ny - 1) * (nx - 1)))) := by ring
    · have hz : nz = 1 := by
        rw [← hnz, h2]
        cases down <;> rfl
      rw [if_neg (by omega), hz]
      calc M.nel * (1 * (ny * nx)) ≤ M.nel * (1 * (4 * ((ny - 1) * (nx - 1)))) :=
            Nat.mul_le_mul_left _ (Nat.mul_le_mul_left _ hxy)
        _ = 4 * (M.nel * (max (1 - 1) 1 * ((ny - 1) * (nx - 1)))) := by simp; ring

/-- The result for all fields which fit. -/
theorem hexa2vtk_gen {M : HexaData F} (h : Fits M) (down : Bool) (nx ny nz : Nat) (hnx : count down M.lr1.x = nx)
    (hny : count down M.lr1.y = ny) (hnz : count down M.lr1.z = nz) :
    hexa2vtk M down = match (stateAt M (step down M.lr1.x) (step down M.lr1.y) (step down M.lr1.z) nx ny nz (nverts M) (ncell M nx ny nz)
      (M.nel * (nz * (ny * nx))) (cellsDone M nx ny nz M.nel)).pts with
    | none => .error .unboundLocal
    | some r => .ok {
      ncells := ncell M nx ny nz
      cellType := if M.ndim = 3 then 12 else 9
      offsets := (List.range (ncell M nx ny nz)).map (· * nverts M)
      cells := cellRows nx ny nz (nverts M) (ncell M nx ny nz) (cellsDone M nx ny nz M.nel)
      points := r
      data := vtkData M.var (stateAt M (step down M.lr1.x) (step down M.lr1.y) (step down M.lr1.z) nx ny nz (nverts M)
        (ncell M nx ny nz) (M.nel * (nz * (ny * nx))) (cellsDone M nx ny nz M.nel)) } := by
  have hl := loop_ok h.shapes (steps_of_fits h down)
  have hx1 := h.x
  have hy1 := h.y
  have hz1 : 1 ≤ M.lr1.z := by rcases h.z with h | h <;> omega
  have ex : vtkStep down M.lr1.x = step down M.lr1.x := by
    unfold vtkStep step
    cases down <;> simp; omega
  have ey : vtkStep down M.lr1.y = step down M.lr1.y := by
    unfold vtkStep step
    cases down <;> simp; omega
  have ez : (if down then max (M.lr1.z - 1) 1 else 1) = step down M.lr1.z := rfl
  have sx : step down M.lr1.x ≠ 0 := by
    unfold step
    split_ifs <;> omega
  have sy : step down M.lr1.y ≠ 0 := by
    unfold step
    split_ifs <;> omega
  unfold hexa2vtk
  dsimp only
  rw [ex, ey, ez, if_neg (by tauto), rangeLen_step (by omega), rangeLen_step (by omega), rangeLen_step hz1]
  rw [hnx, hny, hnz] at *
  have hc : M.nel * ((nx - 1) * (ny - 1) * max (nz - 1) 1) = ncell M nx ny nz := by
    unfold ncell
    ring
  rw [hc]
  have hnv : (if M.ndim = 3 then 8 else 4) = nverts M := rfl
  rw [hnv]
  have hst : (⟨zeroRows (M.var.pos != 0) (nverts M * ncell M nx ny nz) 3, zeroRows (M.var.vel != 0) (nverts M * ncell M nx ny nz) 3,
      zeroRows (M.var.pres == 1) (nverts M * ncell M nx ny nz) 1, zeroRows (M.var.temp == 1) (nverts M * ncell M nx ny nz) 1,
      zeroRows (M.var.scal != 0) (nverts M * ncell M nx ny nz) M.var.scal,
      ⟨ncell M nx ny nz * (nverts M + 1), fun i => if i % (nverts M + 1) = 0 then nverts M else 0⟩, 0⟩ : VtkState F)
      = stateAt M (step down M.lr1.x) (step down M.lr1.y) (step down M.lr1.z) nx ny nz (nverts M) (ncell M nx ny nz) 0 0 := by
    unfold stateAt
    congr 1
    · exact zeroRows_eq ..
    · exact zeroRows_eq ..
    · exact zeroRows_eq ..
    · exact zeroRows_eq ..
    · exact zeroRows_eq ..
  rw [hst, hl]
  rfl

/-- The result for all fields which fit and have coordinates. -/
theorem hexa2vtk_eq {M : HexaData F} (h : Fits M) (h0 : M.var.pos ≠ 0) (down : Bool) (nx ny nz : Nat) (hnx : count down M.lr1.x = nx)
    (hny : count down M.lr1.y = ny) (hnz : count down M.lr1.z = nz) :
    hexa2vtk M down = .ok {
      ncells := ncell M nx ny nz
      cellType := if M.ndim = 3 then 12 else 9
      offsets := (List.range (ncell M nx ny nz)).map (· * nverts M)
      cells := cellRows nx ny nz (nverts M) (ncell M nx ny nz) (cellsDone M nx ny nz M.nel)
      points := fill (nverts M * ncell M nx ny nz) (if M.var.pos == 3 then M.nel * (nz * (ny * nx)) else 0)
        (value M (step down M.lr1.x) (step down M.lr1.y) (step down M.lr1.z) nx ny nz Elem.pos 3) (List.replicate 3 0)
      data := vtkData M.var (stateAt M (step down M.lr1.x) (step down M.lr1.y) (step down M.lr1.z) nx ny nz (nverts M)
        (ncell M nx ny nz) (M.nel * (nz * (ny * nx))) (cellsDone M nx ny nz M.nel)) } := by
  rw [hexa2vtk_gen h down nx ny nz hnx hny hnz]
  have hp : (M.var.pos != 0) = true := by simpa using h0
  have hpts : (stateAt M (step down M.lr1.x) (step down M.lr1.y) (step down M.lr1.z) nx ny nz (nverts M) (ncell M nx ny nz)
      (M.nel * (nz * (ny * nx))) (cellsDone M nx ny nz M.nel)).pts
    = some (fill (nverts M * ncell M nx ny nz) (if M.var.pos == 3 then M.nel * (nz * (ny * nx)) else 0)
        (value M (step down M.lr1.x) (step down M.lr1.y) (step down M.lr1.z) nx ny nz Elem.pos 3) (List.replicate 3 0)) := by
    simp only [stateAt, optRows, hp, if_true]
  rw [hpts]

end Pymech.Vtk
