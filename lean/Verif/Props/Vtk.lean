import Verif.Spec.Vtk
import Verif.Lemmas.Vtk
import Verif.Samples

/-! # C81–C83, C88: `hexa2vtk` -/

set_option autoImplicit false

namespace Pymech

open Vtk

section
variable {F : Type} [Zero F]

theorem gridIndex_length {down : Bool} {l : Nat} (h : 1 ≤ l) : (Spec.gridIndex down l).length = count down l := by
  unfold Spec.gridIndex count
  cases down with
  | false => simp
  | true =>
    simp only [if_true]
    split_ifs with h1
    · subst h1
      rfl
    · simp
      omega

theorem gridIndex_getD {down : Bool} {l k : Nat} (hk : k < count down l) : (Spec.gridIndex down l).getD k 0 = k * step down l := by
  unfold Spec.gridIndex step
  unfold count at hk
  cases down with
  | false =>
    simp only [Bool.false_eq_true, if_false] at hk ⊢
    simp [hk]
  | true =>
    simp only [if_true] at hk ⊢
    have : k = 0 ∨ k = 1 := by omega
    rcases this with rfl | rfl
    · split_ifs <;> simp
    · rw [if_neg (by omega)]
      simp
      omega

theorem fits_of_field {M : HexaData F} (h : Spec.VtkField M) : Fits M := by
  refine ⟨⟨h.length, ?_, ?_, ?_, ?_, ?_⟩, h.x, h.y, h.z⟩
  · exact fun _ e he => h.pos _ (M.el_mem e (by rw [h.length]; exact he))
  · exact fun _ e he => h.vel _ (M.el_mem e (by rw [h.length]; exact he))
  · exact fun h1 e he => by
      have := h.pres _ (M.el_mem e (by rw [h.length]; exact he))
      rw [h1] at this
      exact this
  · exact fun h1 e he => by
      have := h.temp _ (M.el_mem e (by rw [h.length]; exact he))
      rw [h1] at this
      exact this
  · exact fun e he => h.scal _ (M.el_mem e (by rw [h.length]; exact he))

omit [Zero F] in
theorem z_pos {M : HexaData F} (h : Spec.VtkField M) : 1 ≤ M.lr1.z := by rcases h.z with h | h <;> omega

/-- The array of a field which is written. -/
theorem holds_fill {M : HexaData F} (h : Spec.VtkField M) (down : Bool) (a : Elem F → Arr F) (m : Nat) (d : List F) (f : List F → List F)
    (g : Elem F → Nat → Nat → Nat → List F)
    (hg : ∀ el z y x, g el z y x = f ((List.range m).map fun d => (a el).dat d z y x)) (A : Rows (List F))
    (hA : A = ⟨nverts M * ncell M (count down M.lr1.x) (count down M.lr1.y) (count down M.lr1.z), fun i =>
      f ((fill (nverts M * ncell M (count down M.lr1.x) (count down M.lr1.y) (count down M.lr1.z))
        (M.nel * (count down M.lr1.z * (count down M.lr1.y * count down M.lr1.x)))
        (value M (step down M.lr1.x) (step down M.lr1.y) (step down M.lr1.z) (count down M.lr1.x) (count down M.lr1.y) (count down M.lr1.z) a m)
        d).row i)⟩) :
    Spec.RowsHold M down (no (count down M.lr1.x) (count down M.lr1.y) (count down M.lr1.z)) g A := by
  subst hA
  have hx1 := h.x
  have hy1 := h.y
  have hz1 := z_pos h
  intro e he z hz y hy x hx
  unfold Spec.nz at hz
  unfold Spec.ny at hy
  unfold Spec.nx at hx
  rw [gridIndex_length (by omega)] at hz hy hx
  have hlt := no_lt he hz hy hx
  have hs := (steps_of_fits (fits_of_field h) down).points
  constructor
  · exact lt_of_lt_of_le hlt hs
  · unfold fill
    dsimp only
    rw [if_pos hlt]
    unfold value Spec.at_
    rw [entry_no hz hy hx, gridIndex_getD hz, gridIndex_getD hy, gridIndex_getD hx, hg]

theorem scal_names (var : Var) (s : VtkState F) (A : Rows (List F)) (hs : s.scal = some A) (i : Nat) (hi : i < var.scal) :
    ("scal_".toList ++ (Nat.repr (i + 1)).toList, A.col i) ∈ vtkData var s := by
  unfold vtkData
  rw [hs]
  simp only [List.mem_append, List.mem_map, List.mem_range]
  exact .inr ⟨i, hi, rfl⟩

/-- **C81, C82 and the part of C83 that holds**: for fields of order at least 2 in three dimensions, and in two dimensions, whose
coordinates are counted as three (`var[0] = 3`), `hexa2vtk` succeeds; each grid point shown has its own row, within bounds, in the array of
points and in the arrays of data, which hold the coordinates and data of that point; and the cells are the sub-cells of the elements, each once,
given by the numbers of their corners in the order of VTK. -/
theorem vtk_spec {M : HexaData F} (h : Spec.VtkField M) (h3 : M.var.pos = 3) (down : Bool) : ∃ V no, hexa2vtk M down = .ok V ∧
    Spec.Numbering M down no ∧ Spec.RowsHold M down no Spec.coords V.points ∧
    (M.var.vel = 3 → ∃ A, ("vel".toList, A) ∈ V.data ∧ A.n = V.points.n ∧ Spec.RowsHold M down no Spec.velocity A) ∧
    (M.var.pres = 1 → ∃ A, ("pres".toList, A) ∈ V.data ∧ A.n = V.points.n ∧ Spec.RowsHold M down no Spec.pressure A) ∧
    (M.var.temp = 1 → ∃ A, ("temp".toList, A) ∈ V.data ∧ A.n = V.points.n ∧ Spec.RowsHold M down no Spec.temperature A) ∧
    (∀ i < M.var.scal, ∃ A, ("scal_".toList ++ (Nat.repr (i + 1)).toList, A) ∈ V.data ∧ A.n = V.points.n ∧
      Spec.RowsHold M down no (Spec.scalar i) A) ∧
    V.cellType = (if M.ndim = 3 then 12 else 9) ∧ Spec.Cells M down (if M.ndim = 3 then 8 else 4) no V := by
  have hf := fits_of_field h
  have hx1 := h.x
  have hy1 := h.y
  have hz1 := z_pos h
  refine ⟨_, no (count down M.lr1.x) (count down M.lr1.y) (count down M.lr1.z), hexa2vtk_eq hf (by omega) down _ _ _ rfl rfl rfl, ?_, ?_, ?_, ?_, ?_,
    ?_, rfl, ?_⟩
  · intro e _ z hz y hy x hx e' _ z' hz' y' hy' x' hx'
    unfold Spec.nz at hz hz'
    unfold Spec.ny at hy hy'
    unfold Spec.nx at hx hx'
    rw [gridIndex_length (by omega)] at hz hy hx hz' hy' hx'
    exact no_inj hz hy hx hz' hy' hx'
  · refine holds_fill h down Elem.pos 3 (List.replicate 3 0) id _ (fun _ _ _ _ => rfl) _ ?_
    simp only [h3, beq_self_eq_true, if_true]
    rfl
  · intro hv
    refine ⟨_, ?_, ?_, holds_fill h down Elem.vel 3 (List.replicate 3 0) id _ (fun _ _ _ _ => rfl) _ rfl⟩
    · simp only [vtkData, stateAt, optRows, hv, beq_self_eq_true, if_true, List.mem_append]
      exact .inl (.inl (.inl (List.mem_singleton.2 rfl)))
    · rfl
  · intro hv
    refine ⟨_, ?_, ?_, holds_fill h down Elem.pres 1 (List.replicate 1 0) id _ (fun _ _ _ _ => rfl) _ rfl⟩
    · simp only [vtkData, stateAt, optRows, hv, beq_self_eq_true, if_true, List.mem_append]
      exact .inl (.inl (.inr (List.mem_singleton.2 rfl)))
    · rfl
  · intro hv
    refine ⟨_, ?_, ?_, holds_fill h down Elem.temp 1 (List.replicate 1 0) id _ (fun _ _ _ _ => rfl) _ rfl⟩
    · simp only [vtkData, stateAt, optRows, hv, beq_self_eq_true, if_true, List.mem_append]
      exact .inl (.inr (List.mem_singleton.2 rfl))
    · rfl
  · intro i hi
    have h1 : (M.var.scal != 0) = true := by
      simp
      omega
    refine ⟨_, scal_names M.var _ _ (by simp only [stateAt, optRows, h1, if_true]; rfl) i hi, rfl,
      holds_fill h down Elem.scal M.var.scal (List.replicate M.var.scal 0) (fun l => [l.getD i 0]) _ (fun el z y x => ?_) _ rfl⟩
    simp [Spec.scalar, hi]
  · have hcd : cellsDone M (count down M.lr1.x) (count down M.lr1.y) (count down M.lr1.z) M.nel
        = ncell M (count down M.lr1.x) (count down M.lr1.y) (count down M.lr1.z) := by
      unfold cellsDone ncell
      rw [if_pos h3]
    refine ⟨?_, fun e z y x => no (count down M.lr1.x - 1) (count down M.lr1.y - 1) (max (count down M.lr1.z - 1) 1) e z y x, ?_, ?_, ?_⟩
    · simp only [cellRows, nverts]
      exact Nat.mul_comm ..
    · rintro e z y x ⟨he, hz, hy, hx⟩
      unfold Spec.nz at hz
      unfold Spec.ny at hy
      unfold Spec.nx at hx
      rw [gridIndex_length (by omega)] at hz hy hx
      have hlt := no_lt he hz (show y < count down M.lr1.y - 1 by omega) (show x < count down M.lr1.x - 1 by omega)
      refine ⟨hlt, ?_, ?_⟩
      · simp only [cellRows, hcd]
        have : (nverts M + 1) * no (count down M.lr1.x - 1) (count down M.lr1.y - 1) (max (count down M.lr1.z - 1) 1) e z y x
          < (nverts M + 1) * ncell M (count down M.lr1.x) (count down M.lr1.y) (count down M.lr1.z) := Nat.mul_lt_mul_of_pos_left hlt (by omega)
        refine (if_pos this).trans cellValue_zero
      · intro q hq dx dy dz hc
        have hq' : q < nverts M := hq
        simp only [cellRows, hcd]
        have : (nverts M + 1) * no (count down M.lr1.x - 1) (count down M.lr1.y - 1) (max (count down M.lr1.z - 1) 1) e z y x + 1 + q
            < (nverts M + 1) * ncell M (count down M.lr1.x) (count down M.lr1.y) (count down M.lr1.z) := by
          have := Nat.mul_le_mul_left (nverts M + 1) (Nat.succ_le_of_lt hlt)
          rw [Nat.mul_succ] at this
          unfold ncell
          omega
        refine (if_pos this).trans ?_
        have h1 := cellValue_eq (nv := nverts M) (e := e) hz (show y < count down M.lr1.y - 1 by omega)
          (show x < count down M.lr1.x - 1 by omega) hq'
        rw [Nat.add_assoc, Nat.add_comm 1 q]
        refine h1.trans ?_
        have hq8 : q < 8 := by
          unfold nverts at hq'
          split_ifs at hq' <;> omega
        clear * - hc hq8
        interval_cases q <;> simp [Spec.vtkCorners] at hc <;> obtain ⟨rfl, rfl, rfl⟩ := hc <;> rfl
    · rintro e z y x e' z' y' x' ⟨_, hz, hy, hx⟩ ⟨_, hz', hy', hx'⟩ heq
      unfold Spec.nz at hz hz'
      unfold Spec.ny at hy hy'
      unfold Spec.nx at hx hx'
      rw [gridIndex_length (by omega)] at hz hy hx hz' hy' hx'
      exact no_inj hz (by omega) (by omega) hz' (by omega) (by omega) heq
    · intro c hc
      obtain ⟨e, he, z, hz, y, hy, x, hx, hcc⟩ := no_surj hc
      refine ⟨e, z, y, x, ⟨he, ?_, ?_, ?_⟩, hcc⟩
      · unfold Spec.nz
        rwa [gridIndex_length (by omega)]
      · unfold Spec.ny
        rw [gridIndex_length (by omega)]
        omega
      · unfold Spec.nx
        rw [gridIndex_length (by omega)]
        omega

/-- **C81**: in three dimensions each grid point shown has its own row, within bounds, in the array of points and in the arrays of data, and
these rows hold the coordinates and data of the point. -/
theorem C81 {M : HexaData F} (h : Spec.VtkField M) (_hd : M.ndim = 3) (h3 : M.var.pos = 3) (down : Bool) : ∃ V no, hexa2vtk M down = .ok V ∧
    Spec.Numbering M down no ∧ Spec.RowsHold M down no Spec.coords V.points ∧
    (M.var.vel = 3 → ∃ A, ("vel".toList, A) ∈ V.data ∧ A.n = V.points.n ∧ Spec.RowsHold M down no Spec.velocity A) ∧
    (M.var.pres = 1 → ∃ A, ("pres".toList, A) ∈ V.data ∧ A.n = V.points.n ∧ Spec.RowsHold M down no Spec.pressure A) ∧
    (M.var.temp = 1 → ∃ A, ("temp".toList, A) ∈ V.data ∧ A.n = V.points.n ∧ Spec.RowsHold M down no Spec.temperature A) ∧
    (∀ i < M.var.scal, ∃ A, ("scal_".toList ++ (Nat.repr (i + 1)).toList, A) ∈ V.data ∧ A.n = V.points.n ∧
      Spec.RowsHold M down no (Spec.scalar i) A) := by
  obtain ⟨V, no, h1, h2, h3, h4, h5, h6, h7, -, -⟩ := vtk_spec h h3 down
  exact ⟨V, no, h1, h2, h3, h4, h5, h6, h7⟩

/-- **C82**: in three dimensions the cells are hexahedra, the sub-cells of the elements, each once, given by their eight corners in the
order of VTK. -/
theorem C82 {M : HexaData F} (h : Spec.VtkField M) (hd : M.ndim = 3) (h3 : M.var.pos = 3) (down : Bool) : ∃ V no, hexa2vtk M down = .ok V ∧
    Spec.Numbering M down no ∧ Spec.RowsHold M down no Spec.coords V.points ∧ V.cellType = 12 ∧ Spec.Cells M down 8 no V := by
  obtain ⟨V, no, h1, h2, h3, -, -, -, -, h8, h9⟩ := vtk_spec h h3 down
  rw [if_pos hd] at h8 h9
  exact ⟨V, no, h1, h2, h3, h8, h9⟩

/-- The part of **C83** that holds: the same in two dimensions if `var[0]` is 3, which is not so for fields read from files, where it is the
number of dimensions. -/
theorem C83_partial {M : HexaData F} (h : Spec.VtkField M) (hd : M.ndim = 2) (h3 : M.var.pos = 3) (down : Bool) :
    ∃ V no, hexa2vtk M down = .ok V ∧
    Spec.Numbering M down no ∧ Spec.RowsHold M down no Spec.coords V.points ∧ V.cellType = 9 ∧ Spec.Cells M down 4 no V := by
  obtain ⟨V, no, h1, h2, h3, -, -, -, -, h8, h9⟩ := vtk_spec h h3 down
  rw [if_neg (by omega)] at h8 h9
  exact ⟨V, no, h1, h2, h3, h8, h9⟩

/-- For `var[0] = 2`, as in two-dimensional fields read from files, all points are at the origin and all corners of all cells are point 0. -/
theorem C83_zero {M : HexaData F} (h : Spec.VtkField M) (h2 : M.var.pos = 2) (down : Bool) : ∃ V, hexa2vtk M down = .ok V ∧
    (∀ i, V.points.row i = [0, 0, 0]) ∧
    ∀ c < V.ncells, ∀ q < (if M.ndim = 3 then 8 else 4), V.cells.row (((if M.ndim = 3 then 8 else 4) + 1) * c + 1 + q) = 0 := by
  refine ⟨_, hexa2vtk_eq (fits_of_field h) (by omega) down _ _ _ rfl rfl rfl, ?_, ?_⟩
  · intro i
    simp [h2, fill]
  · intro c _ q hq
    have hq' : q < nverts M := hq
    have h1 : ((nverts M + 1) * c + 1 + q) % (nverts M + 1) ≠ 0 := by
      have := (div_mod_of_lt (a := c) (b := 1 + q) (w := nverts M + 1) (by omega)).2
      rw [Nat.mul_comm, Nat.add_assoc, this]
      omega
    have h4 : cellsDone M (count down M.lr1.x) (count down M.lr1.y) (count down M.lr1.z) M.nel = 0 := by simp [cellsDone, h2]
    simp only [cellRows, h4, Nat.mul_zero, Nat.not_lt_zero, if_false]
    exact if_neg h1

/-- A field without coordinates (`var[0] = 0`): the points are not defined. -/
theorem vtk_no_points {M : HexaData F} (h : Spec.VtkField M) (h0 : M.var.pos = 0) (down : Bool) : hexa2vtk M down = .error .unboundLocal := by
  rw [hexa2vtk_gen (fits_of_field h) down _ _ _ rfl rfl rfl]
  simp [stateAt, optRows, h0]

/-- What holds of **C88**: the arrays have a row for each corner of each cell, the rows beyond the grid points are zero, and there are no such
rows exactly if two points are shown in each direction. -/
theorem C88_partial {M : HexaData F} (h : Spec.VtkField M) (h0 : 0 < M.nel) (h3 : M.var.pos = 3) (down : Bool) :
    ∃ V, hexa2vtk M down = .ok V ∧ V.points.n = (if M.ndim = 3 then 8 else 4) * V.ncells ∧
      (∀ i, M.nel * (Spec.nz M down * (Spec.ny M down * Spec.nx M down)) ≤ i → V.points.row i = [0, 0, 0]) ∧
      M.nel * (Spec.nz M down * (Spec.ny M down * Spec.nx M down)) ≤ V.points.n ∧
      (M.nel * (Spec.nz M down * (Spec.ny M down * Spec.nx M down)) = V.points.n ↔
        Spec.nx M down = 2 ∧ Spec.ny M down = 2 ∧ Spec.nz M down ≤ 2) := by
  have hx1 := h.x
  have hy1 := h.y
  have hz1 := z_pos h
  have e1 : Spec.nx M down = count down M.lr1.x := gridIndex_length (by omega)
  have e2 : Spec.ny M down = count down M.lr1.y := gridIndex_length (by omega)
  have e3 : Spec.nz M down = count down M.lr1.z := gridIndex_length (by omega)
  have hx := two_le_count (down := down) h.x
  have hy := two_le_count (down := down) h.y
  rw [e1, e2, e3]
  refine ⟨_, hexa2vtk_eq (fits_of_field h) (by omega) down _ _ _ rfl rfl rfl, rfl, ?_, (steps_of_fits (fits_of_field h) down).points, ?_⟩
  · intro i hi
    simp only [h3, fill, beq_self_eq_true, if_true]
    rw [if_neg (by omega)]
    rfl
  · change _ = nverts M * ncell M _ _ _ ↔ _
    generalize count down M.lr1.x = nx at *
    generalize count down M.lr1.y = ny at *
    have key : ∀ {k m : Nat}, 0 < k → k ≤ m →
        (k * (ny * nx) = m * (2 * (ny - 1) * (2 * (nx - 1))) ↔ k = m ∧ ny = 2 ∧ nx = 2) := by
      intro k m hk hkm
      have hyx : 0 < ny * nx := Nat.mul_pos (by omega) (by omega)
      have hle : ny * nx ≤ 2 * (ny - 1) * (2 * (nx - 1)) := Nat.mul_le_mul (by omega) (by omega)
      rw [mul_eq_mul_iff_eq_and_eq_of_pos hkm hle hk (by omega),
        mul_eq_mul_iff_eq_and_eq_of_pos (by omega) (by omega) (by omega) (by omega)]
      omega
    have cancel : ∀ {a b : Nat}, M.nel * a = M.nel * b ↔ a = b := fun {a b} => Nat.mul_right_inj (by omega)
    unfold nverts ncell
    rcases h.z with ⟨g1, g2⟩ | ⟨g1, g2⟩
    · have hz := two_le_count (down := down) g2
      generalize count down M.lr1.z = nz at *
      rw [if_pos g1, show 8 * (M.nel * (max (nz - 1) 1 * ((ny - 1) * (nx - 1))))
        = M.nel * (2 * max (nz - 1) 1 * (2 * (ny - 1) * (2 * (nx - 1)))) by ring, cancel, key (by omega) (by omega)]
      omega
    · have hz : count down M.lr1.z = 1 := by
        rw [g2]
        cases down <;> rfl
      rw [hz, if_neg (by omega), show 4 * (M.nel * (max (1 - 1) 1 * ((ny - 1) * (nx - 1))))
        = M.nel * (1 * (2 * (ny - 1) * (2 * (nx - 1)))) by simp; ring, cancel, key (by omega) (by omega)]
      omega

end

/-- `n` elements with `lx` × `ly` × `lz` points at the integers from 1 on, shifted in `x`; pressure and one scalar are their coordinates. -/
def Samples.bricks (ndim n pos lx ly lz : Nat) : HexaData ℚ where
  ndim := ndim
  nel := n
  ncurv := 0
  nbc := 0
  var := ⟨pos, 0, 1, 0, 1⟩
  lr1 := ⟨lx, ly, lz, true⟩
  time := 0
  istep := 0
  wdsz := 8
  endian := some .little
  elem := (List.range n).map fun e => {
    (Elem.new 1 0 1 lx ly lz 0 : Elem ℚ) with
    pos := ⟨3, lz, ly, lx, fun d z y x => if d = 0 then (e * lx + x + 1 : Nat) else if d = 1 then (y + 1 : Nat) else (z + 1 : Nat)⟩
    pres := ⟨1, lz, ly, lx, fun _ _ _ x => (x : ℚ)⟩
    scal := ⟨1, lz, ly, lx, fun _ _ y _ => (y : ℚ)⟩ }
  elmap := (List.range n).map fun i : Nat => ((i : Int) + 1)

theorem Samples.bricks_field {ndim n pos lx ly lz : Nat} (hx : 2 ≤ lx) (hy : 2 ≤ ly) (hz : (ndim = 3 ∧ 2 ≤ lz) ∨ (ndim = 2 ∧ lz = 1)) :
    Spec.VtkField (Samples.bricks ndim n pos lx ly lz) := by
  have h : ∀ el ∈ (Samples.bricks ndim n pos lx ly lz).elem, ∃ e, el = {
    (Elem.new 1 0 1 lx ly lz 0 : Elem ℚ) with
    pos := ⟨3, lz, ly, lx, fun d z y x => if d = 0 then (e * lx + x + 1 : Nat) else if d = 1 then (y + 1 : Nat) else (z + 1 : Nat)⟩
    pres := ⟨1, lz, ly, lx, fun _ _ _ x => (x : ℚ)⟩
    scal := ⟨1, lz, ly, lx, fun _ _ y _ => (y : ℚ)⟩ } := by
    intro el hel
    obtain ⟨e, -, rfl⟩ := List.mem_map.1 hel
    exact ⟨e, rfl⟩
  refine ⟨?_, ?_, ?_, ?_, ?_, ?_, hx, hy, hz⟩
  · simp [Samples.bricks]
  all_goals
    intro el hel
    obtain ⟨e, rfl⟩ := h el hel
    exact ⟨rfl, rfl, rfl, rfl⟩

/-- The hypotheses of `C81` and `C82` hold for two elements with 3 × 4 × 5 points, with and without `downsample`. -/
example (down : Bool) : ∃ V no, hexa2vtk (Samples.bricks 3 2 3 3 4 5) down = .ok V ∧ Spec.Numbering (Samples.bricks 3 2 3 3 4 5) down no ∧
    Spec.RowsHold (Samples.bricks 3 2 3 3 4 5) down no Spec.coords V.points ∧ V.cellType = 12 ∧
    Spec.Cells (Samples.bricks 3 2 3 3 4 5) down 8 no V :=
  C82 (Samples.bricks_field (by omega) (by omega) (by omega)) rfl rfl down

example : ∃ V no A, hexa2vtk (Samples.bricks 3 2 3 3 4 5) false = .ok V ∧ ("scal_1".toList, A) ∈ V.data ∧
    Spec.RowsHold (Samples.bricks 3 2 3 3 4 5) false no (Spec.scalar 0) A := by
  obtain ⟨V, no, h1, -, -, -, -, -, h7⟩ := C81 (Samples.bricks_field (ndim := 3) (n := 2) (pos := 3) (lx := 3) (ly := 4) (lz := 5)
    (by omega) (by omega) (by omega)) rfl rfl false
  obtain ⟨A, g1, -, g3⟩ := h7 0 (by decide)
  exact ⟨V, no, A, h1, g1, g3⟩

/-- The hypotheses of `C83_partial` and `C83_zero` hold. -/
example : ∃ V no, hexa2vtk (Samples.bricks 2 2 3 3 3 1) false = .ok V ∧ Spec.Numbering (Samples.bricks 2 2 3 3 3 1) false no ∧
    Spec.RowsHold (Samples.bricks 2 2 3 3 3 1) false no Spec.coords V.points ∧ V.cellType = 9 ∧
    Spec.Cells (Samples.bricks 2 2 3 3 3 1) false 4 no V :=
  C83_partial (Samples.bricks_field (by omega) (by omega) (by omega)) rfl rfl false

example : ∃ V, hexa2vtk (Samples.bricks 2 2 2 3 3 1) false = .ok V ∧ ∀ i, V.points.row i = [0, 0, 0] := by
  obtain ⟨V, h1, h2, -⟩ := C83_zero (Samples.bricks_field (ndim := 2) (n := 2) (pos := 2) (lx := 3) (ly := 3) (lz := 1)
    (by omega) (by omega) (by omega)) rfl false
  exact ⟨V, h1, h2⟩

/-- **C83** does not hold: two-dimensional fields with `var[0] = 2`, as read from files, lose their coordinates. -/
theorem C83_false : ¬ ∀ (M : HexaData ℚ), Spec.VtkField M → M.ndim = 2 → M.var.pos = 2 →
    ∃ V no, hexa2vtk M false = .ok V ∧ Spec.RowsHold M false no Spec.coords V.points := by
  intro H
  have hM := Samples.bricks_field (ndim := 2) (n := 1) (pos := 2) (lx := 2) (ly := 2) (lz := 1) (by omega) (by omega) (by omega)
  obtain ⟨V, no, h1, h2⟩ := H _ hM rfl rfl
  obtain ⟨V', h3, h4, -⟩ := C83_zero hM rfl false
  rw [h1] at h3
  obtain rfl := Except.ok.inj h3
  have := (h2 0 (by decide) 0 (by decide) 0 (by decide) 0 (by decide)).2
  rw [h4] at this
  revert this
  decide +kernel

/-- **C88** does not hold: with three points in each direction the dataset has points which belong to no element, at the origin. -/
theorem C88_false : ¬ ∀ (M : HexaData ℚ), Spec.VtkField M → M.ndim = 3 → M.var.pos = 3 → ∀ V, hexa2vtk M false = .ok V →
    ∀ i < V.points.n, ∃ e < M.nel, ∃ z < M.lr1.z, ∃ y < M.lr1.y, ∃ x < M.lr1.x, V.points.row i = Spec.coords (M.el e) z y x := by
  intro H
  have hM := Samples.bricks_field (ndim := 3) (n := 1) (pos := 3) (lx := 3) (ly := 3) (lz := 3) (by omega) (by omega) (by omega)
  obtain ⟨V, h1, h2, h3, -⟩ := C88_partial hM (by decide) rfl false
  have hn : V.ncells = 8 := by
    rw [hexa2vtk_eq (fits_of_field hM) (by decide) false 3 3 3 rfl rfl rfl] at h1
    obtain rfl := Except.ok.inj h1
    rfl
  have hd : (Samples.bricks 3 1 3 3 3 3).ndim = 3 := rfl
  obtain ⟨e, he, z, hz, y, hy, x, hx, h4⟩ := H _ hM rfl rfl V h1 30 (by rw [h2, hn, if_pos hd]; omega)
  rw [h3 30 (by decide)] at h4
  have he0 : e = 0 := by
    have : e < 1 := he
    omega
  subst he0
  have : (0 : ℚ) = ((y + 1 : Nat) : ℚ) := (List.cons.inj (List.cons.inj h4).2).1
  have : (0 : ℕ) = y + 1 := by exact_mod_cast this
  omega

/-- The hypotheses of `C88_partial` and `vtk_no_points` hold, and with `downsample` no rows are left over. -/
example : ∃ V, hexa2vtk (Samples.bricks 3 2 3 3 4 5) true = .ok V ∧ V.points.n = 16 := by
  obtain ⟨V, h1, -, -, -, h5⟩ := C88_partial (Samples.bricks_field (ndim := 3) (n := 2) (pos := 3) (lx := 3) (ly := 4) (lz := 5)
    (by omega) (by omega) (by omega)) (by decide) rfl true
  exact ⟨V, h1, (h5.2 (by decide)).symm⟩

example : hexa2vtk (Samples.bricks 3 2 0 3 4 5) false = .error .unboundLocal :=
  vtk_no_points (Samples.bricks_field (by omega) (by omega) (by omega)) rfl false

/-- One point in the direction of `x` (order 1): the arrays have no rows and the first assignment fails. -/
example : (hexa2vtk (Samples.bricks 3 1 3 1 1 1) false).toOption.isNone = true := by decide +kernel

end Pymech
