import Verif.Props.Merge
import Verif.Mesh.Box

/-!
# C60–C62 `gen_box`
-/

set_option linter.unusedSectionVars false

namespace Pymech

open Spec

variable {F : Type} [Field F] [LinearOrder F] [IsStrictOrderedRing F] [FloorRing F]

namespace Spec

/-- The two faces have the same centre. -/
def SameCentre (M : HexaData F) (x y : Face) : Prop := ∀ d < 3, faceMean (M.el x.1) x.2 d = faceMean (M.el y.1) y.2 d

/-- The condition of field `b` given for a side of the box; periodic if the argument is omitted. -/
def sideBC (o : Option (List Name)) (b : Nat) : Name :=
  match o with
  | none => nP
  | some l => l.getD b []

/-- The `i`-th of `n + 1` equidistant points from `a` to `b`. -/
def subdiv (a b : F) (n i : Nat) : F := a + (b - a) * (i : F) / (n : F)

end Spec

theorem near_of_sameCentre (M : HexaData F) (hg : Grid M) (tol : F) (ht : 0 ≤ tol) (x y : Face)
    (hx : x.1 < M.elem.length) (hy : y.1 < M.elem.length) (h : SameCentre M x y) : Near M tol x y := by
  obtain ⟨s0, h0⟩ := smallestEdgeSq_ok (M.el x.1) (hg _ (M.el_mem _ hx))
  obtain ⟨s1, h1⟩ := smallestEdgeSq_ok (M.el y.1) (hg _ (M.el_mem _ hy))
  refine ⟨s0, s1, h0, h1, ?_⟩
  dsimp only
  rw [h 0 (by omega), h 1 (by omega), h 2 (by omega)]
  left
  refine ⟨ht, ?_⟩
  simp only [sub_self]
  have := smallestEdgeSq_nonneg _ s0 h0
  have := smallestEdgeSq_nonneg _ s1 h1
  have : 0 ≤ tol ^ 2 * min s0 s1 := mul_nonneg (sq_nonneg _) (le_min ‹_› ‹_›)
  simpa using this

/-- A valid mesh whose internal links join faces with equal centres passes `check_connectivity` for every tolerance. -/
theorem check_of_sameCentre (M : HexaData F) (hw : WF M) (hg : Grid M) (h : Valid M (SameCentre M)) (tol : F) (ht : 0 ≤ tol) :
    M.checkConnectivity tol = .ok true := by
  rw [check_connectivity_iff M hw hg tol]
  apply connected_of_valid M hw
  intro b hb x hx hx2 hl
  obtain ⟨y, y1, y2, y3, y4, y5, y6⟩ := h b hb x hx hx2 hl
  exact ⟨y, y1, y2, y3, y4, y5, fun hE => near_of_sameCentre M hg tol ht x y hx y1 (y6 hE)⟩

theorem u3_single (s : Name) (c : Char) : u3 s = [c] ↔ s = [c] := by
  unfold u3
  match s with
  | [] => simp
  | [a] => simp
  | a :: b :: r => simp

theorem u3_nil (s : Name) : u3 s = [] ↔ s = [] := by unfold u3; simp

/-! ## The result of `gen_box` -/

/-- Conditions on the arguments: positive sizes, at least one element, enough conditions on each side. -/
structure Spec.BoxArgs (nx ny : Nat) (xmin xmax ymin ymax : F) (var : Var) (o1 o2 o3 o4 : Option (List Name)) : Prop where
  nx : 0 < nx
  ny : 0 < ny
  x : xmin < xmax
  y : ymin < ymax
  l1 : ∀ l, o1 = some l → boxNbc var ≤ l.length
  l2 : ∀ l, o2 = some l → boxNbc var ≤ l.length
  l3 : ∀ l, o3 = some l → boxNbc var ≤ l.length
  l4 : ∀ l, o4 = some l → boxNbc var ≤ l.length

theorem sideBC_eq (o : Option (List Name)) (n b : Nat) (hb : b < n) :
    (o.getD (List.replicate n nP)).getD b [] = sideBC o b := by
  cases o with
  | none => simp [sideBC, hb]
  | some l => rfl

theorem len_getD (o : Option (List Name)) (n : Nat) (h : ∀ l, o = some l → n ≤ l.length) :
    ¬ ((o.getD (List.replicate n nP)).length < n) := by
  cases o with
  | none => simp
  | some l => simpa using h l rfl

/-- The mesh built, element by element, for any kind of numbers. -/
theorem genBox_any {F : Type} [Zero F] [Add F] [Sub F] [Mul F] [Div F] [NatCast F] [LE F] [DecidableLE F] {native : Endian} {nx ny : Nat}
    {xmin xmax ymin ymax : F} {var : Var} {o1 o2 o3 o4 : Option (List Name)} {internal : Bool} (hnx : 0 < nx) (hny : 0 < ny)
    (hx : ¬ xmax - xmin ≤ 0) (hy : ¬ ymax - ymin ≤ 0) (l1 : ∀ l, o1 = some l → boxNbc var ≤ l.length) (l2 : ∀ l, o2 = some l → boxNbc var ≤ l.length)
    (l3 : ∀ l, o3 = some l → boxNbc var ≤ l.length) (l4 : ∀ l, o4 = some l → boxNbc var ≤ l.length) :
    ∃ M : HexaData F, genBox native nx ny xmin xmax ymin ymax var o1 o2 o3 o4 internal = .ok M ∧
      M = { (HexaData.new native 2 (nx * ny) ⟨2, 2, 1, true⟩ var (boxNbc var) : HexaData F) with elem := M.elem } ∧
      M.elem.length = nx * ny ∧
      ∀ i < nx, ∀ j < ny,
        M.el (i + nx * j) = { (Elem.new var.pres var.temp var.scal 2 2 1 (boxNbc var) : Elem F) with
          pos := boxPos nx ny xmin ymin (xmax - xmin) (ymax - ymin) i j (Arr.zeros 3 2 2 1)
          bcs := fun b f =>
            if b < boxNbc var then
              boxOuter nx ny i j (sideBC o1 b) (sideBC o2 b) (sideBC o3 b) (sideBC o4 b) f
                (if internal then boxInner nx ny i j f BC.zero else BC.zero)
            else BC.zero } := by
  have hxy : nx * ny ≠ 0 := Nat.mul_ne_zero (by omega) (by omega)
  unfold genBox
  simp only
  rw [if_neg hx, if_neg hy, if_neg (by
    rintro ⟨_, h | h | h | h⟩
    · exact len_getD o1 _ l1 h
    · exact len_getD o2 _ l2 h
    · exact len_getD o3 _ l3 h
    · exact len_getD o4 _ l4 h), if_neg (by tauto)]
  refine ⟨_, rfl, rfl, ?_, ?_⟩
  · simp [HexaData.new]
  · intro i hi j hj
    have hlt : i + nx * j < nx * ny := by
      have : nx * j + nx ≤ nx * ny := by rw [← Nat.mul_succ]; exact Nat.mul_le_mul_left _ hj
      omega
    rw [HexaData.el_eq_getElem _ _ (by simpa [HexaData.new] using hlt)]
    have e1 : (i + nx * j) % nx = i := by rw [Nat.add_mul_mod_self_left, Nat.mod_eq_of_lt hi]
    have e2 : (i + nx * j) / nx = j := by rw [Nat.add_mul_div_left _ _ hnx, Nat.div_eq_of_lt hi, Nat.zero_add]
    simp only [List.getElem_mapIdx, e1, e2, HexaData.new, List.getElem_replicate]
    refine congrArg (fun g => ({ (Elem.new var.pres var.temp var.scal 2 2 1 (boxNbc var) : Elem F) with
      pos := boxPos nx ny xmin ymin (xmax - xmin) (ymax - ymin) i j (Arr.zeros 3 2 2 1), bcs := g } : Elem F)) ?_
    funext b f
    split_ifs with hb hint
    · rw [sideBC_eq o1 _ b hb, sideBC_eq o2 _ b hb, sideBC_eq o3 _ b hb, sideBC_eq o4 _ b hb]; rfl
    · rw [sideBC_eq o1 _ b hb, sideBC_eq o2 _ b hb, sideBC_eq o3 _ b hb, sideBC_eq o4 _ b hb]; rfl
    · rfl

section
variable {native : Endian} {nx ny : Nat} {xmin xmax ymin ymax : F} {var : Var} {o1 o2 o3 o4 : Option (List Name)}
  {internal : Bool}

/-- The mesh built, element by element. -/
theorem genBox_ok (A : BoxArgs nx ny xmin xmax ymin ymax var o1 o2 o3 o4) :
    ∃ M : HexaData F, genBox native nx ny xmin xmax ymin ymax var o1 o2 o3 o4 internal = .ok M ∧
      M = { (HexaData.new native 2 (nx * ny) ⟨2, 2, 1, true⟩ var (boxNbc var) : HexaData F) with elem := M.elem } ∧
      M.elem.length = nx * ny ∧
      ∀ i < nx, ∀ j < ny,
        M.el (i + nx * j) = { (Elem.new var.pres var.temp var.scal 2 2 1 (boxNbc var) : Elem F) with
          pos := boxPos nx ny xmin ymin (xmax - xmin) (ymax - ymin) i j (Arr.zeros 3 2 2 1)
          bcs := fun b f =>
            if b < boxNbc var then
              boxOuter nx ny i j (sideBC o1 b) (sideBC o2 b) (sideBC o3 b) (sideBC o4 b) f
                (if internal then boxInner nx ny i j f BC.zero else BC.zero)
            else BC.zero } :=
  genBox_any A.nx A.ny (by have := A.x; linarith) (by have := A.y; linarith) A.l1 A.l2 A.l3 A.l4

end

/-- **C60.** `gen_box` succeeds and returns `nx*ny` elements with two points per direction; element `i + nx*j` is the
rectangle between the `i`-th and `i+1`-th of `nx` and the `j`-th and `j+1`-th of `ny` equal subdivisions, in the plane
`z = 0`. -/
theorem gen_box_geometry (native : Endian) (nx ny : Nat) (xmin xmax ymin ymax : F) (var : Var) (o1 o2 o3 o4 : Option (List Name))
    (internal : Bool) (A : BoxArgs nx ny xmin xmax ymin ymax var o1 o2 o3 o4) :
    ∃ M : HexaData F, genBox native nx ny xmin xmax ymin ymax var o1 o2 o3 o4 internal = .ok M ∧
      M.nel = nx * ny ∧ M.elem.length = nx * ny ∧ M.ndim = 2 ∧
      ∀ i < nx, ∀ j < ny, (M.el (i + nx * j)).pos.lx = 2 ∧ (M.el (i + nx * j)).pos.ly = 2 ∧ (M.el (i + nx * j)).pos.lz = 1 ∧
        ∀ ky < 2, ∀ kx < 2,
          (M.el (i + nx * j)).pos.dat 0 0 ky kx = subdiv xmin xmax nx (i + kx) ∧
          (M.el (i + nx * j)).pos.dat 1 0 ky kx = subdiv ymin ymax ny (j + ky) ∧
          (M.el (i + nx * j)).pos.dat 2 0 ky kx = 0 := by
  obtain ⟨M, h1, h2, h3, h4⟩ := genBox_ok (native := native) (internal := internal) A
  refine ⟨M, h1, by rw [h2]; rfl, h3, by rw [h2]; rfl, ?_⟩
  intro i hi j hj
  rw [h4 i hi j hj]
  refine ⟨rfl, rfl, rfl, ?_⟩
  intro ky hky kx hkx
  have hkx' : kx = 0 ∨ kx = 1 := by omega
  have hky' : ky = 0 ∨ ky = 1 := by omega
  rcases hkx' with rfl | rfl <;> rcases hky' with rfl | rfl <;> simp [boxPos, subdiv, Arr.zeros]

/-- The subdivision starts at `a`, ends at `b` and increases. -/
theorem subdiv_bounds (a b : F) (n : Nat) (hn : 0 < n) (hab : a < b) :
    subdiv a b n 0 = a ∧ subdiv a b n n = b ∧ ∀ i, subdiv a b n i < subdiv a b n (i + 1) := by
  have h0 : (n : F) ≠ 0 := by exact_mod_cast hn.ne'
  refine ⟨by simp [subdiv], ?_, ?_⟩
  · unfold subdiv; field_simp; ring
  · intro i
    unfold subdiv
    have h1 : (0 : F) < n := by exact_mod_cast hn
    have : (b - a) * (i : F) / n < (b - a) * ((i + 1 : Nat) : F) / n := by
      apply div_lt_div_of_pos_right _ h1
      push_cast
      nlinarith
    linarith

theorem subdiv_mono (a b : F) (n : Nat) (hn : 0 < n) (hab : a < b) {i j : Nat} (h : i ≤ j) : subdiv a b n i ≤ subdiv a b n j := by
  induction j with
  | zero => obtain rfl : i = 0 := by omega
            exact le_refl _
  | succ j ih =>
    rcases Nat.lt_or_ge i (j + 1) with h1 | h1
    · exact (ih (by omega)).trans ((subdiv_bounds a b n hn hab).2.2 j).le
    · obtain rfl : i = j + 1 := by omega
      exact le_refl _

/-- Every point of the interval lies in a cell of the subdivision. -/
theorem subdiv_cover (a b : F) (n : Nat) (hn : 0 < n) (hab : a < b) (x : F) (h1 : a ≤ x) (h2 : x ≤ b) :
    ∃ i < n, subdiv a b n i ≤ x ∧ x ≤ subdiv a b n (i + 1) := by
  obtain ⟨e0, e1, _⟩ := subdiv_bounds a b n hn hab
  suffices H : ∀ m ≤ n, 0 < m → x ≤ subdiv a b n m → ∃ i < m, subdiv a b n i ≤ x ∧ x ≤ subdiv a b n (i + 1) by
    exact H n le_rfl hn (by rw [e1]; exact h2)
  intro m
  induction m with
  | zero => intro _ h; omega
  | succ m ih =>
    intro hm _ hx
    by_cases hc : subdiv a b n m ≤ x
    · exact ⟨m, by omega, hc, hx⟩
    · have hm0 : 0 < m := by
        rcases Nat.eq_zero_or_pos m with rfl | h
        · rw [e0] at hc; exact absurd h1 hc
        · exact h
      obtain ⟨i, hi, hi2⟩ := ih (by omega) hm0 (le_of_not_ge hc)
      exact ⟨i, by omega, hi2⟩

/-- **C60, tiling.** Every point of the rectangle lies in some element, and no point lies in the interior of two. -/
theorem gen_box_tiles (nx ny : Nat) (xmin xmax ymin ymax : F) (hnx : 0 < nx) (hny : 0 < ny) (hx : xmin < xmax) (hy : ymin < ymax) :
    (∀ x y, xmin ≤ x → x ≤ xmax → ymin ≤ y → y ≤ ymax → ∃ i < nx, ∃ j < ny,
      subdiv xmin xmax nx i ≤ x ∧ x ≤ subdiv xmin xmax nx (i + 1) ∧ subdiv ymin ymax ny j ≤ y ∧ y ≤ subdiv ymin ymax ny (j + 1)) ∧
    (∀ x y i j i' j', subdiv xmin xmax nx i < x → x < subdiv xmin xmax nx (i + 1) → subdiv ymin ymax ny j < y →
      y < subdiv ymin ymax ny (j + 1) → subdiv xmin xmax nx i' < x → x < subdiv xmin xmax nx (i' + 1) →
      subdiv ymin ymax ny j' < y → y < subdiv ymin ymax ny (j' + 1) → i = i' ∧ j = j') := by
  constructor
  · intro x y a1 a2 a3 a4
    obtain ⟨i, hi, b1, b2⟩ := subdiv_cover xmin xmax nx hnx hx x a1 a2
    obtain ⟨j, hj, b3, b4⟩ := subdiv_cover ymin ymax ny hny hy y a3 a4
    exact ⟨i, hi, j, hj, b1, b2, b3, b4⟩
  · have key : ∀ (a b : F) (n : Nat), 0 < n → a < b → ∀ x i i', subdiv a b n i < x → x < subdiv a b n (i + 1) →
        subdiv a b n i' < x → x < subdiv a b n (i' + 1) → i = i' := by
      intro a b n hn hab x i i' h1 h2 h3 h4
      by_contra hne
      rcases Nat.lt_or_gt_of_ne hne with h | h
      · have := subdiv_mono a b n hn hab (show i + 1 ≤ i' by omega); linarith
      · have := subdiv_mono a b n hn hab (show i' + 1 ≤ i by omega); linarith
    intro x y i j i' j' h1 h2 h3 h4 h5 h6 h7 h8
    exact ⟨key _ _ nx hnx hx x i i' h1 h2 h5 h6, key _ _ ny hny hy y j j' h3 h4 h7 h8⟩

/-- **C60, empty ranges** raise `ValueError`. -/
theorem gen_box_rejects (native : Endian) (nx ny : Nat) (xmin xmax ymin ymax : F) (var : Var) (o1 o2 o3 o4 : Option (List Name))
    (internal : Bool) (h : xmax ≤ xmin ∨ ymax ≤ ymin) :
    genBox native nx ny xmin xmax ymin ymax var o1 o2 o3 o4 internal = .error .valueError := by
  unfold genBox
  simp only
  by_cases h1 : xmax - xmin ≤ 0
  · rw [if_pos h1]
  · rw [if_neg h1, if_pos (by rcases h with h | h <;> linarith)]

/-- **C60, fields.** There is one field of conditions for the velocity, one for the temperature and one for each scalar. -/
theorem gen_box_fields (native : Endian) (nx ny : Nat) (xmin xmax ymin ymax : F) (vel pres temp scal : Nat) (o1 o2 o3 o4 : Option (List Name))
    (internal : Bool) (A : BoxArgs nx ny xmin xmax ymin ymax ⟨2, vel, pres, temp, scal⟩ o1 o2 o3 o4) :
    ∃ M : HexaData F, genBox native nx ny xmin xmax ymin ymax ⟨2, vel, pres, temp, scal⟩ o1 o2 o3 o4 internal = .ok M ∧
      M.nbc = min vel 1 + min temp 1 + scal ∧ ∀ e < nx * ny, (M.el e).rows = min vel 1 + min temp 1 + scal := by
  obtain ⟨M, h1, h2, h3, h4⟩ := genBox_ok (native := native) (internal := internal) A
  have hb : boxNbc ⟨2, vel, pres, temp, scal⟩ = min vel 1 + min temp 1 + scal := by
    unfold boxNbc
    dsimp only
    split <;> split <;> omega
  refine ⟨M, h1, by rw [h2, ← hb]; rfl, fun e he => ?_⟩
  have hnx : 0 < nx := by
    rcases Nat.eq_zero_or_pos nx with rfl | h'
    · simp at he
    · exact h'
  have := h4 (e % nx) (Nat.mod_lt _ hnx) (e / nx) (Nat.div_lt_of_lt_mul he)
  rw [Nat.mod_add_div] at this
  rw [this, ← hb]
  rfl

/-- **C60, fields.** A list with fewer conditions raises `IndexError`. -/
theorem gen_box_short (native : Endian) (nx ny : Nat) (xmin xmax ymin ymax : F) (vel pres temp scal : Nat) (l : List Name) (o2 o3 o4 : Option (List Name))
    (internal : Bool) (hx : xmin < xmax) (hy : ymin < ymax) (h0 : 0 < nx) (h1 : 0 < ny) (hl : l.length < min vel 1 + min temp 1 + scal) :
    genBox native nx ny xmin xmax ymin ymax ⟨2, vel, pres, temp, scal⟩ (some l) o2 o3 o4 internal = .error .indexError := by
  have hb : boxNbc ⟨2, vel, pres, temp, scal⟩ = min vel 1 + min temp 1 + scal := by
    unfold boxNbc
    dsimp only
    split <;> split <;> omega
  unfold genBox
  simp only
  rw [if_neg (by linarith), if_neg (by linarith), if_pos ⟨Nat.mul_ne_zero h0.ne' h1.ne', .inl (by rw [hb]; exact hl)⟩]

/-- A case that meets the hypotheses: 3×2 elements, two fields, periodic in x. -/
theorem Samples.boxArgs : BoxArgs (F := ℚ) 3 2 0 6 0 4 ⟨2, 2, 1, 1, 0⟩ none none (some [['W'], ['t']]) (some [['W'], ['f']]) :=
  ⟨by decide, by decide, by norm_num, by norm_num, (by simp), (by simp), (by decide), (by decide)⟩

example : ∃ M : HexaData ℚ, genBox .little 3 2 0 6 0 4 ⟨2, 2, 1, 1, 0⟩ none none (some [['W'], ['t']]) (some [['W'], ['f']]) true = .ok M ∧ M.nbc = 2 := by
  obtain ⟨M, h1, h2, -⟩ := gen_box_fields .little 3 2 0 6 0 4 2 1 1 0 _ _ _ _ true Samples.boxArgs
  exact ⟨M, h1, h2⟩

/-! ## C61 -/

namespace Spec

/-- The conditions of the four sides are usable in field `b`: named, not `'E'`, and periodic on both or neither of two
opposite sides. -/
def SidesOk (o1 o2 o3 o4 : Option (List Name)) (b : Nat) : Prop :=
  (∀ o ∈ [o1, o2, o3, o4], sideBC o b ≠ [] ∧ sideBC o b ≠ nE) ∧
  (sideBC o1 b = nP ↔ sideBC o2 b = nP) ∧ (sideBC o3 b = nP ↔ sideBC o4 b = nP)

end Spec

/-- Decomposition of an element number. -/
theorem elnum_cases {nx ny e : Nat} (h : e < nx * ny) : ∃ i < nx, ∃ j < ny, e = i + nx * j := by
  have hnx : 0 < nx := by
    rcases Nat.eq_zero_or_pos nx with rfl | h'
    · simp at h
    · exact h'
  exact ⟨e % nx, Nat.mod_lt _ hnx, e / nx, Nat.div_lt_of_lt_mul h, (Nat.mod_add_div _ _).symm⟩

theorem elnum_lt {nx ny i j : Nat} (hi : i < nx) (hj : j < ny) : i + nx * j < nx * ny := by
  have : nx * j + nx ≤ nx * ny := by rw [← Nat.mul_succ]; exact Nat.mul_le_mul_left _ hj
  omega

/-- The record written on an outer face. -/
theorem wrExt_typ (bc : Name) (a b c d : Nat) (r : BC F) : (wrExt bc a b c d r).typ = u3 bc := by
  unfold wrExt; split_ifs <;> rfl

theorem wrExt_points (a b c d : Nat) (r : BC F) : PointsTo (wrExt nP a b (c + 1) (d + 1) r) (c, d) := by
  unfold wrExt
  simp only [if_true, PointsTo, trunc_natCast]
  omega

theorem wrLink_points (t : Name) (a b c d : Nat) (r : BC F) : PointsTo (wrLink t a b (c + 1) (d + 1) r) (c, d) := by
  simp only [wrLink, PointsTo, trunc_natCast]
  omega

/-- **C61, validity.** With `internal_bcs=True` and usable conditions the box is validly connected, and faces linked by
`'E'` have the same centre. -/
theorem gen_box_valid (native : Endian) (nx ny : Nat) (xmin xmax ymin ymax : F) (var : Var) (o1 o2 o3 o4 : Option (List Name))
    (A : BoxArgs nx ny xmin xmax ymin ymax var o1 o2 o3 o4) (hS : ∀ b < boxNbc var, SidesOk o1 o2 o3 o4 b) :
    ∃ M : HexaData F, genBox native nx ny xmin xmax ymin ymax var o1 o2 o3 o4 true = .ok M ∧ WF M ∧ Grid M ∧ Valid M (SameCentre M) ∧
      ∀ e < M.elem.length, ∀ b < M.nbc, ∀ f < 2 * M.ndim, (M.bc e b f).typ ≠ [] := by
  obtain ⟨M, h1, h2, h3, h4⟩ := genBox_ok (native := native) (internal := true) A
  obtain ⟨M', h1', _, _, _, hgeo⟩ := gen_box_geometry native nx ny xmin xmax ymin ymax var o1 o2 o3 o4 true A
  obtain rfl : M = M' := by rw [h1] at h1'; simpa using h1'
  have hnbc : M.nbc = boxNbc var := by rw [h2]; rfl
  have hndim : M.ndim = 2 := by rw [h2]; rfl
  have hnel : M.nel = nx * ny := by rw [h2]; rfl
  -- the records
  have bc : ∀ i < nx, ∀ j < ny, ∀ b < boxNbc var, ∀ f, M.bc (i + nx * j) b f =
      boxOuter nx ny i j (sideBC o1 b) (sideBC o2 b) (sideBC o3 b) (sideBC o4 b) f (boxInner nx ny i j f BC.zero) := by
    intro i hi j hj b hb f
    unfold HexaData.bc
    rw [h4 i hi j hj]
    simp only [if_pos hb, if_true]
  have bcS : ∀ i < nx, ∀ b < boxNbc var, M.bc (i + nx * 0) b 0 =
      wrExt (sideBC o3 b) (elnum i 0 nx + 1) 1 (elnum i (ny - 1) nx + 1) 3 (boxInner nx ny i 0 0 BC.zero) := by
    intro i hi b hb; rw [bc i hi 0 A.ny b hb]; simp [boxOuter]
  have bcN : ∀ i < nx, ∀ b < boxNbc var, M.bc (i + nx * (ny - 1)) b 2 =
      wrExt (sideBC o4 b) (elnum i (ny - 1) nx + 1) 3 (elnum i 0 nx + 1) 1 (boxInner nx ny i (ny - 1) 2 BC.zero) := by
    intro i hi b hb; rw [bc i hi (ny - 1) (by have := A.ny; omega) b hb]; simp [boxOuter]
  have bcW : ∀ j < ny, ∀ b < boxNbc var, M.bc (0 + nx * j) b 3 =
      wrExt (sideBC o1 b) (elnum 0 j nx + 1) 4 (elnum (nx - 1) j nx + 1) 2 (boxInner nx ny 0 j 3 BC.zero) := by
    intro j hj b hb; rw [bc 0 A.nx j hj b hb]; simp [boxOuter]
  have bcE : ∀ j < ny, ∀ b < boxNbc var, M.bc (nx - 1 + nx * j) b 1 =
      wrExt (sideBC o2 b) (elnum (nx - 1) j nx + 1) 2 (elnum 0 j nx + 1) 4 (boxInner nx ny (nx - 1) j 1 BC.zero) := by
    intro j hj b hb; rw [bc (nx - 1) (by have := A.nx; omega) j hj b hb]; simp [boxOuter]
  have in0 : ∀ i < nx, ∀ j, j + 1 < ny → ∀ b < boxNbc var, M.bc (i + nx * (j + 1)) b 0 =
      wrLink nE (elnum i (j + 1) nx + 1) 1 (elnum i j nx + 1) 3 BC.zero := by
    intro i hi j hj b hb; rw [bc i hi (j + 1) hj b hb]; simp [boxOuter, boxInner]
  have in2 : ∀ i < nx, ∀ j, j + 1 < ny → ∀ b < boxNbc var, M.bc (i + nx * j) b 2 =
      wrLink nE (elnum i j nx + 1) 3 (elnum i (j + 1) nx + 1) 1 BC.zero := by
    intro i hi j hj b hb; rw [bc i hi j (by omega) b hb]
    simp [boxOuter, boxInner, show j ≠ ny - 1 by omega]
  have in1 : ∀ i, i + 1 < nx → ∀ j < ny, ∀ b < boxNbc var, M.bc (i + nx * j) b 1 =
      wrLink nE (elnum i j nx + 1) 2 (elnum (i + 1) j nx + 1) 4 BC.zero := by
    intro i hi j hj b hb; rw [bc i (by omega) j hj b hb]
    simp [boxOuter, boxInner, show i ≠ nx - 1 by omega]
  have in3 : ∀ i, i + 1 < nx → ∀ j < ny, ∀ b < boxNbc var, M.bc (i + 1 + nx * j) b 3 =
      wrLink nE (elnum (i + 1) j nx + 1) 4 (elnum i j nx + 1) 2 BC.zero := by
    intro i hi j hj b hb; rw [bc (i + 1) hi j hj b hb]; simp [boxOuter, boxInner]
  -- positions of the corners
  have cor : ∀ i < nx, ∀ j < ny, ∀ sx sy sz : Bool, ∀ d < 3, Spec.corner (M.el (i + nx * j)) sx sy sz d =
      if d = 0 then subdiv xmin xmax nx (i + if sx then 1 else 0) else if d = 1 then subdiv ymin ymax ny (j + if sy then 1 else 0)
      else 0 := by
    intro i hi j hj sx sy sz d hd
    obtain ⟨l1, l2, l3, hp⟩ := hgeo i hi j hj
    unfold Spec.corner
    rw [l1, l2, l3]
    have hp' := hp (if sy then 1 else 0) (by split_ifs <;> omega) (if sx then 1 else 0) (by split_ifs <;> omega)
    have hd' : d = 0 ∨ d = 1 ∨ d = 2 := by omega
    simp only [Nat.add_one_sub_one, Nat.sub_self, ite_self]
    rcases hd' with rfl | rfl | rfl
    · simpa using hp'.1
    · simpa using hp'.2.1
    · simpa using hp'.2.2
  have same02 : ∀ i < nx, ∀ j, j + 1 < ny → SameCentre M (i + nx * (j + 1), 0) (i + nx * j, 2) := by
    intro i hi j hj d hd
    simp only [faceMean, faceCoord, cor i hi (j + 1) hj _ _ _ d hd, cor i hi j (by omega) _ _ _ d hd]
    simp
  have same13 : ∀ i, i + 1 < nx → ∀ j < ny, SameCentre M (i + nx * j, 1) (i + 1 + nx * j, 3) := by
    intro i hi j hj d hd
    simp only [faceMean, faceCoord, cor i (by omega) j hj _ _ _ d hd, cor (i + 1) hi j hj _ _ _ d hd]
    simp
  have symm : ∀ x y, SameCentre M x y → SameCentre M y x := fun x y h d hd => (h d hd).symm
  have S : ∀ b < boxNbc var, (sideBC o1 b ≠ [] ∧ sideBC o1 b ≠ nE) ∧ (sideBC o2 b ≠ [] ∧ sideBC o2 b ≠ nE) ∧
      (sideBC o3 b ≠ [] ∧ sideBC o3 b ≠ nE) ∧ (sideBC o4 b ≠ [] ∧ sideBC o4 b ≠ nE) := fun b hb => by
    have := (hS b hb).1; simpa using this
  have extP : ∀ bc : Name, bc ≠ nE → ∀ a b c d (r : BC F), IsLink (wrExt bc a b c d r) → bc = nP := by
    intro bc hne a b c d r hl
    unfold IsLink at hl
    rw [wrExt_typ] at hl
    rcases hl with h | h
    · exact absurd ((u3_single bc 'E').1 h) hne
    · exact (u3_single bc 'P').1 h
  have extE : ∀ bc : Name, bc ≠ nE → ∀ a b c d (r : BC F), (wrExt bc a b c d r).typ ≠ nE := by
    intro bc hne a b c d r h
    rw [wrExt_typ] at h
    exact hne ((u3_single bc 'E').1 h)
  have hny := A.ny
  have hnx := A.nx
  refine ⟨M, h1, ⟨by rw [hnel, h3], ?_, Or.inl hndim⟩, ?_, ?_, ?_⟩
  · intro el hel
    obtain ⟨e, he, rfl⟩ := List.getElem_of_mem hel
    rw [← M.el_eq_getElem e he]
    obtain ⟨i, hi, j, hj, rfl⟩ := elnum_cases (h3 ▸ he)
    rw [h4 i hi j hj, hnbc]; rfl
  · intro el hel
    obtain ⟨e, he, rfl⟩ := List.getElem_of_mem hel
    rw [← M.el_eq_getElem e he]
    obtain ⟨i, hi, j, hj, rfl⟩ := elnum_cases (h3 ▸ he)
    obtain ⟨l1, l2, l3, _⟩ := hgeo i hi j hj
    rw [l1, l2, l3]; omega
  · intro b hb
    rw [hnbc] at hb
    rw [h3, hndim]
    obtain ⟨⟨_, ne1⟩, ⟨_, ne2⟩, ⟨_, ne3⟩, ⟨_, ne4⟩⟩ := S b hb
    have hSb := hS b hb
    rintro ⟨e, f⟩ he hf hl
    dsimp only at he hf hl ⊢
    obtain ⟨i, hi, j, hj, rfl⟩ := elnum_cases he
    have hf' : f = 0 ∨ f = 1 ∨ f = 2 ∨ f = 3 := by omega
    rcases hf' with rfl | rfl | rfl | rfl
    · rcases Nat.eq_zero_or_pos j with rfl | hj0
      · rw [bcS i hi b hb] at hl ⊢
        have hP := extP _ ne3 _ _ _ _ _ hl
        refine ⟨(i + nx * (ny - 1), 2), elnum_lt hi (by omega), by omega, ?_⟩
        dsimp only
        rw [bcN i hi b hb, hSb.2.2.1 hP, hP]
        refine ⟨wrExt_points _ _ _ 2 _, by rw [wrExt_typ, wrExt_typ], wrExt_points _ _ _ 0 _, fun h => absurd h (by rw [wrExt_typ]; decide)⟩
      · obtain ⟨j, rfl⟩ : ∃ k, j = k + 1 := ⟨j - 1, by omega⟩
        rw [in0 i hi j hj b hb]
        refine ⟨(i + nx * j, 2), elnum_lt hi (by omega), by omega, ?_⟩
        dsimp only
        rw [in2 i hi j hj b hb]
        exact ⟨wrLink_points _ _ _ _ 2 _, rfl, wrLink_points _ _ _ _ 0 _, fun _ => same02 i hi j hj⟩
    · by_cases hi1 : i + 1 < nx
      · rw [in1 i hi1 j hj b hb]
        refine ⟨(i + 1 + nx * j, 3), elnum_lt hi1 hj, by omega, ?_⟩
        dsimp only
        rw [in3 i hi1 j hj b hb]
        exact ⟨wrLink_points _ _ _ _ 3 _, rfl, wrLink_points _ _ _ _ 1 _, fun _ => same13 i hi1 j hj⟩
      · obtain rfl : i = nx - 1 := by omega
        rw [bcE j hj b hb] at hl ⊢
        have hP := extP _ ne2 _ _ _ _ _ hl
        refine ⟨(0 + nx * j, 3), elnum_lt hnx hj, by omega, ?_⟩
        dsimp only
        rw [bcW j hj b hb, hSb.2.1.2 hP, hP]
        refine ⟨wrExt_points _ _ _ 3 _, by rw [wrExt_typ, wrExt_typ], wrExt_points _ _ _ 1 _, fun h => absurd h (by rw [wrExt_typ]; decide)⟩
    · by_cases hj1 : j + 1 < ny
      · rw [in2 i hi j hj1 b hb]
        refine ⟨(i + nx * (j + 1), 0), elnum_lt hi hj1, by omega, ?_⟩
        dsimp only
        rw [in0 i hi j hj1 b hb]
        exact ⟨wrLink_points _ _ _ _ 0 _, rfl, wrLink_points _ _ _ _ 2 _, fun _ => symm _ _ (same02 i hi j hj1)⟩
      · obtain rfl : j = ny - 1 := by omega
        rw [bcN i hi b hb] at hl ⊢
        have hP := extP _ ne4 _ _ _ _ _ hl
        refine ⟨(i + nx * 0, 0), elnum_lt hi hny, by omega, ?_⟩
        dsimp only
        rw [bcS i hi b hb, hSb.2.2.2 hP, hP]
        refine ⟨wrExt_points _ _ _ 0 _, by rw [wrExt_typ, wrExt_typ], wrExt_points _ _ _ 2 _, fun h => absurd h (by rw [wrExt_typ]; decide)⟩
    · rcases Nat.eq_zero_or_pos i with rfl | hi0
      · rw [bcW j hj b hb] at hl ⊢
        have hP := extP _ ne1 _ _ _ _ _ hl
        refine ⟨(nx - 1 + nx * j, 1), elnum_lt (by omega) hj, by omega, ?_⟩
        dsimp only
        rw [bcE j hj b hb, hSb.2.1.1 hP, hP]
        refine ⟨wrExt_points _ _ _ 1 _, by rw [wrExt_typ, wrExt_typ], wrExt_points _ _ _ 3 _, fun h => absurd h (by rw [wrExt_typ]; decide)⟩
      · obtain ⟨i, rfl⟩ : ∃ k, i = k + 1 := ⟨i - 1, by omega⟩
        rw [in3 i hi j hj b hb]
        refine ⟨(i + nx * j, 1), elnum_lt (by omega) hj, by omega, ?_⟩
        dsimp only
        rw [in1 i hi j hj b hb]
        exact ⟨wrLink_points _ _ _ _ 1 _, rfl, wrLink_points _ _ _ _ 3 _, fun _ => symm _ _ (same13 i hi j hj)⟩
  · intro e he b hb f hf
    rw [hnbc] at hb
    rw [hndim] at hf
    obtain ⟨i, hi, j, hj, rfl⟩ := elnum_cases (h3 ▸ he)
    obtain ⟨⟨ne1, _⟩, ⟨ne2, _⟩, ⟨ne3, _⟩, ⟨ne4, _⟩⟩ := S b hb
    have ext : ∀ bc : Name, bc ≠ [] → ∀ a b c d (r : BC F), (wrExt bc a b c d r).typ ≠ [] := by
      intro bc hne a b c d r h
      rw [wrExt_typ] at h
      exact hne ((u3_nil bc).1 h)
    have hf' : f = 0 ∨ f = 1 ∨ f = 2 ∨ f = 3 := by omega
    rcases hf' with rfl | rfl | rfl | rfl
    · rcases Nat.eq_zero_or_pos j with rfl | hj0
      · rw [bcS i hi b hb]; exact ext _ ne3 _ _ _ _ _
      · obtain ⟨j, rfl⟩ : ∃ k, j = k + 1 := ⟨j - 1, by omega⟩
        rw [in0 i hi j hj b hb]; exact nE_ne_nil
    · by_cases hi1 : i + 1 < nx
      · rw [in1 i hi1 j hj b hb]; exact nE_ne_nil
      · obtain rfl : i = nx - 1 := by omega
        rw [bcE j hj b hb]; exact ext _ ne2 _ _ _ _ _
    · by_cases hj1 : j + 1 < ny
      · rw [in2 i hi j hj1 b hb]; exact nE_ne_nil
      · obtain rfl : j = ny - 1 := by omega
        rw [bcN i hi b hb]; exact ext _ ne4 _ _ _ _ _
    · rcases Nat.eq_zero_or_pos i with rfl | hi0
      · rw [bcW j hj b hb]; exact ext _ ne1 _ _ _ _ _
      · obtain ⟨i, rfl⟩ : ∃ k, i = k + 1 := ⟨i - 1, by omega⟩
        rw [in3 i hi j hj b hb]; exact nE_ne_nil

/-- **C61.** The box passes `check_connectivity` for every tolerance and `check_bcs_present`. -/
theorem gen_box_checks (native : Endian) (nx ny : Nat) (xmin xmax ymin ymax : F) (var : Var) (o1 o2 o3 o4 : Option (List Name))
    (A : BoxArgs nx ny xmin xmax ymin ymax var o1 o2 o3 o4) (hS : ∀ b < boxNbc var, SidesOk o1 o2 o3 o4 b) :
    ∃ M : HexaData F, genBox native nx ny xmin xmax ymin ymax var o1 o2 o3 o4 true = .ok M ∧
      (∀ tol, 0 ≤ tol → M.checkConnectivity tol = .ok true) ∧ M.checkBcsPresent = .ok true := by
  obtain ⟨M, h1, h2, h3, h4, h5⟩ := gen_box_valid native nx ny xmin xmax ymin ymax var o1 o2 o3 o4 A hS
  exact ⟨M, h1, fun tol ht => check_of_sameCentre M h2 h3 h4 tol ht, (check_bcs_present_iff M h2).1.2 h5⟩

/-- The hypotheses hold for the sample arguments. -/
example : ∀ b < boxNbc ⟨2, 2, 1, 1, 0⟩, SidesOk none none (some [['W'], ['t']]) (some [['W'], ['f']]) b := by
  unfold SidesOk; decide

/-- **C61, the condition names.** The outer sides carry the requested conditions (first three characters). -/
theorem gen_box_sides (native : Endian) (nx ny : Nat) (xmin xmax ymin ymax : F) (var : Var) (o1 o2 o3 o4 : Option (List Name))
    (internal : Bool) (A : BoxArgs nx ny xmin xmax ymin ymax var o1 o2 o3 o4) :
    ∃ M : HexaData F, genBox native nx ny xmin xmax ymin ymax var o1 o2 o3 o4 internal = .ok M ∧ ∀ b < boxNbc var,
      (∀ j < ny, (M.bc (0 + nx * j) b 3).typ = u3 (sideBC o1 b) ∧ (M.bc (nx - 1 + nx * j) b 1).typ = u3 (sideBC o2 b)) ∧
      (∀ i < nx, (M.bc (i + nx * 0) b 0).typ = u3 (sideBC o3 b) ∧ (M.bc (i + nx * (ny - 1)) b 2).typ = u3 (sideBC o4 b)) := by
  obtain ⟨M, h1, h2, h3, h4⟩ := genBox_ok (native := native) (internal := internal) A
  have hny := A.ny
  have hnx := A.nx
  refine ⟨M, h1, fun b hb => ⟨fun j hj => ⟨?_, ?_⟩, fun i hi => ⟨?_, ?_⟩⟩⟩
  · unfold HexaData.bc; rw [h4 0 hnx j hj]; simp only [if_pos hb]; simp [boxOuter, wrExt_typ]
  · unfold HexaData.bc; rw [h4 (nx - 1) (by omega) j hj]; simp only [if_pos hb]; simp [boxOuter, wrExt_typ]
  · unfold HexaData.bc; rw [h4 i hi 0 hny]; simp only [if_pos hb]; simp [boxOuter, wrExt_typ]
  · unfold HexaData.bc; rw [h4 i hi (ny - 1) (by omega)]; simp only [if_pos hb]; simp [boxOuter, wrExt_typ]

/-! ## C62 -/

/-- **C62 is false.** With `bcs_xmin=['P']`, `bcs_xmax=['W']` a mesh is returned, which fails `check_connectivity`. -/
theorem gen_box_one_sided : ∃ M : HexaData ℚ,
    genBox .little 1 1 0 1 0 1 ⟨2, 2, 1, 0, 0⟩ (some [nP]) (some [['W']]) none none true = .ok M ∧
      M.checkConnectivity (1 / 1000) = .error .valueError ∧ ¬ Valid M fun _ _ => True := by
  refine ⟨Samples.get (genBox .little 1 1 0 1 0 1 ⟨2, 2, 1, 0, 0⟩ (some [nP]) (some [['W']]) none none true), ?_, by decide +kernel, ?_⟩
  · have := genBox_ok (F := ℚ) (native := .little) (internal := true) (nx := 1) (ny := 1) (xmin := 0) (xmax := 1) (ymin := 0)
      (ymax := 1) (var := ⟨2, 2, 1, 0, 0⟩) (o1 := some [nP]) (o2 := some [['W']]) (o3 := none) (o4 := none)
      ⟨by decide, by decide, by norm_num, by norm_num, by decide, by decide, by simp, by simp⟩
    obtain ⟨M, h, _⟩ := this
    rw [h]; rfl
  · intro hv
    obtain ⟨y, y1, y2, y3, y4, _⟩ := hv 0 (by decide +kernel) (0, 3) (by decide +kernel) (by decide +kernel) (Or.inr (by decide +kernel))
    obtain rfl : y = (0, 1) := pointsTo_unique y3 (by unfold PointsTo; decide +kernel)
    revert y4
    decide +kernel

/-- The opposite side of a periodic one is periodic, if links lead to faces with the same condition. -/
theorem genBox_partners {nx ny : Nat} {xmin xmax ymin ymax : F} {var : Var} {o1 o2 o3 o4 : Option (List Name)} {internal : Bool} {M : HexaData F}
    (hnx : 0 < nx) (hny : 0 < ny) (h3 : M.elem.length = nx * ny)
    (h4 : ∀ i < nx, ∀ j < ny, M.el (i + nx * j) = { (Elem.new var.pres var.temp var.scal 2 2 1 (boxNbc var) : Elem F) with
      pos := boxPos nx ny xmin ymin (xmax - xmin) (ymax - ymin) i j (Arr.zeros 3 2 2 1)
      bcs := fun b f => if b < boxNbc var then boxOuter nx ny i j (sideBC o1 b) (sideBC o2 b) (sideBC o3 b) (sideBC o4 b) f
        (if internal then boxInner nx ny i j f BC.zero else BC.zero) else BC.zero })
    (b : Nat) (hb : b < boxNbc var) (hv : ∀ x : Face, x.1 < M.elem.length → x.2 < 4 → IsLink (M.bc x.1 b x.2) →
      ∃ y : Face, PointsTo (M.bc x.1 b x.2) y ∧ (M.bc y.1 b y.2).typ = (M.bc x.1 b x.2).typ) :
    (sideBC o1 b = nP ↔ sideBC o2 b = nP) ∧ (sideBC o3 b = nP ↔ sideBC o4 b = nP) := by
  have bW : M.bc (0 + nx * 0) b 3 = wrExt (sideBC o1 b) (elnum 0 0 nx + 1) 4 (elnum (nx - 1) 0 nx + 1) 2
      (if internal then boxInner nx ny 0 0 3 BC.zero else BC.zero) := by
    unfold HexaData.bc; rw [h4 0 hnx 0 hny]; simp only [if_pos hb]; simp [boxOuter]
  have bE : M.bc (nx - 1 + nx * 0) b 1 = wrExt (sideBC o2 b) (elnum (nx - 1) 0 nx + 1) 2 (elnum 0 0 nx + 1) 4
      (if internal then boxInner nx ny (nx - 1) 0 1 BC.zero else BC.zero) := by
    unfold HexaData.bc; rw [h4 (nx - 1) (by omega) 0 hny]; simp only [if_pos hb]; simp [boxOuter]
  have bS : M.bc (0 + nx * 0) b 0 = wrExt (sideBC o3 b) (elnum 0 0 nx + 1) 1 (elnum 0 (ny - 1) nx + 1) 3
      (if internal then boxInner nx ny 0 0 0 BC.zero else BC.zero) := by
    unfold HexaData.bc; rw [h4 0 hnx 0 hny]; simp only [if_pos hb]; simp [boxOuter]
  have bN : M.bc (0 + nx * (ny - 1)) b 2 = wrExt (sideBC o4 b) (elnum 0 (ny - 1) nx + 1) 3 (elnum 0 0 nx + 1) 1
      (if internal then boxInner nx ny 0 (ny - 1) 2 BC.zero else BC.zero) := by
    unfold HexaData.bc; rw [h4 0 hnx (ny - 1) (by omega)]; simp only [if_pos hb]; simp [boxOuter]
  have lt0 : 0 + nx * 0 < M.elem.length := by rw [h3]; exact elnum_lt hnx hny
  have lt1 : nx - 1 + nx * 0 < M.elem.length := by rw [h3]; exact elnum_lt (by omega) hny
  have lt2 : 0 + nx * (ny - 1) < M.elem.length := by rw [h3]; exact elnum_lt hnx (by omega)
  have key : ∀ (p q : Face) (s t : Name) (a c a' c' : Nat) (u u' : Nat × Nat) (r r' : BC F), p.1 < M.elem.length → p.2 < 4 →
      M.bc p.1 b p.2 = wrExt s a c (q.1 + 1) (q.2 + 1) r → M.bc q.1 b q.2 = wrExt t a' c' u.1 u.2 r' → s = nP → t = nP := by
    rintro p q s t a c a' c' u u' r r' hp hp2 e1 e2 rfl
    obtain ⟨y, y3, y4⟩ := hv p hp hp2 (Or.inr (by rw [e1, wrExt_typ]; rfl))
    rw [e1] at y3
    obtain rfl := pointsTo_unique y3 (wrExt_points _ _ q.1 q.2 _)
    rw [e1, e2, wrExt_typ, wrExt_typ] at y4
    exact (u3_single _ 'P').1 y4
  refine ⟨⟨key (0 + nx * 0, 3) (nx - 1 + nx * 0, 1) _ _ _ _ _ _ (_, _) (0, 0) _ _ lt0 (by dsimp only; omega) bW bE,
    key (nx - 1 + nx * 0, 1) (0 + nx * 0, 3) _ _ _ _ _ _ (_, _) (0, 0) _ _ lt1 (by dsimp only; omega) bE bW⟩,
    ⟨key (0 + nx * 0, 0) (0 + nx * (ny - 1), 2) _ _ _ _ _ _ (_, _) (0, 0) _ _ lt0 (by dsimp only; omega) bS bN,
    key (0 + nx * (ny - 1), 2) (0 + nx * 0, 0) _ _ _ _ _ _ (_, _) (0, 0) _ _ lt2 (by dsimp only; omega) bN bS⟩⟩

/-- What a result of `gen_box` with a one-sided periodic condition looks like in general: it is never validly connected
(if in any field exactly one of two opposite sides is periodic). So the check asked for in C62 would reject only invalid
meshes. -/
theorem gen_box_one_sided_invalid (native : Endian) (nx ny : Nat) (xmin xmax ymin ymax : F) (var : Var)
    (o1 o2 o3 o4 : Option (List Name)) (internal : Bool) (A : BoxArgs nx ny xmin xmax ymin ymax var o1 o2 o3 o4)
    (b : Nat) (hb : b < boxNbc var) (h : ¬ (sideBC o1 b = nP ↔ sideBC o2 b = nP) ∨ ¬ (sideBC o3 b = nP ↔ sideBC o4 b = nP))
    (C : Face → Face → Prop) :
    ∃ M : HexaData F, genBox native nx ny xmin xmax ymin ymax var o1 o2 o3 o4 internal = .ok M ∧ ¬ Valid M C := by
  obtain ⟨M, h1, h2, h3, h4⟩ := genBox_ok (native := native) (internal := internal) A
  have hnbc : M.nbc = boxNbc var := by rw [h2]; rfl
  have hndim : M.ndim = 2 := by rw [h2]; rfl
  refine ⟨M, h1, fun hv => ?_⟩
  have := genBox_partners A.nx A.ny h3 h4 b hb fun x x1 x2 x3 => by
    obtain ⟨y, -, -, y3, y4, -⟩ := hv b (hnbc ▸ hb) x x1 (by rw [hndim]; exact x2) x3
    exact ⟨y, y3, y4⟩
  rcases h with h | h
  · exact h this.1
  · exact h this.2

example : ¬ (sideBC (some [nP]) 0 = nP ↔ sideBC (some [['W']]) 0 = nP) := by decide

/-- **C62, what holds.** If `gen_box` returns a valid mesh then no field is periodic on exactly one of two opposite sides, i.e. the
invalid ones are detected by checking the result. Missing: `gen_box` itself does not raise. -/
theorem gen_box_one_sided_partial (native : Endian) (nx ny : Nat) (xmin xmax ymin ymax : F) (var : Var)
    (o1 o2 o3 o4 : Option (List Name)) (internal : Bool) (A : BoxArgs nx ny xmin xmax ymin ymax var o1 o2 o3 o4)
    (M : HexaData F) (C : Face → Face → Prop)
    (h : genBox native nx ny xmin xmax ymin ymax var o1 o2 o3 o4 internal = .ok M) (hv : Valid M C) :
    ∀ b < boxNbc var, (sideBC o1 b = nP ↔ sideBC o2 b = nP) ∧ (sideBC o3 b = nP ↔ sideBC o4 b = nP) := by
  intro b hb
  by_contra hn
  obtain ⟨M', h', hv'⟩ := gen_box_one_sided_invalid native nx ny xmin xmax ymin ymax var o1 o2 o3 o4 internal A b hb
    (not_and_or.mp hn) C
  rw [h] at h'
  simp only [Except.ok.injEq] at h'
  exact hv' (h' ▸ hv)

/-- **C62, what holds**: `check_connectivity` accepts the result of `gen_box` exactly if no field is periodic on one of two opposite sides only.
Missing: `gen_box` itself does not raise. -/
theorem gen_box_check_iff_partial (native : Endian) (nx ny : Nat) (xmin xmax ymin ymax : F) (var : Var) (o1 o2 o3 o4 : Option (List Name))
    (A : BoxArgs nx ny xmin xmax ymin ymax var o1 o2 o3 o4)
    (hN : ∀ b < boxNbc var, ∀ o ∈ [o1, o2, o3, o4], sideBC o b ≠ [] ∧ sideBC o b ≠ nE) :
    ∃ M : HexaData F, genBox native nx ny xmin xmax ymin ymax var o1 o2 o3 o4 true = .ok M ∧ ∀ tol, 0 ≤ tol →
      (M.checkConnectivity tol = .ok true ↔
        ∀ b < boxNbc var, (sideBC o1 b = nP ↔ sideBC o2 b = nP) ∧ (sideBC o3 b = nP ↔ sideBC o4 b = nP)) := by
  obtain ⟨M, h1, h2, h3, h4⟩ := genBox_ok (native := native) (internal := true) A
  have hnbc : M.nbc = boxNbc var := by rw [h2]; rfl
  have hndim : M.ndim = 2 := by rw [h2]; rfl
  have hel : ∀ el ∈ M.elem, ∃ i < nx, ∃ j < ny, el = M.el (i + nx * j) := by
    intro el hm
    obtain ⟨k, hk, rfl⟩ := List.getElem_of_mem hm
    obtain ⟨i, hi, j, hj, e⟩ := elnum_cases (h3 ▸ hk)
    refine ⟨i, hi, j, hj, ?_⟩
    subst e
    exact (M.el_eq_getElem _ hk).symm
  have hw : WF M := by
    refine ⟨by rw [h3, h2]; rfl, fun el hm => ?_, .inl hndim⟩
    obtain ⟨i, hi, j, hj, rfl⟩ := hel el hm
    rw [h4 i hi j hj, hnbc]
    rfl
  have hg : Grid M := by
    intro el hm
    obtain ⟨i, hi, j, hj, rfl⟩ := hel el hm
    rw [h4 i hi j hj]
    exact ⟨le_refl 2, le_refl 2, le_refl 1⟩
  refine ⟨M, h1, fun tol ht => ⟨fun hc b hb => ?_, fun hS => ?_⟩⟩
  · rw [check_connectivity_iff M hw hg tol] at hc
    refine genBox_partners A.nx A.ny h3 h4 b hb fun x x1 x2 x3 => ?_
    obtain ⟨y, -, -, y3, y4, -⟩ := hc b (hnbc ▸ hb) x x1 (by rw [hndim]; exact x2) x3
    exact ⟨y, y3, y4⟩
  · obtain ⟨M', h1', hc, -⟩ := gen_box_checks native nx ny xmin xmax ymin ymax var o1 o2 o3 o4 A fun b hb => ⟨hN b hb, hS b hb⟩
    rw [h1] at h1'
    injection h1' with e
    exact e ▸ hc tol ht

/-- Periodic in y on one side only: refused by the check. -/
example : ∃ M : HexaData ℚ, genBox .little 3 2 0 1 0 1 ⟨2, 2, 1, 0, 0⟩ (some [['v']]) (some [['O']]) (some [nP]) (some [['W']]) true = .ok M ∧
    M.checkConnectivity (1 / 1000) ≠ .ok true := by
  obtain ⟨M, h, hc⟩ := gen_box_check_iff_partial (F := ℚ) .little 3 2 0 1 0 1 ⟨2, 2, 1, 0, 0⟩ (some [['v']]) (some [['O']]) (some [nP]) (some [['W']])
    ⟨by decide, by decide, by norm_num, by norm_num, by decide, by decide, by decide, by decide⟩ (by decide)
  exact ⟨M, h, fun e => absurd (((hc _ (by norm_num)).mp e 0 (by decide)).2) (by decide)⟩

end Pymech
