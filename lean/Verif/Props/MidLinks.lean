import Verif.Props.MidGeom

/-!
# `extrude_mid`: connectivity, C73 and C85
-/

set_option linter.unusedSectionVars false
set_option autoImplicit false

namespace Pymech

open Spec

variable {F : Type} [Field F] [LinearOrder F] [IsStrictOrderedRing F] [FloorRing F]

/-! ### Records before the end conditions -/

theorem points_intCast {r : BC F} {a b : Int} (h3 : r.p3 = (a : F)) (h4 : r.p4 = (b : F)) {y : Face} (h1 : a = y.1 + 1) (h2 : b = y.2 + 1) :
    PointsTo r y := by
  unfold PointsTo
  rw [h3, h4, trunc_intCast, trunc_intCast]
  exact ⟨h1, h2⟩

/-- The record is an internal link to the face `y`. -/
def IsE (r : BC F) (y : Face) : Prop := r.typ = nE ∧ PointsTo r y

theorem isE_lk {r : BC F} {a : Int} {b : Nat} (ht : r.typ = nE) (h3 : r.p3 = (a : F)) (h4 : r.p4 = (b : F)) {y : Face} (h1 : a = y.1 + 1)
    (h2 : b = y.2 + 1) : IsE r y :=
  ⟨ht, points_intCast h3 (by rw [h4]; simp : r.p4 = ((b : Int) : F)) h1 (by omega)⟩

/-- Internal links inside a column. -/
theorem bcs_inner (nbc n kb s : Nat) (g : Nat → Nat → BC F) (h : Nat) (hh : h < 4) (b : Nat) (hb : b < nbc) : ∀ p ∈ innerPairs h,
    IsE (midBcs (split4 h) true nbc n kb s p.1.1 g b p.1.2) (s + p.2.1, p.2.2) ∧
    IsE (midBcs (split4 h) true nbc n kb s p.2.1 g b p.2.2) (s + p.1.1, p.1.2) := by
  have : h = 0 ∨ h = 1 ∨ h = 2 ∨ h = 3 := by omega
  unfold innerPairs
  simp only [List.forall_mem_cons, List.not_mem_nil, false_implies, implies_true, and_true]
  unfold midBcs
  simp only [if_pos hb, if_true]
  rcases this with rfl | rfl | rfl | rfl <;> refine ⟨⟨?_, ?_⟩, ⟨?_, ?_⟩, ⟨?_, ?_⟩, ⟨?_, ?_⟩, ⟨?_, ?_⟩, ⟨?_, ?_⟩, ⟨?_, ?_⟩⟩ <;>
    exact isE_lk rfl rfl rfl (by simp; try omega) (by rfl)

/-- Links to the block above. -/
theorem bcs_next (nbc n kb s : Nat) (g : Nat → Nat → BC F) (h : Nat) (hh : h < 4) (b : Nat) (hb : b < nbc) : ∀ p ∈ nextPairs,
    IsE (midBcs (split4 h) true nbc n kb s p.1.1 g b p.1.2) (s + 6 * n + p.2.1, p.2.2) := by
  have : h = 0 ∨ h = 1 ∨ h = 2 ∨ h = 3 := by omega
  unfold nextPairs
  simp only [List.forall_mem_cons, List.not_mem_nil, false_implies, implies_true, and_true]
  unfold midBcs
  simp only [if_pos hb, if_true]
  rcases this with rfl | rfl | rfl | rfl <;> refine ⟨?_, ?_⟩ <;>
    exact isE_lk rfl rfl rfl (by push_cast; omega) (by rfl)

/-- Links to the block below. -/
theorem bcs_prev (nbc n kb s t : Nat) (hs : s = t + 6 * n) (g : Nat → Nat → BC F) (h : Nat) (hh : h < 4) (b : Nat) (hb : b < nbc) : ∀ p ∈ nextPairs,
    IsE (midBcs (split4 h) true nbc n kb s p.2.1 g b p.2.2) (t + p.1.1, p.1.2) := by
  have : h = 0 ∨ h = 1 ∨ h = 2 ∨ h = 3 := by omega
  unfold nextPairs
  simp only [List.forall_mem_cons, List.not_mem_nil, false_implies, implies_true, and_true]
  unfold midBcs
  simp only [if_pos hb, if_true]
  rcases this with rfl | rfl | rfl | rfl <;> refine ⟨?_, ?_⟩ <;>
    exact isE_lk rfl rfl rfl (by push_cast; omega) (by rfl)

/-- The side faces: neither the high nor the low one. -/
def IsLat (h f : Nat) : Prop := f < 4 ∧ f ≠ h ∧ f ≠ opp h

theorem isLat_iff {h f : Nat} (hh : h < 4) : IsLat h f ↔ f = (split4 h).lat 0 ∨ f = (split4 h).lat 1 := by
  have : h = 0 ∨ h = 1 ∨ h = 2 ∨ h = 3 := by omega
  unfold IsLat
  rcases this with rfl | rfl | rfl | rfl <;> simp [opp, split4, pair] <;> omega

theorem bcs_side (ib : Bool) (nbc n kb s j : Nat) (g : Nat → Nat → BC F) (h f : Nat) (hh : h < 4) (hf : IsLat h f) (b : Nat) (hb : b < nbc) :
    (midBcs (split4 h) ib nbc n kb s j g b f).typ = (g b f).typ ∧
    (IsLink (g b f) → ∀ (y : Face), (g b f).p3 = ((y.1 : F) + 1) → trunc (g b f).p4 = (y.2 : Int) + 1 →
      PointsTo (midBcs (split4 h) ib nbc n kb s j g b f) (6 * (y.1 + n * kb) + j, y.2)) := by
  have hi : (if ib then midInner (split4 h) n s j f (g b f) else g b f) = g b f := by
    have e : (split4 h).ehi = h ∧ (split4 h).elo = opp h := by
      have : ∀ h < 4, (split4 h).ehi = h ∧ (split4 h).elo = opp h := by decide
      exact this h hh
    obtain ⟨f1, f2, f3⟩ := hf
    split_ifs
    · unfold midInner
      simp only [e.1, e.2, if_neg f2, if_neg f3, if_neg (show f ≠ 4 by omega), if_neg (show f ≠ 5 by omega)]
    · rfl
  unfold midBcs
  rw [if_pos hb, hi]
  unfold midSide
  refine ⟨by split_ifs <;> rfl, fun hl y h3 h4 => ?_⟩
  rw [if_pos ⟨(isLat_iff hh).1 hf, hl.symm⟩]
  refine ⟨?_, h4⟩
  have : (6 * ((g b f).p3 - 1 + ((n * kb : Nat) : F)) + (j : F) + 1) = (((6 * (y.1 + n * kb) + j : Nat) : Int) + 1 : Int) := by
    rw [h3]; push_cast; ring
  show trunc (6 * ((g b f).p3 - 1 + ((n * kb : Nat) : F)) + (j : F) + 1) = _
  rw [this, trunc_intCast]

namespace Spec

/-- The outer faces on the high and the low side of a column: those of elements at the high side (1 and 4) and at the low side. -/
def outerFaces (h : Nat) : List Face := [(1, h), (4, h), (0, opp h), (2, opp h), (3, opp h), (5, opp h)]

end Spec

theorem bcs_outer (ib : Bool) (nbc n kb s : Nat) (g : Nat → Nat → BC F) (h : Nat) (hh : h < 4) (b : Nat) : ∀ x ∈ outerFaces h,
    midBcs (split4 h) ib nbc n kb s x.1 g b x.2 = g b x.2 := by
  have : h = 0 ∨ h = 1 ∨ h = 2 ∨ h = 3 := by omega
  unfold outerFaces midBcs
  simp only [List.forall_mem_cons, List.not_mem_nil, false_implies, implies_true, and_true]
  by_cases hb : b < nbc
  · simp only [if_pos hb]
    cases ib <;> rcases this with rfl | rfl | rfl | rfl <;> exact ⟨rfl, rfl, rfl, rfl, rfl, rfl⟩
  · simp only [if_neg hb]
    simp

/-- Every face of a column is of exactly one kind. -/
theorem face_kinds (h : Nat) (hh : h < 4) (j f : Nat) (hj : j < 6) (hf : f < 6) :
    (∃ y, ((j, f), y) ∈ innerPairs h ∨ (y, (j, f)) ∈ innerPairs h) ∨ (∃ y, ((j, f), y) ∈ nextPairs) ∨ (∃ y, (y, (j, f)) ∈ nextPairs) ∨
      IsLat h f ∨ (j, f) ∈ outerFaces h := by
  have hd : ((List.range 4).all fun h => (List.range 6).all fun j => (List.range 6).all fun f =>
    (((innerPairs h).any fun p => decide (p.1 = (j, f) ∨ p.2 = (j, f))) || (nextPairs.any fun p => decide (p.1 = (j, f) ∨ p.2 = (j, f)))) ||
      (decide (f < 4 ∧ f ≠ h ∧ f ≠ opp h) || decide ((j, f) ∈ outerFaces h))) = true := by decide
  have h0 := List.all_eq_true.1 (List.all_eq_true.1 (List.all_eq_true.1 hd h (List.mem_range.2 hh)) j (List.mem_range.2 hj)) f (List.mem_range.2 hf)
  rw [Bool.or_eq_true, Bool.or_eq_true (decide _), decide_eq_true_eq, decide_eq_true_eq] at h0
  rcases h0 with h1 | h1 | h1
  · rw [Bool.or_eq_true, List.any_eq_true, List.any_eq_true] at h1
    rcases h1 with ⟨p, hp, h1⟩ | ⟨p, hp, h1⟩
    · simp only [decide_eq_true_eq] at h1
      rcases h1 with h1 | h1
      · exact Or.inl ⟨p.2, Or.inl (by rw [← h1]; exact hp)⟩
      · exact Or.inl ⟨p.1, Or.inr (by rw [← h1]; exact hp)⟩
    · simp only [decide_eq_true_eq] at h1
      rcases h1 with h1 | h1
      · exact Or.inr (Or.inl ⟨p.2, by rw [← h1]; exact hp⟩)
      · exact Or.inr (Or.inr (Or.inl ⟨p.1, by rw [← h1]; exact hp⟩))
  · exact Or.inr (Or.inr (Or.inr (Or.inl h1)))
  · exact Or.inr (Or.inr (Or.inr (Or.inr h1)))

/-! ### Records of the result -/

/-- Where element `j` of the column over element `i` in block `kb` is stored. -/
def Spec.colFace (n kb i : Nat) (x : Face) : Face := (6 * (i + n * kb) + x.1, x.2)

theorem MidDesc.bcs {rt : F → F} {f : F → F → F} {ib : Bool} {z : List F} {l1 l2 : List Name} {nb : Nat} {M R : HexaData F} {kb i : Nat}
    (D : MidDesc rt f ib z l1 l2 nb M R kb i) (hc : HasCorners (M.el i)) {h : Nat} (H : HighSide f (M.el i) h) (hi : i < M.nel) (hkb : kb < nb)
    (j : Nat) (hj : j < 6) (b : Nat) (hb : b < M.nbc) (k : Nat) :
    (¬ (k = 4 ∧ kb = 0 ∧ j ≤ 1) → ¬ (k = 5 ∧ kb + 1 = nb ∧ 4 ≤ j) →
      R.bc (6 * (i + M.nel * kb) + j) b k = midBcs (split4 h) ib M.nbc M.nel kb (6 * (i + M.nel * kb)) j (M.el i).bcs b k) ∧
    (k = 4 ∧ kb = 0 ∧ j ≤ 1 → (R.bc (6 * (i + M.nel * kb) + j) b k).typ = u3 (l1.getD b []) ∧
      (l1.getD b [] = nP → PointsTo (R.bc (6 * (i + M.nel * kb) + j) b k) (colFace M.nel (nb - 1) i (5 - j, 5)))) ∧
    (k = 5 ∧ kb + 1 = nb ∧ 4 ≤ j → (R.bc (6 * (i + M.nel * kb) + j) b k).typ = u3 (l2.getD b []) ∧
      (l2.getD b [] = nP → PointsTo (R.bc (6 * (i + M.nel * kb) + j) b k) (colFace M.nel 0 i (5 - j, 4)))) := by
  obtain ⟨l, base, E, base', ⟨a1, -⟩, a2, -, a4, a5⟩ := D
  obtain ⟨l', c1, c2⟩ := classify_high hc H
  obtain rfl : l = l' := by rw [a2] at c1; simpa using c1
  rw [c2] at a4
  have e1 : 6 * (i + M.nel * kb) + j < 6 * M.nel ↔ kb = 0 := by
    constructor
    · intro h
      by_contra h0
      have : M.nel * 1 ≤ M.nel * kb := Nat.mul_le_mul_left _ (by omega)
      omega
    · rintro rfl; omega
  obtain ⟨m, rfl⟩ : ∃ m, nb = m + 1 := ⟨nb - 1, by omega⟩
  have e0 : M.nel * 6 * (m + 1) - 6 * M.nel = 6 * (M.nel * m) := by
    rw [show M.nel * 6 * (m + 1) = 6 * (M.nel * m) + 6 * M.nel by ring]; omega
  have e2 : M.nel * 6 * (m + 1) - 6 * M.nel ≤ 6 * (i + M.nel * kb) + j ↔ kb = m := by
    rw [e0]
    constructor
    · intro h
      by_contra h0
      have : M.nel * (kb + 1) ≤ M.nel * m := Nat.mul_le_mul_left _ (by omega)
      rw [Nat.mul_add] at this
      omega
    · rintro rfl; omega
  have e3 : (6 * (i + M.nel * kb) + j) % 6 = j := by omega
  have e4 : (6 * (i + M.nel * kb) + j) / 6 = i + M.nel * kb := by omega
  have eR : R.bc (6 * (i + M.nel * kb) + j) b k = (midEnds M.nel (M.nel * 6 * (m + 1)) M.nbc (fun b => l1.getD b []) (fun b => l2.getD b [])
      (6 * (i + M.nel * kb) + j) (E j)).bcs b k := by
    unfold HexaData.bc; rw [a5 j hj]
  rw [eR]
  unfold midEnds
  dsimp only
  rw [if_pos hb]
  simp only [e1, e2, e3, e4]
  refine ⟨fun h1 h2 => ?_, fun h1 => ?_, fun h2 => ?_⟩
  · rw [if_neg h1, if_neg (by omega), a4.bcs j, a1.bcs]
  · rw [if_pos h1]
    refine ⟨rfl, fun hp => ?_⟩
    obtain ⟨rfl, rfl, h3⟩ := h1
    unfold PointsTo colFace
    dsimp only
    rw [if_pos hp, if_pos hp, trunc_natCast, show (6 : F) = ((6 : Nat) : F) by norm_num, trunc_natCast]
    refine ⟨?_, rfl⟩
    rw [show m + 1 - 1 = m by omega]
    have : M.nel * 6 * (m + 1) = 6 * (M.nel * m) + 6 * M.nel := by ring
    omega
  · rw [if_neg (by omega), if_pos (by omega)]
    refine ⟨rfl, fun hp => ?_⟩
    obtain ⟨rfl, h3, h4⟩ := h2
    obtain rfl : kb = m := by omega
    unfold PointsTo colFace
    dsimp only
    rw [if_pos hp, if_pos hp, trunc_natCast, show (5 : F) = ((5 : Nat) : F) by norm_num, trunc_natCast]
    refine ⟨?_, rfl⟩
    rw [e0]
    omega

/-- Decomposition of an element number. -/
theorem col_cases {n nb e : Nat} (h : e < n * 6 * nb) : ∃ kb < nb, ∃ i < n, ∃ j < 6, e = 6 * (i + n * kb) + j := by
  have hn : 0 < n := by
    rcases Nat.eq_zero_or_pos n with rfl | h0
    · simp at h
    · exact h0
  have h6 : e / 6 < n * nb := by
    rw [Nat.div_lt_iff_lt_mul (by omega)]; rw [show n * nb * 6 = n * 6 * nb by ring]; exact h
  refine ⟨e / 6 / n, by rw [Nat.div_lt_iff_lt_mul hn, Nat.mul_comm nb n]; exact h6, e / 6 % n, Nat.mod_lt _ hn, e % 6, Nat.mod_lt _ (by omega), ?_⟩
  have := Nat.mod_add_div (e / 6) n
  omega

theorem col_lt {n nb kb i j : Nat} (hk : kb < nb) (hi : i < n) (hj : j < 6) : 6 * (i + n * kb) + j < n * 6 * nb := by
  have : n * (kb + 1) ≤ n * nb := Nat.mul_le_mul_left _ (by omega)
  rw [Nat.mul_add] at this
  rw [show n * 6 * nb = 6 * (n * nb) by ring]
  omega

/-! ### C73 -/

namespace Spec

/-- The mesh is connected through the sides of its columns only: the high face `h i` and the low face `opp (h i)` of element `i` are not linked. -/
def SideLinks (M : HexaData F) (h : Nat → Nat) : Prop :=
  ∀ b < M.nbc, ∀ i < M.nel, ¬ IsLink (M.bc i b (h i)) ∧ ¬ IsLink (M.bc i b (opp (h i)))

/-- The element numbers of links are whole numbers. -/
def WholeLinks (M : HexaData F) : Prop :=
  ∀ b < M.nbc, ∀ i < M.nel, ∀ f < 4, IsLink (M.bc i b f) → ∃ k : Nat, (M.bc i b f).p3 = (k : F)

/-- The faces which may be internally linked in the result: those meeting inside a column, those between two blocks of a column, and
the side faces of the same element in the same block of two columns whose side faces are related by `C` in the plane. -/
inductive MidRel (n nb : Nat) (h : Nat → Nat) (C : Face → Face → Prop) : Face → Face → Prop
  | inner {kb i : Nat} {x y : Face} : kb < nb → i < n → (x, y) ∈ innerPairs (h i) → MidRel n nb h C (colFace n kb i x) (colFace n kb i y)
  | inner' {kb i : Nat} {x y : Face} : kb < nb → i < n → (y, x) ∈ innerPairs (h i) → MidRel n nb h C (colFace n kb i x) (colFace n kb i y)
  | next {kb i : Nat} {x y : Face} : kb + 1 < nb → i < n → (x, y) ∈ nextPairs → MidRel n nb h C (colFace n kb i x) (colFace n (kb + 1) i y)
  | prev {kb i : Nat} {x y : Face} : kb + 1 < nb → i < n → (y, x) ∈ nextPairs → MidRel n nb h C (colFace n (kb + 1) i x) (colFace n kb i y)
  | side {kb j : Nat} {x y : Face} : kb < nb → j < 6 → x.1 < n → y.1 < n → x.2 < 4 → x.2 ≠ h x.1 → x.2 ≠ opp (h x.1) →
      y.2 < 4 → y.2 ≠ h y.1 → y.2 ≠ opp (h y.1) → C x y → MidRel n nb h C (colFace n kb x.1 (j, x.2)) (colFace n kb y.1 (j, y.2))

end Spec

theorem inner_bounds (h : Nat) (hh : h < 4) : ∀ p ∈ innerPairs h, (p.1.1 < 6 ∧ p.1.2 < 6 ∧ ¬ (p.1.2 = 4 ∧ p.1.1 ≤ 1) ∧ ¬ (p.1.2 = 5 ∧ 4 ≤ p.1.1)) ∧
    (p.2.1 < 6 ∧ p.2.2 < 6 ∧ ¬ (p.2.2 = 4 ∧ p.2.1 ≤ 1) ∧ ¬ (p.2.2 = 5 ∧ 4 ≤ p.2.1)) := by
  have : h = 0 ∨ h = 1 ∨ h = 2 ∨ h = 3 := by omega
  rcases this with rfl | rfl | rfl | rfl <;> decide

theorem next_cases {x y : Face} (h : (x, y) ∈ nextPairs) : x.2 = 5 ∧ 4 ≤ x.1 ∧ x.1 < 6 ∧ y.2 = 4 ∧ y.1 ≤ 1 ∧ x.1 + y.1 = 5 := by
  unfold nextPairs at h
  simp only [List.mem_cons, Prod.mk.injEq, List.not_mem_nil, or_false] at h
  rcases h with ⟨rfl, rfl⟩ | ⟨rfl, rfl⟩ <;> simp

theorem outer_bounds {h : Nat} (hh : h < 4) {x : Face} (hx : x ∈ outerFaces h) : x.2 < 4 ∧ (x.2 = h ∨ x.2 = opp h) := by
  have : h = 0 ∨ h = 1 ∨ h = 2 ∨ h = 3 := by omega
  rcases this with rfl | rfl | rfl | rfl <;> revert x <;> decide

theorem ends_iff {M : HexaData F} {z : List F} {l1 l2 : List Name} {f : F → F → F} {nb : Nat} (A : MidArgs M z l1 l2 f nb) (b : Nat)
    (hb : b < M.nbc) : l1.getD b [] = nP ↔ l2.getD b [] = nP := by
  have h1 := A.len1
  have h2 := A.len2
  by_contra h
  apply A.ends
  refine ⟨b, l1.getD b [], l2.getD b [], ?_, ?_, h⟩
  · rw [List.getD_eq_getElem?_getD, List.getElem?_eq_getElem (by omega)]; rfl
  · rw [List.getD_eq_getElem?_getD, List.getElem?_eq_getElem (by omega)]; rfl

/-- **C73.** If the plane mesh is validly connected through the sides of the columns and the end conditions are not `'E'`, the links of the
result (with `internal_bcs`) are mutual, and internal links are those of the figure or above links of the plane mesh. -/
theorem C73 (rt : F → F) (M : HexaData F) (z : List F) (l1 l2 : List Name) (f : F → F → F) (nb : Nat) (A : MidArgs M z l1 l2 f nb)
    (h : Nat → Nat) (H : ∀ i < M.nel, HighSide f (M.el i) (h i)) (C : Face → Face → Prop) (hV : Valid M C) (hS : SideLinks M h)
    (hW : WholeLinks M) (hE : ∀ b < M.nbc, u3 (l1.getD b []) ≠ nE ∧ u3 (l2.getD b []) ≠ nE) :
    ∃ M' R, extrudeMid rt M z l1 l2 f true = .ok (M', R) ∧ Valid R (MidRel M.nel nb h C) := by
  obtain ⟨M', R, h1, -, ⟨hd, hn, hnb, -⟩, -, hl, h5⟩ := extrudeMid_ok rt A true
  refine ⟨M', R, h1, fun b hb x hx hx2 => ?_⟩
  rw [hnb] at hb
  rw [hl] at hx ⊢
  rw [hd] at hx2 ⊢
  obtain ⟨kb, hkb, i, hi, j, hj, hxe⟩ := col_cases hx
  obtain ⟨x1, k⟩ := x
  dsimp only at hxe hx2 ⊢
  subst hxe
  have hh := (H i hi).1
  have P1 : u3 (l1.getD b []) = nP ↔ l1.getD b [] = nP := u3_single _ _
  have P2 : u3 (l2.getD b []) = nP ↔ l2.getD b [] = nP := u3_single _ _
  have P3 := ends_iff A b hb
  have ne : nE ≠ nP := by decide
  have D : ∀ kb < nb, ∀ i < M.nel, ∀ j < 6, ∀ k, _ := fun kb hkb i hi j hj k => (h5 kb hkb i hi).bcs (A.corners i hi) (H i hi) hi hkb j hj b hb k
  rcases face_kinds (h i) hh j k hj hx2 with ⟨y, hy⟩ | ⟨y, hy⟩ | ⟨y, hy⟩ | hlat | hout
  · -- inside the column
    intro _
    rcases hy with hy | hy
    · obtain ⟨b1, b2⟩ := inner_bounds (h i) hh _ hy
      obtain ⟨r1, r2⟩ := bcs_inner M.nbc M.nel kb (6 * (i + M.nel * kb)) (M.el i).bcs (h i) hh b hb _ hy
      rw [← (D kb hkb i hi j hj k).1 (fun e => b1.2.2.1 ⟨e.1, e.2.2⟩) (fun e => b1.2.2.2 ⟨e.1, e.2.2⟩)] at r1
      rw [← (D kb hkb i hi y.1 b2.1 y.2).1 (fun e => b2.2.2.1 ⟨e.1, e.2.2⟩) (fun e => b2.2.2.2 ⟨e.1, e.2.2⟩)] at r2
      exact ⟨colFace M.nel kb i y, col_lt hkb hi b2.1, b2.2.1, r1.2, r2.1.trans r1.1.symm, r2.2, fun _ => .inner hkb hi hy⟩
    · obtain ⟨b2, b1⟩ := inner_bounds (h i) hh _ hy
      obtain ⟨r2, r1⟩ := bcs_inner M.nbc M.nel kb (6 * (i + M.nel * kb)) (M.el i).bcs (h i) hh b hb _ hy
      rw [← (D kb hkb i hi j hj k).1 (fun e => b1.2.2.1 ⟨e.1, e.2.2⟩) (fun e => b1.2.2.2 ⟨e.1, e.2.2⟩)] at r1
      rw [← (D kb hkb i hi y.1 b2.1 y.2).1 (fun e => b2.2.2.1 ⟨e.1, e.2.2⟩) (fun e => b2.2.2.2 ⟨e.1, e.2.2⟩)] at r2
      exact ⟨colFace M.nel kb i y, col_lt hkb hi b2.1, b2.2.1, r1.2, r2.1.trans r1.1.symm, r2.2, fun _ => .inner' hkb hi hy⟩
  · -- top of a block
    obtain ⟨c1, c2, c3, c4, c5, c6⟩ := next_cases hy
    dsimp only at c1 c2 c3 c6
    by_cases ht : kb + 1 = nb
    · obtain ⟨t1, t2⟩ := (D kb hkb i hi j hj k).2.2 ⟨c1, ht, c2⟩
      intro hlk
      have hp : l2.getD b [] = nP := by
        rw [← P2, ← t1]
        rcases hlk with hlk | hlk
        · exact absurd (t1.symm.trans hlk) (hE b hb).2
        · exact hlk
      obtain ⟨s1, s2⟩ := (D 0 (by omega) i hi (5 - j) (by omega) 4).2.1 ⟨rfl, rfl, by omega⟩
      have s2 := s2 (P3.2 hp)
      refine ⟨colFace M.nel 0 i (5 - j, 4), col_lt A.pos hi (by omega), by unfold colFace; omega, t2 hp, ?_, ?_, ?_⟩
      · exact s1.trans ((P1.2 (P3.2 hp)).trans ((P2.2 hp).symm.trans t1.symm))
      · rw [show nb - 1 = kb by omega, show 5 - (5 - j) = j by omega] at s2
        rw [c1]; exact s2
      · intro he
        exact absurd (t1.symm.trans he) (hE b hb).2
    · intro _
      have r1 := bcs_next M.nbc M.nel kb (6 * (i + M.nel * kb)) (M.el i).bcs (h i) hh b hb _ hy
      have r2 := bcs_prev M.nbc M.nel (kb + 1) (6 * (i + M.nel * (kb + 1))) (6 * (i + M.nel * kb)) (by ring) (M.el i).bcs (h i) hh b hb _ hy
      rw [← (D kb hkb i hi j hj k).1 (by omega) (by omega)] at r1
      rw [← (D (kb + 1) (by omega) i hi y.1 (by omega) y.2).1 (by omega) (by omega)] at r2
      rw [show 6 * (i + M.nel * kb) + 6 * M.nel = 6 * (i + M.nel * (kb + 1)) by ring] at r1
      exact ⟨colFace M.nel (kb + 1) i y, col_lt (by omega) hi (by omega), by unfold colFace; omega, r1.2, r2.1.trans r1.1.symm, r2.2,
        fun _ => .next (by omega) hi hy⟩
  · -- bottom of a block
    obtain ⟨c1, c2, c3, c4, c5, c6⟩ := next_cases hy
    dsimp only at c4 c5 c6
    by_cases ht : kb = 0
    · obtain ⟨t1, t2⟩ := (D kb hkb i hi j hj k).2.1 ⟨c4, ht, c5⟩
      intro hlk
      have hp : l1.getD b [] = nP := by
        rw [← P1, ← t1]
        rcases hlk with hlk | hlk
        · exact absurd (t1.symm.trans hlk) (hE b hb).1
        · exact hlk
      have hnb := A.pos
      obtain ⟨s1, s2⟩ := (D (nb - 1) (by omega) i hi (5 - j) (by omega) 5).2.2 ⟨rfl, by omega, by omega⟩
      have s2 := s2 (P3.1 hp)
      refine ⟨colFace M.nel (nb - 1) i (5 - j, 5), col_lt (by omega) hi (by omega), by unfold colFace; omega, t2 hp, ?_, ?_, ?_⟩
      · exact s1.trans ((P2.2 (P3.1 hp)).trans ((P1.2 hp).symm.trans t1.symm))
      · rw [show 5 - (5 - j) = j by omega] at s2
        rw [c4, ht]; exact s2
      · intro he
        exact absurd (t1.symm.trans he) (hE b hb).1
    · intro _
      obtain ⟨k0, rfl⟩ : ∃ k0, kb = k0 + 1 := ⟨kb - 1, by omega⟩
      have r1 := bcs_next M.nbc M.nel k0 (6 * (i + M.nel * k0)) (M.el i).bcs (h i) hh b hb _ hy
      have r2 := bcs_prev M.nbc M.nel (k0 + 1) (6 * (i + M.nel * (k0 + 1))) (6 * (i + M.nel * k0)) (by ring) (M.el i).bcs (h i) hh b hb _ hy
      rw [← (D k0 (by omega) i hi y.1 (by omega) y.2).1 (by omega) (by omega)] at r1
      rw [← (D (k0 + 1) (by omega) i hi j hj k).1 (by omega) (by omega)] at r2
      rw [show 6 * (i + M.nel * k0) + 6 * M.nel = 6 * (i + M.nel * (k0 + 1)) by ring] at r1
      exact ⟨colFace M.nel k0 i y, col_lt (by omega) hi (by omega), by unfold colFace; omega, r2.2, r1.1.trans r2.1.symm, r1.2,
        fun _ => .prev (by omega) hi hy⟩
  · -- side
    obtain ⟨f1, f2, f3⟩ := hlat
    obtain ⟨s1, s2⟩ := bcs_side true M.nbc M.nel kb (6 * (i + M.nel * kb)) j (M.el i).bcs (h i) k hh ⟨f1, f2, f3⟩ b hb
    rw [← (D kb hkb i hi j hj k).1 (by omega) (by omega)] at s1 s2
    intro hlk
    have hl0 : IsLink (M.bc i b k) := by
      unfold IsLink at hlk ⊢; rw [s1] at hlk; exact hlk
    have hn' := A.wf.nel
    obtain ⟨y, y1, y2, y3, y4, y5, y6⟩ := hV b hb (i, k) (by omega) (by rw [A.ndim]; exact f1) hl0
    rw [A.ndim] at y2
    have hly : IsLink (M.bc y.1 b y.2) := by
      unfold IsLink at hl0 ⊢; rw [y4]; exact hl0
    have hSy := hS b hb y.1 (by omega)
    have g2 : y.2 ≠ h y.1 := fun e => hSy.1 (e ▸ hly)
    have g3 : y.2 ≠ opp (h y.1) := fun e => hSy.2 (e ▸ hly)
    have hy := (H y.1 (by omega)).1
    obtain ⟨t1, t2⟩ := bcs_side true M.nbc M.nel kb (6 * (y.1 + M.nel * kb)) j (M.el y.1).bcs (h y.1) y.2 hy ⟨y2, g2, g3⟩ b hb
    rw [← (D kb hkb y.1 (by omega) j hj y.2).1 (by omega) (by omega)] at t1 t2
    have p3 : ∀ i < M.nel, ∀ k < 4, IsLink (M.bc i b k) → ∀ y : Face, PointsTo (M.bc i b k) y → (M.bc i b k).p3 = (y.1 : F) + 1 := by
      intro i hi k hk hl y hy
      obtain ⟨m, hm⟩ := hW b hb i hi k hk hl
      have := hy.1
      rw [hm, trunc_natCast] at this
      rw [hm, show m = y.1 + 1 by omega]
      push_cast; rfl
    refine ⟨colFace M.nel kb y.1 (j, y.2), col_lt hkb (by omega) hj, by unfold colFace; dsimp only; omega, s2 hl0 y (p3 i hi k f1 hl0 y y3) y3.2, ?_,
      t2 hly (i, k) (p3 y.1 (by omega) y.2 y2 hly (i, k) y5) y5.2, fun he => ?_⟩
    · exact t1.trans (y4.trans s1.symm)
    · exact .side (x := (i, k)) hkb hj hi (by omega) f1 f2 f3 y2 g2 g3 (y6 (s1.symm.trans he))
  · -- outer faces
    intro hlk
    exfalso
    obtain ⟨o1, o2⟩ := outer_bounds hh hout
    have r := bcs_outer true M.nbc M.nel kb (6 * (i + M.nel * kb)) (M.el i).bcs (h i) hh b _ hout
    dsimp only at o1 o2 r
    rw [← (D kb hkb i hi j hj k).1 (by omega) (by omega)] at r
    rw [r] at hlk
    rcases o2 with e | e
    · rw [e] at hlk; exact (hS b hb i hi).1 hlk
    · rw [e] at hlk; exact (hS b hb i hi).2 hlk

/-! ### C73: linked faces coincide -/

namespace Spec

/-- The two faces of the plane mesh have the same end points. -/
def SameEdge (M : HexaData F) (x y : Face) : Prop :=
  [planePt (M.el x.1) (sideCorner x.2 0), planePt (M.el x.1) (sideCorner x.2 1)].Perm
    [planePt (M.el y.1) (sideCorner y.2 0), planePt (M.el y.1) (sideCorner y.2 1)]

/-- The two faces of the mesh have the same four vertices. -/
def SameFace (M : HexaData F) (x y : Face) : Prop := SharedFace (M.el x.1) x.2 (M.el y.1) y.2

end Spec

theorem Spec.Valid.mono {M : HexaData F} {C D : Face → Face → Prop} (h : Valid M C) (hCD : ∀ x y, C x y → D x y) : Valid M D := by
  intro b hb x hx hx2 hl
  obtain ⟨y, y1, y2, y3, y4, y5, y6⟩ := h b hb x hx hx2 hl
  exact ⟨y, y1, y2, y3, y4, y5, fun he => hCD x y (y6 he)⟩

theorem side_shared {el el' : Elem F} (d : el.pos.lz = 2 ∧ el.pos.ly = 2 ∧ el.pos.lx = 2) (d' : el'.pos.lz = 2 ∧ el'.pos.ly = 2 ∧ el'.pos.lx = 2)
    (h h' q q' : Nat) (hh : h < 4) (hh' : h' < 4) (hq : q < 2) (hq' : q' < 2)
    (e : ∀ kz < 2, vert el kz (sideCorner (opp h) q) = vert el' kz (sideCorner (opp h') q') ∧
      vert el kz (sideCorner h q) = vert el' kz (sideCorner h' q')) :
    SharedFace el ((split4 h).lat q) el' ((split4 h').lat q') := by
  obtain ⟨e0, e1⟩ := e 0 (by omega)
  obtain ⟨e2, e3⟩ := e 1 (by omega)
  have key : ∀ (el : Elem F), (el.pos.lz = 2 ∧ el.pos.ly = 2 ∧ el.pos.lx = 2) → ∀ h < 4, ∀ q < 2, (faceVerts el ((split4 h).lat q)).Perm
      [vert el 0 (sideCorner (opp h) q), vert el 0 (sideCorner h q), vert el 1 (sideCorner (opp h) q), vert el 1 (sideCorner h q)] := by
    intro el d h hh q hq
    unfold faceVerts faceCoord corner
    rw [d.1, d.2.1, d.2.2]
    have h4 : h = 0 ∨ h = 1 ∨ h = 2 ∨ h = 3 := by omega
    have h2 : q = 0 ∨ q = 1 := by omega
    rcases h4 with rfl | rfl | rfl | rfl <;> rcases h2 with rfl | rfl <;>
      first | exact List.Perm.refl _ | exact perm_t _ _ _ _ | exact perm_1 _ _ _ _ | exact perm_2 _ _ _ _ | exact perm_3 _ _ _ _ | exact perm_4 _ _ _ _ | exact perm_5 _ _ _ _
  unfold SharedFace
  refine (key el d h hh q hq).trans (List.Perm.trans ?_ (key el' d' h' hh' q' hq').symm)
  rw [e0, e1, e2, e3]

/-- A side face is one of the two lateral ones, and its end points are the low and the high one. -/
theorem lat_corners {h k : Nat} (hh : h < 4) (hk : IsLat h k) : ∃ q < 2, k = (split4 h).lat q ∧
    ((sideCorner k 0 = sideCorner (opp h) q ∧ sideCorner k 1 = sideCorner h q) ∨ (sideCorner k 1 = sideCorner (opp h) q ∧ sideCorner k 0 = sideCorner h q)) := by
  have : h = 0 ∨ h = 1 ∨ h = 2 ∨ h = 3 := by omega
  rcases (isLat_iff hh).1 hk with rfl | rfl
  · exact ⟨0, by omega, rfl, by rcases this with rfl | rfl | rfl | rfl <;> decide⟩
  · exact ⟨1, by omega, rfl, by rcases this with rfl | rfl | rfl | rfl <;> decide⟩

theorem corner_sign {f : F → F → F} {el : Elem F} {h : Nat} (H : HighSide f el h) (q : Nat) (hq : q < 2) :
    f (planePt el (sideCorner (opp h) q)).1 (planePt el (sideCorner (opp h) q)).2 ≤ 0 ∧
    0 < f (planePt el (sideCorner h q)).1 (planePt el (sideCorner h q)).2 := by
  obtain ⟨hh, H⟩ := H
  have hc : ∀ h < 4, ∀ q < 2, ∀ g < 4, (sideCorner g q).1 < 2 ∧ (sideCorner g q).2 < 2 := by decide
  have c1 := hc h hh q hq h hh
  have c2 := hc h hh q hq (opp h) (by unfold opp; omega)
  have ho : OnSide h (sideCorner h q).1 (sideCorner h q).2 ∧ ¬ OnSide h (sideCorner (opp h) q).1 (sideCorner (opp h) q).2 := by
    have h4 : h = 0 ∨ h = 1 ∨ h = 2 ∨ h = 3 := by omega
    unfold OnSide
    rcases h4 with rfl | rfl | rfl | rfl <;> simp [sideCorner, opp]
  exact ⟨not_lt.1 fun e => ho.2 ((H _ c2.1 _ c2.2).1 e), (H _ c1.1 _ c1.2).2 ho.1⟩

/-- **C73**, geometry: if moreover edges are straight and internally linked faces of the plane mesh have the same end points, then internally
linked faces of the result have the same four vertices; and `check_connectivity` accepts the result with every tolerance. -/
theorem C73_geometry (rt : F → F) (M : HexaData F) (z : List F) (l1 l2 : List Name) (f : F → F → F) (nb : Nat) (A : MidArgs M z l1 l2 f nb)
    (h : Nat → Nat) (H : ∀ i < M.nel, HighSide f (M.el i) (h i)) (hV : Valid M (SameEdge M)) (hS : SideLinks M h)
    (hW : WholeLinks M) (hE : ∀ b < M.nbc, u3 (l1.getD b []) ≠ nE ∧ u3 (l2.getD b []) ≠ nE)
    (hC : ∀ i < M.nel, ∀ e < 4, (M.el i).ccurv e = []) :
    ∃ M' R, extrudeMid rt M z l1 l2 f true = .ok (M', R) ∧ Valid R (SameFace R) ∧ ∀ tol, 0 ≤ tol → R.checkConnectivity tol = .ok true := by
  obtain ⟨M', R, r1, rV⟩ := C73 rt M z l1 l2 f nb A h H (SameEdge M) hV hS hW hE
  have hC' : ∀ i < M.nel, ∀ e < 4, (M.el i).ccurv e ≠ ['C'] := fun i hi e he => by rw [hC i hi e he]; decide
  obtain ⟨M1, R1, q1, rI⟩ := C74_inner rt M z l1 l2 f nb A true h H
  obtain ⟨M2, R2, q2, rN⟩ := C74_next rt M z l1 l2 f nb A true h H hC'
  obtain ⟨M3, R3, q3, rS⟩ := C74_section rt M z l1 l2 f nb A true h H hC
  obtain ⟨M4, R4, q4, -, ⟨hd, hn, hnb, -⟩, -, hl, h5⟩ := extrudeMid_ok rt A true
  rw [r1] at q1 q2 q3 q4
  obtain ⟨rfl, rfl⟩ : M' = M1 ∧ R = R1 := by simpa using q1
  obtain ⟨rfl, rfl⟩ : M' = M2 ∧ R = R2 := by simpa using q2
  obtain ⟨rfl, rfl⟩ : M' = M3 ∧ R = R3 := by simpa using q3
  obtain ⟨rfl, rfl⟩ : M' = M4 ∧ R = R4 := by simpa using q4
  clear q1 q2 q3 q4
  have dims : ∀ kb < nb, ∀ i < M.nel, ∀ j < 6, (R.el (6 * (i + M.nel * kb) + j)).pos.lz = 2 ∧ (R.el (6 * (i + M.nel * kb) + j)).pos.ly = 2 ∧
      (R.el (6 * (i + M.nel * kb) + j)).pos.lx = 2 := by
    intro kb hkb i hi j hj
    obtain ⟨pm, g1, -⟩ := (h5 kb hkb i hi).pos (A.corners i hi) (H i hi)
    rw [g1 j hj]
    exact ⟨rfl, rfl, rfl⟩
  have hF : Valid R (SameFace R) := by
    refine rV.mono fun x y hxy => ?_
    induction hxy with
    | inner hkb hi hm => exact rI _ hkb _ hi _ hm
    | inner' hkb hi hm => exact (rI _ hkb _ hi _ hm).symm
    | next hkb hi hm => exact rN _ hkb _ hi _ hm
    | prev hkb hi hm => exact (rN _ hkb _ hi _ hm).symm
    | @side kb j x y hkb hj hx hy x1 x2 x3 y1 y2 y3 hc =>
      obtain ⟨q, hq, kq, cq⟩ := lat_corners (H _ hx).1 ⟨x1, x2, x3⟩
      obtain ⟨q', hq', kq', cq'⟩ := lat_corners (H _ hy).1 ⟨y1, y2, y3⟩
      obtain ⟨s1, s2⟩ := corner_sign (H _ hx) q hq
      obtain ⟨s1', s2'⟩ := corner_sign (H _ hy) q' hq'
      have hab : planePt (M.el x.1) (sideCorner (opp (h x.1)) q) = planePt (M.el y.1) (sideCorner (opp (h y.1)) q') ∧
          planePt (M.el x.1) (sideCorner (h x.1) q) = planePt (M.el y.1) (sideCorner (h y.1) q') := by
        unfold SameEdge at hc
        have hp : ∀ a b c d : F × F, [a, b].Perm [c, d] → (a = c ∧ b = d) ∨ (a = d ∧ b = c) := by
          intro a b c d hp
          rcases List.perm_pair.1 hp with hp | hp <;> simp_all
        have hno : ∀ a b : F × F, f a.1 a.2 ≤ 0 → 0 < f b.1 b.2 → a ≠ b := by
          rintro a b h1 h2 rfl; exact absurd h2 (not_lt.2 h1)
        have n1 := hno _ _ s1 s2'
        rcases cq with ⟨a1, a2⟩ | ⟨a1, a2⟩ <;> rcases cq' with ⟨a1', a2'⟩ | ⟨a1', a2'⟩ <;> rw [a1, a2, a1', a2'] at hc <;>
          rcases hp _ _ _ _ hc with ⟨t1, t2⟩ | ⟨t1, t2⟩ <;>
          first | exact ⟨t1, t2⟩ | exact ⟨t2, t1⟩ | exact absurd t1 n1 | exact absurd t2 n1
      have v := rS kb hkb x.1 hx j hj q hq
      have v' := rS kb hkb y.1 hy j hj q' hq'
      dsimp only at v v'
      rw [hab.1, hab.2] at v
      obtain ⟨v1, v2, v3, v4⟩ := v
      obtain ⟨w1, w2, w3, w4⟩ := v'
      have := side_shared (dims kb hkb x.1 hx j hj) (dims kb hkb y.1 hy j hj) (h x.1) (h y.1) q q' (H _ hx).1 (H _ hy).1 hq hq' (by
        intro kz hkz
        have : kz = 0 ∨ kz = 1 := by omega
        rcases this with rfl | rfl
        · exact ⟨v1.trans w1.symm, v2.trans w2.symm⟩
        · exact ⟨v4.trans w4.symm, v3.trans w3.symm⟩)
      rw [← kq, ← kq'] at this
      exact this
  refine ⟨M', R, r1, hF, fun tol ht => ?_⟩
  have hall : ∀ el ∈ R.elem, ∃ kb < nb, ∃ i < M.nel, ∃ j < 6, el = R.el (6 * (i + M.nel * kb) + j) := by
    intro el hel
    obtain ⟨e, he, rfl⟩ := List.getElem_of_mem hel
    obtain ⟨kb, hkb, i, hi, j, hj, rfl⟩ := col_cases (hl ▸ he)
    refine ⟨kb, hkb, i, hi, j, hj, ?_⟩
    unfold HexaData.el
    rw [List.getD_eq_getElem?_getD, List.getElem?_eq_getElem he]; rfl
  have hg : Grid R := by
    intro el hel
    obtain ⟨kb, hkb, i, hi, j, hj, rfl⟩ := hall el hel
    obtain ⟨d1, d2, d3⟩ := dims kb hkb i hi j hj
    exact ⟨by omega, by omega, by omega⟩
  have hw : WF R := by
    refine ⟨by rw [hn, hl], fun el hel => ?_, Or.inr hd⟩
    obtain ⟨kb, hkb, i, hi, j, hj, rfl⟩ := hall el hel
    obtain ⟨l, base, E, base', a1, a2, -, a4, a5⟩ := h5 kb hkb i hi
    rw [a5 j hj]
    show (E j).rows = _
    rw [a4.rows j, a1.1.rows, hnb]
    have hn' := A.wf.nel
    apply A.wf.rows
    unfold HexaData.el
    rw [List.getD_eq_getElem?_getD, List.getElem?_eq_getElem (by omega)]
    exact List.getElem_mem _
  refine check_of_sameCentre R hw hg (hF.mono fun x y hxy d hd => ?_) tol ht
  have hs : ∀ (el : Elem F) (k : Nat) (c : V3 F → F) (_ : ∀ p : V3 F, c p = if d = 0 then p.x else if d = 1 then p.y else p.z),
      faceMean el k d = ((faceVerts el k).map c).sum / 4 := by
    intro el k c hc
    unfold faceMean faceVerts
    simp only [List.map_cons, List.map_nil, List.sum_cons, List.sum_nil, hc]
    have : d = 0 ∨ d = 1 ∨ d = 2 := by omega
    rcases this with rfl | rfl | rfl <;> simp <;> ring
  rw [hs _ _ (fun p => if d = 0 then p.x else if d = 1 then p.y else p.z) (fun _ => rfl),
    hs _ _ (fun p => if d = 0 then p.x else if d = 1 then p.y else p.z) (fun _ => rfl)]
  congr 1
  exact (List.Perm.map _ hxy).sum_eq

/-! ### C85: which faces carry which condition -/

namespace Spec

/-- The record is an internal link to the face. -/
def Internal (r : BC F) (y : Face) : Prop := r.typ = nE ∧ PointsTo r y

end Spec

/-- **C85.** With `internal_bcs` all faces inside a column and between blocks are internally linked to the face they coincide with (C74); the
high, low and side faces of the column keep the type of condition of the plane mesh, the ends get the prescribed ones. -/
theorem C85 (rt : F → F) (M : HexaData F) (z : List F) (l1 l2 : List Name) (f : F → F → F) (nb : Nat) (A : MidArgs M z l1 l2 f nb)
    (h : Nat → Nat) (H : ∀ i < M.nel, HighSide f (M.el i) (h i)) :
    ∃ M' R, extrudeMid rt M z l1 l2 f true = .ok (M', R) ∧ ∀ b < M.nbc, ∀ kb < nb, ∀ i < M.nel,
      let g : Face → BC F := fun x => R.bc (colFace M.nel kb i x).1 b x.2
      (∀ p ∈ innerPairs (h i), Internal (g p.1) (colFace M.nel kb i p.2) ∧ Internal (g p.2) (colFace M.nel kb i p.1)) ∧
      (kb + 1 < nb → ∀ p ∈ nextPairs, Internal (g p.1) (colFace M.nel (kb + 1) i p.2)) ∧
      (0 < kb → ∀ p ∈ nextPairs, Internal (g p.2) (colFace M.nel (kb - 1) i p.1)) ∧
      (∀ x ∈ outerFaces (h i), (g x).typ = (M.bc i b x.2).typ) ∧
      (∀ j < 6, ∀ k < 4, k ≠ h i → k ≠ opp (h i) → (g (j, k)).typ = (M.bc i b k).typ) ∧
      (kb = 0 → ∀ j ≤ 1, (g (j, 4)).typ = u3 (l1.getD b [])) ∧
      (kb + 1 = nb → ∀ j, 4 ≤ j → j < 6 → (g (j, 5)).typ = u3 (l2.getD b [])) := by
  obtain ⟨M', R, h1, -, -, -, -, h5⟩ := extrudeMid_ok rt A true
  refine ⟨M', R, h1, fun b hb kb hkb i hi => ?_⟩
  have hh := (H i hi).1
  have D : ∀ j < 6, ∀ k, _ := fun j hj k => (h5 kb hkb i hi).bcs (A.corners i hi) (H i hi) hi hkb j hj b hb k
  refine ⟨fun p hp => ?_, fun ht p hp => ?_, fun ht p hp => ?_, fun x hx => ?_, fun j hj k hk k1 k2 => ?_, fun h0 j hj => ?_, fun h0 j hj hj6 => ?_⟩
  · obtain ⟨b1, b2⟩ := inner_bounds (h i) hh _ hp
    obtain ⟨r1, r2⟩ := bcs_inner M.nbc M.nel kb (6 * (i + M.nel * kb)) (M.el i).bcs (h i) hh b hb _ hp
    rw [← (D p.1.1 b1.1 p.1.2).1 (fun e => b1.2.2.1 ⟨e.1, e.2.2⟩) (fun e => b1.2.2.2 ⟨e.1, e.2.2⟩)] at r1
    rw [← (D p.2.1 b2.1 p.2.2).1 (fun e => b2.2.2.1 ⟨e.1, e.2.2⟩) (fun e => b2.2.2.2 ⟨e.1, e.2.2⟩)] at r2
    exact ⟨r1, r2⟩
  · obtain ⟨c1, c2, c3, c4, c5, c6⟩ := next_cases hp
    have r1 := bcs_next M.nbc M.nel kb (6 * (i + M.nel * kb)) (M.el i).bcs (h i) hh b hb _ hp
    rw [← (D p.1.1 c3 p.1.2).1 (by omega) (by omega), show 6 * (i + M.nel * kb) + 6 * M.nel = 6 * (i + M.nel * (kb + 1)) by ring] at r1
    exact r1
  · obtain ⟨c1, c2, c3, c4, c5, c6⟩ := next_cases hp
    obtain ⟨k0, rfl⟩ : ∃ k0, kb = k0 + 1 := ⟨kb - 1, by omega⟩
    have r2 := bcs_prev M.nbc M.nel (k0 + 1) (6 * (i + M.nel * (k0 + 1))) (6 * (i + M.nel * k0)) (by ring) (M.el i).bcs (h i) hh b hb _ hp
    rw [← (D p.2.1 (by omega) p.2.2).1 (by omega) (by omega)] at r2
    exact r2
  · obtain ⟨o1, o2⟩ := outer_bounds hh hx
    have hx6 : ∀ h < 4, ∀ x ∈ outerFaces h, x.1 < 6 := by decide
    have r := bcs_outer true M.nbc M.nel kb (6 * (i + M.nel * kb)) (M.el i).bcs (h i) hh b _ hx
    rw [← (D x.1 (hx6 _ hh x hx) x.2).1 (by omega) (by omega)] at r
    exact congrArg BC.typ r
  · have s1 := (bcs_side true M.nbc M.nel kb (6 * (i + M.nel * kb)) j (M.el i).bcs (h i) k hh ⟨hk, k1, k2⟩ b hb).1
    rw [← (D j hj k).1 (by omega) (by omega)] at s1
    exact s1
  · exact ((D j (by omega) 4).2.1 ⟨rfl, h0, hj⟩).1
  · exact ((D j hj6 5).2.2 ⟨rfl, h0, hj⟩).1

/-! ### Examples -/

namespace Samples

/-- The links of a mesh, as a program. -/
def wholeLinksB (M : HexaData ℚ) : Bool :=
  (List.range M.nbc).all fun b => (List.range M.nel).all fun i => (List.range 4).all fun f =>
    decide ((M.bc i b f).typ = nE ∨ (M.bc i b f).typ = nP → (M.bc i b f).p3 = ((M.bc i b f).p3.num.toNat : ℚ))

theorem wholeLinks_of {M : HexaData ℚ} (h : wholeLinksB M = true) : WholeLinks M := by
  intro b hb i hi f hf hl
  have := List.all_eq_true.1 (List.all_eq_true.1 (List.all_eq_true.1 h b (List.mem_range.2 hb)) i (List.mem_range.2 hi)) f (List.mem_range.2 hf)
  exact ⟨_, of_decide_eq_true this hl⟩

def sideLinksB (M : HexaData ℚ) (h : Nat → Nat) : Bool :=
  (List.range M.nbc).all fun b => (List.range M.nel).all fun i =>
    decide (¬ ((M.bc i b (h i)).typ = nE ∨ (M.bc i b (h i)).typ = nP) ∧ ¬ ((M.bc i b (opp (h i))).typ = nE ∨ (M.bc i b (opp (h i))).typ = nP))

theorem sideLinks_of {M : HexaData ℚ} {h : Nat → Nat} (hb : sideLinksB M h = true) : SideLinks M h := by
  intro b hb' i hi
  have := List.all_eq_true.1 (List.all_eq_true.1 hb b (List.mem_range.2 hb')) i (List.mem_range.2 hi)
  rw [decide_eq_true_eq] at this
  exact this

/-- The end points of internally linked faces, as a program. -/
def edgesB (M : HexaData ℚ) : Bool :=
  (List.range M.nbc).all fun b => (allFaces M).all fun x =>
    let r := M.bc x.1 b x.2
    let y : Face := ((trunc r.p3 - 1).toNat, (trunc r.p4 - 1).toNat)
    let p := fun (x : Face) q => planePt (M.el x.1) (sideCorner x.2 q)
    decide (r.typ = nE → (p x 0 = p y 0 ∧ p x 1 = p y 1) ∨ (p x 0 = p y 1 ∧ p x 1 = p y 0))

theorem valid_edges {M : HexaData ℚ} (h : validB M = true) (he : edgesB M = true) : Valid M (SameEdge M) := by
  intro b hb x hx hx2 hl
  obtain ⟨y, y1, y2, y3, y4, y5, -⟩ := valid_of_validB M h b hb x hx hx2 hl
  refine ⟨y, y1, y2, y3, y4, y5, fun ht => ?_⟩
  have := List.all_eq_true.1 (List.all_eq_true.1 he b (List.mem_range.2 hb)) x (by simp [allFaces, hx, hx2])
  rw [decide_eq_true_eq, y3.1, y3.2] at this
  simp only [add_sub_cancel_right, Int.toNat_natCast] at this
  unfold SameEdge
  rcases this ht with ⟨e1, e2⟩ | ⟨e1, e2⟩
  · rw [e1, e2]
  · rw [e1, e2]; exact List.Perm.swap _ _ _

/-- A row of three squares between walls. -/
def midRow3 : HexaData ℚ := box 3 1 0 nP nP nW nW

theorem midRow3_args : MidArgs midRow3 z8 [nP] [nP] halfY 2 := midArgs_of (by decide +kernel)

theorem midRow3_high : ∀ i < midRow3.nel, HighSide halfY (midRow3.el i) 2 := by
  have : ∀ i < midRow3.nel, ∀ ky < 2, ∀ kx < 2, (0 < cornerVal halfY (midRow3.el i) ky kx ↔ OnSide 2 ky kx) := by decide +kernel
  exact fun i hi => ⟨by omega, this i hi⟩

end Samples

example : ∃ M' R, extrudeMid Samples.rootQ Samples.midRow3 Samples.z8 [nP] [nP] Samples.halfY true = .ok (M', R) ∧
    Valid R (MidRel Samples.midRow3.nel 2 (fun _ => 2) fun _ _ => True) :=
  C73 Samples.rootQ _ _ _ _ _ _ Samples.midRow3_args _ Samples.midRow3_high _ (Samples.valid_of_validB _ (by decide +kernel))
    (Samples.sideLinks_of (by decide +kernel)) (Samples.wholeLinks_of (by decide +kernel)) (by decide +kernel)

example : ∃ M' R, extrudeMid Samples.rootQ Samples.midRow3 Samples.z8 [nP] [nP] Samples.halfY true = .ok (M', R) ∧
    R.checkConnectivity (1 / 1000) = .ok true := by
  obtain ⟨M', R, h, -, h2⟩ := C73_geometry Samples.rootQ _ _ _ _ _ _ Samples.midRow3_args _ Samples.midRow3_high
    (Samples.valid_edges (by decide +kernel) (by decide +kernel)) (Samples.sideLinks_of (by decide +kernel))
    (Samples.wholeLinks_of (by decide +kernel)) (by decide +kernel) (by decide +kernel)
  exact ⟨M', R, h, h2 _ (by norm_num)⟩

/-- A wall of the second square. -/
example : ∃ M' R, extrudeMid Samples.rootQ Samples.midRow Samples.z8 [nP] [nP] Samples.halfY true = .ok (M', R) ∧
    (R.bc 10 0 2).typ = Samples.nW ∧ (R.bc 6 0 2).typ = nE ∧ (R.bc 6 0 4).typ = nP ∧ (R.bc 12 0 4).typ = nE := by
  obtain ⟨M', R, h, h1⟩ := C85 Samples.rootQ _ _ _ _ _ _ Samples.midRow_args _ Samples.midRow_high
  rw [Samples.midRow_nel] at h1
  obtain ⟨a1, a2, a3, a4, a5, a6, a7⟩ := h1 0 (by decide +kernel) 0 (by omega) 1 (by omega)
  obtain ⟨b1, b2, b3, b4, b5, b6, b7⟩ := h1 0 (by decide +kernel) 1 (by omega) 0 (by omega)
  exact ⟨M', R, h, (a4 (4, 2) (by decide)).trans (by decide +kernel), (a1 ((0, 2), (1, 0)) (by decide)).1.1, (a6 rfl 0 (by omega)).trans (by decide +kernel),
    (b3 (by omega) ((5, 5), (0, 4)) (by decide)).1⟩

/-- Without `internal_bcs` the condition of the high side appears on a face inside the column: the wall of the plane mesh is found between
elements 0 and 1. -/
theorem C85_no_internal : ∃ (M M' R : HexaData ℚ) (z : List ℚ) (f : ℚ → ℚ → ℚ), MidArgs M z [nP] [nP] f 2 ∧
    extrudeMid Samples.rootQ M z [nP] [nP] f false = .ok (M', R) ∧ SharedFace (R.el 0) 2 (R.el 1) 0 ∧ (R.bc 0 0 2).typ = Samples.nW ∧
    (R.bc 1 0 0).typ = Samples.nW := by
  obtain ⟨M', R, h1, h2⟩ := C74_inner Samples.rootQ _ _ _ _ _ _ Samples.midRow_args false (fun _ => 2) Samples.midRow_high
  have e : (match extrudeMid Samples.rootQ Samples.midRow Samples.z8 [nP] [nP] Samples.halfY false with
      | .ok (_, R) => decide ((R.bc 0 0 2).typ = Samples.nW ∧ (R.bc 1 0 0).typ = Samples.nW)
      | .error _ => false) = true := by decide +kernel
  rw [h1] at e
  obtain ⟨e1, e2⟩ := of_decide_eq_true e
  rw [Samples.midRow_nel] at h2
  exact ⟨Samples.midRow, M', R, Samples.z8, Samples.halfY, Samples.midRow_args, h1, h2 0 (by omega) 0 (by omega) ((0, 2), (1, 0)) (by decide), e1, e2⟩

namespace Samples

/-- A single square. -/
def midCell : HexaData ℚ := box 1 1 0 nW nW nW nW

/-- A saddle: two opposite corners of the square are high. -/
def saddle (x y : ℚ) : ℚ := (x - 1 / 2) * (1 / 2 - y)

end Samples

/-- An element with two opposite high corners, which does not fit the figure, is not rejected: it is divided into elements with faces that are
linked but do not coincide. -/
theorem C74_saddle : ∃ (M M' R : HexaData ℚ) (z : List ℚ) (f : ℚ → ℚ → ℚ), MidArgs M z [Samples.nW] [Samples.nW] f 1 ∧
    (∀ h, ¬ HighSide f (M.el 0) h) ∧ extrudeMid Samples.rootQ M z [Samples.nW] [Samples.nW] f true = .ok (M', R) ∧
    (R.bc 0 0 2).typ = nE ∧ PointsTo (R.bc 0 0 2) (1, 0) ∧ ¬ SharedFace (R.el 0) 2 (R.el 1) 0 := by
  have A : MidArgs Samples.midCell Samples.z4 [Samples.nW] [Samples.nW] Samples.saddle 1 := Samples.midArgs_of (by decide +kernel)
  obtain ⟨M', R, h1, -⟩ := extrudeMid_ok Samples.rootQ A true
  have e : (match extrudeMid Samples.rootQ Samples.midCell Samples.z4 [Samples.nW] [Samples.nW] Samples.saddle true with
      | .ok (_, R) => decide ((R.bc 0 0 2).typ = nE ∧ trunc (R.bc 0 0 2).p3 = 2 ∧ trunc (R.bc 0 0 2).p4 = 1 ∧
          ((faceVerts (R.el 0) 2).map V3.y).sum = 3 ∧ ((faceVerts (R.el 1) 0).map V3.y).sum = 1)
      | .error _ => false) = true := by decide +kernel
  rw [h1] at e
  obtain ⟨e1, e2, e3, e4, e5⟩ := of_decide_eq_true e
  have hn : ∀ h < 4, ¬ ∀ ky < 2, ∀ kx < 2, (0 < cornerVal Samples.saddle (Samples.midCell.el 0) ky kx ↔ OnSide h ky kx) := by decide +kernel
  refine ⟨Samples.midCell, M', R, Samples.z4, Samples.saddle, A, fun h H => hn h H.1 H.2, h1, e1, ⟨e2, e3⟩, fun hs => ?_⟩
  have := (List.Perm.map V3.y hs).sum_eq
  rw [e4, e5] at this
  norm_num at this

end Pymech
