import Verif.Props.Regenerate

/-!
# C91 `merge` of two boxes stacked on each other
-/

set_option autoImplicit false
set_option linter.unusedSectionVars false

namespace Pymech

open Spec

variable {F : Type} [Field F] [LinearOrder F] [IsStrictOrderedRing F] [FloorRing F]

namespace Spec

/-- The face on the opposite side of the box. -/
def opposite (nx ny : Nat) (x : Face) : Face :=
  match x.2 with
  | 0 => (x.1 % nx + nx * (ny - 1), 2)
  | 1 => (nx * (x.1 / nx), 3)
  | 2 => (x.1 % nx, 0)
  | _ => (nx - 1 + nx * (x.1 / nx), 1)

/-- The condition given for the side of the box on which faces number `f` lie (`o1`…`o4` are the arguments for xmin, xmax, ymin, ymax). -/
def sideOf (o1 o2 o3 o4 : Option (List Name)) (f : Nat) : Option (List Name) :=
  match f with
  | 0 => o3
  | 1 => o2
  | 2 => o4
  | _ => o1

end Spec

section
variable {native : Endian} {nx ny : Nat} {xmin xmax ymin ymax : F} {var : Var} {o1 o2 o3 o4 : Option (List Name)}

/-- Each record of a box. -/
theorem box_record (T : HexaData F) (A : BoxArgs nx ny xmin xmax ymin ymax var o1 o2 o3 o4)
    (hT : genBox native nx ny xmin xmax ymin ymax var o1 o2 o3 o4 true = .ok T) (x : Face) (hx : x.1 < nx * ny) (hf : x.2 < 4)
    (b : Nat) (hb : b < boxNbc var) :
    T.bc x.1 b x.2 = if inside nx ny x then linked x (across nx x) BC.zero
      else wrExt (sideBC (sideOf o1 o2 o3 o4 x.2) b) (x.1 + 1) (x.2 + 1) ((opposite nx ny x).1 + 1) ((opposite nx ny x).2 + 1) BC.zero := by
  obtain ⟨T', t1, t2, t3, t4⟩ := genBox_ok (native := native) (internal := true) A
  obtain rfl : T = T' := by rw [t1] at hT; simpa using hT.symm
  have hnx := A.nx
  have hny := A.ny
  obtain ⟨e, f⟩ := x
  by_cases hI : inside nx ny (e, f) = true
  · rw [if_pos hI]
    rcases inside_cases hx hI with ⟨i, j, hi, hj, h, ha⟩ | ⟨i, j, hi, hj, h, ha⟩ | ⟨i, j, hi, hj, h, ha⟩ | ⟨i, j, hi, hj, h, ha⟩
    all_goals
      obtain ⟨rfl, rfl⟩ := Prod.mk.inj h
      rw [ha]
      unfold HexaData.bc
    · rw [t4 i hi j (by omega)]
      simp only [if_pos hb]
      simp [boxOuter, boxInner, show j ≠ ny - 1 by omega, linked, wrLink, elnum]
    · rw [t4 i hi (j + 1) hj]
      simp only [if_pos hb]
      simp [boxOuter, boxInner, linked, wrLink, elnum]
    · rw [t4 i (by omega) j hj]
      simp only [if_pos hb]
      simp [boxOuter, boxInner, show i ≠ nx - 1 by omega, linked, wrLink, elnum]
    · rw [t4 (i + 1) hi j hj]
      simp only [if_pos hb]
      simp [boxOuter, boxInner, linked, wrLink, elnum]
  · rw [if_neg hI]
    simp only [Bool.not_eq_true] at hI
    obtain ⟨i, hi, j, hj, rfl⟩ := elnum_cases hx
    unfold HexaData.bc
    rw [t4 i hi j hj]
    simp only [if_pos hb, if_true]
    unfold inside at hI
    simp only at hf
    match f, hf with
    | 0, _ =>
      simp only [div_elnum hi, ne_eq, decide_not, Bool.not_eq_false', decide_eq_true_eq] at hI
      subst hI
      simp [boxOuter, boxInner, opposite, sideOf, elnum, Nat.mod_eq_of_lt hi]
    | 1, _ =>
      simp only [mod_elnum hi, ne_eq, decide_not, Bool.not_eq_false', decide_eq_true_eq] at hI
      obtain rfl : i = nx - 1 := by omega
      simp [boxOuter, boxInner, opposite, sideOf, elnum, div_elnum hi]
    | 2, _ =>
      simp only [div_elnum hi, ne_eq, decide_not, Bool.not_eq_false', decide_eq_true_eq] at hI
      obtain rfl : j = ny - 1 := by omega
      simp [boxOuter, boxInner, opposite, sideOf, elnum, Nat.mod_eq_of_lt hi]
    | 3, _ =>
      simp only [mod_elnum hi, ne_eq, decide_not, Bool.not_eq_false', decide_eq_true_eq] at hI
      subst hI
      have := div_elnum hi j
      rw [Nat.zero_add] at this
      simp [boxOuter, boxInner, opposite, sideOf, elnum, this]
    | f + 4, h => omega

theorem box_typE (T : HexaData F) (A : BoxArgs nx ny xmin xmax ymin ymax var o1 o2 o3 o4)
    (hT : genBox native nx ny xmin xmax ymin ymax var o1 o2 o3 o4 true = .ok T) (x : Face) (hx : x.1 < nx * ny) (hf : x.2 < 4)
    (b : Nat) (hb : b < boxNbc var) (hE : ∀ o ∈ [o1, o2, o3, o4], sideBC o b ≠ [] ∧ sideBC o b ≠ nE) :
    ((T.bc x.1 b x.2).typ = nE ↔ inside nx ny x = true) ∧
    ((T.bc x.1 b x.2).typ = nP ↔ inside nx ny x = false ∧ sideBC (sideOf o1 o2 o3 o4 x.2) b = nP) ∧
    (T.bc x.1 b x.2).typ ≠ [] := by
  have hs : sideOf o1 o2 o3 o4 x.2 ∈ [o1, o2, o3, o4] := by
    unfold sideOf; split <;> simp
  have h := hE _ hs
  rw [box_record T A hT x hx hf b hb]
  split_ifs with hI
  · refine ⟨⟨fun _ => hI, fun _ => rfl⟩, ⟨fun h => (by cases h), fun h => ?_⟩, fun h => (by cases h)⟩
    rw [hI] at h; exact absurd h.1 (by simp)
  · rw [wrExt_typ]
    refine ⟨⟨fun h' => absurd ((u3_single _ _).1 h') h.2, fun h' => absurd h' hI⟩, ?_, ?_⟩
    · unfold nP; rw [u3_single]; simp only [Bool.not_eq_true] at hI; simp [hI]
    · rw [ne_eq, u3_nil]; exact h.1

/-- A box has the same links in all fields if its sides are periodic in all fields or in none, and no face is periodic
to itself. -/
theorem box_uniform (T : HexaData F) (A : BoxArgs nx ny xmin xmax ymin ymax var o1 o2 o3 o4) (h0 : 0 < boxNbc var)
    (hT : genBox native nx ny xmin xmax ymin ymax var o1 o2 o3 o4 true = .ok T)
    (hE : ∀ b < boxNbc var, ∀ o ∈ [o1, o2, o3, o4], sideBC o b ≠ [] ∧ sideBC o b ≠ nE)
    (hU : ∀ b < boxNbc var, ∀ o ∈ [o1, o2, o3, o4], (sideBC o b = nP ↔ sideBC o 0 = nP)) : Uniform T ∧ NoSelf T := by
  obtain ⟨T', t1, t2, t3, -⟩ := genBox_ok (native := native) (internal := true) A
  obtain rfl : T = T' := by rw [t1] at hT; simpa using hT.symm
  have hnbc : T.nbc = boxNbc var := by rw [t2]; rfl
  have hndim : T.ndim = 2 := by rw [t2]; rfl
  have hs : ∀ f, sideOf o1 o2 o3 o4 f ∈ [o1, o2, o3, o4] := by
    intro f; unfold sideOf; split <;> simp
  constructor
  · intro b hb x hx hf
    rw [t3] at hx
    rw [hndim] at hf
    rw [hnbc] at hb
    obtain ⟨a1, a2, a3⟩ := box_typE T A hT x hx hf b hb (hE b hb)
    obtain ⟨c1, c2, c3⟩ := box_typE T A hT x hx hf 0 h0 (hE 0 h0)
    refine ⟨a1.trans c1.symm, ?_, ?_⟩
    · rw [a2, c2, hU b hb _ (hs x.2)]
    · intro hl y hy
      rw [box_record T A hT x hx hf b hb]
      rw [box_record T A hT x hx hf 0 h0] at hy
      split_ifs with hI
      · rw [if_pos hI] at hy; exact hy
      · rw [if_neg hI] at hy
        have hp : sideBC (sideOf o1 o2 o3 o4 x.2) 0 = nP := by
          rcases hl with hl | hl
          · exact absurd (c1.1 hl) hI
          · exact (c2.1 hl).2
        rw [hp] at hy
        rw [(hU b hb _ (hs x.2)).2 hp]
        exact hy
  · intro b hb x hx hf ht hp
    rw [t3] at hx
    rw [hndim] at hf
    rw [hnbc] at hb
    obtain ⟨-, a2, -⟩ := box_typE T A hT x hx hf b hb (hE b hb)
    obtain ⟨hI, hs⟩ := a2.1 ht
    rw [box_record T A hT x hx hf b hb, hI, if_neg (by simp), hs] at hp
    have := wrExt_points (x.1 + 1) (x.2 + 1) (opposite nx ny x).1 (opposite nx ny x).2 (BC.zero : BC F)
    obtain ⟨-, h1⟩ := hp
    obtain ⟨-, h2⟩ := this
    rw [h1] at h2
    obtain ⟨e, f⟩ := x
    simp only at h2 hf
    match f, hf with
    | 0, _ => simp [opposite] at h2
    | 1, _ => simp [opposite] at h2
    | 2, _ => simp [opposite] at h2
    | 3, _ => simp [opposite] at h2
    | f + 4, h => omega

/-- Centre of the faces on the outside. -/
theorem box_outside (T : HexaData F) (A : BoxArgs nx ny xmin xmax ymin ymax var o1 o2 o3 o4)
    (hT : genBox native nx ny xmin xmax ymin ymax var o1 o2 o3 o4 true = .ok T) (x : Face) (hx : x.1 < nx * ny) (hf : x.2 < 4)
    (hI : inside nx ny x = false) :
    let dx := (xmax - xmin) / nx
    let dy := (ymax - ymin) / ny
    (∃ i < nx, x = (i, 0) ∧ faceMean (T.el x.1) x.2 0 = xmin + dx * (((2 * i + 1 : Nat) : F) / 2) ∧ faceMean (T.el x.1) x.2 1 = ymin) ∨
    (∃ i < nx, x = (i + nx * (ny - 1), 2) ∧ faceMean (T.el x.1) x.2 0 = xmin + dx * (((2 * i + 1 : Nat) : F) / 2) ∧
      faceMean (T.el x.1) x.2 1 = ymax) ∨
    (∃ j < ny, ∃ k, 2 ∣ k ∧ faceMean (T.el x.1) x.2 0 = xmin + dx * ((k : Nat) / 2) ∧ faceMean (T.el x.1) x.2 1 = ymin + dy * (j + 1 / 2)) := by
  intro dx dy
  have hnx := A.nx
  have hny := A.ny
  obtain ⟨e, f⟩ := x
  obtain ⟨i, hi, j, hj, rfl⟩ := elnum_cases hx
  obtain ⟨c0, c1, c2, c3⟩ := box_centres T A hT i j hi hj
  unfold inside at hI
  simp only at hf ⊢
  match f, hf with
  | 0, _ =>
    simp only [div_elnum hi, ne_eq, decide_not, Bool.not_eq_false', decide_eq_true_eq] at hI
    subst hI
    refine .inl ⟨i, hi, by simp, c0.1.trans ?_, c0.2.1.trans (by simp)⟩
    push_cast; ring
  | 1, _ =>
    refine .inr (.inr ⟨j, hj, 2 * i + 2, by omega, c1.1.trans ?_, c1.2.1⟩)
    push_cast; ring
  | 2, _ =>
    simp only [div_elnum hi, ne_eq, decide_not, Bool.not_eq_false', decide_eq_true_eq] at hI
    obtain rfl : j = ny - 1 := by omega
    refine .inr (.inl ⟨i, hi, rfl, c2.1.trans ?_, c2.2.1.trans ?_⟩)
    · push_cast; ring
    · have h0 : (ny : F) ≠ 0 := by exact_mod_cast hny.ne'
      have : ((ny - 1 : Nat) : F) + 1 = ny := by exact_mod_cast (by omega : ny - 1 + 1 = ny)
      rw [this]; field_simp; ring
  | 3, _ =>
    refine .inr (.inr ⟨j, hj, 2 * i, by omega, c3.1.trans ?_, c3.2.1⟩)
    push_cast; ring
  | f + 4, h => omega

end

section
variable {native : Endian} {nx ny ny' : Nat} {x0 x1 y0 y1 y2 : F} {var var' : Var} {o1 o2 o3 o4 q1 q2 q3 q4 : Option (List Name)}

/-- Two faces of boxes of the same grid in x near each other: the centres have the same x, and the distance in y is at most
`tol` times the width of an element. -/
theorem stack_near (A B : HexaData F) (hA : BoxArgs nx ny x0 x1 y0 y1 var o1 o2 o3 o4)
    (hB : BoxArgs nx ny' x0 x1 y1 y2 var' q1 q2 q3 q4)
    (gA : genBox native nx ny x0 x1 y0 y1 var o1 o2 o3 o4 true = .ok A)
    (gB : genBox native nx ny' x0 x1 y1 y2 var' q1 q2 q3 q4 true = .ok B) (lA : A.elem.length = nx * ny) (lB : B.elem.length = nx * ny')
    (tol : F) (ht : tol < 1 / 2) (y x : Face) (hy : y.1 < nx * ny') (hx : x.1 < nx * ny) (h : TouchTol A B tol y x) :
    0 ≤ tol ∧
    (faceMean (B.el y.1) y.2 1 - faceMean (A.el x.1) x.2 1) ^ 2 ≤ (tol * ((x1 - x0) / nx)) ^ 2 ∧
    ∀ k k' : Nat, faceMean (A.el x.1) x.2 0 = x0 + (x1 - x0) / nx * (k / 2) →
      faceMean (B.el y.1) y.2 0 = x0 + (x1 - x0) / nx * (k' / 2) → k = k' := by
  have pA : ((A.append B).el x.1).pos = (A.el x.1).pos := by rw [append_el_left A B _ (by omega)]
  have pB : ((A.append B).el (A.elem.length + y.1)).pos = (B.el y.1).pos := by rw [append_el_right A B _ (by omega)]
  have mA : ∀ d, faceMean ((A.append B).el x.1) x.2 d = faceMean (A.el x.1) x.2 d := by
    intro d; unfold faceMean faceCoord Spec.corner; rw [pA]
  have mB : ∀ d, faceMean ((A.append B).el (A.elem.length + y.1)) y.2 d = faceMean (B.el y.1) y.2 d := by
    intro d; unfold faceMean faceCoord Spec.corner; rw [pB]
  have sA : ((A.append B).el x.1).smallestEdgeSq = .ok (((x1 - x0) / nx) ^ 2) := by
    have : ((A.append B).el x.1).smallestEdgeSq = (A.el x.1).smallestEdgeSq := by
      unfold Elem.smallestEdgeSq Elem.pt; rw [pA]
    rw [this]
    obtain ⟨i, hi, j, hj, e⟩ := elnum_cases hx
    rw [e]; exact box_scale A hA gA i j hi hj
  have sB : ((A.append B).el (A.elem.length + y.1)).smallestEdgeSq = .ok (((x1 - x0) / nx) ^ 2) := by
    have : ((A.append B).el (A.elem.length + y.1)).smallestEdgeSq = (B.el y.1).smallestEdgeSq := by
      unfold Elem.smallestEdgeSq Elem.pt; rw [pB]
    rw [this]
    obtain ⟨i, hi, j, hj, e⟩ := elnum_cases hy
    rw [e]; exact box_scale B hB gB i j hi hj
  obtain ⟨s0, s1, e0, e1, h⟩ := h
  simp only [up] at e0 e1 h
  rw [sB] at e0
  rw [sA] at e1
  obtain rfl : ((x1 - x0) / (nx : F)) ^ 2 = s0 := by simpa using e0
  obtain rfl : ((x1 - x0) / (nx : F)) ^ 2 = s1 := by simpa using e1
  simp only [mA, mB, min_self] at h
  have hdx : 0 < (x1 - x0) / (nx : F) := div_pos (by have := hA.x; linarith) (by exact_mod_cast hA.nx)
  generalize (x1 - x0) / (nx : F) = dx at *
  have hd2 : 0 < dx ^ 2 := by positivity
  have a0 := sq_nonneg (faceMean (A.el x.1) x.2 0 - faceMean (B.el y.1) y.2 0)
  have a1 := sq_nonneg (faceMean (A.el x.1) x.2 1 - faceMean (B.el y.1) y.2 1)
  have a2 := sq_nonneg (faceMean (A.el x.1) x.2 2 - faceMean (B.el y.1) y.2 2)
  rcases h with ⟨ht0, h⟩ | ⟨-, -, h⟩
  · refine ⟨ht0, ?_, ?_⟩
    · rw [mul_pow]; nlinarith
    · intro k k' hk hk'
      rw [hk, hk'] at h a0
      have e : (x0 + dx * ((k : F) / 2) - (x0 + dx * ((k' : F) / 2))) ^ 2 = (((k : F) - k') / 2) ^ 2 * dx ^ 2 := by ring
      have h2 : (((k : F) - k') / 2) ^ 2 * dx ^ 2 ≤ tol ^ 2 * dx ^ 2 := by rw [← e]; linarith
      have h3 := le_of_mul_le_mul_right h2 hd2
      have h4 : tol ^ 2 < (1 / 2) ^ 2 := by gcongr
      have h5 : ((k : F) - k') ^ 2 < 1 := by nlinarith
      have h6 : ((k : Int) - k') ^ 2 < 1 := by exact_mod_cast h5
      have h7 : (k : Int) - k' = 0 := by
        have : ((k : Int) - k') ^ 2 = 0 := le_antisymm (by omega) (sq_nonneg _)
        exact pow_eq_zero_iff (two_ne_zero) |>.1 this
      omega
  · exact absurd h hd2.ne'

theorem gen_box_grid (A : HexaData F) (hA : BoxArgs nx ny x0 x1 y0 y1 var o1 o2 o3 o4)
    (gA : genBox native nx ny x0 x1 y0 y1 var o1 o2 o3 o4 true = .ok A) : Grid A := by
  obtain ⟨A', h1, -, lA, -, hgeo⟩ := gen_box_geometry native nx ny x0 x1 y0 y1 var o1 o2 o3 o4 true hA
  obtain rfl : A = A' := by rw [h1] at gA; simpa using gA.symm
  intro el hel
  obtain ⟨e, he, rfl⟩ := mem_elem_el A hel
  rw [lA] at he
  obtain ⟨i, hi, j, hj, rfl⟩ := elnum_cases he
  obtain ⟨l1, l2, l3, -⟩ := hgeo i hi j hj
  omega

/-- The upper faces of the lower box are where the lower faces of the upper box are. -/
theorem stack_centre (A B : HexaData F) (hA : BoxArgs nx ny x0 x1 y0 y1 var o1 o2 o3 o4)
    (hB : BoxArgs nx ny' x0 x1 y1 y2 var' q1 q2 q3 q4)
    (gA : genBox native nx ny x0 x1 y0 y1 var o1 o2 o3 o4 true = .ok A)
    (gB : genBox native nx ny' x0 x1 y1 y2 var' q1 q2 q3 q4 true = .ok B) (lA : A.elem.length = nx * ny) (lB : B.elem.length = nx * ny')
    (i : Nat) (hi : i < nx) : SameCentre (A.append B) (up A.elem.length (i, 0)) (i + nx * (ny - 1), 2) := by
  have hny := hA.ny
  have e1 : i + nx * 0 < nx * ny' := elnum_lt hi hB.ny
  have e2 : i + nx * (ny - 1) < nx * ny := elnum_lt hi (by omega)
  have pA : ((A.append B).el (i + nx * (ny - 1))).pos = (A.el (i + nx * (ny - 1))).pos := by rw [append_el_left A B _ (by omega)]
  have pB : ((A.append B).el (A.elem.length + i)).pos = (B.el (i + nx * 0)).pos := by rw [append_el_right A B _ (by omega)]; rfl
  obtain ⟨-, -, c2, -⟩ := box_centres A hA gA i (ny - 1) hi (by omega)
  obtain ⟨c0, -, -, -⟩ := box_centres B hB gB i 0 hi hB.ny
  have mA : ∀ d, faceMean ((A.append B).el (i + nx * (ny - 1))) 2 d = faceMean (A.el (i + nx * (ny - 1))) 2 d := by
    intro d; unfold faceMean faceCoord Spec.corner; rw [pA]
  have mB : ∀ d, faceMean ((A.append B).el (A.elem.length + i)) 0 d = faceMean (B.el (i + nx * 0)) 0 d := by
    intro d; unfold faceMean faceCoord Spec.corner; rw [pB]
  intro d hd
  simp only [up]
  rw [mA, mB]
  have : d = 0 ∨ d = 1 ∨ d = 2 := by omega
  rcases this with rfl | rfl | rfl
  · exact c0.1.trans c2.1.symm
  · refine c0.2.1.trans (Eq.trans ?_ c2.2.1.symm)
    have h0 : (ny : F) ≠ 0 := by exact_mod_cast hny.ne'
    have : ((ny - 1 : Nat) : F) + 1 = ny := by exact_mod_cast (by omega : ny - 1 + 1 = ny)
    rw [this]; field_simp; simp
  · exact c0.2.2.trans c2.2.2.symm

/-- Which boundary faces `merge` connects: the upper faces of the lower box with the lower faces of the upper box, if the
elements are not too flat for the tolerance. -/
theorem stack_meets (A B : HexaData F) (hA : BoxArgs nx ny x0 x1 y0 y1 var o1 o2 o3 o4)
    (hB : BoxArgs nx ny' x0 x1 y1 y2 var' q1 q2 q3 q4) (hbA : 0 < boxNbc var) (hbB : 0 < boxNbc var')
    (gA : genBox native nx ny x0 x1 y0 y1 var o1 o2 o3 o4 true = .ok A)
    (gB : genBox native nx ny' x0 x1 y1 y2 var' q1 q2 q3 q4 true = .ok B)
    (hS : ∀ o ∈ [o1, o2, o3, o4], sideBC o 0 ≠ [] ∧ sideBC o 0 ≠ nE) (hS' : ∀ o ∈ [q1, q2, q3, q4], sideBC o 0 ≠ [] ∧ sideBC o 0 ≠ nE)
    (ie : Bool) (tol : F) (ht0 : 0 ≤ tol) (ht : tol < 1 / 2) (h1 : tol * ((x1 - x0) / nx) < (y1 - y0) / ny)
    (h2 : tol * ((x1 - x0) / nx) < (y2 - y1) / ny') (y x : Face) :
    Meets A B ie (TouchTol A B tol) y x ↔ ∃ i < nx, y = (i, 0) ∧ x = (i + nx * (ny - 1), 2) := by
  have hnx := hA.nx
  have hny := hA.ny
  have hny' := hB.ny
  obtain ⟨A', a1, a2, lA, -⟩ := genBox_ok (native := native) (internal := true) hA
  obtain rfl : A = A' := by rw [a1] at gA; simpa using gA.symm
  obtain ⟨B', b1, b2, lB, -⟩ := genBox_ok (native := native) (internal := true) hB
  obtain rfl : B = B' := by rw [b1] at gB; simpa using gB.symm
  have dA : A.ndim = 2 := by rw [a2]; rfl
  have dB : B.ndim = 2 := by rw [b2]; rfl
  have hdx : 0 < (x1 - x0) / (nx : F) := div_pos (by have := hA.x; linarith) (by exact_mod_cast hnx)
  have nyp : (0 : F) < ny := by exact_mod_cast hny
  have nyp' : (0 : F) < ny' := by exact_mod_cast hny'
  have ey : y1 = y0 + (y1 - y0) / ny * ny := by field_simp; ring
  have ey' : y2 = y1 + (y2 - y1) / ny' * ny' := by field_simp; ring
  constructor
  · rintro ⟨hy, hy2, hx, hx2, cy, cx, touch⟩
    rw [lB] at hy
    rw [lA] at hx
    rw [dB] at hy2
    rw [dA] at hx2
    have Iy : inside nx ny' y = false := by
      rw [← Bool.not_eq_true]; exact fun h => cy.1 ((box_typE B hB gB y hy hy2 0 hbB hS').1.2 h)
    have Ix : inside nx ny x = false := by
      rw [← Bool.not_eq_true]; exact fun h => cx.1 ((box_typE A hA gA x hx hx2 0 hbA hS).1.2 h)
    obtain ⟨-, n2, n3⟩ := stack_near A B hA hB gA gB lA lB tol ht y x hy hx touch
    have oy := box_outside B hB gB y hy hy2 Iy
    have ox := box_outside A hA gA x hx hx2 Ix
    simp only at oy ox
    have hd1 : 0 ≤ tol * ((x1 - x0) / (nx : F)) := by positivity
    generalize hdy : (y1 - y0) / (ny : F) = dy at *
    generalize hdy' : (y2 - y1) / (ny' : F) = dy' at *
    generalize tol * ((x1 - x0) / (nx : F)) = r at *
    have big : ∀ a b : F, r < b - a → ¬ (b - a) ^ 2 ≤ r ^ 2 := by
      intro a b h h'
      have : r ^ 2 < (b - a) ^ 2 := by gcongr
      linarith
    have one : (1 : F) ≤ ny := by exact_mod_cast hny
    have one' : (1 : F) ≤ ny' := by exact_mod_cast hny'
    rcases ox with ⟨i, hi, ex, kx, vx⟩ | ⟨i, hi, ex, kx, vx⟩ | ⟨j, hj, k, hk, kx, vx⟩
    · rcases oy with ⟨i', hi', ey0, ky, vy⟩ | ⟨i', hi', ey0, ky, vy⟩ | ⟨j', hj', k', hk', ky, vy⟩
      · rw [vx, vy] at n2
        exact absurd n2 (big _ _ (by nlinarith))
      · rw [vx, vy] at n2
        exact absurd n2 (big _ _ (by nlinarith))
      · have := n3 _ _ kx ky; omega
    · rcases oy with ⟨i', hi', ey0, ky, vy⟩ | ⟨i', hi', ey0, ky, vy⟩ | ⟨j', hj', k', hk', ky, vy⟩
      · have := n3 _ _ kx ky
        obtain rfl : i = i' := by omega
        exact ⟨i, hi, ey0, ex⟩
      · rw [vx, vy] at n2
        exact absurd n2 (big _ _ (by nlinarith))
      · have := n3 _ _ kx ky; omega
    · rcases oy with ⟨i', hi', ey0, ky, vy⟩ | ⟨i', hi', ey0, ky, vy⟩ | ⟨j', hj', k', hk', ky, vy⟩
      · have := n3 _ _ kx ky; omega
      · have := n3 _ _ kx ky; omega
      · rw [vx, vy] at n2
        have h3 : (j : F) + 1 ≤ ny := by exact_mod_cast hj
        have h4 : (0 : F) ≤ j' := Nat.cast_nonneg _
        have h5 : dy * ((j : F) + 1) ≤ dy * ny := mul_le_mul_of_nonneg_left h3 (by linarith)
        have h6 : 0 ≤ dy' * (j' : F) := mul_nonneg (by linarith) h4
        exact absurd n2 (big _ _ (by nlinarith))
  · rintro ⟨i, hi, rfl, rfl⟩
    have e1 : i < nx * ny' := by have := elnum_lt hi hny'; rw [Nat.mul_zero, Nat.add_zero] at this; exact this
    have e2 : i + nx * (ny - 1) < nx * ny := elnum_lt hi (by omega)
    have I1 : inside nx ny' (i, 0) = false := by simp [inside, Nat.div_eq_of_lt hi]
    have I2 : inside nx ny (i + nx * (ny - 1), 2) = false := by
      simp only [inside, div_elnum hi]; simp; omega
    have t1 := box_typE B hB gB (i, 0) e1 (by simp) 0 hbB hS'
    have t2 := box_typE A hA gA (i + nx * (ny - 1), 2) e2 (by simp) 0 hbA hS
    refine ⟨by rw [lB]; exact e1, by simp [dB], by rw [lA]; exact e2, by simp [dA], ⟨fun h => ?_, fun h => t1.2.2 h.2⟩,
      ⟨fun h => ?_, fun h => t2.2.2 h.2⟩, ?_⟩
    · have := t1.1.1 h; rw [I1] at this; cases this
    · have := t2.1.1 h; rw [I2] at this; cases this
    · refine near_of_sameCentre _ (Samples.append_grid A B (gen_box_grid A hA gA) (gen_box_grid B hB gB)) tol ht0 _ _ ?_ ?_
        (stack_centre A B hA hB gA gB lA lB i hi)
      · rw [append_length]; simp only [up]; omega
      · rw [append_length]; simp only; omega

/-- Two boxes stacked on each other are mergeable. -/
theorem stack_mergeable (A B : HexaData F) (hA : BoxArgs nx ny x0 x1 y0 y1 var o1 o2 o3 o4)
    (hB : BoxArgs nx ny' x0 x1 y1 y2 var' q1 q2 q3 q4) (hb : 0 < boxNbc var) (hv : boxNbc var = boxNbc var')
    (gA : genBox native nx ny x0 x1 y0 y1 var o1 o2 o3 o4 true = .ok A)
    (gB : genBox native nx ny' x0 x1 y1 y2 var' q1 q2 q3 q4 true = .ok B)
    (hS : ∀ b < boxNbc var, SidesOk o1 o2 o3 o4 b ∧ SidesOk q1 q2 q3 q4 b)
    (hU : ∀ b < boxNbc var, ∀ o ∈ [o1, o2, o3, o4, q1, q2, q3, q4], (sideBC o b = nP ↔ sideBC o 0 = nP))
    (hP : sideBC o4 0 = nP ↔ sideBC q3 0 = nP)
    (ie : Bool) (tol : F) (ht0 : 0 ≤ tol) (ht : tol < 1 / 2) (h1 : tol * ((x1 - x0) / nx) < (y1 - y0) / ny)
    (h2 : tol * ((x1 - x0) / nx) < (y2 - y1) / ny') :
    Mergeable A B ie (TouchTol A B tol) (SameCentre (A.append B)) := by
  have hnx := hA.nx
  have hny := hA.ny
  have meets := stack_meets A B hA hB hb (by omega) gA gB (hS 0 hb).1.1 (hS 0 hb).2.1 ie tol ht0 ht h1 h2
  obtain ⟨A', a1, wA, grA, vA, -⟩ := gen_box_valid native nx ny x0 x1 y0 y1 var o1 o2 o3 o4 hA fun b hb => (hS b hb).1
  obtain rfl : A = A' := by rw [a1] at gA; simpa using gA.symm
  obtain ⟨B', b1, wB, grB, vB, -⟩ := gen_box_valid native nx ny' x0 x1 y1 y2 var' q1 q2 q3 q4 hB fun b hb => (hS b (by omega)).2
  obtain rfl : B = B' := by rw [b1] at gB; simpa using gB.symm
  obtain ⟨A', a1', a2, lA, -⟩ := genBox_ok (native := native) (internal := true) hA
  obtain rfl : A = A' := by rw [a1] at a1'; simpa using a1'
  obtain ⟨B', b1', b2, lB, -⟩ := genBox_ok (native := native) (internal := true) hB
  obtain rfl : B = B' := by rw [b1] at b1'; simpa using b1'
  have dA : A.ndim = 2 := by rw [a2]; rfl
  have dB : B.ndim = 2 := by rw [b2]; rfl
  have nA : A.nbc = boxNbc var := by rw [a2]; rfl
  have nB : B.nbc = boxNbc var' := by rw [b2]; rfl
  obtain ⟨uA, sA⟩ := box_uniform A hA hb a1 (fun b hb => (hS b hb).1.1)
    (fun b hb o ho => hU b hb o (by simp only [List.mem_cons, List.not_mem_nil, or_false] at ho ⊢; tauto))
  obtain ⟨uB, sB⟩ := box_uniform B hB (by omega) b1 (fun b hb => (hS b (by omega)).2.1)
    (fun b hb o ho => hU b (by omega) o (by simp only [List.mem_cons, List.not_mem_nil, or_false] at ho ⊢; tauto))
  have sym : ∀ x y, SameCentre (A.append B) x y → SameCentre (A.append B) y x := fun x y h d hd => (h d hd).symm
  refine ⟨wA, wB, by omega, by omega, by omega, ?_, ?_, uA, uB, sA, sB, ?_, ?_, ?_, ?_⟩
  · intro b hb x hx hx2 hlk
    obtain ⟨y, h1, h2, h3, h4, h5, h6⟩ := vA b hb x hx hx2 hlk
    refine ⟨y, h1, h2, h3, h4, h5, fun h d hd => ?_⟩
    rw [append_el_left A B _ hx, append_el_left A B _ h1]
    exact h6 h d hd
  · intro b hb x hx hx2 hlk
    obtain ⟨y, h1, h2, h3, h4, h5, h6⟩ := vB b hb x hx hx2 hlk
    refine ⟨y, h1, h2, h3, h4, h5, fun h d hd => ?_⟩
    simp only [up]
    rw [append_el_right A B _ hx, append_el_right A B _ h1]
    exact h6 h d hd
  · intro y x x' m m'
    obtain ⟨i, hi, e1, e2⟩ := (meets y x).1 m
    obtain ⟨i', hi', e1', e2'⟩ := (meets y x').1 m'
    rw [e1] at e1'
    obtain rfl : i = i' := congrArg Prod.fst e1'
    rw [e2, e2']
  · intro y y' x m m'
    obtain ⟨i, hi, e1, e2⟩ := (meets y x).1 m
    obtain ⟨i', hi', e1', e2'⟩ := (meets y' x).1 m'
    rw [e2] at e2'
    obtain rfl : i = i' := by have := congrArg Prod.fst e2'; simp only at this; omega
    rw [e1, e1']
  · intro y x m
    obtain ⟨i, hi, rfl, rfl⟩ := (meets y x).1 m
    have I1 : inside nx ny' (i, 0) = false := by simp [inside, Nat.div_eq_of_lt hi]
    have I2 : inside nx ny (i + nx * (ny - 1), 2) = false := by
      simp only [inside, div_elnum hi]; simp; omega
    have t1 := box_typE B hB b1 (i, 0) (by rw [← lB]; exact m.1) (by simp) 0 (by omega) (hS 0 hb).2.1
    have t2 := box_typE A hA a1 (i + nx * (ny - 1), 2) (by rw [← lA]; exact m.2.2.1) (by simp) 0 hb (hS 0 hb).1.1
    rw [t1.2.1, t2.2.1, I1, I2]
    simp only [sideOf, true_and]
    exact hP.symm
  · intro y x m
    obtain ⟨i, hi, rfl, rfl⟩ := (meets y x).1 m
    have := stack_centre A B hA hB a1 b1 lA lB i hi
    exact ⟨this, sym _ _ this⟩

open Classical in
/-- **C91, what holds.** Merging two boxes with the same columns of elements, one on top of the other, connects the upper
faces of the lower with the lower faces of the upper box and nothing else: all other faces keep their condition, all
internal links are between faces with the same centre, and the number returned is the number of columns. This needs
elements whose height is more than `tol` times (with the default, one hundredth of) their width. -/
theorem gen_box_stack_partial (native : Endian) (nx ny ny' : Nat) (x0 x1 y0 y1 y2 : F) (var var' : Var)
    (o1 o2 o3 o4 q1 q2 q3 q4 : Option (List Name)) (hA : BoxArgs nx ny x0 x1 y0 y1 var o1 o2 o3 o4)
    (hB : BoxArgs nx ny' x0 x1 y1 y2 var' q1 q2 q3 q4) (hb : 0 < boxNbc var) (hv : boxNbc var = boxNbc var')
    (hS : ∀ b < boxNbc var, SidesOk o1 o2 o3 o4 b ∧ SidesOk q1 q2 q3 q4 b)
    (hU : ∀ b < boxNbc var, ∀ o ∈ [o1, o2, o3, o4, q1, q2, q3, q4], (sideBC o b = nP ↔ sideBC o 0 = nP))
    (hP : sideBC o4 0 = nP ↔ sideBC q3 0 = nP)
    (ie : Bool) (tol : F) (ht0 : 0 ≤ tol) (ht : tol < 1 / 2) (h1 : tol * ((x1 - x0) / nx) < (y1 - y0) / ny)
    (h2 : tol * ((x1 - x0) / nx) < (y2 - y1) / ny') :
    ∃ A B M : HexaData F, genBox native nx ny x0 x1 y0 y1 var o1 o2 o3 o4 true = .ok A ∧
      genBox native nx ny' x0 x1 y1 y2 var' q1 q2 q3 q4 true = .ok B ∧ A.merge B tol ie false = .ok (M, nx) ∧
      Valid M (SameCentre M) ∧
      (∀ i < nx, ∀ b < boxNbc var,
        (M.bc (nx * ny + i) b 0).typ = nE ∧ PointsTo (M.bc (nx * ny + i) b 0) (i + nx * (ny - 1), 2) ∧
        (M.bc (i + nx * (ny - 1)) b 2).typ = nE ∧ PointsTo (M.bc (i + nx * (ny - 1)) b 2) (nx * ny + i, 0)) ∧
      (∀ e < nx * ny, ∀ f < 4, (f = 2 → e < nx * (ny - 1)) → ∀ b < boxNbc var, (M.bc e b f).typ = (A.bc e b f).typ) ∧
      (∀ e < nx * ny', ∀ f < 4, (f = 0 → nx ≤ e) → ∀ b < boxNbc var, (M.bc (nx * ny + e) b f).typ = (B.bc e b f).typ) := by
  obtain ⟨A, gA, a2, lA, -⟩ := genBox_ok (native := native) (internal := true) hA
  obtain ⟨B, gB, b2, lB, -⟩ := genBox_ok (native := native) (internal := true) hB
  have dA : A.ndim = 2 := by rw [a2]; rfl
  have dB : B.ndim = 2 := by rw [b2]; rfl
  have nA : A.nbc = boxNbc var := by rw [a2]; rfl
  have H := stack_mergeable A B hA hB hb hv gA gB hS hU hP ie tol ht0 ht h1 h2
  have meets := stack_meets A B hA hB hb (by omega) gA gB (hS 0 hb).1.1 (hS 0 hb).2.1 ie tol ht0 ht h1 h2
  have gAB := Samples.append_grid A B (gen_box_grid A hA gA) (gen_box_grid B hB gB)
  have len0 := append_length A B
  have hT : ∀ y x : Face, y.1 < B.elem.length → y.2 < 2 * B.ndim → x.1 < A.elem.length → x.2 < 2 * A.ndim →
      closeFaces ((A.append B).el (A.elem.length + y.1)) y.2 ((A.append B).el x.1) x.2 tol
        = .ok (decide (TouchTol A B tol y x)) := by
    intro y x hy hy2 hx hx2
    obtain ⟨⟨c, hc⟩, hiff⟩ := closeFaces_near (A.append B) gAB tol (up A.elem.length y) x
      (by rw [len0]; simp only [up]; omega) (by simp only [up]; omega) (by rw [len0]; omega) (by omega)
    simp only [up] at hc
    rw [hc]
    simp only [up, hc, Except.ok.injEq] at hiff
    unfold TouchTol
    by_cases hn : Near (A.append B) tol (up A.elem.length y) x
    · rw [decide_eq_true hn, hiff.2 hn]
    · rw [decide_eq_false hn]
      cases c
      · rfl
      · exact absurd (hiff.1 rfl) hn
  obtain ⟨M, n, hM, v, -, -, link, keepA, keepB⟩ := merge_valid A B ie _ _ H
    (fun e0 f0 e1 f1 => closeFaces ((A.append B).el e0) f0 ((A.append B).el e1) f1 tol) hT
  obtain ⟨M', hM'⟩ := merge_count A B ie _ _ H
    (fun e0 f0 e1 f1 => closeFaces ((A.append B).el e0) f0 ((A.append B).el e1) f1 tol) hT
  have hmerge : A.merge B tol ie false = .ok (M, n) := by
    unfold HexaData.merge
    rw [if_neg (by simp [H.dim]), if_neg (by rw [a2, b2]; simp [HexaData.new])]
    exact hM
  have hn : n = nx := by
    rw [hM] at hM'
    simp only [Except.ok.injEq, Prod.mk.injEq] at hM'
    rw [hM'.2, List.countP_eq_length_filter]
    have perm : List.Perm (((prod2 (List.range B.elem.length) (List.range (2 * A.ndim))).flatMap fun y =>
        (prod2 (List.range A.elem.length) (List.range (2 * A.ndim))).map fun x => (y, x)).filter
          fun p => decide (Meets A B ie (TouchTol A B tol) p.1 p.2))
        ((List.range nx).map fun i => (((i, 0), (i + nx * (ny - 1), 2)) : Face × Face)) := by
      rw [List.perm_ext_iff_of_nodup]
      · rintro ⟨y, x⟩
        simp only [List.mem_filter, List.mem_flatMap, List.mem_map, decide_eq_true_eq, Prod.mk.injEq, List.mem_range]
        constructor
        · rintro ⟨-, m⟩
          obtain ⟨i, hi, e1, e2⟩ := (meets y x).1 m
          exact ⟨i, hi, e1.symm, e2.symm⟩
        · rintro ⟨i, hi, e1, e2⟩
          have m := (meets y x).2 ⟨i, hi, e1.symm, e2.symm⟩
          refine ⟨⟨y, ?_, x, ?_, rfl, rfl⟩, m⟩
          · rw [mem_prod2, List.mem_range, List.mem_range, H.dim]; exact ⟨m.1, m.2.1⟩
          · rw [mem_prod2, List.mem_range, List.mem_range]; exact ⟨m.2.2.1, m.2.2.2.1⟩
      · apply List.Nodup.filter
        exact List.Nodup.product (List.Nodup.product List.nodup_range List.nodup_range)
          (List.Nodup.product List.nodup_range List.nodup_range)
      · refine List.Nodup.map (fun a b h => ?_) List.nodup_range
        exact congrArg (fun p : Face × Face => p.1.1) h
    rw [perm.length_eq, List.length_map, List.length_range]
  rw [hn] at hmerge
  obtain ⟨-, sl, s5, s6⟩ := merge_concat A B tol ie false M nx hmerge
  have posM : ∀ e < (A.append B).elem.length, ∀ f d, faceMean (M.el e) f d = faceMean ((A.append B).el e) f d := by
    intro e he f d
    have : (M.el e).pos = ((A.append B).el e).pos := by
      rw [len0] at he
      rcases Nat.lt_or_ge e A.elem.length with h | h
      · rw [s5 e h, append_el_left A B e h]
      · obtain ⟨k, rfl⟩ : ∃ k, e = A.elem.length + k := ⟨e - A.elem.length, by omega⟩
        rw [s6 k (by omega), append_el_right A B k (by omega)]
    unfold faceMean faceCoord Spec.corner
    rw [this]
  refine ⟨A, B, M, gA, gB, hmerge, ?_, ?_, ?_, ?_⟩
  · intro b hb x hx hx2 hlk
    obtain ⟨y, h1, h2, h3, h4, h5, h6⟩ := v b hb x hx hx2 hlk
    refine ⟨y, h1, h2, h3, h4, h5, fun h d hd => ?_⟩
    rw [posM x.1 (by rw [len0]; omega), posM y.1 (by rw [len0]; omega)]
    exact h6 h d hd
  · intro i hi b hb'
    have := link _ _ ((meets (i, 0) (i + nx * (ny - 1), 2)).2 ⟨i, hi, rfl, rfl⟩) b (by omega)
    rw [lA] at this
    exact this
  · intro e he f hf hk b hb'
    refine (keepA (e, f) (by rw [lA]; exact he) (by rw [dA]; exact hf) ?_ b (by omega)).1
    rintro ⟨y, m⟩
    obtain ⟨i, hi, -, h⟩ := (meets y (e, f)).1 m
    obtain ⟨rfl, rfl⟩ := Prod.mk.inj h
    have := hk rfl
    omega
  · intro e he f hf hk b hb'
    have := (keepB (e, f) (by rw [lB]; exact he) (by rw [dA]; exact hf) ?_ b (by omega)).1
    · rw [lA] at this; exact this
    · rintro ⟨x, m⟩
      obtain ⟨i, hi, h, -⟩ := (meets (e, f) x).1 m
      obtain ⟨rfl, rfl⟩ := Prod.mk.inj h
      have := hk rfl
      omega

end

/-- A case that meets the hypotheses: 3×2 and 3×1 elements 2 wide and 2 and 1/10 high, two fields, periodic in x. -/
example : BoxArgs (F := ℚ) 3 1 0 6 4 (41 / 10) ⟨2, 2, 1, 1, 0⟩ none none (some [['W'], ['t']]) (some [['W'], ['f']]) :=
  ⟨by decide, by decide, by norm_num, by norm_num, (by simp), (by simp), (by decide), (by decide)⟩
example : ∀ b < boxNbc ⟨2, 2, 1, 1, 0⟩, SidesOk none none (some [['W'], ['t']]) (some [['W'], ['f']]) b ∧
    ∀ o ∈ [none, none, some [['W'], ['t']], some [['W'], ['f']]], (sideBC o b = nP ↔ sideBC o 0 = nP) := by
  unfold SidesOk; decide
example : (1 / 100 : ℚ) * ((6 - 0) / (3 : Nat)) < (4 - 0) / (2 : Nat) ∧ (1 / 100 : ℚ) * ((6 - 0) / (3 : Nat)) < (41 / 10 - 4) / (1 : Nat) := by
  norm_num

/-- Two boxes of one element, 200 wide and 1 high, walls on all sides. -/
def Samples.slab (y : ℚ) : HexaData ℚ :=
  Samples.get (genBox .little 1 1 0 200 y (y + 1) ⟨2, 2, 1, 0, 0⟩ (some [['W']]) (some [['W']]) (some [['W']]) (some [['W']]) true)

/-- **C91 is false** for flat elements: with the default tolerance `1e-2` the *side walls* of two boxes of one element each,
200 wide and 1 high, are connected with each other when they are stacked; `check_connectivity` (default tolerance) rejects
the result. `smallest_edge` does not look at the height of the elements (C36), so that "near" is up to 2. -/
theorem gen_box_stack_false : ∃ M : HexaData ℚ, (Samples.slab 0).merge (Samples.slab 1) (1 / 100) true false = .ok (M, 4) ∧
    ((Samples.slab 0).bc 0 0 3).typ = ['W'] ∧ (M.bc 0 0 3).typ = nE ∧ PointsTo (M.bc 0 0 3) (1, 3) ∧
    M.checkConnectivity (1 / 1000) = .error .valueError := by
  have h : (match (Samples.slab 0).merge (Samples.slab 1) (1 / 100) true false with
      | .ok (M, n) => decide (n = 4 ∧ (M.bc 0 0 3).typ = nE ∧ trunc (M.bc 0 0 3).p3 = 2 ∧ trunc (M.bc 0 0 3).p4 = 4 ∧
          M.checkConnectivity (1 / 1000) = .error .valueError)
      | .error _ => false) = true := by decide +kernel
  revert h
  generalize (Samples.slab 0).merge (Samples.slab 1) (1 / 100) true false = r
  intro h
  match r, h with
  | .ok (M, n), h =>
    obtain ⟨rfl, h1, h2, h3, h4⟩ := of_decide_eq_true h
    exact ⟨M, rfl, by decide +kernel, h1, ⟨h2, h3⟩, h4⟩

end Pymech
