import Verif.Props.Chain
import Verif.Props.CircleGeom

/-!
# C106: the connectivity of `gen_circle`

With `internal_bcs=True` the function writes the connections within the square and the quarters of the O mesh, and `merge` those between them.
-/

set_option autoImplicit false
set_option linter.unusedSectionVars false

namespace Pymech

open Spec

section

variable {F : Type} [Field F] [LinearOrder F] [IsStrictOrderedRing F] [FloorRing F]

namespace Spec

/-- The elements of the mesh are `ni * nj` quadrilaterals, numbered row by row, and neighbours share corners. -/
structure Rows (ni nj : Nat) (M : HexaData F) : Prop where
  len : M.elem.length = ni * nj
  shape : ∀ e < ni * nj, (M.el e).pos.lx = 2 ∧ (M.el e).pos.ly = 2 ∧ (M.el e).pos.lz = 1
  xs : ∀ i, i + 1 < ni → ∀ j < nj, ∀ d < 3, ∀ ky < 2, (M.el (i + ni * j)).pos.dat d 0 ky 1 = (M.el (i + 1 + ni * j)).pos.dat d 0 ky 0
  ys : ∀ i < ni, ∀ j, j + 1 < nj → ∀ d < 3, ∀ kx < 2, (M.el (i + ni * j)).pos.dat d 0 1 kx = (M.el (i + ni * (j + 1))).pos.dat d 0 0 kx

/-- Two faces have the same centre. -/
def CentreEl (a : Elem F) (f : Nat) (b : Elem F) (g : Nat) : Prop := ∀ d < 3, faceMean a f d = faceMean b g d

end Spec

theorem centreEl_pos : PosOnly (CentreEl (F := F)) := by
  intro a a' b b' f g ha hb
  unfold CentreEl faceMean faceCoord Spec.corner
  rw [ha, hb]

/-- Faces with the same centre are near each other. -/
theorem good_near {M : HexaData F} {d n l : Nat} (h : Good CentreEl d n l M) (tol : F) (ht : 0 ≤ tol) : Good (NearEl tol) d n l M := by
  refine ⟨h.wf, h.grid, h.dim, h.nbc, h.lr1, ?_, h.uni, h.self⟩
  intro b hb x hx hx2 hl
  obtain ⟨y, y1, y2, y3, y4, y5, y6⟩ := h.valid b hb x hx hx2 hl
  exact ⟨y, y1, y2, y3, y4, y5, fun hE => near_of_sameCentre M h.grid tol ht x y hx y1 (y6 hE)⟩

theorem circleBc_outer (ni nj i j : Nat) (c0 c1 c2 c3 : Name) (f : Nat) (r : BC F)
    (h : (f = 0 ∧ j = 0) ∨ (f = 2 ∧ j = nj - 1) ∨ (f = 1 ∧ i = ni - 1) ∨ (f = 3 ∧ i = 0)) :
    (circleBc ni nj i j c0 c1 c2 c3 f r).typ = u3 (if f = 0 then c0 else if f = 1 then c1 else if f = 2 then c2 else c3) := by
  unfold circleBc
  rcases h with ⟨rfl, rfl⟩ | ⟨rfl, rfl⟩ | ⟨rfl, rfl⟩ | ⟨rfl, rfl⟩ <;> simp

/-- A block whose neighbours share corners, with the connectivity of `build_connectivity` and conditions that are not connections, is valid. -/
theorem rows_good (M : HexaData F) (ni nj nbc : Nat) (c0 c1 c2 c3 : Nat → Name) (hr : Rows ni nj M)
    (hnel : M.nel = ni * nj) (hdim : M.ndim = 2) (hnbc : M.nbc = nbc) (hlr : M.lr1.x = 2) (hrows : ∀ e < ni * nj, (M.el e).rows = nbc)
    (hbc : ∀ i < ni, ∀ j < nj, ∀ b < nbc, ∀ f, M.bc (i + ni * j) b f = circleBc ni nj i j (c0 b) (c1 b) (c2 b) (c3 b) f (boxInner ni nj i j f BC.zero))
    (hc : ∀ b < nbc, ∀ c ∈ [c0 b, c1 b, c2 b, c3 b], u3 c ≠ nE ∧ u3 c ≠ nP) : Good CentreEl 2 nbc 2 M := by
  have outer : ∀ i < ni, ∀ j < nj, ∀ b < nbc, ∀ f < 4, (f = 0 ∧ j = 0) ∨ (f = 2 ∧ j = nj - 1) ∨ (f = 1 ∧ i = ni - 1) ∨ (f = 3 ∧ i = 0) →
      (M.bc (i + ni * j) b f).typ ≠ nE ∧ (M.bc (i + ni * j) b f).typ ≠ nP := by
    intro i hi j hj b hb f hf h
    rw [hbc i hi j hj b hb, circleBc_outer ni nj i j _ _ _ _ f _ h]
    apply hc b hb
    split_ifs <;> simp
  have in0 : ∀ i < ni, ∀ j, j + 1 < nj → ∀ b < nbc, M.bc (i + ni * (j + 1)) b 0 = wrLink nE (elnum i (j + 1) ni + 1) 1 (elnum i j ni + 1) 3 BC.zero := by
    intro i hi j hj b hb; rw [hbc i hi (j + 1) hj b hb]; simp [circleBc, boxInner]
  have in2 : ∀ i < ni, ∀ j, j + 1 < nj → ∀ b < nbc, M.bc (i + ni * j) b 2 = wrLink nE (elnum i j ni + 1) 3 (elnum i (j + 1) ni + 1) 1 BC.zero := by
    intro i hi j hj b hb; rw [hbc i hi j (by omega) b hb]
    simp [circleBc, boxInner, show j ≠ nj - 1 by omega]
  have in1 : ∀ i, i + 1 < ni → ∀ j < nj, ∀ b < nbc, M.bc (i + ni * j) b 1 = wrLink nE (elnum i j ni + 1) 2 (elnum (i + 1) j ni + 1) 4 BC.zero := by
    intro i hi j hj b hb; rw [hbc i (by omega) j hj b hb]
    simp [circleBc, boxInner, show i ≠ ni - 1 by omega]
  have in3 : ∀ i, i + 1 < ni → ∀ j < nj, ∀ b < nbc, M.bc (i + 1 + ni * j) b 3 = wrLink nE (elnum (i + 1) j ni + 1) 4 (elnum i j ni + 1) 2 BC.zero := by
    intro i hi j hj b hb; rw [hbc (i + 1) hi j hj b hb]; simp [circleBc, boxInner]
  -- where the faces are
  have cor : ∀ e < ni * nj, ∀ sx sy sz : Bool, ∀ d, Spec.corner (M.el e) sx sy sz d = (M.el e).pos.dat d 0 (if sy then 1 else 0) (if sx then 1 else 0) := by
    intro e he sx sy sz d
    obtain ⟨l1, l2, l3⟩ := hr.shape e he
    unfold Spec.corner
    rw [l1, l2, l3]
    simp
  have same13 : ∀ i, i + 1 < ni → ∀ j < nj, SameCentre M (i + ni * j, 1) (i + 1 + ni * j, 3) := by
    intro i hi j hj d hd
    simp only [faceMean, faceCoord, cor _ (elnum_lt (show i < ni by omega) hj), cor _ (elnum_lt hi hj)]
    have y0 := hr.xs i hi j hj d hd 0 (by omega)
    have y1 := hr.xs i hi j hj d hd 1 (by omega)
    simp [y0, y1]
  have same20 : ∀ i < ni, ∀ j, j + 1 < nj → SameCentre M (i + ni * j, 2) (i + ni * (j + 1), 0) := by
    intro i hi j hj d hd
    simp only [faceMean, faceCoord, cor _ (elnum_lt hi (show j < nj by omega)), cor _ (elnum_lt hi hj)]
    have y0 := hr.ys i hi j hj d hd 0 (by omega)
    have y1 := hr.ys i hi j hj d hd 1 (by omega)
    simp [y0, y1]
  have symm : ∀ x y, SameCentre M x y → SameCentre M y x := fun x y h d hd => (h d hd).symm
  have grid : Grid M := by
    intro el hel
    obtain ⟨e, he, rfl⟩ := List.getElem_of_mem hel
    rw [← M.el_eq_getElem e he]
    obtain ⟨l1, l2, l3⟩ := hr.shape e (by rw [← hr.len]; exact he)
    rw [l1, l2, l3]
    omega
  have cases_ : ∀ i < ni, ∀ j < nj, ∀ f < 4,
      ((f = 0 ∧ j = 0) ∨ (f = 2 ∧ j = nj - 1) ∨ (f = 1 ∧ i = ni - 1) ∨ (f = 3 ∧ i = 0)) ∨
      (f = 0 ∧ ∃ k, j = k + 1) ∨ (f = 1 ∧ i + 1 < ni) ∨ (f = 2 ∧ j + 1 < nj) ∨ (f = 3 ∧ ∃ k, i = k + 1) := by
    intro i hi j hj f hf
    rcases (by omega : f = 0 ∨ f = 1 ∨ f = 2 ∨ f = 3) with rfl | rfl | rfl | rfl
    · rcases j with _ | k
      · simp
      · right; left; exact ⟨rfl, k, rfl⟩
    · by_cases h : i + 1 < ni
      · simp [h]
      · left; right; right; left; exact ⟨rfl, by omega⟩
    · by_cases h : j + 1 < nj
      · simp [h]
      · left; right; left; exact ⟨rfl, by omega⟩
    · rcases i with _ | k
      · simp
      · right; right; right; right; exact ⟨rfl, k, rfl⟩
  -- each face is either linked to a neighbour, in all fields, or not linked
  have link : ∀ x : Face, x.1 < ni * nj → x.2 < 4 →
      (∀ b < nbc, (M.bc x.1 b x.2).typ ≠ nE ∧ (M.bc x.1 b x.2).typ ≠ nP) ∨
      ∃ y : Face, y.1 < ni * nj ∧ y.2 < 4 ∧ SameCentre M x y ∧
        ∀ b < nbc, (M.bc x.1 b x.2).typ = nE ∧ PointsTo (M.bc x.1 b x.2) y ∧ (M.bc y.1 b y.2).typ = nE ∧ PointsTo (M.bc y.1 b y.2) x := by
    rintro ⟨e, f⟩ he hf
    dsimp only at he hf
    obtain ⟨i, hi, j, hj, rfl⟩ := elnum_cases he
    rcases cases_ i hi j hj f hf with h | ⟨rfl, k, rfl⟩ | ⟨rfl, h⟩ | ⟨rfl, h⟩ | ⟨rfl, k, rfl⟩
    · exact Or.inl fun b hb => outer i hi j hj b hb f hf h
    · refine Or.inr ⟨(i + ni * k, 2), elnum_lt hi (by omega), by dsimp only; omega, symm _ _ (same20 i hi k hj), fun b hb => ?_⟩
      dsimp only
      rw [in0 i hi k hj b hb, in2 i hi k hj b hb]
      exact ⟨rfl, wrLink_points _ _ _ _ 2 _, rfl, wrLink_points _ _ _ _ 0 _⟩
    · refine Or.inr ⟨(i + 1 + ni * j, 3), elnum_lt h hj, by dsimp only; omega, same13 i h j hj, fun b hb => ?_⟩
      dsimp only
      rw [in1 i h j hj b hb, in3 i h j hj b hb]
      exact ⟨rfl, wrLink_points _ _ _ _ 3 _, rfl, wrLink_points _ _ _ _ 1 _⟩
    · refine Or.inr ⟨(i + ni * (j + 1), 0), elnum_lt hi h, by dsimp only; omega, same20 i hi j h, fun b hb => ?_⟩
      dsimp only
      rw [in2 i hi j h b hb, in0 i hi j h b hb]
      exact ⟨rfl, wrLink_points _ _ _ _ 0 _, rfl, wrLink_points _ _ _ _ 2 _⟩
    · refine Or.inr ⟨(k + ni * j, 1), elnum_lt (by omega) hj, by dsimp only; omega, symm _ _ (same13 k hi j hj), fun b hb => ?_⟩
      dsimp only
      rw [in3 k hi j hj b hb, in1 k hi j hj b hb]
      exact ⟨rfl, wrLink_points _ _ _ _ 1 _, rfl, wrLink_points _ _ _ _ 3 _⟩
  have hd4 : 2 * M.ndim = 4 := by rw [hdim]
  have nEP : nE ≠ nP := by decide
  refine ⟨⟨by rw [hnel, hr.len], ?_, Or.inl hdim⟩, grid, hdim, hnbc, hlr, ?_, ?_, ?_⟩
  · intro el hel
    obtain ⟨e, he, rfl⟩ := List.getElem_of_mem hel
    rw [← M.el_eq_getElem e he, hrows e (by rw [← hr.len]; exact he), hnbc]
  · intro b hb x hx hx2 hl
    rw [hnbc] at hb
    rw [hr.len] at hx ⊢
    rw [hd4] at hx2 ⊢
    rcases link x hx hx2 with h | ⟨y, y1, y2, y3, y4⟩
    · rcases hl with hl | hl
      · exact absurd hl (h b hb).1
      · exact absurd hl (h b hb).2
    · obtain ⟨t1, t2, t3, t4⟩ := y4 b hb
      exact ⟨y, y1, y2, t2, t3.trans t1.symm, t4, fun _ => y3⟩
  · intro b hb x hx hx2
    rw [hnbc] at hb
    rw [hr.len] at hx
    rw [hd4] at hx2
    have h0 : 0 < nbc := by omega
    rcases link x hx hx2 with h | ⟨y, y1, y2, y3, y4⟩
    · have a := h b hb
      have c := h 0 h0
      refine ⟨by simp [a.1, c.1], by simp [a.2, c.2], fun hl => ?_⟩
      rcases hl with hl | hl
      · exact absurd hl c.1
      · exact absurd hl c.2
    · obtain ⟨t1, t2, -, -⟩ := y4 b hb
      obtain ⟨s1, s2, -, -⟩ := y4 0 h0
      refine ⟨by simp [t1, s1], by simp [t1, s1, nEP], fun _ z hz => ?_⟩
      obtain rfl := pointsTo_unique s2 hz
      exact t2
  · intro b hb x hx hx2 hP
    rw [hnbc] at hb
    rw [hr.len] at hx
    rw [hd4] at hx2
    rcases link x hx hx2 with h | ⟨y, y1, y2, y3, y4⟩
    · exact absurd hP (h b hb).2
    · exact absurd ((y4 b hb).1.symm.trans hP) nEP

/-- The five blocks of the circle. -/
def circleBlocks (sq o : HexaData F) (m : MathFns F) : Nat → HexaData F
  | 0 => sq
  | q + 1 => quarter m o q

theorem bcs_new (v2 v3 v4 lx ly lz nbc b f : Nat) : (Elem.new v2 v3 v4 lx ly lz nbc : Elem F).bcs b f = BC.zero := rfl

theorem con_free (n b : Nat) : u3 ((List.replicate n nCon).getD b []) ≠ nE ∧ u3 ((List.replicate n nCon).getD b []) ≠ nP := by
  rw [List.getD_eq_getElem?_getD, List.getElem?_replicate]
  constructor <;> split <;> decide

theorem mod_elnum' {ni i : Nat} (hi : i < ni) (j : Nat) : (i + ni * j) % ni = i := by rw [Nat.add_mul_mod_self_left, Nat.mod_eq_of_lt hi]

theorem div_elnum' {ni i : Nat} (hi : i < ni) (j : Nat) : (i + ni * j) / ni = j := by
  rw [Nat.add_mul_div_left _ _ (by omega), Nat.div_eq_of_lt hi, Nat.zero_add]

/-- The square is valid. -/
theorem square_good (native : Endian) (m : MathFns F) (r s : F) (ns : Nat) (var : Var) (nbc : Nat) :
    Good CentreEl 2 nbc 2 (circleSquare native m r s ns var nbc true) := by
  obtain ⟨s1, s2, s3, s4, s5, -, s6⟩ := square_ccurv native m r s ns var nbc true
  refine rows_good _ ns ns nbc (fun b => (List.replicate nbc nCon).getD b []) (fun b => (List.replicate nbc nCon).getD b [])
    (fun b => (List.replicate nbc nCon).getD b []) (fun b => (List.replicate nbc nCon).getD b []) ⟨s2, ?_, ?_, ?_⟩ s1 s3 s5 (by rw [s4])
    (fun e he => (s6 e he).2.1) ?_ ?_
  · intro e he
    rw [(s6 e he).2.2.2]
    exact ⟨rfl, rfl, rfl⟩
  · intro i hi j hj d hd ky hy
    have hi' : i < ns := by omega
    rw [(s6 _ (elnum_lt hi' hj)).2.2.2, (s6 _ (elnum_lt hi hj)).2.2.2, mod_elnum' hi', mod_elnum' hi, div_elnum' hi', div_elnum' hi]
    unfold squarePos
    simp [hy, Elem.new, Arr.zeros]
  · intro i hi j hj d hd kx hx
    have hj' : j < ns := by omega
    rw [(s6 _ (elnum_lt hi hj')).2.2.2, (s6 _ (elnum_lt hi hj)).2.2.2, mod_elnum' hi, mod_elnum' hi, div_elnum' hi, div_elnum' hi]
    unfold squarePos
    simp [hx, Elem.new, Arr.zeros]
  · intro i hi j hj b hb f
    unfold HexaData.bc
    rw [(s6 _ (elnum_lt hi hj)).2.2.1, mod_elnum' hi, div_elnum' hi]
    unfold circleBcs
    rw [if_pos hb, if_pos rfl, bcs_new]
  · intro b hb c hc
    simp only [List.mem_cons, List.not_mem_nil, or_false, or_self] at hc
    rw [hc]
    exact con_free nbc b

/-- Neighbours in the quarter O share corners. -/
theorem circleO_rows {native : Endian} {m : MathFns F} {cf bl : F → Py F} {r s : F} {ns no : Nat} {var : Var} {bc : List Name} {ib : Bool} {o : HexaData F}
    (ho : circleO native m cf bl r s ns no var bc ib = .ok o) : Rows no ns o := by
  obtain ⟨-, o2, -, -, -, -, o6⟩ := circleO_eq ho
  have z : ∀ e < no * ns, ∀ ky kx, (o.el e).pos.dat 2 0 ky kx = 0 := by
    intro e he ky kx
    have h := (o6 e he).2.2.2.2
    unfold oPos at h
    simp only [bind, Except.bind] at h
    repeat' (split at h; · cases h)
    obtain h := Except.ok.inj h
    rw [← h]
    simp [Elem.new, Arr.zeros]
  refine ⟨o2, ?_, ?_, ?_⟩
  · intro e he
    obtain ⟨⟨-, h1, h2, h3⟩, -⟩ := oPos_eq (o6 e he).2.2.2.2
    exact ⟨h3, h2, h1⟩
  · intro i hi j hj d hd ky hy
    have hi' : i < no := by omega
    have p1 := (o6 _ (elnum_lt hi' hj)).2.2.2.2
    have p2 := (o6 _ (elnum_lt hi hj)).2.2.2.2
    rw [mod_elnum' hi', div_elnum' hi'] at p1
    rw [mod_elnum' hi, div_elnum' hi] at p2
    obtain ⟨-, e1, a1, a2⟩ := oPos_eq p1
    obtain ⟨-, e2, b1, b2⟩ := oPos_eq p2
    have he : e1 1 = e2 0 := by
      have h1 := a1 1 (by omega)
      have h2 := b1 0 (by omega)
      rw [Nat.add_zero, h1] at h2
      exact Except.ok.inj h2
    obtain ⟨x, y, h3, h4, h5⟩ := a2 ky hy 1 (by omega)
    obtain ⟨x', y', h3', h4', h5'⟩ := b2 ky hy 0 (by omega)
    rw [he, h3'] at h3
    obtain ⟨rfl, rfl⟩ := Prod.mk.inj (Except.ok.inj h3)
    rcases (by omega : d = 0 ∨ d = 1 ∨ d = 2) with rfl | rfl | rfl
    · rw [h4, h4']
    · rw [h5, h5']
    · rw [z _ (elnum_lt hi' hj), z _ (elnum_lt hi hj)]
  · intro i hi j hj d hd kx hx
    have hj' : j < ns := by omega
    have p1 := (o6 _ (elnum_lt hi hj')).2.2.2.2
    have p2 := (o6 _ (elnum_lt hi hj)).2.2.2.2
    rw [mod_elnum' hi, div_elnum' hi] at p1
    rw [mod_elnum' hi, div_elnum' hi] at p2
    obtain ⟨-, e1, a1, a2⟩ := oPos_eq p1
    obtain ⟨-, e2, b1, b2⟩ := oPos_eq p2
    have he : e1 kx = e2 kx := by
      have h1 := a1 kx hx
      have h2 := b1 kx hx
      rw [h1] at h2
      exact Except.ok.inj h2
    obtain ⟨x, y, h3, h4, h5⟩ := a2 1 (by omega) kx hx
    obtain ⟨x', y', h3', h4', h5'⟩ := b2 0 (by omega) kx hx
    rw [he] at h3
    rw [Nat.add_zero, h3] at h3'
    obtain ⟨rfl, rfl⟩ := Prod.mk.inj (Except.ok.inj h3')
    rcases (by omega : d = 0 ∨ d = 1 ∨ d = 2) with rfl | rfl | rfl
    · rw [h4, h4']
    · rw [h5, h5']
    · rw [z _ (elnum_lt hi hj'), z _ (elnum_lt hi hj)]

theorem rotate_rows {ni nj : Nat} {M : HexaData F} (h : Rows ni nj M) (x y c s : F) : Rows ni nj (rotate2d M x y c s) := by
  have el : ∀ e < ni * nj, (rotate2d M x y c s).el e = rotateElem c s (M.el e) := fun e he => rotate2d_el M x y c s e (by rw [h.len]; exact he)
  refine ⟨by rw [rotate2d_len, h.len], ?_, ?_, ?_⟩
  · intro e he
    rw [el e he]
    exact h.shape e he
  · intro i hi j hj d hd ky hy
    rw [el _ (elnum_lt (show i < ni by omega) hj), el _ (elnum_lt hi hj)]
    simp only [rotateElem, rotatePos]
    rw [h.xs i hi j hj 0 (by omega) ky hy, h.xs i hi j hj 1 (by omega) ky hy, h.xs i hi j hj d hd ky hy]
  · intro i hi j hj d hd kx hx
    rw [el _ (elnum_lt hi (show j < nj by omega)), el _ (elnum_lt hi hj)]
    simp only [rotateElem, rotatePos]
    rw [h.ys i hi j hj 0 (by omega) kx hx, h.ys i hi j hj 1 (by omega) kx hx, h.ys i hi j hj d hd kx hx]

theorem quarter_rows {ni nj : Nat} {o : HexaData F} (h : Rows ni nj o) (m : MathFns F) (q : Nat) : Rows ni nj (quarter m o q) := by
  induction q with
  | zero => exact h
  | succ q ih => exact rotate_rows ih _ _ _ _

theorem quarter_meta (m : MathFns F) (o : HexaData F) (q : Nat) : (quarter m o q).nel = o.nel ∧ (quarter m o q).ndim = o.ndim ∧
    (quarter m o q).nbc = o.nbc ∧ (quarter m o q).lr1 = o.lr1 ∧ ∀ e < o.elem.length, ((quarter m o q).el e).rows = (o.el e).rows := by
  induction q with
  | zero => exact ⟨rfl, rfl, rfl, rfl, fun _ _ => rfl⟩
  | succ q ih =>
    refine ⟨ih.1, ih.2.1, ih.2.2.1, ih.2.2.2.1, fun e he => ?_⟩
    rw [quarter, rotate2d_el _ _ _ _ _ _ (by rw [quarter_len]; exact he)]
    exact ih.2.2.2.2 e he

/-- The quarters are valid. -/
theorem quarter_good {native : Endian} {m : MathFns F} {cf bl : F → Py F} {r s : F} {ns no : Nat} {var : Var} {bc : List Name} {o : HexaData F}
    (ho : circleO native m cf bl r s ns no var bc true = .ok o) (hbc : ∀ c ∈ bc, u3 c ≠ nE ∧ u3 c ≠ nP) (q : Nat) :
    Good CentreEl 2 bc.length 2 (quarter m o q) := by
  obtain ⟨o1, o2, o3, o4, o5, -, o6⟩ := circleO_eq ho
  obtain ⟨q1, q2, q3, q4, q5⟩ := quarter_meta m o q
  refine rows_good _ no ns bc.length (fun b => (List.replicate bc.length nCon).getD b []) (fun b => bc.getD b [])
    (fun b => (List.replicate bc.length nCon).getD b []) (fun b => (List.replicate bc.length nCon).getD b []) (quarter_rows (circleO_rows ho) m q)
    (by rw [q1, o1]) (by rw [q2, o3]) (by rw [q3, o5]) (by rw [q4, o4]) (fun e he => by rw [q5 e (by rw [o2]; exact he), (o6 e he).2.2.2.1]) ?_ ?_
  · intro i hi j hj b hb f
    rw [quarter_bc m o q _ b f (by rw [o2]; exact elnum_lt hi hj)]
    unfold HexaData.bc
    rw [(o6 _ (elnum_lt hi hj)).2.2.1, mod_elnum' hi, div_elnum' hi]
    unfold circleBcs
    rw [if_pos hb, if_pos rfl, bcs_new]
  · intro b hb c hc
    simp only [List.mem_cons, List.not_mem_nil, or_false] at hc
    rcases hc with rfl | rfl | rfl | rfl
    · exact con_free _ b
    · apply hbc
      rw [List.getD_eq_getElem?_getD, List.getElem?_eq_getElem hb]
      exact List.getElem_mem hb
    · exact con_free _ b
    · exact con_free _ b

/-- Five meshes merged one after the other. -/
theorem mergeAll_four {P : Nat → HexaData F} {M1 M2 M3 M : HexaData F} {n1 n2 n3 n4 : Nat} {tol : F} {ie : Bool}
    (h1 : (P 0).merge (P 1) tol ie false = .ok (M1, n1)) (h2 : M1.merge (P 2) tol ie false = .ok (M2, n2))
    (h3 : M2.merge (P 3) tol ie false = .ok (M3, n3)) (h4 : M3.merge (P 4) tol ie false = .ok (M, n4)) : mergeAll tol ie P 4 = .ok M := by
  have e1 : mergeAll tol ie P 1 = .ok M1 := by
    change ((P 0).merge (P 1) tol ie false >>= fun r => pure r.1) = _
    rw [h1]
    rfl
  have e2 : mergeAll tol ie P 2 = .ok M2 := by
    change (mergeAll tol ie P 1 >>= fun M => M.merge (P 2) tol ie false >>= fun r => pure r.1) = _
    rw [e1]
    change (M1.merge (P 2) tol ie false >>= fun r => pure r.1) = _
    rw [h2]
    rfl
  have e3 : mergeAll tol ie P 3 = .ok M3 := by
    change (mergeAll tol ie P 2 >>= fun M => M.merge (P 3) tol ie false >>= fun r => pure r.1) = _
    rw [e2]
    change (M2.merge (P 3) tol ie false >>= fun r => pure r.1) = _
    rw [h3]
    rfl
  change (mergeAll tol ie P 3 >>= fun M => M.merge (P 4) tol ie false >>= fun r => pure r.1) = _
  rw [e3]
  change (M3.merge (P 4) tol ie false >>= fun r => pure r.1) = _
  rw [h4]
  rfl

/-- **C106, for any number type and functions.** Let `gen_circle` with `internal_bcs=True` return a mesh, for conditions other than `'E'` and `'P'`. If the square and the four
quarters fit, with the tolerance of a hundredth used by the function, then the mesh is valid, passes `check_connectivity`, contains a connection
between any two faces of different blocks that are near each other, and has the conditions of the blocks on all other faces. That the blocks
fit over the real numbers is shown for `C106`. -/
theorem C106_general {native : Endian} {m : MathFns F} {r s : F} {ns no : Nat} {cf bl : Option (F → Py F)} {var : Var} {bc : List Name}
    {M : HexaData F} (h : genCircle native m r s ns no cf bl var bc true = .ok M) (h0 : bc ≠ []) (hbc : ∀ c ∈ bc, u3 c ≠ nE ∧ u3 c ≠ nP) :
    ∃ (cf' bl' : F → Py F) (o : HexaData F), cf' = cf.getD (fun x => .ok (m.sin (1 / 2 * m.pi * x) ^ 2)) ∧ circleBl m cf' r s ns no bl = .ok bl' ∧
      circleO native m cf' bl' r s ns no var bc true = .ok o ∧
      let P := circleBlocks (circleSquare native m r s ns var bc.length true) o m
      (Fits P 4 true (1 / 100) → Merged (NearEl (1 / 100)) 2 bc.length 2 P 4 true (1 / 100) M ∧ ∀ tol, 1 / 100 ≤ tol → M.checkConnectivity tol = .ok true) := by
  obtain ⟨cf', bl', o, M1, M2, M3, n1, n2, n3, n4, -, -, hcf, hbl, ho, h1, h2, h3, h4⟩ := genCircle_eq h
  refine ⟨cf', bl', o, hcf, hbl, ho, ?_⟩
  intro P hF
  have t0 : (0 : F) ≤ 1 / 100 := by norm_num
  have hlen : 0 < bc.length := List.length_pos_iff.2 h0
  have good : ∀ tol : F, 0 ≤ tol → ∀ p ≤ 4, Good (NearEl tol) 2 bc.length 2 (P p) := by
    intro tol ht p _
    cases p with
    | zero => exact good_near (square_good native m r s ns var bc.length) tol ht
    | succ q => exact good_near (quarter_good ho hbc q) tol ht
  have hM : mergeAll (1 / 100) true P 4 = .ok M := mergeAll_four h1 h2 h3 h4
  constructor
  · obtain ⟨M', hM', I⟩ := C105 (NearEl (1 / 100)) (nearEl_pos _) P 4 true (1 / 100) 2 bc.length 2 hlen (good _ t0) hF (fun u v huv => huv.2.2.2.2.2)
    rw [hM] at hM'
    obtain rfl := Except.ok.inj hM'
    exact I
  · intro tol ht
    obtain ⟨M', hM', hc⟩ := C105_check P 4 true (1 / 100) tol t0 ht 2 bc.length 2 hlen (good tol (t0.trans ht)) hF
    rw [hM] at hM'
    obtain rfl := Except.ok.inj hM'
    exact hc

end

end Pymech
