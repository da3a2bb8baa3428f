import Verif.Props.CircleValid
import Verif.Lemmas.CircleSep

/-!
# C106: which faces of `gen_circle` are connected
-/

set_option autoImplicit false
set_option linter.unusedSectionVars false

namespace Pymech

open Spec

namespace Spec

/-- The face on one side: of the square for the sides of the square, otherwise of quarter `q`. Blocks are numbered from 0 (the square) to 4. -/
def Key.fst (ns no : Nat) : Key → Place
  | .side 0 j => (0, (ns - 1 + ns * j, 1))
  | .side 1 j => (0, (ns - 1 - j + ns * (ns - 1), 2))
  | .side 2 j => (0, (0 + ns * (ns - 1 - j), 3))
  | .side _ j => (0, (j + ns * 0, 0))
  | .diag q i => (q + 1, (i + no * 0, 0))
  | .arc q j => (q + 1, (no - 1 + no * j, 1))

/-- The face on the other side: of quarter `q` for the sides of the square, of the quarter before for the diagonals. There is none on the circle. -/
def Key.snd (ns no : Nat) : Key → Place
  | .side q j => (q + 1, (0 + no * j, 3))
  | .diag q i => ((q + 3) % 4 + 1, (i + no * (ns - 1), 2))
  | .arc q j => (q + 1, (no - 1 + no * j, 1))

end Spec

/-- The faces of a quadrilateral. -/
theorem faceMean_quad {F : Type} [Field F] [CharZero F] (el : Elem F) (h : el.pos.lx = 2 ∧ el.pos.ly = 2 ∧ el.pos.lz = 1) (d : Nat) :
    faceMean el 0 d = (el.pos.dat d 0 0 0 + el.pos.dat d 0 0 1) / 2 ∧ faceMean el 1 d = (el.pos.dat d 0 0 1 + el.pos.dat d 0 1 1) / 2 ∧
    faceMean el 2 d = (el.pos.dat d 0 1 0 + el.pos.dat d 0 1 1) / 2 ∧ faceMean el 3 d = (el.pos.dat d 0 0 0 + el.pos.dat d 0 1 0) / 2 := by
  obtain ⟨l1, l2, l3⟩ := h
  refine ⟨?_, ?_, ?_, ?_⟩ <;> unfold faceMean faceCoord Spec.corner <;> simp only [l1, l2, l3] <;> simp <;> ring

/-- Centre of a face in the plane. -/
noncomputable def Spec.faceMid (el : Elem ℝ) (f : Nat) : ℝ × ℝ := (faceMean el f 0, faceMean el f 1)

/-- The point in the middle. -/
noncomputable def Spec.midPt (p p' : ℝ × ℝ) : ℝ × ℝ := ((p.1 + p'.1) / 2, (p.2 + p'.2) / 2)

theorem turn_mid (q : Nat) (p p' : ℝ × ℝ) : midPt (turn q p) (turn q p') = turn q (midPt p p') := by
  induction q with
  | zero => rfl
  | succ q ih =>
    rw [turn, turn, turn, ← ih]
    unfold midPt
    ext
    · dsimp only; ring
    · rfl

theorem turn_add (q q' : Nat) (p : ℝ × ℝ) : turn q (turn q' p) = turn (q + q') p := by
  induction q with
  | zero => rw [Nat.zero_add]; rfl
  | succ q ih => rw [turn, ih, show q + 1 + q' = (q + q') + 1 by omega, turn]

theorem faceMid_quad (M : HexaData ℝ) (e : Nat) (h : (M.el e).pos.lx = 2 ∧ (M.el e).pos.ly = 2 ∧ (M.el e).pos.lz = 1) :
    faceMid (M.el e) 0 = midPt (planeCorner M e 0 0) (planeCorner M e 0 1) ∧ faceMid (M.el e) 1 = midPt (planeCorner M e 0 1) (planeCorner M e 1 1) ∧
    faceMid (M.el e) 2 = midPt (planeCorner M e 1 0) (planeCorner M e 1 1) ∧ faceMid (M.el e) 3 = midPt (planeCorner M e 0 0) (planeCorner M e 1 0) := by
  obtain ⟨a0, a1, a2, a3⟩ := faceMean_quad (M.el e) h 0
  obtain ⟨b0, b1, b2, b3⟩ := faceMean_quad (M.el e) h 1
  unfold faceMid midPt planeCorner
  rw [a0, a1, a2, a3, b0, b1, b2, b3]
  exact ⟨rfl, rfl, rfl, rfl⟩

section

variable {native : Endian} {cf bl : ℝ → Py ℝ} {r s K : ℝ} {ns no : Nat} {var : Var} {bc : List Name} {ib : Bool} {o : HexaData ℝ} {eta : Nat → ℝ}

/-- Corners of the square. -/
theorem square_corner (nbc i j : Nat) (hi : i < ns) (hj : j < ns) (ky kx : Nat) (hy : ky < 2) (hx : kx < 2) :
    planeCorner (circleSquare native realFns r s ns var nbc ib) (i + ns * j) ky kx =
      (s * r * Real.sqrt 2 * (((i + kx : Nat) : ℝ) / ns - 1 / 2), s * r * Real.sqrt 2 * (((j + ky : Nat) : ℝ) / ns - 1 / 2)) := by
  obtain ⟨-, s2, -, -, -, -, s6⟩ := square_ccurv native realFns r s ns var nbc ib
  unfold planeCorner
  rw [(s6 _ (elnum_lt hi hj)).2.2.2, mod_elnum' hi, div_elnum' hi]
  unfold squarePos
  simp only [realFns]
  rcases (by omega : ky = 0 ∨ ky = 1) with rfl | rfl <;> rcases (by omega : kx = 0 ∨ kx = 1) with rfl | rfl <;> simp

/-- Corners of the quarters. -/
theorem block_corner (ho : circleO native realFns cf bl r s ns no var bc ib = .ok o) (heta : ∀ i ≤ no, bl ((i : ℝ) / no) = .ok (eta i)) (q i j : Nat)
    (hi : i < no) (hj : j < ns) (ky kx : Nat) (hy : ky < 2) (hx : kx < 2) :
    ∃ g, cf (eta (i + kx)) = .ok g ∧
      planeCorner (quarter realFns o q) (i + no * j) ky kx = turn q (rayPoint r (s * r * Real.sqrt 2) ns (j + ky) g (eta (i + kx))) := by
  obtain ⟨-, o2, -, -, -, -, o6⟩ := circleO_eq ho
  have hlt := elnum_lt hi hj
  have hp := (o6 _ hlt).2.2.2.2
  rw [mod_elnum' hi, div_elnum' hi] at hp
  obtain ⟨-, et, h1, h2⟩ := oPos_eq hp
  obtain ⟨x, y, h3, h4, h5⟩ := h2 ky hy kx hx
  have he : et kx = eta (i + kx) := by
    have := h1 kx hx
    rw [heta (i + kx) (by omega)] at this
    exact (Except.ok.inj this).symm
  rw [he] at h3
  obtain ⟨g, h6, h7⟩ := oCorner_eq h3
  rw [show realFns.sqrt2 = Real.sqrt 2 from rfl] at h7
  refine ⟨g, h6, ?_⟩
  rw [quarter_corner o q _ (by rw [o2]; exact hlt), ← h7]
  unfold planeCorner
  rw [h4, h5]

theorem circleO_plane (ho : circleO native realFns cf bl r s ns no var bc ib = .ok o) (q : Nat) :
    ∀ e < no * ns, ∀ ky kx, ((quarter realFns o q).el e).pos.dat 2 0 ky kx = 0 := by
  obtain ⟨-, o2, -, -, -, -, o6⟩ := circleO_eq ho
  induction q with
  | zero =>
    intro e he ky kx
    have h := (o6 e he).2.2.2.2
    unfold oPos at h
    simp only [bind, Except.bind] at h
    repeat' (split at h; · cases h)
    obtain h := Except.ok.inj h
    change (o.el e).pos.dat 2 0 ky kx = 0
    rw [← h]
    simp [Elem.new, Arr.zeros]
  | succ q ih =>
    intro e he ky kx
    rw [quarter, rotate2d_el _ _ _ _ _ _ (by rw [quarter_len, o2]; exact he)]
    have := ih e he ky kx
    simpa [rotateElem, rotatePos] using this

theorem square_plane (nbc : Nat) : ∀ e < ns * ns, ∀ ky < 2, ∀ kx < 2, ((circleSquare native realFns r s ns var nbc ib).el e).pos.dat 2 0 ky kx = 0 := by
  obtain ⟨-, s2, -, -, -, -, s6⟩ := square_ccurv native realFns r s ns var nbc ib
  intro e he ky hy kx hx
  rw [(s6 e he).2.2.2]
  unfold squarePos
  simp [hx, hy, Elem.new, Arr.zeros]

theorem blocks_len (ho : circleO native realFns cf bl r s ns no var bc ib = .ok o) (p : Nat) :
    (circleBlocks (circleSquare native realFns r s ns var bc.length ib) o realFns p).elem.length = if p = 0 then ns * ns else no * ns := by
  cases p with
  | zero => exact (square_ccurv native realFns r s ns var bc.length ib).2.1
  | succ q => exact (quarter_len realFns o q).trans (circleO_eq ho).2.1

theorem blocks_dim (ho : circleO native realFns cf bl r s ns no var bc ib = .ok o) (p : Nat) :
    (circleBlocks (circleSquare native realFns r s ns var bc.length ib) o realFns p).ndim = 2 := by
  cases p with
  | zero => exact (square_ccurv native realFns r s ns var bc.length ib).2.2.1
  | succ q => exact (quarter_meta realFns o q).2.1.trans (circleO_eq ho).2.2.1

theorem blocks_shape (ho : circleO native realFns cf bl r s ns no var bc ib = .ok o) (p e : Nat)
    (he : e < (circleBlocks (circleSquare native realFns r s ns var bc.length ib) o realFns p).elem.length) :
    let el := (circleBlocks (circleSquare native realFns r s ns var bc.length ib) o realFns p).el e
    el.pos.lx = 2 ∧ el.pos.ly = 2 ∧ el.pos.lz = 1 := by
  rw [blocks_len ho] at he
  cases p with
  | zero =>
    change ((circleSquare native realFns r s ns var bc.length ib).el e).pos.lx = 2 ∧ _
    have := ((square_ccurv native realFns r s ns var bc.length ib).2.2.2.2.2.2 e he).2.2.2
    change _ ∧ ((circleSquare native realFns r s ns var bc.length ib).el e).pos.ly = 2 ∧ ((circleSquare native realFns r s ns var bc.length ib).el e).pos.lz = 1
    rw [this]
    exact ⟨rfl, rfl, rfl⟩
  | succ q => exact (quarter_rows (circleO_rows ho) realFns q).shape e he

theorem place_mk (ho : circleO native realFns cf bl r s ns no var bc ib = .ok o) (p e f : Nat) (hp : p ≤ 4) (he : e < if p = 0 then ns * ns else no * ns)
    (hf : f < 4) : IsPlace (circleBlocks (circleSquare native realFns r s ns var bc.length ib) o realFns) 4 (p, (e, f)) := by
  refine ⟨hp, ?_, ?_⟩
  · rw [blocks_len ho]; exact he
  · rw [blocks_dim ho]; exact hf

/-- The places of the faces exist. -/
theorem key_place (ho : circleO native realFns cf bl r s ns no var bc ib = .ok o) (hns : 0 < ns) (hno : 0 < no) (k : Key) (hk : k.Ok ns no) :
    IsPlace (circleBlocks (circleSquare native realFns r s ns var bc.length ib) o realFns) 4 (k.fst ns no) ∧
    IsPlace (circleBlocks (circleSquare native realFns r s ns var bc.length ib) o realFns) 4 (k.snd ns no) := by
  cases k with
  | side q j =>
    obtain ⟨hq, hj⟩ := hk
    refine ⟨?_, place_mk ho _ _ _ (by omega) (elnum_lt hno hj) (by omega)⟩
    rcases (by omega : q = 0 ∨ q = 1 ∨ q = 2 ∨ q = 3) with rfl | rfl | rfl | rfl
    · exact place_mk ho _ _ _ (by omega) (elnum_lt (by omega) hj) (by omega)
    · exact place_mk ho _ _ _ (by omega) (elnum_lt (by omega) (by omega)) (by omega)
    · exact place_mk ho _ _ _ (by omega) (elnum_lt (by omega) (by omega)) (by omega)
    · exact place_mk ho _ _ _ (by omega) (elnum_lt (by omega) (by omega)) (by omega)
  | diag q i =>
    obtain ⟨hq, hi⟩ := hk
    exact ⟨place_mk ho _ _ _ (by omega) (elnum_lt hi hns) (by omega), place_mk ho _ _ _ (by omega) (elnum_lt hi (by omega)) (by omega)⟩
  | arc q j =>
    obtain ⟨hq, hj⟩ := hk
    exact ⟨place_mk ho _ _ _ (by omega) (elnum_lt (by omega) hj) (by omega), place_mk ho _ _ _ (by omega) (elnum_lt (by omega) hj) (by omega)⟩

/-- The blocks lie in the plane. -/
theorem place_plane (ho : circleO native realFns cf bl r s ns no var bc ib = .ok o) (u : Place)
    (hu : IsPlace (circleBlocks (circleSquare native realFns r s ns var bc.length ib) o realFns) 4 u) :
    let el := (circleBlocks (circleSquare native realFns r s ns var bc.length ib) o realFns u.1).el u.2.1
    (∀ ky < 2, ∀ kx < 2, el.pos.dat 2 0 ky kx = 0) ∧ faceMean el u.2.2 2 = 0 := by
  obtain ⟨p, e, f⟩ := u
  intro el
  obtain ⟨hp, he, hf⟩ := hu
  have sh := blocks_shape ho p e he
  rw [blocks_len ho] at he
  rw [blocks_dim ho] at hf
  have z : ∀ ky < 2, ∀ kx < 2, el.pos.dat 2 0 ky kx = 0 := by
    cases p with
    | zero => exact square_plane bc.length e he
    | succ q => exact fun ky _ kx _ => circleO_plane ho q e he ky kx
  refine ⟨z, ?_⟩
  obtain ⟨a0, a1, a2, a3⟩ := faceMean_quad el sh 2
  have z00 := z 0 (by omega) 0 (by omega)
  have z01 := z 0 (by omega) 1 (by omega)
  have z10 := z 1 (by omega) 0 (by omega)
  have z11 := z 1 (by omega) 1 (by omega)
  dsimp only at hf ⊢
  rcases (by omega : f = 0 ∨ f = 1 ∨ f = 2 ∨ f = 3) with rfl | rfl | rfl | rfl
  · rw [a0, z00, z01]; norm_num
  · rw [a1, z01, z11]; norm_num
  · rw [a2, z10, z11]; norm_num
  · rw [a3, z00, z10]; norm_num

theorem rayPoint_radius_zero (g et : ℝ) : rayPoint r (s * r * Real.sqrt 2) ns 0 g et =
    ((s * r + et * (r - s * r)) * (Real.sqrt 2 / 2), -((s * r + et * (r - s * r)) * (Real.sqrt 2 / 2))) := by
  rw [rayPoint_zero]
  have sq2 : Real.sqrt 2 * Real.sqrt 2 = 2 := Real.mul_self_sqrt (by norm_num)
  have e : 1 / 2 * (s * r * Real.sqrt 2) * Real.sqrt 2 = s * r := by linear_combination (s * r / 2) * sq2
  simp only [e]

theorem rayPoint_radius_last (hn : 0 < ns) (g et : ℝ) : rayPoint r (s * r * Real.sqrt 2) ns ns g et =
    ((s * r + et * (r - s * r)) * (Real.sqrt 2 / 2), (s * r + et * (r - s * r)) * (Real.sqrt 2 / 2)) := by
  rw [rayPoint_last r _ ns hn]
  have sq2 : Real.sqrt 2 * Real.sqrt 2 = 2 := Real.mul_self_sqrt (by norm_num)
  have e : 1 / 2 * (s * r * Real.sqrt 2) * Real.sqrt 2 = s * r := by linear_combination (s * r / 2) * sq2
  simp only [e]

/-- The hypotheses on the two functions: the radial positions, and no curvature at the square but full curvature at the circle. -/
structure Spec.Spacing (cf bl : ℝ → Py ℝ) (no : Nat) (eta : Nat → ℝ) : Prop where
  pos : ∀ i ≤ no, bl ((i : ℝ) / no) = .ok (eta i)
  eta0 : eta 0 = 0
  eta1 : eta no = 1
  cf0 : cf 0 = .ok 0
  cf1 : cf 1 = .ok 1

/-- Where the faces are. -/
theorem key_centre (ho : circleO native realFns cf bl r s ns no var bc ib = .ok o) (hns : 0 < ns) (hno : 0 < no) (hS : Spacing cf bl no eta)
    (k : Key) (hk : k.Ok ns no) (u : Place) (hu : u = k.fst ns no ∨ u = k.snd ns no) :
    faceMid ((circleBlocks (circleSquare native realFns r s ns var bc.length ib) o realFns u.1).el u.2.1) u.2.2 = k.centre r s ns eta := by
  have hup : IsPlace (circleBlocks (circleSquare native realFns r s ns var bc.length ib) o realFns) 4 u := by
    have := key_place ho hns hno k hk
    rcases hu with rfl | rfl
    · exact this.1
    · exact this.2
  obtain ⟨f0, f1, f2, f3⟩ := faceMid_quad _ _ (blocks_shape ho u.1 u.2.1 hup.2.1)
  have hn : (0 : ℝ) < ns := by positivity
  cases k with
  | side q j =>
    obtain ⟨hq, hj⟩ := hk
    rcases hu with rfl | rfl
    · have cN : ((ns - 1 : Nat) : ℝ) = ns - 1 := by rw [Nat.cast_sub hns]; norm_num
      have cJ : ((ns - 1 - j : Nat) : ℝ) = ns - 1 - j := by rw [Nat.cast_sub (by omega), cN]
      rcases (by omega : q = 0 ∨ q = 1 ∨ q = 2 ∨ q = 3) with rfl | rfl | rfl | rfl
      · refine f1.trans ?_
        change midPt (planeCorner (circleSquare native realFns r s ns var bc.length ib) (ns - 1 + ns * j) 0 1)
          (planeCorner (circleSquare native realFns r s ns var bc.length ib) (ns - 1 + ns * j) 1 1) = _
        rw [square_corner _ _ _ (by omega) hj 0 1 (by omega) (by omega), square_corner _ _ _ (by omega) hj 1 1 (by omega) (by omega)]
        simp only [midPt, Key.centre, turn]
        ext
        · simp only; push_cast [cN]; field_simp; ring
        · simp only; push_cast; field_simp; ring
      · refine f2.trans ?_
        change midPt (planeCorner (circleSquare native realFns r s ns var bc.length ib) (ns - 1 - j + ns * (ns - 1)) 1 0)
          (planeCorner (circleSquare native realFns r s ns var bc.length ib) (ns - 1 - j + ns * (ns - 1)) 1 1) = _
        rw [square_corner _ _ _ (by omega) (by omega) 1 0 (by omega) (by omega), square_corner _ _ _ (by omega) (by omega) 1 1 (by omega) (by omega)]
        simp only [midPt, Key.centre, turn]
        ext
        · simp only; push_cast [cJ]; field_simp; ring
        · simp only; push_cast [cN]; field_simp; ring
      · refine f3.trans ?_
        change midPt (planeCorner (circleSquare native realFns r s ns var bc.length ib) (0 + ns * (ns - 1 - j)) 0 0)
          (planeCorner (circleSquare native realFns r s ns var bc.length ib) (0 + ns * (ns - 1 - j)) 1 0) = _
        rw [square_corner _ _ _ (by omega) (by omega) 0 0 (by omega) (by omega), square_corner _ _ _ (by omega) (by omega) 1 0 (by omega) (by omega)]
        simp only [midPt, Key.centre, turn]
        ext
        · simp only; push_cast; field_simp; ring
        · simp only; push_cast [cJ]; field_simp; ring
      · refine f0.trans ?_
        change midPt (planeCorner (circleSquare native realFns r s ns var bc.length ib) (j + ns * 0) 0 0)
          (planeCorner (circleSquare native realFns r s ns var bc.length ib) (j + ns * 0) 0 1) = _
        rw [square_corner _ _ _ (by omega) (by omega) 0 0 (by omega) (by omega), square_corner _ _ _ (by omega) (by omega) 0 1 (by omega) (by omega)]
        simp only [midPt, Key.centre, turn]
        ext
        · simp only; push_cast; field_simp; ring
        · simp only; push_cast; field_simp; ring
    · refine f3.trans ?_
      change midPt (planeCorner (quarter realFns o q) (0 + no * j) 0 0) (planeCorner (quarter realFns o q) (0 + no * j) 1 0) = _
      obtain ⟨g, hg, e⟩ := block_corner ho hS.pos q 0 j hno hj 0 0 (by omega) (by omega)
      obtain ⟨g', hg', e'⟩ := block_corner ho hS.pos q 0 j hno hj 1 0 (by omega) (by omega)
      rw [Nat.add_zero, hS.eta0, hS.cf0] at hg hg'
      obtain rfl := Except.ok.inj hg
      obtain rfl := Except.ok.inj hg'
      rw [e, e', turn_mid, Nat.add_zero, Nat.add_zero, hS.eta0, rayPoint_inner _ _ _ _ hns, rayPoint_inner _ _ _ _ hns]
      simp only [Key.centre, midPt]
      congr 1
      ext
      · simp only; ring
      · simp only; push_cast; field_simp; ring
  | diag q i =>
    obtain ⟨hq, hi⟩ := hk
    rcases hu with rfl | rfl
    · refine f0.trans ?_
      change midPt (planeCorner (quarter realFns o q) (i + no * 0) 0 0) (planeCorner (quarter realFns o q) (i + no * 0) 0 1) = _
      obtain ⟨g, -, e⟩ := block_corner ho hS.pos q i 0 hi hns 0 0 (by omega) (by omega)
      obtain ⟨g', -, e'⟩ := block_corner ho hS.pos q i 0 hi hns 0 1 (by omega) (by omega)
      rw [e, e', turn_mid, Nat.add_zero, Nat.add_zero, rayPoint_radius_zero, rayPoint_radius_zero]
      simp only [Key.centre, midPt, radius]
      congr 1
      ext <;> simp only <;> ring
    · refine f2.trans ?_
      change midPt (planeCorner (quarter realFns o ((q + 3) % 4)) (i + no * (ns - 1)) 1 0) (planeCorner (quarter realFns o ((q + 3) % 4)) (i + no * (ns - 1)) 1 1) = _
      obtain ⟨g, -, e⟩ := block_corner ho hS.pos ((q + 3) % 4) i (ns - 1) hi (by omega) 1 0 (by omega) (by omega)
      obtain ⟨g', -, e'⟩ := block_corner ho hS.pos ((q + 3) % 4) i (ns - 1) hi (by omega) 1 1 (by omega) (by omega)
      rw [e, e', turn_mid, Nat.sub_add_cancel hns, Nat.add_zero, rayPoint_radius_last hns, rayPoint_radius_last hns]
      simp only [Key.centre, midPt, radius]
      rcases (by omega : q = 0 ∨ q = 1 ∨ q = 2 ∨ q = 3) with rfl | rfl | rfl | rfl <;> simp only [turn] <;> ext <;> simp only <;> ring_nf
  | arc q j =>
    obtain ⟨hq, hj⟩ := hk
    have hu' : u = (q + 1, (no - 1 + no * j, 1)) := by rcases hu with h | h <;> exact h
    subst hu'
    refine f1.trans ?_
    change midPt (planeCorner (quarter realFns o q) (no - 1 + no * j) 0 1) (planeCorner (quarter realFns o q) (no - 1 + no * j) 1 1) = _
    obtain ⟨g, hg, e⟩ := block_corner ho hS.pos q (no - 1) j (by omega) hj 0 1 (by omega) (by omega)
    obtain ⟨g', hg', e'⟩ := block_corner ho hS.pos q (no - 1) j (by omega) hj 1 1 (by omega) (by omega)
    rw [Nat.sub_add_cancel hno, hS.eta1, hS.cf1] at hg hg'
    obtain rfl := Except.ok.inj hg
    obtain rfl := Except.ok.inj hg'
    rw [e, e', turn_mid, Nat.sub_add_cancel hno, hS.eta1, rayPoint_outer, rayPoint_outer, Nat.add_zero]
    simp only [Key.centre, midPt]
    congr 1
    ext <;> simp only <;> ring

/-- Bounds of the sizes of the elements at the faces. -/
theorem key_size (ho : circleO native realFns cf bl r s ns no var bc ib = .ok o) (hns : 0 < ns) (hno : 0 < no) (hS : Spacing cf bl no eta)
    (hK : ∀ p ≤ 4, ∀ e < (circleBlocks (circleSquare native realFns r s ns var bc.length ib) o realFns p).elem.length, ∀ t,
      ((circleBlocks (circleSquare native realFns r s ns var bc.length ib) o realFns p).el e).smallestEdgeSq = .ok t → t ≤ (K * (s * r * Real.sqrt 2 / ns)) ^ 2)
    (k : Key) (hk : k.Ok ns no) (u : Place) (hu : u = k.fst ns no ∨ u = k.snd ns no) (t : ℝ)
    (ht : ((circleBlocks (circleSquare native realFns r s ns var bc.length ib) o realFns u.1).el u.2.1).smallestEdgeSq = .ok t) :
    t ≤ k.size r s K ns eta ^ 2 := by
  have hup : IsPlace (circleBlocks (circleSquare native realFns r s ns var bc.length ib) o realFns) 4 u := by
    have := key_place ho hns hno k hk
    rcases hu with rfl | rfl
    · exact this.1
    · exact this.2
  have sq2 : Real.sqrt 2 ^ 2 = 2 := Real.sq_sqrt (by norm_num)
  cases k with
  | side q j => exact hK u.1 hup.1 u.2.1 hup.2.1 t ht
  | arc q j => exact hK u.1 hup.1 u.2.1 hup.2.1 t ht
  | diag q i =>
    obtain ⟨hq, hi⟩ := hk
    obtain ⟨hz, -⟩ := place_plane ho u hup
    have hb := (smallest_edge_le_partial _ t ht).1
    rcases hu with rfl | rfl
    · have h0 := hb 0 (by omega)
      rw [hz 0 (by omega) 0 (by omega), hz 0 (by omega) 1 (by omega)] at h0
      obtain ⟨g, -, e⟩ := block_corner ho hS.pos q i 0 hi hns 0 0 (by omega) (by omega)
      obtain ⟨g', -, e'⟩ := block_corner ho hS.pos q i 0 hi hns 0 1 (by omega) (by omega)
      rw [Nat.add_zero, Nat.add_zero, rayPoint_radius_zero] at e
      rw [Nat.add_zero, rayPoint_radius_zero] at e'
      have h1 : t ≤ planeDist (planeCorner (quarter realFns o q) (i + no * 0) 0 1) (planeCorner (quarter realFns o q) (i + no * 0) 0 0) := by
        refine h0.trans (le_of_eq ?_)
        unfold planeDist planeCorner
        simp only [Key.fst, circleBlocks]
        ring
      refine h1.trans (le_of_eq ?_)
      rw [e, e']
      simp only [Key.size, radius]
      rcases planeDist_turn q q hq hq ((s * r + eta (i + 1) * (r - s * r)) * (Real.sqrt 2 / 2)) (-((s * r + eta (i + 1) * (r - s * r)) * (Real.sqrt 2 / 2)))
        ((s * r + eta i * (r - s * r)) * (Real.sqrt 2 / 2)) (-((s * r + eta i * (r - s * r)) * (Real.sqrt 2 / 2))) with ⟨-, e⟩ | ⟨h, -⟩
      · rw [e]
        linear_combination ((eta (i + 1) - eta i) ^ 2 * (r - s * r) ^ 2 / 2) * sq2
      · exact absurd rfl h
    · have hq' : (q + 3) % 4 < 4 := Nat.mod_lt _ (by omega)
      have h0 := hb 1 (by omega)
      rw [hz 1 (by omega) 0 (by omega), hz 1 (by omega) 1 (by omega)] at h0
      obtain ⟨g, -, e⟩ := block_corner ho hS.pos ((q + 3) % 4) i (ns - 1) hi (by omega) 1 0 (by omega) (by omega)
      obtain ⟨g', -, e'⟩ := block_corner ho hS.pos ((q + 3) % 4) i (ns - 1) hi (by omega) 1 1 (by omega) (by omega)
      rw [Nat.sub_add_cancel hns, Nat.add_zero i, rayPoint_radius_last hns] at e
      rw [Nat.sub_add_cancel hns, rayPoint_radius_last hns] at e'
      have h1 : t ≤ planeDist (planeCorner (quarter realFns o ((q + 3) % 4)) (i + no * (ns - 1)) 1 1) (planeCorner (quarter realFns o ((q + 3) % 4)) (i + no * (ns - 1)) 1 0) := by
        refine h0.trans (le_of_eq ?_)
        unfold planeDist planeCorner
        simp only [Key.snd, circleBlocks]
        ring
      refine h1.trans (le_of_eq ?_)
      rw [e, e']
      simp only [Key.size, radius]
      rcases planeDist_turn _ _ hq' hq' ((s * r + eta (i + 1) * (r - s * r)) * (Real.sqrt 2 / 2)) ((s * r + eta (i + 1) * (r - s * r)) * (Real.sqrt 2 / 2))
        ((s * r + eta i * (r - s * r)) * (Real.sqrt 2 / 2)) ((s * r + eta i * (r - s * r)) * (Real.sqrt 2 / 2)) with ⟨-, e⟩ | ⟨h, -⟩
      · rw [e]
        linear_combination ((eta (i + 1) - eta i) ^ 2 * (r - s * r) ^ 2 / 2) * sq2
      · exact absurd rfl h

/-- Faces inside the blocks are connected. -/
theorem circleBc_inner {F : Type} [Field F] (ni nj i j : Nat) (c0 c1 c2 c3 : Name) (f : Nat) (r : BC F) (hf : f < 4)
    (h : ¬ ((f = 0 ∧ j = 0) ∨ (f = 2 ∧ j = nj - 1) ∨ (f = 1 ∧ i = ni - 1) ∨ (f = 3 ∧ i = 0))) :
    (circleBc ni nj i j c0 c1 c2 c3 f (boxInner ni nj i j f r)).typ = nE := by
  unfold circleBc boxInner
  rcases (by omega : f = 0 ∨ f = 1 ∨ f = 2 ∨ f = 3) with rfl | rfl | rfl | rfl <;> simp at h <;> simp [h, wrLink]

/-- The conditions of the square. -/
theorem square_bcAt (b i j f : Nat) (hb : b < bc.length) (hi : i < ns) (hj : j < ns) :
    bcAt (circleBlocks (circleSquare native realFns r s ns var bc.length true) o realFns) b (0, (i + ns * j, f)) =
      circleBc ns ns i j ((List.replicate bc.length nCon).getD b []) ((List.replicate bc.length nCon).getD b []) ((List.replicate bc.length nCon).getD b [])
        ((List.replicate bc.length nCon).getD b []) f (boxInner ns ns i j f BC.zero) := by
  have s6 := (square_ccurv native realFns r s ns var bc.length true).2.2.2.2.2.2
  change (circleSquare native realFns r s ns var bc.length true).bc (i + ns * j) b f = _
  unfold HexaData.bc
  rw [(s6 _ (elnum_lt hi hj)).2.2.1, mod_elnum' hi, div_elnum' hi]
  unfold circleBcs
  rw [if_pos hb, if_pos rfl, bcs_new]

/-- The conditions of the quarters. -/
theorem quarter_bcAt (ho : circleO native realFns cf bl r s ns no var bc true = .ok o) (q b i j f : Nat) (hb : b < bc.length) (hi : i < no) (hj : j < ns) :
    bcAt (circleBlocks (circleSquare native realFns r s ns var bc.length true) o realFns) b (q + 1, (i + no * j, f)) =
      circleBc no ns i j ((List.replicate bc.length nCon).getD b []) (bc.getD b []) ((List.replicate bc.length nCon).getD b [])
        ((List.replicate bc.length nCon).getD b []) f (boxInner no ns i j f BC.zero) := by
  obtain ⟨-, o2, -, -, -, -, o6⟩ := circleO_eq ho
  change (quarter realFns o q).bc (i + no * j) b f = _
  rw [quarter_bc realFns o q _ b f (by rw [o2]; exact elnum_lt hi hj)]
  unfold HexaData.bc
  rw [(o6 _ (elnum_lt hi hj)).2.2.1, mod_elnum' hi, div_elnum' hi]
  unfold circleBcs
  rw [if_pos hb, if_pos rfl, bcs_new]

theorem con_typ (n b : Nat) (hb : b < n) : u3 ((List.replicate n nCon).getD b []) = nCon := by
  rw [List.getD_eq_getElem?_getD, List.getElem?_replicate, if_pos hb]
  rfl

/-- The conditions on the boundaries of the blocks. -/
theorem key_bc (ho : circleO native realFns cf bl r s ns no var bc true = .ok o) (hns : 0 < ns) (hno : 0 < no) (k : Key) (hk : k.Ok ns no)
    (u : Place) (hu : u = k.fst ns no ∨ u = k.snd ns no) (b : Nat) (hb : b < bc.length) :
    (bcAt (circleBlocks (circleSquare native realFns r s ns var bc.length true) o realFns) b u).typ =
      match k with
      | .arc _ _ => u3 (bc.getD b [])
      | _ => nCon := by
  cases k with
  | side q j =>
    obtain ⟨hq, hj⟩ := hk
    rcases hu with rfl | rfl
    · rcases (by omega : q = 0 ∨ q = 1 ∨ q = 2 ∨ q = 3) with rfl | rfl | rfl | rfl
      · simp only [Key.fst]
        rw [square_bcAt b (ns - 1) j 1 hb (by omega) hj, circleBc_outer _ _ _ _ _ _ _ _ _ _ (by simp)]
        simpa using con_typ _ b hb
      · simp only [Key.fst]
        rw [square_bcAt b (ns - 1 - j) (ns - 1) 2 hb (by omega) (by omega), circleBc_outer _ _ _ _ _ _ _ _ _ _ (by simp)]
        simpa using con_typ _ b hb
      · simp only [Key.fst]
        rw [square_bcAt b 0 (ns - 1 - j) 3 hb (by omega) (by omega), circleBc_outer _ _ _ _ _ _ _ _ _ _ (by simp)]
        simpa using con_typ _ b hb
      · simp only [Key.fst]
        rw [square_bcAt b j 0 0 hb (by omega) (by omega), circleBc_outer _ _ _ _ _ _ _ _ _ _ (by simp)]
        simpa using con_typ _ b hb
    · simp only [Key.snd]
      rw [quarter_bcAt ho q b 0 j 3 hb (by omega) (by omega), circleBc_outer _ _ _ _ _ _ _ _ _ _ (by simp)]
      simpa using con_typ _ b hb
  | diag q i =>
    obtain ⟨hq, hi⟩ := hk
    rcases hu with rfl | rfl
    · simp only [Key.fst]
      rw [quarter_bcAt ho q b i 0 0 hb (by omega) (by omega), circleBc_outer _ _ _ _ _ _ _ _ _ _ (by simp)]
      simpa using con_typ _ b hb
    · simp only [Key.snd]
      rw [quarter_bcAt ho _ b i (ns - 1) 2 hb (by omega) (by omega), circleBc_outer _ _ _ _ _ _ _ _ _ _ (by simp)]
      simpa using con_typ _ b hb
  | arc q j =>
    obtain ⟨hq, hj⟩ := hk
    have hu' : u = (q + 1, (no - 1 + no * j, 1)) := by rcases hu with h | h <;> exact h
    subst hu'
    rw [quarter_bcAt ho q b (no - 1) j 1 hb (by omega) (by omega), circleBc_outer _ _ _ _ _ _ _ _ _ _ (by simp)]
    simp

/-- Every face is on the boundary of its block or connected within it. -/
theorem key_or_inner (ho : circleO native realFns cf bl r s ns no var bc true = .ok o) (u : Place)
    (hu : IsPlace (circleBlocks (circleSquare native realFns r s ns var bc.length true) o realFns) 4 u) :
    (∃ k : Key, k.Ok ns no ∧ (u = k.fst ns no ∨ u = k.snd ns no)) ∨
    ∀ b < bc.length, (bcAt (circleBlocks (circleSquare native realFns r s ns var bc.length true) o realFns) b u).typ = nE := by
  obtain ⟨p, e, f⟩ := u
  obtain ⟨hp, he, hf⟩ := hu
  rw [blocks_len ho] at he
  rw [blocks_dim ho] at hf
  dsimp only at hp he hf
  cases p with
  | zero =>
    rw [if_pos rfl] at he
    obtain ⟨i, hi, j, hj, rfl⟩ := elnum_cases he
    by_cases h : (f = 0 ∧ j = 0) ∨ (f = 2 ∧ j = ns - 1) ∨ (f = 1 ∧ i = ns - 1) ∨ (f = 3 ∧ i = 0)
    · left
      rcases h with ⟨rfl, rfl⟩ | ⟨rfl, rfl⟩ | ⟨rfl, rfl⟩ | ⟨rfl, rfl⟩
      · exact ⟨.side 3 i, ⟨by omega, hi⟩, Or.inl rfl⟩
      · refine ⟨.side 1 (ns - 1 - i), ⟨by omega, by omega⟩, Or.inl ?_⟩
        simp only [Key.fst]
        rw [Nat.sub_sub_self (by omega)]
      · exact ⟨.side 0 j, ⟨by omega, hj⟩, Or.inl rfl⟩
      · refine ⟨.side 2 (ns - 1 - j), ⟨by omega, by omega⟩, Or.inl ?_⟩
        simp only [Key.fst]
        rw [Nat.sub_sub_self (by omega)]
    · right
      intro b hb
      rw [square_bcAt b i j f hb hi hj]
      exact circleBc_inner _ _ _ _ _ _ _ _ _ _ hf h
  | succ q =>
    rw [if_neg (by omega)] at he
    obtain ⟨i, hi, j, hj, rfl⟩ := elnum_cases he
    by_cases h : (f = 0 ∧ j = 0) ∨ (f = 2 ∧ j = ns - 1) ∨ (f = 1 ∧ i = no - 1) ∨ (f = 3 ∧ i = 0)
    · left
      rcases h with ⟨rfl, rfl⟩ | ⟨rfl, rfl⟩ | ⟨rfl, rfl⟩ | ⟨rfl, rfl⟩
      · exact ⟨.diag q i, ⟨by omega, hi⟩, Or.inl rfl⟩
      · refine ⟨.diag ((q + 1) % 4) i, ⟨by omega, hi⟩, Or.inr ?_⟩
        simp only [Key.snd]
        rw [show ((q + 1) % 4 + 3) % 4 = q by omega]
      · exact ⟨.arc q j, ⟨by omega, hj⟩, Or.inl rfl⟩
      · exact ⟨.side q j, ⟨by omega, hj⟩, Or.inr rfl⟩
    · right
      intro b hb
      rw [quarter_bcAt ho q b i j f hb hi hj]
      exact circleBc_inner _ _ _ _ _ _ _ _ _ _ hf h

/-- Faces with the same centre are near each other. -/
theorem nearEl_of_centre {F : Type} [Field F] [LinearOrder F] [IsStrictOrderedRing F] [FloorRing F] {a b : Elem F} {f g : Nat}
    (h : CentreEl a f b g) (ha : 2 ≤ a.pos.lx ∧ 2 ≤ a.pos.ly ∧ 1 ≤ a.pos.lz)
    (hb : 2 ≤ b.pos.lx ∧ 2 ≤ b.pos.ly ∧ 1 ≤ b.pos.lz) (tol : F) (ht : 0 ≤ tol) : NearEl tol a f b g := by
  obtain ⟨s0, h0⟩ := smallestEdgeSq_ok a ha
  obtain ⟨s1, h1⟩ := smallestEdgeSq_ok b hb
  refine ⟨s0, s1, h0, h1, Or.inl ⟨ht, ?_⟩⟩
  rw [h 0 (by omega), h 1 (by omega), h 2 (by omega)]
  have := smallestEdgeSq_nonneg _ s0 h0
  have := smallestEdgeSq_nonneg _ s1 h1
  have : 0 ≤ tol ^ 2 * min s0 s1 := mul_nonneg (sq_nonneg _) (le_min ‹_› ‹_›)
  simpa using this

/-- Adjacent faces of different blocks are the two faces at the same place. -/
theorem adj_key (ho : circleO native realFns cf bl r s ns no var bc true = .ok o) (h0 : 0 < bc.length) (hno : 0 < no) (hS : Spacing cf bl no eta)
    (H : Round r s K ns no eta)
    (hK : ∀ p ≤ 4, ∀ e < (circleBlocks (circleSquare native realFns r s ns var bc.length true) o realFns p).elem.length, ∀ t,
      ((circleBlocks (circleSquare native realFns r s ns var bc.length true) o realFns p).el e).smallestEdgeSq = .ok t → t ≤ (K * (s * r * Real.sqrt 2 / ns)) ^ 2)
    (u v : Place) (h : Adj (circleBlocks (circleSquare native realFns r s ns var bc.length true) o realFns) 4 true (1 / 100) u v) :
    ∃ k : Key, k.Ok ns no ∧ ((u = k.fst ns no ∧ v = k.snd ns no) ∨ (u = k.snd ns no ∧ v = k.fst ns no)) := by
  obtain ⟨hu, hv, hne, cu, cv, s0, s1, e0, e1, hd⟩ := h
  obtain ⟨k, hk, ku⟩ := (key_or_inner ho u hu).resolve_right fun h => cu.1 (h 0 h0)
  obtain ⟨k', hk', kv⟩ := (key_or_inner ho v hv).resolve_right fun h => cv.1 (h 0 h0)
  have hns := H.nspos
  have c1 := key_centre ho hns hno hS k hk u ku
  have c2 := key_centre ho hns hno hS k' hk' v kv
  have z1 := key_size ho hns hno hS hK k hk u ku s0 e0
  have z2 := key_size ho hns hno hS hK k' hk' v kv s1 e1
  have hkk : k = k' := by
    by_contra hne
    have := key_sep H k k' hk hk' hne
    rw [← c1, ← c2] at this
    unfold planeDist faceMid at this
    rcases hd with ⟨-, hd⟩ | ⟨ht, -⟩
    · dsimp only at this hd
      have hm := mul_le_mul_of_nonneg_left (min_le_min z1 z2) (show (0 : ℝ) ≤ (1 / 100) ^ 2 by norm_num)
      have hz := sq_nonneg (faceMean ((circleBlocks (circleSquare native realFns r s ns var bc.length true) o realFns v.1).el v.2.1) v.2.2 2 -
        faceMean ((circleBlocks (circleSquare native realFns r s ns var bc.length true) o realFns u.1).el u.2.1) u.2.2 2)
      linarith
    · norm_num at ht
  subst hkk
  refine ⟨k, hk, ?_⟩
  rcases ku with rfl | rfl <;> rcases kv with rfl | rfl
  · exact absurd rfl hne
  · exact Or.inl ⟨rfl, rfl⟩
  · exact Or.inr ⟨rfl, rfl⟩
  · exact absurd rfl hne

/-- The number of a face in the mesh: the square first, then the quarters. -/
def Spec.circleFace (ns no : Nat) (u : Place) : Face := ((if u.1 = 0 then 0 else ns * ns + no * ns * (u.1 - 1)) + u.2.1, u.2.2)

theorem circleFace_eq (ho : circleO native realFns cf bl r s ns no var bc ib = .ok o) (u : Place) :
    place (circleBlocks (circleSquare native realFns r s ns var bc.length ib) o realFns) u = circleFace ns no u := by
  obtain ⟨p, e, f⟩ := u
  have key : ∀ q, off (circleBlocks (circleSquare native realFns r s ns var bc.length ib) o realFns) (q + 1) = ns * ns + no * ns * q := by
    intro q
    induction q with
    | zero => rw [off, off, blocks_len ho]; simp
    | succ q ih => rw [off, ih, blocks_len ho, if_neg (by omega)]; ring
  cases p with
  | zero => simp [place, circleFace, off]
  | succ q => simp only [place, circleFace, key]; simp

/-- The two faces at a place have the same centre. -/
theorem key_same (ho : circleO native realFns cf bl r s ns no var bc ib = .ok o) (hns : 0 < ns) (hno : 0 < no) (hS : Spacing cf bl no eta)
    (k : Key) (hk : k.Ok ns no) (u v : Place) (hu : u = k.fst ns no ∨ u = k.snd ns no) (hv : v = k.fst ns no ∨ v = k.snd ns no) :
    let P := circleBlocks (circleSquare native realFns r s ns var bc.length ib) o realFns
    CentreEl ((P u.1).el u.2.1) u.2.2 ((P v.1).el v.2.1) v.2.2 := by
  intro P d hd
  have pl := key_place ho hns hno k hk
  have pu : IsPlace P 4 u := by
    rcases hu with rfl | rfl
    · exact pl.1
    · exact pl.2
  have pv : IsPlace P 4 v := by
    rcases hv with rfl | rfl
    · exact pl.1
    · exact pl.2
  have c := (key_centre ho hns hno hS k hk u hu).trans (key_centre ho hns hno hS k hk v hv).symm
  unfold faceMid at c
  rcases (by omega : d = 0 ∨ d = 1 ∨ d = 2) with rfl | rfl | rfl
  · exact (Prod.mk.inj c).1
  · exact (Prod.mk.inj c).2
  · exact (place_plane ho u pu).2.trans (place_plane ho v pv).2.symm

/-- Faces in the mesh with `4 * no * ns + ns * ns` elements. -/
theorem circle_places (ho : circleO native realFns cf bl r s ns no var bc ib = .ok o) (x : Face) (hx : x.1 < ns * ns + 4 * (no * ns)) (hx2 : x.2 < 4) :
    ∃ u, IsPlace (circleBlocks (circleSquare native realFns r s ns var bc.length ib) o realFns) 4 u ∧ circleFace ns no u = x := by
  obtain ⟨e, f⟩ := x
  dsimp only at hx hx2
  rcases Nat.lt_or_ge e (ns * ns) with h | h
  · exact ⟨(0, (e, f)), place_mk ho _ _ _ (by omega) h hx2, by simp [circleFace]⟩
  · obtain ⟨k, rfl⟩ : ∃ k, e = ns * ns + k := ⟨e - ns * ns, by omega⟩
    have hk : k < no * ns * 4 := by omega
    have hpos : 0 < no * ns := by omega
    refine ⟨(k / (no * ns) + 1, (k % (no * ns), f)), place_mk ho _ _ _ ?_ (Nat.mod_lt _ hpos) hx2, ?_⟩
    · have : k / (no * ns) < 4 := by rw [Nat.div_lt_iff_lt_mul hpos, Nat.mul_comm]; exact hk
      omega
    · have := Nat.div_add_mod k (no * ns)
      simp only [circleFace]
      rw [if_neg (Nat.succ_ne_zero _), Nat.add_sub_cancel, Nat.add_assoc, this]

end

/-- **C106.** Let `gen_circle` with `internal_bcs=True` return a mesh. Let the layers be at increasing radial positions from 0 to 1, the curvature 0 at the
square and 1 at the circle, the conditions other than `'E'` and `'P'`, the smallest edge of no element longer than `K ≤ 20` times the side of the
elements of the square, and let the square leave some space. Then the mesh passes `check_connectivity` with any tolerance and linked faces have
exactly the same centre, in all fields. The faces on the circle have the given condition, all other faces are connected; those on the sides
of the square are connected with the quarters, and those on the diagonals with the next quarter. -/
theorem C106 {native : Endian} {r s K : ℝ} {ns no : Nat} {cf : Option (ℝ → Py ℝ)} {bl : ℝ → Py ℝ} {var : Var} {bc : List Name} {M : HexaData ℝ} {eta : Nat → ℝ}
    (h : genCircle native realFns r s ns no cf (some bl) var bc true = .ok M) (h0 : bc ≠ []) (hbc : ∀ c ∈ bc, u3 c ≠ nE ∧ u3 c ≠ nP)
    (hS : Spacing (cf.getD fun x => .ok (Real.sin (1 / 2 * Real.pi * x) ^ 2)) bl no eta) (H : Round r s K ns no eta)
    (hK : ∀ e < M.nel, ∀ t, (M.el e).smallestEdgeSq = .ok t → t ≤ (K * (s * r * Real.sqrt 2 / ns)) ^ 2) :
    (∀ tol, 0 ≤ tol → M.checkConnectivity tol = .ok true) ∧ Valid M (SameCentre M) ∧ Uniform M ∧
    (∀ k : Key, k.Ok ns no → ∀ b < bc.length,
      let x := circleFace ns no (k.fst ns no)
      let y := circleFace ns no (k.snd ns no)
      match k with
      | .arc _ _ => (M.bc x.1 b x.2).typ = u3 (bc.getD b [])
      | _ => (M.bc x.1 b x.2).typ = nE ∧ PointsTo (M.bc x.1 b x.2) y ∧ (M.bc y.1 b y.2).typ = nE ∧ PointsTo (M.bc y.1 b y.2) x) ∧
    (∀ x : Face, x.1 < M.nel → x.2 < 4 → (∃ q < 4, ∃ j < ns, x = (ns * ns + no * ns * q + (no - 1 + no * j), 1)) ∨ ∀ b < bc.length, (M.bc x.1 b x.2).typ = nE) := by
  obtain ⟨cf', bl', o, hpos, hcf, hbl, ho, e1, e2, e3, e4, e5, e6⟩ := genCircle_blocks h
  obtain ⟨cf'', bl'', o', M1, M2, M3, n1, n2, n3, n4, -, -, hcf', hbl', ho', h1, h2, h3, h4⟩ := genCircle_eq h
  obtain rfl : cf' = cf'' := hcf.trans hcf'.symm
  obtain rfl : bl = bl' := Except.ok.inj hbl
  obtain rfl : bl = bl'' := Except.ok.inj hbl'
  obtain rfl : o = o' := by rw [ho] at ho'; exact Except.ok.inj ho'
  rw [show (cf.getD fun x => .ok (Real.sin (1 / 2 * Real.pi * x) ^ 2)) = cf' from hcf.symm] at hS
  have hns := H.nspos
  have hno := hpos hns
  have hlen : 0 < bc.length := List.length_pos_iff.2 h0
  set P := circleBlocks (circleSquare native realFns r s ns var bc.length true) o realFns with hP
  have hM : mergeAll (1 / 100) true P 4 = .ok M := mergeAll_four h1 h2 h3 h4
  have posOnly : ∀ a b : Elem ℝ, SameButBcs a b → a.smallestEdgeSq = b.smallestEdgeSq := by
    rintro a b ⟨g, rfl⟩
    rfl
  have hK' : ∀ p ≤ 4, ∀ e < (P p).elem.length, ∀ t, ((P p).el e).smallestEdgeSq = .ok t → t ≤ (K * (s * r * Real.sqrt 2 / ns)) ^ 2 := by
    intro p hp e he t ht
    rw [hP, blocks_len ho] at he
    cases p with
    | zero =>
      rw [if_pos rfl] at he
      exact hK e (by rw [e1]; omega) t ((posOnly _ _ (e5 e he)).trans ht)
    | succ q =>
      rw [if_neg (by omega)] at he
      refine hK (ns * ns + no * ns * q + e) ?_ t ((posOnly _ _ (e6 q (by omega) e he)).trans ht)
      rw [e1]
      have : no * ns * (q + 1) ≤ no * ns * 4 := Nat.mul_le_mul_left _ hp
      rw [Nat.mul_add, Nat.mul_one] at this
      omega
  have good : ∀ p ≤ 4, Good CentreEl 2 bc.length 2 (P p) := by
    intro p _
    cases p with
    | zero => exact square_good native realFns r s ns var bc.length
    | succ q => exact quarter_good ho hbc q
  have adj := adj_key ho hlen hno hS H hK'
  have hb0 : u3 (bc.getD 0 []) ≠ nP := by
    rw [List.getD_eq_getElem?_getD, List.getElem?_eq_getElem hlen]
    exact (hbc _ (List.getElem_mem hlen)).2
  have noP : ∀ u, IsPlace P 4 u → (bcAt P 0 u).typ ≠ nP := by
    rintro ⟨p, e, f⟩ ⟨hp, he, hf⟩
    cases p with
    | zero => exact square_noP native realFns r s ns var bc.length true e he f
    | succ q => exact quarter_noP (circleO_noP ho hb0) q e he f
  have inj : ∀ k k' : Key, k.Ok ns no → k'.Ok ns no → ∀ u, (u = k.fst ns no ∨ u = k.snd ns no) → (u = k'.fst ns no ∨ u = k'.snd ns no) → k = k' := by
    intro k k' hk hk' u hu hu'
    by_contra hne
    have := key_sep H k k' hk hk' hne
    rw [← key_centre ho hns hno hS k hk u hu, ← key_centre ho hns hno hS k' hk' u hu'] at this
    unfold planeDist at this
    simp only [sub_self] at this
    have h5 : 0 ≤ min (k.size r s K ns eta ^ 2) (k'.size r s K ns eta ^ 2) := le_min (sq_nonneg _) (sq_nonneg _)
    nlinarith
  have fits : Fits P 4 true (1 / 100) := by
    refine ⟨?_, fun u v huv => ⟨fun hp => absurd hp (noP u huv.1), fun hp => absurd hp (noP v huv.2.1)⟩⟩
    intro u v w huv huw
    obtain ⟨k, hk, hkuv⟩ := adj u v huv
    obtain ⟨k', hk', hkuw⟩ := adj u w huw
    obtain rfl : k = k' := inj k k' hk hk' u (hkuv.imp And.left And.left) (hkuw.imp And.left And.left)
    have n1 := huv.2.2.1
    have n2 := huw.2.2.1
    rcases hkuv with ⟨rfl, rfl⟩ | ⟨rfl, rfl⟩ <;> rcases hkuw with ⟨a, rfl⟩ | ⟨a, rfl⟩
    · rfl
    · exact absurd (congrArg Prod.fst a) (by rw [← a]; exact fun _ => n2 rfl)
    · exact absurd (congrArg Prod.fst a) (by rw [← a]; exact fun _ => n2 rfl)
    · rfl
  obtain ⟨M', hM', I⟩ := C105 CentreEl centreEl_pos P 4 true (1 / 100) 2 bc.length 2 hlen good fits (by
    intro u v huv
    obtain ⟨k, hk, hkuv⟩ := adj u v huv
    refine key_same ho hns hno hS k hk u v (hkuv.imp And.left And.left) ?_
    exact hkuv.symm.imp And.right And.right)
  rw [hM] at hM'
  obtain rfl := Except.ok.inj hM'
  have hv : Valid M (SameCentre M) := I.good.valid
  -- the two faces at a place are adjacent, except on the circle
  have adj' : ∀ k : Key, k.Ok ns no → (∀ q j, k ≠ .arc q j) → Adj P 4 true (1 / 100) (k.fst ns no) (k.snd ns no) := by
    intro k hk hna
    have pl := key_place ho hns hno k hk
    have typ : ∀ u, (u = k.fst ns no ∨ u = k.snd ns no) → Candidate true (bcAt P 0 u) := by
      intro u hu
      have := key_bc ho hns hno k hk u hu 0 hlen
      have hc : (bcAt P 0 u).typ = nCon := by
        cases k with
        | side q j => exact this
        | diag q i => exact this
        | arc q j => exact absurd rfl (hna q j)
      unfold Candidate
      rw [hc]
      decide
    have sh := fun u (hu : IsPlace P 4 u) => blocks_shape ho u.1 u.2.1 hu.2.1
    refine ⟨pl.1, pl.2, ?_, typ _ (Or.inl rfl), typ _ (Or.inr rfl), ?_⟩
    · cases k with
      | side q j =>
        rcases (by have := hk.1; omega : q = 0 ∨ q = 1 ∨ q = 2 ∨ q = 3) with rfl | rfl | rfl | rfl <;> simp [Key.fst, Key.snd]
      | diag q i => simp only [Key.fst, Key.snd]; have := hk.1; omega
      | arc q j => exact absurd rfl (hna q j)
    · refine nearEl_of_centre (key_same ho hns hno hS k hk _ _ (Or.inl rfl) (Or.inr rfl)) ?_ ?_ _ (by norm_num)
      · obtain ⟨a, b, c⟩ := sh _ pl.1
        rw [a, b, c]; omega
      · obtain ⟨a, b, c⟩ := sh _ pl.2
        rw [a, b, c]; omega
  have free : ∀ q < 4, ∀ j < ns, ¬ ∃ v, Adj P 4 true (1 / 100) ((Key.arc q j).fst ns no) v := by
    rintro q hq j hj ⟨v, hv⟩
    obtain ⟨k, hk, hkv⟩ := adj _ v hv
    obtain rfl : k = .arc q j := inj k _ hk ⟨hq, hj⟩ _ (hkv.imp And.left And.left) (Or.inl rfl)
    have hne := hv.2.2.1
    rcases hkv with ⟨-, rfl⟩ | ⟨-, rfl⟩
    · exact hne rfl
    · exact hne rfl
  have link : ∀ k : Key, k.Ok ns no → (∀ q j, k ≠ .arc q j) → ∀ b < bc.length,
      let x := circleFace ns no (k.fst ns no)
      let y := circleFace ns no (k.snd ns no)
      (M.bc x.1 b x.2).typ = nE ∧ PointsTo (M.bc x.1 b x.2) y ∧ (M.bc y.1 b y.2).typ = nE ∧ PointsTo (M.bc y.1 b y.2) x := by
    intro k hk hna b hb x y
    have ha := adj' k hk hna
    have l1 := I.linked _ _ ha b hb
    have l2 := I.linked _ _ (adj_symm ha) b hb
    rw [circleFace_eq ho, circleFace_eq ho] at l1 l2
    exact ⟨l1.1, l1.2, l2.1, l2.2⟩
  refine ⟨fun tol ht => check_of_sameCentre M I.good.wf I.good.grid hv tol ht, hv, I.good.uni, ?_, ?_⟩
  · intro k hk b hb x y
    cases k with
    | side q j => exact link _ hk (by intro _ _ h; cases h) b hb
    | diag q i => exact link _ hk (by intro _ _ h; cases h) b hb
    | arc q j =>
      have l := I.free _ (key_place ho hns hno _ hk).1 (free q hk.1 j hk.2) b hb
      rw [circleFace_eq ho] at l
      exact l.trans (key_bc ho hns hno _ hk _ (Or.inl rfl) b hb)
  · intro x hx hx2
    rw [e1] at hx
    obtain ⟨u, hu, rfl⟩ := circle_places ho x hx hx2
    rcases key_or_inner ho u hu with ⟨k, hk, hku⟩ | hin
    · by_cases harc : ∃ q j, k = .arc q j
      · obtain ⟨q, j, rfl⟩ := harc
        left
        have hu' : u = (q + 1, (no - 1 + no * j, 1)) := by rcases hku with h | h <;> exact h
        refine ⟨q, hk.1, j, hk.2, ?_⟩
        rw [hu']
        simp [circleFace]
      · right
        intro b hb
        have l := link k hk (fun q j hkk => harc ⟨q, j, hkk⟩) b hb
        rcases hku with rfl | rfl
        · exact l.1
        · exact l.2.2.1
    · right
      intro b hb
      by_cases hv : ∃ v, Adj P 4 true (1 / 100) u v
      · obtain ⟨v, hv⟩ := hv
        exact absurd (hin 0 hlen) hv.2.2.2.1.1
      · have l := I.free u hu hv b hb
        rw [circleFace_eq ho] at l
        exact l.trans (hin b hb)

/-- The points of the quarters are in the circle. -/
theorem rayPoint_disc {r s : ℝ} {ns j : Nat} (hr : 0 < r) (hs : 0 < s) (hs1 : s < 1) (hn : 0 < ns) (hj : j ≤ ns) {g eta : ℝ} (g0 : 0 ≤ g) (g1 : g ≤ 1)
    (e0 : 0 ≤ eta) (e1 : eta ≤ 1) :
    (rayPoint r (s * r * Real.sqrt 2) ns j g eta).1 ^ 2 + (rayPoint r (s * r * Real.sqrt 2) ns j g eta).2 ^ 2 ≤ r ^ 2 := by
  have hn' : (0 : ℝ) < ns := by positivity
  have hs2 : 0 < Real.sqrt 2 := by positivity
  have sq2 : Real.sqrt 2 * Real.sqrt 2 = 2 := Real.mul_self_sqrt (by norm_num)
  have hsr : 0 < s * r := mul_pos hs hr
  have hsr1 : s * r ≤ r := by nlinarith
  have j0 : 0 ≤ (j : ℝ) / ns := by positivity
  have j1 : (j : ℝ) / ns ≤ 1 := by rw [div_le_one hn']; exact_mod_cast hj
  have quarter4 : Real.cos (Real.pi / 4) = Real.sqrt 2 / 2 := Real.cos_pi_div_four
  -- the cosines of both angles are at least that of an eighth of a turn
  have ca : Real.sqrt 2 / 2 ≤ Real.cos (rayAlpha ns j) := by
    rw [← quarter4, ← Real.cos_abs (rayAlpha ns j)]
    have hp := Real.pi_pos
    apply Real.cos_le_cos_of_nonneg_of_le_pi (abs_nonneg _) (by linarith)
    unfold rayAlpha
    rw [abs_le]
    constructor <;> nlinarith
  have cb : Real.sqrt 2 / 2 ≤ Real.cos (Real.arctan (2 * (j : ℝ) / (ns : ℝ) - 1)) := by
    have hx : |2 * (j : ℝ) / (ns : ℝ) - 1| ≤ 1 := by
      rw [mul_div_assoc, abs_le]
      constructor <;> linarith
    rw [Real.cos_arctan, div_le_div_iff₀ (by norm_num) (by positivity)]
    have h1 : (2 * (j : ℝ) / (ns : ℝ) - 1) ^ 2 ≤ 1 := by rw [← sq_abs]; nlinarith [abs_nonneg (2 * (j : ℝ) / (ns : ℝ) - 1)]
    have h2 : Real.sqrt (1 + (2 * (j : ℝ) / (ns : ℝ) - 1) ^ 2) ≤ Real.sqrt 2 := Real.sqrt_le_sqrt (by linarith)
    nlinarith
  have pa : 0 < Real.cos (rayAlpha ns j) := lt_of_lt_of_le (by positivity) ca
  have pb : 0 < Real.cos (Real.arctan (2 * (j : ℝ) / (ns : ℝ) - 1)) := lt_of_lt_of_le (by positivity) cb
  unfold rayPoint
  simp only
  generalize Real.cos (rayAlpha ns j) = x at *
  generalize hcb : Real.cos (Real.arctan (2 * (j : ℝ) / (ns : ℝ) - 1)) = y at *
  have la0 : 0 ≤ 1 / 2 * (s * r * Real.sqrt 2) / x := by positivity
  have la1 : 1 / 2 * (s * r * Real.sqrt 2) / x ≤ r := by
    rw [div_le_iff₀ pa]
    nlinarith
  have lb0 : 0 ≤ 1 / 2 * (s * r * Real.sqrt 2) / y := by positivity
  have lb1 : 1 / 2 * (s * r * Real.sqrt 2) / y ≤ r := by
    rw [div_le_iff₀ pb]
    nlinarith
  have lc0 : 0 ≤ 1 / 2 * Real.sqrt 2 * r / y := by positivity
  have lc1 : 1 / 2 * Real.sqrt 2 * r / y ≤ r := by
    rw [div_le_iff₀ pb]
    nlinarith
  generalize 1 / 2 * (s * r * Real.sqrt 2) / x = la at *
  generalize 1 / 2 * (s * r * Real.sqrt 2) / y = lb at *
  generalize 1 / 2 * Real.sqrt 2 * r / y = lc at *
  have u0 : 0 ≤ la + eta * (r - la) := by nlinarith
  have u1 : la + eta * (r - la) ≤ r := by nlinarith
  have v0 : 0 ≤ lb + eta * (lc - lb) := by nlinarith
  have v1 : lb + eta * (lc - lb) ≤ r := by nlinarith
  generalize la + eta * (r - la) = uu at *
  generalize lb + eta * (lc - lb) = vv at *
  have d0 : 0 ≤ g * uu + (1 - g) * vv := add_nonneg (mul_nonneg g0 u0) (mul_nonneg (by linarith) v0)
  have d1 : g * uu + (1 - g) * vv ≤ r := by nlinarith
  generalize g * uu + (1 - g) * vv = dd at *
  have hcs := Real.cos_sq_add_sin_sq (g * rayAlpha ns j + (1 - g) * Real.arctan (2 * (j : ℝ) / (ns : ℝ) - 1))
  have : ∀ a b : ℝ, (dd * a) ^ 2 + (dd * b) ^ 2 = dd ^ 2 * (a ^ 2 + b ^ 2) := fun a b => by ring
  rw [this, hcs]
  nlinarith

/-- The default curvature. -/
theorem default_curv : (fun x : ℝ => (.ok (Real.sin (1 / 2 * Real.pi * x) ^ 2) : Py ℝ)) 0 = .ok 0 ∧
    (fun x : ℝ => (.ok (Real.sin (1 / 2 * Real.pi * x) ^ 2) : Py ℝ)) 1 = .ok 1 := by
  have e : 1 / 2 * Real.pi * 1 = Real.pi / 2 := by ring
  constructor
  · simp
  · simp only [e, Real.sin_pi_div_two]; norm_num

/-- **C106, the sizes.** The hypotheses of `C106` on the sizes of the elements hold for a moderate number of elements: for at most 14 elements per side if the
square fills most of the circle (`sqrt 2 * ns ≤ 20 * s`), with increasing spacing and curvature between 0 and 1. -/
theorem C106_sizes {native : Endian} {r s : ℝ} {ns no : Nat} {cf : Option (ℝ → Py ℝ)} {bl : ℝ → Py ℝ} {var : Var} {bc : List Name} {M : HexaData ℝ} {eta : Nat → ℝ}
    (h : genCircle native realFns r s ns no cf (some bl) var bc true = .ok M)
    (hS : Spacing (cf.getD fun x => .ok (Real.sin (1 / 2 * Real.pi * x) ^ 2)) bl no eta) (mono : ∀ i < no, eta i < eta (i + 1))
    (hcf : ∀ f ∈ cf, ∀ x g, f x = .ok g → 0 ≤ g ∧ g ≤ 1) (hr : 0 < r) (hs : 0 < s) (hs1 : s ≤ 97 / 100) (hn : 0 < ns) (hns : Real.sqrt 2 * ns ≤ 20 * s) :
    Round r s (Real.sqrt 2 * ns / s) ns no eta ∧
    ∀ e < M.nel, ∀ t, (M.el e).smallestEdgeSq = .ok t → t ≤ (Real.sqrt 2 * ns / s * (s * r * Real.sqrt 2 / ns)) ^ 2 := by
  have hn' : (0 : ℝ) < ns := by positivity
  have hs2 : 0 < Real.sqrt 2 := by positivity
  have sq2 : Real.sqrt 2 ^ 2 = 2 := Real.sq_sqrt (by norm_num)
  have sqlt : Real.sqrt 2 < 3 / 2 := by
    rw [Real.sqrt_lt' (by norm_num)]; norm_num
  have H : Round r s (Real.sqrt 2 * ns / s) ns no eta := by
    refine ⟨hr, hs, by linarith, hn, hS.eta0.ge, mono, by positivity, ?_, ?_⟩
    · rw [div_le_iff₀ hs]; exact hns
    · rw [div_mul_cancel₀ _ hs.ne']
      have : Real.sqrt 2 < 50 * (1 - s) := by linarith
      exact mul_lt_mul_of_pos_right this hn'
  refine ⟨H, ?_⟩
  obtain ⟨cf', bl', o, hpos, hcf', hbl, ho, e1, e2, e3, e4, e5, e6⟩ := genCircle_blocks h
  obtain rfl : bl = bl' := Except.ok.inj hbl
  have hno := hpos hn
  have etamono : ∀ i j, i ≤ j → j ≤ no → eta i ≤ eta j := by
    intro i j hij
    induction hij with
    | refl => intro _; exact le_refl _
    | step _ ih => intro hj; exact (ih (by omega)).trans (mono _ (by omega)).le
  have eta01 : ∀ i ≤ no, 0 ≤ eta i ∧ eta i ≤ 1 := by
    intro i hi
    exact ⟨by rw [← hS.eta0]; exact etamono 0 i (Nat.zero_le _) hi, by rw [← hS.eta1]; exact etamono i no hi (le_refl _)⟩
  have gb : ∀ x g, cf' x = .ok g → 0 ≤ g ∧ g ≤ 1 := by
    intro x g hg
    rw [hcf'] at hg
    cases cf with
    | none =>
      have e : Real.sin (1 / 2 * Real.pi * x) ^ 2 = g := Except.ok.inj hg
      rw [← e]
      exact ⟨sq_nonneg _, by have := Real.sin_sq_le_one (1 / 2 * Real.pi * x); exact this⟩
    | some f => exact hcf f rfl x g hg
  -- all corners are in the circle
  have disc : ∀ u, IsPlace (circleBlocks (circleSquare native realFns r s ns var bc.length true) o realFns) 4 u → ∀ ky < 2, ∀ kx < 2,
      (planeCorner (circleBlocks (circleSquare native realFns r s ns var bc.length true) o realFns u.1) u.2.1 ky kx).1 ^ 2 +
      (planeCorner (circleBlocks (circleSquare native realFns r s ns var bc.length true) o realFns u.1) u.2.1 ky kx).2 ^ 2 ≤ r ^ 2 := by
    rintro ⟨p, e, f⟩ ⟨hp, he, hf⟩ ky hy kx hx
    rw [blocks_len ho] at he
    cases p with
    | zero =>
      dsimp only at he ⊢
      rw [if_pos rfl] at he
      obtain ⟨i, hi, j, hj, rfl⟩ := elnum_cases he
      change (planeCorner (circleSquare native realFns r s ns var bc.length true) (i + ns * j) ky kx).1 ^ 2 +
        (planeCorner (circleSquare native realFns r s ns var bc.length true) (i + ns * j) ky kx).2 ^ 2 ≤ r ^ 2
      rw [square_corner _ _ _ hi hj ky kx hy hx]
      have b : ∀ a : Nat, a ≤ ns → (s * r * Real.sqrt 2 * ((a : ℝ) / ns - 1 / 2)) ^ 2 ≤ r ^ 2 / 2 := by
        intro a ha
        have a0 : 0 ≤ (a : ℝ) / ns := by positivity
        have a1 : (a : ℝ) / ns ≤ 1 := by rw [div_le_one hn']; exact_mod_cast ha
        have q : ((a : ℝ) / ns - 1 / 2) ^ 2 ≤ 1 / 4 := by nlinarith
        have e : (s * r * Real.sqrt 2 * ((a : ℝ) / ns - 1 / 2)) ^ 2 = 2 * (s ^ 2 * r ^ 2) * ((a : ℝ) / ns - 1 / 2) ^ 2 := by
          rw [mul_pow, mul_pow, sq2]; ring
        rw [e]
        have s2 : s ^ 2 ≤ 1 := by nlinarith
        have t1 : s ^ 2 * r ^ 2 ≤ r ^ 2 := by nlinarith [sq_nonneg r]
        have t2 : 0 ≤ s ^ 2 * r ^ 2 := by positivity
        nlinarith
      have b1 := b (i + kx) (by omega)
      have b2 := b (j + ky) (by omega)
      dsimp only
      linarith
    | succ q =>
      dsimp only at he ⊢
      rw [if_neg (by omega)] at he
      obtain ⟨i, hi, j, hj, rfl⟩ := elnum_cases he
      change (planeCorner (quarter realFns o q) (i + no * j) ky kx).1 ^ 2 + (planeCorner (quarter realFns o q) (i + no * j) ky kx).2 ^ 2 ≤ r ^ 2
      obtain ⟨g, hg, ec⟩ := block_corner ho hS.pos q i j hi hj ky kx hy hx
      rw [ec, turn_sq]
      obtain ⟨g0, g1⟩ := gb _ g hg
      obtain ⟨t0, t1⟩ := eta01 (i + kx) (by omega)
      exact rayPoint_disc hr hs (by linarith) hn (by omega) g0 g1 t0 t1
  have small : ∀ u, IsPlace (circleBlocks (circleSquare native realFns r s ns var bc.length true) o realFns) 4 u → ∀ t,
      ((circleBlocks (circleSquare native realFns r s ns var bc.length true) o realFns u.1).el u.2.1).smallestEdgeSq = .ok t → t ≤ 4 * r ^ 2 := by
    intro u hu t ht
    have hb := (smallest_edge_le_partial _ t ht).1 0 (by omega)
    have hz := (place_plane ho u hu).1
    rw [hz 0 (by omega) 0 (by omega), hz 0 (by omega) 1 (by omega)] at hb
    have d0 := disc u hu 0 (by omega) 0 (by omega)
    have d1 := disc u hu 0 (by omega) 1 (by omega)
    unfold planeCorner at d0 d1
    dsimp only at d0 d1
    generalize (((circleBlocks (circleSquare native realFns r s ns var bc.length true) o realFns u.1).el u.2.1).pos.dat 0 0 0 0) = x0 at *
    generalize (((circleBlocks (circleSquare native realFns r s ns var bc.length true) o realFns u.1).el u.2.1).pos.dat 1 0 0 0) = y0 at *
    generalize (((circleBlocks (circleSquare native realFns r s ns var bc.length true) o realFns u.1).el u.2.1).pos.dat 0 0 0 1) = x1 at *
    generalize (((circleBlocks (circleSquare native realFns r s ns var bc.length true) o realFns u.1).el u.2.1).pos.dat 1 0 0 1) = y1 at *
    nlinarith [sq_nonneg (x0 + x1), sq_nonneg (y0 + y1)]
  have posOnly : ∀ a b : Elem ℝ, SameButBcs a b → a.smallestEdgeSq = b.smallestEdgeSq := by
    rintro a b ⟨g, rfl⟩
    rfl
  have eK : (Real.sqrt 2 * ns / s * (s * r * Real.sqrt 2 / ns)) ^ 2 = 4 * r ^ 2 := by
    have : Real.sqrt 2 * ns / s * (s * r * Real.sqrt 2 / ns) = Real.sqrt 2 ^ 2 * r := by field_simp
    rw [this, sq2]; ring
  intro e he t ht
  rw [eK]
  rw [e1] at he
  obtain ⟨u, hu, hue⟩ := circle_places ho (e, 0) he (by norm_num)
  obtain ⟨p, k, f⟩ := u
  have hu' := hu
  obtain ⟨hp, hk, -⟩ := hu
  rw [blocks_len ho] at hk
  have hue1 : (if p = 0 then 0 else ns * ns + no * ns * (p - 1)) + k = e := congrArg Prod.fst hue
  cases p with
  | zero =>
    rw [if_pos rfl, Nat.zero_add] at hue1
    dsimp only at hk
    rw [if_pos rfl] at hk
    rw [← hue1, posOnly _ _ (e5 k hk)] at ht
    exact small _ hu' t ht
  | succ q =>
    rw [if_neg (Nat.succ_ne_zero _), Nat.add_sub_cancel] at hue1
    dsimp only at hk hp
    rw [if_neg (Nat.succ_ne_zero _)] at hk
    rw [← hue1, posOnly _ _ (e6 q (by omega) k hk)] at ht
    exact small _ hu' t ht

/-- For equally spaced layers and the default curvature. -/
example : ∃ M, genCircle .little realFns 1 (1 / 2) 3 2 none (some fun x => .ok x) ⟨3, 3, 1, 1, 0⟩ [['W'], ['t']] true = .ok M ∧
    M.checkConnectivity 0 = .ok true ∧ (∀ b < 2, (M.bc 10 b 1).typ = [['W'], ['t']].getD b []) ∧ (M.bc 8 1 1).typ = nE ∧ PointsTo (M.bc 8 1 1) (13, 3) := by
  obtain ⟨M, hM⟩ := C65_partial .little 1 (1 / 2) 3 2 (by norm_num) (by norm_num) none (by simp) (fun x => .ok x) (fun x => ⟨x, rfl⟩) ⟨3, 3, 1, 1, 0⟩ [['W'], ['t']] (by decide) true
  have sqlt : Real.sqrt 2 < 3 / 2 := by
    rw [Real.sqrt_lt' (by norm_num)]; norm_num
  have hS : Spacing (Option.getD none fun x => .ok (Real.sin (1 / 2 * Real.pi * x) ^ 2)) (fun x => .ok x) 2 (fun i => (i : ℝ) / 2) :=
    ⟨fun i _ => by norm_num, by norm_num, by norm_num, default_curv.1, default_curv.2⟩
  have hb : ∀ c ∈ [['W'], ['t']], u3 c ≠ nE ∧ u3 c ≠ nP := by decide
  obtain ⟨H, hK⟩ := C106_sizes hM hS (fun i _ => by simp; linarith) (by simp) (by norm_num) (by norm_num) (by norm_num) (by norm_num)
    (by norm_num; linarith)
  obtain ⟨c1, -, -, c4, -⟩ := C106 hM (by decide) hb hS H hK
  refine ⟨M, hM, c1 0 le_rfl, ?_, ?_⟩
  · intro b hb
    have := c4 (.arc 0 0) ⟨by norm_num, by norm_num⟩ b hb
    simp only [circleFace, Key.fst] at this
    rw [show M.bc 10 b 1 = M.bc (3 * 3 + 2 * 3 * 0 + (2 - 1 + 2 * 0)) b 1 from rfl]
    rcases (by omega : b = 0 ∨ b = 1) with rfl | rfl
    · exact this
    · exact this
  · have := c4 (.side 0 2) ⟨by norm_num, by norm_num⟩ 1 (by decide)
    simp only [circleFace, Key.fst, Key.snd] at this
    exact ⟨this.1, this.2.1⟩

end Pymech
