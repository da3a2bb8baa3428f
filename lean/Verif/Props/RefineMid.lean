import Verif.Props.RefineBlocks

/-!
# The parts of `extrude_refine` extruded by `extrude_mid`

Used for C109.
-/

set_option linter.unusedSectionVars false
set_option autoImplicit false

namespace Pymech

open Spec

variable {F : Type} [Field F] [LinearOrder F] [IsStrictOrderedRing F] [FloorRing F]

namespace Spec

/-- Layers between the horizontal edges above side `g` in a column with high side `h`: two on the high side, one on the low side, and none
on the other two, where the column is not divided horizontally. -/
def midStep (h g : Nat) : Option Nat := if g = h then some 2 else if g = opp h then some 1 else none

/-- The face above side `g` with number `t` from below, on the high and the low side; `n` is the number of plane elements. -/
def midSlot (h n j g t : Nat) : Face :=
  if g = h then (6 * (j + n * (t / 2)) + [1, 4].getD (t % 2) 0, g) else (6 * (j + n * (t / 4)) + [0, 2, 3, 5].getD (t % 4) 0, g)

/-- Which of the two corners of the high side is on side `g`. -/
def latIx (g : Nat) : Nat := if g = 1 ∨ g = 2 then 1 else 0

/-- Horizontal position of the centres of the faces above side `g`. -/
def midPts (el : Elem F) (h g : Nat) : List (F × F) :=
  if g = h ∨ g = opp h then [sideMid el g]
  else
    let a := planePt el (sideCorner (opp h) (latIx g))
    let b := planePt el (sideCorner h (latIx g))
    [along a b (1 / 4), along a b (3 / 8), along a b (3 / 4)]

/-- Horizontal position of the centres of the end faces. -/
def midCentres (el : Elem F) (h : Nat) : List (F × F) :=
  [along (sideMid el (opp h)) (sideMid el h) (1 / 4), along (sideMid el (opp h)) (sideMid el h) (3 / 4)]

end Spec

/-- The record of a face of the mesh returned by `extrude_mid`. -/
inductive MidFace (R Q : HexaData F) (l1 l2 : List Name) (nb h kb i j f : Nat) : Prop
  | inner (y : Face) : (∀ b < R.nbc, (Q.bc (6 * (i + R.nel * kb) + j) b f).typ = nE ∧ PointsTo (Q.bc (6 * (i + R.nel * kb) + j) b f) y) →
      MidFace R Q l1 l2 nb h kb i j f
  | bottom : f = 4 → kb = 0 → j ≤ 1 → (∀ b < R.nbc, (Q.bc (6 * (i + R.nel * kb) + j) b f).typ = u3 (l1.getD b []) ∧
      (l1.getD b [] = nP → PointsTo (Q.bc (6 * (i + R.nel * kb) + j) b f) (colFace R.nel (nb - 1) i (5 - j, 5)))) → MidFace R Q l1 l2 nb h kb i j f
  | top : f = 5 → kb + 1 = nb → 4 ≤ j → (∀ b < R.nbc, (Q.bc (6 * (i + R.nel * kb) + j) b f).typ = u3 (l2.getD b []) ∧
      (l2.getD b [] = nP → PointsTo (Q.bc (6 * (i + R.nel * kb) + j) b f) (colFace R.nel 0 i (5 - j, 4)))) → MidFace R Q l1 l2 nb h kb i j f
  | lat : IsLat h f → (∀ b < R.nbc, (Q.bc (6 * (i + R.nel * kb) + j) b f).typ = (R.bc i b f).typ ∧
      (IsLink (R.bc i b f) → ∀ y : Face, PointsTo (R.bc i b f) y → PointsTo (Q.bc (6 * (i + R.nel * kb) + j) b f) (6 * (y.1 + R.nel * kb) + j, y.2))) →
      MidFace R Q l1 l2 nb h kb i j f
  | outer : (j, f) ∈ outerFaces h → (∀ b < R.nbc, Q.bc (6 * (i + R.nel * kb) + j) b f = R.bc i b f) → MidFace R Q l1 l2 nb h kb i j f

theorem mid_face (rt : F → F) {R : HexaData F} {z : List F} {l1 l2 : List Name} {f : F → F → F} {nb : Nat} (A : MidArgs R z l1 l2 f nb)
    (h : Nat → Nat) (H : ∀ i < R.nel, HighSide f (R.el i) (h i)) (hW : WholeLinks R) {M' Q : HexaData F}
    (hQ : extrudeMid rt R z l1 l2 f true = .ok (M', Q)) (kb : Nat) (hkb : kb < nb) (i : Nat) (hi : i < R.nel) (j : Nat) (hj : j < 6) (k : Nat) (hk : k < 6) :
    MidFace R Q l1 l2 nb (h i) kb i j k := by
  obtain ⟨M1, Q1, q1, -, -, -, -, h5⟩ := extrudeMid_ok rt A true
  obtain ⟨rfl, rfl⟩ : M' = M1 ∧ Q = Q1 := by rw [hQ] at q1; simpa using q1
  have hh := (H i hi).1
  have D : ∀ b < R.nbc, ∀ j < 6, ∀ k, _ := fun b hb j hj k => (h5 kb hkb i hi).bcs (A.corners i hi) (H i hi) hi hkb j hj b hb k
  rcases face_kinds (h i) hh j k hj hk with ⟨y, hy⟩ | ⟨y, hy⟩ | ⟨y, hy⟩ | hlat | hout
  · refine .inner (colFace R.nel kb i y) fun b hb => ?_
    rcases hy with hy | hy
    · obtain ⟨b1, b2⟩ := inner_bounds (h i) hh _ hy
      obtain ⟨r1, r2⟩ := bcs_inner R.nbc R.nel kb (6 * (i + R.nel * kb)) (R.el i).bcs (h i) hh b hb _ hy
      rw [← (D b hb j hj k).1 (fun e => b1.2.2.1 ⟨e.1, e.2.2⟩) (fun e => b1.2.2.2 ⟨e.1, e.2.2⟩)] at r1
      exact r1
    · obtain ⟨b2, b1⟩ := inner_bounds (h i) hh _ hy
      obtain ⟨r2, r1⟩ := bcs_inner R.nbc R.nel kb (6 * (i + R.nel * kb)) (R.el i).bcs (h i) hh b hb _ hy
      rw [← (D b hb j hj k).1 (fun e => b1.2.2.1 ⟨e.1, e.2.2⟩) (fun e => b1.2.2.2 ⟨e.1, e.2.2⟩)] at r1
      exact r1
  · obtain ⟨c1, c2, c3, c4, c5, c6⟩ := next_cases hy
    dsimp only at c1 c2 c3 c6
    by_cases ht : kb + 1 = nb
    · exact .top c1 ht c2 fun b hb => (D b hb j hj k).2.2 ⟨c1, ht, c2⟩
    · refine .inner (colFace R.nel (kb + 1) i y) fun b hb => ?_
      have r1 := bcs_next R.nbc R.nel kb (6 * (i + R.nel * kb)) (R.el i).bcs (h i) hh b hb _ hy
      rw [← (D b hb j hj k).1 (by omega) (by omega)] at r1
      rw [show 6 * (i + R.nel * kb) + 6 * R.nel = 6 * (i + R.nel * (kb + 1)) by ring] at r1
      exact r1
  · obtain ⟨c1, c2, c3, c4, c5, c6⟩ := next_cases hy
    dsimp only at c4 c5 c6
    by_cases ht : kb = 0
    · exact .bottom c4 ht c5 fun b hb => (D b hb j hj k).2.1 ⟨c4, ht, c5⟩
    · obtain ⟨k0, rfl⟩ : ∃ k0, kb = k0 + 1 := ⟨kb - 1, by omega⟩
      refine .inner (colFace R.nel k0 i y) fun b hb => ?_
      have r2 := bcs_prev R.nbc R.nel (k0 + 1) (6 * (i + R.nel * (k0 + 1))) (6 * (i + R.nel * k0)) (by ring) (R.el i).bcs (h i) hh b hb _ hy
      rw [← (D b hb j hj k).1 (by omega) (by omega)] at r2
      exact r2
  · refine .lat hlat fun b hb => ?_
    obtain ⟨f1, f2, f3⟩ := hlat
    obtain ⟨s1, s2⟩ := bcs_side true R.nbc R.nel kb (6 * (i + R.nel * kb)) j (R.el i).bcs (h i) k hh ⟨f1, f2, f3⟩ b hb
    rw [← (D b hb j hj k).1 (by omega) (by omega)] at s1 s2
    refine ⟨s1, fun hl y hy => s2 hl y ?_ hy.2⟩
    obtain ⟨m, hm⟩ := hW b hb i hi k f1 hl
    have := hy.1
    rw [hm, trunc_natCast] at this
    have hm' : ((R.el i).bcs b k).p3 = (m : F) := hm
    rw [hm', show m = y.1 + 1 by omega]
    push_cast; rfl
  · refine .outer hout fun b hb => ?_
    obtain ⟨o1, o2⟩ := outer_bounds hh hout
    have r := bcs_outer true R.nbc R.nel kb (6 * (i + R.nel * kb)) (R.el i).bcs (h i) hh b _ hout
    dsimp only at o1 o2 r
    rw [← (D b hb j hj k).1 (by omega) (by omega)] at r
    exact r

/-- The mesh returned by `extrude_mid` is validly connected. -/
theorem mid_good (rt : F → F) {R : HexaData F} {z : List F} {l1 l2 : List Name} {f : F → F → F} {nb : Nat} (A : MidArgs R z l1 l2 f nb)
    (h : Nat → Nat) (H : ∀ i < R.nel, HighSide f (R.el i) (h i)) (hv : Valid R (SameEdge R)) (hu : Uniform R) (hs : NoSelf R) (hS : SideLinks R h)
    (hW : WholeLinks R) (hC : ∀ i < R.nel, ∀ e < 4, (R.el i).ccurv e = []) (hb0 : 0 < R.nbc)
    (hE : ∀ b < R.nbc, l1.getD b [] ≠ nE ∧ l2.getD b [] ≠ nE) (hP : ∀ b < R.nbc, l1.getD b [] = nP ↔ l1.getD 0 [] = nP) :
    ∃ M' Q, extrudeMid rt R z l1 l2 f true = .ok (M', Q) ∧ Good SharedFace 3 R.nbc 2 Q ∧ Q.elem.length = R.nel * 6 * nb ∧
      ∀ kb < nb, ∀ i < R.nel, ∀ j < 6, (Q.el (6 * (i + R.nel * kb) + j)).pos.lz = 2 ∧ (Q.el (6 * (i + R.nel * kb) + j)).pos.ly = 2 ∧
        (Q.el (6 * (i + R.nel * kb) + j)).pos.lx = 2 := by
  have hE' : ∀ b < R.nbc, u3 (l1.getD b []) ≠ nE ∧ u3 (l2.getD b []) ≠ nE := fun b hb =>
    ⟨fun e => (hE b hb).1 ((u3_single _ 'E').1 e), fun e => (hE b hb).2 ((u3_single _ 'E').1 e)⟩
  obtain ⟨M', Q, hQ, hF, -⟩ := C73_geometry rt R z l1 l2 f nb A h H hv hS hW hE' hC
  obtain ⟨M1, Q1, q1, -, ⟨hd, hn, hnb, hlr, -⟩, -, hl, h5⟩ := extrudeMid_ok rt A true
  obtain ⟨rfl, rfl⟩ : M' = M1 ∧ Q = Q1 := by rw [hQ] at q1; simpa using q1
  have hn' := A.wf.nel
  have dims : ∀ kb < nb, ∀ i < R.nel, ∀ j < 6, (Q.el (6 * (i + R.nel * kb) + j)).pos.lz = 2 ∧ (Q.el (6 * (i + R.nel * kb) + j)).pos.ly = 2 ∧
      (Q.el (6 * (i + R.nel * kb) + j)).pos.lx = 2 := by
    intro kb hkb i hi j hj
    obtain ⟨pm, g1, -⟩ := (h5 kb hkb i hi).pos (A.corners i hi) (H i hi)
    rw [g1 j hj]
    exact ⟨rfl, rfl, rfl⟩
  have hall : ∀ el ∈ Q.elem, ∃ kb < nb, ∃ i < R.nel, ∃ j < 6, el = Q.el (6 * (i + R.nel * kb) + j) := by
    intro el hel
    obtain ⟨e, he, rfl⟩ := List.getElem_of_mem hel
    obtain ⟨kb, hkb, i, hi, j, hj, rfl⟩ := col_cases (hl ▸ he)
    refine ⟨kb, hkb, i, hi, j, hj, ?_⟩
    rw [Q.el_eq_getElem _ he]
  have hg : Grid Q := by
    intro el hel
    obtain ⟨kb, hkb, i, hi, j, hj, rfl⟩ := hall el hel
    obtain ⟨d1, d2, d3⟩ := dims kb hkb i hi j hj
    exact ⟨by omega, by omega, by omega⟩
  have hw : WF Q := by
    refine ⟨by rw [hn, hl], fun el hel => ?_, Or.inr hd⟩
    obtain ⟨kb, hkb, i, hi, j, hj, rfl⟩ := hall el hel
    obtain ⟨l, base, E, base', a1, a2, -, a4, a5⟩ := h5 kb hkb i hi
    rw [a5 j hj]
    show (E j).rows = _
    rw [a4.rows j, a1.1.rows, hnb]
    exact A.wf.rows _ (R.el_mem i (by omega))
  have faces := mid_face rt A h H hW hQ
  have nEP : nE ≠ nP := by decide
  have hP2 : ∀ b < R.nbc, l2.getD b [] = nP ↔ l2.getD 0 [] = nP := fun b hb =>
    (ends_iff A b hb).symm.trans ((hP b hb).trans (ends_iff A 0 hb0))
  refine ⟨M', Q, hQ, ⟨hw, hg, hd, hnb, by rw [hlr], hF, ?_, ?_⟩, hl, dims⟩
  · intro b hb x hx hx2
    rw [hnb] at hb
    rw [hd] at hx2
    obtain ⟨x1, k⟩ := x
    obtain ⟨kb, hkb, i, hi, j, hj, hxe⟩ := col_cases (hl ▸ hx)
    dsimp only at hxe hx2 ⊢
    subst hxe
    have ends : ∀ l : List Name, (∀ b < R.nbc, l.getD b [] ≠ nE) → (∀ b < R.nbc, l.getD b [] = nP ↔ l.getD 0 [] = nP) → ∀ y : Face,
        (∀ b < R.nbc, (Q.bc (6 * (i + R.nel * kb) + j) b k).typ = u3 (l.getD b []) ∧ (l.getD b [] = nP → PointsTo (Q.bc (6 * (i + R.nel * kb) + j) b k) y)) →
        ((Q.bc (6 * (i + R.nel * kb) + j) b k).typ = nE ↔ (Q.bc (6 * (i + R.nel * kb) + j) 0 k).typ = nE) ∧
        ((Q.bc (6 * (i + R.nel * kb) + j) b k).typ = nP ↔ (Q.bc (6 * (i + R.nel * kb) + j) 0 k).typ = nP) ∧
        (IsLink (Q.bc (6 * (i + R.nel * kb) + j) 0 k) → ∀ y, PointsTo (Q.bc (6 * (i + R.nel * kb) + j) 0 k) y → PointsTo (Q.bc (6 * (i + R.nel * kb) + j) b k) y) := by
      intro l e1 e2 y hr
      obtain ⟨t1, t2⟩ := hr b hb
      obtain ⟨v1, v2⟩ := hr 0 hb0
      have e3 : ∀ b < R.nbc, u3 (l.getD b []) ≠ nE := fun b hb h => e1 b hb ((u3_single _ 'E').1 h)
      refine ⟨⟨fun h => ?_, fun h => ?_⟩, ?_, fun hlk w hw => ?_⟩
      · rw [t1] at h; exact absurd h (e3 b hb)
      · rw [v1] at h; exact absurd h (e3 0 hb0)
      · rw [t1, v1]; exact (u3_single _ 'P').trans ((e2 b hb).trans (u3_single _ 'P').symm)
      · have p0 : l.getD 0 [] = nP := by
          rcases hlk with h | h
          · rw [v1] at h; exact absurd h (e3 0 hb0)
          · rw [v1] at h; exact (u3_single _ 'P').1 h
        obtain rfl := points_unique hw (v2 p0)
        exact t2 ((e2 b hb).2 p0)
    cases faces kb hkb i hi j hj k hx2 with
    | inner y hr =>
      obtain ⟨t1, t2⟩ := hr b hb
      obtain ⟨v1, v2⟩ := hr 0 hb0
      rw [t1, v1]
      exact ⟨Iff.rfl, Iff.rfl, fun _ w hw => by obtain rfl := points_unique hw v2; exact t2⟩
    | bottom _ _ _ hr => exact ends l1 (fun b hb => (hE b hb).1) hP _ hr
    | top _ _ _ hr => exact ends l2 (fun b hb => (hE b hb).2) hP2 _ hr
    | lat hlat hr =>
      obtain ⟨t1, t2⟩ := hr b hb
      obtain ⟨v1, v2⟩ := hr 0 hb0
      obtain ⟨u1, u2, u3'⟩ := hu b hb (i, k) (by dsimp only; omega) (by rw [A.ndim]; exact hlat.1)
      dsimp only at u1 u2 u3'
      rw [t1, v1]
      refine ⟨u1, u2, fun hlk w hw => ?_⟩
      have hl0 : IsLink (R.bc i 0 k) := by unfold IsLink at hlk ⊢; rw [v1] at hlk; exact hlk
      have hlb : IsLink (R.bc i b k) := by unfold IsLink at hl0 ⊢; rw [u1, u2]; exact hl0
      obtain ⟨y, -, -, y3, -⟩ := hv 0 hb0 (i, k) (by dsimp only; omega) (by rw [A.ndim]; exact hlat.1) hl0
      dsimp only at y3
      obtain rfl := points_unique hw (v2 hl0 y y3)
      exact t2 hlb y (u3' hl0 y y3)
    | outer hout hr =>
      obtain ⟨o1, o2⟩ := outer_bounds (H i hi).1 hout
      dsimp only at o1 o2
      have hno : ¬ IsLink (R.bc i 0 k) := by
        rcases o2 with e | e
        · rw [e]; exact (hS 0 hb0 i hi).1
        · rw [e]; exact (hS 0 hb0 i hi).2
      obtain ⟨u1, u2, -⟩ := hu b hb (i, k) (by dsimp only; omega) (by rw [A.ndim]; exact o1)
      rw [hr b hb, hr 0 hb0]
      exact ⟨u1, u2, fun hlk => absurd hlk hno⟩
  · intro b hb x hx hx2 hp hself
    rw [hnb] at hb
    rw [hd] at hx2
    obtain ⟨x1, k⟩ := x
    obtain ⟨kb, hkb, i, hi, j, hj, hxe⟩ := col_cases (hl ▸ hx)
    dsimp only at hxe hx2 hp hself
    subst hxe
    cases faces kb hkb i hi j hj k hx2 with
    | inner y hr => rw [(hr b hb).1] at hp; exact nEP hp
    | bottom e4 _ _ hr =>
      obtain ⟨t1, t2⟩ := hr b hb
      rw [t1] at hp
      have h1 := (Prod.ext_iff.1 (points_unique hself (t2 ((u3_single _ 'P').1 hp)))).2
      unfold colFace at h1
      dsimp only at h1
      omega
    | top e4 _ _ hr =>
      obtain ⟨t1, t2⟩ := hr b hb
      rw [t1] at hp
      have h1 := (Prod.ext_iff.1 (points_unique hself (t2 ((u3_single _ 'P').1 hp)))).2
      unfold colFace at h1
      dsimp only at h1
      omega
    | lat hlat hr =>
      obtain ⟨t1, t2⟩ := hr b hb
      rw [t1] at hp
      obtain ⟨y, -, -, y3, -⟩ := hv b hb (i, k) (by dsimp only; omega) (by rw [A.ndim]; exact hlat.1) (Or.inr hp)
      dsimp only at y3
      obtain ⟨h1, h2⟩ := Prod.ext_iff.1 (points_unique hself (t2 (Or.inr hp) y y3))
      dsimp only at h1 h2
      have hw : y = (i, k) := Prod.ext (by dsimp only; omega) h2.symm
      rw [hw] at y3
      exact hs b hb (i, k) (by dsimp only; omega) (by rw [A.ndim]; exact hlat.1) hp y3
    | outer hout hr =>
      obtain ⟨o1, o2⟩ := outer_bounds (H i hi).1 hout
      dsimp only at o1 o2
      rw [hr b hb] at hp
      rcases o2 with e | e
      · rw [e] at hp; exact (hS b hb i hi).1 (Or.inr hp)
      · rw [e] at hp; exact (hS b hb i hi).2 (Or.inr hp)

/-! ### Geometry of the columns -/

theorem plane2_comm (p q : F × F) : plane2 p q = plane2 q p := by unfold plane2; ring

theorem plane2_nonneg (p q : F × F) : 0 ≤ plane2 p q := by unfold plane2; positivity

theorem distSq_comm' (p q : V3 F) : distSq p q = distSq q p := by unfold distSq; ring

theorem dist_level (a b : F × F) (s s' t : F) : distSq (lift a b (s, t)) (lift a b (s', t)) = (s' - s) ^ 2 * plane2 a b := by
  unfold distSq lift plane2; ring

theorem dist_across (a b a' b' : F × F) (t : F) : distSq (lift a b (0, t)) (lift a' b' (0, t)) = plane2 a a' ∧
    distSq (lift a b (1, t)) (lift a' b' (1, t)) = plane2 b b' := by
  unfold distSq lift plane2; constructor <;> ring

theorem dist_vertical (a b : F × F) (s t t' : F) : distSq (lift a b (s, t)) (lift a b (s, t')) = (t' - t) ^ 2 := by
  unfold distSq lift; ring

theorem lift_ends (a b : F × F) (t : F) : lift a b (0, t) = at3 a t ∧ lift a b (1, t) = at3 b t := by
  unfold lift at3
  constructor <;> simp

theorem wide_le (el : Elem F) (ky : Nat) (hky : ky < 2) : plane2 (planePt el (ky, 0)) (planePt el (ky, 1)) ≤ wide el := by
  have : ky = 0 ∨ ky = 1 := by omega
  rcases this with rfl | rfl
  · exact le_max_left _ _
  · exact le_max_right _ _

/-- The vertices of an element of a column. -/
def ColVerts (e el : Elem F) (h j : Nat) (ζ : Nat → F) : Prop :=
  ∀ q < 2,
    let a := planePt el (sideCorner (opp h) q)
    let b := planePt el (sideCorner h q)
    let Q := sect ζ j
    vert e 0 (sideCorner (opp h) q) = lift a b Q.1 ∧ vert e 0 (sideCorner h q) = lift a b Q.2.1 ∧
    vert e 1 (sideCorner h q) = lift a b Q.2.2.1 ∧ vert e 1 (sideCorner (opp h) q) = lift a b Q.2.2.2

/-- Vertical size of an element of a column, on its low side. -/
def colSize (ζ : Nat → F) (j : Nat) : F := (sect ζ j).2.2.2.2 - (sect ζ j).1.2

theorem col_smallest {e el : Elem F} {h j : Nat} {ζ : Nat → F} (hh : h < 4) (hj : j < 6) (V : ColVerts e el h j ζ)
    (d : e.pos.lz = 2 ∧ e.pos.ly = 2 ∧ e.pos.lx = 2) : ∃ s0, e.smallestEdgeSq = .ok s0 ∧ s0 ≤ wide el ∧ s0 ≤ (colSize ζ j) ^ 2 := by
  obtain ⟨s0, h0, h1, h2⟩ := smallest_le d
  obtain ⟨v1, v2, v3, v4⟩ := V 0 (by omega)
  obtain ⟨w1, w2, w3, w4⟩ := V 1 (by omega)
  refine ⟨s0, h0, ?_, ?_⟩
  · have hq : ∀ s s' : F, (s' - s) ^ 2 ≤ 1 → ∀ p q : F × F, (s' - s) ^ 2 * plane2 p q ≤ plane2 p q := by
      intro s s' hs p q
      have := mul_le_mul_of_nonneg_right hs (plane2_nonneg p q)
      rwa [one_mul] at this
    have h4 : h = 0 ∨ h = 1 ∨ h = 2 ∨ h = 3 := by omega
    have h6 : j = 0 ∨ j = 1 ∨ j = 2 ∨ j = 3 ∨ j = 4 ∨ j = 5 := by omega
    have x : ∀ kz < 2, ∀ ky < 2, ∀ B : F, distSq (vert e kz (ky, 0)) (vert e kz (ky, 1)) ≤ B → s0 ≤ B := fun kz hz ky hy B hB => (h1 kz hz ky hy).trans hB
    rcases h4 with rfl | rfl | rfl | rfl
    · -- side 0 is high
      simp only [sideCorner, opp] at v1 v2 v3 v4 w1 w2 w3 w4
      simp only [reduceIte, Nat.reduceMod, Nat.reduceAdd, OfNat.ofNat_ne_zero, OfNat.ofNat_ne_one] at v1 v2 v3 v4 w1 w2 w3 w4
      rcases h6 with rfl | rfl | rfl | rfl | rfl | rfl
      · exact x 0 (by omega) 1 (by omega) _ (by rw [v1, w1]; simp only [sect]; rw [(dist_across _ _ _ _ _).1]; exact wide_le el 1 (by omega))
      · exact x 0 (by omega) 0 (by omega) _ (by rw [v2, w2]; simp only [sect]; rw [(dist_across _ _ _ _ _).2]; exact wide_le el 0 (by omega))
      · exact x 0 (by omega) 1 (by omega) _ (by rw [v1, w1]; simp only [sect]; rw [(dist_across _ _ _ _ _).1]; exact wide_le el 1 (by omega))
      · exact x 0 (by omega) 1 (by omega) _ (by rw [v1, w1]; simp only [sect]; rw [(dist_across _ _ _ _ _).1]; exact wide_le el 1 (by omega))
      · exact x 0 (by omega) 0 (by omega) _ (by rw [v2, w2]; simp only [sect]; rw [(dist_across _ _ _ _ _).2]; exact wide_le el 0 (by omega))
      · exact x 0 (by omega) 1 (by omega) _ (by rw [v1, w1]; simp only [sect]; rw [(dist_across _ _ _ _ _).1]; exact wide_le el 1 (by omega))
    · simp only [sideCorner, opp] at v1 v2 v3 v4 w1 w2 w3 w4
      simp only [reduceIte, Nat.reduceMod, Nat.reduceAdd, OfNat.ofNat_ne_zero, OfNat.ofNat_ne_one, one_ne_zero, Nat.reduceEqDiff] at v1 v2 v3 v4 w1 w2 w3 w4
      have y : ∀ (s s' t : F), (s' - s) ^ 2 ≤ 1 → distSq (lift (planePt el (0, 0)) (planePt el (0, 1)) (s, t)) (lift (planePt el (0, 0)) (planePt el (0, 1)) (s', t)) ≤ wide el := by
        intro s s' t hs
        rw [dist_level]
        exact (hq _ _ hs _ _).trans (wide_le el 0 (by omega))
      rcases h6 with rfl | rfl | rfl | rfl | rfl | rfl
      · exact x 0 (by omega) 0 (by omega) _ (by rw [v1, v2]; simp only [sect]; exact y _ _ _ (by norm_num))
      · exact x 0 (by omega) 0 (by omega) _ (by rw [v1, v2]; simp only [sect]; exact y _ _ _ (by norm_num))
      · exact x 0 (by omega) 0 (by omega) _ (by rw [v1, v2]; simp only [sect]; exact y _ _ _ (by norm_num))
      · exact x 0 (by omega) 0 (by omega) _ (by rw [v1, v2]; simp only [sect]; exact y _ _ _ (by norm_num))
      · exact x 1 (by omega) 0 (by omega) _ (by rw [v3, v4]; simp only [sect]; exact y _ _ _ (by norm_num))
      · exact x 0 (by omega) 0 (by omega) _ (by rw [v1, v2]; simp only [sect]; exact y _ _ _ (by norm_num))
    · simp only [sideCorner, opp] at v1 v2 v3 v4 w1 w2 w3 w4
      simp only [reduceIte, Nat.reduceMod, Nat.reduceAdd, OfNat.ofNat_ne_zero, OfNat.ofNat_ne_one] at v1 v2 v3 v4 w1 w2 w3 w4
      rcases h6 with rfl | rfl | rfl | rfl | rfl | rfl
      · exact x 0 (by omega) 0 (by omega) _ (by rw [v1, w1]; simp only [sect]; rw [(dist_across _ _ _ _ _).1]; exact wide_le el 0 (by omega))
      · exact x 0 (by omega) 1 (by omega) _ (by rw [v2, w2]; simp only [sect]; rw [(dist_across _ _ _ _ _).2]; exact wide_le el 1 (by omega))
      · exact x 0 (by omega) 0 (by omega) _ (by rw [v1, w1]; simp only [sect]; rw [(dist_across _ _ _ _ _).1]; exact wide_le el 0 (by omega))
      · exact x 0 (by omega) 0 (by omega) _ (by rw [v1, w1]; simp only [sect]; rw [(dist_across _ _ _ _ _).1]; exact wide_le el 0 (by omega))
      · exact x 0 (by omega) 1 (by omega) _ (by rw [v2, w2]; simp only [sect]; rw [(dist_across _ _ _ _ _).2]; exact wide_le el 1 (by omega))
      · exact x 0 (by omega) 0 (by omega) _ (by rw [v1, w1]; simp only [sect]; rw [(dist_across _ _ _ _ _).1]; exact wide_le el 0 (by omega))
    · simp only [sideCorner, opp] at v1 v2 v3 v4 w1 w2 w3 w4
      simp only [reduceIte, Nat.reduceMod, Nat.reduceAdd, OfNat.ofNat_ne_zero, OfNat.ofNat_ne_one, one_ne_zero, Nat.reduceEqDiff] at v1 v2 v3 v4 w1 w2 w3 w4
      have y : ∀ (s s' t : F), (s' - s) ^ 2 ≤ 1 → distSq (lift (planePt el (0, 1)) (planePt el (0, 0)) (s, t)) (lift (planePt el (0, 1)) (planePt el (0, 0)) (s', t)) ≤ wide el := by
        intro s s' t hs
        rw [dist_level, plane2_comm]
        exact (hq _ _ hs _ _).trans (wide_le el 0 (by omega))
      rcases h6 with rfl | rfl | rfl | rfl | rfl | rfl
      · exact x 0 (by omega) 0 (by omega) _ (by rw [v1, v2]; simp only [sect]; exact y _ _ _ (by norm_num))
      · exact x 0 (by omega) 0 (by omega) _ (by rw [v1, v2]; simp only [sect]; exact y _ _ _ (by norm_num))
      · exact x 0 (by omega) 0 (by omega) _ (by rw [v1, v2]; simp only [sect]; exact y _ _ _ (by norm_num))
      · exact x 0 (by omega) 0 (by omega) _ (by rw [v1, v2]; simp only [sect]; exact y _ _ _ (by norm_num))
      · exact x 1 (by omega) 0 (by omega) _ (by rw [v3, v4]; simp only [sect]; exact y _ _ _ (by norm_num))
      · exact x 0 (by omega) 0 (by omega) _ (by rw [v1, v2]; simp only [sect]; exact y _ _ _ (by norm_num))
  · have hc : ∀ h < 4, (sideCorner (opp h) 0).1 < 2 ∧ (sideCorner (opp h) 0).2 < 2 := by decide
    obtain ⟨c1, c2⟩ := hc h hh
    have := h2 _ c1 _ c2
    rw [v1, v4] at this
    have h6 : j = 0 ∨ j = 1 ∨ j = 2 ∨ j = 3 ∨ j = 4 ∨ j = 5 := by omega
    unfold colSize
    rcases h6 with rfl | rfl | rfl | rfl | rfl | rfl <;> simp only [sect] at this ⊢ <;> rw [dist_vertical] at this <;> exact this

/-- The faces above the other two sides. -/
theorem col_lateral {e el : Elem F} {h j : Nat} {ζ : Nat → F} (hh : h < 4) (hj : j < 6) (V : ColVerts e el h j ζ)
    (d : e.pos.lz = 2 ∧ e.pos.ly = 2 ∧ e.pos.lx = 2) (hz : ζ 0 < ζ 1 ∧ ζ 1 < ζ 2 ∧ ζ 2 < ζ 3 ∧ ζ 3 < ζ 4) (k : Nat) (hk : IsLat h k) :
    xyMean e k ∈ midPts el h k ∧ ζ 0 + colSize ζ j / 4 ≤ faceMean e k 2 ∧ faceMean e k 2 ≤ ζ 4 - colSize ζ j / 4 := by
  obtain ⟨q, hq, kq, cq⟩ := lat_corners hh hk
  obtain ⟨v1, v2, v3, v4⟩ := V q hq
  have hx : latIx k = q := by
    have : ∀ h < 4, ∀ q < 2, latIx ((split4 h).lat q) = q := by decide
    rw [kq]; exact this h hh q hq
  have hm : (faceVerts e k).Perm [vert e 0 (sideCorner (opp h) q), vert e 0 (sideCorner h q), vert e 1 (sideCorner (opp h) q), vert e 1 (sideCorner h q)] := by
    have := faceVerts_side d k hk.1
    rcases cq with ⟨c1, c2⟩ | ⟨c1, c2⟩ <;> rw [c1, c2] at this
    · exact this
    · exact this.trans (perm_1 _ _ _ _)
  obtain ⟨m0, m1, m2⟩ := faceMean_perm hm
  rw [v1, v2, v3, v4] at m0 m1 m2
  unfold midPts
  rw [if_neg (by rintro (e | e); exacts [hk.2.1 e, hk.2.2 e]), hx]
  unfold xyMean colSize
  rw [m0, m1, m2]
  obtain ⟨z1, z2, z3, z4⟩ := hz
  have h6 : j = 0 ∨ j = 1 ∨ j = 2 ∨ j = 3 ∨ j = 4 ∨ j = 5 := by omega
  have mem : ∀ (a b c p : F × F), p = a ∨ p = b ∨ p = c → p ∈ [a, b, c] := fun a b c p h => by simpa using h
  have hp : ∀ a b : F × F, ∀ s x y : F, x = a.1 + s * (b.1 - a.1) → y = a.2 + s * (b.2 - a.2) → (x, y) = along a b s :=
    fun a b s x y h1 h2 => Prod.ext h1 h2
  rcases h6 with rfl | rfl | rfl | rfl | rfl | rfl <;> simp only [sect, lift] <;> refine ⟨mem _ _ _ _ ?_, by linarith, by linarith⟩
  · left; apply hp <;> ring
  · right; right; apply hp <;> ring
  · right; left; apply hp <;> ring
  · right; left; apply hp <;> ring
  · right; right; apply hp <;> ring
  · left; apply hp <;> ring

/-- The horizontal faces at the ends. -/
theorem col_end {e el : Elem F} {h j k : Nat} {ζ : Nat → F} (hh : h < 4) (V : ColVerts e el h j ζ)
    (d : e.pos.lz = 2 ∧ e.pos.ly = 2 ∧ e.pos.lx = 2) (hk : (k = 0 ∧ j ≤ 1) ∨ (k = 1 ∧ 4 ≤ j ∧ j < 6)) :
    xyMean e (4 + k) ∈ midCentres el h ∧ faceMean e (4 + k) 2 = ζ (4 * k) := by
  obtain ⟨v1, v2, v3, v4⟩ := V 0 (by omega)
  obtain ⟨w1, w2, w3, w4⟩ := V 1 (by omega)
  obtain ⟨m0, m1, m2⟩ := faceMean_perm (faceVerts_end d k (by omega))
  have h4 : h = 0 ∨ h = 1 ∨ h = 2 ∨ h = 3 := by omega
  have mem : ∀ (a b p : F × F), p = a ∨ p = b → p ∈ [a, b] := fun a b p h => by simpa using h
  unfold midCentres xyMean
  rcases hk with ⟨rfl, hj⟩ | ⟨rfl, hj, hj'⟩
  · have hj2 : j = 0 ∨ j = 1 := by omega
    rcases h4 with rfl | rfl | rfl | rfl <;> simp only [sideCorner, opp] at v1 v2 v3 v4 w1 w2 w3 w4 <;>
      simp only [reduceIte, Nat.reduceMod, Nat.reduceAdd, OfNat.ofNat_ne_zero, OfNat.ofNat_ne_one, one_ne_zero, Nat.reduceEqDiff] at v1 v2 v3 v4 w1 w2 w3 w4 <;>
      rw [v1, w1, v2, w2] at m0 m1 m2 <;>
      rw [m0, m1, m2] <;> rcases hj2 with rfl | rfl <;> simp only [sect, lift] <;>
      refine ⟨mem _ _ _ ?_, by simp only [Nat.mul_zero]; ring⟩
    all_goals first
      | (left; apply Prod.ext <;> simp only [along, sideMid, sideCorner, opp, reduceIte, Nat.reduceMod, Nat.reduceAdd, OfNat.ofNat_ne_zero, OfNat.ofNat_ne_one, one_ne_zero, Nat.reduceEqDiff] <;> ring; done)
      | (right; apply Prod.ext <;> simp only [along, sideMid, sideCorner, opp, reduceIte, Nat.reduceMod, Nat.reduceAdd, OfNat.ofNat_ne_zero, OfNat.ofNat_ne_one, one_ne_zero, Nat.reduceEqDiff] <;> ring)
  · have hj2 : j = 4 ∨ j = 5 := by omega
    rcases h4 with rfl | rfl | rfl | rfl <;> simp only [sideCorner, opp] at v1 v2 v3 v4 w1 w2 w3 w4 <;>
      simp only [reduceIte, Nat.reduceMod, Nat.reduceAdd, OfNat.ofNat_ne_zero, OfNat.ofNat_ne_one, one_ne_zero, Nat.reduceEqDiff] at v1 v2 v3 v4 w1 w2 w3 w4 <;>
      rw [v3, w3, v4, w4] at m0 m1 m2 <;>
      rw [m0, m1, m2] <;> rcases hj2 with rfl | rfl <;> simp only [sect, lift] <;>
      refine ⟨mem _ _ _ ?_, by simp only [Nat.mul_one]; ring⟩
    all_goals first
      | (left; apply Prod.ext <;> simp only [along, sideMid, sideCorner, opp, reduceIte, Nat.reduceMod, Nat.reduceAdd, OfNat.ofNat_ne_zero, OfNat.ofNat_ne_one, one_ne_zero, Nat.reduceEqDiff] <;> ring; done)
      | (right; apply Prod.ext <;> simp only [along, sideMid, sideCorner, opp, reduceIte, Nat.reduceMod, Nat.reduceAdd, OfNat.ofNat_ne_zero, OfNat.ofNat_ne_one, one_ne_zero, Nat.reduceEqDiff] <;> ring)

/-- The faces on the high and the low side. -/
theorem col_upright {e el : Elem F} {h j : Nat} {ζ : Nat → F} (hh : h < 4) (V : ColVerts e el h j ζ)
    (d : e.pos.lz = 2 ∧ e.pos.ly = 2 ∧ e.pos.lx = 2) :
    (j = 1 → Upright e h el h (ζ 0) (ζ 2)) ∧ (j = 4 → Upright e h el h (ζ 2) (ζ 4)) ∧ (j = 0 → Upright e (opp h) el (opp h) (ζ 0) (ζ 1)) ∧
    (j = 2 → Upright e (opp h) el (opp h) (ζ 1) (ζ 2)) ∧ (j = 3 → Upright e (opp h) el (opp h) (ζ 2) (ζ 3)) ∧
    (j = 5 → Upright e (opp h) el (opp h) (ζ 3) (ζ 4)) := by
  obtain ⟨v1, v2, v3, v4⟩ := V 0 (by omega)
  obtain ⟨w1, w2, w3, w4⟩ := V 1 (by omega)
  have f1 := faceVerts_side d h hh
  have f2 := faceVerts_side d (opp h) (by unfold opp; omega)
  rw [v2, w2, v3, w3] at f1
  rw [v1, w1, v4, w4] at f2
  have l0 := fun (a b : F × F) (t : F) => (lift_ends a b t).1
  have l1 := fun (a b : F × F) (t : F) => (lift_ends a b t).2
  refine ⟨?_, ?_, ?_, ?_, ?_, ?_⟩ <;> rintro rfl <;> simp only [sect, l0, l1] at f1 f2 <;> first | exact f1 | exact f2

/-- The mesh returned by `extrude_mid`, described. -/
theorem mid_block (rt : F → F) {R : HexaData F} {z : List F} {l1 l2 : List Name} {f : F → F → F} {nb : Nat} (A : MidArgs R z l1 l2 f nb)
    (h : Nat → Nat) (H : ∀ i < R.nel, HighSide f (R.el i) (h i)) (hv : Valid R (SameEdge R)) (hu : Uniform R) (hs : NoSelf R) (hS : SideLinks R h)
    (hW : WholeLinks R) (hC : ∀ i < R.nel, ∀ e < 4, (R.el i).ccurv e = []) (hb0 : 0 < R.nbc)
    (hE : ∀ b < R.nbc, l1.getD b [] ≠ nE ∧ l2.getD b [] ≠ nE) (hP : ∀ b < R.nbc, l1.getD b [] = nP ↔ l1.getD 0 [] = nP) (hz : z.Pairwise (· < ·)) :
    ∃ M' Q, extrudeMid rt R z l1 l2 f true = .ok (M', Q) ∧
      Block R (fun t => z.getD t 0) (z.length - 1) (fun j g => midStep (h j) g) (fun j g t => midSlot (h j) R.nel j g t)
        (fun j g => midPts (R.el j) (h j) g) (fun j => midCentres (R.el j) (h j)) l1 l2 Q := by
  obtain ⟨M', Q, hQ, hG, hl, dims⟩ := mid_good rt A h H hv hu hs hS hW hC hb0 hE hP
  obtain ⟨M1, Q1, q1, hV⟩ := C74_section rt R z l1 l2 f nb A true h H hC
  obtain ⟨rfl, rfl⟩ : M' = M1 ∧ Q = Q1 := by rw [hQ] at q1; simpa using q1
  have hn := A.wf.nel
  have hlen := A.z
  have V : ∀ kb < nb, ∀ i < R.nel, ∀ j < 6, ColVerts (Q.el (6 * (i + R.nel * kb) + j)) (R.el i) (h i) j (fun m => z.getD (4 * kb + m) 0) :=
    fun kb hkb i hi j hj q hq => hV kb hkb i hi j hj q hq
  have inc : ∀ kb < nb, z.getD (4 * kb + 0) 0 < z.getD (4 * kb + 1) 0 ∧ z.getD (4 * kb + 1) 0 < z.getD (4 * kb + 2) 0 ∧
      z.getD (4 * kb + 2) 0 < z.getD (4 * kb + 3) 0 ∧ z.getD (4 * kb + 3) 0 < z.getD (4 * kb + 4) 0 := fun kb hkb =>
    ⟨increasing hz (by omega) (by omega), increasing hz (by omega) (by omega), increasing hz (by omega) (by omega), increasing hz (by omega) (by omega)⟩
  have low : ∀ kb < nb, z.getD 0 0 ≤ z.getD (4 * kb + 0) 0 := fun kb hkb => increasing_le hz (by omega) (by omega)
  have high : ∀ kb < nb, z.getD (4 * kb + 4) 0 ≤ z.getD (z.length - 1) 0 := fun kb hkb => increasing_le hz (by omega) (by omega)
  have size : ∀ ζ : Nat → F, ζ 0 < ζ 1 ∧ ζ 1 < ζ 2 ∧ ζ 2 < ζ 3 ∧ ζ 3 < ζ 4 → ∀ j < 6, 0 < colSize ζ j ∧ colSize ζ j ≤ ζ 4 - ζ 0 := by
    rintro ζ ⟨z1, z2, z3, z4⟩ j hj
    have h6 : j = 0 ∨ j = 1 ∨ j = 2 ∨ j = 3 ∨ j = 4 ∨ j = 5 := by omega
    unfold colSize
    rcases h6 with rfl | rfl | rfl | rfl | rfl | rfl <;> simp only [sect] <;> constructor <;> linarith
  have hop : ∀ h < 4, opp h ≠ h ∧ opp h < 4 := by decide
  refine ⟨M', Q, hQ, hG, ?_, ?_⟩
  · intro e he
    obtain ⟨kb, hkb, i, hi, j, hj, rfl⟩ := col_cases (hl ▸ he)
    have hh := (H i hi).1
    obtain ⟨s0, h0, h1, h2⟩ := col_smallest hh hj (V kb hkb i hi j hj) (dims kb hkb i hi j hj)
    obtain ⟨p1, p2⟩ := size (fun m => z.getD (4 * kb + m) 0) (inc kb hkb) j hj
    have lo := low kb hkb
    have hi' := high kb hkb
    obtain ⟨i1, i2, i3, i4⟩ := inc kb hkb
    refine ⟨i, by omega, s0, colSize (fun m => z.getD (4 * kb + m) 0) j, h0, h1, p1, h2, by linarith, fun k hk => ?_⟩
    cases mid_face rt A h H hW hQ kb hkb i hi j hj k hk with
    | inner y hr => exact .inside fun b hb => (hr b hb).1
    | bottom e4 e0 e1 hr =>
      subst e4 e0
      obtain ⟨c1, c2⟩ := col_end (k := 0) hh (V 0 hkb i hi j hj) (dims 0 hkb i hi j hj) (Or.inl ⟨rfl, e1⟩)
      exact .bottom c1 c2 fun b hb => (hr b hb).1
    | top e5 e0 e1 hr =>
      subst e5
      obtain ⟨c1, c2⟩ := col_end (k := 1) hh (V kb hkb i hi j hj) (dims kb hkb i hi j hj) (Or.inr ⟨rfl, e1, hj⟩)
      refine .top c1 (c2.trans ?_) fun b hb => (hr b hb).1
      rw [show 4 * kb + 4 * 1 = z.length - 1 by omega]
    | lat hlat hr =>
      obtain ⟨c1, c2, c3⟩ := col_lateral hh hj (V kb hkb i hi j hj) (dims kb hkb i hi j hj) (inc kb hkb) k hlat
      refine .lateral k hlat.1 ?_ c1 (le_trans ?_ c2) (c3.trans ?_) fun b hb => (hr b hb).1
      · unfold midStep; rw [if_neg hlat.2.1, if_neg hlat.2.2]
      · linarith
      · linarith
    | outer hout hr =>
      have hs1 : midStep (h i) (h i) = some 2 := if_pos rfl
      have hs2 : midStep (h i) (opp (h i)) = some 1 := by
        unfold midStep; rw [if_neg (hop _ hh).1, if_pos rfl]
      have m1 : ∀ kb r, r < 2 → midSlot (h i) R.nel i (h i) (2 * kb + r) = (6 * (i + R.nel * kb) + [1, 4].getD r 0, h i) := by
        intro kb r hr
        unfold midSlot
        rw [if_pos rfl, show (2 * kb + r) / 2 = kb by omega, show (2 * kb + r) % 2 = r by omega]
      have m2 : ∀ kb r, r < 4 → midSlot (h i) R.nel i (opp (h i)) (4 * kb + r) = (6 * (i + R.nel * kb) + [0, 2, 3, 5].getD r 0, opp (h i)) := by
        intro kb r hr
        unfold midSlot
        rw [if_neg (hop _ hh).1, show (4 * kb + r) / 4 = kb by omega, show (4 * kb + r) % 4 = r by omega]
      unfold outerFaces at hout
      simp only [List.mem_cons, Prod.mk.injEq, List.not_mem_nil, or_false] at hout
      rcases hout with ⟨rfl, rfl⟩ | ⟨rfl, rfl⟩ | ⟨rfl, rfl⟩ | ⟨rfl, rfl⟩ | ⟨rfl, rfl⟩ | ⟨rfl, rfl⟩
      · refine .upright (h i) 2 (2 * kb + 0) hh hs1 (by omega) (m1 kb 0 (by omega)).symm ?_
        rw [show 2 * (2 * kb + 0 + 1) = 4 * kb + 2 by ring, show 2 * (2 * kb + 0) = 4 * kb + 0 by ring]
        simp only [colSize, sect]; linarith
      · refine .upright (h i) 2 (2 * kb + 1) hh hs1 (by omega) (m1 kb 1 (by omega)).symm ?_
        rw [show 2 * (2 * kb + 1 + 1) = 4 * kb + 4 by ring, show 2 * (2 * kb + 1) = 4 * kb + 2 by ring]
        simp only [colSize, sect]; linarith
      · refine .upright (opp (h i)) 1 (4 * kb + 0) (hop _ hh).2 hs2 (by omega) (m2 kb 0 (by omega)).symm ?_
        rw [one_mul, one_mul]
        exact le_refl _
      · refine .upright (opp (h i)) 1 (4 * kb + 1) (hop _ hh).2 hs2 (by omega) (m2 kb 1 (by omega)).symm ?_
        rw [one_mul, one_mul]
        exact le_refl _
      · refine .upright (opp (h i)) 1 (4 * kb + 2) (hop _ hh).2 hs2 (by omega) (m2 kb 2 (by omega)).symm ?_
        rw [one_mul, one_mul]
        exact le_refl _
      · refine .upright (opp (h i)) 1 (4 * kb + 3) (hop _ hh).2 hs2 (by omega) (m2 kb 3 (by omega)).symm ?_
        rw [one_mul, one_mul]
        exact le_refl _
  · intro i hi g hg s t hst ht
    have hi : i < R.nel := by omega
    have hh := (H i hi).1
    have typ : ∀ kb < nb, ∀ j < 6, ∀ k, (j, k) ∈ outerFaces (h i) → ∀ b < R.nbc, (Q.bc (6 * (i + R.nel * kb) + j) b k).typ = (R.bc i b k).typ := by
      intro kb hkb j hj k hk b hb
      obtain ⟨M2, Q2, q2, hc⟩ := C85 rt R z l1 l2 f nb A h H
      obtain ⟨rfl, rfl⟩ : M' = M2 ∧ Q = Q2 := by rw [hQ] at q2; simpa using q2
      exact (hc b hb kb hkb i hi).2.2.2.1 (j, k) hk
    unfold midStep at hst
    by_cases hgh : g = h i
    · subst hgh
      rw [if_pos rfl] at hst
      obtain rfl := Option.some.inj hst
      unfold midSlot
      rw [if_pos rfl]
      dsimp only
      have ht2 : t = 2 * (t / 2) + t % 2 := by omega
      have hkb : t / 2 < nb := by omega
      have hr : t % 2 = 0 ∨ t % 2 = 1 := by omega
      rcases hr with hr | hr <;> rw [hr] at ht2 ⊢
      · have U := (col_upright hh (V _ hkb i hi 1 (by omega)) (dims _ hkb i hi 1 (by omega))).1 rfl
        refine ⟨hl ▸ col_lt hkb hi (by decide), by omega, ?_, typ _ hkb 1 (by omega) _ (by simp [outerFaces])⟩
        rw [show 2 * t = 4 * (t / 2) + 0 by omega, show 2 * (t + 1) = 4 * (t / 2) + 2 by omega]
        exact U
      · have U := (col_upright hh (V _ hkb i hi 4 (by omega)) (dims _ hkb i hi 4 (by omega))).2.1 rfl
        refine ⟨hl ▸ col_lt hkb hi (by decide), by omega, ?_, typ _ hkb 4 (by omega) _ (by simp [outerFaces])⟩
        rw [show 2 * t = 4 * (t / 2) + 2 by omega, show 2 * (t + 1) = 4 * (t / 2) + 4 by omega]
        exact U
    · rw [if_neg hgh] at hst
      by_cases hgo : g = opp (h i)
      · subst hgo
        rw [if_pos rfl] at hst
        obtain rfl := Option.some.inj hst
        unfold midSlot
        rw [if_neg hgh]
        dsimp only
        have ht2 : t = 4 * (t / 4) + t % 4 := by omega
        have hkb : t / 4 < nb := by omega
        have hr : t % 4 = 0 ∨ t % 4 = 1 ∨ t % 4 = 2 ∨ t % 4 = 3 := by omega
        rcases hr with hr | hr | hr | hr <;> rw [hr] at ht2 ⊢
        · have U := (col_upright hh (V _ hkb i hi 0 (by omega)) (dims _ hkb i hi 0 (by omega))).2.2.1 rfl
          refine ⟨hl ▸ col_lt hkb hi (by decide), by omega, ?_, typ _ hkb 0 (by omega) _ (by simp [outerFaces])⟩
          rw [show 1 * t = 4 * (t / 4) + 0 by omega, show 1 * (t + 1) = 4 * (t / 4) + 1 by omega]
          exact U
        · have U := (col_upright hh (V _ hkb i hi 2 (by omega)) (dims _ hkb i hi 2 (by omega))).2.2.2.1 rfl
          refine ⟨hl ▸ col_lt hkb hi (by decide), by omega, ?_, typ _ hkb 2 (by omega) _ (by simp [outerFaces])⟩
          rw [show 1 * t = 4 * (t / 4) + 1 by omega, show 1 * (t + 1) = 4 * (t / 4) + 2 by omega]
          exact U
        · have U := (col_upright hh (V _ hkb i hi 3 (by omega)) (dims _ hkb i hi 3 (by omega))).2.2.2.2.1 rfl
          refine ⟨hl ▸ col_lt hkb hi (by decide), by omega, ?_, typ _ hkb 3 (by omega) _ (by simp [outerFaces])⟩
          rw [show 1 * t = 4 * (t / 4) + 2 by omega, show 1 * (t + 1) = 4 * (t / 4) + 3 by omega]
          exact U
        · have U := (col_upright hh (V _ hkb i hi 5 (by omega)) (dims _ hkb i hi 5 (by omega))).2.2.2.2.2 rfl
          refine ⟨hl ▸ col_lt hkb hi (by decide), by omega, ?_, typ _ hkb 5 (by omega) _ (by simp [outerFaces])⟩
          rw [show 1 * t = 4 * (t / 4) + 3 by omega, show 1 * (t + 1) = 4 * (t / 4) + 4 by omega]
          exact U
      · rw [if_neg hgo] at hst
        exact absurd hst (by simp)

end Pymech
