import Verif.Props.RefineSub
import Verif.Props.MidLinks

/-!
# The extruded parts of `extrude_refine`

Used for C109: the connectivity of each extruded part, and where its outer faces are.
-/

set_option linter.unusedSectionVars false
set_option autoImplicit false

namespace Pymech

open Spec

variable {F : Type} [Field F] [LinearOrder F] [IsStrictOrderedRing F] [FloorRing F]

namespace Spec

/-- The point above `p` at height `t`. -/
def at3 (p : F × F) (t : F) : V3 F := ⟨p.1, p.2, t⟩

/-- Square of the distance in the plane. -/
def plane2 (p q : F × F) : F := (q.1 - p.1) ^ 2 + (q.2 - p.2) ^ 2

/-- The larger of the squared lengths of the sides 0 and 2 of a plane element. -/
def wide (el : Elem F) : F :=
  max (plane2 (planePt el (0, 0)) (planePt el (0, 1))) (plane2 (planePt el (1, 0)) (planePt el (1, 1)))

/-- The point at parameter `s` between `a` and `b`. -/
def along (a b : F × F) (s : F) : F × F := (a.1 + s * (b.1 - a.1), a.2 + s * (b.2 - a.2))

/-- The middle of side `g` of a plane element. -/
def sideMid (el : Elem F) (g : Nat) : F × F := along (planePt el (sideCorner g 0)) (planePt el (sideCorner g 1)) (1 / 2)

/-- The mean of the corners of a plane element. -/
def middle (el : Elem F) : F × F :=
  (((planePt el (0, 0)).1 + (planePt el (0, 1)).1 + (planePt el (1, 0)).1 + (planePt el (1, 1)).1) / 4,
    ((planePt el (0, 0)).2 + (planePt el (0, 1)).2 + (planePt el (1, 0)).2 + (planePt el (1, 1)).2) / 4)

/-- The horizontal position of the centre of a face. -/
def xyMean (el : Elem F) (f : Nat) : F × F := (faceMean el f 0, faceMean el f 1)

/-- The face is the rectangle above the side `g` of the plane element, between two heights. -/
def Upright (el : Elem F) (f : Nat) (base : Elem F) (g : Nat) (a b : F) : Prop :=
  let p := planePt base (sideCorner g 0)
  let q := planePt base (sideCorner g 1)
  (faceVerts el f).Perm [at3 p a, at3 q a, at3 p b, at3 q b]

/-- Where a face of an extruded mesh is. The parameters: the plane mesh, the heights and the number of layers; for each side of a plane element the number
of layers between its horizontal edges and the face above it with a given number, if it is divided into rectangles; the centres of the pieces
above a side and of the end faces; the end conditions; the extruded mesh; number and vertical size of the element; and the face. -/
inductive Kind (R : HexaData F) (Z : Nat → F) (N : Nat) (step : Nat → Nat → Option Nat) (slot : Nat → Nat → Nat → Face)
    (pts : Nat → Nat → List (F × F)) (ends : Nat → List (F × F)) (l1 l2 : List Name) (Q : HexaData F) (j : Nat) (l : F) (e f : Nat) : Prop
  | inside : (∀ b < R.nbc, (Q.bc e b f).typ = nE) → Kind R Z N step slot pts ends l1 l2 Q j l e f
  | bottom : xyMean (Q.el e) f ∈ ends j → faceMean (Q.el e) f 2 = Z 0 → (∀ b < R.nbc, (Q.bc e b f).typ = u3 (l1.getD b [])) →
      Kind R Z N step slot pts ends l1 l2 Q j l e f
  | top : xyMean (Q.el e) f ∈ ends j → faceMean (Q.el e) f 2 = Z N → (∀ b < R.nbc, (Q.bc e b f).typ = u3 (l2.getD b [])) →
      Kind R Z N step slot pts ends l1 l2 Q j l e f
  | upright (g s t : Nat) : g < 4 → step j g = some s → s * (t + 1) ≤ N → (e, f) = slot j g t → l ≤ Z (s * (t + 1)) - Z (s * t) →
      Kind R Z N step slot pts ends l1 l2 Q j l e f
  | lateral (g : Nat) : g < 4 → step j g = none → xyMean (Q.el e) f ∈ pts j g → Z 0 + l / 4 ≤ faceMean (Q.el e) f 2 →
      faceMean (Q.el e) f 2 ≤ Z N - l / 4 → (∀ b < R.nbc, (Q.bc e b f).typ = (R.bc j b g).typ) → Kind R Z N step slot pts ends l1 l2 Q j l e f

/-- Description of an extruded mesh; for the parameters see `Kind`. -/
structure Block (R : HexaData F) (Z : Nat → F) (N : Nat) (step : Nat → Nat → Option Nat) (slot : Nat → Nat → Nat → Face)
    (pts : Nat → Nat → List (F × F)) (ends : Nat → List (F × F)) (l1 l2 : List Name) (Q : HexaData F) : Prop where
  good : Good SharedFace 3 R.nbc 2 Q
  cell : ∀ e < Q.elem.length, ∃ j < R.elem.length, ∃ s0 l, (Q.el e).smallestEdgeSq = .ok s0 ∧ s0 ≤ wide (R.el j) ∧ 0 < l ∧ s0 ≤ l ^ 2 ∧
    l ≤ Z N - Z 0 ∧ ∀ f < 6, Kind R Z N step slot pts ends l1 l2 Q j l e f
  slots : ∀ j < R.elem.length, ∀ g < 4, ∀ s t, step j g = some s → s * (t + 1) ≤ N → (slot j g t).1 < Q.elem.length ∧ (slot j g t).2 < 6 ∧
    Upright (Q.el (slot j g t).1) (slot j g t).2 (R.el j) g (Z (s * t)) (Z (s * (t + 1))) ∧
    ∀ b < R.nbc, (Q.bc (slot j g t).1 b (slot j g t).2).typ = (R.bc j b g).typ

end Spec

theorem sharedFace_pos : PosOnly (F := F) SharedFace := by
  intro a a' b b' f g ha hb
  unfold SharedFace faceVerts faceCoord Spec.corner
  rw [ha, hb]

/-! ### Geometry of an element with eight vertices -/

theorem faceVerts_side {el : Elem F} (d : el.pos.lz = 2 ∧ el.pos.ly = 2 ∧ el.pos.lx = 2) (f : Nat) (hf : f < 4) :
    (faceVerts el f).Perm [vert el 0 (sideCorner f 0), vert el 0 (sideCorner f 1), vert el 1 (sideCorner f 0), vert el 1 (sideCorner f 1)] := by
  unfold faceVerts faceCoord corner
  rw [d.1, d.2.1, d.2.2]
  have h4 : f = 0 ∨ f = 1 ∨ f = 2 ∨ f = 3 := by omega
  rcases h4 with rfl | rfl | rfl | rfl <;>
    first | exact List.Perm.refl _ | exact perm_t _ _ _ _

theorem faceVerts_end {el : Elem F} (d : el.pos.lz = 2 ∧ el.pos.ly = 2 ∧ el.pos.lx = 2) (k : Nat) (hk : k < 2) :
    (faceVerts el (4 + k)).Perm [vert el k (0, 0), vert el k (0, 1), vert el k (1, 0), vert el k (1, 1)] := by
  unfold faceVerts faceCoord corner
  rw [d.1, d.2.1, d.2.2]
  have h4 : k = 0 ∨ k = 1 := by omega
  rcases h4 with rfl | rfl <;>
    first | exact List.Perm.refl _ | exact perm_t _ _ _ _

theorem faceMean_perm {el : Elem F} {f : Nat} {a b c d : V3 F} (h : (faceVerts el f).Perm [a, b, c, d]) :
    faceMean el f 0 = (a.x + b.x + c.x + d.x) / 4 ∧ faceMean el f 1 = (a.y + b.y + c.y + d.y) / 4 ∧ faceMean el f 2 = (a.z + b.z + c.z + d.z) / 4 := by
  have hx := (List.Perm.map V3.x h).sum_eq
  have hy := (List.Perm.map V3.y h).sum_eq
  have hz := (List.Perm.map V3.z h).sum_eq
  unfold faceVerts at hx hy hz
  simp only [List.map_cons, List.map_nil, List.sum_cons, List.sum_nil] at hx hy hz
  unfold faceMean
  refine ⟨?_, ?_, ?_⟩
  · rw [← show a.x + (b.x + (c.x + (d.x + 0))) = a.x + b.x + c.x + d.x by ring, ← hx]; ring
  · rw [← show a.y + (b.y + (c.y + (d.y + 0))) = a.y + b.y + c.y + d.y by ring, ← hy]; ring
  · rw [← show a.z + (b.z + (c.z + (d.z + 0))) = a.z + b.z + c.z + d.z by ring, ← hz]; ring

/-- Some of the distances of vertices the smallest edge is compared with. -/
theorem smallest_le {el : Elem F} (d : el.pos.lz = 2 ∧ el.pos.ly = 2 ∧ el.pos.lx = 2) : ∃ s0, el.smallestEdgeSq = .ok s0 ∧
    (∀ kz < 2, ∀ ky < 2, s0 ≤ distSq (vert el kz (ky, 0)) (vert el kz (ky, 1))) ∧
    ∀ ky < 2, ∀ kx < 2, s0 ≤ distSq (vert el 0 (ky, kx)) (vert el 1 (ky, kx)) := by
  unfold Elem.smallestEdgeSq
  rw [d.1, d.2.1, d.2.2, if_neg (by omega)]
  simp only
  rw [if_pos (by omega)]
  refine ⟨_, rfl, ?_, ?_⟩
  · intro kz hkz ky hky
    have hz : kz = 0 ∨ kz = 1 := by omega
    have hy : ky = 0 ∨ ky = 1 := by omega
    rcases hz with rfl | rfl <;> rcases hy with rfl | rfl
    · exact (minList_le _ _).1
    all_goals exact (minList_le _ _).2 _ (by simp [vert, point, Elem.pt])
  · intro ky hky kx hkx
    have hz : kx = 0 ∨ kx = 1 := by omega
    have hy : ky = 0 ∨ ky = 1 := by omega
    rcases hz with rfl | rfl <;> rcases hy with rfl | rfl
    all_goals exact (minList_le _ _).2 _ (by simp [vert, point, Elem.pt])

/-! ### The part extruded by `extrude` -/

theorem increasing {z : List F} (hz : z.Pairwise (· < ·)) {a b : Nat} (h : a < b) (hb : b < z.length) : z.getD a 0 < z.getD b 0 := by
  rw [List.getD_eq_getElem?_getD, List.getD_eq_getElem?_getD, List.getElem?_eq_getElem (by omega), List.getElem?_eq_getElem hb]
  exact List.pairwise_iff_getElem.1 hz a b (by omega) hb h

theorem increasing_le {z : List F} (hz : z.Pairwise (· < ·)) {a b : Nat} (h : a ≤ b) (hb : b < z.length) : z.getD a 0 ≤ z.getD b 0 := by
  rcases Nat.lt_or_eq_of_le h with h | rfl
  · exact (increasing hz h hb).le
  · exact le_refl _

/-- The mesh above a plane mesh, described. -/
theorem extrude_block {R : HexaData F} {z : List F} {l1 l2 : List Name} (A : ExtrudeArgs R z (some l1) (some l2))
    (hE : ∀ b < R.nbc, l1.getD b [] ≠ nE ∧ l2.getD b [] ≠ nE) (hP : ∀ b < R.nbc, l1.getD b [] = nP ↔ l1.getD 0 [] = nP) (hb0 : 0 < R.nbc)
    (hv : Valid R (SameEdge R)) (hu : Uniform R) (hs : NoSelf R) (hz : z.Pairwise (· < ·)) :
    ∃ Q, extrude R z (some l1) (some l2) true = .ok Q ∧
      Block R (fun t => z.getD t 0) (z.length - 1) (fun _ _ => some 1) (fun j g t => (j + R.nel * t, g)) (fun j g => [sideMid (R.el j) g])
        (fun j => [middle (R.el j)]) l1 l2 Q := by
  obtain ⟨Q, q1, qw, qg, qv⟩ := extrude_valid R z (some l1) (some l2) A hE (SameEdge R) hv
  obtain ⟨Q', q1', hrec⟩ := extrude_records A
  obtain ⟨Q2, q2, hd, hnel, hlen, hnbc, hlr, -, hgeo⟩ := extrude_geometry R z (some l1) (some l2) A true
  obtain rfl : Q = Q' := by rw [q1] at q1'; simpa using q1'
  obtain rfl : Q = Q2 := by rw [q1] at q2; simpa using q2
  clear q1' q2
  have hn := A.wf.nel
  have hz2 := A.z
  have hP2 : ∀ b < R.nbc, l2.getD b [] = nP ↔ l2.getD 0 [] = nP := by
    intro b hb
    have a := A.both b hb
    have c := A.both 0 hb0
    simp only [sideBC] at a c
    rw [← a, ← c]
    exact hP b hb
  have helt : ∀ e < Q.elem.length, ∃ k, k + 1 < z.length ∧ ∃ i < R.nel, e = i + R.nel * k := by
    intro e he
    obtain ⟨i, hi, k, hk, rfl⟩ := elnum_cases (show e < R.nel * (z.length - 1) by rw [← hnel, ← hlen]; exact he)
    exact ⟨k, by omega, i, hi, rfl⟩
  have hlt : ∀ k, k + 1 < z.length → ∀ i < R.nel, i + R.nel * k < Q.elem.length := by
    intro k hk i hi; rw [hlen, hnel]; exact elnum_lt hi (by omega)
  have dims : ∀ k, k + 1 < z.length → ∀ i < R.nel, (Q.el (i + R.nel * k)).pos.lz = 2 ∧ (Q.el (i + R.nel * k)).pos.ly = 2 ∧
      (Q.el (i + R.nel * k)).pos.lx = 2 := fun k hk i hi => (hgeo k hk i hi).1.2
  have verts : ∀ k, k + 1 < z.length → ∀ i < R.nel, ∀ kz < 2, ∀ ky < 2, ∀ kx < 2,
      vert (Q.el (i + R.nel * k)) kz (ky, kx) = at3 (planePt (R.el i) (ky, kx)) (z.getD (k + kz) 0) := by
    intro k hk i hi kz hkz ky hky kx hkx
    obtain ⟨x, y, t⟩ := (hgeo k hk i hi).2.1 kz hkz ky hky kx hkx
    have t' : (Q.el (i + R.nel * k)).pos.dat 2 kz ky kx = z.getD (k + kz) 0 := by
      rw [List.getD_eq_getElem?_getD, ← t]; rfl
    unfold vert point at3 planePt
    dsimp only
    rw [x, y, t']
  have hsc : ∀ g < 4, ∀ q < 2, (sideCorner g q).1 < 2 ∧ (sideCorner g q).2 < 2 := by decide
  have upr : ∀ k, k + 1 < z.length → ∀ i < R.nel, ∀ g < 4, Upright (Q.el (i + R.nel * k)) g (R.el i) g (z.getD k 0) (z.getD (k + 1) 0) := by
    intro k hk i hi g hg
    have h := faceVerts_side (dims k hk i hi) g hg
    obtain ⟨a1, a2⟩ := hsc g hg 0 (by omega)
    obtain ⟨b1, b2⟩ := hsc g hg 1 (by omega)
    rw [verts k hk i hi 0 (by omega) _ a1 _ a2, verts k hk i hi 0 (by omega) _ b1 _ b2, verts k hk i hi 1 (by omega) _ a1 _ a2,
      verts k hk i hi 1 (by omega) _ b1 _ b2] at h
    exact h
  have fin : ∀ k, k + 1 < z.length → ∀ i < R.nel, ∀ q < 2, (faceVerts (Q.el (i + R.nel * k)) (4 + q)).Perm
      [at3 (planePt (R.el i) (0, 0)) (z.getD (k + q) 0), at3 (planePt (R.el i) (0, 1)) (z.getD (k + q) 0),
        at3 (planePt (R.el i) (1, 0)) (z.getD (k + q) 0), at3 (planePt (R.el i) (1, 1)) (z.getD (k + q) 0)] := by
    intro k hk i hi q hq
    have h := faceVerts_end (dims k hk i hi) q hq
    rw [verts k hk i hi q hq 0 (by omega) 0 (by omega), verts k hk i hi q hq 0 (by omega) 1 (by omega), verts k hk i hi q hq 1 (by omega) 0 (by omega),
      verts k hk i hi q hq 1 (by omega) 1 (by omega)] at h
    exact h
  have fin' : ∀ k, k + 1 < z.length → ∀ i < R.nel, ∀ q < 2, xyMean (Q.el (i + R.nel * k)) (4 + q) = middle (R.el i) ∧
      faceMean (Q.el (i + R.nel * k)) (4 + q) 2 = z.getD (k + q) 0 := by
    intro k hk i hi q hq
    obtain ⟨h0, h1, h2⟩ := faceMean_perm (fin k hk i hi q hq)
    refine ⟨Prod.ext h0 h1, h2.trans ?_⟩
    simp only [at3]
    ring
  refine ⟨Q, q1, ⟨qw, qg, hd, hnbc, by rw [hlr], ?_, ?_, ?_⟩, ?_, ?_⟩
  · -- linked faces have the same vertices
    intro b hb x hx hx2 hl
    obtain ⟨y, y1, y2, y3, y4, y5, y6⟩ := qv b hb x hx hx2 hl
    refine ⟨y, y1, y2, y3, y4, y5, fun he => ?_⟩
    rcases y6 he with ⟨k, x0, y0, hx0, hy0, rfl, rfl, hx4, hy4, hC⟩ | ⟨e5, e4, e1⟩ | ⟨e4, e5, e1⟩
    · dsimp only at hx
      have hk : k + 1 < z.length := by
        by_contra h0
        rw [hlen, hnel] at hx
        have : R.nel * (z.length - 1) ≤ R.nel * k := Nat.mul_le_mul_left _ (by omega)
        omega
      have u1 := upr k hk x0.1 hx0 x0.2 hx4
      have u2 := upr k hk y0.1 hy0 y0.2 hy4
      unfold Upright at u1 u2
      unfold SameEdge at hC
      show (faceVerts _ _).Perm (faceVerts _ _)
      refine u1.trans (List.Perm.trans ?_ u2.symm)
      rcases List.perm_pair.1 hC with h | h <;> obtain ⟨h1, h2, -⟩ : _ ∧ _ ∧ True := by simpa using h
      · rw [h1, h2]
      · rw [h1, h2]; exact perm_1 _ _ _ _
    · obtain ⟨k, hk, i, hi, e⟩ := helt x.1 hx
      obtain ⟨k', hk', i', hi', e'⟩ := helt y.1 y1
      have : y.1 = i + R.nel * (k + 1) := by rw [e1, e, Nat.mul_succ]; omega
      have hk1 : k + 1 + 1 < z.length := by
        by_contra h0
        rw [this, hlen, hnel] at y1
        have : R.nel * (z.length - 1) ≤ R.nel * (k + 1) := Nat.mul_le_mul_left _ (by omega)
        omega
      have u1 := fin k hk i hi 1 (by omega)
      have u2 := fin (k + 1) hk1 i hi 0 (by omega)
      rw [← e] at u1
      rw [← this] at u2
      show (faceVerts _ _).Perm (faceVerts _ _)
      rw [e5, e4]
      exact u1.trans u2.symm
    · obtain ⟨k, hk, i, hi, e⟩ := helt y.1 y1
      have : x.1 = i + R.nel * (k + 1) := by rw [e1, e, Nat.mul_succ]; omega
      have hk1 : k + 1 + 1 < z.length := by
        by_contra h0
        rw [this, hlen, hnel] at hx
        have : R.nel * (z.length - 1) ≤ R.nel * (k + 1) := Nat.mul_le_mul_left _ (by omega)
        omega
      have u1 := fin k hk i hi 1 (by omega)
      have u2 := fin (k + 1) hk1 i hi 0 (by omega)
      rw [← e] at u1
      rw [← this] at u2
      show (faceVerts _ _).Perm (faceVerts _ _)
      rw [e5, e4]
      exact u2.trans u1.symm
  · -- all fields have the same links
    intro b hb x hx hx2
    rw [hnbc] at hb
    rw [hd] at hx2
    obtain ⟨x1, f⟩ := x
    obtain ⟨k, hk, i, hi, rfl⟩ := helt x1 hx
    dsimp only at hx2 ⊢
    obtain ⟨r0, r1, r2, r3, r4⟩ := hrec k hk i hi b hb
    obtain ⟨s0, s1, s2, s3, s4⟩ := hrec k hk i hi 0 hb0
    have hf' : f < 4 ∨ f = 4 ∨ f = 5 := by omega
    have nEP : nE ≠ nP := by decide
    rcases hf' with hf4 | rfl | rfl
    · obtain ⟨u1, u2, u3'⟩ := hu b hb (i, f) (by dsimp only; omega) (by rw [A.ndim]; exact hf4)
      dsimp only at u1 u2 u3'
      rw [(r0 f hf4).1, (s0 f hf4).1]
      refine ⟨u1, u2, fun hl y hy => ?_⟩
      have hl0 : IsLink (R.bc i 0 f) := by unfold IsLink at hl ⊢; rw [(s0 f hf4).1] at hl; exact hl
      have hlb : IsLink (R.bc i b f) := by unfold IsLink at hl0 ⊢; rw [u1, u2]; exact hl0
      obtain ⟨w, -, -, w3, -⟩ := hv 0 hb0 (i, f) (by dsimp only; omega) (by rw [A.ndim]; exact hf4) hl0
      dsimp only at w3
      obtain rfl := points_unique hy ((s0 f hf4).2 w hl0 w3)
      exact (r0 f hf4).2 w hlb (u3' hl0 w w3)
    · rcases Nat.eq_zero_or_pos k with rfl | hk0
      · obtain ⟨t1, t2⟩ := r1 rfl
        obtain ⟨v1, v2⟩ := s1 rfl
        simp only [sideBC] at t1 t2 v1 v2
        have e1 : (Q.bc (i + R.nel * 0) b 4).typ = nP ↔ (Q.bc (i + R.nel * 0) 0 4).typ = nP := by
          rw [t1, v1]; exact (u3_single _ 'P').trans ((hP b hb).trans (u3_single _ 'P').symm)
        have e2 : ∀ b < R.nbc, u3 (l1.getD b []) ≠ nE := fun b hb h => (hE b hb).1 ((u3_single _ 'E').1 h)
        refine ⟨⟨fun h => ?_, fun h => ?_⟩, e1, fun hl y hy => ?_⟩
        · rw [t1] at h; exact absurd h (e2 b hb)
        · rw [v1] at h; exact absurd h (e2 0 hb0)
        · have h0 : (Q.bc (i + R.nel * 0) 0 4).typ = nP := by
            rcases hl with h | h
            · rw [v1] at h; exact absurd h (e2 0 hb0)
            · exact h
          have p0 : l1.getD 0 [] = nP := by rw [v1] at h0; exact (u3_single _ 'P').1 h0
          obtain rfl := points_unique hy (v2 p0)
          exact t2 ((hP b hb).2 p0)
      · obtain ⟨t1, t2⟩ := r2 hk0
        obtain ⟨v1, v2⟩ := s2 hk0
        rw [t1, v1]
        exact ⟨Iff.rfl, Iff.rfl, fun _ y hy => by obtain rfl := points_unique hy v2; exact t2⟩
    · by_cases hk2 : k + 2 = z.length
      · obtain ⟨t1, t2⟩ := r3 hk2
        obtain ⟨v1, v2⟩ := s3 hk2
        simp only [sideBC] at t1 t2 v1 v2
        have e1 : (Q.bc (i + R.nel * k) b 5).typ = nP ↔ (Q.bc (i + R.nel * k) 0 5).typ = nP := by
          rw [t1, v1]; exact (u3_single _ 'P').trans ((hP2 b hb).trans (u3_single _ 'P').symm)
        have e2 : ∀ b < R.nbc, u3 (l2.getD b []) ≠ nE := fun b hb h => (hE b hb).2 ((u3_single _ 'E').1 h)
        refine ⟨⟨fun h => ?_, fun h => ?_⟩, e1, fun hl y hy => ?_⟩
        · rw [t1] at h; exact absurd h (e2 b hb)
        · rw [v1] at h; exact absurd h (e2 0 hb0)
        · have h0 : (Q.bc (i + R.nel * k) 0 5).typ = nP := by
            rcases hl with h | h
            · rw [v1] at h; exact absurd h (e2 0 hb0)
            · exact h
          have p0 : l2.getD 0 [] = nP := by rw [v1] at h0; exact (u3_single _ 'P').1 h0
          obtain rfl := points_unique hy (v2 p0)
          exact t2 ((hP2 b hb).2 p0)
      · obtain ⟨t1, t2⟩ := r4 (by omega)
        obtain ⟨v1, v2⟩ := s4 (by omega)
        rw [t1, v1]
        exact ⟨Iff.rfl, Iff.rfl, fun _ y hy => by obtain rfl := points_unique hy v2; exact t2⟩
  · -- no face is its own partner
    intro b hb x hx hx2 hp hself
    rw [hnbc] at hb
    rw [hd] at hx2
    obtain ⟨x1, f⟩ := x
    obtain ⟨k, hk, i, hi, rfl⟩ := helt x1 hx
    dsimp only at hx2 hp hself
    obtain ⟨r0, r1, r2, r3, r4⟩ := hrec k hk i hi b hb
    have hf' : f < 4 ∨ f = 4 ∨ f = 5 := by omega
    have nEP : nE ≠ nP := by decide
    rcases hf' with hf4 | rfl | rfl
    · rw [(r0 f hf4).1] at hp
      obtain ⟨w, -, -, w3, -⟩ := hv b hb (i, f) (by dsimp only; omega) (by rw [A.ndim]; exact hf4) (Or.inr hp)
      dsimp only at w3
      have h1 := points_unique hself ((r0 f hf4).2 w (Or.inr hp) w3)
      obtain ⟨h1, h2⟩ := Prod.ext_iff.1 h1
      dsimp only at h1 h2
      have hw : w = (i, f) := Prod.ext (by dsimp only; omega) h2.symm
      rw [hw] at w3
      exact hs b hb (i, f) (by dsimp only; omega) (by rw [A.ndim]; exact hf4) hp w3
    · rcases Nat.eq_zero_or_pos k with rfl | hk0
      · obtain ⟨t1, t2⟩ := r1 rfl
        rw [t1] at hp
        have h1 := points_unique hself (t2 ((u3_single _ 'P').1 hp))
        have h2 := (Prod.ext_iff.1 h1).2
        dsimp only at h2
        omega
      · rw [(r2 hk0).1] at hp; exact absurd hp nEP
    · by_cases hk2 : k + 2 = z.length
      · obtain ⟨t1, t2⟩ := r3 hk2
        rw [t1] at hp
        have h1 := points_unique hself (t2 ((u3_single _ 'P').1 hp))
        have h2 := (Prod.ext_iff.1 h1).2
        dsimp only at h2
        omega
      · rw [(r4 (by omega)).1] at hp; exact absurd hp nEP
  · -- the faces of an element
    intro e he
    obtain ⟨k, hk, i, hi, rfl⟩ := helt e he
    obtain ⟨s0, h0, h1, h2⟩ := smallest_le (dims k hk i hi)
    have hlz : z.getD k 0 < z.getD (k + 1) 0 := increasing hz (by omega) hk
    refine ⟨i, by omega, s0, z.getD (k + 1) 0 - z.getD k 0, h0, ?_, sub_pos.2 hlz, ?_, ?_, ?_⟩
    · have := h1 0 (by omega) 0 (by omega)
      rw [verts k hk i hi 0 (by omega) 0 (by omega) 0 (by omega), verts k hk i hi 0 (by omega) 0 (by omega) 1 (by omega)] at this
      refine this.trans (le_trans (le_of_eq ?_) (le_max_left _ _))
      unfold distSq plane2 at3
      ring
    · have := h2 0 (by omega) 0 (by omega)
      rw [verts k hk i hi 0 (by omega) 0 (by omega) 0 (by omega), verts k hk i hi 1 (by omega) 0 (by omega) 0 (by omega)] at this
      refine this.trans (le_of_eq ?_)
      unfold distSq at3
      simp only [Nat.add_zero]
      ring
    · have a := increasing_le hz (show k + 1 ≤ z.length - 1 by omega) (by omega)
      have c := increasing_le hz (show 0 ≤ k by omega) (by omega)
      linarith
    · intro f hf
      have hf' : f < 4 ∨ f = 4 ∨ f = 5 := by omega
      rcases hf' with hf4 | rfl | rfl
      · refine .upright f 1 k hf4 rfl (by omega) rfl ?_
        rw [one_mul, one_mul]
      · rcases Nat.eq_zero_or_pos k with rfl | hk0
        · obtain ⟨c1, c2⟩ := fin' 0 hk i hi 0 (by omega)
          refine .bottom (by rw [c1]; simp) c2 fun b hb => ?_
          exact ((hrec 0 hk i hi b hb).2.1 rfl).1
        · exact .inside fun b hb => ((hrec k hk i hi b hb).2.2.1 hk0).1
      · by_cases hk2 : k + 2 = z.length
        · obtain ⟨c1, c2⟩ := fin' k hk i hi 1 (by omega)
          refine .top (by rw [c1]; simp) (by rw [c2, show z.length - 1 = k + 1 by omega]) fun b hb => ?_
          exact ((hrec k hk i hi b hb).2.2.2.1 hk2).1
        · exact .inside fun b hb => ((hrec k hk i hi b hb).2.2.2.2 (by omega)).1
  · intro j hj g hg s t hst ht
    obtain rfl : s = 1 := by simpa using hst.symm
    rw [one_mul, one_mul] at *
    dsimp only
    exact ⟨hlt t (by omega) j (by omega), by omega, upr t (by omega) j (by omega) g hg,
      fun b hb => ((hrec t (by omega) j (by omega) b hb).1 g hg).1⟩

end Pymech
