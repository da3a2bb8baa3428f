import Verif.Props.Mid

/-!
# `extrude_mid`: geometry, C74 and C84
-/

set_option linter.unusedSectionVars false
set_option autoImplicit false

namespace Pymech

open Spec

variable {F : Type} [Field F] [LinearOrder F] [IsStrictOrderedRing F] [FloorRing F]

namespace Spec

/-- The four vertices of a face. -/
def faceVerts (el : Elem F) (f : Nat) : List (V3 F) :=
  let p (a b : Bool) : V3 F := ⟨faceCoord el f a b 0, faceCoord el f a b 1, faceCoord el f a b 2⟩
  [p false false, p false true, p true false, p true true]

/-- Two faces have the same four vertices. -/
def SharedFace (A : Elem F) (fa : Nat) (B : Elem F) (fb : Nat) : Prop := (faceVerts A fa).Perm (faceVerts B fb)

theorem SharedFace.symm {A B : Elem F} {fa fb : Nat} (h : SharedFace A fa B fb) : SharedFace B fb A fa := List.Perm.symm h

/-- The side opposite to side `h`. -/
def opp (h : Nat) : Nat := (h + 2) % 4

/-- The pairs of faces inside a column of six elements that coincide, when side `h` is the high one: `((element, face), (element, face))`
(the figure in the documentation of `extrude_mid`). -/
def innerPairs (h : Nat) : List (Face × Face) :=
  [((0, 5), (2, 4)), ((2, 5), (3, 4)), ((3, 5), (5, 4)), ((0, h), (1, opp h)), ((5, h), (4, opp h)), ((1, 5), (2, h)), ((4, 4), (3, h))]

/-- The pairs between a column and the next one above it. -/
def nextPairs : List (Face × Face) := [((5, 5), (0, 4)), ((4, 5), (1, 4))]

end Spec

section
variable {α : Type} (a b c d : α)

theorem perm_t : [a, b, c, d].Perm [a, c, b, d] := .cons a (.swap c b [d])
theorem perm_1 : [a, b, c, d].Perm [b, a, d, c] := (List.Perm.swap b a [c, d]).trans (.cons b (.cons a (.swap d c [])))
theorem perm_2 : [a, b, c, d].Perm [c, d, a, b] := (List.perm_append_comm (l₁ := [a, b]) (l₂ := [c, d]))
theorem perm_3 : [a, b, c, d].Perm [d, c, b, a] := (perm_2 a b c d).trans (perm_1 c d a b)
theorem perm_4 : [a, b, c, d].Perm [b, d, a, c] := (perm_1 a b c d).trans (perm_t b a d c)
theorem perm_5 : [a, b, c, d].Perm [c, a, d, b] := (perm_2 a b c d).trans (perm_t c d a b)
end

theorem inner_shared (plo pmid phi : Nat → V3 F) (z : Nat → F) (E : Nat → Elem F) (h : Nat) (hh : h < 4)
    (hE : ∀ j < 6, (E j).pos = midPos (split4 h) plo pmid phi z j) : ∀ p ∈ innerPairs h, SharedFace (E p.1.1) p.1.2 (E p.2.1) p.2.2 := by
  have : h = 0 ∨ h = 1 ∨ h = 2 ∨ h = 3 := by omega
  unfold innerPairs
  simp only [List.forall_mem_cons, List.not_mem_nil, false_implies, implies_true, and_true]
  unfold SharedFace faceVerts faceCoord corner
  rw [hE 0 (by omega), hE 1 (by omega), hE 2 (by omega), hE 3 (by omega), hE 4 (by omega), hE 5 (by omega)]
  rcases this with rfl | rfl | rfl | rfl <;> refine ⟨?_, ?_, ?_, ?_, ?_, ?_, ?_⟩ <;>
    first | exact List.Perm.refl _ | exact perm_t _ _ _ _ | exact perm_1 _ _ _ _ | exact perm_2 _ _ _ _ | exact perm_3 _ _ _ _ | exact perm_4 _ _ _ _ | exact perm_5 _ _ _ _

theorem next_shared (plo pmid phi : Nat → V3 F) (z z' : Nat → F) (E E' : Nat → Elem F) (h : Nat) (hh : h < 4) (hz : z' 0 = z 4)
    (hE : ∀ j < 6, (E j).pos = midPos (split4 h) plo pmid phi z j) (hE' : ∀ j < 6, (E' j).pos = midPos (split4 h) plo pmid phi z' j) :
    ∀ p ∈ nextPairs, SharedFace (E p.1.1) p.1.2 (E' p.2.1) p.2.2 := by
  have : h = 0 ∨ h = 1 ∨ h = 2 ∨ h = 3 := by omega
  unfold nextPairs
  simp only [List.forall_mem_cons, List.not_mem_nil, false_implies, implies_true, and_true]
  unfold SharedFace faceVerts faceCoord corner
  rw [hE 5 (by omega), hE 4 (by omega), hE' 0 (by omega), hE' 1 (by omega)]
  have e : ∀ (s : Bool), midZ z 5 1 s = midZ z' 0 0 s ∧ midZ z 4 1 s = midZ z' 1 0 s := by
    intro s; simp [midZ, hz]
  rcases this with rfl | rfl | rfl | rfl <;> simp [midPos, midPlane, e]

/-- The positions of the six elements of a column. -/
theorem MidDesc.pos {rt : F → F} {f : F → F → F} {ib : Bool} {z : List F} {l1 l2 : List Name} {nb : Nat} {M R : HexaData F} {kb i : Nat}
    (D : MidDesc rt f ib z l1 l2 nb M R kb i) (hc : HasCorners (M.el i)) {h : Nat} (H : HighSide f (M.el i) h) :
    ∃ pm : Nat → V3 F, (∀ j < 6, (R.el (6 * (i + M.nel * kb) + j)).pos =
        midPos (split4 h) (loPt (split4 h) (M.el i)) pm (hiPt (split4 h) (M.el i)) (fun j => z.getD (4 * kb + j) 0) j) ∧
      ∀ q < 2, (M.el i).ccurv ((split4 h).lat q) ≠ ['C'] → pm q = midVal rt (M.el i) ((split4 h).lat q) := by
  obtain ⟨l, base, E, base', ⟨a1, -⟩, a2, -, a4, a5⟩ := D
  obtain ⟨l', c1, c2⟩ := classify_high hc H
  obtain rfl : l = l' := by rw [a2] at c1; simpa using c1
  rw [c2] at a4
  refine ⟨pair (midVal rt base ((split4 h).lat 0)) (midVal rt base ((split4 h).lat 1)), fun j hj => ?_, fun q hq hC => ?_⟩
  · rw [a5 j hj]
    show (E j).pos = _
    rw [a4.pos j]
    have e1 : loPt (split4 h) base = loPt (split4 h) (M.el i) := by unfold loPt Elem.pt; rw [a1.pos]
    have e2 : hiPt (split4 h) base = hiPt (split4 h) (M.el i) := by unfold hiPt Elem.pt; rw [a1.pos]
    rw [e1, e2]
  · have : q = 0 ∨ q = 1 := by omega
    rcases this with rfl | rfl <;> exact midVal_congr rt a1 _ (a1.keep _ hC)

/-! ### C74: shared faces -/

/-- **C74**, inside a block: in each column the faces of the six elements that meet according to the figure have the same four vertices. -/
theorem C74_inner (rt : F → F) (M : HexaData F) (z : List F) (l1 l2 : List Name) (f : F → F → F) (nb : Nat) (A : MidArgs M z l1 l2 f nb)
    (ib : Bool) (h : Nat → Nat) (H : ∀ i < M.nel, HighSide f (M.el i) (h i)) :
    ∃ M' R, extrudeMid rt M z l1 l2 f ib = .ok (M', R) ∧ ∀ kb < nb, ∀ i < M.nel, ∀ p ∈ innerPairs (h i),
      SharedFace (R.el (6 * (i + M.nel * kb) + p.1.1)) p.1.2 (R.el (6 * (i + M.nel * kb) + p.2.1)) p.2.2 := by
  obtain ⟨M', R, h1, -, -, -, -, h5⟩ := extrudeMid_ok rt A ib
  refine ⟨M', R, h1, fun kb hkb i hi => ?_⟩
  obtain ⟨pm, g1, -⟩ := (h5 kb hkb i hi).pos (A.corners i hi) (H i hi)
  exact inner_shared _ _ _ _ (fun j => R.el (6 * (i + M.nel * kb) + j)) (h i) (H i hi).1 g1

/-- **C74**, between blocks: if no edge is an arc, the top of a block and the bottom of the next one have the same vertices. -/
theorem C74_next (rt : F → F) (M : HexaData F) (z : List F) (l1 l2 : List Name) (f : F → F → F) (nb : Nat) (A : MidArgs M z l1 l2 f nb)
    (ib : Bool) (h : Nat → Nat) (H : ∀ i < M.nel, HighSide f (M.el i) (h i)) (hC : ∀ i < M.nel, ∀ e < 4, (M.el i).ccurv e ≠ ['C']) :
    ∃ M' R, extrudeMid rt M z l1 l2 f ib = .ok (M', R) ∧ ∀ kb, kb + 1 < nb → ∀ i < M.nel, ∀ p ∈ nextPairs,
      SharedFace (R.el (6 * (i + M.nel * kb) + p.1.1)) p.1.2 (R.el (6 * (i + M.nel * (kb + 1)) + p.2.1)) p.2.2 := by
  obtain ⟨M', R, h1, -, -, -, -, h5⟩ := extrudeMid_ok rt A ib
  refine ⟨M', R, h1, fun kb hkb i hi => ?_⟩
  obtain ⟨pm, g1, g2⟩ := (h5 kb (by omega) i hi).pos (A.corners i hi) (H i hi)
  obtain ⟨pm', g1', g2'⟩ := (h5 (kb + 1) hkb i hi).pos (A.corners i hi) (H i hi)
  have hl : ∀ q < 2, (split4 (h i)).lat q < 4 := by
    have : ∀ h < 4, ∀ q < 2, (split4 h).lat q < 4 := by decide
    exact this _ (H i hi).1
  have e : ∀ q < 2, pm' q = pm q := fun q hq => by rw [g2 q hq (hC i hi _ (hl q hq)), g2' q hq (hC i hi _ (hl q hq))]
  refine next_shared (loPt (split4 (h i)) (M.el i)) pm (hiPt (split4 (h i)) (M.el i)) (fun j => z.getD (4 * kb + j) 0)
    (fun j => z.getD (4 * (kb + 1) + j) 0) (fun j => R.el (6 * (i + M.nel * kb) + j))
    (fun j => R.el (6 * (i + M.nel * (kb + 1)) + j)) (h i) (H i hi).1 ?_ g1 ?_
  · show z.getD (4 * (kb + 1) + 0) 0 = z.getD (4 * kb + 4) 0
    rw [show 4 * (kb + 1) + 0 = 4 * kb + 4 by ring]
  · intro j hj
    rw [g1' j hj]
    unfold midPos
    congr 1
    funext d kz ky kx
    have hs : ((split4 (h i)).side (ky, kx)).2 < 2 := by
      unfold Split.side; split_ifs <;> simp
    have : midPlane (loPt (split4 (h i)) (M.el i)) pm' (hiPt (split4 (h i)) (M.el i)) j kz ((split4 (h i)).side (ky, kx)) =
        midPlane (loPt (split4 (h i)) (M.el i)) pm (hiPt (split4 (h i)) (M.el i)) j kz ((split4 (h i)).side (ky, kx)) := by
      unfold midPlane; rw [e _ hs]
    dsimp only
    rw [this]

/-! ### C74: the cross section is tiled -/

namespace Spec

/-- The `q`-th corner `(ky, kx)` of side `h`. -/
def sideCorner (h q : Nat) : Nat × Nat := if h = 0 then (0, q) else if h = 1 then (q, 1) else if h = 2 then (1, q) else (q, 0)

/-- The six quadrilaterals in the figure, corners in counter-clockwise order: `(s, t)` where `s` runs from 0 on the low to 1 on the high
side. -/
def sect (z : Nat → F) : Nat → (F × F) × (F × F) × (F × F) × (F × F)
  | 0 => ((0, z 0), (1 / 2, z 0), (1 / 2, z 1), (0, z 1))
  | 1 => ((1 / 2, z 0), (1, z 0), (1, z 2), (1 / 2, z 1))
  | 2 => ((0, z 1), (1 / 2, z 1), (1, z 2), (0, z 2))
  | 3 => ((0, z 2), (1, z 2), (1 / 2, z 3), (0, z 3))
  | 4 => ((1 / 2, z 3), (1, z 2), (1, z 4), (1 / 2, z 4))
  | _ => ((0, z 3), (1 / 2, z 3), (1 / 2, z 4), (0, z 4))

/-- The point at parameter `s` between the points `a` and `b` of the plane, at height `t`. -/
def lift (a b : F × F) (p : F × F) : V3 F := ⟨a.1 + p.1 * (b.1 - a.1), a.2 + p.1 * (b.2 - a.2), p.2⟩

/-- A corner of a quadrilateral of the 2D mesh. -/
def planePt (el : Elem F) (c : Nat × Nat) : F × F := (el.pos.dat 0 0 c.1 c.2, el.pos.dat 1 0 c.1 c.2)

/-- A vertex of a 3D element. -/
def vert (el : Elem F) (kz : Nat) (c : Nat × Nat) : V3 F := point el (c.2, c.1, kz)

/-- Which side of the line from `a` to `b` the point is on: positive on the left. -/
def side2 (a b p : F × F) : F := (b.1 - a.1) * (p.2 - a.2) - (b.2 - a.2) * (p.1 - a.1)

/-- Inside, and strictly inside, a quadrilateral given counter-clockwise. -/
def InQuad (Q : (F × F) × (F × F) × (F × F) × (F × F)) (p : F × F) : Prop :=
  0 ≤ side2 Q.1 Q.2.1 p ∧ 0 ≤ side2 Q.2.1 Q.2.2.1 p ∧ 0 ≤ side2 Q.2.2.1 Q.2.2.2 p ∧ 0 ≤ side2 Q.2.2.2 Q.1 p
def InsideQuad (Q : (F × F) × (F × F) × (F × F) × (F × F)) (p : F × F) : Prop :=
  0 < side2 Q.1 Q.2.1 p ∧ 0 < side2 Q.2.1 Q.2.2.1 p ∧ 0 < side2 Q.2.2.1 Q.2.2.2 p ∧ 0 < side2 Q.2.2.2 Q.1 p

end Spec

/-- **C74**, the shape of the elements: if the edges are straight, the vertices of the `j`-th element lie on the two lateral sides of the
column, at the corners of the `j`-th quadrilateral of the figure. -/
theorem C74_section (rt : F → F) (M : HexaData F) (z : List F) (l1 l2 : List Name) (f : F → F → F) (nb : Nat) (A : MidArgs M z l1 l2 f nb)
    (ib : Bool) (h : Nat → Nat) (H : ∀ i < M.nel, HighSide f (M.el i) (h i)) (hS : ∀ i < M.nel, ∀ e < 4, (M.el i).ccurv e = []) :
    ∃ M' R, extrudeMid rt M z l1 l2 f ib = .ok (M', R) ∧ ∀ kb < nb, ∀ i < M.nel, ∀ j < 6, ∀ q < 2,
      let e := R.el (6 * (i + M.nel * kb) + j)
      let a := planePt (M.el i) (sideCorner (opp (h i)) q)
      let b := planePt (M.el i) (sideCorner (h i) q)
      let Q := sect (fun m => z.getD (4 * kb + m) 0) j
      vert e 0 (sideCorner (opp (h i)) q) = lift a b Q.1 ∧ vert e 0 (sideCorner (h i) q) = lift a b Q.2.1 ∧
      vert e 1 (sideCorner (h i) q) = lift a b Q.2.2.1 ∧ vert e 1 (sideCorner (opp (h i)) q) = lift a b Q.2.2.2 := by
  obtain ⟨M', R, h1, -, -, -, -, h5⟩ := extrudeMid_ok rt A ib
  refine ⟨M', R, h1, fun kb hkb i hi j hj q hq => ?_⟩
  obtain ⟨pm, g1, g2⟩ := (h5 kb hkb i hi).pos (A.corners i hi) (H i hi)
  have hh := (H i hi).1
  generalize h i = h at hh g1 g2 ⊢
  have hl : ∀ q < 2, (split4 h).lat q < 4 := by
    have : ∀ h < 4, ∀ q < 2, (split4 h).lat q < 4 := by decide
    exact this _ hh
  have hm : ∀ q < 2, (pm q).x = ((loPt (split4 h) (M.el i) q).x + (hiPt (split4 h) (M.el i) q).x) / 2 ∧
      (pm q).y = ((loPt (split4 h) (M.el i) q).y + (hiPt (split4 h) (M.el i) q).y) / 2 := by
    intro q hq
    rw [g2 q hq (by rw [hS i hi _ (hl q hq)]; decide)]
    unfold midVal
    rw [hS i hi _ (hl q hq), if_neg (by decide), if_pos rfl]
    have : h = 0 ∨ h = 1 ∨ h = 2 ∨ h = 3 := by omega
    have hq' : q = 0 ∨ q = 1 := by omega
    rcases this with rfl | rfl | rfl | rfl <;> rcases hq' with rfl | rfl <;> constructor <;> first | rfl | exact congrArg (· / 2) (add_comm _ _)
  have hmx := fun q hq => (hm q hq).1
  have hmy := fun q hq => (hm q hq).2
  have hs : ∀ h < 4, ∀ q < 2, (split4 h).side (sideCorner (opp h) q) = (false, q) ∧ (split4 h).side (sideCorner h q) = (true, q) ∧
      (split4 h).lo q = sideCorner (opp h) q ∧ (split4 h).hi q = sideCorner h q := by decide
  obtain ⟨s1, s2, s3, s4⟩ := hs h hh q hq
  have hlo : loPt (split4 h) (M.el i) q = ⟨(planePt (M.el i) (sideCorner (opp h) q)).1, (planePt (M.el i) (sideCorner (opp h) q)).2,
      (loPt (split4 h) (M.el i) q).z⟩ := by unfold loPt planePt; rw [s3]; rfl
  have hhi : hiPt (split4 h) (M.el i) q = ⟨(planePt (M.el i) (sideCorner h q)).1, (planePt (M.el i) (sideCorner h q)).2,
      (hiPt (split4 h) (M.el i) q).z⟩ := by unfold hiPt planePt; rw [s4]; rfl
  have hx := hmx q hq
  have hy := hmy q hq
  intro e a b Q
  have hv : ∀ kz c, vert e kz c = ⟨(midPlane (loPt (split4 h) (M.el i)) pm (hiPt (split4 h) (M.el i)) j kz ((split4 h).side c)).x,
      (midPlane (loPt (split4 h) (M.el i)) pm (hiPt (split4 h) (M.el i)) j kz ((split4 h).side c)).y,
      midZ (fun m => z.getD (4 * kb + m) 0) j kz ((split4 h).side c).1⟩ := by
    intro kz c
    have : e.pos = _ := g1 j hj
    unfold vert point
    rw [this]
    rfl
  have ha : (loPt (split4 h) (M.el i) q).x = a.1 ∧ (loPt (split4 h) (M.el i) q).y = a.2 := by rw [hlo]; exact ⟨rfl, rfl⟩
  have hb : (hiPt (split4 h) (M.el i) q).x = b.1 ∧ (hiPt (split4 h) (M.el i) q).y = b.2 := by rw [hhi]; exact ⟨rfl, rfl⟩
  rw [ha.1, hb.1] at hx
  rw [ha.2, hb.2] at hy
  rw [hv, hv, hv, hv, s1, s2]
  have h6 : j = 0 ∨ j = 1 ∨ j = 2 ∨ j = 3 ∨ j = 4 ∨ j = 5 := by omega
  clear_value a b
  rcases h6 with rfl | rfl | rfl | rfl | rfl | rfl <;>
    simp only [midPlane, midZ, lift, Q, sect, ha.1, ha.2, hb.1, hb.2, hx, hy, V3.mk.injEq, reduceIte, or_true, or_self, one_ne_zero,
      OfNat.ofNat_ne_zero, OfNat.ofNat_ne_one, zero_ne_one, OfNat.zero_ne_ofNat, OfNat.one_ne_ofNat, Bool.false_eq_true, Nat.reduceEqDiff, or_false, and_true] <;>
    refine ⟨⟨?_, ?_⟩, ⟨?_, ?_⟩, ⟨?_, ?_⟩, ?_, ?_⟩ <;> ring

theorem box_iff {a b : F} (h : a < b) {c : F} (hc : 0 < c) (s t : F) :
    InQuad ((0, a), (c, a), (c, b), (0, b)) (s, t) ↔ a ≤ t ∧ s ≤ c ∧ t ≤ b ∧ 0 ≤ s := by
  simp only [InQuad, side2]
  have p : 0 < b - a := by linarith
  constructor
  · rintro ⟨h1, h2, h3, h4⟩
    refine ⟨?_, le_of_mul_le_mul_left (a := b - a) (by linarith) p, ?_, le_of_mul_le_mul_left (a := b - a) (by linarith) p⟩
    · have := nonneg_of_mul_nonneg_right (show 0 ≤ c * (t - a) by linarith) hc
      linarith
    · have := nonneg_of_mul_nonneg_right (show 0 ≤ c * (b - t) by linarith) hc
      linarith
  · rintro ⟨h1, h2, h3, h4⟩
    have e1 := mul_nonneg hc.le (show 0 ≤ t - a by linarith)
    have e2 := mul_nonneg p.le (show 0 ≤ c - s by linarith)
    have e3 := mul_nonneg hc.le (show 0 ≤ b - t by linarith)
    have e4 := mul_nonneg p.le h4
    exact ⟨by linarith, by linarith, by linarith, by linarith⟩

/-- **C74**, the tiling: for increasing heights the six quadrilaterals of the figure cover the rectangle and do not overlap. -/
theorem C74_tiling (z : Nat → F) (hz : z 0 < z 1 ∧ z 1 < z 2 ∧ z 2 < z 3 ∧ z 3 < z 4) :
    (∀ s t, 0 ≤ s → s ≤ 1 → z 0 ≤ t → t ≤ z 4 → ∃ j < 6, InQuad (sect z j) (s, t)) ∧
    (∀ j < 6, ∀ s t, InQuad (sect z j) (s, t) → 0 ≤ s ∧ s ≤ 1 ∧ z 0 ≤ t ∧ t ≤ z 4) ∧
    (∀ j < 6, ∀ j' < 6, ∀ p, InsideQuad (sect z j) p → InsideQuad (sect z j') p → j = j') := by
  obtain ⟨z1, z2, z3, z4⟩ := hz
  -- the slanted edges: positive on the side of the elements 2 and 3
  have q0 : ∀ s t, InQuad (sect z 0) (s, t) ↔ z 0 ≤ t ∧ s ≤ 1 / 2 ∧ t ≤ z 1 ∧ 0 ≤ s := fun s t => box_iff z1 (by norm_num) s t
  have q5 : ∀ s t, InQuad (sect z 5) (s, t) ↔ z 3 ≤ t ∧ s ≤ 1 / 2 ∧ t ≤ z 4 ∧ 0 ≤ s := fun s t => box_iff z4 (by norm_num) s t
  have q1 : ∀ s t, InQuad (sect z 1) (s, t) ↔ z 0 ≤ t ∧ s ≤ 1 ∧ 1 / 2 * (t - z 1) ≤ (z 2 - z 1) * (s - 1 / 2) ∧ 1 / 2 ≤ s := by
    intro s t
    simp only [InQuad, sect, side2]
    constructor
    · rintro ⟨a, b, c, d⟩
      refine ⟨by linarith, le_of_mul_le_mul_left (a := z 2 - z 0) (by linarith) (by linarith), by linarith,
        le_of_mul_le_mul_left (a := z 1 - z 0) (by linarith) (by linarith)⟩
    · rintro ⟨a, b, c, d⟩
      have e1 := mul_nonneg (show 0 ≤ z 2 - z 0 by linarith) (show 0 ≤ 1 - s by linarith)
      have e2 := mul_nonneg (show 0 ≤ z 1 - z 0 by linarith) (show 0 ≤ s - 1 / 2 by linarith)
      refine ⟨by linarith, by linarith, by linarith, by linarith⟩
  have q2 : ∀ s t, InQuad (sect z 2) (s, t) ↔ z 1 ≤ t ∧ (z 2 - z 1) * (s - 1 / 2) ≤ 1 / 2 * (t - z 1) ∧ t ≤ z 2 ∧ 0 ≤ s := by
    intro s t
    simp only [InQuad, sect, side2]
    constructor
    · rintro ⟨a, b, c, d⟩
      refine ⟨by linarith, by linarith, by linarith, le_of_mul_le_mul_left (a := z 2 - z 1) (by linarith) (by linarith)⟩
    · rintro ⟨a, b, c, d⟩
      have e1 := mul_nonneg (show 0 ≤ z 2 - z 1 by linarith) d
      refine ⟨by linarith, by linarith, by linarith, by linarith⟩
  have q3 : ∀ s t, InQuad (sect z 3) (s, t) ↔ z 2 ≤ t ∧ 1 / 2 * (t - z 2) ≤ (z 3 - z 2) * (1 - s) ∧ t ≤ z 3 ∧ 0 ≤ s := by
    intro s t
    simp only [InQuad, sect, side2]
    constructor
    · rintro ⟨a, b, c, d⟩
      refine ⟨by linarith, by linarith, by linarith, le_of_mul_le_mul_left (a := z 3 - z 2) (by linarith) (by linarith)⟩
    · rintro ⟨a, b, c, d⟩
      have e1 := mul_nonneg (show 0 ≤ z 3 - z 2 by linarith) d
      refine ⟨by linarith, by linarith, by linarith, by linarith⟩
  have q4 : ∀ s t, InQuad (sect z 4) (s, t) ↔ (z 3 - z 2) * (1 - s) ≤ 1 / 2 * (t - z 2) ∧ s ≤ 1 ∧ t ≤ z 4 ∧ 1 / 2 ≤ s := by
    intro s t
    simp only [InQuad, sect, side2]
    constructor
    · rintro ⟨a, b, c, d⟩
      refine ⟨by linarith, le_of_mul_le_mul_left (a := z 4 - z 2) (by linarith) (by linarith), by linarith,
        le_of_mul_le_mul_left (a := z 4 - z 3) (by linarith) (by linarith)⟩
    · rintro ⟨a, b, c, d⟩
      have e1 := mul_nonneg (show 0 ≤ z 4 - z 2 by linarith) (show 0 ≤ 1 - s by linarith)
      have e2 := mul_nonneg (show 0 ≤ z 4 - z 3 by linarith) (show 0 ≤ s - 1 / 2 by linarith)
      refine ⟨by linarith, by linarith, by linarith, by linarith⟩
  have p1 : 0 < z 2 - z 1 := by linarith
  have p2 : 0 < z 3 - z 2 := by linarith
  refine ⟨?_, ?_, ?_⟩
  · intro s t s0 s1 t0 t4
    rcases le_total t (z 1) with a | a
    · rcases le_total s (1 / 2) with b | b
      · exact ⟨0, by omega, (q0 s t).2 ⟨t0, b, a, s0⟩⟩
      · have := mul_nonneg p1.le (show 0 ≤ s - 1 / 2 by linarith)
        exact ⟨1, by omega, (q1 s t).2 ⟨t0, s1, by linarith, b⟩⟩
    rcases le_total t (z 2) with b | b
    · rcases le_total (1 / 2 * (t - z 1)) ((z 2 - z 1) * (s - 1 / 2)) with c | c
      · refine ⟨1, by omega, (q1 s t).2 ⟨t0, s1, c, ?_⟩⟩
        have := nonneg_of_mul_nonneg_right (show 0 ≤ (z 2 - z 1) * (s - 1 / 2) by linarith) p1
        linarith
      · exact ⟨2, by omega, (q2 s t).2 ⟨a, c, b, s0⟩⟩
    rcases le_total t (z 3) with c | c
    · rcases le_total (1 / 2 * (t - z 2)) ((z 3 - z 2) * (1 - s)) with d | d
      · exact ⟨3, by omega, (q3 s t).2 ⟨b, d, c, s0⟩⟩
      · refine ⟨4, by omega, (q4 s t).2 ⟨d, s1, t4, ?_⟩⟩
        have := nonneg_of_mul_nonneg_right (show 0 ≤ (z 3 - z 2) * (s - 1 / 2) by linarith) p2
        linarith
    · rcases le_total s (1 / 2) with d | d
      · exact ⟨5, by omega, (q5 s t).2 ⟨c, d, t4, s0⟩⟩
      · have := mul_nonneg p2.le (show 0 ≤ s - 1 / 2 by linarith)
        exact ⟨4, by omega, (q4 s t).2 ⟨by linarith, s1, t4, d⟩⟩
  · intro j hj s t hq
    have h6 : j = 0 ∨ j = 1 ∨ j = 2 ∨ j = 3 ∨ j = 4 ∨ j = 5 := by omega
    rcases h6 with rfl | rfl | rfl | rfl | rfl | rfl
    · obtain ⟨a, b, c, d⟩ := (q0 s t).1 hq; exact ⟨d, by linarith, a, by linarith⟩
    · obtain ⟨a, b, c, d⟩ := (q1 s t).1 hq
      have := mul_nonneg p1.le (show 0 ≤ 1 - s by linarith)
      exact ⟨by linarith, b, a, by linarith⟩
    · obtain ⟨a, b, c, d⟩ := (q2 s t).1 hq
      refine ⟨d, ?_, by linarith, by linarith⟩
      have := nonneg_of_mul_nonneg_right (show 0 ≤ (z 2 - z 1) * (1 - s) by linarith) p1
      linarith
    · obtain ⟨a, b, c, d⟩ := (q3 s t).1 hq
      refine ⟨d, ?_, by linarith, by linarith⟩
      have := nonneg_of_mul_nonneg_right (show 0 ≤ (z 3 - z 2) * (1 - s) by linarith) p2
      linarith
    · obtain ⟨a, b, c, d⟩ := (q4 s t).1 hq
      have := mul_nonneg p2.le (show 0 ≤ 1 - s by linarith)
      exact ⟨by linarith, b, by linarith, c⟩
    · obtain ⟨a, b, c, d⟩ := (q5 s t).1 hq; exact ⟨d, by linarith, by linarith, c⟩
  · -- every element lies on its own side of one of five lines
    have u : ∀ (j : Nat) (s t : F), InsideQuad (sect z j) (s, t) → InQuad (sect z j) (s, t) := fun j s t h => ⟨h.1.le, h.2.1.le, h.2.2.1.le, h.2.2.2.le⟩
    have key : ∀ j < 6, ∀ s t, InsideQuad (sect z j) (s, t) →
        (j = 0 ∧ s < 1 / 2 ∧ t < z 1) ∨ (j = 1 ∧ 1 / 2 < s ∧ 1 / 2 * (t - z 1) < (z 2 - z 1) * (s - 1 / 2) ∧ t < z 2) ∨
        (j = 2 ∧ z 1 < t ∧ t < z 2 ∧ (z 2 - z 1) * (s - 1 / 2) < 1 / 2 * (t - z 1)) ∨
        (j = 3 ∧ z 2 < t ∧ t < z 3 ∧ 1 / 2 * (t - z 2) < (z 3 - z 2) * (1 - s)) ∨
        (j = 4 ∧ 1 / 2 < s ∧ (z 3 - z 2) * (1 - s) < 1 / 2 * (t - z 2) ∧ z 2 < t) ∨ (j = 5 ∧ s < 1 / 2 ∧ z 3 < t) := by
      intro j hj s t h
      have hq := u j s t h
      have h6 : j = 0 ∨ j = 1 ∨ j = 2 ∨ j = 3 ∨ j = 4 ∨ j = 5 := by omega
      rcases h6 with rfl | rfl | rfl | rfl | rfl | rfl <;> simp only [InsideQuad, sect, side2] at h <;> obtain ⟨a, b, c, d⟩ := h
      · refine Or.inl ⟨rfl, lt_of_mul_lt_mul_left (a := z 1 - z 0) (by linarith) (by linarith), by linarith⟩
      · obtain ⟨-, b', -, -⟩ := (q1 s t).1 hq
        have e := mul_nonneg p1.le (show 0 ≤ 1 - s by linarith)
        exact Or.inr (Or.inl ⟨rfl, lt_of_mul_lt_mul_left (a := z 1 - z 0) (by linarith) (by linarith), by linarith, by linarith⟩)
      · exact Or.inr (Or.inr (Or.inl ⟨rfl, by linarith, by linarith, by linarith⟩))
      · exact Or.inr (Or.inr (Or.inr (Or.inl ⟨rfl, by linarith, by linarith, by linarith⟩)))
      · obtain ⟨-, b', -, -⟩ := (q4 s t).1 hq
        have e := mul_nonneg p2.le (show 0 ≤ 1 - s by linarith)
        exact Or.inr (Or.inr (Or.inr (Or.inr (Or.inl ⟨rfl, lt_of_mul_lt_mul_left (a := z 4 - z 3) (by linarith) (by linarith), by linarith, by linarith⟩))))
      · exact Or.inr (Or.inr (Or.inr (Or.inr (Or.inr ⟨rfl, lt_of_mul_lt_mul_left (a := z 4 - z 3) (by linarith) (by linarith), by linarith⟩))))
    intro j hj j' hj' p h h'
    have k := key j hj p.1 p.2 h
    have k' := key j' hj' p.1 p.2 h'
    clear key u q0 q1 q2 q3 q4 q5
    rcases k with ⟨rfl, k1, k2⟩ | ⟨rfl, k1, k2, k3⟩ | ⟨rfl, k1, k2, k3⟩ | ⟨rfl, k1, k2, k3⟩ | ⟨rfl, k1, k2, k3⟩ | ⟨rfl, k1, k2⟩ <;>
      rcases k' with ⟨rfl, l1, l2⟩ | ⟨rfl, l1, l2, l3⟩ | ⟨rfl, l1, l2, l3⟩ | ⟨rfl, l1, l2, l3⟩ | ⟨rfl, l1, l2, l3⟩ | ⟨rfl, l1, l2⟩ <;>
        first | rfl | (exfalso; linarith)

/-! ### C84: the input is not modified -/

/-- **C84** (the part that holds). If no edge is an arc, `extrude_mid` leaves its argument as it was. -/
theorem C84_partial (rt : F → F) (M : HexaData F) (z : List F) (l1 l2 : List Name) (f : F → F → F) (nb : Nat) (A : MidArgs M z l1 l2 f nb)
    (ib : Bool) (hC : ∀ i < M.nel, ∀ e, (M.el i).ccurv e ≠ ['C']) : ∃ R, extrudeMid rt M z l1 l2 f ib = .ok (M, R) := by
  obtain ⟨M', R, h1, ⟨g1, g2, g3⟩, -⟩ := extrudeMid_ok rt A ib
  have hn := A.wf.nel
  have : M'.elem = M.elem := by
    apply List.ext_getElem (by omega)
    intro i h h'
    rw [← M'.el_eq_getElem i h, ← M.el_eq_getElem i h']
    exact (g3 i (by omega)).same (hC i (by omega))
  refine ⟨R, ?_⟩
  rw [h1, g1, this]

namespace Samples

/-- A unit square starting at x = 1/20 whose right side is an arc of radius 5/8. -/
def arcCell : HexaData ℚ :=
  let m := box 1 1 (1 / 20) nW nW nW nW
  { m with elem := m.elem.map fun el => (el.setType 1 ['C']).setCurv 1 0 (5 / 8) }

theorem arcCell_args : MidArgs arcCell z8 [nW] [nW] halfY 2 := midArgs_of (by decide +kernel)

end Samples

/-- **C84 does not hold** with an arc: the radius stored in the argument is overwritten by the x coordinate of the middle of the arc, and the
second block of four layers is made with this wrong radius, so that it does not fit on the first one although the faces are linked. (The square
roots of 9/64, 1 and 36/25 are taken; `rootQ` is exact on these.) -/
theorem C84_false : ∃ (M M' R : HexaData ℚ) (z : List ℚ) (f : ℚ → ℚ → ℚ), MidArgs M z [Samples.nW] [Samples.nW] f 2 ∧
    extrudeMid Samples.rootQ M z [Samples.nW] [Samples.nW] f true = .ok (M', R) ∧ (M.el 0).curv 1 0 = 5 / 8 ∧ (M'.el 0).curv 1 0 ≠ 5 / 8 ∧
    (R.bc 5 0 5).typ = nE ∧ PointsTo (R.bc 5 0 5) (6, 4) ∧ (R.el 5).pos.dat 0 1 1 1 ≠ (R.el 6).pos.dat 0 0 1 1 := by
  obtain ⟨M', R, h1, -⟩ := extrudeMid_ok Samples.rootQ Samples.arcCell_args true
  have e : (match extrudeMid Samples.rootQ Samples.arcCell Samples.z8 [Samples.nW] [Samples.nW] Samples.halfY true with
      | .ok (M', R) => decide ((M'.el 0).curv 1 0 ≠ 5 / 8 ∧ (R.bc 5 0 5).typ = nE ∧ trunc (R.bc 5 0 5).p3 = 7 ∧ trunc (R.bc 5 0 5).p4 = 5 ∧
          (R.el 5).pos.dat 0 1 1 1 ≠ (R.el 6).pos.dat 0 0 1 1)
      | .error _ => false) = true := by decide +kernel
  rw [h1] at e
  obtain ⟨e1, e2, e3, e4, e5⟩ := of_decide_eq_true e
  exact ⟨Samples.arcCell, M', R, Samples.z8, Samples.halfY, Samples.arcCell_args, h1, by decide +kernel, e1, e2, ⟨e3, e4⟩, e5⟩

/-! ### Examples -/

namespace Samples

theorem midRow_high : ∀ i < midRow.nel, HighSide halfY (midRow.el i) 2 := by
  have : ∀ i < midRow.nel, ∀ ky < 2, ∀ kx < 2, (0 < cornerVal halfY (midRow.el i) ky kx ↔ OnSide 2 ky kx) := by decide +kernel
  exact fun i hi => ⟨by omega, this i hi⟩

theorem midRow_nel : midRow.nel = 2 := by decide +kernel

end Samples

example : ∃ M' R, extrudeMid Samples.rootQ Samples.midRow Samples.z8 [nP] [nP] Samples.halfY true = .ok (M', R) ∧
    SharedFace (R.el 13) 5 (R.el 14) 2 := by
  obtain ⟨M', R, h, h1⟩ := C74_inner Samples.rootQ _ _ _ _ _ _ Samples.midRow_args true (fun _ => 2) Samples.midRow_high
  rw [Samples.midRow_nel] at h1
  exact ⟨M', R, h, h1 1 (by omega) 0 (by omega) ((1, 5), (2, 2)) (by decide)⟩

example : ∃ M' R, extrudeMid Samples.rootQ Samples.midRow Samples.z8 [nP] [nP] Samples.halfY true = .ok (M', R) ∧
    SharedFace (R.el 5) 5 (R.el 12) 4 := by
  obtain ⟨M', R, h, h1⟩ := C74_next Samples.rootQ _ _ _ _ _ _ Samples.midRow_args true (fun _ => 2) Samples.midRow_high (by decide +kernel)
  rw [Samples.midRow_nel] at h1
  exact ⟨M', R, h, h1 0 (by omega) 0 (by omega) ((5, 5), (0, 4)) (by decide)⟩

/-- A vertex in the middle of the second square. -/
example : ∃ M' R, extrudeMid Samples.rootQ Samples.midRow Samples.z8 [nP] [nP] Samples.halfY true = .ok (M', R) ∧
    vert (R.el 8) 0 (1, 1) = ⟨2, 1 / 2, 1⟩ := by
  obtain ⟨M', R, h, h1⟩ := C74_section Samples.rootQ _ _ _ _ _ _ Samples.midRow_args true (fun _ => 2) Samples.midRow_high (by decide +kernel)
  refine ⟨M', R, h, ((h1 0 (by omega) 1 (by decide +kernel) 2 (by omega) 1 (by omega)).2.1).trans ?_⟩
  decide +kernel

example : ∃ j < 6, InQuad (sect (fun m => (m : ℚ)) j) (3 / 4, 5 / 4) :=
  (C74_tiling (fun m => (m : ℚ)) (by norm_num)).1 _ _ (by norm_num) (by norm_num) (by norm_num) (by norm_num)

end Pymech
