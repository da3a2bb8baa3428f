import Verif.Props.MidGeom

/-!
# `extrude_mid`: the curves of the edges, C107
-/

set_option linter.unusedSectionVars false
set_option autoImplicit false

namespace Pymech

open Spec

variable {F : Type} [Field F] [LinearOrder F] [IsStrictOrderedRing F] [FloorRing F]

namespace Spec

/-- A curve from one point to another: a straight line, a curve with a given point in the middle, an arc of given radius (positive if it
bends to the right), or something else. -/
inductive Curve (F : Type) where
  | straight
  | through (m : V3 F)
  | arc (r : F)
  | unknown
deriving DecidableEq

/-- The curve of an edge as Nek5000 reads it. -/
def curveAt (el : Elem F) (e : Nat) : Curve F :=
  if el.ccurv e = [] then .straight
  else if el.ccurv e = ['m'] then .through ⟨el.curv e 0, el.curv e 1, el.curv e 2⟩
  else if el.ccurv e = ['C'] then .arc (el.curv e 0)
  else .unknown

/-- The same curve run through backwards. -/
def Curve.rev : Curve F → Curve F
  | .arc r => .arc (-r)
  | c => c

/-- The curve moved to height `t`. -/
def Curve.atZ (t : F) : Curve F → Curve F
  | .through m => .through ⟨m.x, m.y, t⟩
  | c => c

/-- The point in the middle of a curve from `p` to `q`. -/
def Curve.mid (rt : F → F) (p q : V3 F) : Curve F → V3 F
  | .through m => m
  | .arc r => arcMid rt r p q
  | _ => ⟨(p.x + q.x) / 2, (p.y + q.y) / 2, (p.z + q.z) / 2⟩

/-- The sides of the element are straight, curves through a point or arcs, and there are no other curved edges. -/
def PlainCurves (el : Elem F) : Prop :=
  (∀ e < 4, el.ccurv e = [] ∨ el.ccurv e = ['m'] ∨ el.ccurv e = ['C']) ∧ ∀ e, 8 ≤ e → e < 12 → el.ccurv e = []

/-- The curve of side `s` from its corner 0 to its corner 1: the sides 2 and 3 are stored the other way around. -/
def sideCurve (el : Elem F) (s : Nat) : Curve F := if s < 2 then curveAt el s else (curveAt el s).rev

/-- The side from corner `q` of the low side to corner `q` of the high side `h`. -/
def latSide (h q : Nat) : Nat := if h % 2 = 0 then (if q = 0 then 3 else 1) else (if q = 0 then 0 else 2)

/-- The curve of that side, from the low to the high side. -/
def latCurve (el : Elem F) (h q : Nat) : Curve F :=
  if h = 1 ∨ h = 2 then sideCurve el (latSide h q) else (sideCurve el (latSide h q)).rev

/-- Corner `q` of a side. -/
def sidePt (el : Elem F) (s q : Nat) : V3 F := vert el 0 (sideCorner s q)

/-- The points of the plane mesh on lateral side `q`: on the low side, in the middle and on the high side. -/
def colPt (rt : F → F) (el : Elem F) (h q c : Nat) : V3 F :=
  if c = 0 then sidePt el (opp h) q
  else if c = 1 then (latCurve el h q).mid rt (sidePt el (opp h) q) (sidePt el h q)
  else sidePt el h q

/-- A vertex of a column: on the low side (`col = 0`), in the middle (1) or on the high side (2), which of the two lateral sides, and at
which height. -/
structure Vtx where
  col : Nat
  q : Nat
  lev : Nat
deriving DecidableEq

/-- The quadrilaterals of the figure: column and layer of the corner on the low or high side, at the bottom or the top (`top = 1`). -/
def figure : Nat → Bool → Nat → Nat × Nat
  | 0, false, 0 => (0, 0) | 0, true, 0 => (1, 0) | 0, true, _ => (1, 1) | 0, false, _ => (0, 1)
  | 1, false, 0 => (1, 0) | 1, true, 0 => (2, 0) | 1, true, _ => (2, 2) | 1, false, _ => (1, 1)
  | 2, false, 0 => (0, 1) | 2, true, 0 => (1, 1) | 2, true, _ => (2, 2) | 2, false, _ => (0, 2)
  | 3, false, 0 => (0, 2) | 3, true, 0 => (2, 2) | 3, true, _ => (1, 3) | 3, false, _ => (0, 3)
  | 4, false, 0 => (1, 3) | 4, true, 0 => (2, 2) | 4, true, _ => (2, 4) | 4, false, _ => (1, 4)
  | _, false, 0 => (0, 3) | _, true, 0 => (1, 3) | _, true, _ => (1, 4) | _, false, _ => (0, 4)

/-- The vertex of element `j` with indices `(ix, iy, iz)` in block `kb`. -/
def vtx (h kb j : Nat) (v : Nat × Nat × Nat) : Vtx :=
  let p := figure j (decide (OnSide h v.2.1 v.1)) v.2.2
  ⟨p.1, if h % 2 = 0 then v.1 else v.2.1, 4 * kb + p.2⟩

/-- The first and the second vertex of an edge. -/
def vtxFrom (h kb j e : Nat) : Vtx := vtx h kb j (edgeVertex.getD e ((0, 0, 0), (0, 0, 0))).1
def vtxTo (h kb j e : Nat) : Vtx := vtx h kb j (edgeVertex.getD e ((0, 0, 0), (0, 0, 0))).2

/-- Its position. -/
def vtxPt (rt : F → F) (el : Elem F) (h : Nat) (z : Nat → F) (a : Vtx) : V3 F :=
  ⟨(colPt rt el h a.q a.col).x, (colPt rt el h a.q a.col).y, z a.lev⟩

/-- The arc through three points of the plane, or the straight line if `edge_circle` finds no radius (C71). -/
def arcThrough (rt : F → F) (p m q : V3 F) : Curve F :=
  let r := (circle3 rt ⟨p.x, p.y, 0⟩ ⟨m.x, m.y, 0⟩ ⟨q.x, q.y, 0⟩).1
  if r = 0 then .straight else .arc r

/-- The middle of the new edge between the middles of the lateral sides: its distance from the middle of the chord is the mean of those
of the low and of the high side. -/
def blendMid (rt : F → F) (el : Elem F) (h : Nat) : V3 F :=
  let dev (s : Nat) (c : V3 F → F) : F := c ((sideCurve el s).mid rt (sidePt el s 0) (sidePt el s 1)) - (c (sidePt el s 0) + c (sidePt el s 1)) / 2
  let g (c : V3 F → F) : F := (c (colPt rt el h 0 1) + c (colPt rt el h 1 1)) / 2 + (dev (opp h) c + dev h c) / 2
  ⟨g V3.x, g V3.y, g V3.z⟩

/-- The new edge between the middles of the lateral sides, from corner 0 to corner 1: straight if the low and the high side are, a curve
through its middle if one of them is, an arc otherwise. -/
def blend (rt : F → F) (el : Elem F) (h : Nat) : Curve F :=
  match sideCurve el (opp h), sideCurve el h with
  | .straight, .straight => .straight
  | .through _, _ => .through (blendMid rt el h)
  | _, .through _ => .through (blendMid rt el h)
  | _, _ =>
    if h < 2 then arcThrough rt (colPt rt el h 0 1) (blendMid rt el h) (colPt rt el h 1 1)
    else (arcThrough rt (colPt rt el h 1 1) (blendMid rt el h) (colPt rt el h 0 1)).rev

/-- The middle of the half between `p` and `m` of a curve from `a` to `b` through `m`: half of the way and a quarter of the part of the
bend that is orthogonal to the chord. -/
def halfMid (a m b p : V3 F) : V3 F :=
  let wx := b.x - a.x
  let wy := b.y - a.y
  let dx := m.x - (a.x + b.x) / 2
  let dy := m.y - (a.y + b.y) / 2
  let t := (dx * wx + dy * wy) / (wx ^ 2 + wy ^ 2)
  ⟨(p.x + m.x) / 2 + (dx - t * wx) / 4, (p.y + m.y) / 2 + (dy - t * wy) / 4, 0⟩

/-- The parts of a lateral side between two columns: the two halves and the whole. The upper half of an arc becomes a curve through the
middle of that half. -/
def latPart (rt : F → F) (el : Elem F) (h q a b : Nat) : Curve F :=
  let lo := sidePt el (opp h) q
  let hi := sidePt el h q
  let m := colPt rt el h q 1
  if a = 0 ∧ b = 1 then
    match latCurve el h q with
    | .through _ => .through (halfMid lo m hi lo)
    | c => c
  else if a = 1 then
    match latCurve el h q with
    | .through _ => .through (halfMid lo m hi hi)
    | .arc r => .through (arcMid rt r m hi)
    | c => c
  else latCurve el h q

/-- The curve from vertex `a` to vertex `b`. Edges across the column are at one height; edges along a lateral side may be slanted; edges
from a vertex to the one above it are straight. -/
def edgeCurve (rt : F → F) (el : Elem F) (h : Nat) (z : Nat → F) (a b : Vtx) : Curve F :=
  if a.q ≠ b.q then
    let c := (if a.col = 0 then sideCurve el (opp h) else if a.col = 1 then blend rt el h else sideCurve el h).atZ (z a.lev)
    if a.q = 0 then c else c.rev
  else if a.col = b.col then .straight
  else
    let c := (latPart rt el h a.q (min a.col b.col) (max a.col b.col)).atZ ((z a.lev + z b.lev) / 2)
    if a.col < b.col then c else c.rev

end Spec

/-! ### Curves -/

theorem Curve.rev_rev (c : Curve F) : c.rev.rev = c := by cases c <;> simp [Curve.rev]
theorem Curve.rev_atZ (c : Curve F) (t : F) : (c.rev).atZ t = (c.atZ t).rev := by cases c <;> rfl
theorem Curve.atZ_atZ (c : Curve F) (s t : F) : (c.atZ s).atZ t = c.atZ t := by cases c <;> rfl

theorem arcMid_rev (rt : F → F) (R : F) (p q : V3 F) : arcMid rt (-R) q p = arcMid rt R p q := by
  unfold arcMid
  simp only [abs_neg]
  rw [show (-R) ^ 2 - (p.x - q.x) ^ 2 / 4 - (p.y - q.y) ^ 2 / 4 = R ^ 2 - (q.x - p.x) ^ 2 / 4 - (q.y - p.y) ^ 2 / 4 by ring,
    show (p.x - q.x) ^ 2 + (p.y - q.y) ^ 2 = (q.x - p.x) ^ 2 + (q.y - p.y) ^ 2 by ring]
  congr 1 <;> ring

theorem Curve.mid_rev (rt : F → F) (c : Curve F) (p q : V3 F) : c.rev.mid rt q p = c.mid rt p q := by
  cases c with
  | straight => simp [Curve.rev, Curve.mid, add_comm]
  | through m => rfl
  | arc r => exact arcMid_rev rt r p q
  | unknown => simp [Curve.rev, Curve.mid, add_comm]

theorem circle3_flat (rt : F → F) (a b c : V3 F) (t : F) :
    (circle3 rt ⟨a.x, a.y, t⟩ ⟨b.x, b.y, t⟩ ⟨c.x, c.y, t⟩).1 = (circle3 rt ⟨a.x, a.y, 0⟩ ⟨b.x, b.y, 0⟩ ⟨c.x, c.y, 0⟩).1 := by
  unfold circle3
  simp only [sub_self]
  split_ifs <;> rfl

/-- The value of `edge_mid` is the middle of the curve. -/
theorem midVal_curve (rt : F → F) (el : Elem F) (e : Nat) (h : el.ccurv e = [] ∨ el.ccurv e = ['m'] ∨ el.ccurv e = ['C']) :
    midVal rt el e = (curveAt el e).mid rt (edgeFrom el e) (edgeTo el e) := by
  unfold midVal curveAt
  rcases h with h | h | h <;> simp [h, Curve.mid, Elem.cpt]

/-! ### The steps of `extrude_mid` -/

/-- Two elements have the same curvature at an edge. -/
def SameAt (a b : Elem F) (e : Nat) : Prop := a.ccurv e = b.ccurv e ∧ a.curv e = b.curv e

theorem SameAt.curve {a b : Elem F} {e : Nat} (h : SameAt a b e) : curveAt a e = curveAt b e := by
  unfold curveAt
  rw [h.1, h.2]

theorem SameAt.trans {a b c : Elem F} {e : Nat} (h : SameAt a b e) (k : SameAt b c e) : SameAt a c e := ⟨h.1.trans k.1, h.2.trans k.2⟩

/-- The curve between the elements 0 and 1 in the direction of edge `ehi` of element 0. -/
def midB (rt : F → F) (sp : Split) (base : Elem F) (mm p q : V3 F) : Curve F :=
  if base.ccurv sp.ehi = [] ∧ base.ccurv sp.elo = [] then .straight
  else if base.ccurv sp.ehi = ['m'] ∨ base.ccurv sp.elo = ['m'] then .through mm
  else arcThrough rt p mm q

/-- Its middle. -/
def midMM (plo pmid phi : Nat → V3 F) (mh ml : V3 F) : V3 F :=
  let g : (V3 F → F) → F := fun c => 1 / 2 * (c (pmid 0) + c (pmid 1)) +
    1 / 2 * (c mh - 1 / 2 * (c (phi 0) + c (phi 1)) + c ml - 1 / 2 * (c (plo 0) + c (plo 1)))
  ⟨g V3.x, g V3.y, g V3.z⟩

theorem curveAt_circle (el : Elem F) (e : Nat) (r : F) (c : V3 F) : curveAt ((el.setType e ['C']).setCircle e r c) e = .arc r := by
  simp [curveAt, Elem.setCircle, Elem.setType]

theorem midEdge_curve (rt : F → F) (sp : Split) (plo pmid phi : Nat → V3 F) (z0 : F) (base e0 e1 : Elem F) (hh : HasEdge base sp.ehi)
    (hl : HasEdge base sp.elo) (h0 : HasEdge e0 sp.ehi) (hne : sp.elo ≠ sp.ehi)
    (ph : base.ccurv sp.ehi = [] ∨ base.ccurv sp.ehi = ['m'] ∨ base.ccurv sp.ehi = ['C'])
    (pl : base.ccurv sp.elo = [] ∨ base.ccurv sp.elo = ['m'] ∨ base.ccurv sp.elo = ['C'])
    (t0 : e0.ccurv sp.ehi = base.ccurv sp.ehi) (t1 : e1.ccurv sp.elo = base.ccurv sp.elo)
    (hz0 : (edgeFrom e0 sp.ehi).z = z0) (hz1 : (edgeTo e0 sp.ehi).z = z0)
    (r : Elem F × Elem F × Elem F) (hr : midEdge rt sp plo pmid phi z0 base e0 e1 = .ok r) :
    (∀ e, e ≠ sp.ehi → SameAt r.2.1 e0 e) ∧ (∀ e, e ≠ sp.elo → SameAt r.2.2 e1 e) ∧
    (curveAt r.2.1 sp.ehi = midB rt sp base (midMM plo pmid phi (midVal rt base sp.ehi) (midVal rt base sp.elo)) (edgeFrom e0 sp.ehi) (edgeTo e0 sp.ehi)) ∧
    (curveAt r.2.2 sp.elo = (midB rt sp base (midMM plo pmid phi (midVal rt base sp.ehi) (midVal rt base sp.elo)) (edgeFrom e0 sp.ehi) (edgeTo e0 sp.ehi)).rev) ∧
    (base.ccurv sp.ehi = ['m'] → r.2.1.ccurv sp.ehi = ['m']) := by
  unfold midEdge at hr
  unfold midB
  simp only at hr
  by_cases hn : base.ccurv sp.ehi = [] ∧ base.ccurv sp.elo = []
  · rw [if_pos hn] at hr
    obtain rfl := Except.ok.inj hr
    rw [if_pos hn]
    refine ⟨fun _ _ => ⟨rfl, rfl⟩, fun _ _ => ⟨rfl, rfl⟩, ?_, ?_, fun h => by rw [hn.1] at h; simp at h⟩
    · unfold curveAt; simp [t0, hn.1]
    · unfold curveAt; simp [t1, hn.2, Curve.rev]
  · rw [if_neg hn] at hr
    rw [if_neg hn]
    obtain ⟨b1, q1, q2, q3⟩ := edgeMid_mut rt base sp.ehi hh
    obtain ⟨b2, p1, p2, -⟩ := edgeMid_mut rt b1 sp.elo (q2.but.hasEdge hl)
    rw [midVal_congr rt q2 _ (q3 _ hne)] at p1
    obtain ⟨c1, c2⟩ := ptAt_ends e0 sp.ehi h0
    rw [q1] at hr
    simp only [bind, Except.bind] at hr
    rw [p1] at hr
    simp only at hr
    set mm := midMM plo pmid phi (midVal rt base sp.ehi) (midVal rt base sp.elo) with hmm
    by_cases k1 : base.ccurv sp.ehi = ['m'] ∨ base.ccurv sp.elo = ['m']
    · rw [if_pos k1] at hr
      rw [if_pos k1]
      obtain rfl := Except.ok.inj hr
      refine ⟨fun e he => ?_, fun e he => ?_, ?_, ?_, fun _ => ?_⟩
      · constructor
        · simp [Elem.setCpt, Elem.setType, he]
        · funext q; simp [Elem.setCpt, Elem.setType, he]
      · constructor
        · simp [Elem.setCpt, Elem.setType, he]
        · funext q; simp [Elem.setCpt, Elem.setType, he]
      · simp [curveAt, Elem.setCpt, Elem.setType, hmm, midMM]
      · simp [curveAt, Elem.setCpt, Elem.setType, Curve.rev, hmm, midMM]
      · simp [Elem.setCpt, Elem.setType]
    · rw [if_neg k1] at hr
      rw [if_neg k1]
      have k2 : base.ccurv sp.ehi = ['C'] ∨ base.ccurv sp.elo = ['C'] := by
        push Not at k1
        rcases ph with a | a | a
        · rcases pl with b | b | b
          · exact absurd ⟨a, b⟩ hn
          · exact absurd b k1.2
          · exact Or.inr b
        · exact absurd a k1.1
        · exact Or.inl a
      rw [if_pos k2] at hr
      have hcirc : (circle3 rt (edgeFrom e0 sp.ehi) ⟨mm.x, mm.y, z0⟩ (edgeTo e0 sp.ehi)).1 =
          (circle3 rt ⟨(edgeFrom e0 sp.ehi).x, (edgeFrom e0 sp.ehi).y, 0⟩ ⟨mm.x, mm.y, 0⟩ ⟨(edgeTo e0 sp.ehi).x, (edgeTo e0 sp.ehi).y, 0⟩).1 := by
        rw [← circle3_flat rt (edgeFrom e0 sp.ehi) mm (edgeTo e0 sp.ehi) z0]
        congr 2
        · cases hp : edgeFrom e0 sp.ehi; rw [hp] at hz0; simp_all
        · cases hp : edgeTo e0 sp.ehi; rw [hp] at hz1; simp_all
      unfold edgeCircle at hr
      rw [if_neg (by have := h0.1; omega), c1, c2] at hr
      simp only [bind, Except.bind] at hr
      unfold arcThrough
      rw [← hcirc]
      set R := (circle3 rt (edgeFrom e0 sp.ehi) ⟨mm.x, mm.y, z0⟩ (edgeTo e0 sp.ehi)).1 with hR
      have hR' : (circle3 rt (edgeFrom e0 sp.ehi) ⟨mm.x, mm.y, z0⟩ (edgeTo e0 sp.ehi)).1 = R := rfl
      by_cases k3 : R = 0
      · rw [if_pos k3]
        erw [if_pos k3] at hr
        obtain rfl := Except.ok.inj hr
        refine ⟨fun e he => ?_, fun e he => ?_, ?_, ?_, fun h => absurd (Or.inl h) k1⟩
        · constructor
          · simp [Elem.setCircle, Elem.setType, he]
          · funext q; simp [Elem.setCircle, Elem.setType, he]
        · constructor
          · simp [Elem.setCircle, Elem.setType, he]
          · funext q; simp [Elem.setCircle, Elem.setType, he]
        · simp [curveAt, Elem.setCircle, Elem.setType]
        · simp [curveAt, Elem.setCircle, Elem.setType, Curve.rev]
      · rw [if_neg k3]
        erw [if_neg k3] at hr
        obtain rfl := Except.ok.inj hr
        refine ⟨fun e he => ?_, fun e he => ?_, ?_, ?_, fun h => absurd (Or.inl h) k1⟩
        · constructor
          · simp [Elem.setCircle, Elem.setType, he]
          · funext q; simp [Elem.setCircle, Elem.setType, he]
        · constructor
          · simp [Elem.setCircle, Elem.setType, he]
          · funext q; simp [Elem.setCircle, Elem.setType, he]
        · exact curveAt_circle _ _ _ _
        · exact curveAt_circle _ _ _ _

theorem midHalf_curve (rt : F → F) (e : Nat) (lo mid hi : V3 F) (t : Name) (e0 e1 : Elem F) (h : HasEdge e1 e)
    (ht : t = [] ∨ t = ['m'] ∨ t = ['C']) (t0 : e0.ccurv e = t) (t1 : e1.ccurv e = t) (hw : t = ['m'] → (lo.x, lo.y) ≠ (hi.x, hi.y))
    (r : Elem F × Elem F) (hr : midHalf rt e lo mid hi t e0 e1 = .ok r) :
    (∀ e', e' ≠ e → SameAt r.1 e0 e' ∧ SameAt r.2 e1 e') ∧ r.1.ccurv e = t ∧
    (t = [] → curveAt r.1 e = .straight ∧ curveAt r.2 e = .straight) ∧
    (t = ['m'] → ∀ s, (curveAt r.1 e).atZ s = (Curve.through (halfMid lo mid hi lo)).atZ s ∧
      (curveAt r.2 e).atZ s = (Curve.through (halfMid lo mid hi hi)).atZ s) ∧
    (t = ['C'] → curveAt r.1 e = .arc (e0.curv e 0) ∧ curveAt r.2 e = .through (arcMid rt (e1.curv e 0) (edgeFrom e1 e) (edgeTo e1 e))) := by
  unfold midHalf at hr
  simp only at hr
  rcases ht with rfl | rfl | rfl
  · rw [if_neg (by decide), if_neg (by decide)] at hr
    obtain rfl := Except.ok.inj hr
    refine ⟨fun _ _ => ⟨⟨rfl, rfl⟩, ⟨rfl, rfl⟩⟩, t0, fun _ => ?_, fun h => absurd h (by decide), fun h => absurd h (by decide)⟩
    simp [curveAt, t0, t1]
  · rw [if_pos rfl] at hr
    obtain rfl := Except.ok.inj hr
    refine ⟨fun e' he' => ⟨⟨by simp [Elem.setCurv], by funext q; simp [Elem.setCurv, he']⟩, ⟨by simp [Elem.setCurv], by funext q; simp [Elem.setCurv, he']⟩⟩,
      by simp [Elem.setCurv, t0], fun h => absurd h (by decide), fun _ s => ?_, fun h => absurd h (by decide)⟩
    have hne : (hi.x - lo.x) ^ 2 + (hi.y - lo.y) ^ 2 ≠ 0 := by
      intro h0
      apply hw rfl
      have h1 : hi.x - lo.x = 0 := by nlinarith [sq_nonneg (hi.x - lo.x), sq_nonneg (hi.y - lo.y)]
      have h2 : hi.y - lo.y = 0 := by nlinarith [sq_nonneg (hi.x - lo.x), sq_nonneg (hi.y - lo.y)]
      rw [sub_eq_zero.mp h1, sub_eq_zero.mp h2]
    simp only [curveAt, Elem.setCurv, t0, t1, Curve.atZ, halfMid, and_self, ite_true, ite_false, one_ne_zero, zero_ne_one, reduceCtorEq,
      and_false, List.cons_ne_nil]
    refine ⟨?_, ?_⟩
    · congr 2 <;> field_simp <;> ring
    · congr 2 <;> field_simp <;> ring
  · rw [if_neg (by decide), if_pos rfl] at hr
    obtain ⟨b1, q1, q2, q3⟩ := edgeMid_mut rt e1 e h
    rw [q1] at hr
    obtain rfl := Except.ok.inj hr
    refine ⟨fun e' he' => ⟨⟨rfl, rfl⟩, ⟨?_, ?_⟩⟩, t0, fun h => absurd h (by decide), fun h => absurd h (by decide), fun _ => ⟨?_, ?_⟩⟩
    · simp [Elem.setType, Elem.setCpt, he', q2.ccurv]
    · funext q; simp [Elem.setType, Elem.setCpt, he', q3 e' he']
    · simp [curveAt, t0]
    · simp [curveAt, Elem.setType, Elem.setCpt, midVal, t1]

/-- The element from which edge `e < 8` of element `j` takes its curvature. -/
def midSrc (E : Nat → Elem F) (j e : Nat) : Elem F :=
  if j = 0 ∨ j = 5 then E 0 else if j = 1 ∨ j = 4 then E 1
  else if j = 2 then (if e < 4 then E 0 else E 2) else if e < 4 then E 3 else E 0

/-- The elements in the end. -/
def midFinal (sp : Split) (zz : Nat → F) (E : Nat → Elem F) : Nat → Elem F :=
  midDiag sp (midHeights sp zz (midCopies fun j => topEdges (E j)))

theorem midFinal_low (sp : Split) (hcon : 8 ≤ sp.con 0 ∧ 8 ≤ sp.con 1) (zz : Nat → F) (E : Nat → Elem F)
    (h2 : ∀ e < 4, (E 2).ccurv e = ['m'] → (E 0).ccurv e = ['m']) (h3 : ∀ e < 4, (E 3).ccurv e = ['m'] → (E 0).ccurv e = ['m'])
    (j e : Nat) (hj : j < 6) (he : e < 8) :
    curveAt (midFinal sp zz E j) e = (curveAt (midSrc E j e) (e % 4)).atZ (midCurvZ sp zz j e) := by
  have hc0 : e ≠ sp.con 0 := by omega
  have hc1 : e ≠ sp.con 1 := by omega
  have e4 : e % 4 < 4 := Nat.mod_lt _ (by omega)
  have hlow : e < 4 → e % 4 = e := fun h => Nat.mod_eq_of_lt h
  have hhigh : ¬ e < 4 → e - 4 = e % 4 := fun h => by omega
  have hT : (midFinal sp zz E j).ccurv e = (midSrc E j e).ccurv (e % 4) := by
    have h6 : j = 0 ∨ j = 1 ∨ j = 2 ∨ j = 3 ∨ j = 4 ∨ j = 5 := by omega
    by_cases h : e < 4
    · rcases h6 with rfl | rfl | rfl | rfl | rfl | rfl <;>
        simp [midFinal, midDiag, midHeights, midCopies, topEdges, midSrc, hc0, hc1, h, hlow h, show ¬ 4 ≤ e by omega]
    · rcases h6 with rfl | rfl | rfl | rfl | rfl | rfl <;>
        simp [midFinal, midDiag, midHeights, midCopies, topEdges, midSrc, hc0, hc1, h, hhigh h, he, show 4 ≤ e by omega, show ¬ 4 ≤ e % 4 by omega]
  have hV : ∀ q, (midFinal sp zz E j).curv e q =
      if q = 2 ∧ (if j = 1 ∨ j = 4 then E 1 else E 0).ccurv (e % 4) = ['m'] then midCurvZ sp zz j e else (midSrc E j e).curv (e % 4) q := by
    intro q
    have h6 : j = 0 ∨ j = 1 ∨ j = 2 ∨ j = 3 ∨ j = 4 ∨ j = 5 := by omega
    have n4 : ¬ 4 ≤ e % 4 := by omega
    by_cases h : e < 4
    · rcases h6 with rfl | rfl | rfl | rfl | rfl | rfl <;>
        simp [midFinal, midDiag, midHeights, midCopies, topEdges, midSrc, hc0, hc1, h, hlow h, he, show ¬ 4 ≤ e by omega]
    · rcases h6 with rfl | rfl | rfl | rfl | rfl | rfl <;>
        simp [midFinal, midDiag, midHeights, midCopies, topEdges, midSrc, hc0, hc1, h, hhigh h, he, show 4 ≤ e by omega, n4]
  have hm : (midSrc E j e).ccurv (e % 4) = ['m'] → (if j = 1 ∨ j = 4 then E 1 else E 0).ccurv (e % 4) = ['m'] := by
    have h6 : j = 0 ∨ j = 1 ∨ j = 2 ∨ j = 3 ∨ j = 4 ∨ j = 5 := by omega
    unfold midSrc
    by_cases h : e < 4
    · rcases h6 with rfl | rfl | rfl | rfl | rfl | rfl <;> simp [h]
      exact h3 _ e4
    · rcases h6 with rfl | rfl | rfl | rfl | rfl | rfl <;> simp [h]
      exact h2 _ e4
  unfold curveAt
  rw [hT]
  by_cases t1 : (midSrc E j e).ccurv (e % 4) = []
  · simp [t1, Curve.atZ]
  by_cases t2 : (midSrc E j e).ccurv (e % 4) = ['m']
  · simp [t2, Curve.atZ, hV, hm t2]
  by_cases t3 : (midSrc E j e).ccurv (e % 4) = ['C']
  · simp [t3, Curve.atZ, hV]
  · simp [t1, t2, t3, Curve.atZ]

theorem midFinal_vertical (sp : Split) (hcon : sp.con 0 ≠ sp.con 1 ∧ 8 ≤ sp.con 0 ∧ 8 ≤ sp.con 1) (zz : Nat → F)
    (E : Nat → Elem F) (j e : Nat) (hj : j < 6) (he : 8 ≤ e) (h0 : ∀ j < 6, (E j).ccurv e = []) :
    curveAt (midFinal sp zz E j) e =
      if j = 2 ∧ e = sp.con 0 then curveAt (midFinal sp zz E 1) (sp.lat 0 + 4)
      else if j = 2 ∧ e = sp.con 1 then curveAt (midFinal sp zz E 1) (sp.lat 1 + 4)
      else if j = 3 ∧ e = sp.con 0 then curveAt (midFinal sp zz E 4) (sp.lat 0)
      else if j = 3 ∧ e = sp.con 1 then curveAt (midFinal sp zz E 4) (sp.lat 1)
      else .straight := by
  have h6 : j = 0 ∨ j = 1 ∨ j = 2 ∨ j = 3 ∨ j = 4 ∨ j = 5 := by omega
  have s : ∀ j < 6, (midCopies (fun j => topEdges (E j)) j).ccurv e = [] := by
    intro j hj
    have h6 : j = 0 ∨ j = 1 ∨ j = 2 ∨ j = 3 ∨ j = 4 ∨ j = 5 := by omega
    rcases h6 with rfl | rfl | rfl | rfl | rfl | rfl <;>
      simp [midCopies, topEdges, show ¬ e < 4 by omega, show ¬ e < 8 by omega, h0]
  have key : ∀ j < 6, ¬ (j = 2 ∨ j = 3) → curveAt (midFinal sp zz E j) e = .straight := by
    intro j hj hn
    push Not at hn
    have : (midFinal sp zz E j).ccurv e = [] := by
      unfold midFinal midDiag
      simp only [hn.1, hn.2, if_false]
      exact s j hj
    simp [curveAt, this]
  rcases h6 with rfl | rfl | rfl | rfl | rfl | rfl
  · simpa using key 0 (by omega) (by omega)
  · simpa using key 1 (by omega) (by omega)
  · by_cases a : e = sp.con 0
    · simp [a, curveAt, midFinal, midDiag]
    by_cases b : e = sp.con 1
    · simp [b, curveAt, midFinal, midDiag, hcon.1.symm]
    · have : (midFinal sp zz E 2).ccurv e = [] := by
        unfold midFinal midDiag
        simp only [a, b, if_true, if_false]
        exact s 2 (by omega)
      simp [a, b, curveAt, this]
  · by_cases a : e = sp.con 0
    · simp [a, curveAt, midFinal, midDiag]
    by_cases b : e = sp.con 1
    · simp [b, curveAt, midFinal, midDiag, hcon.1.symm]
    · have : (midFinal sp zz E 3).ccurv e = [] := by
        unfold midFinal midDiag
        simp only [a, b, if_true, if_false, show ¬ (3 : Nat) = 2 by decide]
        exact s 3 (by omega)
      simp [a, b, curveAt, this]
  · simpa using key 4 (by omega) (by omega)
  · simpa using key 5 (by omega) (by omega)

/-! ### The sides of the plane element -/

/-- The curve of lateral edge `q` from the low to the high side. -/
def latDir (h q : Nat) (c : Curve F) : Curve F := if (h < 2 ↔ q = 0) then c else c.rev

theorem latDir_rev (h q : Nat) (c : Curve F) : latDir h q (latDir h q c) = c := by
  unfold latDir
  split_ifs
  · rfl
  · exact Curve.rev_rev c

theorem latDir_atZ (h q : Nat) (c : Curve F) (t : F) : (latDir h q c).atZ t = latDir h q (c.atZ t) := by
  unfold latDir
  split_ifs
  · rfl
  · exact Curve.rev_atZ c t

theorem latCurve_eq (el : Elem F) (h q : Nat) (hh : h < 4) (hq : q < 2) : latCurve el h q = latDir h q (curveAt el ((split4 h).lat q)) := by
  have h4 : h = 0 ∨ h = 1 ∨ h = 2 ∨ h = 3 := by omega
  have h2 : q = 0 ∨ q = 1 := by omega
  rcases h4 with rfl | rfl | rfl | rfl <;> rcases h2 with rfl | rfl <;>
    simp [latCurve, latDir, sideCurve, latSide, split4, pair, Curve.rev_rev]

/-- The facts about the split that do not depend on the element. -/
theorem split4_facts : ∀ h < 4, (split4 h).ehi = h ∧ (split4 h).elo = opp h ∧ opp h < 4 ∧ (split4 h).lat 0 < 4 ∧ (split4 h).lat 1 < 4 ∧
    h ≠ opp h ∧ (split4 h).lat 0 ≠ h ∧ (split4 h).lat 1 ≠ h ∧ (split4 h).lat 0 ≠ opp h ∧ (split4 h).lat 1 ≠ opp h ∧
    (split4 h).lat 0 ≠ (split4 h).lat 1 ∧ (split4 h).con 0 ≠ (split4 h).con 1 ∧ 8 ≤ (split4 h).con 0 ∧ 8 ≤ (split4 h).con 1 := by decide

theorem side_ends (el : Elem F) (h q : Nat) (hh : h < 4) (hq : q < 2) :
    ((h < 2 ↔ q = 0) → edgeFrom el ((split4 h).lat q) = sidePt el (opp h) q ∧ edgeTo el ((split4 h).lat q) = sidePt el h q) ∧
    (¬ (h < 2 ↔ q = 0) → edgeTo el ((split4 h).lat q) = sidePt el (opp h) q ∧ edgeFrom el ((split4 h).lat q) = sidePt el h q) ∧
    (h < 2 → edgeFrom el h = sidePt el h 0 ∧ edgeTo el h = sidePt el h 1 ∧ edgeFrom el (opp h) = sidePt el (opp h) 1 ∧ edgeTo el (opp h) = sidePt el (opp h) 0) ∧
    (¬ h < 2 → edgeFrom el h = sidePt el h 1 ∧ edgeTo el h = sidePt el h 0 ∧ edgeFrom el (opp h) = sidePt el (opp h) 0 ∧ edgeTo el (opp h) = sidePt el (opp h) 1) := by
  have h4 : h = 0 ∨ h = 1 ∨ h = 2 ∨ h = 3 := by omega
  have h2 : q = 0 ∨ q = 1 := by omega
  rcases h4 with rfl | rfl | rfl | rfl <;> rcases h2 with rfl | rfl <;>
    refine ⟨fun h => ?_, fun h => ?_, fun h => ?_, fun h => ?_⟩ <;>
    first | exact ⟨rfl, rfl, rfl, rfl⟩ | exact ⟨rfl, rfl⟩ | (exfalso; revert h; decide)

theorem loPt_eq (el : Elem F) (h q : Nat) (hh : h < 4) (hq : q < 2) : loPt (split4 h) el q = sidePt el (opp h) q ∧ hiPt (split4 h) el q = sidePt el h q := by
  have h4 : h = 0 ∨ h = 1 ∨ h = 2 ∨ h = 3 := by omega
  have h2 : q = 0 ∨ q = 1 := by omega
  rcases h4 with rfl | rfl | rfl | rfl <;> rcases h2 with rfl | rfl <;> exact ⟨rfl, rfl⟩

theorem colPt_mid (rt : F → F) (el : Elem F) (hp : PlainCurves el) (h q : Nat) (hh : h < 4) (hq : q < 2) :
    colPt rt el h q 1 = midVal rt el ((split4 h).lat q) := by
  obtain ⟨-, -, -, l0, l1, -⟩ := split4_facts h hh
  have hl : (split4 h).lat q < 4 := by
    have h2 : q = 0 ∨ q = 1 := by omega
    rcases h2 with rfl | rfl
    · exact l0
    · exact l1
  rw [midVal_curve rt el _ (hp.1 _ hl)]
  unfold colPt
  rw [if_neg (by decide), if_pos rfl, latCurve_eq el h q hh hq]
  obtain ⟨a, b, -, -⟩ := side_ends el h q hh hq
  unfold latDir
  split_ifs with hd
  · rw [(a hd).1, (a hd).2]
  · rw [(b hd).1, (b hd).2]
    exact Curve.mid_rev _ _ _ _

theorem sideCurve_mid (rt : F → F) (el : Elem F) (hp : PlainCurves el) (h : Nat) (hh : h < 4) :
    (sideCurve el h).mid rt (sidePt el h 0) (sidePt el h 1) = midVal rt el h ∧
    (sideCurve el (opp h)).mid rt (sidePt el (opp h) 0) (sidePt el (opp h) 1) = midVal rt el (opp h) := by
  obtain ⟨-, -, ho, -⟩ := split4_facts h hh
  obtain ⟨-, -, a, b⟩ := side_ends el h 0 hh (by omega)
  rw [midVal_curve rt el _ (hp.1 _ hh), midVal_curve rt el _ (hp.1 _ ho)]
  unfold sideCurve
  have : opp h < 2 ↔ ¬ h < 2 := by
    have : ∀ h < 4, (opp h < 2 ↔ ¬ h < 2) := by decide
    exact this h hh
  by_cases h2 : h < 2
  · obtain ⟨a1, a2, a3, a4⟩ := a h2
    rw [if_pos h2, if_neg (by rw [this]; exact fun h => h h2), a1, a2, a3, a4]
    exact ⟨rfl, Curve.mid_rev _ _ _ _⟩
  · obtain ⟨a1, a2, a3, a4⟩ := b h2
    rw [if_neg h2, if_pos (this.2 h2), a1, a2, a3, a4]
    exact ⟨Curve.mid_rev _ _ _ _, rfl⟩

theorem midMM_eq (rt : F → F) (el : Elem F) (hp : PlainCurves el) (h : Nat) (hh : h < 4) :
    midMM (loPt (split4 h) el) (pair (midVal rt el ((split4 h).lat 0)) (midVal rt el ((split4 h).lat 1))) (hiPt (split4 h) el)
      (midVal rt el (split4 h).ehi) (midVal rt el (split4 h).elo) = blendMid rt el h := by
  obtain ⟨f1, f2, -⟩ := split4_facts h hh
  rw [f1, f2]
  unfold midMM blendMid
  simp only [(loPt_eq el h 0 hh (by omega)).1, (loPt_eq el h 0 hh (by omega)).2, (loPt_eq el h 1 hh (by omega)).1, (loPt_eq el h 1 hh (by omega)).2,
    colPt_mid rt el hp h 0 hh (by omega), colPt_mid rt el hp h 1 hh (by omega), (sideCurve_mid rt el hp h hh).1, (sideCurve_mid rt el hp h hh).2,
    pair, if_true, one_ne_zero, if_false]
  congr 1 <;> ring

theorem blend_eq (rt : F → F) (el : Elem F) (hp : PlainCurves el) (h : Nat) (hh : h < 4) (p q : V3 F) (t : F)
    (hpq : if h < 2 then p = ⟨(colPt rt el h 0 1).x, (colPt rt el h 0 1).y, t⟩ ∧ q = ⟨(colPt rt el h 1 1).x, (colPt rt el h 1 1).y, t⟩
      else p = ⟨(colPt rt el h 1 1).x, (colPt rt el h 1 1).y, t⟩ ∧ q = ⟨(colPt rt el h 0 1).x, (colPt rt el h 0 1).y, t⟩) :
    midB rt (split4 h) el (blendMid rt el h) p q = if h < 2 then blend rt el h else (blend rt el h).rev := by
  obtain ⟨f1, f2, f3, -⟩ := split4_facts h hh
  have h2 : opp h < 2 ↔ ¬ h < 2 := by
    have : ∀ h < 4, (opp h < 2 ↔ ¬ h < 2) := by decide
    exact this h hh
  unfold midB blend
  rw [f1, f2]
  by_cases hl : h < 2
  · rw [if_pos hl] at hpq
    obtain ⟨rfl, rfl⟩ := hpq
    have ho : ¬ opp h < 2 := fun h' => h2.1 h' hl
    simp only [sideCurve, hl, ho, if_true, if_false]
    rcases hp.1 h hh with a | a | a <;> rcases hp.1 (opp h) f3 with b | b | b <;> simp [a, b, curveAt, Curve.rev, arcThrough]
  · rw [if_neg hl] at hpq
    obtain ⟨rfl, rfl⟩ := hpq
    have ho : opp h < 2 := h2.2 hl
    simp only [sideCurve, hl, ho, if_true, if_false]
    rcases hp.1 h hh with a | a | a <;> rcases hp.1 (opp h) f3 with b | b | b <;> simp [a, b, curveAt, Curve.rev, arcThrough] <;> split_ifs <;> simp

/-! ### The six elements of a column -/

/-- The ends of the edges according to the figure. -/
theorem vtx_high : ∀ h < 4, ∀ j < 6, ∀ t < 2,
    vtxFrom h 0 j ((split4 h).ehi + 4 * t) = ⟨(figure j true t).1, if h < 2 then 0 else 1, (figure j true t).2⟩ ∧
    vtxTo h 0 j ((split4 h).ehi + 4 * t) = ⟨(figure j true t).1, if h < 2 then 1 else 0, (figure j true t).2⟩ := by decide

theorem vtx_low : ∀ h < 4, ∀ j < 6, ∀ t < 2,
    vtxFrom h 0 j ((split4 h).elo + 4 * t) = ⟨(figure j false t).1, if h < 2 then 1 else 0, (figure j false t).2⟩ ∧
    vtxTo h 0 j ((split4 h).elo + 4 * t) = ⟨(figure j false t).1, if h < 2 then 0 else 1, (figure j false t).2⟩ := by decide

theorem vtx_lat : ∀ h < 4, ∀ j < 6, ∀ t < 2, ∀ q < 2,
    vtxFrom h 0 j ((split4 h).lat q + 4 * t) = (if (h < 2 ↔ q = 0) then ⟨(figure j false t).1, q, (figure j false t).2⟩ else
      ⟨(figure j true t).1, q, (figure j true t).2⟩) ∧
    vtxTo h 0 j ((split4 h).lat q + 4 * t) = (if (h < 2 ↔ q = 0) then ⟨(figure j true t).1, q, (figure j true t).2⟩ else
      ⟨(figure j false t).1, q, (figure j false t).2⟩) := by decide

theorem vtx_con : ∀ h < 4, ∀ j < 6, ∀ q < 2,
    vtxFrom h 0 j ((split4 h).con q) = ⟨(figure j true 0).1, q, (figure j true 0).2⟩ ∧
    vtxTo h 0 j ((split4 h).con q) = ⟨(figure j true 1).1, q, (figure j true 1).2⟩ := by decide

set_option synthInstance.maxSize 500 in
theorem vtx_vertical : ∀ h < 4, ∀ j < 6, ∀ k < 4, ((j = 2 ∨ j = 3) ∧ (8 + k = (split4 h).con 0 ∨ 8 + k = (split4 h).con 1)) ∨
    ((vtxFrom h 0 j (8 + k)).q = (vtxTo h 0 j (8 + k)).q ∧ (vtxFrom h 0 j (8 + k)).col = (vtxTo h 0 j (8 + k)).col) := by decide

theorem split4_cases : ∀ h < 4, ∀ e < 4, e = (split4 h).ehi ∨ e = (split4 h).elo ∨ e = (split4 h).lat 0 ∨ e = (split4 h).lat 1 := by decide

theorem edgeCurve_shift (rt : F → F) (el : Elem F) (h kb j e : Nat) (z : Nat → F) :
    edgeCurve rt el h z (vtxFrom h kb j e) (vtxTo h kb j e) =
      edgeCurve rt el h (fun l => z (4 * kb + l)) (vtxFrom h 0 j e) (vtxTo h 0 j e) := by
  unfold vtxFrom vtxTo vtx
  simp only [Nat.mul_zero, Nat.zero_add]
  rfl

/-- The elements before the copies, described by the curves of their sides. -/
structure MidSides (rt : F → F) (el : Elem F) (h : Nat) (E : Nat → Elem F) : Prop where
  lo0 : curveAt (E 0) (split4 h).elo = curveAt el (opp h)
  hi0 : curveAt (E 0) (split4 h).ehi = if h < 2 then blend rt el h else (blend rt el h).rev
  lo1 : curveAt (E 1) (split4 h).elo = if h < 2 then (blend rt el h).rev else blend rt el h
  hi1 : curveAt (E 1) (split4 h).ehi = curveAt el h
  lat0 : ∀ q < 2, ∀ t, (curveAt (E 0) ((split4 h).lat q)).atZ t = latDir h q ((latPart rt el h q 0 1).atZ t)
  lat1 : ∀ q < 2, ∀ t, (curveAt (E 1) ((split4 h).lat q)).atZ t = latDir h q ((latPart rt el h q 1 2).atZ t)
  same : ∀ j, 2 ≤ j → ∀ e, SameAt (E j) el e
  mid : ∀ e < 4, el.ccurv e = ['m'] → (E 0).ccurv e = ['m']
  vert : ∀ j, ∀ e, 8 ≤ e → e < 12 → (E j).ccurv e = []

theorem midFinal_curve (rt : F → F) (el : Elem F) (h : Nat) (hh : h < 4) (zz : Nat → F) (E : Nat → Elem F) (S : MidSides rt el h E)
    (j e : Nat) (hj : j < 6) (he : e < 12) :
    curveAt (midFinal (split4 h) zz E j) e = edgeCurve rt el h zz (vtxFrom h 0 j e) (vtxTo h 0 j e) := by
  obtain ⟨f1, f2, f3, f4, f5, f6, f7, f8, f9, f10, f11, f12, f13, f14⟩ := split4_facts h hh
  have h6 : j = 0 ∨ j = 1 ∨ j = 2 ∨ j = 3 ∨ j = 4 ∨ j = 5 := by omega
  have low := fun j e hj he => midFinal_low (split4 h) ⟨f13, f14⟩ zz E
    (fun e h' h'' => S.mid e h' (by rw [← (S.same 2 (by omega) e).1]; exact h''))
    (fun e h' h'' => S.mid e h' (by rw [← (S.same 3 (by omega) e).1]; exact h'')) j e hj he
  have s2 : ∀ e, curveAt (E 2) e = curveAt el e := fun e => (S.same 2 (by omega) e).curve
  have s3 : ∀ e, curveAt (E 3) e = curveAt el e := fun e => (S.same 3 (by omega) e).curve
  -- the lateral edges of the low half in elements 1 and 4, slanted ones included
  have hlat : ∀ j < 6, ∀ t < 2, ∀ q < 2, curveAt (midFinal (split4 h) zz E j) ((split4 h).lat q + 4 * t) =
      latDir h q ((latPart rt el h q (figure j false t).1 (figure j true t).1).atZ ((zz (figure j false t).2 + zz (figure j true t).2) / 2)) := by
    intro j hj t ht q hq
    have l4 : (split4 h).lat q < 4 := by
      have h2 : q = 0 ∨ q = 1 := by omega
      rcases h2 with rfl | rfl
      · exact f4
      · exact f5
    have n1 : (split4 h).lat q ≠ (split4 h).ehi := by
      have h2 : q = 0 ∨ q = 1 := by omega
      rw [f1]; rcases h2 with rfl | rfl
      · exact f7
      · exact f8
    have n2 : (split4 h).lat q ≠ (split4 h).elo := by
      have h2 : q = 0 ∨ q = 1 := by omega
      rw [f2]; rcases h2 with rfl | rfl
      · exact f9
      · exact f10
    rw [low j _ hj (by omega)]
    have ht2 : t = 0 ∨ t = 1 := by omega
    have h6 : j = 0 ∨ j = 1 ∨ j = 2 ∨ j = 3 ∨ j = 4 ∨ j = 5 := by omega
    have m0 : (split4 h).lat q % 4 = (split4 h).lat q := Nat.mod_eq_of_lt l4
    have nb : ¬ (split4 h).lat q + 4 < 4 := by omega
    have c0 : curveAt el ((split4 h).lat q) = latDir h q (latCurve el h q) := by rw [latCurve_eq el h q hh hq, latDir_rev]
    have p02 : latPart rt el h q 0 2 = latCurve el h q := by simp [latPart]
    have half : ∀ x : F, (x + x) / 2 = x := fun x => by ring
    have half' : ∀ x y : F, 1 / 2 * (x + y) = (x + y) / 2 := fun x y => by ring
    rcases ht2 with rfl | rfl <;> rcases h6 with rfl | rfl | rfl | rfl | rfl | rfl <;>
      simp only [Nat.mul_zero, Nat.mul_one, Nat.add_zero, Nat.add_mod_right, m0, midSrc, figure, midCurvZ, l4, nb, n1, n2, if_true, if_false, or_true, or_false, or_self, one_ne_zero,
        OfNat.ofNat_ne_zero, OfNat.ofNat_ne_one, zero_ne_one, OfNat.zero_ne_ofNat, OfNat.one_ne_ofNat, Nat.reduceEqDiff, S.lat0 q hq, S.lat1 q hq, half, half', s2, s3, c0,
        Nat.add_sub_cancel, Nat.le_add_left, if_neg (Nat.not_le.2 l4), ← latDir_atZ, p02]
    rw [add_comm (zz 2)]
  -- the edges across the column
  have hhi : ∀ j < 6, ∀ t < 2, curveAt (midFinal (split4 h) zz E j) ((split4 h).ehi + 4 * t) =
      if h < 2 then ((if (figure j true t).1 = 1 then blend rt el h else sideCurve el h).atZ (zz (figure j true t).2))
      else ((if (figure j true t).1 = 1 then blend rt el h else sideCurve el h).atZ (zz (figure j true t).2)).rev := by
    intro j hj t ht
    have l4 : (split4 h).ehi < 4 := by omega
    have n1 : (split4 h).ehi ≠ (split4 h).elo := by omega
    rw [low j _ hj (by omega)]
    have ht2 : t = 0 ∨ t = 1 := by omega
    have h6 : j = 0 ∨ j = 1 ∨ j = 2 ∨ j = 3 ∨ j = 4 ∨ j = 5 := by omega
    have m0 : (split4 h).ehi % 4 = (split4 h).ehi := Nat.mod_eq_of_lt l4
    have nb : ¬ (split4 h).ehi + 4 < 4 := by omega
    have c0 : curveAt el (split4 h).ehi = if h < 2 then sideCurve el h else (sideCurve el h).rev := by
      rw [f1]; unfold sideCurve; split_ifs
      · rfl
      · rw [Curve.rev_rev]
    have c1 : curveAt (E 1) (split4 h).ehi = if h < 2 then sideCurve el h else (sideCurve el h).rev := by rw [S.hi1, ← c0, f1]
    rcases ht2 with rfl | rfl <;> rcases h6 with rfl | rfl | rfl | rfl | rfl | rfl <;>
      simp only [Nat.mul_zero, Nat.mul_one, Nat.add_zero, Nat.add_mod_right, m0, midSrc, figure, midCurvZ, l4, nb, n1, if_true, if_false, or_true, or_false, or_self, one_ne_zero,
        OfNat.ofNat_ne_zero, OfNat.ofNat_ne_one, zero_ne_one, OfNat.zero_ne_ofNat, OfNat.one_ne_ofNat, Nat.reduceEqDiff, S.hi0, c1, s2, s3, c0,
        Nat.add_sub_cancel, Nat.le_add_left, if_neg (Nat.not_le.2 l4)] <;>
      split_ifs <;> first | rfl | exact Curve.rev_atZ _ _
  have hlo : ∀ j < 6, ∀ t < 2, curveAt (midFinal (split4 h) zz E j) ((split4 h).elo + 4 * t) =
      if h < 2 then ((if (figure j false t).1 = 1 then blend rt el h else sideCurve el (opp h)).atZ (zz (figure j false t).2)).rev
      else ((if (figure j false t).1 = 1 then blend rt el h else sideCurve el (opp h)).atZ (zz (figure j false t).2)) := by
    intro j hj t ht
    have l4 : (split4 h).elo < 4 := by omega
    have n1 : (split4 h).elo ≠ (split4 h).ehi := by omega
    rw [low j _ hj (by omega)]
    have ht2 : t = 0 ∨ t = 1 := by omega
    have h6 : j = 0 ∨ j = 1 ∨ j = 2 ∨ j = 3 ∨ j = 4 ∨ j = 5 := by omega
    have m0 : (split4 h).elo % 4 = (split4 h).elo := Nat.mod_eq_of_lt l4
    have nb : ¬ (split4 h).elo + 4 < 4 := by omega
    have h2 : opp h < 2 ↔ ¬ h < 2 := by
      have : ∀ h < 4, (opp h < 2 ↔ ¬ h < 2) := by decide
      exact this h hh
    have c0 : curveAt el (split4 h).elo = if h < 2 then (sideCurve el (opp h)).rev else sideCurve el (opp h) := by
      rw [f2]; unfold sideCurve
      by_cases hl : h < 2
      · rw [if_pos hl, if_neg (fun h' => h2.1 h' hl), Curve.rev_rev]
      · rw [if_neg hl, if_pos (h2.2 hl)]
    have c1 : curveAt (E 0) (split4 h).elo = if h < 2 then (sideCurve el (opp h)).rev else sideCurve el (opp h) := by rw [S.lo0, ← c0, f2]
    rcases ht2 with rfl | rfl <;> rcases h6 with rfl | rfl | rfl | rfl | rfl | rfl <;>
      simp only [Nat.mul_zero, Nat.mul_one, Nat.add_zero, Nat.add_mod_right, m0, midSrc, figure, midCurvZ, l4, nb, n1, if_true, if_false, or_true, or_false, or_self, one_ne_zero,
        OfNat.ofNat_ne_zero, OfNat.ofNat_ne_one, zero_ne_one, OfNat.zero_ne_ofNat, OfNat.one_ne_ofNat, Nat.reduceEqDiff, S.lo1, c1, s2, s3, c0,
        Nat.add_sub_cancel, Nat.le_add_left, if_neg (Nat.not_le.2 l4)] <;>
      split_ifs <;> first | rfl | exact Curve.rev_atZ _ _
  -- the columns of the corners in the figure
  have figH : ∀ j < 6, ∀ t < 2, (figure j true t).1 = 1 ∨ (figure j true t).1 = 2 := by decide
  have figL : ∀ j < 6, ∀ t < 2, (figure j false t).1 = 0 ∨ (figure j false t).1 = 1 := by decide
  have figLH : ∀ j < 6, ∀ t < 2, (figure j false t).1 < (figure j true t).1 := by decide
  by_cases h8 : e < 8
  · obtain ⟨r, t, hr, ht, rfl⟩ : ∃ r t, r < 4 ∧ t < 2 ∧ e = r + 4 * t := ⟨e % 4, e / 4, by omega, by omega, by omega⟩
    have lat : ∀ q < 2, curveAt (midFinal (split4 h) zz E j) ((split4 h).lat q + 4 * t) =
        edgeCurve rt el h zz (vtxFrom h 0 j ((split4 h).lat q + 4 * t)) (vtxTo h 0 j ((split4 h).lat q + 4 * t)) := by
      intro q hq
      rw [hlat j hj t ht q hq, (vtx_lat h hh j hj t ht q hq).1, (vtx_lat h hh j hj t ht q hq).2]
      have hlt := figLH j hj t ht
      unfold latDir edgeCurve
      by_cases hd : (h < 2 ↔ q = 0)
      · rw [if_pos hd, if_pos hd, if_pos hd]
        dsimp only
        rw [if_neg (fun h => h rfl), if_neg hlt.ne, if_pos hlt, min_eq_left hlt.le, max_eq_right hlt.le]
      · rw [if_neg hd, if_neg hd, if_neg hd]
        dsimp only
        rw [if_neg (fun h => h rfl), if_neg hlt.ne', if_neg (by omega), min_eq_right hlt.le, max_eq_left hlt.le,
          add_comm (zz (figure j true t).2)]
    rcases split4_cases h hh r hr with rfl | rfl | rfl | rfl
    · rw [hhi j hj t ht, (vtx_high h hh j hj t ht).1, (vtx_high h hh j hj t ht).2]
      unfold edgeCurve
      by_cases hl : h < 2 <;> rcases figH j hj t ht with hf | hf <;> simp [hl, hf]
    · rw [hlo j hj t ht, (vtx_low h hh j hj t ht).1, (vtx_low h hh j hj t ht).2]
      unfold edgeCurve
      by_cases hl : h < 2 <;> rcases figL j hj t ht with hf | hf <;> simp [hl, hf]
    · exact lat 0 (by omega)
    · exact lat 1 (by omega)
  · obtain ⟨k, hk, rfl⟩ : ∃ k, k < 4 ∧ e = 8 + k := ⟨e - 8, by omega, by omega⟩
    rw [midFinal_vertical (split4 h) ⟨f12, f13, f14⟩ zz E j (8 + k) hj (by omega) (fun j _ => S.vert j _ (by omega) he)]
    have up : ∀ q < 2, latDir h q (curveAt (midFinal (split4 h) zz E 1) ((split4 h).lat q + 4)) = (latPart rt el h q 1 2).atZ ((zz 1 + zz 2) / 2) := by
      intro q hq
      rw [show (split4 h).lat q + 4 = (split4 h).lat q + 4 * 1 by ring, hlat 1 (by omega) 1 (by omega) q hq, latDir_rev]
      rfl
    have dn : ∀ q < 2, latDir h q (curveAt (midFinal (split4 h) zz E 4) ((split4 h).lat q)) = (latPart rt el h q 1 2).atZ ((zz 3 + zz 2) / 2) := by
      intro q hq
      rw [show (split4 h).lat q = (split4 h).lat q + 4 * 0 by ring, hlat 4 (by omega) 0 (by omega) q hq, latDir_rev]
      rfl
    have nr : ∀ q t, latDir h q ((latPart rt el h q 1 2).atZ t) = (latPart rt el h q 1 2).atZ t := by
      intro q t
      unfold latPart latDir
      simp only [show ¬ ((1 : Nat) = 0 ∧ (2 : Nat) = 1) by omega, if_false, if_true]
      split_ifs
      · rfl
      · cases latCurve el h q <;> rfl
    have up' : ∀ q < 2, curveAt (midFinal (split4 h) zz E 1) ((split4 h).lat q + 4) = (latPart rt el h q 1 2).atZ ((zz 1 + zz 2) / 2) := by
      intro q hq; rw [← nr, ← up q hq, latDir_rev]
    have dn' : ∀ q < 2, curveAt (midFinal (split4 h) zz E 4) ((split4 h).lat q) = (latPart rt el h q 1 2).atZ ((zz 3 + zz 2) / 2) := by
      intro q hq; rw [← nr, ← dn q hq, latDir_rev]
    have rv : ∀ q t, ((latPart rt el h q 1 2).atZ t).rev = (latPart rt el h q 1 2).atZ t := by
      intro q t
      unfold latPart
      simp only [show ¬ ((1 : Nat) = 0 ∧ (2 : Nat) = 1) by omega, if_false, if_true]
      cases latCurve el h q <;> rfl
    have con2 : ∀ q < 2, edgeCurve rt el h zz (vtxFrom h 0 2 ((split4 h).con q)) (vtxTo h 0 2 ((split4 h).con q)) =
        (latPart rt el h q 1 2).atZ ((zz 1 + zz 2) / 2) := by
      intro q hq
      rw [(vtx_con h hh 2 (by omega) q hq).1, (vtx_con h hh 2 (by omega) q hq).2]
      simp [edgeCurve, figure]
    have con3 : ∀ q < 2, edgeCurve rt el h zz (vtxFrom h 0 3 ((split4 h).con q)) (vtxTo h 0 3 ((split4 h).con q)) =
        (latPart rt el h q 1 2).atZ ((zz 3 + zz 2) / 2) := by
      intro q hq
      rw [(vtx_con h hh 3 (by omega) q hq).1, (vtx_con h hh 3 (by omega) q hq).2]
      simp [edgeCurve, figure, rv, add_comm]
    by_cases g1 : j = 2 ∧ 8 + k = (split4 h).con 0
    · rw [if_pos g1, g1.1, g1.2, up' 0 (by omega), con2 0 (by omega)]
    rw [if_neg g1]
    by_cases g2 : j = 2 ∧ 8 + k = (split4 h).con 1
    · rw [if_pos g2, g2.1, g2.2, up' 1 (by omega), con2 1 (by omega)]
    rw [if_neg g2]
    by_cases g3 : j = 3 ∧ 8 + k = (split4 h).con 0
    · rw [if_pos g3, g3.1, g3.2, dn' 0 (by omega), con3 0 (by omega)]
    rw [if_neg g3]
    by_cases g4 : j = 3 ∧ 8 + k = (split4 h).con 1
    · rw [if_pos g4, g4.1, g4.2, dn' 1 (by omega), con3 1 (by omega)]
    rw [if_neg g4]
    rcases vtx_vertical h hh j hj k hk with hv | hv
    · exfalso
      rcases hv with ⟨rfl | rfl, hv | hv⟩
      · exact g1 ⟨rfl, hv⟩
      · exact g2 ⟨rfl, hv⟩
      · exact g3 ⟨rfl, hv⟩
      · exact g4 ⟨rfl, hv⟩
    · unfold edgeCurve
      rw [if_neg (fun h => h hv.1), if_pos hv.2]

/-- The ends of the lateral sides that are curves through a point differ. -/
def Spec.LatApart (el : Elem F) (h : Nat) : Prop :=
  ∀ q < 2, el.ccurv (latSide h q) = ['m'] → ((sidePt el (opp h) q).x, (sidePt el (opp h) q).y) ≠ ((sidePt el h q).x, (sidePt el h q).y)

theorem latSide_eq : ∀ h < 4, ∀ q < 2, latSide h q = (split4 h).lat q := by decide

theorem upper_ends (el b : Elem F) (h q : Nat) (hh : h < 4) (hq : q < 2) (pm : Nat → V3 F) (zz : Nat → F)
    (hb : b.pos = midPos (split4 h) (loPt (split4 h) el) pm (hiPt (split4 h) el) zz 1) :
    ((h < 2 ↔ q = 0) → edgeFrom b ((split4 h).lat q) = ⟨(pm q).x, (pm q).y, zz 0⟩ ∧
      edgeTo b ((split4 h).lat q) = ⟨(sidePt el h q).x, (sidePt el h q).y, zz 0⟩) ∧
    (¬ (h < 2 ↔ q = 0) → edgeTo b ((split4 h).lat q) = ⟨(pm q).x, (pm q).y, zz 0⟩ ∧
      edgeFrom b ((split4 h).lat q) = ⟨(sidePt el h q).x, (sidePt el h q).y, zz 0⟩) := by
  have h4 : h = 0 ∨ h = 1 ∨ h = 2 ∨ h = 3 := by omega
  have h2 : q = 0 ∨ q = 1 := by omega
  unfold edgeFrom edgeTo point
  rw [hb]
  rcases h4 with rfl | rfl | rfl | rfl <;> rcases h2 with rfl | rfl <;>
    refine ⟨fun h => ?_, fun h => ?_⟩ <;>
    first | exact ⟨rfl, rfl⟩ | (exfalso; revert h; decide)

theorem mid_ends (el b : Elem F) (h : Nat) (hh : h < 4) (pm : Nat → V3 F) (zz : Nat → F)
    (hb : b.pos = midPos (split4 h) (loPt (split4 h) el) pm (hiPt (split4 h) el) zz 0) :
    if h < 2 then edgeFrom b (split4 h).ehi = ⟨(pm 0).x, (pm 0).y, zz 0⟩ ∧ edgeTo b (split4 h).ehi = ⟨(pm 1).x, (pm 1).y, zz 0⟩
    else edgeFrom b (split4 h).ehi = ⟨(pm 1).x, (pm 1).y, zz 0⟩ ∧ edgeTo b (split4 h).ehi = ⟨(pm 0).x, (pm 0).y, zz 0⟩ := by
  have h4 : h = 0 ∨ h = 1 ∨ h = 2 ∨ h = 3 := by omega
  unfold edgeFrom edgeTo point
  rw [hb]
  rcases h4 with rfl | rfl | rfl | rfl <;> exact ⟨rfl, rfl⟩

theorem arcMid_xy (rt : F → F) (R : F) (p q : V3 F) (s t : F) :
    (Curve.through (arcMid rt R ⟨p.x, p.y, s⟩ ⟨q.x, q.y, s⟩)).atZ t = (Curve.through (arcMid rt R p q)).atZ t := rfl

/-- One lateral side: its two halves in the elements 0 and 1. -/
theorem midHalf_lat (rt : F → F) (el a0 a1 : Elem F) (h q : Nat) (hh : h < 4) (hq : q < 2) (hp : PlainCurves el) (hw : LatApart el h) (pm : Nat → V3 F)
    (hpm : pm q = colPt rt el h q 1) (zz : Nat → F) (ha : a1.pos = midPos (split4 h) (loPt (split4 h) el) pm (hiPt (split4 h) el) zz 1)
    (h0 : SameAt a0 el ((split4 h).lat q)) (h1 : SameAt a1 el ((split4 h).lat q)) (r : Elem F × Elem F)
    (hr : midHalf rt ((split4 h).lat q) (loPt (split4 h) el q) (pm q) (hiPt (split4 h) el q) (el.ccurv ((split4 h).lat q)) a0 a1 = .ok r) :
    (∀ e', e' ≠ (split4 h).lat q → SameAt r.1 a0 e' ∧ SameAt r.2 a1 e') ∧ r.1.ccurv ((split4 h).lat q) = el.ccurv ((split4 h).lat q) ∧
    (∀ t, (curveAt r.1 ((split4 h).lat q)).atZ t = latDir h q ((latPart rt el h q 0 1).atZ t)) ∧
    (∀ t, (curveAt r.2 ((split4 h).lat q)).atZ t = latDir h q ((latPart rt el h q 1 2).atZ t)) := by
  have l4 : (split4 h).lat q < 4 := by
    have : ∀ h < 4, ∀ q < 2, (split4 h).lat q < 4 := by decide
    exact this h hh q hq
  have he : HasEdge a1 ((split4 h).lat q) := by
    unfold HasEdge
    rw [ha]
    exact ⟨by omega, le_refl _, le_refl _, (by decide : 1 ≤ 2), fun _ => le_refl _⟩
  have hlo := (loPt_eq el h q hh hq).1
  have hhi := (loPt_eq el h q hh hq).2
  have hw' := hw q hq
  rw [latSide_eq h hh q hq] at hw'
  obtain ⟨v1, v2, v3, v4, v5⟩ := midHalf_curve rt _ _ _ _ _ a0 a1 he (hp.1 _ l4) h0.1 h1.1 (by rw [hlo, hhi]; exact hw') r hr
  refine ⟨v1, v2, ?_⟩
  have hlc := latCurve_eq el h q hh hq
  obtain ⟨w1, w2⟩ := upper_ends el a1 h q hh hq pm zz ha
  rw [hlo, hhi, hpm] at v4
  rcases hp.1 _ l4 with t | t | t
  · have hc : curveAt el ((split4 h).lat q) = .straight := by simp [curveAt, t]
    have hl : latCurve el h q = .straight := by rw [hlc, hc]; unfold latDir; split_ifs <;> rfl
    rw [(v3 t).1, (v3 t).2]
    constructor <;> intro s <;> simp [latPart, hl, latDir, Curve.atZ, Curve.rev]
  · obtain ⟨m, hc⟩ : ∃ m, curveAt el ((split4 h).lat q) = .through m := ⟨_, by simp [curveAt, t]; rfl⟩
    have hl : latCurve el h q = .through m := by rw [hlc, hc]; unfold latDir; split_ifs <;> rfl
    constructor <;> intro s
    · rw [(v4 t s).1]; simp [latPart, hl, latDir, Curve.atZ, Curve.rev]
    · rw [(v4 t s).2]; simp [latPart, hl, latDir, Curve.atZ, Curve.rev]
  · have hc : curveAt el ((split4 h).lat q) = .arc (el.curv ((split4 h).lat q) 0) := by simp [curveAt, t]
    rw [(v5 t).1, (v5 t).2, h0.2, h1.2]
    by_cases hd : (h < 2 ↔ q = 0)
    · have hl : latCurve el h q = .arc (el.curv ((split4 h).lat q) 0) := by rw [hlc, hc]; unfold latDir; rw [if_pos hd]
      rw [(w1 hd).1, (w1 hd).2, hpm]
      constructor <;> intro s
      · simp [latPart, hl, latDir, Curve.atZ, hd]
      · rw [arcMid_xy]; simp [latPart, hl, latDir, Curve.atZ, hd]
    · have hl : latCurve el h q = .arc (-el.curv ((split4 h).lat q) 0) := by rw [hlc, hc]; unfold latDir; rw [if_neg hd]; rfl
      rw [(w2 hd).1, (w2 hd).2, hpm]
      constructor <;> intro s
      · unfold latDir; rw [if_neg hd]; simp [latPart, hl, Curve.atZ, Curve.rev]
      · rw [arcMid_xy, ← arcMid_rev]; unfold latDir; rw [if_neg hd]; simp [latPart, hl, Curve.atZ, Curve.rev]

theorem midElem_sides (rt : F → F) (f : F → F → F) (ib : Bool) (nbc n : Nat) (z : List F) (kb i : Nat) (base base' : Elem F) (E : Nat → Elem F)
    (hc : HasCorners base) {h : Nat} (H : HighSide f base h) (hp : PlainCurves base) (hw : LatApart base h)
    (hE : midElem rt f ib nbc n z kb i base = .ok (base', E)) :
    ∃ A, MidSides rt base h A ∧ ∀ j, ∃ b, E j = { midFinal (split4 h) (fun l => z.getD (4 * kb + l) 0) A j with bcs := b } := by
  have hh := H.1
  obtain ⟨f1, f2, f3, f4, f5, f6, f7, f8, f9, f10, f11, f12, f13, f14⟩ := split4_facts h hh
  obtain ⟨⟨lo, hi⟩, c1, hsp⟩ := classify_high hc H
  have he : ∀ e < 4, HasEdge base e := fun e h => ⟨by omega, hc.1, hc.2.1, hc.2.2, fun _ => by omega⟩
  have hns : ¬ ∃ e < 4, base.ccurv e = ['s'] := by
    rintro ⟨e, h4, h'⟩
    rcases hp.1 e h4 with a | a | a <;> rw [a] at h' <;> exact absurd h' (by decide)
  generalize hS : split4 h = sp at *
  obtain ⟨b1, q1, q2, q3⟩ := edgeMid_mut rt base (sp.lat 0) (he _ f4)
  obtain ⟨b2, p1, p2, p3⟩ := edgeMid_mut rt b1 (sp.lat 1) (q2.but.hasEdge (he _ f5))
  rw [midVal_congr rt q2 (sp.lat 1) (q3 _ (Ne.symm f11))] at p1
  have q12 := q2.trans p2
  have keep : ∀ e, e ≠ sp.lat 0 → e ≠ sp.lat 1 → b2.curv e = base.curv e := fun e h0 h1 => by rw [p3 e h1, q3 e h0]
  set pm := pair (midVal rt base (sp.lat 0)) (midVal rt base (sp.lat 1)) with hpm
  set zz : Nat → F := fun j => z.getD (4 * kb + j) 0 with hzz
  set E0 : Nat → Elem F := fun iell => { base with pos := midPos sp (loPt sp base) pm (hiPt sp base) zz iell } with hE0
  have he3 : ∀ iell, ∀ e < 4, HasEdge (E0 iell) e := fun iell e h => ⟨by omega, le_refl _, le_refl _, (by decide : 1 ≤ 2), fun _ => le_refl _⟩
  obtain ⟨⟨b3, e0, e1⟩, r1, r2, r3, r4⟩ := midEdge_ok rt sp (loPt sp base) pm (hiPt sp base) (zz 0) b2 (E0 0) (E0 1) (q12.but.hasEdge (he _ (by omega)))
    (q12.but.hasEdge (he _ (by omega))) (he3 _ _ (by omega))
  dsimp only at r2 r3 r4
  obtain ⟨⟨e0', e1'⟩, s1, s2, s3⟩ := midHalf_ok rt (sp.lat 0) (loPt sp base 0) (pm 0) (hiPt sp base 0) (base.ccurv (sp.lat 0)) e0 e1
    (r4.hasEdge (he3 _ _ f4))
  dsimp only at s2 s3
  have s3' := r4.trans s3
  obtain ⟨⟨e0'', e1''⟩, t1, t2, t3⟩ := midHalf_ok rt (sp.lat 1) (loPt sp base 1) (pm 1) (hiPt sp base 1) (base.ccurv (sp.lat 1)) e0' e1'
    (s3'.hasEdge (he3 _ _ f5))
  dsimp only at t2 t3
  set A : Nat → Elem F := fun iell => if iell = 0 then e0'' else if iell = 1 then e1'' else E0 iell with hA
  refine ⟨A, ?_, fun j => ⟨midBcs sp ib nbc n kb (6 * (i + n * kb)) j base.bcs, ?_⟩⟩
  swap
  · unfold midElem at hE
    rw [c1] at hE
    simp only [bind, Except.bind] at hE
    rw [hsp, q1] at hE
    simp only at hE
    rw [p1] at hE
    simp only at hE
    rw [if_neg hns] at hE
    erw [r1] at hE
    simp only at hE
    erw [s1] at hE
    simp only at hE
    erw [t1] at hE
    have := congrArg Prod.snd (Except.ok.inj hE)
    exact (congrFun this j).symm
  -- the edge between the elements 0 and 1
  have ends := mid_ends base (E0 0) h hh pm zz (by rw [hS])
  have hz : (edgeFrom (E0 0) sp.ehi).z = zz 0 ∧ (edgeTo (E0 0) sp.ehi).z = zz 0 := by
    rw [hS] at ends
    split_ifs at ends <;> rw [ends.1, ends.2] <;> exact ⟨rfl, rfl⟩
  obtain ⟨u1, u2, u3, u4, u5⟩ := midEdge_curve rt sp (loPt sp base) pm (hiPt sp base) (zz 0) b2 (E0 0) (E0 1) (q12.but.hasEdge (he _ (by omega)))
    (q12.but.hasEdge (he _ (by omega))) (he3 _ _ (by omega)) (by omega) (by rw [q12.ccurv]; exact hp.1 _ (by omega)) (by rw [q12.ccurv]; exact hp.1 _ (by omega))
    (by rw [q12.ccurv]) (by rw [q12.ccurv]) hz.1 hz.2 _ r1
  dsimp only at u1 u2 u3 u4 u5
  have hmm : midMM (loPt sp base) pm (hiPt sp base) (midVal rt b2 sp.ehi) (midVal rt b2 sp.elo) = blendMid rt base h := by
    rw [midVal_congr rt q12 sp.ehi (keep _ (by omega) (by omega)), midVal_congr rt q12 sp.elo (keep _ (by omega) (by omega)), ← midMM_eq rt base hp h hh, hS]
  have hB : midB rt sp b2 (blendMid rt base h) (edgeFrom (E0 0) sp.ehi) (edgeTo (E0 0) sp.ehi) = if h < 2 then blend rt base h else (blend rt base h).rev := by
    rw [← blend_eq rt base hp h hh _ _ (zz 0) ?_, hS]
    · unfold midB; rw [q12.ccurv]
    · have p0 : pm 0 = colPt rt base h 0 1 := by rw [colPt_mid rt base hp h 0 hh (by omega), hS]; rfl
      have p1 : pm 1 = colPt rt base h 1 1 := by rw [colPt_mid rt base hp h 1 hh (by omega), hS]; rfl
      rw [← p0, ← p1, ← hS]; exact ends
  rw [hmm, hB] at u3 u4
  have sm : ∀ j e, SameAt (E0 j) base e := fun _ _ => ⟨rfl, rfl⟩
  -- the lateral edges
  obtain ⟨v1, v2, v3, v4⟩ := midHalf_lat rt base e0 e1 h 0 hh (by omega) hp hw pm (by rw [colPt_mid rt base hp h 0 hh (by omega), hS]; rfl) zz
    (by rw [r4, hS]) (by rw [hS]; exact (u1 _ (by omega)).trans (sm 0 _)) (by rw [hS]; exact (u2 _ (by omega)).trans (sm 1 _)) (e0', e1') (by rw [hS]; exact s1)
  dsimp only at v1 v2 v3 v4
  rw [hS] at v1 v2 v3 v4
  obtain ⟨w1, w2, w3, w4⟩ := midHalf_lat rt base e0' e1' h 1 hh (by omega) hp hw pm (by rw [colPt_mid rt base hp h 1 hh (by omega), hS]; rfl) zz
    (by rw [s3', hS]) (by rw [hS]; exact ((v1 _ (Ne.symm f11)).1.trans (u1 _ (by omega))).trans (sm 0 _))
    (by rw [hS]; exact ((v1 _ (Ne.symm f11)).2.trans (u2 _ (by omega))).trans (sm 1 _)) (e0'', e1'') (by rw [hS]; exact t1)
  dsimp only at w1 w2 w3 w4
  rw [hS] at w1 w2 w3 w4
  have k0 : ∀ e, e ≠ sp.lat 0 → e ≠ sp.lat 1 → SameAt e0'' e0 e := fun e g0 g1 => (w1 e g1).1.trans (v1 e g0).1
  have k1 : ∀ e, e ≠ sp.lat 0 → e ≠ sp.lat 1 → SameAt e1'' e1 e := fun e g0 g1 => (w1 e g1).2.trans (v1 e g0).2
  have A0 : A 0 = e0'' := rfl
  have A1 : A 1 = e1'' := rfl
  refine ⟨?_, ?_, ?_, ?_, ?_, ?_, ?_, ?_, ?_⟩
  · rw [A0, hS, (k0 _ (by omega) (by omega)).curve, (u1 _ (by omega)).curve, f2]; rfl
  · rw [A0, hS, (k0 _ (by omega) (by omega)).curve, u3]
  · rw [A1, hS, (k1 _ (by omega) (by omega)).curve, u4]
    split_ifs
    · rfl
    · exact Curve.rev_rev _
  · rw [A1, hS, (k1 _ (by omega) (by omega)).curve, (u2 _ (by omega)).curve, f1]; rfl
  · intro q hq t
    have h2 : q = 0 ∨ q = 1 := by omega
    rw [A0, hS]
    rcases h2 with rfl | rfl
    · rw [(w1 _ f11).1.curve]; exact v3 t
    · exact w3 t
  · intro q hq t
    have h2 : q = 0 ∨ q = 1 := by omega
    rw [A1, hS]
    rcases h2 with rfl | rfl
    · rw [(w1 _ f11).2.curve]; exact v4 t
    · exact w4 t
  · intro j hj e
    have : A j = E0 j := by simp only [hA]; rw [if_neg (by omega), if_neg (by omega)]
    rw [this]; exact sm j e
  · intro e he4 hm
    rw [A0]
    by_cases g0 : e = sp.lat 0
    · rw [g0, (w1 _ f11).1.1, v2, ← g0, hm]
    by_cases g1 : e = sp.lat 1
    · rw [g1, w2, ← g1, hm]
    rw [(k0 e g0 g1).1]
    by_cases g2 : e = sp.ehi
    · rw [g2]; apply u5; rw [q12.ccurv, ← g2, hm]
    · rw [(u1 e g2).1]; exact hm
  · intro j e h8 h12
    simp only [hA]
    split_ifs
    · rw [(k0 e (by omega) (by omega)).1, (u1 e (by omega)).1]; exact hp.2 e h8 h12
    · rw [(k1 e (by omega) (by omega)).1, (u2 e (by omega)).1]; exact hp.2 e h8 h12
    · exact hp.2 e h8 h12

/-! ### C107: every edge -/

/-- The vertices of the elements. -/
theorem mid_vertex (rt : F → F) (el b : Elem F) (h j : Nat) (hh : h < 4) (hj : j < 6) (pm : Nat → V3 F) (hpm : ∀ q < 2, pm q = colPt rt el h q 1) (zz : Nat → F)
    (hb : b.pos = midPos (split4 h) (loPt (split4 h) el) pm (hiPt (split4 h) el) zz j) (v : Nat × Nat × Nat) (hv : v.1 < 2 ∧ v.2.1 < 2 ∧ v.2.2 < 2) :
    point b v = vtxPt rt el h zz (vtx h 0 j v) := by
  obtain ⟨vx, vy, vz⟩ := v
  obtain ⟨h1, h2, h3⟩ := hv
  dsimp only at h1 h2 h3
  have hl := fun q hq => (loPt_eq el h q hh hq).1
  have hi := fun q hq => (loPt_eq el h q hh hq).2
  have h4 : h = 0 ∨ h = 1 ∨ h = 2 ∨ h = 3 := by omega
  have h6 : j = 0 ∨ j = 1 ∨ j = 2 ∨ j = 3 ∨ j = 4 ∨ j = 5 := by omega
  have k1 : vx = 0 ∨ vx = 1 := by omega
  have k2 : vy = 0 ∨ vy = 1 := by omega
  have k3 : vz = 0 ∨ vz = 1 := by omega
  have p0 := hpm 0 (by omega)
  have p1 := hpm 1 (by omega)
  unfold point
  rw [hb]
  rcases h4 with rfl | rfl | rfl | rfl <;> rcases h6 with rfl | rfl | rfl | rfl | rfl | rfl <;> rcases k1 with rfl | rfl <;> rcases k2 with rfl | rfl <;>
    rcases k3 with rfl | rfl <;>
    first
    | rfl
    | (change (⟨(pm 0).x, (pm 0).y, _⟩ : V3 F) = _; rw [p0]; rfl)
    | (change (⟨(pm 1).x, (pm 1).y, _⟩ : V3 F) = _; rw [p1]; rfl)

theorem edgeVertex_lt : ∀ e < 12, ((edgeVertex.getD e ((0, 0, 0), (0, 0, 0))).1.1 < 2 ∧ (edgeVertex.getD e ((0, 0, 0), (0, 0, 0))).1.2.1 < 2 ∧
    (edgeVertex.getD e ((0, 0, 0), (0, 0, 0))).1.2.2 < 2) ∧ (edgeVertex.getD e ((0, 0, 0), (0, 0, 0))).2.1 < 2 ∧
    (edgeVertex.getD e ((0, 0, 0), (0, 0, 0))).2.2.1 < 2 ∧ (edgeVertex.getD e ((0, 0, 0), (0, 0, 0))).2.2.2 < 2 := by decide

theorem vtxPt_shift (rt : F → F) (el : Elem F) (h kb j : Nat) (z : Nat → F) (v : Nat × Nat × Nat) :
    vtxPt rt el h z (vtx h kb j v) = vtxPt rt el h (fun l => z (4 * kb + l)) (vtx h 0 j v) := by
  unfold vtx vtxPt
  simp only [Nat.mul_zero, Nat.zero_add]

/-- The ends and the curves of the edges of one column. -/
theorem MidDesc.curves {rt : F → F} {f : F → F → F} {ib : Bool} {z : List F} {l1 l2 : List Name} {nb : Nat} {M R : HexaData F} {kb i : Nat}
    (D : MidDesc rt f ib z l1 l2 nb M R kb i) (hc : HasCorners (M.el i)) {h : Nat} (H : HighSide f (M.el i) h) (hp : PlainCurves (M.el i)) (hw : LatApart (M.el i) h)
    (hk : kb = 0 ∨ ∀ e, (M.el i).ccurv e ≠ ['C']) (j e : Nat) (hj : j < 6) (he : e < 12) :
    edgeFrom (R.el (6 * (i + M.nel * kb) + j)) e = vtxPt rt (M.el i) h (fun l => z.getD l 0) (vtxFrom h kb j e) ∧
    edgeTo (R.el (6 * (i + M.nel * kb) + j)) e = vtxPt rt (M.el i) h (fun l => z.getD l 0) (vtxTo h kb j e) ∧
    curveAt (R.el (6 * (i + M.nel * kb) + j)) e = edgeCurve rt (M.el i) h (fun l => z.getD l 0) (vtxFrom h kb j e) (vtxTo h kb j e) := by
  obtain ⟨l, base, E, base', ⟨a1, a1'⟩, a2, a3, a4, a5⟩ := D
  obtain ⟨l', c1, c2⟩ := classify_high hc H
  obtain rfl : l = l' := by rw [a2] at c1; simpa using c1
  obtain rfl : base = M.el i := by
    rcases hk with hk | hk
    · exact a1' hk
    · exact a1.same hk
  rw [c2] at a4
  obtain ⟨S, s1, s2⟩ := midElem_sides rt f ib _ _ z kb i _ base' E hc H hp hw a3
  have hpos : ∀ v : Nat × Nat × Nat, v.1 < 2 ∧ v.2.1 < 2 ∧ v.2.2 < 2 →
      point (R.el (6 * (i + M.nel * kb) + j)) v = vtxPt rt (M.el i) h (fun l => z.getD l 0) (vtx h kb j v) := by
    intro v hv
    rw [vtxPt_shift]
    refine mid_vertex rt (M.el i) _ h j H.1 hj (pair (midVal rt (M.el i) ((split4 h).lat 0)) (midVal rt (M.el i) ((split4 h).lat 1))) (fun q hq => ?_)
      (fun l => z.getD (4 * kb + l) 0) ?_ v hv
    · rw [colPt_mid rt _ hp h q H.1 hq]
      have : q = 0 ∨ q = 1 := by omega
      rcases this with rfl | rfl <;> rfl
    · rw [a5 j hj]
      exact a4.pos j
  obtain ⟨v1, v2⟩ := edgeVertex_lt e he
  refine ⟨hpos _ v1, hpos _ v2, ?_⟩
  rw [edgeCurve_shift, ← midFinal_curve rt (M.el i) h H.1 (fun l => z.getD (4 * kb + l) 0) S s1 j e hj he, a5 j hj]
  obtain ⟨b, hb⟩ := s2 j
  rw [hb]
  rfl

/-- **C107**, every edge: the ends and the curve of every edge of the new mesh, in the first block, and in all blocks if the element has no
arcs. -/
theorem C107_edges (rt : F → F) (M : HexaData F) (z : List F) (l1 l2 : List Name) (f : F → F → F) (nb : Nat) (A : MidArgs M z l1 l2 f nb)
    (ib : Bool) (h : Nat → Nat) (H : ∀ i < M.nel, HighSide f (M.el i) (h i)) (P : ∀ i < M.nel, PlainCurves (M.el i) ∧ LatApart (M.el i) (h i)) :
    ∃ M' R, extrudeMid rt M z l1 l2 f ib = .ok (M', R) ∧ ∀ kb < nb, ∀ i < M.nel, (kb = 0 ∨ ∀ e, (M.el i).ccurv e ≠ ['C']) → ∀ j < 6, ∀ e < 12,
      let el := R.el (6 * (i + M.nel * kb) + j)
      let zz := fun l => z.getD l 0
      edgeFrom el e = vtxPt rt (M.el i) (h i) zz (vtxFrom (h i) kb j e) ∧ edgeTo el e = vtxPt rt (M.el i) (h i) zz (vtxTo (h i) kb j e) ∧
      curveAt el e = edgeCurve rt (M.el i) (h i) zz (vtxFrom (h i) kb j e) (vtxTo (h i) kb j e) := by
  obtain ⟨M', R, h1, -, -, -, -, h5⟩ := extrudeMid_ok rt A ib
  exact ⟨M', R, h1, fun kb hkb i hi hk j hj e he => (h5 kb hkb i hi).curves (A.corners i hi) (H i hi) (P i hi).1 (P i hi).2 hk j e hj he⟩

/-! ### C107: the new mesh is conforming -/

namespace Spec

/-- The same point of the plane. -/
def SameXY (p q : V3 F) : Prop := p.x = q.x ∧ p.y = q.y

/-- The sides of a plane mesh fit together: two sides with the same ends are the same curve, run through in the same or in the opposite
direction. -/
def ConformsXY (M : HexaData F) : Prop :=
  ∀ i < M.nel, ∀ i' < M.nel, ∀ e < 4, ∀ e' < 4,
    (SameXY (edgeFrom (M.el i) e) (edgeFrom (M.el i') e') → SameXY (edgeTo (M.el i) e) (edgeTo (M.el i') e') →
      (curveAt (M.el i) e).atZ 0 = (curveAt (M.el i') e').atZ 0) ∧
    (SameXY (edgeFrom (M.el i) e) (edgeTo (M.el i') e') → SameXY (edgeTo (M.el i) e) (edgeFrom (M.el i') e') →
      (curveAt (M.el i) e).atZ 0 = ((curveAt (M.el i') e').rev).atZ 0)

/-- The edges of a mesh in space fit together. -/
def Conforms (M : HexaData F) : Prop :=
  ∀ i < M.nel, ∀ i' < M.nel, ∀ e < 12, ∀ e' < 12,
    (edgeFrom (M.el i) e = edgeFrom (M.el i') e' → edgeTo (M.el i) e = edgeTo (M.el i') e' → curveAt (M.el i) e = curveAt (M.el i') e') ∧
    (edgeFrom (M.el i) e = edgeTo (M.el i') e' → edgeTo (M.el i) e = edgeFrom (M.el i') e' → curveAt (M.el i) e = (curveAt (M.el i') e').rev)

/-- The plane mesh is not degenerate: the corners of an element and the middles of the two sides that are split are six different points; the
middle of such a side is no corner, and it is the middle of another one only if these sides have the same ends; and no two elements have both
of these sides in common. -/
structure MidRegular (rt : F → F) (M : HexaData F) (h : Nat → Nat) : Prop where
  inner : ∀ i < M.nel, ∀ q < 2, ∀ q' < 2, ∀ c < 3, ∀ c' < 3, SameXY (colPt rt (M.el i) (h i) q c) (colPt rt (M.el i) (h i) q' c') → q = q' ∧ c = c'
  mids : ∀ i < M.nel, ∀ i' < M.nel, ∀ q < 2, ∀ q' < 2, ∀ c < 3, SameXY (colPt rt (M.el i) (h i) q 1) (colPt rt (M.el i') (h i') q' c) →
    c = 1 ∧ SameXY (sidePt (M.el i) (opp (h i)) q) (sidePt (M.el i') (opp (h i')) q') ∧ SameXY (sidePt (M.el i) (h i) q) (sidePt (M.el i') (h i') q')
  cells : ∀ i < M.nel, ∀ i' < M.nel, (∀ q < 2, ∃ q' < 2, SameXY (sidePt (M.el i) (opp (h i)) q) (sidePt (M.el i') (opp (h i')) q') ∧
    SameXY (sidePt (M.el i) (h i) q) (sidePt (M.el i') (h i') q')) → i = i'

end Spec

theorem Spec.SameXY.symm {p q : V3 F} (h : SameXY p q) : SameXY q p := ⟨h.1.symm, h.2.symm⟩
theorem Spec.SameXY.trans {p q r : V3 F} (h : SameXY p q) (k : SameXY q r) : SameXY p r := ⟨h.1.trans k.1, h.2.trans k.2⟩

/-- Low corners are not high corners. -/
theorem high_sign {f : F → F → F} {el : Elem F} {h : Nat} (H : HighSide f el h) (q : Nat) (hq : q < 2) :
    0 < f (sidePt el h q).x (sidePt el h q).y ∧ ¬ 0 < f (sidePt el (opp h) q).x (sidePt el (opp h) q).y := by
  have k : ∀ h < 4, ∀ q < 2, (sideCorner h q).1 < 2 ∧ (sideCorner h q).2 < 2 ∧ OnSide h (sideCorner h q).1 (sideCorner h q).2 ∧
      (sideCorner (opp h) q).1 < 2 ∧ (sideCorner (opp h) q).2 < 2 ∧ ¬ OnSide h (sideCorner (opp h) q).1 (sideCorner (opp h) q).2 := by decide
  obtain ⟨a1, a2, a3, a4, a5, a6⟩ := k h H.1 q hq
  exact ⟨(H.2 _ a1 _ a2).2 a3, fun hc => a6 ((H.2 _ a4 _ a5).1 hc)⟩

/-- What is known of the two ends of an edge. -/
def EdgePair (a b : Vtx) : Prop := a.q < 2 ∧ b.q < 2 ∧ a.col < 3 ∧ b.col < 3 ∧ (a.q ≠ b.q → a.col = b.col ∧ a.lev = b.lev)

theorem EdgePair.symm {a b : Vtx} (h : EdgePair a b) : EdgePair b a :=
  ⟨h.2.1, h.1, h.2.2.2.1, h.2.2.1, fun k => ⟨(h.2.2.2.2 (Ne.symm k)).1.symm, (h.2.2.2.2 (Ne.symm k)).2.symm⟩⟩

set_option synthInstance.maxSize 500 in
theorem edgePair (h kb j e : Nat) (hh : h < 4) (hj : j < 6) (he : e < 12) : EdgePair (vtxFrom h kb j e) (vtxTo h kb j e) := by
  have k : ∀ h < 4, ∀ j < 6, ∀ e < 12, (vtxFrom h 0 j e).q < 2 ∧ (vtxTo h 0 j e).q < 2 ∧ (vtxFrom h 0 j e).col < 3 ∧ (vtxTo h 0 j e).col < 3 ∧
      ((vtxFrom h 0 j e).q ≠ (vtxTo h 0 j e).q → (vtxFrom h 0 j e).col = (vtxTo h 0 j e).col ∧ (vtxFrom h 0 j e).lev = (vtxTo h 0 j e).lev) := by decide +kernel
  obtain ⟨a1, a2, a3, a4, a5⟩ := k h hh j hj e he
  refine ⟨a1, a2, a3, a4, fun hq => ⟨(a5 hq).1, ?_⟩⟩
  have := (a5 hq).2
  unfold vtxFrom vtxTo vtx at *
  simp only [Nat.mul_zero, Nat.zero_add] at this
  simp only [this]

/-- The curve in the opposite direction. -/
theorem edgeCurve_rev (rt : F → F) (el : Elem F) (h : Nat) (z : Nat → F) (a b : Vtx) (p : EdgePair a b) :
    edgeCurve rt el h z b a = (edgeCurve rt el h z a b).rev := by
  obtain ⟨a1, a2, a3, a4, a5⟩ := p
  unfold edgeCurve
  by_cases hq : a.q = b.q
  · rw [if_neg (not_not.mpr hq.symm), if_neg (not_not.mpr hq)]
    by_cases hc : a.col = b.col
    · rw [if_pos hc, if_pos hc.symm]; rfl
    · rw [if_neg hc, if_neg (Ne.symm hc)]
      simp only
      rw [min_comm, max_comm, add_comm, hq]
      by_cases hl : a.col < b.col
      · rw [if_pos hl, if_neg (by omega)]
      · rw [if_neg hl, if_pos (by omega), Curve.rev_rev]
  · rw [if_pos hq, if_pos (Ne.symm hq)]
    obtain ⟨hc, hl⟩ := a5 hq
    simp only
    rw [← hc, ← hl]
    by_cases h0 : a.q = 0
    · rw [if_pos h0, if_neg (by omega)]
    · rw [if_neg h0, if_pos (by omega), Curve.rev_rev]

theorem Curve.atZ_eq {c d : Curve F} (h : c.atZ 0 = d.atZ 0) (t : F) : c.atZ t = d.atZ t := by
  rw [← Curve.atZ_atZ c 0 t, h, Curve.atZ_atZ]

theorem latCurve_same {M : HexaData F} (C : ConformsXY M) {i i' h h' q q' : Nat} (hi : i < M.nel) (hi' : i' < M.nel) (hh : h < 4) (hh' : h' < 4)
    (hq : q < 2) (hq' : q' < 2) (lo : SameXY (sidePt (M.el i) (opp h) q) (sidePt (M.el i') (opp h') q'))
    (up : SameXY (sidePt (M.el i) h q) (sidePt (M.el i') h' q')) : (latCurve (M.el i) h q).atZ 0 = (latCurve (M.el i') h' q').atZ 0 := by
  have l4 : ∀ h < 4, ∀ q < 2, (split4 h).lat q < 4 := by decide
  obtain ⟨c1, c2⟩ := C i hi i' hi' _ (l4 h hh q hq) _ (l4 h' hh' q' hq')
  obtain ⟨a, b, -, -⟩ := side_ends (M.el i) h q hh hq
  obtain ⟨a', b', -, -⟩ := side_ends (M.el i') h' q' hh' hq'
  rw [latCurve_eq _ h q hh hq, latCurve_eq _ h' q' hh' hq', latDir_atZ, latDir_atZ]
  unfold latDir
  by_cases hd : (h < 2 ↔ q = 0)
  · obtain ⟨a1, a2⟩ := a hd
    rw [if_pos hd]
    by_cases hd' : (h' < 2 ↔ q' = 0)
    · obtain ⟨a1', a2'⟩ := a' hd'
      rw [if_pos hd']
      exact c1 (by rw [a1, a1']; exact lo) (by rw [a2, a2']; exact up)
    · obtain ⟨b1', b2'⟩ := b' hd'
      rw [if_neg hd', c2 (by rw [a1, b1']; exact lo) (by rw [a2, b2']; exact up), Curve.rev_atZ]
  · obtain ⟨b1, b2⟩ := b hd
    rw [if_neg hd]
    by_cases hd' : (h' < 2 ↔ q' = 0)
    · obtain ⟨a1', a2'⟩ := a' hd'
      rw [if_pos hd', c2 (by rw [b2, a2']; exact up) (by rw [b1, a1']; exact lo), Curve.rev_atZ, Curve.rev_rev]
    · obtain ⟨b1', b2'⟩ := b' hd'
      rw [if_neg hd', c1 (by rw [b2, b2']; exact up) (by rw [b1, b1']; exact lo)]

theorem sideCurve_ends (el : Elem F) (s : Nat) (hs : s < 4) :
    (s < 2 → edgeFrom el s = sidePt el s 0 ∧ edgeTo el s = sidePt el s 1) ∧ (¬ s < 2 → edgeFrom el s = sidePt el s 1 ∧ edgeTo el s = sidePt el s 0) := by
  have h4 : s = 0 ∨ s = 1 ∨ s = 2 ∨ s = 3 := by omega
  rcases h4 with rfl | rfl | rfl | rfl <;> refine ⟨fun h => ?_, fun h => ?_⟩ <;> first | exact ⟨rfl, rfl⟩ | (exfalso; omega)

theorem sideCurve_same {M : HexaData F} (C : ConformsXY M) {i i' s s' : Nat} (hi : i < M.nel) (hi' : i' < M.nel) (hs : s < 4) (hs' : s' < 4) :
    (SameXY (sidePt (M.el i) s 0) (sidePt (M.el i') s' 0) → SameXY (sidePt (M.el i) s 1) (sidePt (M.el i') s' 1) →
      (sideCurve (M.el i) s).atZ 0 = (sideCurve (M.el i') s').atZ 0) ∧
    (SameXY (sidePt (M.el i) s 0) (sidePt (M.el i') s' 1) → SameXY (sidePt (M.el i) s 1) (sidePt (M.el i') s' 0) →
      (sideCurve (M.el i) s).atZ 0 = ((sideCurve (M.el i') s').atZ 0).rev) := by
  obtain ⟨c1, c2⟩ := C i hi i' hi' s hs s' hs'
  obtain ⟨a, b⟩ := sideCurve_ends (M.el i) s hs
  obtain ⟨a', b'⟩ := sideCurve_ends (M.el i') s' hs'
  unfold sideCurve
  rw [Curve.rev_atZ] at c2
  by_cases hd : s < 2 <;> by_cases hd' : s' < 2
  · rw [if_pos hd, if_pos hd']
    rw [(a hd).1, (a hd).2, (a' hd').1, (a' hd').2] at c1 c2
    exact ⟨c1, c2⟩
  · rw [if_pos hd, if_neg hd', Curve.rev_atZ, Curve.rev_rev]
    rw [(a hd).1, (a hd).2, (b' hd').1, (b' hd').2] at c1 c2
    exact ⟨c2, c1⟩
  · rw [if_neg hd, if_pos hd', Curve.rev_atZ]
    rw [(b hd).1, (b hd).2, (a' hd').1, (a' hd').2] at c1 c2
    refine ⟨fun x y => ?_, fun x y => ?_⟩
    · rw [c2 y x, Curve.rev_rev]
    · rw [c1 y x]
  · rw [if_neg hd, if_neg hd', Curve.rev_atZ, Curve.rev_atZ, Curve.rev_rev]
    rw [(b hd).1, (b hd).2, (b' hd').1, (b' hd').2] at c1 c2
    refine ⟨fun x y => ?_, fun x y => ?_⟩
    · rw [c1 y x]
    · rw [c2 y x, Curve.rev_rev]

theorem mid_xy (rt : F → F) (c d : Curve F) (p q p' q' : V3 F) (h : c.atZ 0 = d.atZ 0) (hp : SameXY p p') (hq : SameXY q q') :
    SameXY (c.mid rt p q) (d.mid rt p' q') := by
  obtain ⟨p1, p2⟩ := hp
  obtain ⟨q1, q2⟩ := hq
  cases c <;> cases d <;> simp only [Curve.atZ, reduceCtorEq, Curve.through.injEq, Curve.arc.injEq, V3.mk.injEq, and_true] at h
  · simp [SameXY, Curve.mid, p1, p2, q1, q2]
  · exact h
  · simp [SameXY, Curve.mid, arcMid, p1, p2, q1, q2, h]
  · simp [SameXY, Curve.mid, p1, p2, q1, q2]

/-- Parts of the same lateral side. -/
theorem latPart_same (rt : F → F) {M : HexaData F} (C : ConformsXY M) {i i' h h' q q' : Nat} (hi : i < M.nel) (hi' : i' < M.nel) (hh : h < 4) (hh' : h' < 4)
    (hq : q < 2) (hq' : q' < 2) (lo : SameXY (sidePt (M.el i) (opp h) q) (sidePt (M.el i') (opp h') q'))
    (up : SameXY (sidePt (M.el i) h q) (sidePt (M.el i') h' q')) (x y : Nat) (t : F) :
    (latPart rt (M.el i) h q x y).atZ t = (latPart rt (M.el i') h' q' x y).atZ t := by
  have hc := latCurve_same C hi hi' hh hh' hq hq' lo up
  have hm : SameXY (colPt rt (M.el i) h q 1) (colPt rt (M.el i') h' q' 1) := by
    unfold colPt
    rw [if_neg (by decide), if_pos rfl, if_neg (by decide), if_pos rfl]
    exact mid_xy rt _ _ _ _ _ _ hc lo up
  obtain ⟨m1, m2⟩ := hm
  obtain ⟨lo1, lo2⟩ := lo
  obtain ⟨up1, up2⟩ := up
  unfold latPart
  generalize latCurve (M.el i) h q = c at *
  generalize latCurve (M.el i') h' q' = d at *
  simp only
  split_ifs
  · cases c <;> cases d <;> simp only [Curve.atZ, reduceCtorEq, Curve.through.injEq, Curve.arc.injEq, V3.mk.injEq, and_true] at hc
    · rfl
    · simp only [Curve.atZ, halfMid, m1, m2, lo1, lo2, up1, up2]
    · rw [hc]
    · rfl
  · cases c <;> cases d <;> simp only [Curve.atZ, reduceCtorEq, Curve.through.injEq, Curve.arc.injEq, V3.mk.injEq, and_true] at hc
    · rfl
    · simp only [Curve.atZ, halfMid, m1, m2, lo1, lo2, up1, up2]
    · simp only [Curve.atZ, arcMid, m1, m2, up1, up2, hc]
    · rfl
  · exact Curve.atZ_eq hc t

/-- Two edges of the columns with the same ends in the same order. -/
theorem edgeCurve_same (rt : F → F) {f : F → F → F} {M : HexaData F} {h : Nat → Nat} (H : ∀ i < M.nel, HighSide f (M.el i) (h i)) (C : ConformsXY M)
    (G : MidRegular rt M h) (z : Nat → F) {i i' : Nat} (hi : i < M.nel) (hi' : i' < M.nel) {a b a' b' : Vtx} (p : EdgePair a b) (p' : EdgePair a' b')
    (ha : vtxPt rt (M.el i) (h i) z a = vtxPt rt (M.el i') (h i') z a') (hb : vtxPt rt (M.el i) (h i) z b = vtxPt rt (M.el i') (h i') z b') :
    edgeCurve rt (M.el i) (h i) z a b = edgeCurve rt (M.el i') (h i') z a' b' := by
  obtain ⟨a1, a2, a3, a4, a5⟩ := p
  obtain ⟨a1', a2', a3', a4', a5'⟩ := p'
  unfold vtxPt at ha hb
  simp only [V3.mk.injEq] at ha hb
  obtain ⟨hax, hay, haz⟩ := ha
  obtain ⟨hbx, hby, hbz⟩ := hb
  have hh := (H i hi).1
  have hh' := (H i' hi').1
  have opp4 : ∀ h < 4, opp h < 4 := by decide
  -- the columns agree
  have col : ∀ x x' : Vtx, x.q < 2 → x'.q < 2 → x.col < 3 → x'.col < 3 →
      SameXY (colPt rt (M.el i) (h i) x.q x.col) (colPt rt (M.el i') (h i') x'.q x'.col) → x.col = x'.col := by
    intro x x' k1 k2 k3 k4 hs
    by_cases c1 : x.col = 1
    · rw [c1] at hs ⊢
      exact ((G.mids i hi i' hi' _ k1 _ k2 _ k4 hs).1).symm
    by_cases c1' : x'.col = 1
    · rw [c1'] at hs ⊢
      exact (G.mids i' hi' i hi _ k2 _ k1 _ k3 hs.symm).1
    unfold colPt at hs
    rw [if_neg c1, if_neg c1'] at hs
    by_cases c0 : x.col = 0
    · by_cases c0' : x'.col = 0
      · rw [c0, c0']
      · exfalso
        rw [if_pos c0, if_neg c0'] at hs
        have := (high_sign (H i hi) x.q k1).2
        rw [hs.1, hs.2] at this
        exact this (high_sign (H i' hi') x'.q k2).1
    · by_cases c0' : x'.col = 0
      · exfalso
        rw [if_neg c0, if_pos c0'] at hs
        have := (high_sign (H i hi) x.q k1).1
        rw [hs.1, hs.2] at this
        exact (high_sign (H i' hi') x'.q k2).2 this
      · omega
  have ca := col a a' a1 a1' a3 a3' ⟨hax, hay⟩
  have cb := col b b' a2 a2' a4 a4' ⟨hbx, hby⟩
  rw [← ca] at hax hay
  rw [← cb] at hbx hby
  have hA : SameXY (colPt rt (M.el i) (h i) a.q a.col) (colPt rt (M.el i') (h i') a'.q a.col) := ⟨hax, hay⟩
  have hB : SameXY (colPt rt (M.el i) (h i) b.q b.col) (colPt rt (M.el i') (h i') b'.q b.col) := ⟨hbx, hby⟩
  unfold edgeCurve
  by_cases hq : a.q = b.q
  · rw [if_neg (not_not.mpr hq)]
    have hq' : a'.q = b'.q := by
      by_contra hne
      have e := (a5' hne).1
      rw [← ca, ← cb] at e
      rw [← hq, ← e] at hB
      exact hne (G.inner i' hi' _ a1' _ a2' _ a3 _ a3 (hA.symm.trans hB)).1
    rw [if_neg (not_not.mpr hq')]
    rw [← ca, ← cb]
    by_cases hc : a.col = b.col
    · rw [if_pos hc, if_pos hc]
    rw [if_neg hc, if_neg hc]
    -- the lateral sides have the same ends
    have ends : SameXY (sidePt (M.el i) (opp (h i)) a.q) (sidePt (M.el i') (opp (h i')) a'.q) ∧ SameXY (sidePt (M.el i) (h i) a.q) (sidePt (M.el i') (h i') a'.q) := by
      rw [← hq, ← hq'] at hB
      by_cases k : a.col = 1
      · rw [k] at hA
        exact (G.mids i hi i' hi' _ a1 _ a1' 1 (by omega) hA).2
      by_cases k' : b.col = 1
      · rw [k'] at hB
        exact (G.mids i hi i' hi' _ a1 _ a1' 1 (by omega) hB).2
      have cc : (a.col = 0 ∧ b.col = 2) ∨ (a.col = 2 ∧ b.col = 0) := by omega
      rcases cc with ⟨k0, k2⟩ | ⟨k2, k0⟩
      · rw [k0] at hA; rw [k2] at hB; exact ⟨hA, hB⟩
      · rw [k2] at hA; rw [k0] at hB; exact ⟨hB, hA⟩
    simp only
    rw [haz, hbz, latPart_same rt C hi hi' hh hh' a1 a1' ends.1 ends.2]
  · have hq' : a'.q ≠ b'.q := by
      intro e
      have ec := (a5 hq).1
      rw [← ec, ← e] at hB
      exact hq (G.inner i hi _ a1 _ a2 _ a3 _ a3 (hA.trans hB.symm)).1
    rw [if_pos hq, if_pos hq']
    have ec := (a5 hq).1
    rw [← ec] at hB
    simp only
    rw [← ca, haz]
    have side : ∀ s s', s < 4 → s' < 4 → (∀ q, colPt rt (M.el i) (h i) q a.col = sidePt (M.el i) s q) →
        (∀ q, colPt rt (M.el i') (h i') q a.col = sidePt (M.el i') s' q) →
        (if a.q = 0 then (sideCurve (M.el i) s).atZ (z a'.lev) else ((sideCurve (M.el i) s).atZ (z a'.lev)).rev) =
        if a'.q = 0 then (sideCurve (M.el i') s').atZ (z a'.lev) else ((sideCurve (M.el i') s').atZ (z a'.lev)).rev := by
      intro s s' hs hs' e e'
      rw [e, e'] at hA hB
      obtain ⟨d1, d2⟩ := sideCurve_same C (s := s) (s' := s') hi hi' hs hs'
      have q1 : (a.q = 0 ∧ b.q = 1) ∨ (a.q = 1 ∧ b.q = 0) := by omega
      have q2 : (a'.q = 0 ∧ b'.q = 1) ∨ (a'.q = 1 ∧ b'.q = 0) := by omega
      rcases q1 with ⟨x, y⟩ | ⟨x, y⟩ <;> rcases q2 with ⟨x', y'⟩ | ⟨x', y'⟩ <;> rw [x, x'] at hA ⊢ <;> rw [y, y'] at hB
      · exact Curve.atZ_eq (d1 hA hB) _
      · simp only [if_true, one_ne_zero, if_false]
        rw [← Curve.rev_atZ]
        exact Curve.atZ_eq (by rw [Curve.rev_atZ]; exact d2 hA hB) _
      · simp only [if_true, one_ne_zero, if_false]
        rw [← Curve.rev_atZ]
        refine Curve.atZ_eq ?_ _
        rw [Curve.rev_atZ, d2 hB hA, Curve.rev_rev]
      · simp only [one_ne_zero, if_false]
        rw [Curve.atZ_eq (d1 hB hA)]
    by_cases k0 : a.col = 0
    · rw [if_pos k0, if_pos k0]
      exact side _ _ (opp4 _ hh) (opp4 _ hh') (fun q => by unfold colPt; rw [if_pos k0]) (fun q => by unfold colPt; rw [if_pos k0])
    rw [if_neg k0, if_neg k0]
    by_cases k1 : a.col = 1
    · -- the same element
      have hii : i = i' := by
        rw [k1] at hA hB
        apply G.cells i hi i' hi'
        intro q hq2
        have : q = a.q ∨ q = b.q := by omega
        rcases this with e | e
        · rw [e]; exact ⟨a'.q, a1', (G.mids i hi i' hi' _ a1 _ a1' 1 (by omega) hA).2⟩
        · rw [e]; exact ⟨b'.q, a2', (G.mids i hi i' hi' _ a2 _ a2' 1 (by omega) hB).2⟩
      subst hii
      rw [(G.inner i hi _ a1 _ a1' _ a3 _ a3 hA).1]
    · rw [if_neg k1, if_neg k1]
      exact side _ _ hh hh' (fun q => by unfold colPt; rw [if_neg k0, if_neg k1]) (fun q => by unfold colPt; rw [if_neg k0, if_neg k1])

/-- **C107**: a mesh made by `extrude_mid` from a plane mesh whose sides fit together fits together as well: any two edges with the same ends,
of whichever elements, are the same curve. With arcs this is stated for one block of four layers (in further blocks it is false: C84). -/
theorem C107 (rt : F → F) (M : HexaData F) (z : List F) (l1 l2 : List Name) (f : F → F → F) (nb : Nat) (A : MidArgs M z l1 l2 f nb)
    (ib : Bool) (h : Nat → Nat) (H : ∀ i < M.nel, HighSide f (M.el i) (h i)) (P : ∀ i < M.nel, PlainCurves (M.el i)) (C : ConformsXY M) (G : MidRegular rt M h)
    (hk : nb = 1 ∨ ∀ i < M.nel, ∀ e, (M.el i).ccurv e ≠ ['C']) :
    ∃ M' R, extrudeMid rt M z l1 l2 f ib = .ok (M', R) ∧ Conforms R := by
  have W : ∀ i < M.nel, PlainCurves (M.el i) ∧ LatApart (M.el i) (h i) := by
    intro i hi
    refine ⟨P i hi, fun q hq _ he => ?_⟩
    have := G.inner i hi q hq q hq 0 (by omega) 2 (by omega) ⟨congrArg Prod.fst he, congrArg Prod.snd he⟩
    omega
  obtain ⟨M', R, h1, h2⟩ := C107_edges rt M z l1 l2 f nb A ib h H W
  obtain ⟨M'', R', h1', -, ⟨-, hnel, -⟩, -⟩ := extrudeMid_ok rt A ib
  obtain ⟨-, rfl⟩ : M' = M'' ∧ R = R' := by rw [h1] at h1'; simpa using h1'
  refine ⟨M', R, h1, ?_⟩
  -- every element belongs to a column
  have dec : ∀ x < R.nel, ∃ kb < nb, ∃ i < M.nel, ∃ j < 6, x = 6 * (i + M.nel * kb) + j := by
    intro x hx
    rw [hnel] at hx
    have hn : 0 < M.nel := by
      rcases Nat.eq_zero_or_pos M.nel with e | e
      · rw [e] at hx; omega
      · exact e
    refine ⟨x / 6 / M.nel, ?_, x / 6 % M.nel, Nat.mod_lt _ hn, x % 6, Nat.mod_lt _ (by omega), ?_⟩
    · rw [Nat.div_div_eq_div_mul]
      apply Nat.div_lt_of_lt_mul
      calc x < M.nel * 6 * nb := hx
        _ = 6 * M.nel * nb := by ring
    · have := Nat.mod_add_div (x / 6) M.nel
      rw [this]
      omega
  intro x hx x' hx' e he e' he'
  obtain ⟨kb, hkb, i, hi, j, hj, rfl⟩ := dec x hx
  obtain ⟨kb', hkb', i', hi', j', hj', rfl⟩ := dec x' hx'
  have ok : ∀ kb < nb, ∀ i < M.nel, kb = 0 ∨ ∀ e, (M.el i).ccurv e ≠ ['C'] := by
    intro kb hkb i hi
    rcases hk with k | k
    · left; omega
    · right; exact k i hi
  obtain ⟨b1, b2, b3⟩ := h2 kb hkb i hi (ok kb hkb i hi) j hj e he
  obtain ⟨b1', b2', b3'⟩ := h2 kb' hkb' i' hi' (ok kb' hkb' i' hi') j' hj' e' he'
  have ep := edgePair (h i) kb j e (H i hi).1 hj he
  have ep' := edgePair (h i') kb' j' e' (H i' hi').1 hj' he'
  rw [b1, b2, b3, b1', b2', b3']
  refine ⟨fun u v => edgeCurve_same rt H C G _ hi hi' ep ep' u v, fun u v => ?_⟩
  rw [edgeCurve_same rt H C G _ hi hi' ep ep'.symm u v, edgeCurve_rev rt _ _ _ _ _ ep']

/-! ### Examples -/

namespace Samples

instance (p q : V3 ℚ) : Decidable (SameXY p q) := inferInstanceAs (Decidable (_ ∧ _))

/-- Two unit squares: the side between them is an arc of radius 5/8 and the upper side of the first one is a curve through a point. -/
def bentRow : HexaData ℚ :=
  let m := box 2 1 (1 / 20) nW nW nW nW
  { m with elem := m.elem.mapIdx fun i el =>
      if i = 0 then ((((el.setType 1 ['C']).setCurv 1 0 (5 / 8)).setType 2 ['m']).setCurv 2 0 (11 / 20)).setCurv 2 1 (6 / 5)
      else (el.setType 3 ['C']).setCurv 3 0 (-5 / 8) }

theorem bentRow_args : MidArgs bentRow z4 [nW] [nW] halfY 1 := midArgs_of (by decide +kernel)

theorem bentRow_high : ∀ i < bentRow.nel, HighSide halfY (bentRow.el i) 2 := by
  have : ∀ i < bentRow.nel, ∀ ky < 2, ∀ kx < 2, (0 < cornerVal halfY (bentRow.el i) ky kx ↔ OnSide 2 ky kx) := by decide +kernel
  exact fun i hi => ⟨by omega, this i hi⟩

theorem bentRow_plain : ∀ i < bentRow.nel, PlainCurves (bentRow.el i) := by
  have h1 : ∀ i < bentRow.nel, ∀ e < 4, (bentRow.el i).ccurv e = [] ∨ (bentRow.el i).ccurv e = ['m'] ∨ (bentRow.el i).ccurv e = ['C'] := by decide +kernel
  have h2 : ∀ i < bentRow.nel, ∀ e < 12, 8 ≤ e → (bentRow.el i).ccurv e = [] := by decide +kernel
  exact fun i hi => ⟨h1 i hi, fun e h8 h12 => h2 i hi e h12 h8⟩

set_option synthInstance.maxSize 1000 in
theorem bentRow_conforms : ConformsXY bentRow := by unfold ConformsXY; decide +kernel

set_option synthInstance.maxSize 1000 in
theorem bentRow_regular : MidRegular rootQ bentRow (fun _ => 2) where
  inner := by decide +kernel
  mids := by decide +kernel
  cells := by decide +kernel

end Samples

/-- The bent row: all edges fit together, and two of them: the whole arc at the top of element 2 of the first column and at the top of
element 2 of the second. -/
example : ∃ M' R, extrudeMid Samples.rootQ Samples.bentRow Samples.z4 [Samples.nW] [Samples.nW] Samples.halfY true = .ok (M', R) ∧ Conforms R :=
  C107 Samples.rootQ _ _ _ _ _ _ Samples.bentRow_args true _ Samples.bentRow_high Samples.bentRow_plain Samples.bentRow_conforms Samples.bentRow_regular (Or.inl rfl)

example : (match extrudeMid Samples.rootQ Samples.bentRow Samples.z4 [Samples.nW] [Samples.nW] Samples.halfY true with
    | .ok (_, R) => decide (curveAt (R.el 2) 5 = .arc (5 / 8) ∧ curveAt (R.el 8) 7 = .arc (-5 / 8) ∧ edgeFrom (R.el 2) 5 = edgeTo (R.el 8) 7 ∧
        edgeTo (R.el 2) 5 = edgeFrom (R.el 8) 7 ∧ curveAt (R.el 0) 2 ≠ .straight ∧ curveAt (R.el 1) 0 = curveAt (R.el 0) 2)
    | .error _ => false) = true := by decide +kernel

end Pymech
