import Verif.Mesh.Mid
import Verif.Props.Edge
import Verif.Props.Extrude
import Verif.Props.Generate

/-!
# `extrude_mid`: C72, C77
-/

set_option linter.unusedSectionVars false

namespace Pymech

open Spec

variable {F : Type} [Field F] [LinearOrder F] [IsStrictOrderedRing F] [FloorRing F]

namespace Spec

/-- The value of the splitting function at the corner `(ky, kx)` of a quadrilateral. -/
def cornerVal (f : F → F → F) (el : Elem F) (ky kx : Nat) : F := f (el.pos.dat 0 0 ky kx) (el.pos.dat 1 0 ky kx)

/-- Number of corners where the splitting function is not positive. -/
def lowCount (f : F → F → F) (el : Elem F) : Nat :=
  (if cornerVal f el 0 0 ≤ 0 then 1 else 0) + (if cornerVal f el 0 1 ≤ 0 then 1 else 0) +
  (if cornerVal f el 1 0 ≤ 0 then 1 else 0) + (if cornerVal f el 1 1 ≤ 0 then 1 else 0)

/-- The corner `(ky, kx)` belongs to side `h` of a quadrilateral. -/
def OnSide (h ky kx : Nat) : Prop := (h = 0 ∧ ky = 0) ∨ (h = 1 ∧ kx = 1) ∨ (h = 2 ∧ ky = 1) ∨ (h = 3 ∧ kx = 0)

instance (h ky kx : Nat) : Decidable (OnSide h ky kx) := by unfold OnSide; infer_instance

/-- The splitting function is positive exactly at the two corners of side `h`. -/
def HighSide (f : F → F → F) (el : Elem F) (h : Nat) : Prop :=
  h < 4 ∧ ∀ ky < 2, ∀ kx < 2, (0 < cornerVal f el ky kx ↔ OnSide h ky kx)

/-- The arrays of the element have at least the four corners. -/
def HasCorners (el : Elem F) : Prop := 2 ≤ el.pos.lx ∧ 2 ≤ el.pos.ly ∧ 1 ≤ el.pos.lz

end Spec

/-! ### Finding the low and high corners -/

/-- The corners with a given sign. -/
def cornersOf (b00 b10 b01 b11 v : Bool) : List (Nat × Nat) :=
  (if b00 = v then [(0, 0)] else []) ++ (if b10 = v then [(1, 0)] else []) ++ (if b01 = v then [(0, 1)] else []) ++
    (if b11 = v then [(1, 1)] else [])

theorem classify_eq (f : F → F → F) (el : Elem F) (hc : HasCorners el) :
    classify f el = if lowCount f el = 2 then
      .ok (cornersOf (decide (cornerVal f el 0 0 ≤ 0)) (decide (cornerVal f el 1 0 ≤ 0)) (decide (cornerVal f el 0 1 ≤ 0)) (decide (cornerVal f el 1 1 ≤ 0)) true,
        cornersOf (decide (cornerVal f el 0 0 ≤ 0)) (decide (cornerVal f el 1 0 ≤ 0)) (decide (cornerVal f el 0 1 ≤ 0)) (decide (cornerVal f el 1 1 ≤ 0)) false)
      else .error .valueError := by
  obtain ⟨hx, hy, hz⟩ := hc
  have hp : ∀ ky kx, ky < 2 → kx < 2 → el.ptAt (0, ky, kx) = .ok (el.pt 0 ky kx) := by
    intro ky kx h1 h2
    unfold Elem.ptAt
    rw [if_pos ⟨by omega, by dsimp only; omega, by dsimp only; omega⟩]
  have hs : ∀ s ky kx, ky < 2 → kx < 2 → classifyStep f el s (ky, kx) =
      if cornerVal f el ky kx ≤ 0 then (if 1 < s.1.length then .error .valueError else .ok (s.1 ++ [(ky, kx)], s.2))
      else (if 1 < s.2.length then .error .valueError else .ok (s.1, s.2 ++ [(ky, kx)])) := by
    intro s ky kx h1 h2
    unfold classifyStep
    rw [hp ky kx h1 h2]
    rfl
  unfold classify midCorners lowCount
  simp only [List.foldlM_cons, List.foldlM_nil, bind, Except.bind, hs _ 0 0 (by omega) (by omega), hs _ 0 1 (by omega) (by omega),
    hs _ 1 0 (by omega) (by omega), hs _ 1 1 (by omega) (by omega)]
  by_cases h1 : cornerVal f el 0 0 ≤ 0 <;> by_cases h2 : cornerVal f el 1 0 ≤ 0 <;> by_cases h3 : cornerVal f el 0 1 ≤ 0 <;>
    by_cases h4 : cornerVal f el 1 1 ≤ 0 <;> simp [h1, h2, h3, h4, cornersOf, pure, Except.pure]

/-- The indices when the high corners are those of side `h`. -/
def split4 : Nat → Split
  | 0 => ⟨pair (1, 0) (1, 1), pair (0, 0) (0, 1), 0, 2, pair 3 1, pair 8 9⟩
  | 1 => ⟨pair (0, 0) (1, 0), pair (0, 1) (1, 1), 1, 3, pair 0 2, pair 9 10⟩
  | 2 => ⟨pair (0, 0) (0, 1), pair (1, 0) (1, 1), 2, 0, pair 3 1, pair 11 10⟩
  | _ => ⟨pair (0, 1) (1, 1), pair (0, 0) (1, 0), 3, 1, pair 0 2, pair 8 11⟩

theorem highSide_count {f : F → F → F} {el : Elem F} {h : Nat} (H : HighSide f el h) : lowCount f el = 2 := by
  obtain ⟨hl, H⟩ := H
  have e : ∀ ky < 2, ∀ kx < 2, (cornerVal f el ky kx ≤ 0 ↔ ¬ OnSide h ky kx) := fun ky h1 kx h2 => by rw [← H ky h1 kx h2, not_lt]
  unfold lowCount
  simp only [e 0 (by omega) 0 (by omega), e 0 (by omega) 1 (by omega), e 1 (by omega) 0 (by omega), e 1 (by omega) 1 (by omega)]
  have : h = 0 ∨ h = 1 ∨ h = 2 ∨ h = 3 := by omega
  rcases this with rfl | rfl | rfl | rfl <;> decide

theorem classify_high {f : F → F → F} {el : Elem F} {h : Nat} (hc : HasCorners el) (H : HighSide f el h) :
    ∃ l, classify f el = .ok l ∧ splitOf l.1 l.2 = split4 h := by
  refine ⟨_, by rw [classify_eq f el hc, if_pos (highSide_count H)], ?_⟩
  obtain ⟨hl, H⟩ := H
  have e : ∀ ky < 2, ∀ kx < 2, decide (cornerVal f el ky kx ≤ 0) = decide (¬ OnSide h ky kx) := fun ky h1 kx h2 => by
    rw [decide_eq_decide, ← H ky h1 kx h2, not_lt]
  simp only [e 0 (by omega) 0 (by omega), e 0 (by omega) 1 (by omega), e 1 (by omega) 0 (by omega), e 1 (by omega) 1 (by omega)]
  have : h = 0 ∨ h = 1 ∨ h = 2 ∨ h = 3 := by omega
  rcases this with rfl | rfl | rfl | rfl <;> rfl

/-- What all splits have in common, the crossed ones included. -/
theorem classify_edges {f : F → F → F} {el : Elem F} (hc : HasCorners el) (h2 : lowCount f el = 2) :
    ∃ l, classify f el = .ok l ∧ (splitOf l.1 l.2).ehi < 4 ∧ (splitOf l.1 l.2).elo < 4 ∧ (splitOf l.1 l.2).lat 0 < 4 ∧ (splitOf l.1 l.2).lat 1 < 4 := by
  refine ⟨_, by rw [classify_eq f el hc, if_pos h2], ?_⟩
  unfold splitOf
  simp only
  split_ifs <;> simp [pair]

/-! ### The steps of `extrude_mid` do not raise -/

/-- `edge_mid` has been applied to the element: only parameters of edges of type `C` have changed. -/
structure Mutated (el el' : Elem F) : Prop where
  eq : el' = { el with curv := el'.curv }
  keep : ∀ e, el.ccurv e ≠ ['C'] → el'.curv e = el.curv e

theorem Mutated.refl (el : Elem F) : Mutated el el := ⟨rfl, fun _ _ => rfl⟩

theorem Mutated.trans {a b c : Elem F} (h : Mutated a b) (k : Mutated b c) : Mutated a c := by
  refine ⟨?_, fun e he => ?_⟩
  · rw [k.eq, h.eq]
  · rw [k.keep e (by rw [h.eq]; exact he), h.keep e he]

theorem Mutated.pos {a b : Elem F} (h : Mutated a b) : b.pos = a.pos := by rw [h.eq]
theorem Mutated.ccurv {a b : Elem F} (h : Mutated a b) : b.ccurv = a.ccurv := by rw [h.eq]
theorem Mutated.bcs {a b : Elem F} (h : Mutated a b) : b.bcs = a.bcs := by rw [h.eq]
theorem Mutated.rows {a b : Elem F} (h : Mutated a b) : b.rows = a.rows := by rw [h.eq]

/-- Without edges of type `C` nothing has changed. -/
theorem Mutated.same {a b : Elem F} (h : Mutated a b) (hC : ∀ e, a.ccurv e ≠ ['C']) : b = a := by
  rw [h.eq, show b.curv = a.curv from funext fun e => h.keep e (hC e)]

/-- The value of `edge_mid`. -/
def midVal (rt : F → F) (el : Elem F) (e : Nat) : V3 F :=
  if el.ccurv e = ['m'] then el.cpt e
  else if el.ccurv e = [] then ⟨((edgeFrom el e).x + (edgeTo el e).x) / 2, ((edgeFrom el e).y + (edgeTo el e).y) / 2,
    ((edgeFrom el e).z + (edgeTo el e).z) / 2⟩
  else if el.ccurv e = ['C'] then arcMid rt (el.curv e 0) (edgeFrom el e) (edgeTo el e)
  else if el.ccurv e = ['s'] then sphereMid rt (el.curv e 4) (el.cpt e) (edgeFrom el e) (edgeTo el e)
  else el.cpt e

theorem edgeMid_mut (rt : F → F) (el : Elem F) (e : Nat) (h : HasEdge el e) :
    ∃ el', edgeMid rt el e = .ok (midVal rt el e, el') ∧ Mutated el el' ∧ ∀ e', e' ≠ e → el'.curv e' = el.curv e' := by
  rw [edgeMid_eq rt el e h]
  unfold midVal
  split_ifs with h1 h2 h3 h4
  · exact ⟨_, rfl, .refl _, fun _ _ => rfl⟩
  · exact ⟨_, rfl, .refl _, fun _ _ => rfl⟩
  · refine ⟨_, rfl, ⟨rfl, fun e' he' => ?_⟩, fun e' he' => ?_⟩
    · have : e' ≠ e := fun hh => he' (hh ▸ h3)
      funext q; simp [Elem.setCpt, this]
    · funext q; simp [Elem.setCpt, he']
  · exact ⟨_, rfl, .refl _, fun _ _ => rfl⟩
  · exact ⟨_, rfl, .refl _, fun _ _ => rfl⟩

theorem midVal_congr (rt : F → F) {a b : Elem F} (h : Mutated a b) (e : Nat) (he : b.curv e = a.curv e) : midVal rt b e = midVal rt a e := by
  have hp := h.pos
  unfold midVal
  rw [h.ccurv]
  have hf : edgeFrom b e = edgeFrom a e := by unfold edgeFrom point; rw [hp]
  have ht : edgeTo b e = edgeTo a e := by unfold edgeTo point; rw [hp]
  unfold Elem.cpt
  rw [hf, ht, he]

/-- Only the curvature differs. -/
def ButCurv (a b : Elem F) : Prop := b = { a with curv := b.curv, ccurv := b.ccurv }

theorem ButCurv.refl (a : Elem F) : ButCurv a a := rfl

theorem ButCurv.trans {a b c : Elem F} (h : ButCurv a b) (k : ButCurv b c) : ButCurv a c := by
  unfold ButCurv at *
  rw [k, h]

theorem Mutated.but {a b : Elem F} (h : Mutated a b) : ButCurv a b := by
  unfold ButCurv
  rw [h.eq]

theorem ButCurv.hasEdge {a b : Elem F} (h : ButCurv a b) {e : Nat} (he : HasEdge a e) : HasEdge b e := by
  unfold HasEdge at *
  have : b.pos = a.pos := by rw [h]
  rw [this]; exact he

theorem midEdge_ok (rt : F → F) (sp : Split) (plo pmid phi : Nat → V3 F) (z0 : F) (base e0 e1 : Elem F) (hh : HasEdge base sp.ehi)
    (hl : HasEdge base sp.elo) (h0 : HasEdge e0 sp.ehi) :
    ∃ r, midEdge rt sp plo pmid phi z0 base e0 e1 = .ok r ∧ Mutated base r.1 ∧ ButCurv e0 r.2.1 ∧ ButCurv e1 r.2.2 := by
  unfold midEdge
  simp only
  by_cases hn : base.ccurv sp.ehi = [] ∧ base.ccurv sp.elo = []
  · rw [if_pos hn]
    exact ⟨_, rfl, .refl _, rfl, rfl⟩
  · rw [if_neg hn]
    obtain ⟨b1, q1, q2, -⟩ := edgeMid_mut rt base sp.ehi hh
    obtain ⟨b2, p1, p2, -⟩ := edgeMid_mut rt b1 sp.elo (q2.but.hasEdge hl)
    obtain ⟨c1, c2⟩ := ptAt_ends e0 sp.ehi h0
    rw [q1]
    simp only [bind, Except.bind]
    rw [p1]
    simp only
    split_ifs with k1 k2
    · exact ⟨_, rfl, q2.trans p2, rfl, rfl⟩
    · unfold edgeCircle
      rw [if_neg (by have := h0.1; omega), c1, c2]
      simp only [bind, Except.bind]
      split_ifs with k3
      · exact ⟨_, rfl, q2.trans p2, rfl, rfl⟩
      · exact ⟨_, rfl, q2.trans p2, rfl, rfl⟩
    · exact ⟨_, rfl, q2.trans p2, rfl, rfl⟩

theorem midHalf_ok (rt : F → F) (e : Nat) (lo mid hi : V3 F) (t : Name) (e0 e1 : Elem F) (h : HasEdge e1 e) :
    ∃ r, midHalf rt e lo mid hi t e0 e1 = .ok r ∧ ButCurv e0 r.1 ∧ ButCurv e1 r.2 := by
  unfold midHalf
  simp only
  split_ifs with h1 h2
  · exact ⟨_, rfl, rfl, rfl⟩
  · obtain ⟨b1, q1, q2, -⟩ := edgeMid_mut rt e1 e h
    rw [q1]
    have := q2.but
    exact ⟨_, rfl, rfl, ButCurv.trans q2.but rfl⟩
  · exact ⟨_, rfl, rfl, rfl⟩

theorem topEdges_but (a : Elem F) : ButCurv a (topEdges a) := rfl

theorem midCopies_but (E : Nat → Elem F) (i : Nat) : ButCurv (E i) (midCopies E i) := by
  unfold midCopies
  simp only
  split_ifs <;> rfl

theorem midDiag_but (sp : Split) (E : Nat → Elem F) (i : Nat) : ButCurv (E i) (midDiag sp E i) := by
  unfold midDiag
  simp only
  split_ifs <;> rfl

theorem midHeights_but (sp : Split) (z : Nat → F) (E : Nat → Elem F) (i : Nat) : ButCurv (E i) (midHeights sp z E i) := rfl

/-- Corner points of the 2D element. -/
def loPt (sp : Split) (el : Elem F) (q : Nat) : V3 F := el.pt 0 (sp.lo q).1 (sp.lo q).2
def hiPt (sp : Split) (el : Elem F) (q : Nat) : V3 F := el.pt 0 (sp.hi q).1 (sp.hi q).2

/-- The outcome of `midElem` apart from the curvature. -/
structure MidOut (rt : F → F) (ib : Bool) (nbc n : Nat) (z : List F) (kb i : Nat) (sp : Split) (base : Elem F) (E : Nat → Elem F) : Prop where
  pos : ∀ iell, (E iell).pos = midPos sp (loPt sp base) (pair (midVal rt base (sp.lat 0)) (midVal rt base (sp.lat 1))) (hiPt sp base)
    (fun j => z.getD (4 * kb + j) 0) iell
  bcs : ∀ iell, (E iell).bcs = midBcs sp ib nbc n kb (6 * (i + n * kb)) iell base.bcs
  rows : ∀ iell, (E iell).rows = base.rows

theorem midElem_ok (rt : F → F) (f : F → F → F) (ib : Bool) (nbc n : Nat) (z : List F) (kb i : Nat) (base : Elem F)
    (hc : HasCorners base) (h2 : lowCount f base = 2) (hs : ∀ e < 4, base.ccurv e ≠ ['s']) :
    ∃ l base' E, classify f base = .ok l ∧ midElem rt f ib nbc n z kb i base = .ok (base', E) ∧ Mutated base base' ∧
      MidOut rt ib nbc n z kb i (splitOf l.1 l.2) base E := by
  obtain ⟨⟨lo, hi⟩, c1, c2, c3, c4, c5⟩ := classify_edges hc h2
  set sp := splitOf lo hi with hsp
  have he : ∀ e < 4, HasEdge base e := fun e h => ⟨by omega, hc.1, hc.2.1, hc.2.2, fun _ => by omega⟩
  obtain ⟨b1, q1, q2, q3⟩ := edgeMid_mut rt base (sp.lat 0) (he _ c4)
  obtain ⟨b2, p1, p2, -⟩ := edgeMid_mut rt b1 (sp.lat 1) (q2.but.hasEdge (he _ c5))
  have hne : sp.lat 1 ≠ sp.lat 0 := by
    rw [hsp]; unfold splitOf; simp only; split_ifs <;> simp [pair]
  rw [midVal_congr rt q2 (sp.lat 1) (q3 _ hne)] at p1
  have q12 := q2.trans p2
  set pm := pair (midVal rt base (sp.lat 0)) (midVal rt base (sp.lat 1)) with hpm
  set zz := fun j => z.getD (4 * kb + j) 0 with hzz
  set E0 : Nat → Elem F := fun iell => { base with pos := midPos sp (loPt sp base) pm (hiPt sp base) zz iell } with hE0
  have he3 : ∀ iell, ∀ e < 4, HasEdge (E0 iell) e := fun iell e h => ⟨by omega, le_refl _, le_refl _, (by decide : 1 ≤ 2), fun _ => le_refl _⟩
  obtain ⟨⟨b3, e0, e1⟩, r1, r2, r3, r4⟩ := midEdge_ok rt sp (loPt sp base) pm (hiPt sp base) (zz 0) b2 (E0 0) (E0 1) (q12.but.hasEdge (he _ c2))
    (q12.but.hasEdge (he _ c3)) (he3 _ _ c2)
  dsimp only at r2 r3 r4
  obtain ⟨⟨e0', e1'⟩, s1, s2, s3⟩ := midHalf_ok rt (sp.lat 0) (loPt sp base 0) (pm 0) (hiPt sp base 0) (base.ccurv (sp.lat 0)) e0 e1
    (r4.hasEdge (he3 _ _ c4))
  dsimp only at s2 s3
  have s3' := r4.trans s3
  obtain ⟨⟨e0'', e1''⟩, t1, t2, t3⟩ := midHalf_ok rt (sp.lat 1) (loPt sp base 1) (pm 1) (hiPt sp base 1) (base.ccurv (sp.lat 1)) e0' e1'
    (s3'.hasEdge (he3 _ _ c5))
  dsimp only at t2 t3
  have k0 := (r3.trans s2).trans t2
  have k1 := s3'.trans t3
  set E1 : Nat → Elem F := fun iell => if iell = 0 then e0'' else if iell = 1 then e1'' else E0 iell with hE1
  have hb1 : ∀ iell, ButCurv (E0 iell) (E1 iell) := by
    intro iell
    simp only [hE1]
    split_ifs with g1 g2
    · rw [g1]; exact k0
    · rw [g2]; exact k1
    · rfl
  set E2 := midDiag sp (midHeights sp zz (midCopies fun iell => topEdges (E1 iell))) with hE2
  have hb2 : ∀ iell, ButCurv (E0 iell) (E2 iell) := fun iell =>
    (((hb1 iell).trans (topEdges_but _)).trans (midCopies_but (fun iell => topEdges (E1 iell)) iell)).trans
      ((midHeights_but sp zz _ iell).trans (midDiag_but sp _ iell))
  refine ⟨(lo, hi), b3, fun iell => { E2 iell with bcs := midBcs sp ib nbc n kb (6 * (i + n * kb)) iell base.bcs }, c1, ?_, q12.trans r2, ?_, ?_, ?_⟩
  · unfold midElem
    rw [c1]
    simp only [bind, Except.bind]
    rw [← hsp, q1]
    simp only
    rw [p1]
    simp only
    rw [if_neg (by rintro ⟨e, h, h'⟩; exact hs e h h')]
    erw [r1]
    simp only
    erw [s1]
    simp only
    erw [t1]
    rfl
  · intro iell
    have := hb2 iell
    show (E2 iell).pos = _
    rw [this]
  · intro iell; rfl
  · intro iell
    have := hb2 iell
    show (E2 iell).rows = _
    rw [this]

/-! ### All blocks -/

theorem mutated_corners {a b : Elem F} (h : Mutated a b) (hc : HasCorners a) : HasCorners b := by
  unfold HasCorners at *; rw [h.pos]; exact hc

theorem mutated_count {f : F → F → F} {a b : Elem F} (h : Mutated a b) : lowCount f b = lowCount f a := by
  unfold lowCount cornerVal; rw [h.pos]

theorem mutated_classify {f : F → F → F} {a b : Elem F} (h : Mutated a b) (hc : HasCorners a) : classify f b = classify f a := by
  rw [classify_eq f b (mutated_corners h hc), classify_eq f a hc]
  unfold lowCount cornerVal; rw [h.pos]

/-- `edge_mid` has been applied to the element for earlier blocks. -/
def MutatedBy (kb : Nat) (el el' : Elem F) : Prop := Mutated el el' ∧ (kb = 0 → el' = el)

/-- What is known of the list of new elements. -/
def BlockOut (rt : F → F) (f : F → F → F) (ib : Bool) (nbc : Nat) (z : List F) (L els : List (Elem F)) (kb i : Nat) : Prop :=
  ∃ l base E base', MutatedBy kb (L.getD i Elem.blank) base ∧ classify f base = .ok l ∧
    midElem rt f ib nbc L.length z kb i base = .ok (base', E) ∧
    MidOut rt ib nbc L.length z kb i (splitOf l.1 l.2) base E ∧ ∀ iell < 6, els[6 * (i + L.length * kb) + iell]? = some (E iell)

theorem midBlocks (rt : F → F) (f : F → F → F) (ib : Bool) (nbc : Nat) (z : List F) (L : List (Elem F))
    (hc : ∀ i < L.length, HasCorners (L.getD i Elem.blank)) (h2 : ∀ i < L.length, lowCount f (L.getD i Elem.blank) = 2)
    (hs : ∀ i < L.length, ∀ e < 4, (L.getD i Elem.blank).ccurv e ≠ ['s']) (nb : Nat) :
    ∃ bases els, (List.range nb).foldlM (midBlock rt f ib nbc L.length z) (L, []) = .ok (bases, els) ∧ bases.length = L.length ∧
      (∀ i < L.length, Mutated (L.getD i Elem.blank) (bases.getD i Elem.blank)) ∧ els.length = L.length * 6 * nb ∧
      ∀ kb < nb, ∀ i < L.length, BlockOut rt f ib nbc z L els kb i := by
  induction nb with
  | zero => exact ⟨L, [], rfl, rfl, fun i _ => .refl _, by simp, fun kb h => by omega⟩
  | succ nb ih =>
    obtain ⟨bases, els, i1, i2, i3, i4, i5⟩ := ih
    have hne : Nonempty (Elem F) := ⟨Elem.blank⟩
    have hstep : ∀ i, i < L.length → ∃ l base' E, classify f (bases.getD i Elem.blank) = .ok l ∧
        midElem rt f ib nbc L.length z nb i (bases.getD i Elem.blank) = .ok (base', E) ∧ Mutated (bases.getD i Elem.blank) base' ∧
        MidOut rt ib nbc L.length z nb i (splitOf l.1 l.2) (bases.getD i Elem.blank) E := by
      intro i hi
      have m := i3 i hi
      exact midElem_ok rt f ib nbc L.length z nb i _ (mutated_corners m (hc i hi)) (by rw [mutated_count m]; exact h2 i hi)
        (fun e he => by rw [m.ccurv]; exact hs i hi e he)
    choose! lv bv Ev g1 g2 g3 g4 using hstep
    have hmap : (List.range bases.length).mapM (fun i => midElem rt f ib nbc L.length z nb i (bases.getD i Elem.blank)) =
        .ok ((List.range bases.length).map fun i => (bv i, Ev i)) :=
      mapM_ok _ _ _ fun i hi => g2 i (by rw [← i2]; simpa using hi)
    have hfold : (List.range (nb + 1)).foldlM (midBlock rt f ib nbc L.length z) (L, []) =
        .ok (((List.range bases.length).map fun i => (bv i, Ev i)).map Prod.fst,
          els ++ ((List.range bases.length).map fun i => (bv i, Ev i)).flatMap fun p => (List.range 6).map p.2) := by
      rw [List.range_succ, List.foldlM_append, i1]
      simp only [bind, Except.bind, List.foldlM_cons, List.foldlM_nil]
      unfold midBlock
      simp only [hmap, bind, Except.bind, pure, Except.pure]
    have hw : ∀ i < L.length, ((List.range 6).map (Ev i)).length = 6 := by intro i _; simp
    have hflat : (((List.range bases.length).map fun i => (bv i, Ev i)).flatMap fun p => (List.range 6).map p.2) =
        (List.range L.length).flatMap fun i => (List.range 6).map (Ev i) := by
      rw [List.flatMap_map, i2]
    refine ⟨_, _, hfold, by simp [i2], ?_, ?_, ?_⟩
    · intro i hi
      have : (((List.range bases.length).map fun i => (bv i, Ev i)).map Prod.fst).getD i Elem.blank = bv i := by
        rw [List.getD_eq_getElem?_getD, List.getElem?_map, List.getElem?_map, List.getElem?_range (by omega)]; rfl
      rw [this]
      exact (i3 i hi).trans (g3 i hi)
    · rw [hflat, List.length_append, i4, length_flatMap_range _ _ _ hw]
      ring
    · intro kb hkb i hi
      rcases Nat.lt_succ_iff_lt_or_eq.1 hkb with h | rfl
      · obtain ⟨l, base, E, base', a1, a2, a3, a4, a5⟩ := i5 kb h i hi
        refine ⟨l, base, E, base', a1, a2, a3, a4, fun iell h6 => ?_⟩
        have h' := a5 iell h6
        rw [List.getElem?_append_left]
        · exact h'
        · exact (List.getElem?_eq_some_iff.1 h').1
      · refine ⟨lv i, bases.getD i Elem.blank, Ev i, bv i, ⟨i3 i hi, fun h0 => ?_⟩, g1 i hi, g2 i hi, g4 i hi, fun iell h6 => ?_⟩
        · subst h0
          rw [show bases = L from (congrArg Prod.fst (Except.ok.inj i1)).symm]
        have e : 6 * (i + L.length * kb) + iell = L.length * 6 * kb + (i * 6 + iell) := by ring
        rw [e, List.getElem?_append_right (by omega), i4, Nat.add_sub_cancel_left, hflat,
          getElem?_flatMap_range _ _ _ hw i iell hi h6, List.getElem?_map, List.getElem?_range h6]
        rfl

/-! ### The whole function -/

namespace Spec

/-- Usable arguments of `extrude_mid`: a 2D vertex mesh with geometry, a positive multiple of four layers, one condition per
field and end, periodic at both ends or none; the splitting function has two low and two high corners in each element, and no
edge is of the type `s`. -/
structure MidArgs (M : HexaData F) (z : List F) (l1 l2 : List Name) (f : F → F → F) (nb : Nat) : Prop where
  wf : WF M
  ndim : M.ndim = 2
  lr1 : M.lr1 = ⟨2, 2, 1, true⟩
  var : 2 ≤ M.var.pos
  corners : ∀ i < M.nel, HasCorners (M.el i)
  z : z.length = 4 * nb + 1
  pos : 0 < nb
  len1 : M.nbc ≤ l1.length
  len2 : M.nbc ≤ l2.length
  ends : ¬ OneSided l1 l2
  two : ∀ i < M.nel, lowCount f (M.el i) = 2
  noS : ∀ i < M.nel, ∀ e < 4, (M.el i).ccurv e ≠ ['s']

end Spec

/-- Description of the outcome for one column and block. -/
def MidDesc (rt : F → F) (f : F → F → F) (ib : Bool) (z : List F) (l1 l2 : List Name) (nb : Nat) (M R : HexaData F) (kb i : Nat) : Prop :=
  ∃ l base E base', MutatedBy kb (M.el i) base ∧ classify f (M.el i) = .ok l ∧
    midElem rt f ib M.nbc M.nel z kb i base = .ok (base', E) ∧ MidOut rt ib M.nbc M.nel z kb i (splitOf l.1 l.2) base E ∧
    ∀ iell < 6, R.el (6 * (i + M.nel * kb) + iell) =
      midEnds M.nel (M.nel * 6 * nb) M.nbc (fun b => l1.getD b []) (fun b => l2.getD b []) (6 * (i + M.nel * kb) + iell) (E iell)

theorem extrudeMid_ok (rt : F → F) {M : HexaData F} {z : List F} {l1 l2 : List Name} {f : F → F → F} {nb : Nat}
    (A : MidArgs M z l1 l2 f nb) (ib : Bool) :
    ∃ M' R, extrudeMid rt M z l1 l2 f ib = .ok (M', R) ∧
      (M' = { M with elem := M'.elem } ∧ M'.elem.length = M.nel ∧ ∀ i < M.nel, Mutated (M.el i) (M'.el i)) ∧
      (R.ndim = 3 ∧ R.nel = M.nel * 6 * nb ∧ R.nbc = M.nbc ∧ R.lr1 = ⟨2, 2, 2, true⟩ ∧ R.var = ⟨3, 0, 0, 0, 0⟩ ∧
        R.ncurv = countCurved R.elem ∧ R.time = M.time ∧ R.istep = M.istep ∧ R.wdsz = M.wdsz ∧ R.endian = M.endian) ∧
      R.elmap = ((List.range (6 * nb)).flatMap fun k => M.elmap.map (· + ((k * M.nel : Nat) : Int))) ∧
      R.elem.length = M.nel * 6 * nb ∧ ∀ kb < nb, ∀ i < M.nel, MidDesc rt f ib z l1 l2 nb M R kb i := by
  have hn := A.wf.nel
  have hone : oneSidedP l1 l2 = false := by
    by_contra h; exact A.ends ((oneSidedP_iff _ _).1 (by simpa using h))
  have hz := A.z
  have hp := A.pos
  have hvar := A.var
  have e4 : (z.length - 1) / 4 = nb := by omega
  obtain ⟨bases, els, g1, g2, g3, g4, g5⟩ := midBlocks rt f ib M.nbc z M.elem (fun i hi => A.corners i (by omega)) (fun i hi => A.two i (by omega))
    (fun i hi => A.noS i (by omega)) nb
  unfold extrudeMid
  rw [if_neg (by rw [A.ndim]; simp), if_neg (by rw [A.lr1]; simp), if_neg (by omega), hone, if_neg (by simp), if_neg (by
    rintro (h | h)
    · rw [h] at hz; simp at hz
    · omega)]
  simp only [e4]
  rw [hn, g1]
  have l1' := A.len1
  have l2' := A.len2
  simp only [bind, Except.bind]
  rw [if_neg (by omega), if_neg (by omega), Nat.max_eq_right (by omega)]
  refine ⟨_, _, rfl, ⟨rfl, g2, g3⟩, ⟨rfl, rfl, rfl, rfl, rfl, rfl, rfl, rfl, rfl, rfl⟩, rfl, by simp only [List.length_mapIdx]; exact g4, ?_⟩
  intro kb hkb i hi
  obtain ⟨l, base, E, base', a1, a2, a3, a4, a5⟩ := g5 kb hkb i hi
  have hcl : classify f (M.el i) = .ok l := by
    rw [← a2]; exact (mutated_classify a1.1 (A.corners i (by omega))).symm
  refine ⟨l, base, E, base', a1, hcl, ?_, ?_, ?_⟩
  · rw [hn]; exact a3
  · rw [hn]; exact a4
  · intro iell h6
    rw [hn]
    have := a5 iell h6
    unfold HexaData.el
    dsimp only
    rw [List.getD_eq_getElem?_getD, List.getElem?_mapIdx, this]
    rfl

/-! ### C72 -/

/-- **C72** (the part that holds). With usable arguments — a positive multiple of four layers, no spherical edges — six elements per
column and block of four layers are returned. -/
theorem C72_partial (rt : F → F) (M : HexaData F) (z : List F) (l1 l2 : List Name) (f : F → F → F) (nb : Nat) (A : MidArgs M z l1 l2 f nb)
    (ib : Bool) : ∃ M' R, extrudeMid rt M z l1 l2 f ib = .ok (M', R) ∧ R.nel = M.nel * 6 * ((z.length - 1) / 4) ∧ R.elem.length = R.nel ∧
      R.ndim = 3 ∧ R.lr1 = ⟨2, 2, 2, true⟩ ∧
      R.ncurv = (R.elem.map fun el => ((List.range 12).filter fun e => el.ccurv e ≠ []).length).sum := by
  obtain ⟨M', R, h1, -, ⟨a1, a2, a3, a4, a5, a6, -⟩, -, h4, -⟩ := extrudeMid_ok rt A ib
  have hz := A.z
  refine ⟨M', R, h1, by rw [a2, show (z.length - 1) / 4 = nb by omega], by rw [h4, a2], a1, a4, a6⟩

/-- `ValueError` whenever the number of layers is not a multiple of four. -/
theorem C72_layers (rt : F → F) (M : HexaData F) (z : List F) (l1 l2 : List Name) (f : F → F → F) (ib : Bool)
    (h : ((z.length : Int) - 1) % 4 ≠ 0) : extrudeMid rt M z l1 l2 f ib = .error .valueError := by
  unfold extrudeMid
  have : z = [] ∨ (z.length - 1) % 4 ≠ 0 := by
    by_cases hz : z = []
    · exact Or.inl hz
    · right
      have : 0 < z.length := List.length_pos_iff.2 hz
      omega
  simp only [if_pos this, ite_self]

theorem midElem_rejects (rt : F → F) (f : F → F → F) (ib : Bool) (nbc n : Nat) (z : List F) (kb i : Nat) (base : Elem F)
    (hc : HasCorners base) (h2 : lowCount f base ≠ 2) : midElem rt f ib nbc n z kb i base = .error .valueError := by
  unfold midElem
  rw [classify_eq f base hc, if_neg h2]
  rfl

/-- `ValueError` whenever in some element the numbers of low and high corners differ (there being layers and no spherical edges). -/
theorem C72_rejects (rt : F → F) (M : HexaData F) (z : List F) (l1 l2 : List Name) (f : F → F → F) (ib : Bool) (hn : M.nel = M.elem.length)
    (hz : 2 ≤ z.length) (hc : ∀ i < M.nel, HasCorners (M.el i)) (hs : ∀ i < M.nel, ∀ e < 4, (M.el i).ccurv e ≠ ['s'])
    (h2 : ∃ i < M.nel, lowCount f (M.el i) ≠ 2) : extrudeMid rt M z l1 l2 f ib = .error .valueError := by
  unfold extrudeMid
  by_cases hl : z = [] ∨ (z.length - 1) % 4 ≠ 0
  · simp only [if_pos hl, ite_self]
  · obtain ⟨q, hq⟩ : ∃ q, (z.length - 1) / 4 = q + 1 := ⟨(z.length - 1) / 4 - 1, by omega⟩
    have hfold : (List.range ((z.length - 1) / 4)).foldlM (midBlock rt f ib M.nbc M.nel z) (M.elem, []) = .error .valueError := by
      rw [hq, List.range_succ_eq_map, List.foldlM_cons]
      have : midBlock rt f ib M.nbc M.nel z (M.elem, []) 0 = .error .valueError := by
        unfold midBlock
        have hm : (List.range M.elem.length).mapM (fun i => midElem rt f ib M.nbc M.nel z 0 i (M.elem.getD i Elem.blank)) = .error .valueError := by
          apply mapM_error
          · intro i hi
            have hi' : i < M.nel := by rw [hn]; simpa using hi
            by_cases h : lowCount f (M.el i) = 2
            · obtain ⟨l, b, E, -, h1, -⟩ := midElem_ok rt f ib M.nbc M.nel z 0 i (M.el i) (hc i hi') h (hs i hi')
              exact Or.inl ⟨_, h1⟩
            · exact Or.inr (midElem_rejects rt f ib M.nbc M.nel z 0 i _ (hc i hi') h)
          · obtain ⟨i, hi, h⟩ := h2
            exact ⟨i, by simpa using hn ▸ hi, midElem_rejects rt f ib M.nbc M.nel z 0 i _ (hc i hi) h⟩
        simp only [hm, bind, Except.bind]
      rw [this]
      rfl
    simp only [hfold, bind, Except.bind, ite_self]

/-! ### C77 -/

/-- An edge of type `s` makes `extrude_mid` fail with `IndexError` on that element. -/
theorem midElem_sphere (rt : F → F) (f : F → F → F) (ib : Bool) (nbc n : Nat) (z : List F) (kb i : Nat) (base : Elem F)
    (hc : HasCorners base) (h2 : lowCount f base = 2) (hs : ∃ e < 4, base.ccurv e = ['s']) :
    midElem rt f ib nbc n z kb i base = .error .indexError := by
  obtain ⟨⟨lo, hi⟩, c1, c2, c3, c4, c5⟩ := classify_edges hc h2
  have he : ∀ e < 4, HasEdge base e := fun e h => ⟨by omega, hc.1, hc.2.1, hc.2.2, fun _ => by omega⟩
  obtain ⟨b1, q1, q2, q3⟩ := edgeMid_mut rt base _ (he _ c4)
  obtain ⟨b2, p1, p2, -⟩ := edgeMid_mut rt b1 _ (q2.but.hasEdge (he _ c5))
  unfold midElem
  rw [c1]
  simp only [bind, Except.bind]
  rw [q1]
  simp only
  rw [p1]
  simp only
  rw [if_pos hs]

/-- **C77 does not hold**: whenever the 2D mesh has a spherical edge (and two low and two high corners in each element), `extrude_mid`
raises `IndexError` instead of converting the curvature. -/
theorem C77_false (rt : F → F) (M : HexaData F) (z : List F) (l1 l2 : List Name) (f : F → F → F) (ib : Bool) (hw : WF M)
    (hd : M.ndim = 2) (hlr : M.lr1 = ⟨2, 2, 1, true⟩) (hv : 2 ≤ M.var.pos) (hone : ¬ OneSided l1 l2) (hz : z.length % 4 = 1) (hz2 : 2 ≤ z.length)
    (hc : ∀ i < M.nel, HasCorners (M.el i)) (h2 : ∀ i < M.nel, lowCount f (M.el i) = 2)
    (hs : ∃ i < M.nel, ∃ e < 4, (M.el i).ccurv e = ['s']) : extrudeMid rt M z l1 l2 f ib = .error .indexError := by
  have hn := hw.nel
  have hone' : oneSidedP l1 l2 = false := by
    by_contra h; exact hone ((oneSidedP_iff _ _).1 (by simpa using h))
  obtain ⟨q, hq⟩ : ∃ q, (z.length - 1) / 4 = q + 1 := ⟨(z.length - 1) / 4 - 1, by omega⟩
  have hfold : (List.range ((z.length - 1) / 4)).foldlM (midBlock rt f ib M.nbc M.nel z) (M.elem, []) = .error .indexError := by
    rw [hq, List.range_succ_eq_map, List.foldlM_cons]
    have : midBlock rt f ib M.nbc M.nel z (M.elem, []) 0 = .error .indexError := by
      unfold midBlock
      have hm : (List.range M.elem.length).mapM (fun i => midElem rt f ib M.nbc M.nel z 0 i (M.elem.getD i Elem.blank)) = .error .indexError := by
        apply mapM_error
        · intro i hi
          have hi' : i < M.nel := by rw [hn]; simpa using hi
          by_cases h : ∃ e < 4, (M.el i).ccurv e = ['s']
          · exact Or.inr (midElem_sphere rt f ib M.nbc M.nel z 0 i _ (hc i hi') (h2 i hi') h)
          · obtain ⟨l, b, E, -, h1, -⟩ := midElem_ok rt f ib M.nbc M.nel z 0 i (M.el i) (hc i hi') (h2 i hi') (fun e he h' => h ⟨e, he, h'⟩)
            exact Or.inl ⟨_, h1⟩
        · obtain ⟨i, hi, h⟩ := hs
          exact ⟨i, by simpa using hn ▸ hi, midElem_sphere rt f ib M.nbc M.nel z 0 i _ (hc i hi) (h2 i hi) h⟩
      simp only [hm, bind, Except.bind]
    rw [this]
    rfl
  unfold extrudeMid
  rw [if_neg (by rw [hd]; simp), if_neg (by rw [hlr]; simp), if_neg (by omega), hone', if_neg (by simp), if_neg (by
    rintro (h | h)
    · rw [h] at hz2; simp at hz2
    · omega)]
  simp only [hfold, bind, Except.bind]

/-! ### Examples -/

namespace Samples

/-- A row of two squares, periodic in x. -/
def midRow : HexaData ℚ := box 2 1 0 nP nP nW nW

/-- Splits the row along its middle. -/
def halfY (_ y : ℚ) : ℚ := y - 1 / 2

def z4 : List ℚ := [0, 1, 2, 3, 4]
def z8 : List ℚ := [0, 1, 2, 3, 4, 5, 6, 7, 8]

/-- Boolean form of `MidArgs` (without the one-sided test). -/
def midArgsB (M : HexaData ℚ) (z : List ℚ) (l1 l2 : List Name) (f : ℚ → ℚ → ℚ) (nb : Nat) : Bool :=
  wfB M && decide (M.ndim = 2 ∧ M.lr1 = ⟨2, 2, 1, true⟩ ∧ 2 ≤ M.var.pos ∧ z.length = 4 * nb + 1 ∧ 0 < nb ∧ M.nbc ≤ l1.length ∧ M.nbc ≤ l2.length) &&
    !oneSidedP l1 l2 && (List.range M.nel).all fun i => decide (2 ≤ (M.el i).pos.lx ∧ 2 ≤ (M.el i).pos.ly ∧ 1 ≤ (M.el i).pos.lz) &&
      decide (lowCount f (M.el i) = 2) && (List.range 4).all fun e => decide ((M.el i).ccurv e ≠ ['s'])

theorem midArgs_of {M : HexaData ℚ} {z : List ℚ} {l1 l2 : List Name} {f : ℚ → ℚ → ℚ} {nb : Nat} (h : midArgsB M z l1 l2 f nb = true) :
    MidArgs M z l1 l2 f nb := by
  unfold midArgsB at h
  simp only [Bool.and_eq_true, decide_eq_true_eq, List.all_eq_true, List.mem_range, Bool.not_eq_true'] at h
  obtain ⟨⟨⟨h1, a1, a2, a3, a4, a5, a6, a7⟩, h3⟩, h4⟩ := h
  refine ⟨wf_of_wfB _ h1, a1, a2, a3, fun i hi => (h4 i hi).1.1, a4, a5, a6, a7, fun ho => ?_, fun i hi => (h4 i hi).1.2, fun i hi => (h4 i hi).2⟩
  rw [(oneSidedP_iff _ _).2 ho] at h3
  exact absurd h3 (by simp)

theorem midRow_args : MidArgs midRow z8 [nP] [nP] halfY 2 := midArgs_of (by decide +kernel)

end Samples

example : ∃ M' R, extrudeMid Samples.rootQ Samples.midRow Samples.z8 [nP] [nP] Samples.halfY true = .ok (M', R) ∧ R.nel = 24 := by
  obtain ⟨M', R, h, h1, -⟩ := C72_partial Samples.rootQ _ _ _ _ _ _ Samples.midRow_args true
  exact ⟨M', R, h, h1.trans (by decide +kernel)⟩

/-- Five layers. -/
example : extrudeMid Samples.rootQ Samples.midRow [0, 1, 2, 3, 4, 5] [nP] [nP] Samples.halfY true = .error .valueError :=
  C72_layers _ _ _ _ _ _ _ (by decide)

/-- The whole row is low. -/
example : extrudeMid Samples.rootQ Samples.midRow Samples.z8 [nP] [nP] (fun _ y => y - 2) true = .error .valueError :=
  C72_rejects _ _ _ _ _ _ _ (by decide +kernel) (by decide) Samples.midRow_args.corners Samples.midRow_args.noS ⟨0, by decide +kernel, by decide +kernel⟩

/-- **C72 does not hold without layers**: zero is a multiple of four, but `extrude_mid` raises `IndexError`. -/
theorem C72_false : ∃ (M : HexaData ℚ) (z : List ℚ) (l1 l2 : List Name) (f : ℚ → ℚ → ℚ), WF M ∧ M.ndim = 2 ∧ (z.length - 1) % 4 = 0 ∧
    (∀ i < M.nel, lowCount f (M.el i) = 2) ∧ ∀ rt, extrudeMid rt M z l1 l2 f true = .error .indexError :=
  ⟨Samples.midRow, [0], [nP], [nP], Samples.halfY, Samples.midRow_args.wf, Samples.midRow_args.ndim, by decide, Samples.midRow_args.two, fun rt => by
    have hf : (List.range (([0] : List ℚ).length - 1)).foldlM (midBlock rt Samples.halfY true Samples.midRow.nbc Samples.midRow.nel [0])
      (Samples.midRow.elem, []) = .ok (Samples.midRow.elem, []) := rfl
    unfold extrudeMid
    rw [if_neg (by decide +kernel), if_neg (by decide +kernel), if_neg (by decide +kernel), if_neg (by decide +kernel), if_neg (by decide)]
    show (if _ then _ else _ : Py _) = _
    rw [if_pos (by decide +kernel)]⟩

namespace Samples

/-- The row with a spherical edge in the second element. -/
def sphereRow : HexaData ℚ := { midRow with elem := midRow.elem.modify 1 fun el => el.setType 0 ['s'] }

end Samples

example : extrudeMid Samples.rootQ Samples.sphereRow Samples.z4 [nP] [nP] Samples.halfY true = .error .indexError :=
  C77_false _ _ _ _ _ _ _ (Samples.wf_of_wfB _ (by decide +kernel)) (by decide +kernel) (by decide +kernel) (by decide +kernel)
    (fun h => absurd ((oneSidedP_iff _ _).2 h) (by decide)) (by decide) (by decide)
    (fun i hi => by
      have : ∀ i < Samples.sphereRow.nel, 2 ≤ (Samples.sphereRow.el i).pos.lx ∧ 2 ≤ (Samples.sphereRow.el i).pos.ly ∧ 1 ≤ (Samples.sphereRow.el i).pos.lz := by
        decide +kernel
      exact this i hi) (by decide +kernel) ⟨1, by decide +kernel, 0, by decide, by decide +kernel⟩

end Pymech
