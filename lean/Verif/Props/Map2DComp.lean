import Verif.Props.Map2D

/-!
# C125 `map2D` and the composition of transformations
-/

set_option autoImplicit false
set_option linter.unusedSectionVars false

namespace Pymech

open Spec

variable {F : Type} [Field F] [LinearOrder F]

/-- The turns of the loop over edges leave the vertices of the result alone. -/
theorem mapEdges_pos (rt : F → F) (T : F → F → F × F) (curvature bcurv : Bool) (l : List Nat) (s t : Elem F × Elem F)
    (h : l.foldlM (mapEdgeBy (edgeMid rt) T curvature bcurv) s = .ok t) : t.2.pos = s.2.pos := by
  induction l generalizing s with
  | nil =>
    cases h
    rfl
  | cons e l ih =>
    rw [List.foldlM_cons] at h
    cases hs : mapEdgeBy (edgeMid rt) T curvature bcurv s e with
    | error x => rw [hs] at h; cases h
    | ok u =>
      rw [hs] at h
      rw [ih u h]
      unfold mapEdgeBy at hs
      cases hn : needCurve curvature bcurv s.1 e with
      | error x => rw [hn] at hs; cases hs
      | ok c =>
        rw [hn] at hs
        cases c with
        | false => cases hs; rfl
        | true =>
          simp only [bind, Except.bind, if_true] at hs
          cases hm : edgeMid rt s.1 e with
          | error x => rw [hm] at hs; cases hs
          | ok r => rw [hm] at hs; cases hs; rfl

theorem mapElem_pos (rt : F → F) (T : F → F → F × F) (curvature bcurv : Bool) (el a b : Elem F)
    (h : mapElem rt T curvature bcurv el = .ok (a, b)) : ∃ v, mapVertices T el = .ok v ∧ b.pos = v.pos := by
  unfold mapElem mapElemBy at h
  cases hv : mapVertices T el with
  | error x => rw [hv] at h; cases h
  | ok v =>
    rw [hv] at h
    exact ⟨v, rfl, mapEdges_pos rt T curvature bcurv _ _ _ h⟩

theorem Spec.Image.requested {rt : F → F} {T : F → F → F × F} {curvature bcurv : Bool} {el el' : Elem F}
    (h : Image rt T curvature bcurv el el') (e : Nat) : Requested curvature bcurv el' e ↔ Requested curvature bcurv el e := by
  have hb : el'.bcs = el.bcs := by rw [h.frame]
  by_cases hr : Requested curvature bcurv el e
  · refine ⟨fun _ => hr, fun _ => ⟨hr.1, Or.inr (Or.inl ?_)⟩⟩
    rw [(h.curved e hr).1]
    decide
  · have := (h.other e hr).1
    unfold Requested at hr ⊢
    rw [hb, this]

theorem Spec.MapArgs.elem_ok {curvature bcurv : Bool} {M : HexaData F} (A : MapArgs curvature bcurv M) {el : Elem F} (h : el ∈ M.elem) :
    (2 ≤ el.pos.n ∧ 1 ≤ el.pos.lz ∧ 2 ≤ el.pos.ly ∧ 2 ≤ el.pos.lx) ∧ (curvature = false → bcurv = true → 0 < el.rows) :=
  ⟨A.size el h, fun a b => A.rows a b el h⟩

/-- One element: mapping it twice is mapping it once by the composition. -/
theorem mapElem_comp (rt : F → F) (S T : F → F → F × F) (curvature bcurv : Bool) (el : Elem F)
    (hsz : 2 ≤ el.pos.n ∧ 1 ≤ el.pos.lz ∧ 2 ≤ el.pos.ly ∧ 2 ≤ el.pos.lx) (hr : curvature = false → bcurv = true → 0 < el.rows) :
    ∃ a b c, mapElem rt S curvature bcurv el = .ok (a, b) ∧ mapElem rt T curvature bcurv b = .ok (b, c) ∧
      mapElem rt (fun x y => T (S x y).1 (S x y).2) curvature bcurv el = .ok (a, c) := by
  obtain ⟨a, b, h1, I1, fa, ga, ka⟩ := mapElem_ok rt S curvature bcurv el hsz hr
  have hszb : 2 ≤ b.pos.n ∧ 1 ≤ b.pos.lz ∧ 2 ≤ b.pos.ly ∧ 2 ≤ b.pos.lx := by
    rw [I1.shape.1, I1.shape.2.1, I1.shape.2.2.1, I1.shape.2.2.2]
    exact hsz
  have hrb : curvature = false → bcurv = true → 0 < b.rows := by
    intro x y
    rw [I1.frame]
    exact hr x y
  obtain ⟨b', c, h2, I2, fb, gb, kb⟩ := mapElem_ok rt T curvature bcurv b hszb hrb
  obtain ⟨a', c', h3, I3, fc, gc, kc⟩ := mapElem_ok rt (fun x y => T (S x y).1 (S x y).2) curvature bcurv el hsz hr
  -- the element of the second call is not changed, since it has no arcs
  have hb : b' = b := by
    rw [fb]
    have : b'.curv = b.curv := by
      funext e
      refine gb e fun hh => ?_
      by_cases hq : Requested curvature bcurv el e
      · rw [(I1.curved e hq).1] at hh
        exact absurd hh.2 (by decide)
      · have := hh.2
        rw [(I1.other e hq).1] at this
        exact hq ⟨hh.1, Or.inr (Or.inl (by rw [this]; decide))⟩
    rw [this]
  -- the element of the first call is changed in the same way
  have ha : a' = a := by
    rw [fa, fc]
    have : a'.curv = a.curv := by
      funext e
      by_cases hC : e < 4 ∧ el.ccurv e = ['C']
      · have hq : Requested curvature bcurv el e := ⟨hC.1, Or.inr (Or.inl (by rw [hC.2]; decide))⟩
        obtain ⟨m, x, p1, p2⟩ := ka e hC.1 hq
        obtain ⟨m', x', q1, q2⟩ := kc e hC.1 hq
        rw [p1] at q1
        rw [p2, q2, (Prod.mk.inj (Except.ok.inj q1)).2]
      · rw [ga e hC, gc e hC]
    rw [this]
  have hc : c' = c := by
    have hcc : c'.ccurv = c.ccurv := by
      funext e
      by_cases hq : Requested curvature bcurv el e
      · rw [(I3.curved e hq).1, (I2.curved e ((I1.requested e).mpr hq)).1]
      · rw [(I3.other e hq).1, (I2.other e fun h => hq ((I1.requested e).mp h)).1, (I1.other e hq).1]
    have hcv : c'.curv = c.curv := by
      funext e
      by_cases hq : Requested curvature bcurv el e
      · obtain ⟨t1, m, x, p1, p2, p3⟩ := I1.curved e hq
        obtain ⟨t2, m2, x2, q1, q2, q3⟩ := I2.curved e ((I1.requested e).mpr hq)
        obtain ⟨t3, m3, x3, r1, r2, r3⟩ := I3.curved e hq
        rw [p1] at r1
        have hm3 : m3 = m := (Prod.mk.inj (Except.ok.inj r1)).1.symm
        have hE : HasEdge b e := ⟨by have := hq.1; omega, hszb.2.2.2, hszb.2.2.1, hszb.2.1, by have := hq.1; omega⟩
        rw [edgeMid_eq rt b e hE, if_pos t1] at q1
        have hm2 : m2 = b.cpt e := (Prod.mk.inj (Except.ok.inj q1)).1.symm
        have hx : (b.cpt e).x = (S m.x m.y).1 := congrArg Prod.fst p2
        have hy : (b.cpt e).y = (S m.x m.y).2 := congrArg Prod.snd p2
        rw [hm2, hx, hy] at q2
        rw [hm3] at r2
        have h01 := r2.trans q2.symm
        funext q
        by_cases q0 : q = 0
        · rw [q0]; exact congrArg Prod.fst h01
        by_cases q1' : q = 1
        · rw [q1']; exact congrArg Prod.snd h01
        rw [r3 q (by omega), q3 q (by omega), p3 q (by omega)]
      · rw [(I3.other e hq).2, (I2.other e fun h => hq ((I1.requested e).mp h)).2, (I1.other e hq).2]
    have hps : c'.pos = c.pos := by
      obtain ⟨v1, w1, e1⟩ := mapElem_pos rt S curvature bcurv el a b h1
      obtain ⟨v2, w2, e2⟩ := mapElem_pos rt T curvature bcurv b b' c h2
      obtain ⟨v3, w3, e3⟩ := mapElem_pos rt _ curvature bcurv el a' c' h3
      unfold mapVertices at w1 w2 w3
      rw [if_pos hsz] at w1 w3
      rw [if_pos hszb] at w2
      rw [e2, e3, ← Except.ok.inj w2, ← Except.ok.inj w3]
      simp only
      rw [e1, ← Except.ok.inj w1]
      simp only [Arr.mk.injEq, true_and]
      funext d kz ky kx
      by_cases hk : kz = 0 ∧ ky < 2 ∧ kx < 2
      · simp only [hk, and_self, if_true]
        by_cases d0 : d = 0
        · subst d0; simp
        · by_cases d1 : d = 1
          · subst d1; simp
          · simp [d0, d1]
      · simp only [if_neg hk]
    rw [I3.frame, I2.frame, I1.frame, hcc, hcv, hps]
  subst hb ha hc
  exact ⟨_, _, _, h1, h2, h3⟩

/-- **C125.** Mapping a mesh with `S` and the result with `T` gives the same mesh as mapping it once with the composition. The second
call does not change its argument. -/
theorem C125 (rt : F → F) (S T : F → F → F × F) (curvature bcurv : Bool) (M : HexaData F) (A : MapArgs curvature bcurv M) :
    ∃ I R Q, map2D rt S curvature bcurv M = .ok (I, R) ∧ map2D rt T curvature bcurv R = .ok (R, Q) ∧
      map2D rt (fun x y => T (S x y).1 (S x y).2) curvature bcurv M = .ok (I, Q) := by
  have key : ∀ l : List (Elem F), (∀ el ∈ l, (2 ≤ el.pos.n ∧ 1 ≤ el.pos.lz ∧ 2 ≤ el.pos.ly ∧ 2 ≤ el.pos.lx) ∧
        (curvature = false → bcurv = true → 0 < el.rows)) →
      ∃ r : List (Elem F × Elem F × Elem F), l.mapM (mapElem rt S curvature bcurv) = .ok (r.map fun p => (p.1, p.2.1)) ∧
        (r.map fun p => p.2.1).mapM (mapElem rt T curvature bcurv) = .ok (r.map fun p => (p.2.1, p.2.2)) ∧
        l.mapM (mapElem rt (fun x y => T (S x y).1 (S x y).2) curvature bcurv) = .ok (r.map fun p => (p.1, p.2.2)) := by
    intro l
    induction l with
    | nil => intro _; exact ⟨[], rfl, rfl, rfl⟩
    | cons el l ih =>
      intro hl
      obtain ⟨r, h1, h2, h3⟩ := ih fun x hx => hl x (List.mem_cons_of_mem _ hx)
      obtain ⟨g1, g2⟩ := hl el List.mem_cons_self
      obtain ⟨a, b, c, k1, k2, k3⟩ := mapElem_comp rt S T curvature bcurv el g1 g2
      refine ⟨(a, b, c) :: r, ?_, ?_, ?_⟩
      · rw [List.mapM_cons, k1, h1]; rfl
      · rw [List.map_cons, List.mapM_cons, k2, h2]; rfl
      · rw [List.mapM_cons, k3, h3]; rfl
  obtain ⟨r, h1, h2, h3⟩ := key M.elem fun el h => A.elem_ok h
  refine ⟨{ M with elem := r.map fun p => p.1 }, { M with elem := r.map fun p => p.2.1 }, { M with elem := r.map fun p => p.2.2 }, ?_, ?_, ?_⟩
  · unfold map2D map2DBy; rw [h1]; simp only [bind, Except.bind, pure, Except.pure, List.map_map]; rfl
  · unfold map2D map2DBy; rw [h2]; simp only [bind, Except.bind, pure, Except.pure, List.map_map]; rfl
  · unfold map2D map2DBy; rw [h3]; simp only [bind, Except.bind, pure, Except.pure, List.map_map]; rfl

/-- **C125**, identity: the identity changes nothing unless an edge is to be curved that has no midpoint yet. -/
theorem C125_id (rt : F → F) (curvature bcurv : Bool) (M : HexaData F) (A : MapArgs curvature bcurv M)
    (hm : ∀ el ∈ M.elem, ∀ e, Requested curvature bcurv el e → el.ccurv e = ['m']) :
    map2D rt (fun x y => (x, y)) curvature bcurv M = .ok (M, M) := by
  have key : ∀ el ∈ M.elem, mapElem rt (fun x y => (x, y)) curvature bcurv el = .ok (el, el) := by
    intro el hel
    obtain ⟨hsz, hr⟩ := A.elem_ok hel
    obtain ⟨a, b, h1, I1, fa, ga, -⟩ := mapElem_ok rt (fun x y => (x, y)) curvature bcurv el hsz hr
    have ha : a = el := by
      rw [fa]
      have : a.curv = el.curv := by
        funext e
        refine ga e fun hh => ?_
        have := hm el hel e ⟨hh.1, Or.inr (Or.inl (by rw [hh.2]; decide))⟩
        rw [hh.2] at this
        exact absurd this (by decide)
      rw [this]
    have hb : b = el := by
      have hcc : b.ccurv = el.ccurv := by
        funext e
        by_cases hq : Requested curvature bcurv el e
        · rw [(I1.curved e hq).1, hm el hel e hq]
        · exact (I1.other e hq).1
      have hcv : b.curv = el.curv := by
        funext e
        by_cases hq : Requested curvature bcurv el e
        · obtain ⟨-, m, x, p1, p2, p3⟩ := I1.curved e hq
          have hE : HasEdge el e := ⟨by have := hq.1; omega, hsz.2.2.2, hsz.2.2.1, hsz.2.1, by have := hq.1; omega⟩
          rw [edgeMid_eq rt el e hE, if_pos (hm el hel e hq)] at p1
          have hm2 : m = el.cpt e := (Prod.mk.inj (Except.ok.inj p1)).1.symm
          rw [hm2] at p2
          funext q
          by_cases q0 : q = 0
          · rw [q0]; exact congrArg Prod.fst p2
          by_cases q1' : q = 1
          · rw [q1']; exact congrArg Prod.snd p2
          exact p3 q (by omega)
        · exact (I1.other e hq).2
      have hps : b.pos = el.pos := by
        obtain ⟨v1, w1, e1⟩ := mapElem_pos rt _ curvature bcurv el a b h1
        unfold mapVertices at w1
        rw [if_pos hsz] at w1
        rw [e1, ← Except.ok.inj w1]
        show ({ el.pos with dat := _ } : Arr F) = el.pos
        have : (fun d kz ky kx => if kz = 0 ∧ ky < 2 ∧ kx < 2 then (if d = 0 then el.pos.dat 0 0 ky kx else if d = 1 then el.pos.dat 1 0 ky kx
            else el.pos.dat d kz ky kx) else el.pos.dat d kz ky kx) = el.pos.dat := by
          funext d kz ky kx
          split_ifs with h1 h2 h3
          · rw [h1.1, h2]
          · rw [h1.1, h3]
          · rfl
          · rfl
        simp only [this]
      rw [I1.frame, hcc, hcv, hps]
    rw [h1, ha, hb]
  unfold map2D map2DBy
  have hmap : ∀ l : List (Elem F), (∀ el ∈ l, mapElem rt (fun x y => (x, y)) curvature bcurv el = .ok (el, el)) →
      l.mapM (mapElem rt (fun x y => (x, y)) curvature bcurv) = .ok (l.map fun el => (el, el)) := by
    intro l
    induction l with
    | nil => intro _; rfl
    | cons el l ih =>
      intro h
      rw [List.mapM_cons, h el List.mem_cons_self, ih fun x hx => h x (List.mem_cons_of_mem _ hx)]
      rfl
  rw [hmap M.elem key]
  have e1 : M.elem.map (Prod.fst ∘ fun el => (el, el)) = M.elem := List.map_id M.elem
  have e2 : M.elem.map (Prod.snd ∘ fun el => (el, el)) = M.elem := List.map_id M.elem
  simp only [bind, Except.bind, pure, Except.pure, List.map_map, e1, e2]

/-- **C125**, inverse: mapping back with the inverse transformation restores the vertices and midpoints of a mesh that has all the requested
midpoints. -/
theorem C125_inverse (rt : F → F) (S T : F → F → F × F) (hST : ∀ x y, T (S x y).1 (S x y).2 = (x, y)) (curvature bcurv : Bool)
    (M : HexaData F) (A : MapArgs curvature bcurv M)
    (hm : ∀ el ∈ M.elem, ∀ e, Requested curvature bcurv el e → el.ccurv e = ['m']) :
    ∃ R, map2D rt S curvature bcurv M = .ok (M, R) ∧ map2D rt T curvature bcurv R = .ok (R, M) := by
  obtain ⟨I, R, Q, h1, h2, h3⟩ := C125 rt S T curvature bcurv M A
  simp only [hST] at h3
  rw [C125_id rt curvature bcurv M A hm] at h3
  obtain ⟨rfl, rfl⟩ := Prod.mk.inj (Except.ok.inj h3)
  exact ⟨R, h1, h2⟩

/-- Sheared and turned. -/
example : MapArgs false true Samples.channel := ⟨by decide +kernel, fun _ _ => by decide +kernel⟩

example : (match map2D Samples.rootQ (fun x y => (x + y ^ 2, y)) false true Samples.channel with
    | .ok (_, R) => (match map2D Samples.rootQ (fun x y => (-y, x)) false true R with
      | .ok (_, Q) => decide ((Q.el 0).curv 3 0 = -1 / 2 ∧ (Q.el 0).curv 3 1 = 1 / 4 ∧ (Q.el 0).ccurv 3 = ['m'])
      | .error _ => false)
    | .error _ => false) = true := by decide +kernel

/-- A shear and its inverse; the image of the channel has all the requested midpoints. -/
example : (∀ x y : ℚ, (fun x y : ℚ => (x - y ^ 2, y)) ((fun x y : ℚ => (x + y ^ 2, y)) x y).1 ((fun x y : ℚ => (x + y ^ 2, y)) x y).2 = (x, y)) ∧
    ∀ el ∈ Samples.sheared.2.elem, ∀ e < 4, (el.ccurv e ≠ [] ∨ ((el.bcs 0 e).typ ≠ [] ∧ (el.bcs 0 e).typ ≠ nE)) → el.ccurv e = ['m'] := by
  refine ⟨fun x y => by simp, by decide +kernel⟩

end Pymech
