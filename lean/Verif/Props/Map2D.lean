import Verif.Props.Edge
import Verif.Props.Keep
import Verif.Props.Extrude
import Verif.Mesh.Map2D

/-!
# C64, C67, C68 `map2D`, and the number of curved edges
-/

set_option linter.unusedSectionVars false

namespace Pymech

open Spec

variable {F : Type} [Field F] [LinearOrder F]

namespace Spec

/-- The edges that `map2D` is asked to curve: all, those already curved, or those on the boundary. -/
def Requested {F : Type} (curvature bcurv : Bool) (el : Elem F) (e : Nat) : Prop :=
  e < 4 ∧ (curvature = true ∨ el.ccurv e ≠ [] ∨ (bcurv = true ∧ (el.bcs 0 e).typ ≠ [] ∧ (el.bcs 0 e).typ ≠ nE))

/-- Element `el'` is the image of `el` under `T`. Midpoints of edges are those given by `edge_mid`, see C69. -/
structure ImageBy {F : Type} (mid : Elem F → Nat → Py (V3 F × Elem F)) (T : F → F → F × F) (curvature bcurv : Bool) (el el' : Elem F) : Prop where
  frame : el' = { el with pos := el'.pos, curv := el'.curv, ccurv := el'.ccurv }
  shape : el'.pos.n = el.pos.n ∧ el'.pos.lz = el.pos.lz ∧ el'.pos.ly = el.pos.ly ∧ el'.pos.lx = el.pos.lx
  vertex : ∀ ky < 2, ∀ kx < 2, (el'.pos.dat 0 0 ky kx, el'.pos.dat 1 0 ky kx) = T (el.pos.dat 0 0 ky kx) (el.pos.dat 1 0 ky kx)
  depth : ∀ kz ky kx, el'.pos.dat 2 kz ky kx = el.pos.dat 2 kz ky kx
  curved : ∀ e, Requested curvature bcurv el e → el'.ccurv e = ['m'] ∧
    ∃ m el1, mid el e = .ok (m, el1) ∧ (el'.curv e 0, el'.curv e 1) = T m.x m.y ∧ ∀ q, 2 ≤ q → el'.curv e q = el.curv e q
  other : ∀ e, ¬ Requested curvature bcurv el e → el'.ccurv e = el.ccurv e ∧ el'.curv e = el.curv e

/-- `ImageBy` in exact arithmetic. -/
abbrev Image (rt : F → F) (T : F → F → F × F) (curvature bcurv : Bool) (el el' : Elem F) : Prop := ImageBy (edgeMid rt) T curvature bcurv el el'

/-- A function like `edge_mid`, which reads and writes only the curvature of its own edge, and writes only that of arcs. -/
def MidLocal {F : Type} (mid : Elem F → Nat → Py (V3 F × Elem F)) : Prop :=
  ∀ (el : Elem F) (e : Nat), HasEdge el e → ∃ m r, (el.ccurv e ≠ ['C'] → r = el.curv e) ∧ ∀ c : Nat → Nat → F, c e = el.curv e →
    mid { el with curv := c } e = .ok (m, { el with curv := fun e' => if e' = e then r else c e' })

/-- The mesh has 2D elements with at least four vertices, and boundary conditions if these matter. -/
structure MapArgs {F : Type} (curvature bcurv : Bool) (M : HexaData F) : Prop where
  size : ∀ el ∈ M.elem, 2 ≤ el.pos.n ∧ 1 ≤ el.pos.lz ∧ 2 ≤ el.pos.ly ∧ 2 ≤ el.pos.lx
  rows : curvature = false → bcurv = true → ∀ el ∈ M.elem, 0 < el.rows

/-- Number of curved edges. -/
def curvedEdges (M : HexaData F) : Nat :=
  (M.elem.map fun el => ((List.range 12).filter fun i => el.ccurv i ≠ []).length).sum

/-- The two faces (of 2D elements) have the same end points. -/
def SameEnds (M : HexaData F) (x y : Face) : Prop :=
  (edgeFrom (M.el x.1) x.2 = edgeFrom (M.el y.1) y.2 ∧ edgeTo (M.el x.1) x.2 = edgeTo (M.el y.1) y.2) ∨
  (edgeFrom (M.el x.1) x.2 = edgeTo (M.el y.1) y.2 ∧ edgeTo (M.el x.1) x.2 = edgeFrom (M.el y.1) y.2)

end Spec

/-- `edge_mid` reads and writes only the curvature of its own edge. -/
theorem edgeMid_local (rt : F → F) (el : Elem F) (e : Nat) (h : HasEdge el e) :
    ∃ m r, (el.ccurv e ≠ ['C'] → r = el.curv e) ∧ ∀ c : Nat → Nat → F, c e = el.curv e →
      edgeMid rt { el with curv := c } e = .ok (m, { el with curv := fun e' => if e' = e then r else c e' }) := by
  have hs : ∀ c : Nat → Nat → F, c e = el.curv e → (fun e' => if e' = e then el.curv e else c e') = c := by
    intro c hc; funext e'; split_ifs with h
    · rw [h, hc]
    · rfl
  have he : ∀ c : Nat → Nat → F, HasEdge { el with curv := c } e := fun _ => h
  have hcp : ∀ c : Nat → Nat → F, c e = el.curv e → Elem.cpt { el with curv := c } e = el.cpt e := by
    intro c hc; unfold Elem.cpt; simp only [hc]
  by_cases hm : el.ccurv e = ['m']
  · refine ⟨el.cpt e, el.curv e, fun _ => rfl, fun c hc => ?_⟩
    rw [edgeMid_eq rt _ e (he c), hs c hc, if_pos hm, hcp c hc]
  by_cases h0 : el.ccurv e = []
  · refine ⟨⟨((edgeFrom el e).x + (edgeTo el e).x) / 2, ((edgeFrom el e).y + (edgeTo el e).y) / 2, ((edgeFrom el e).z + (edgeTo el e).z) / 2⟩,
      el.curv e, fun _ => rfl, fun c hc => ?_⟩
    rw [edgeMid_eq rt _ e (he c), hs c hc, if_neg hm, if_pos h0]
    rfl
  by_cases hC : el.ccurv e = ['C']
  · refine ⟨arcMid rt (el.curv e 0) (edgeFrom el e) (edgeTo el e),
      (el.setCpt e (arcMid rt (el.curv e 0) (edgeFrom el e) (edgeTo el e))).curv e, fun h => absurd hC h, fun c hc => ?_⟩
    rw [edgeMid_eq rt _ e (he c), if_neg hm, if_neg h0, if_pos hC]
    have e1 : edgeFrom { el with curv := c } e = edgeFrom el e := rfl
    have e2 : edgeTo { el with curv := c } e = edgeTo el e := rfl
    simp only [e1, e2, hc]
    congr 2
    unfold Elem.setCpt
    simp only [if_true]
    congr 1
    funext e' q
    by_cases h : e' = e
    · subst h; simp only [if_true, hc]
    · simp only [if_neg h]
  by_cases hS : el.ccurv e = ['s']
  · refine ⟨sphereMid rt (el.curv e 4) (el.cpt e) (edgeFrom el e) (edgeTo el e), el.curv e, fun _ => rfl, fun c hc => ?_⟩
    rw [edgeMid_eq rt _ e (he c), hs c hc, if_neg hm, if_neg h0, if_neg hC, if_pos hS, hcp c hc]
    simp only [hc]
    rfl
  · refine ⟨el.cpt e, el.curv e, fun _ => rfl, fun c hc => ?_⟩
    rw [edgeMid_eq rt _ e (he c), hs c hc, if_neg hm, if_neg h0, if_neg hC, if_neg hS, hcp c hc]

theorem needCurve_ok {F : Type} (curvature bcurv : Bool) (el : Elem F) (e : Nat) (he : e < 4) (h : curvature = false → bcurv = true → 0 < el.rows) :
    ∃ c, needCurve curvature bcurv el e = .ok c ∧ (c = true ↔ Requested curvature bcurv el e) := by
  unfold needCurve Requested
  cases curvature
  · by_cases hc : el.ccurv e ≠ []
    · exact ⟨true, by simp [hc], by simp [hc, he]⟩
    · cases bcurv
      · exact ⟨false, by simp at hc; simp [hc], by simp at hc; simp [hc]⟩
      · have := h rfl rfl
        refine ⟨_, by simp only [Bool.false_eq_true, if_false, if_neg hc, if_true, if_neg (show ¬ el.rows = 0 by omega)]; rfl, ?_⟩
        simp only [decide_eq_true_eq, Bool.false_eq_true, false_or, hc, true_and, he]
  · exact ⟨true, rfl, by simp [he]⟩

/-- What happens to one element. -/
theorem mapElemBy_ok {F : Type} {mid : Elem F → Nat → Py (V3 F × Elem F)} (hl : MidLocal mid) (T : F → F → F × F) (curvature bcurv : Bool) (el : Elem F)
    (hsz : 2 ≤ el.pos.n ∧ 1 ≤ el.pos.lz ∧ 2 ≤ el.pos.ly ∧ 2 ≤ el.pos.lx) (hr : curvature = false → bcurv = true → 0 < el.rows) :
    ∃ el0 el', mapElemBy mid T curvature bcurv el = .ok (el0, el') ∧ ImageBy mid T curvature bcurv el el' ∧
      el0 = { el with curv := el0.curv } ∧
      (∀ e, ¬ (e < 4 ∧ el.ccurv e = ['C']) → el0.curv e = el.curv e) ∧
      (∀ e < 4, Requested curvature bcurv el e → ∃ m el1, mid el e = .ok (m, el1) ∧ el0.curv e = el1.curv e) := by
  obtain ⟨elv, hv⟩ : ∃ elv, mapVertices T el = .ok elv := by unfold mapVertices; rw [if_pos hsz]; exact ⟨_, rfl⟩
  have hv' : elv = { el with pos := elv.pos } ∧ (elv.pos.n = el.pos.n ∧ elv.pos.lz = el.pos.lz ∧ elv.pos.ly = el.pos.ly ∧ elv.pos.lx = el.pos.lx) ∧
      (∀ ky < 2, ∀ kx < 2, (elv.pos.dat 0 0 ky kx, elv.pos.dat 1 0 ky kx) = T (el.pos.dat 0 0 ky kx) (el.pos.dat 1 0 ky kx)) ∧
      (∀ kz ky kx, elv.pos.dat 2 kz ky kx = el.pos.dat 2 kz ky kx) := by
    unfold mapVertices at hv
    rw [if_pos hsz] at hv
    have := (Except.ok.inj hv).symm
    rw [this]
    refine ⟨rfl, ⟨rfl, rfl, rfl, rfl⟩, ?_, ?_⟩
    · intro ky hky kx hkx
      simp only [hky, hkx, and_self, if_true, one_ne_zero, if_false, Prod.mk.eta]
    · intro kz ky kx
      simp
  obtain ⟨hf, hshape, hvert, hdep⟩ := hv'
  have hcc : elv.ccurv = el.ccurv := by rw [hf]
  have hcv : elv.curv = el.curv := by rw [hf]
  refine Exists.elim (foldlM_inv_pre (f := mapEdgeBy mid T curvature bcurv)
    (fun p (s : Elem F × Elem F) => s.1 = { el with curv := s.1.curv } ∧ s.2 = { elv with curv := s.2.curv, ccurv := s.2.ccurv } ∧
      (∀ e, e ∉ p → s.1.curv e = el.curv e ∧ s.2.ccurv e = el.ccurv e ∧ s.2.curv e = el.curv e) ∧
      (∀ e ∈ p, e < 4 ∧ (Requested curvature bcurv el e → s.2.ccurv e = ['m'] ∧
          ∃ m el1, mid el e = .ok (m, el1) ∧ s.1.curv e = el1.curv e ∧ (el.ccurv e ≠ ['C'] → s.1.curv e = el.curv e) ∧
            (s.2.curv e 0, s.2.curv e 1) = T m.x m.y ∧ ∀ q, 2 ≤ q → s.2.curv e q = el.curv e q) ∧
        (¬ Requested curvature bcurv el e → s.1.curv e = el.curv e ∧ s.2.ccurv e = el.ccurv e ∧ s.2.curv e = el.curv e)))
    (List.range 4) (el, elv) ⟨rfl, rfl, fun e _ => ⟨rfl, by rw [hcc], by rw [hcv]⟩, fun e h => by simp at h⟩ ?step) ?main
  case main =>
    rintro ⟨el0, el'⟩ ⟨h1, h2, h3, h4, h5⟩
    simp only at h2 h3 h4 h5
    refine ⟨el0, el', ?_, ⟨?_, ?_, ?_, ?_, ?_, ?_⟩, h2, ?_, ?_⟩
    · unfold mapElemBy
      rw [hv]
      exact h1
    · rw [h3, hf]
    · rw [h3]; exact hshape
    · rw [h3]; exact hvert
    · rw [h3]; exact hdep
    · intro e he
      obtain ⟨a, m, el1, b1, -, -, b2, b3⟩ := (h5 e (by simpa using he.1)).2.1 he
      exact ⟨a, m, el1, b1, b2, b3⟩
    · intro e he
      by_cases h : e < 4
      · exact ((h5 e (by simpa using h)).2.2 he).2
      · exact (h4 e (by simpa using h)).2
    · intro e he
      by_cases h : e < 4
      · by_cases hq : Requested curvature bcurv el e
        · obtain ⟨-, m, el1, -, -, b, -⟩ := (h5 e (by simpa using h)).2.1 hq
          exact b fun hC => he ⟨h, hC⟩
        · exact ((h5 e (by simpa using h)).2.2 hq).1
      · exact (h4 e (by simpa using h)).1
    · intro e he hq
      obtain ⟨-, m, el1, b1, b2, -⟩ := (h5 e (by simpa using he)).2.1 hq
      exact ⟨m, el1, b1, b2⟩
  case step =>
    rintro p a r ⟨s1, s2⟩ hpl ⟨h1, h2, h3, h4⟩
    simp only at h1 h2 h3 h4
    have ha4 : a < 4 := by
      have : a ∈ List.range 4 := by rw [← hpl]; simp
      simpa using this
    have hap : a ∉ p := by
      have hn : (List.range 4).Nodup := List.nodup_range
      rw [← hpl, List.nodup_append] at hn
      exact fun h => hn.2.2 _ h _ (by simp) rfl
    have hE : HasEdge el a := ⟨by omega, hsz.2.2.2, hsz.2.2.1, hsz.2.1, by omega⟩
    obtain ⟨m, r', hr1, hr2⟩ := hl el a hE
    have hmid : mid el a = .ok (m, { el with curv := fun e' => if e' = a then r' else el.curv e' }) := hr2 el.curv rfl
    have hmid' : mid s1 a = .ok (m, { el with curv := fun e' => if e' = a then r' else s1.curv e' }) := by
      rw [h1]; exact hr2 s1.curv (h3 a hap).1
    have hs1 : s1.rows = el.rows ∧ s1.bcs = el.bcs ∧ s1.ccurv = el.ccurv := by rw [h1]; exact ⟨rfl, rfl, rfl⟩
    obtain ⟨c, hc1, hc2⟩ := needCurve_ok curvature bcurv s1 a ha4 (fun h h' => by rw [hs1.1]; exact hr h h')
    have hreq : Requested curvature bcurv s1 a ↔ Requested curvature bcurv el a := by
      unfold Requested; rw [hs1.2.1, hs1.2.2]
    rw [hreq] at hc2
    have hsplit : ∀ e, e ∈ p ++ [a] ↔ e ∈ p ∨ e = a := by simp
    cases c with
    | false =>
      have hnr : ¬ Requested curvature bcurv el a := by rw [← hc2]; simp
      refine ⟨(s1, s2), ?_, h1, h2, ?_, ?_⟩
      · unfold mapEdgeBy; simp only [hc1, bind, Except.bind]; rfl
      · intro e he; exact h3 e fun h => he (by simp [h])
      · intro e he
        rw [hsplit] at he
        rcases he with he | rfl
        · exact h4 e he
        · exact ⟨ha4, fun h => absurd h hnr, fun _ => h3 e hap⟩
    | true =>
      have hq : Requested curvature bcurv el a := hc2.1 rfl
      refine ⟨({ el with curv := fun e' => if e' = a then r' else s1.curv e' },
        { s2 with ccurv := fun e' => if e' = a then ['m'] else s2.ccurv e',
                  curv := fun e' k => if e' = a then (if k = 0 then (T m.x m.y).1 else if k = 1 then (T m.x m.y).2 else s2.curv e' k) else s2.curv e' k }), ?_, rfl, ?_, ?_, ?_⟩
      · unfold mapEdgeBy; simp only [hc1, bind, Except.bind, hmid']; rfl
      · conv_lhs => rw [h2]
      · intro e he
        rw [hsplit] at he
        push Not at he
        simp only [if_neg he.2]
        exact h3 e he.1
      · intro e he
        rw [hsplit] at he
        by_cases hea : e = a
        · subst hea
          simp only [if_true, one_ne_zero, if_false]
          refine ⟨ha4, fun _ => ⟨trivial, m, _, hmid, by simp, hr1, rfl, ?_⟩, fun h => absurd hq h⟩
          intro q hq2
          rw [if_neg (by omega), if_neg (by omega), (h3 e hap).2.2]
        · have he' : e ∈ p := by tauto
          simp only [if_neg hea]
          exact h4 e he'

/-- What happens to one element in exact arithmetic. -/
theorem mapElem_ok (rt : F → F) (T : F → F → F × F) (curvature bcurv : Bool) (el : Elem F)
    (hsz : 2 ≤ el.pos.n ∧ 1 ≤ el.pos.lz ∧ 2 ≤ el.pos.ly ∧ 2 ≤ el.pos.lx) (hr : curvature = false → bcurv = true → 0 < el.rows) :
    ∃ el0 el', mapElem rt T curvature bcurv el = .ok (el0, el') ∧ Image rt T curvature bcurv el el' ∧
      el0 = { el with curv := el0.curv } ∧
      (∀ e, ¬ (e < 4 ∧ el.ccurv e = ['C']) → el0.curv e = el.curv e) ∧
      (∀ e < 4, Requested curvature bcurv el e → ∃ m el1, edgeMid rt el e = .ok (m, el1) ∧ el0.curv e = el1.curv e) :=
  mapElemBy_ok (fun el e h => edgeMid_local rt el e h) T curvature bcurv el hsz hr

/-! ### C67 -/

/-- **C67.** `map2D` maps each vertex of each element; the edges it is asked to curve, and no others, get a midpoint, which is the
image of the middle of the original edge; everything else, in particular all conditions, is unchanged. -/
theorem C67 (rt : F → F) (T : F → F → F × F) (curvature bcurv : Bool) (M : HexaData F) (A : MapArgs curvature bcurv M) :
    ∃ I R, map2D rt T curvature bcurv M = .ok (I, R) ∧ R = { M with elem := R.elem } ∧ R.elem.length = M.elem.length ∧
      ∀ i < M.elem.length, Image rt T curvature bcurv (M.el i) (R.el i) := by
  obtain ⟨r, h1, h2, h3⟩ := mapM_ok' M.elem (mapElem rt T curvature bcurv) (fun el hel => by
    obtain ⟨a, b, h, -⟩ := mapElem_ok rt T curvature bcurv el (A.size el hel) (fun x y => A.rows x y el hel)
    exact ⟨_, h⟩)
  refine ⟨{ M with elem := r.map Prod.fst }, { M with elem := r.map Prod.snd }, ?_, rfl, by simp [h2], fun i hi => ?_⟩
  · unfold map2D map2DBy; rw [h1]; rfl
  · have hi' : M.elem[i]? = some (M.el i) := by rw [List.getElem?_eq_getElem hi, ← HexaData.el_eq_getElem _ _ hi]
    obtain ⟨y, hy1, hy2⟩ := h3 i _ hi'
    have hmem := List.mem_of_getElem? hi'
    obtain ⟨a, b, h, hI, -⟩ := mapElem_ok rt T curvature bcurv (M.el i) (A.size _ hmem) (fun x y => A.rows x y _ hmem)
    have : ({ M with elem := r.map Prod.snd } : HexaData F).el i = b := by
      unfold HexaData.el
      rw [List.getD_eq_getElem?_getD, List.getElem?_map, hy1]
      rw [h] at hy2
      rw [← Except.ok.inj hy2]
      rfl
    rw [this]
    exact hI

/-- The first and second end of an edge of the image are the images of those of the original edge. -/
theorem image_ends {rt : F → F} {T : F → F → F × F} {curvature bcurv : Bool} {el el' : Elem F} (h : Image rt T curvature bcurv el el')
    (e : Nat) (he : e < 4) :
    edgeFrom el' e = ⟨(T (edgeFrom el e).x (edgeFrom el e).y).1, (T (edgeFrom el e).x (edgeFrom el e).y).2, (edgeFrom el e).z⟩ ∧
    edgeTo el' e = ⟨(T (edgeTo el e).x (edgeTo el e).y).1, (T (edgeTo el e).x (edgeTo el e).y).2, (edgeTo el e).z⟩ := by
  have hv : ∀ ky < 2, ∀ kx < 2, el'.pos.dat 0 0 ky kx = (T (el.pos.dat 0 0 ky kx) (el.pos.dat 1 0 ky kx)).1 ∧
      el'.pos.dat 1 0 ky kx = (T (el.pos.dat 0 0 ky kx) (el.pos.dat 1 0 ky kx)).2 := by
    intro ky hky kx hkx
    rw [← h.vertex ky hky kx hkx]; exact ⟨rfl, rfl⟩
  have key : ∀ k : Nat × Nat × Nat, k.1 < 2 → k.2.1 < 2 → k.2.2 = 0 →
      point el' k = ⟨(T (point el k).x (point el k).y).1, (T (point el k).x (point el k).y).2, (point el k).z⟩ := by
    intro k hk1 hk2 hk3
    unfold point
    rw [hk3, (hv _ hk2 _ hk1).1, (hv _ hk2 _ hk1).2, h.depth]
  have hb : ∀ e < 4, ((edgeVertex.getD e ((0, 0, 0), (0, 0, 0))).1.1 < 2 ∧ (edgeVertex.getD e ((0, 0, 0), (0, 0, 0))).1.2.1 < 2 ∧
      (edgeVertex.getD e ((0, 0, 0), (0, 0, 0))).1.2.2 = 0) ∧ ((edgeVertex.getD e ((0, 0, 0), (0, 0, 0))).2.1 < 2 ∧
      (edgeVertex.getD e ((0, 0, 0), (0, 0, 0))).2.2.1 < 2 ∧ (edgeVertex.getD e ((0, 0, 0), (0, 0, 0))).2.2.2 = 0) := by decide
  obtain ⟨⟨a1, a2, a3⟩, b1, b2, b3⟩ := hb e he
  exact ⟨key _ a1 a2 a3, key _ b1 b2 b3⟩

theorem Spec.SameEnds.image {rt : F → F} {T : F → F → F × F} {curvature bcurv : Bool} {M R : HexaData F}
    (hI : ∀ i < M.elem.length, Image rt T curvature bcurv (M.el i) (R.el i)) {x y : Face} (hx : x.1 < M.elem.length) (hx4 : x.2 < 4)
    (hy : y.1 < M.elem.length) (hy4 : y.2 < 4) (h : SameEnds M x y) : SameEnds R x y := by
  unfold SameEnds at h ⊢
  rw [(image_ends (hI _ hx) _ hx4).1, (image_ends (hI _ hx) _ hx4).2, (image_ends (hI _ hy) _ hy4).1, (image_ends (hI _ hy) _ hy4).2]
  rcases h with ⟨h1, h2⟩ | ⟨h1, h2⟩
  · exact Or.inl ⟨by rw [h1], by rw [h2]⟩
  · exact Or.inr ⟨by rw [h1], by rw [h2]⟩

/-- **C67.** If a 2D mesh is validly connected and internal links join faces with the same end points, this also holds for its
image. -/
theorem C67_valid [FloorRing F] (rt : F → F) (T : F → F → F × F) (curvature bcurv : Bool) (M : HexaData F) (A : MapArgs curvature bcurv M)
    (hd : M.ndim = 2) (hv : Valid M (SameEnds M)) :
    ∃ I R, map2D rt T curvature bcurv M = .ok (I, R) ∧ Valid R (SameEnds R) := by
  obtain ⟨I, R, h1, h2, h3, h4⟩ := C67 rt T curvature bcurv M A
  refine ⟨I, R, h1, ?_⟩
  have hnd : R.ndim = 2 := by rw [h2]; exact hd
  have hnb : R.nbc = M.nbc := by rw [h2]
  have hbc : ∀ i < M.elem.length, ∀ b f, R.bc i b f = M.bc i b f := by
    intro i hi b f; unfold HexaData.bc; rw [(h4 i hi).frame]
  intro b hb x hx hx4 hl
  rw [hnb] at hb
  rw [h3] at hx
  simp only [hnd] at hx4
  simp only [hbc _ hx] at hl ⊢
  obtain ⟨y, hy, hy4, c1, c2, c3, c4⟩ := hv b hb x hx (by rw [hd]; exact hx4) hl
  rw [hd] at hy4
  refine ⟨y, by rw [h3]; exact hy, by rw [hnd]; exact hy4, c1, ?_, ?_, fun h => (c4 h).image h4 hx hx4 hy hy4⟩
  · rw [hbc _ hy]; exact c2
  · rw [hbc _ hy]; exact c3

/-- **C67.** Two edges with the same midpoint, both to be curved, have the same midpoint in the image. -/
theorem C67_mid {rt : F → F} {T : F → F → F × F} {curvature bcurv : Bool} {a a' b b' : Elem F} (ha : Image rt T curvature bcurv a a')
    (hb : Image rt T curvature bcurv b b') (e f : Nat) (he : Requested curvature bcurv a e) (hf : Requested curvature bcurv b f)
    (m n : V3 F) (a1 b1 : Elem F) (hm : edgeMid rt a e = .ok (m, a1)) (hn : edgeMid rt b f = .ok (n, b1)) (hmn : m.x = n.x ∧ m.y = n.y) :
    a'.curv e 0 = b'.curv f 0 ∧ a'.curv e 1 = b'.curv f 1 := by
  obtain ⟨-, m', a2, h1, h2, -⟩ := ha.curved e he
  obtain ⟨-, n', b2, h3, h4, -⟩ := hb.curved f hf
  rw [hm] at h1
  rw [hn] at h3
  obtain ⟨rfl, -⟩ := Prod.mk.inj (Except.ok.inj h1)
  obtain ⟨rfl, -⟩ := Prod.mk.inj (Except.ok.inj h3)
  rw [hmn.1, hmn.2, ← h4] at h2
  exact Prod.mk.inj h2

/-- **C67.** Without the four vertices, `IndexError`. -/
theorem C67_rejects (rt : F → F) (T : F → F → F × F) (curvature bcurv : Bool) (el : Elem F)
    (h : ¬ (2 ≤ el.pos.n ∧ 1 ≤ el.pos.lz ∧ 2 ≤ el.pos.ly ∧ 2 ≤ el.pos.lx)) : mapElem rt T curvature bcurv el = .error .indexError := by
  unfold mapElem mapElemBy mapVertices
  rw [if_neg h]
  rfl

namespace Samples

/-- The channel is sheared; all its boundary edges get midpoints, the others stay straight. -/
def sheared : HexaData ℚ × HexaData ℚ :=
  match map2D rootQ (fun x y => (x + y ^ 2, y)) false true channel with
  | .ok p => p
  | .error _ => (channel, channel)

example : MapArgs false true channel := by
  refine ⟨?_, fun _ _ => ?_⟩
  · decide +kernel
  · decide +kernel

example : Valid channel (SameEnds channel) := by
  have hv := valid_of_validB channel (by decide +kernel)
  intro b hb x hx hx4 hl
  have hE : ∀ x ∈ allFaces channel, (channel.bc x.1 0 x.2).typ = nE → ∀ y ∈ allFaces channel, PointsTo (channel.bc x.1 0 x.2) y → SameEnds channel x y := by
    unfold PointsTo SameEnds; decide +kernel
  obtain ⟨y, hy, hy4, c1, c2, c3, -⟩ := hv b hb x hx hx4 hl
  have hb0 : b = 0 := by have : channel.nbc = 1 := by decide +kernel
                         omega
  subst hb0
  exact ⟨y, hy, hy4, c1, c2, c3, fun h => hE x (by simp [allFaces, hx, hx4]) h y (by simp [allFaces, hy, hy4]) c1⟩

example : sheared.2.elem.map (fun el => (el.ccurv 0, el.ccurv 1, el.curv 0 0, el.pos.dat 0 0 1 1)) =
    [(['m'], [], 1 / 2, 2), (['m'], ['m'], 3 / 2, 3), ([], [], 0, 5), ([], ['m'], 0, 6)] := by decide +kernel

end Samples

/-! ### C68 -/

/-- What happens to the input: only curvature parameters of arcs among the edges 0–3 change. -/
theorem map2D_input (rt : F → F) (T : F → F → F × F) (curvature bcurv : Bool) (M : HexaData F) (A : MapArgs curvature bcurv M) :
    ∃ I R, map2D rt T curvature bcurv M = .ok (I, R) ∧ I = { M with elem := I.elem } ∧ I.elem.length = M.elem.length ∧
      ∀ i < M.elem.length, I.el i = { M.el i with curv := (I.el i).curv } ∧
        (∀ e, ¬ (e < 4 ∧ (M.el i).ccurv e = ['C']) → (I.el i).curv e = (M.el i).curv e) ∧
        (∀ e < 4, (M.el i).ccurv e = ['C'] → ∃ m el1, edgeMid rt (M.el i) e = .ok (m, el1) ∧ (I.el i).curv e 0 = m.x ∧ (I.el i).curv e 1 = m.y) := by
  obtain ⟨r, h1, h2, h3⟩ := mapM_ok' M.elem (mapElem rt T curvature bcurv) (fun el hel => by
    obtain ⟨a, b, h, -⟩ := mapElem_ok rt T curvature bcurv el (A.size el hel) (fun x y => A.rows x y el hel)
    exact ⟨_, h⟩)
  refine ⟨{ M with elem := r.map Prod.fst }, { M with elem := r.map Prod.snd }, ?_, rfl, by simp [h2], fun i hi => ?_⟩
  · unfold map2D map2DBy; rw [h1]; rfl
  · have hi' : M.elem[i]? = some (M.el i) := by rw [List.getElem?_eq_getElem hi, ← HexaData.el_eq_getElem _ _ hi]
    obtain ⟨y, hy1, hy2⟩ := h3 i _ hi'
    have hmem := List.mem_of_getElem? hi'
    obtain ⟨a, b, h, -, hI1, hI2, hI3⟩ := mapElem_ok rt T curvature bcurv (M.el i) (A.size _ hmem) (fun x y => A.rows x y _ hmem)
    have : ({ M with elem := r.map Prod.fst } : HexaData F).el i = a := by
      unfold HexaData.el
      rw [List.getD_eq_getElem?_getD, List.getElem?_map, hy1]
      rw [h] at hy2
      rw [← Except.ok.inj hy2]
      rfl
    rw [this]
    refine ⟨hI1, hI2, fun e he hC => ?_⟩
    obtain ⟨m, el1, c1, c2⟩ := hI3 e he ⟨he, Or.inr (Or.inl (by rw [hC]; decide))⟩
    have hs := A.size _ hmem
    have hE : HasEdge (M.el i) e := ⟨by omega, hs.2.2.2, hs.2.2.1, hs.2.1, by omega⟩
    obtain ⟨m', el2, d1, d2, d3, -⟩ := C70_arc rt (M.el i) e hE hC
    rw [c1] at d1
    obtain ⟨rfl, rfl⟩ := Prod.mk.inj (Except.ok.inj d1)
    exact ⟨m, el1, c1, by rw [c2]; exact d2, by rw [c2]; exact d3⟩

/-- **C68**, the part that holds: if the mesh has no arcs, `map2D` leaves it as it is. Missing: arcs, see `C68_false` and
`map2D_input`. -/
theorem C68_partial (rt : F → F) (T : F → F → F × F) (curvature bcurv : Bool) (M : HexaData F) (A : MapArgs curvature bcurv M)
    (h : ∀ el ∈ M.elem, ∀ e < 4, el.ccurv e ≠ ['C']) : ∃ R, map2D rt T curvature bcurv M = .ok (M, R) := by
  obtain ⟨I, R, h1, h2, h3, h4⟩ := map2D_input rt T curvature bcurv M A
  have : I.elem = M.elem := by
    apply List.ext_getElem h3
    intro i hi hi'
    rw [← HexaData.el_eq_getElem _ _ hi, ← HexaData.el_eq_getElem _ _ hi', (h4 i hi').1]
    have : (I.el i).curv = (M.el i).curv := by
      funext e
      refine (h4 i hi').2.1 e fun he => h (M.el i) ?_ e he.1 he.2
      rw [HexaData.el_eq_getElem _ _ hi']; exact List.getElem_mem hi'
    rw [this]
  rw [this] at h2
  rw [h2] at h1
  exact ⟨R, h1⟩

example : ∀ el ∈ Samples.channel.elem, ∀ e < 4, el.ccurv e ≠ ['C'] := by decide +kernel

namespace Samples

/-- A mesh of one element with an arc. -/
def arcMesh : HexaData ℚ := { box 1 1 0 nW nW nW nW with elem := [arcElem], ncurv := 2 }

end Samples

/-- **C68** is false in the code: the radius 5 of the arc becomes 3. -/
theorem C68_false : ∃ I R, map2D Samples.rootQ (fun x y => (x, y)) true true Samples.arcMesh = .ok (I, R) ∧
    (Samples.arcMesh.el 0).curv 0 0 = 5 ∧ (I.el 0).curv 0 0 = 3 := by
  obtain ⟨I, R, h, -⟩ := C67 Samples.rootQ (fun x y => (x, y)) true true Samples.arcMesh ⟨by decide +kernel, by simp⟩
  refine ⟨I, R, h, by decide +kernel, ?_⟩
  have e : (match map2D Samples.rootQ (fun x y => (x, y)) true true Samples.arcMesh with
    | .ok (I, _) => decide ((I.el 0).curv 0 0 = 3)
    | .error _ => false) = true := by decide +kernel
  rw [h] at e
  exact of_decide_eq_true e

/-! ### C64 -/

theorem length_filter_split (l : List Nat) (p q : Nat → Prop) [DecidablePred p] [DecidablePred q] (h : ∀ x ∈ l, p x → q x) :
    (l.filter fun x => q x).length = (l.filter fun x => p x).length + (l.filter fun x => q x ∧ ¬ p x).length := by
  induction l with
  | nil => rfl
  | cons a l ih =>
    have := ih fun x hx => h x (by simp [hx])
    have ha := h a (by simp)
    by_cases hp : p a <;> by_cases hq : q a <;> simp [hp, hq] at * <;> omega

/-- **C64**, `map2D`: the attribute `ncurv`, if it was right before, is right afterwards if and only if all edges that were to be
curved were curved before. (So the claim is false in the code, see `C64_false`.) -/
theorem C64_map_partial (rt : F → F) (T : F → F → F × F) (curvature bcurv : Bool) (M : HexaData F) (A : MapArgs curvature bcurv M)
    (hn : M.ncurv = curvedEdges M) :
    ∃ I R, map2D rt T curvature bcurv M = .ok (I, R) ∧
      (R.ncurv = curvedEdges R ↔ ∀ el ∈ M.elem, ∀ e, Requested curvature bcurv el e → el.ccurv e ≠ []) := by
  classical
  obtain ⟨I, R, h1, h2, h3, h4⟩ := C67 rt T curvature bcurv M A
  refine ⟨I, R, h1, ?_⟩
  have hnc : R.ncurv = M.ncurv := by rw [h2]
  have hsum : ∀ (l l' : List (Elem F)), l'.length = l.length → (∀ i (hi : i < l.length) (hi' : i < l'.length), Image rt T curvature bcurv l[i] l'[i]) →
      (l'.map fun el => ((List.range 12).filter fun i => el.ccurv i ≠ []).length).sum =
        (l.map fun el => ((List.range 12).filter fun i => el.ccurv i ≠ []).length).sum +
        (l.map fun el => ((List.range 12).filter fun i => Requested curvature bcurv el i ∧ el.ccurv i = []).length).sum := by
    intro l
    induction l with
    | nil => intro l' hl _; rw [List.length_eq_zero_iff.1 hl]; rfl
    | cons a l ih =>
      intro l' hl hI
      cases l' with
      | nil => simp at hl
      | cons a' l' =>
        have h0 := hI 0 (by simp) (by simp)
        simp only [List.getElem_cons_zero] at h0
        simp only [List.map_cons, List.sum_cons]
        rw [ih l' (by simpa using hl) (fun i hi hi' => hI (i + 1) (by simpa using hi) (by simpa using hi'))]
        have hsp := length_filter_split (List.range 12) (fun i => a.ccurv i ≠ []) (fun i => a'.ccurv i ≠ []) (fun i _ hi => by
          by_cases hq : Requested curvature bcurv a i
          · rw [(h0.curved i hq).1]; decide
          · rw [(h0.other i hq).1]; exact hi)
        have heq : ((List.range 12).filter fun i => a'.ccurv i ≠ [] ∧ ¬ a.ccurv i ≠ []) =
            ((List.range 12).filter fun i => Requested curvature bcurv a i ∧ a.ccurv i = []) := by
          apply List.filter_congr
          intro i _
          simp only [decide_eq_decide]
          constructor
          · rintro ⟨b1, b2⟩
            push Not at b2
            refine ⟨?_, b2⟩
            by_contra hq
            rw [(h0.other i hq).1] at b1
            exact b1 b2
          · rintro ⟨b1, b2⟩
            rw [(h0.curved i b1).1]
            simp [b2]
        rw [heq] at hsp
        omega
  have hs := hsum M.elem R.elem h3 (fun i hi hi' => by
    have := h4 i hi
    rwa [HexaData.el_eq_getElem _ _ hi, HexaData.el_eq_getElem _ _ hi'] at this)
  have hR : curvedEdges R = curvedEdges M +
      (M.elem.map fun el => ((List.range 12).filter fun i => Requested curvature bcurv el i ∧ el.ccurv i = []).length).sum := hs
  rw [hnc, hn, hR]
  constructor
  · intro h el hel e hq h0
    have hz : (M.elem.map fun el => ((List.range 12).filter fun i => Requested curvature bcurv el i ∧ el.ccurv i = []).length).sum = 0 := by omega
    rw [List.sum_eq_zero_iff] at hz
    have := hz _ (List.mem_map.2 ⟨el, hel, rfl⟩)
    rw [List.length_eq_zero_iff, List.filter_eq_nil_iff] at this
    have h4 := hq.1
    exact this e (by simp; omega) (by simp [hq, h0])
  · intro h
    have : (M.elem.map fun el => ((List.range 12).filter fun i => Requested curvature bcurv el i ∧ el.ccurv i = []).length).sum = 0 := by
      rw [List.sum_eq_zero_iff]
      intro x hx
      obtain ⟨el, hel, rfl⟩ := List.mem_map.1 hx
      rw [List.length_eq_zero_iff, List.filter_eq_nil_iff]
      intro e _ he
      simp only [decide_eq_true_eq] at he
      exact h el hel e he.1 he.2
    omega

/-- **C64** is false in the code: `map2D` curves 16 edges of the channel but `ncurv` stays 0. -/
theorem C64_false : ∃ I R, map2D Samples.rootQ (fun x y => (x + y ^ 2, y)) true true Samples.channel = .ok (I, R) ∧
    Samples.channel.ncurv = curvedEdges Samples.channel ∧ R.ncurv = 0 ∧ curvedEdges R = 16 := by
  obtain ⟨I, R, h, -⟩ := C67 Samples.rootQ (fun x y => (x + y ^ 2, y)) true true Samples.channel ⟨by decide +kernel, by simp⟩
  refine ⟨I, R, h, by decide +kernel, ?_⟩
  have e : (match map2D Samples.rootQ (fun x y => (x + y ^ 2, y)) true true Samples.channel with
    | .ok (_, R) => decide (R.ncurv = 0 ∧ curvedEdges R = 16)
    | .error _ => false) = true := by decide +kernel
  rw [h] at e
  exact of_decide_eq_true e

variable [IsStrictOrderedRing F] [FloorRing F]

/-- **C64**, `keep_elements`. -/
theorem C64_keep (M : HexaData F) (hn : M.nel = M.elem.length) (elems : List Int) (A : KeepArgs M elems) (ext : Name) (hl : LinksExist M) :
    ∃ R, keepElements M elems ext = .ok R ∧ R.ncurv = curvedEdges R := by
  obtain ⟨S, R, -, h2, -, -, h5, -⟩ := keep_elements_kept M hn elems A ext hl
  exact ⟨R, h2, h5⟩

/-- **C64**, `extrude`: if only edges 0–3 are curved (as in every 2D mesh) the count stays right. -/
theorem C64_extrude (M : HexaData F) (z : List F) (o1 o2 : Option (List Name)) (A : ExtrudeArgs M z o1 o2) (ib : Bool)
    (hn : M.ncurv = curvedEdges M) (h4 : ∀ el ∈ M.elem, ∀ e, 4 ≤ e → el.ccurv e = []) :
    ∃ R, extrude M z o1 o2 ib = .ok R ∧ R.ncurv = curvedEdges R := by
  obtain ⟨R, r1, ⟨-, r2, -, -, -, r3, -⟩, r4, -⟩ := extrude_ok A ib
  obtain ⟨R', r1', -, -, -, -, -, -, hg⟩ := extrude_geometry M z o1 o2 A ib
  rw [r1] at r1'
  obtain rfl := Except.ok.inj r1'
  refine ⟨R, r1, ?_⟩
  rw [r3, hn]
  let cnt : Elem F → Nat := fun el => ((List.range 12).filter fun i => el.ccurv i ≠ []).length
  have hcnt : ∀ k, k + 1 < z.length → ∀ i < M.nel, cnt (R.el (i + M.nel * k)) = 2 * cnt (M.el i) := by
    intro k hk i hi
    obtain ⟨-, -, g1, g2⟩ := hg k hk i hi
    have hmem : M.el i ∈ M.elem := by
      have hi' : i < M.elem.length := by rw [← A.wf.nel]; exact hi
      rw [HexaData.el_eq_getElem _ _ hi']; exact List.getElem_mem hi'
    have h4' := h4 _ hmem
    have e0 : ∀ g < 4, (R.el (i + M.nel * k)).ccurv g = (M.el i).ccurv g := fun g hg => (g1 g hg).1
    have e1 : ∀ g < 4, (R.el (i + M.nel * k)).ccurv (g + 4) = (M.el i).ccurv g := fun g hg => (g1 g hg).2.1
    have e2 : ∀ g, 8 ≤ g → (R.el (i + M.nel * k)).ccurv g = [] := fun g hg => by rw [(g2 g hg).1]; exact h4' g (by omega)
    simp only [cnt, show List.range 12 = [0, 1, 2, 3, 0 + 4, 1 + 4, 2 + 4, 3 + 4, 8, 9, 10, 11] from rfl]
    simp only [List.filter_cons, List.filter_nil, e0 0 (by omega), e0 1 (by omega), e0 2 (by omega), e0 3 (by omega), e1 0 (by omega), e1 1 (by omega),
      e1 2 (by omega), e1 3 (by omega), e2 8 (by omega), e2 9 (by omega), e2 10 (by omega), e2 11 (by omega), h4' 8 (by omega), h4' 9 (by omega),
      h4' 10 (by omega), h4' 11 (by omega), h4' (0 + 4) (by omega), h4' (1 + 4) (by omega), h4' (2 + 4) (by omega), h4' (3 + 4) (by omega)]
    by_cases c0 : (M.el i).ccurv 0 = [] <;> by_cases c1 : (M.el i).ccurv 1 = [] <;> by_cases c2 : (M.el i).ccurv 2 = [] <;>
      by_cases c3 : (M.el i).ccurv 3 = [] <;> simp [c0, c1, c2, c3]
  have hel : ∀ N : HexaData F, curvedEdges N = ((List.range N.elem.length).map fun i => cnt (N.el i)).sum := by
    intro N
    unfold curvedEdges
    congr 1
    apply List.ext_getElem (by simp)
    intro i hi hi'
    simp only [List.getElem_map, List.getElem_range]
    rw [HexaData.el_eq_getElem _ _ (by simpa using hi)]
  have hsum : ∀ n k (f : Nat → Nat), ((List.range (n * k)).map f).sum = ((List.range k).map fun q => ((List.range n).map fun i => f (i + n * q)).sum).sum := by
    intro n k f
    induction k with
    | zero => rfl
    | succ k ih =>
      rw [Nat.mul_succ, List.range_add, List.map_append, List.sum_append, ih, List.range_succ, List.map_append, List.sum_append]
      simp only [List.map_map, List.map_cons, List.map_nil, List.sum_cons, List.sum_nil, Nat.add_zero]
      congr 3
      funext i
      simp [Nat.add_comm]
  rw [hel R, r4, hsum, hel M, ← A.wf.nel]
  have hin : ∀ q ∈ List.range (z.length - 1), ((List.range M.nel).map fun i => cnt (R.el (i + M.nel * q))).sum = 2 * ((List.range M.nel).map fun i => cnt (M.el i)).sum := by
    intro q hq
    rw [← List.sum_map_mul_left]
    congr 1
    apply List.map_congr_left
    intro i hi
    exact hcnt q (by simp at hq; omega) i (by simpa using hi)
  rw [List.map_congr_left hin]
  simp [List.map_const']
  ring

example : ExtrudeArgs Samples.channel [0, 1, 3] (some [Samples.nW]) (some [Samples.nW]) ∧ Samples.channel.ncurv = curvedEdges Samples.channel := by
  refine ⟨⟨Samples.wf_of_wfB _ (by decide +kernel), by decide +kernel, by decide +kernel, by decide +kernel, by simp, ?_, ?_, ?_⟩, by decide +kernel⟩
  · rintro l ⟨⟩; decide +kernel
  · rintro l ⟨⟩; decide +kernel
  · rw [← oneSidedP_iff]; decide +kernel

end Pymech
