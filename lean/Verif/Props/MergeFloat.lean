import Verif.Lemmas.FloatMerge
import Verif.Props.EdgeFloat
import Verif.Props.LimsFloat

/-!
# C141: `merge` in double precision
-/

set_option autoImplicit false

namespace Pymech

open Spec Flt

namespace Spec

/-- The test of `merge` for face `y` of `B` and face `x` of `A`: the computed distance of the centres is at most the computed limit. -/
def TouchF (L : Libm) (A B : HexaData F64) (tol : F64) (y x : Face) : Prop :=
  ∃ c0 c1 s0 s1, (B.el y.1).faceCenter y.2 = .ok c0 ∧ (A.el x.1).faceCenter x.2 = .ok c1 ∧
    (B.el y.1).smallestEdgeF L = .ok s0 ∧ (A.el x.1).smallestEdgeF L = .ok s1 ∧ L.sqrt (sumSqF L c0 c1) ≤ tol * pyMin s0 s1

end Spec

/-! ### The order of the arguments of Python's `min` does not matter for the check -/

theorem gt_iff_ord {x y : F64} (hx : ¬ x.IsNaN) (hy : ¬ y.IsNaN) : gt x y = true ↔ y.ord < x.ord := by
  unfold gt
  rw [Bool.and_eq_true, decide_eq_true_iff, Bool.not_eq_true', decide_eq_false_iff_not, le_iff_ord, le_iff_ord]
  constructor
  · rintro ⟨h1, h2⟩
    by_contra h
    exact h2 ⟨hx, hy, by omega⟩
  · intro h
    exact ⟨⟨hy, hx, by omega⟩, fun h' => by have := h'.2.2; omega⟩

theorem gt_false_of_le {x y : F64} (h : x ≤ y) : gt x y = false := by
  have h' := (le_iff_ord x y).1 h
  cases hg : gt x y
  · rfl
  · have := (gt_iff_ord h'.1 h'.2.1).1 hg
    omega

theorem limit_swap {d tol a b : F64} (h : d ≤ tol * pyMin a b) : gt d (tol * pyMin b a) = false := by
  have hm : ¬ (tol * pyMin a b).IsNaN := ((le_iff_ord _ _).1 h).2.1
  have hm' : ¬ (pyMin a b).IsNaN := fun hn => hm (by rw [mul_of_nan (Or.inr hn)]; exact nan_isNaN)
  by_cases ha : a.IsNaN
  · exfalso
    apply hm'
    unfold pyMin
    rw [gt_nan a b (Or.inl ha)]
    exact ha
  by_cases hb : b.IsNaN
  · have : pyMin b a = b := by unfold pyMin; rw [gt_nan b a (Or.inl hb)]; rfl
    rw [this, mul_of_nan (Or.inr hb)]
    exact gt_nan _ _ (Or.inr nan_isNaN)
  unfold pyMin at *
  have g1 := gt_iff_ord ha hb
  have g2 := gt_iff_ord hb ha
  cases e1 : gt a b
  · cases e2 : gt b a
    · rw [e1] at h g1
      rw [e2] at g2
      simp only [Bool.false_eq_true, if_false] at h ⊢
      have ho : a.ord = b.ord := by
        have h1 : ¬ b.ord < a.ord := fun h => by simpa using g1.2 h
        have h2 : ¬ a.ord < b.ord := fun h => by simpa using g2.2 h
        omega
      have hab : a = b ∨ b = a.flip ∧ a.mag = 0 := by
        obtain ⟨na, ma, pa⟩ := a
        obtain ⟨nb, mb, pb⟩ := b
        unfold ord at ho
        cases na <;> cases nb <;> simp only [Bool.false_eq_true, if_false, if_true] at ho
        · left; have : ma = mb := by omega
          subst this; rfl
        · right; have : ma = 0 ∧ mb = 0 := by omega
          obtain ⟨rfl, rfl⟩ := this
          exact ⟨rfl, rfl⟩
        · right; have : ma = 0 ∧ mb = 0 := by omega
          obtain ⟨rfl, rfl⟩ := this
          exact ⟨rfl, rfl⟩
        · left; have : ma = mb := by omega
          subst this; rfl
      rcases hab with rfl | ⟨rfl, h0⟩
      · exact gt_false_of_le h
      · have hta : ¬ (tol * a).IsNaN := ((le_iff_ord _ _).1 h).2.1
        have ht : ¬ tol.IsNaN := fun hn => hta (by rw [mul_of_nan (Or.inl hn)]; exact nan_isNaN)
        have fa : a.Finite := by unfold Flt.Finite; rw [h0]; decide
        have va : a.val = 0 := (val_zero_iff a).2 h0
        by_cases ft : tol.Finite
        · have z : (tol * a).mag = 0 := by
            rw [mul_fin ft fa, va, mul_zero]
            exact (val_zero_iff _).1 (ofQ_zero _)
          have : tol * a.flip = (tol * a).flip := by
            rw [← opp_of ha, mul_opp, opp_of hta]
          rw [this]
          refine gt_false_of_le ((le_iff_ord _ _).2 ⟨((le_iff_ord _ _).1 h).1, hta, ?_⟩)
          have h1 := ((le_iff_ord _ _).1 h).2.2
          have o1 : (tol * a).ord = 0 := by unfold ord; rw [z]; simp
          have o2 : (tol * a).flip.ord = 0 := by
            unfold ord
            rw [show (tol * a).flip.mag = (tol * a).mag from rfl, z]
            simp
          omega
        · exfalso
          apply hta
          change (mul tol a).IsNaN
          unfold mul
          rw [if_neg (by push Not; exact ⟨ht, ha⟩), if_neg (fun hh => ft hh.1), if_pos (Or.inr h0)]
          exact nan_isNaN
    · rw [e1] at h
      simp only [Bool.false_eq_true, if_false, if_true] at h ⊢
      exact gt_false_of_le h
  · cases e2 : gt b a
    · rw [e1] at h
      simp only [Bool.false_eq_true, if_false, if_true] at h ⊢
      exact gt_false_of_le h
    · have := g1.1 e1
      have := g2.1 e2
      omega

theorem sumSqF_swap {L : Libm} (hL : EvenSq L) (p q : V3 F64) : sumSqF L q p = sumSqF L p q := by
  unfold sumSqF
  rw [sq_swap hL q.x p.x, sq_swap hL q.y p.y, sq_swap hL q.z p.z]

/-- `merge` with doubles is `merge` with the exact values of the doubles and the rounded test: links are never damaged by rounding. -/
theorem mergeF_exact (L : Libm) (A B : HexaData F64) (tol : F64) (ie ia : Bool) (wA : WFF A) (wB : WFF B) (hd : A.ndim = B.ndim)
    (hn : A.nbc = B.nbc) (hl : A.lr1.x = B.lr1.x) (hA : LinksWhole A) (hB : LinksWhole B) (hs : A.elem.length + B.elem.length ≤ 2 ^ 52) :
    ∃ M0, A.appendF B = .ok M0 ∧ Both (SimN M0 fun _ _ => False) (A.mergeF L B tol ie ia)
      (A.vals.mergeWith B.vals (fun e0 f0 e1 f1 => closeFacesF L (M0.el e0) f0 (M0.el e1) f1 tol) ie ia) := by
  obtain ⟨M0, h0, S, l0, n0, d0, b0, _, _, _⟩ := appendF_sim A B hd hn hA hB (by rw [wA.nel]; omega)
  refine ⟨M0, h0, ?_⟩
  have e : A.mergeF L B tol ie ia = (do
      let nbc := min A.nbc B.nbc
      let nfaces := 2 * A.ndim
      if nbc = 0 ∨ ia then pure (M0, 0)
      else
        (prod2 (List.range' A.nel B.nel) (List.range nfaces)).foldlM
          (mergeOuterF (fun e0 f0 e1 f1 => closeFacesF L (M0.el e0) f0 (M0.el e1) f1 tol) nbc ie A.nel nfaces) (M0, 0)) := by
    unfold HexaData.mergeF
    rw [if_neg (not_not.2 hd), if_neg (not_not.2 hl), h0]
    rfl
  rw [e]
  unfold HexaData.mergeWith
  have c1 : A.vals.nbc = A.nbc := rfl
  have c2 : B.vals.nbc = B.nbc := rfl
  have c3 : A.vals.ndim = A.ndim := rfl
  have c4 : A.vals.nel = A.nel := rfl
  have c5 : B.vals.nel = B.nel := rfl
  simp only [c1, c2, c3, c4, c5]
  by_cases hc : min A.nbc B.nbc = 0 ∨ ia = true
  · rw [if_pos hc, if_pos hc]
    exact ⟨S, rfl⟩
  · rw [if_neg hc, if_neg hc]
    have hpos : 0 < min A.nbc B.nbc := by
      by_contra h
      exact hc (Or.inl (by omega))
    refine both_foldlM _ (fun s t y hy hst => ?_) ⟨S, rfl⟩
    simp only [mem_prod2, List.mem_range, List.mem_range'_1] at hy
    rw [wA.nel, wB.nel] at hy
    rw [← d0]
    exact mergeOuter_sim _ _ ie (by rw [b0]; exact min_le_left _ _) hpos (by rw [d0]; rcases wA.dim with h | h <;> omega) (by omega) _
      (by rw [wA.nel]; omega) s t y (by omega) (by rw [d0]; exact hy.2) hst

theorem faceCenter_pos {a b : Elem F64} (h : a.pos = b.pos) (f : Int) : a.faceCenter f = b.faceCenter f := by
  unfold Elem.faceCenter
  rw [h]

theorem smallestEdgeF_pos (L : Libm) {a b : Elem F64} (h : a.pos = b.pos) : a.smallestEdgeF L = b.smallestEdgeF L := by
  unfold Elem.smallestEdgeF Elem.pt
  rw [h]

theorem nearF_congr {L : Libm} {M M' : HexaData F64} {t : F64} {x y x' y' : Face} (hx : (M.el x.1).pos = (M'.el x'.1).pos)
    (hy : (M.el y.1).pos = (M'.el y'.1).pos) (hfx : x.2 = x'.2) (hfy : y.2 = y'.2) : NearF L M t x y → NearF L M' t x' y' := by
  unfold NearF
  rw [faceCenter_pos hx, faceCenter_pos hy, smallestEdgeF_pos L hx, smallestEdgeF_pos L hy, hfx, hfy]
  exact id

open scoped Classical in
/-- **C141.** With doubles and their rounding: two meshes that pass `check_connectivity(tol)`, with whole element numbers in their links and at most
2^52 elements, in which each face touches at most one face of the other mesh and periodic faces only touch periodic ones (as computed with
rounding), are merged to a mesh that passes `check_connectivity(tol)`; all touching faces are linked to each other; the numbers of the elements
are those of exact arithmetic; and no coordinate changes. -/
theorem C141 (L : Libm) (hL : EvenSq L) (A B : HexaData F64) (tol : F64) (ie : Bool) (wA : WFF A) (wB : WFF B) (hl : A.lr1.x = B.lr1.x)
    (hA : LinksWhole A) (hB : LinksWhole B) (hs : A.elem.length + B.elem.length ≤ 2 ^ 52)
    (cA : A.checkConnectivityF L tol = .ok true) (cB : B.checkConnectivityF L tol = .ok true)
    (H : Mergeable A.vals B.vals ie (TouchF L A B tol) fun _ _ => True) :
    ∃ M n, A.mergeF L B tol ie false = .ok (M, n) ∧ M.checkConnectivityF L tol = .ok true ∧
      M.elem.length = A.elem.length + B.elem.length ∧
      (∀ e < A.elem.length, (M.el e).pos = (A.el e).pos) ∧ (∀ e < B.elem.length, (M.el (A.elem.length + e)).pos = (B.el e).pos) ∧
      (∀ y x, Meets A.vals B.vals ie (TouchF L A B tol) y x → ∀ b < A.nbc,
        (M.bc (A.elem.length + y.1) b y.2).typ = nE ∧ PointsToF (M.bc (A.elem.length + y.1) b y.2) x ∧
        (M.bc x.1 b x.2).typ = nE ∧ PointsToF (M.bc x.1 b x.2) (A.elem.length + y.1, y.2)) ∧
      n = ((prod2 (List.range B.elem.length) (List.range (2 * A.ndim))).flatMap fun y =>
        (prod2 (List.range A.elem.length) (List.range (2 * A.ndim))).map fun x => (y, x)).countP
          fun p => decide (Meets A.vals B.vals ie (TouchF L A B tol) p.1 p.2) := by
  have hd : A.ndim = B.ndim := H.dim
  have hn : A.nbc = B.nbc := H.nbc
  obtain ⟨M0, h0, S, l0, n0, d0, b0, _, el1, el2⟩ := appendF_sim A B hd hn hA hB (by rw [wA.nel]; omega)
  obtain ⟨M0', h0', hb⟩ := mergeF_exact L A B tol ie false wA wB hd hn hl hA hB hs
  cases h0.symm.trans h0'
  have hd6 : 2 * A.ndim ≤ 6 := by rcases wA.dim with h | h <;> omega
  have pA : ∀ e < A.elem.length, (M0.el e).pos = (A.el e).pos := fun e he => by rw [el1 e he]
  have pB : ∀ e < B.elem.length, (M0.el (A.elem.length + e)).pos = (B.el e).pos := fun e he => by rw [el2 e he]
  have g0 : ∀ e < M0.elem.length, 2 ≤ (M0.el e).pos.lx ∧ 2 ≤ (M0.el e).pos.ly ∧ 1 ≤ (M0.el e).pos.lz := by
    intro e he
    by_cases h : e < A.elem.length
    · rw [pA e h]; exact wA.grid _ (A.el_mem e h)
    · obtain ⟨j, rfl⟩ : ∃ j, e = A.elem.length + j := ⟨e - A.elem.length, by omega⟩
      rw [pB j (by omega)]; exact wB.grid _ (B.el_mem j (by omega))
  have r0 : ∀ e < M0.elem.length, (M0.el e).rows = A.nbc := by
    intro e he
    by_cases h : e < A.elem.length
    · rw [el1 e h]; exact wA.rows _ (A.el_mem e h)
    · obtain ⟨j, rfl⟩ : ∃ j, e = A.elem.length + j := ⟨e - A.elem.length, by omega⟩
      rw [el2 j (by omega), hn]; exact wB.rows (B.el j) (B.el_mem j (by omega))
  have lA : A.vals.elem.length = A.elem.length := vals_length A
  have lB : B.vals.elem.length = B.elem.length := vals_length B
  have hT : ∀ y x : Face, y.1 < B.vals.elem.length → y.2 < 2 * B.vals.ndim → x.1 < A.vals.elem.length → x.2 < 2 * A.vals.ndim →
      closeFacesF L (M0.el (A.vals.elem.length + y.1)) y.2 (M0.el x.1) x.2 tol = .ok (decide (TouchF L A B tol y x)) := by
    intro y x hy hy2 hx hx2
    rw [lB] at hy
    rw [lA] at hx ⊢
    have hy2' : y.2 < 2 * B.ndim := hy2
    have hx2' : x.2 < 2 * A.ndim := hx2
    have gy := wB.grid _ (B.el_mem y.1 hy)
    have gx := wA.grid _ (A.el_mem x.1 hx)
    unfold closeFacesF TouchF
    rw [faceCenter_pos (pB y.1 hy), faceCenter_pos (pA x.1 hx), smallestEdgeF_pos L (pB y.1 hy), smallestEdgeF_pos L (pA x.1 hx)]
    obtain ⟨s0, k0⟩ := smallestEdgeF_ok L (B.el y.1) gy
    obtain ⟨s1, k1⟩ := smallestEdgeF_ok L (A.el x.1) gx
    have k2 := faceCenter_coords (B.el y.1) y.2 (by omega) (by omega) (by omega) (by omega)
    have k3 := faceCenter_coords (A.el x.1) x.2 (by omega) (by omega) (by omega) (by omega)
    rw [k0, k1, k2, k3]
    simp only [bind, Except.bind, pure, Except.pure, Except.ok.injEq, decide_eq_decide]
    constructor
    · intro h
      exact ⟨_, _, _, _, rfl, rfl, rfl, rfl, h⟩
    · rintro ⟨c0, c1, t0, t1, rfl, rfl, rfl, rfl, h⟩
      exact h
  have LA := (check_connectivityF_iff L A wA tol).1 cA
  have LB := (check_connectivityF_iff L B wB tol).1 cB
  have H' : Mergeable A.vals B.vals ie (TouchF L A B tol) (NearF L M0 tol) := by
    refine ⟨H.wfA, H.wfB, H.dim, H.nbc, H.pos, ?_, ?_, H.uniA, H.uniB, H.selfA, H.selfB, H.oneA, H.oneB, H.per, ?_⟩
    · intro b hb x hx hx2 hlk
      obtain ⟨y, h1, h2, h3, h4, h5, _⟩ := H.validA b hb x hx hx2 hlk
      refine ⟨y, h1, h2, h3, h4, h5, fun hE => ?_⟩
      simp only [vals_bc] at h3 hE hlk
      rw [lA] at hx h1
      obtain ⟨z, z1, z2, z3, _, _, z6⟩ := LA b hb x hx hx2 hlk
      rw [pointsTo_unique h3 z3.2.2]
      exact nearF_congr (pA x.1 hx).symm (pA z.1 z1).symm rfl rfl (z6 hE)
    · intro b hb x hx hx2 hlk
      obtain ⟨y, h1, h2, h3, h4, h5, _⟩ := H.validB b hb x hx hx2 hlk
      refine ⟨y, h1, h2, h3, h4, h5, fun hE => ?_⟩
      simp only [vals_bc] at h3 hE hlk
      rw [lB] at hx h1
      obtain ⟨z, z1, z2, z3, _, _, z6⟩ := LB b hb x hx hx2 hlk
      rw [pointsTo_unique h3 z3.2.2]
      refine nearF_congr (M := B) (x := x) (y := z) ?_ ?_ rfl rfl (z6 hE)
      · simp only [up, lA]; exact (pB x.1 hx).symm
      · simp only [up, lA]; exact (pB z.1 z1).symm
    · intro y x hm
      obtain ⟨m1, m2, m3, m4, _, _, c0, c1, s0, s1, t0, t1, t2, t3, t4⟩ := hm
      rw [lB] at m1
      rw [lA] at m3 ⊢
      constructor
      · refine ⟨c0, c1, s0, s1, ?_, ?_, ?_, ?_, ?_⟩
        · simp only [up]; rw [faceCenter_pos (pB y.1 m1)]; exact t0
        · rw [faceCenter_pos (pA x.1 m3)]; exact t1
        · simp only [up]; rw [smallestEdgeF_pos L (pB y.1 m1)]; exact t2
        · rw [smallestEdgeF_pos L (pA x.1 m3)]; exact t3
        · rw [sumSqF_swap hL c0 c1]
          exact gt_false_of_le t4
      · refine ⟨c1, c0, s1, s0, ?_, ?_, ?_, ?_, ?_⟩
        · rw [faceCenter_pos (pA x.1 m3)]; exact t1
        · simp only [up]; rw [faceCenter_pos (pB y.1 m1)]; exact t0
        · rw [smallestEdgeF_pos L (pA x.1 m3)]; exact t3
        · simp only [up]; rw [smallestEdgeF_pos L (pB y.1 m1)]; exact t2
        · exact limit_swap t4
  obtain ⟨N, n, hN, vN, _, _, kN, _, _⟩ := merge_valid A.vals B.vals ie _ _ H' (fun e0 f0 e1 f1 => closeFacesF L (M0.el e0) f0 (M0.el e1) f1 tol) hT
  obtain ⟨N', hN'⟩ := merge_count A.vals B.vals ie _ _ H' (fun e0 f0 e1 f1 => closeFacesF L (M0.el e0) f0 (M0.el e1) f1 tol) hT
  rw [hN] at hN' hb
  cases hM : A.mergeF L B tol ie false with
  | error e => rw [hM] at hb; exact hb.elim
  | ok p =>
  obtain ⟨M, m⟩ := p
  rw [hM] at hb
  obtain ⟨⟨q1, q2, q3, _⟩, rfl⟩ := hb
  simp only at q1 q2 q3
  have posM : ∀ e, (M.el e).pos = (M0.el e).pos := fun e => by rw [q2.el e]
  have hdM : M.ndim = A.ndim := by rw [q2.hdr]; exact d0
  have hbM : M.nbc = A.nbc := by rw [q2.hdr]; exact b0
  have wM : WFF M := by
    refine ⟨?_, ?_, by rw [hdM]; exact wA.dim, ?_⟩
    · have : M.nel = M0.nel := by rw [q2.hdr]
      rw [this, q2.len, n0, l0, wA.nel, wB.nel]
    · intro el hel
      obtain ⟨i, hi, rfl⟩ := List.getElem_of_mem hel
      rw [← HexaData.el_eq_getElem _ i hi, q2.el i, hbM]
      exact r0 i (q2.len ▸ hi)
    · intro el hel
      obtain ⟨i, hi, rfl⟩ := List.getElem_of_mem hel
      rw [← HexaData.el_eq_getElem _ i hi, posM]
      exact g0 i (q2.len ▸ hi)
  have lM : M.elem.length = A.elem.length + B.elem.length := by rw [q2.len, l0]
  have lN : N.elem.length = M.elem.length := by rw [← q1, vals_length]
  have bN : ∀ e b f, N.bc e b f = (M.bc e b f).vals := fun e b f => by rw [← q1, vals_bc]
  have pt : ∀ b < M.nbc, ∀ x : Face, x.1 < M.elem.length → x.2 < 2 * M.ndim → (M.bc x.1 b x.2).typ = nE ∨ (M.bc x.1 b x.2).typ = nP →
      ∀ y, PointsTo (N.bc x.1 b x.2) y → PointsToF (M.bc x.1 b x.2) y := by
    intro b hb x hx hx2 hlk y hy
    have := q3 x.1 hx b hb x.2 hx2 hlk
    rw [bN] at hy
    exact ⟨this.1, this.2, hy⟩
  refine ⟨M, m, rfl, ?_, lM, ?_, ?_, ?_, ?_⟩
  · rw [check_connectivityF_iff L M wM]
    intro b hb x hx hx2 hlk
    have hb' : b < N.nbc := by rw [← q1]; exact hb
    have hd' : N.ndim = M.ndim := by rw [← q1]; rfl
    obtain ⟨y, y1, y2, y3, y4, y5, y6⟩ := vN b hb' x (by rw [lN]; exact hx) (by rw [hd']; exact hx2) (by change IsLink (N.bc x.1 b x.2); rw [bN]; exact hlk)
    rw [lN] at y1
    rw [hd'] at y2
    simp only [bN] at y4 y6
    have y4' : (M.bc y.1 b y.2).typ = (M.bc x.1 b x.2).typ := y4
    refine ⟨y, y1, by rw [hdM] at y2; omega, pt b hb x hx hx2 hlk y y3, y4', pt b hb y y1 y2 (by rw [y4']; exact hlk) x y5, fun hE => ?_⟩
    exact nearF_congr (posM x.1).symm (posM y.1).symm rfl rfl (y6 hE)
  · intro e he; rw [posM, pA e he]
  · intro e he; rw [posM, pB e he]
  · intro y x hm b hb
    obtain ⟨k1, k2, k3, k4⟩ := kN y x hm b hb
    obtain ⟨m1, m2, m3, m4, _⟩ := hm
    rw [lB] at m1
    rw [lA] at m3 k1 k2 k4
    rw [bN] at k1 k3
    have m2' : y.2 < 2 * B.ndim := m2
    have m4' : x.2 < 2 * A.ndim := m4
    refine ⟨k1, pt b (by rw [hbM]; exact hb) (A.elem.length + y.1, y.2) (by simp only; omega) (by simp only [hdM]; omega) (Or.inl k1) x k2, k3,
      pt b (by rw [hbM]; exact hb) x (by omega) (by rw [hdM]; omega) (Or.inl k3) _ k4⟩
  · have := congrArg Prod.snd (Except.ok.inj hN')
    rw [← lA, ← lB]
    exact this

/-! ### Boolean tests of the hypotheses, for the example -/

namespace Samples

def linksWholeB (M : HexaData F64) : Bool :=
  M.elem.all fun el => (prod2 (List.range M.nbc) (List.range (2 * M.ndim))).all fun t =>
    let r := el.bcs t.1 t.2
    !(decide (r.typ = nE) || decide (r.typ = nP)) ||
      (decide r.p3.Finite && decide r.p4.Finite && decide (r.p3.val = r.p3.val.num) && decide (|r.p3.val.num| ≤ 2 ^ 52))

theorem linksWhole_of_B (M : HexaData F64) (h : linksWholeB M = true) : LinksWhole M := by
  intro el hel b hb f hf hl
  unfold linksWholeB at h
  rw [List.all_eq_true] at h
  have h1 := h el hel
  rw [List.all_eq_true] at h1
  have h2 := h1 (b, f) (by simp [hb, hf])
  simp only [Bool.or_eq_true, Bool.not_eq_true', Bool.or_eq_false_iff, Bool.and_eq_true, decide_eq_true_eq, decide_eq_false_iff_not] at h2
  rcases h2 with h2 | ⟨⟨⟨a, b⟩, c⟩, d⟩
  · rcases hl with hl | hl
    · exact absurd hl h2.1
    · exact absurd hl h2.2
  · exact ⟨a, b, _, c, d⟩

def wffB (M : HexaData F64) : Bool :=
  decide (M.nel = M.elem.length) && (M.elem.all fun el => decide (el.rows = M.nbc)) && decide (M.ndim = 2 ∨ M.ndim = 3) &&
    M.elem.all fun el => decide (2 ≤ el.pos.lx ∧ 2 ≤ el.pos.ly ∧ 1 ≤ el.pos.lz)

theorem wff_of_B (M : HexaData F64) (h : wffB M = true) : WFF M := by
  unfold wffB at h
  simp only [Bool.and_eq_true, decide_eq_true_eq, List.all_eq_true] at h
  exact ⟨h.1.1.1, h.1.1.2, h.1.2, h.2⟩

/-- The test of `merge`, as a Boolean. -/
def touchFB (L : Libm) (A B : HexaData F64) (tol : F64) (y x : Face) : Bool :=
  Py.getD (closeFacesF L (B.el y.1) y.2 (A.el x.1) x.2 tol) false

theorem touchF_B (L : Libm) (A B : HexaData F64) (tol : F64) (y x : Face) (h : TouchF L A B tol y x) : touchFB L A B tol y x = true := by
  obtain ⟨c0, c1, s0, s1, h0, h1, h2, h3, h4⟩ := h
  unfold touchFB closeFacesF
  rw [h0, h1, h2, h3]
  exact decide_eq_true h4

/-- The mesh of a computation that succeeds. -/
def boxOf (x : Py (HexaData F64)) : HexaData F64 := x.getD (HexaData.new .little 2 0 ⟨2, 2, 1, true⟩ ⟨2, 2, 1, 0, 0⟩ 1)

def hundredth : F64 := ofBits 0x3F847AE147AE147B

/-- A box of two elements from 0 to 0.1 in x and one of one element from 0.1 to 1, made with doubles. -/
def leftF : HexaData F64 := boxOf (genBox .little 2 1 f0 tenth f0 two ⟨2, 2, 1, 0, 0⟩ (some [nW]) (some [nW]) (some [nW]) (some [nW]) true)
def rightF : HexaData F64 := boxOf (genBox .little 1 1 tenth one f0 two ⟨2, 2, 1, 0, 0⟩ (some [nW]) (some [nW]) (some [nW]) (some [nW]) true)

end Samples

open Samples in
example : ∃ M n, leftF.mergeF libm rightF hundredth true false = .ok (M, n) ∧ M.checkConnectivityF libm hundredth = .ok true := by
  obtain ⟨M, n, h, c, _⟩ := C141 libm libm_even leftF rightF hundredth true (wff_of_B _ (by decide +kernel)) (wff_of_B _ (by decide +kernel))
    (by decide +kernel) (linksWhole_of_B _ (by decide +kernel)) (linksWhole_of_B _ (by decide +kernel)) (by decide +kernel)
    (by decide +kernel) (by decide +kernel)
    (mergeable_of_B _ _ _ (touchFB libm leftF rightF hundredth) _ (fun y x _ _ _ _ => touchF_B libm leftF rightF hundredth y x) (by decide +kernel))
  exact ⟨M, n, h, c⟩

/-- The example really links faces. -/
example : (Samples.leftF.mergeF libm Samples.rightF Samples.hundredth true false).toOption.map Prod.snd = some 1 := by decide +kernel

end Pymech
