import Verif.Props.FloatLibm
import Verif.Props.MergeFloat

/-!
# C142, C143: `generate_internal_bcs` in double precision
-/

set_option autoImplicit false

namespace Pymech

open Spec Flt

/-! ### The loops with doubles and with their exact values -/

theorem Sim.mod {M M' : HexaData F64} {N' : HexaData ℚ} (h : Sim M (fun _ _ => False) M' N') (i b f : Nat) (g : BC F64 → BC F64) (g' : BC ℚ → BC ℚ)
    (hg : ∀ r, (g r).vals = g' r.vals) (hf : ∀ r, (g r).p3.Finite ∧ (g r).p4.Finite) :
    Sim M (fun _ _ => False) (M'.modBC i b f g) (N'.modBC i b f g') := by
  refine ⟨?_, sameButBC_trans h.same (sameButBC_modBC _ _ _ _ _), ?_, fun _ _ h => h.elim⟩
  · rw [vals_modBC _ _ _ _ _ _ hg, h.vals]
  · intro e' he' b' hb' f' hf' hl
    have hlen : (M'.modBC i b f g).elem.length = M'.elem.length := by simp [HexaData.modBC]
    rw [hlen] at he'
    have old := h.fin e' he' b' hb' f' hf'
    unfold HexaData.bc at hl ⊢ old
    rw [elF_modBC] at hl ⊢
    by_cases hi : i = e' ∧ e' < M'.elem.length
    · rw [if_pos hi] at hl ⊢
      unfold Elem.modBC at hl ⊢
      by_cases hb : b' = b ∧ f' = f
      · simp only [if_pos hb]
        exact hf _
      · simp only [if_neg hb] at hl ⊢
        exact old hl
    · rw [if_neg hi] at hl ⊢
      exact old hl

theorem connectFull_sim {M M' : HexaData F64} {N' : HexaData ℚ} (h : Sim M (fun _ _ => False) M' N') (b e1 f1 e2 f2 : Nat) (h1 : e1 < 2 ^ 53)
    (h2 : e2 < 2 ^ 53) (h3 : f1 < 2 ^ 53) (h4 : f2 < 2 ^ 53) :
    Sim M (fun _ _ => False) (M'.connectFull b e1 f1 e2 f2) (N'.connectFull b e1 f1 e2 f2) := by
  have ex : ∀ n : Nat, n < 2 ^ 53 → (((n : Int) + 1 : Int) : F64).Finite ∧ (((n : Int) + 1 : Int) : F64).val = (((n : Int) + 1 : Int) : ℚ) :=
    fun n hn => intCast_exact _ (by rw [abs_of_nonneg (by omega)]; omega)
  unfold HexaData.connectFull
  refine (h.mod _ _ _ _ _ ?_ ?_).mod _ _ _ _ _ ?_ ?_
  · intro r
    simp only [BC.vals, (ex e2 h2).2, (ex f2 h4).2]
  · exact fun r => ⟨(ex e2 h2).1, (ex f2 h4).1⟩
  · intro r
    simp only [BC.vals, (ex e1 h1).2, (ex f1 h3).2]
  · exact fun r => ⟨(ex e1 h1).1, (ex f1 h3).1⟩

/-- The states of the main loop with doubles and with their values. -/
structure SimG (M : HexaData F64) (s : GenState F64) (t : GenState ℚ) : Prop where
  mesh : Sim M (fun _ _ => False) s.mesh t.mesh
  lc : s.lc = t.lc
  n : s.n = t.n

theorem genStep_sim {M : HexaData F64} (close : Nat → Nat → Nat → Nat → Bool) (nel nface : Nat) (hn : nel ≤ 2 ^ 53) (hf : nface ≤ 6)
    (s : GenState F64) (t : GenState ℚ) (x : Nat × Nat) (hx : x.1 < nel) (hx2 : x.2 < nface) (h : SimG M s t) :
    SimG M (genStep close nel nface s x) (genStep close nel nface t x) := by
  obtain ⟨e1, f1⟩ := x
  unfold genStep
  dsimp only at hx hx2 ⊢
  rw [← h.lc]
  by_cases hl : s.lc e1 f1 = true
  · rw [if_pos hl, if_pos hl]
    exact h
  · rw [if_neg hl, if_neg hl]
    cases hq : (prod2 (List.range' (e1 + 1) (nel - (e1 + 1))) (List.range nface)).find? (fun u => !s.lc u.1 u.2 && close e1 f1 u.1 u.2) with
    | none => exact h
    | some u =>
      obtain ⟨e2, f2⟩ := u
      have hm := List.mem_of_find?_eq_some hq
      simp only [mem_prod2, List.mem_range, List.mem_range'_1] at hm
      have hb : t.mesh.nbc = s.mesh.nbc := by rw [← h.mesh.vals]; rfl
      refine ⟨?_, rfl, ?_⟩
      · dsimp only
        rw [hb]
        exact Sim.foldl (fun M1 N1 k h1 => connectFull_sim h1 k e1 f1 e2 f2 (by omega) (by omega) (by omega) (by omega)) _ h.mesh
      · dsimp only
        rw [hb, h.n]

theorem foldl_simG {M : HexaData F64} {f : GenState F64 → Nat × Nat → GenState F64} {g : GenState ℚ → Nat × Nat → GenState ℚ} (l : List (Nat × Nat))
    (hs : ∀ s t x, x ∈ l → SimG M s t → SimG M (f s x) (g t x)) : ∀ {s : GenState F64} {t : GenState ℚ}, SimG M s t → SimG M (l.foldl f s) (l.foldl g t) := by
  induction l with
  | nil => exact fun h => h
  | cons a l ih => exact fun h => ih (fun s t x hx => hs s t x (by simp [hx])) (hs _ _ a (by simp) h)

/-- The loops of `generate_internal_bcs` with doubles are those with the exact values of the doubles. -/
theorem generateWith_sim (M : HexaData F64) (hw : WFF M) (hn : M.elem.length ≤ 2 ^ 53) (hl : LinksFinite M) (close : Nat → Nat → Nat → Nat → Bool) :
    Sim M (fun _ _ => False) (generateWith close M).1 (generateWith close M.vals).1 ∧ (generateWith close M).2 = (generateWith close M.vals).2 := by
  have key : SimG M _ _ := foldl_simG (M := M) (f := genStep close M.nel (2 * M.ndim)) (g := genStep close M.nel (2 * M.ndim))
    (prod2 (List.range M.nel) (List.range (2 * M.ndim)))
    (fun s t x hx h => by
      simp only [mem_prod2, List.mem_range] at hx
      exact genStep_sim close _ _ (by rw [hw.nel]; exact hn) (by rcases hw.dim with h | h <;> omega) s t x hx.1 hx.2 h)
    (s := ⟨M, fun e f => decide ((M.bc e 0 f).typ ≠ []), 0⟩) (t := ⟨M.vals, fun e f => decide ((M.vals.bc e 0 f).typ ≠ []), 0⟩)
    ⟨⟨rfl, sameButBC_refl M, hl, fun _ _ h => h.elim⟩, by
      funext e f
      dsimp only
      rw [vals_bc]
      rfl, rfl⟩
  exact ⟨key.mesh, key.n⟩

theorem wf_vals (M : HexaData F64) (hw : WFF M) : WF M.vals := by
  refine ⟨?_, ?_, hw.dim⟩
  · rw [vals_length]; exact hw.nel
  · intro el hel
    obtain ⟨el', h, rfl⟩ := List.mem_map.1 hel
    exact hw.rows el' h

namespace Spec

/-- The computed length scale of every element is not at most zero (it may be NaN). -/
def ScalesPosF (L : Libm) (M : HexaData F64) : Prop := ∀ e < M.elem.length, ∃ s, (M.el e).smallestEdgeF L = .ok s ∧ ¬ s ≤ 0

end Spec

theorem closeFacesF_iff (L : Libm) (M : HexaData F64) (hw : WFF M) (tol : F64) (x y : Face) (hx : x.1 < M.elem.length) (hx2 : x.2 < 2 * M.ndim)
    (hy : y.1 < M.elem.length) (hy2 : y.2 < 2 * M.ndim) :
    Py.getD (closeFacesF L (M.el x.1) x.2 (M.el y.1) y.2 tol) false = true ↔ TouchF L M M tol x y := by
  have hd6 : 2 * M.ndim ≤ 6 := by rcases hw.dim with h | h <;> omega
  have gx := hw.grid _ (M.el_mem x.1 hx)
  have gy := hw.grid _ (M.el_mem y.1 hy)
  unfold closeFacesF TouchF
  obtain ⟨s0, k0⟩ := smallestEdgeF_ok L (M.el x.1) gx
  obtain ⟨s1, k1⟩ := smallestEdgeF_ok L (M.el y.1) gy
  have k2 := faceCenter_coords (M.el x.1) x.2 (by omega) (by omega) (by omega) (by omega)
  have k3 := faceCenter_coords (M.el y.1) y.2 (by omega) (by omega) (by omega) (by omega)
  rw [k0, k1, k2, k3]
  simp only [bind, Except.bind, pure, Except.pure, Py.getD, decide_eq_true_eq]
  constructor
  · intro h
    exact ⟨_, _, _, _, rfl, rfl, rfl, rfl, h⟩
  · intro ⟨c0, c1, t0, t1, e0, e1, e2, e3, h⟩
    cases e0; cases e1; cases e2; cases e3
    exact h

theorem generateF_ok (L : Libm) (M : HexaData F64) (hw : WFF M) (hb : 0 < M.nbc) (hp : ScalesPosF L M) (tol : F64) :
    generateInternalBcsF L M tol =
      .ok (generateWith (fun e1 f1 e2 f2 => Py.getD (closeFacesF L (M.el e1) f1 (M.el e2) f2 tol) false) M) := by
  have hd : 2 * M.ndim ≤ 6 := by rcases hw.dim with h | h <;> omega
  have mem : ∀ el ∈ M.elem, ∃ e < M.elem.length, el = M.el e := by
    intro el h
    obtain ⟨e, he, rfl⟩ := List.getElem_of_mem h
    exact ⟨e, he, (M.el_eq_getElem e he).symm⟩
  unfold generateInternalBcsF
  obtain ⟨r1, h1, _⟩ := mapM_ok' M.elem (scaleF L) (fun el hel => by
    obtain ⟨e, he, rfl⟩ := mem el hel
    obtain ⟨s, hs, h0⟩ := hp e he
    refine ⟨s, ?_⟩
    unfold scaleF
    rw [hs]
    simp only [bind, Except.bind, if_neg h0]
    rfl)
  obtain ⟨r2, h2, _⟩ := mapM_ok' M.elem (fun el => (List.range (2 * M.ndim)).mapM fun f : Nat => do
      let c ← el.faceCenter f
      let _ ← el.bcAt 0 f
      pure c) (fun el hel => by
    obtain ⟨e, he, rfl⟩ := mem el hel
    have hge := hw.grid _ hel
    obtain ⟨r, hr, _⟩ := mapM_ok' (List.range (2 * M.ndim)) (fun f : Nat => do
      let c ← (M.el e).faceCenter f
      let _ ← (M.el e).bcAt 0 f
      pure c) (fun f hf => by
        rw [List.mem_range] at hf
        rw [faceCenter_coords (M.el e) f (by omega) (by omega) (by omega) (by omega), bcAtF_ok M hw e 0 f he hb (by omega)]
        exact ⟨_, rfl⟩)
    exact ⟨r, hr⟩)
  rw [h1, h2]
  rfl

/-- **C142.** With doubles and their rounding: if no computed length scale is at most zero, `generate_internal_bcs` connects pairs of free faces of
different elements whose computed distance is within the computed limit, each face at most once, in all fields; it changes nothing else; it
returns the number of pairs times the number of fields; and a mesh that passes `check_connectivity(tol)` still does. -/
theorem C142 (L : Libm) (hL : EvenSq L) (M : HexaData F64) (hw : WFF M) (hn : M.elem.length ≤ 2 ^ 53) (hb : 0 < M.nbc) (hp : ScalesPosF L M)
    (tol : F64) (hv : Valid M.vals fun _ _ => True) (hc : M.checkConnectivityF L tol = .ok true)
    (hfree : ∀ b < M.nbc, ∀ x : Face, x.1 < M.elem.length → x.2 < 2 * M.ndim → (M.bc x.1 0 x.2).typ = [] →
      ¬ ((M.bc x.1 b x.2).typ = nE ∨ (M.bc x.1 b x.2).typ = nP)) :
    ∃ M' n hs, generateInternalBcsF L M tol = .ok (M', n) ∧ ConnectedPairs M.vals (TouchF L M M tol) hs M'.vals ∧ SameButBC M M' ∧
      n = hs.length * M.nbc ∧ M'.checkConnectivityF L tol = .ok true := by
  have hd6 : 2 * M.ndim ≤ 6 := by rcases hw.dim with h | h <;> omega
  have LM := (check_connectivityF_iff L M hw tol).1 hc
  have hl : LinksFinite M := by
    intro e he b hb f hf hlk
    obtain ⟨y, _, _, h3, _⟩ := LM b hb (e, f) he hf hlk
    exact ⟨h3.1, h3.2.1⟩
  set close : Nat → Nat → Nat → Nat → Bool := fun e1 f1 e2 f2 => Py.getD (closeFacesF L (M.el e1) f1 (M.el e2) f2 tol) false with hclose
  obtain ⟨S, eN⟩ := generateWith_sim M hw hn hl close
  obtain ⟨s, hs, h3, I⟩ := generateWith_inv M.vals (wf_vals M hw) close
  have lV : M.vals.elem.length = M.elem.length := vals_length M
  rw [h3] at S eN
  dsimp only at S eN
  have hpair : ∀ p ∈ hs, TouchF L M M tol p.1 p.2 := by
    intro p hp
    obtain ⟨a1, a2, a3, a4, _, _, a7⟩ := I.con.pair p hp
    rw [lV] at a2
    exact (closeFacesF_iff L M hw tol p.1 p.2 (by omega) a3 a2 a4).1 a7
  have con : ConnectedPairs M.vals (TouchF L M M tol) hs s.mesh := by
    refine ⟨I.con.hdr, I.con.len, I.con.el, ?_, I.con.nodup, I.con.link, I.con.other⟩
    intro p hp
    obtain ⟨a1, a2, a3, a4, a5, a6, _⟩ := I.con.pair p hp
    exact ⟨a1, a2, a3, a4, a5, a6, hpair p hp⟩
  refine ⟨(generateWith close M).1, (generateWith close M).2, hs, generateF_ok L M hw hb hp tol, by rw [S.vals]; exact con, S.same, ?_, ?_⟩
  · rw [eN]; exact I.n
  set M' := (generateWith close M).1 with hM'
  have vM : Valid M.vals (NearF L M tol) := by
    intro b hb x hx hx2 hlk
    obtain ⟨y, h1, h2, h3, h4, h5, _⟩ := hv b hb x hx hx2 hlk
    refine ⟨y, h1, h2, h3, h4, h5, fun hE => ?_⟩
    simp only [vals_bc] at h3 hE hlk
    rw [lV] at hx
    obtain ⟨z, _, _, z3, _, _, z6⟩ := LM b hb x hx hx2 hlk
    rw [pointsTo_unique h3 z3.2.2]
    exact z6 hE
  have vS := con.valid vM (fun x y h => by
    obtain ⟨c0, c1, s0, s1, t0, t1, t2, t3, t4⟩ := h
    exact ⟨⟨c0, c1, s0, s1, t0, t1, t2, t3, by rw [sumSqF_swap hL c0 c1]; exact gt_false_of_le t4⟩,
      ⟨c1, c0, s1, s0, t1, t0, t3, t2, limit_swap t4⟩⟩) (fun b hb x hx hx2 hf => by
    rw [lV] at hx
    unfold Free at hf
    rw [vals_bc] at hf ⊢
    exact hfree b hb x hx hx2 hf)
  have q2 := S.same
  have posM : ∀ e, (M'.el e).pos = (M.el e).pos := fun e => by rw [q2.el e]
  have hdM : M'.ndim = M.ndim := by rw [q2.hdr]
  have hbM : M'.nbc = M.nbc := by rw [q2.hdr]
  have wM : WFF M' := by
    refine ⟨?_, ?_, by rw [hdM]; exact hw.dim, ?_⟩
    · have : M'.nel = M.nel := by rw [q2.hdr]
      rw [this, q2.len, hw.nel]
    · intro el hel
      obtain ⟨i, hi, rfl⟩ := List.getElem_of_mem hel
      rw [← HexaData.el_eq_getElem _ i hi, q2.el i, hbM]
      exact hw.rows (M.el i) (M.el_mem i (q2.len ▸ hi))
    · intro el hel
      obtain ⟨i, hi, rfl⟩ := List.getElem_of_mem hel
      rw [← HexaData.el_eq_getElem _ i hi, posM]
      exact hw.grid _ (M.el_mem i (q2.len ▸ hi))
  have lN : s.mesh.elem.length = M'.elem.length := by rw [← S.vals, vals_length]
  have bN : ∀ e b f, s.mesh.bc e b f = (M'.bc e b f).vals := fun e b f => by rw [← S.vals, vals_bc]
  have pt : ∀ b < M'.nbc, ∀ x : Face, x.1 < M'.elem.length → x.2 < 2 * M'.ndim → (M'.bc x.1 b x.2).typ = nE ∨ (M'.bc x.1 b x.2).typ = nP →
      ∀ y, PointsTo (s.mesh.bc x.1 b x.2) y → PointsToF (M'.bc x.1 b x.2) y := by
    intro b hb x hx hx2 hlk y hy
    have := S.fin x.1 hx b hb x.2 hx2 hlk
    rw [bN] at hy
    exact ⟨this.1, this.2, hy⟩
  rw [check_connectivityF_iff L M' wM]
  intro b hb x hx hx2 hlk
  have hb' : b < s.mesh.nbc := by rw [← S.vals]; exact hb
  have hd' : s.mesh.ndim = M'.ndim := by rw [← S.vals]; rfl
  obtain ⟨y, y1, y2, y3, y4, y5, y6⟩ := vS b hb' x (by rw [lN]; exact hx) (by rw [hd']; exact hx2)
    (by change IsLink (s.mesh.bc x.1 b x.2); rw [bN]; exact hlk)
  rw [lN] at y1
  rw [hd'] at y2
  simp only [bN] at y4 y6
  have y4' : (M'.bc y.1 b y.2).typ = (M'.bc x.1 b x.2).typ := y4
  refine ⟨y, y1, by rw [hdM] at y2; omega, pt b hb x hx hx2 hlk y y3, y4', pt b hb y y1 y2 (by rw [y4']; exact hlk) x y5, fun hE => ?_⟩
  exact nearF_congr (posM x.1).symm (posM y.1).symm rfl rfl (y6 hE)

/-- **C142**, nothing is left over: of two faces of different elements that are free afterwards, the computed distance is not within the computed
limit (the one with the smaller number first: the minimum of the two lengths depends on the order when one is NaN). -/
theorem C142_complete (L : Libm) (M : HexaData F64) (hw : WFF M) (hn : M.elem.length ≤ 2 ^ 53) (hb : 0 < M.nbc) (hp : ScalesPosF L M) (tol : F64)
    (hl : LinksFinite M) (M' : HexaData F64) (n : Nat) (h : generateInternalBcsF L M tol = .ok (M', n)) (x y : Face)
    (hx2 : x.2 < 2 * M.ndim) (hy : y.1 < M.elem.length) (hy2 : y.2 < 2 * M.ndim) (hlt : x.1 < y.1)
    (fx : (M'.bc x.1 0 x.2).typ = []) (fy : (M'.bc y.1 0 y.2).typ = []) : ¬ TouchF L M' M' tol x y := by
  rw [generateF_ok L M hw hb hp tol] at h
  set close : Nat → Nat → Nat → Nat → Bool := fun e1 f1 e2 f2 => Py.getD (closeFacesF L (M.el e1) f1 (M.el e2) f2 tol) false with hclose
  obtain ⟨S, eN⟩ := generateWith_sim M hw hn hl close
  obtain ⟨s, hs, h3, I⟩ := generateWith_inv M.vals (wf_vals M hw) close
  have lV : M.vals.elem.length = M.elem.length := vals_length M
  rw [h3] at S
  dsimp only at S
  obtain rfl : (generateWith close M).1 = M' := by
    simp only [Except.ok.injEq] at h
    rw [h]
  have free : ∀ z : Face, z.1 < M.elem.length → ((generateWith close M).1.bc z.1 0 z.2).typ = [] → s.lc z.1 z.2 = false := by
    intro z hz hf
    have hf' : (s.mesh.bc z.1 0 z.2).typ = [] := by rw [← S.vals, vals_bc]; exact hf
    rw [← Bool.not_eq_true, I.lc z]
    rintro (h | h)
    · exact h (by unfold Free; rw [← I.con.keeps z (by rw [lV]; exact hz) h 0]; exact hf')
    · obtain ⟨p, hp, hq⟩ := List.mem_flatMap.1 h
      have hk := I.con.link p hp 0 hb
      simp at hq
      rcases hq with rfl | rfl
      · rw [hk.1] at hf'; cases hf'
      · rw [hk.2] at hf'; cases hf'
  have hx : x.1 < M.elem.length := by omega
  have hc := I.max x (by rw [mem_prod2, List.mem_range, List.mem_range]; exact ⟨by have := hw.nel; change x.1 < M.nel; omega, hx2⟩) (free x hx fx) y hlt
    (by rw [lV]; exact hy) hy2 (free y hy fy)
  intro ⟨c0, c1, s0, s1, t0, t1, t2, t3, t4⟩
  have pos : ∀ e, ((generateWith close M).1.el e).pos = (M.el e).pos := fun e => by rw [S.same.el e]
  have := (closeFacesF_iff L M hw tol x y hx hx2 hy hy2).2
    ⟨c0, c1, s0, s1, by rw [← faceCenter_pos (pos x.1)]; exact t0, by rw [← faceCenter_pos (pos y.1)]; exact t1,
      by rw [← smallestEdgeF_pos L (pos x.1)]; exact t2, by rw [← smallestEdgeF_pos L (pos y.1)]; exact t3, t4⟩
  exact Bool.false_ne_true (hc.symm.trans this)

/-- **C142**, the check of lengths: `ValueError` exactly if some computed length is at most zero; otherwise there is a result. -/
theorem C142_raises (L : Libm) (M : HexaData F64) (hw : WFF M) (hb : 0 < M.nbc) (tol : F64) :
    (generateInternalBcsF L M tol = .error .valueError ↔ ∃ e < M.elem.length, ∃ s, (M.el e).smallestEdgeF L = .ok s ∧ s ≤ 0) ∧
    ((∃ r, generateInternalBcsF L M tol = .ok r) ↔ ScalesPosF L M) := by
  by_cases hz : ∃ e < M.elem.length, ∃ s, (M.el e).smallestEdgeF L = .ok s ∧ s ≤ 0
  · have : generateInternalBcsF L M tol = .error .valueError := by
      unfold generateInternalBcsF
      rw [mapM_error M.elem (scaleF L) .valueError]
      · rfl
      · intro el hel
        obtain ⟨s, hs⟩ := smallestEdgeF_ok L el (hw.grid el hel)
        unfold scaleF
        rw [hs]
        simp only [Bind.bind, Except.bind]
        by_cases h0 : s ≤ 0
        · right; rw [if_pos h0]
        · left; exact ⟨s, by rw [if_neg h0]; rfl⟩
      · obtain ⟨e, he, s, hs, h0⟩ := hz
        refine ⟨M.el e, M.el_mem e he, ?_⟩
        unfold scaleF
        rw [hs]
        simp only [Bind.bind, Except.bind, if_pos h0]
    refine ⟨⟨fun _ => hz, fun _ => this⟩, ⟨fun ⟨r, hr⟩ => ?_, fun h => ?_⟩⟩
    · rw [this] at hr; cases hr
    · obtain ⟨e, he, s, hs, h0⟩ := hz
      obtain ⟨s', hs', h1⟩ := h e he
      rw [hs] at hs'
      cases hs'
      exact absurd h0 h1
  · have hp : ScalesPosF L M := by
      intro e he
      obtain ⟨s, hs⟩ := smallestEdgeF_ok L (M.el e) (hw.grid _ (M.el_mem e he))
      exact ⟨s, hs, fun h0 => hz ⟨e, he, s, hs, h0⟩⟩
    refine ⟨⟨fun h' => ?_, fun h' => absurd h' hz⟩, ⟨fun _ => hp, fun _ => ⟨_, generateF_ok L M hw hb hp tol⟩⟩⟩
    rw [generateF_ok L M hw hb hp tol] at h'
    cases h'

/-! ### C143: what it links -/

/-- On tame meshes the two numbers compared are finite. -/
theorem test_finite (L : Libm) (hL : LibmAccurate L) (M : HexaData F64) (hw : WFF M) (X : ℚ) (hX : X ≤ 2 ^ 400) (hT : Tame M X) (tol : F64)
    (tf : tol.Finite) (t0 : 0 ≤ tol.val) (t1 : tol.val ≤ 2 ^ 100) (x y : Face) (hx : x.1 < M.elem.length) (hx2 : x.2 < 6)
    (hy : y.1 < M.elem.length) (hy2 : y.2 < 6) :
    ∃ c c' m0 m1, (M.el x.1).faceCenter x.2 = .ok c ∧ (M.el y.1).faceCenter y.2 = .ok c' ∧ (M.el x.1).smallestEdgeF L = .ok m0 ∧
      (M.el y.1).smallestEdgeF L = .ok m1 ∧ (L.sqrt (sumSqF L c' c)).Finite ∧ (tol * pyMin m0 m1).Finite := by
  obtain ⟨H, η, θ, hH, hθ, hηθ, hη1, hθ1, R, hR⟩ := dist_abstract L hL
  rw [← hH] at hX
  have gx := hw.grid _ (M.el_mem _ hx)
  have gy := hw.grid _ (M.el_mem _ hy)
  obtain ⟨c, hc, ct, _⟩ := centre_near R hX hT _ (M.el_mem _ hx) gx x.2 hx2
  obtain ⟨c', hc', ct', _⟩ := centre_near R hX hT _ (M.el_mem _ hy) gy y.2 hy2
  obtain ⟨m0, s0, em0, es0, fm0, pm0, ps0, bs0, l0, u0⟩ := edge_near R hR hX hT _ (M.el_mem _ hx) gx
  obtain ⟨m1, s1, em1, es1, fm1, pm1, ps1, bs1, l1, u1⟩ := edge_near R hR hX hT _ (M.el_mem _ hy) gy
  have hS := sumSq_near R hR le_rfl ct' ct
  obtain ⟨fr, _⟩ := root_near hR R hS
  obtain ⟨fp, vp⟩ := pyMin_val fm0 fm1
  have pm : 0 ≤ min m0.val m1.val := le_min pm0 pm1
  have pmH : min m0.val m1.val ≤ 20 * H := (min_le_left _ _).trans (edge_le R bs0 u0)
  have H1 := R.H1
  have hprod : |tol.val * (pyMin m0 m1).val| = tol.val * min m0.val m1.val := by
    rw [vp]
    exact abs_of_nonneg (mul_nonneg t0 pm)
  have hP := R.r (tol.neg ^^ (pyMin m0 m1).neg) (tol.val * (pyMin m0 m1).val) (by
    rw [hprod]
    exact (mul_le_mul t1 pmH pm (by positivity)).trans (limit_le R))
  rw [← mul_fin tf fp] at hP
  exact ⟨c, c', m0, m1, hc, hc', em0, em1, fr, hP.1⟩

/-- What `generate_internal_bcs` links: C142 without the claim about `check_connectivity`, for any mesh with finite link numbers. -/
theorem generateF_links (L : Libm) (M : HexaData F64) (hw : WFF M) (hn : M.elem.length ≤ 2 ^ 53) (hb : 0 < M.nbc) (hp : ScalesPosF L M)
    (tol : F64) (hl : LinksFinite M) :
    ∃ M' n hs, generateInternalBcsF L M tol = .ok (M', n) ∧ ConnectedPairs M.vals (TouchF L M M tol) hs M'.vals ∧ SameButBC M M' ∧
      n = hs.length * M.nbc := by
  set close : Nat → Nat → Nat → Nat → Bool := fun e1 f1 e2 f2 => Py.getD (closeFacesF L (M.el e1) f1 (M.el e2) f2 tol) false with hclose
  obtain ⟨S, eN⟩ := generateWith_sim M hw hn hl close
  obtain ⟨s, hs, h3, I⟩ := generateWith_inv M.vals (wf_vals M hw) close
  have lV : M.vals.elem.length = M.elem.length := vals_length M
  rw [h3] at S eN
  dsimp only at S eN
  refine ⟨(generateWith close M).1, (generateWith close M).2, hs, generateF_ok L M hw hb hp tol, ?_, S.same, by rw [eN]; exact I.n⟩
  rw [S.vals]
  refine ⟨I.con.hdr, I.con.len, I.con.el, ?_, I.con.nodup, I.con.link, I.con.other⟩
  intro p hp
  obtain ⟨a1, a2, a3, a4, a5, a6, a7⟩ := I.con.pair p hp
  rw [lV] at a2
  exact ⟨a1, by rw [lV]; exact a2, a3, a4, a5, a6, (closeFacesF_iff L M hw tol p.1 p.2 (by omega) a3 a2 a4).1 a7⟩

namespace Spec

/-- The exact number behind the length that `smallest_edge` reports is at least `2 ^ -500` for every element. -/
def EdgesVisible (M : HexaData F64) : Prop := ∀ e < M.elem.length, ∃ s, (M.el e).vals.smallestEdgeSq = .ok s ∧ 1 / 2 ^ 1000 ≤ s

end Spec

theorem scalesPosF_of_visible (L : Libm) (hL : LibmAccurate L) (M : HexaData F64) (hw : WFF M) (X : ℚ) (hX : X ≤ 2 ^ 400) (hT : Tame M X)
    (he : EdgesVisible M) : ScalesPosF L M := by
  obtain ⟨H, η, θ, hH, hθ, hηθ, hη1, hθ1, R, hR⟩ := dist_abstract L hL
  rw [← hH] at hX
  intro e hel
  obtain ⟨m, s, em, es, fm, pm, ps, bs, l, u⟩ := edge_near R hR hX hT _ (M.el_mem _ hel) (hw.grid _ (M.el_mem _ hel))
  refine ⟨m, em, fun h => ?_⟩
  obtain ⟨s', hs', h1⟩ := he e hel
  rw [es] at hs'
  cases hs'
  have z : (0 : F64).Finite := by decide +kernel
  have := (leF_iff fm z).1 h
  rw [zeroF_val] at this
  have hm : m.val = 0 := le_antisymm this pm
  rw [hm] at l
  have hθ2 : θ ≤ 1 / 2 ^ 506 := by
    have : (2 : ℚ) ^ 506 = 64 * 2 ^ 500 := by rw [show (506 : Nat) = 6 + 500 from rfl, pow_add]; norm_num
    rw [this, one_div, mul_inv]
    rw [one_div] at hθ1
    generalize ((2 : ℚ) ^ 500)⁻¹ = t at *
    linarith
  have hθ3 : θ ^ 2 ≤ 1 / 2 ^ 1012 := by
    have := pow_le_pow_left₀ hθ hθ2 2
    rw [one_div_pow, ← pow_mul] at this
    exact this
  have e12 : (1 : ℚ) / 2 ^ 1012 = 1 / 2 ^ 1000 * (1 / 2 ^ 12) := by
    rw [show (1012 : Nat) = 1000 + 12 from rfl, pow_add, one_div_mul_one_div]
  have p1 : (0 : ℚ) < 1 / 2 ^ 1000 := by positivity
  rw [e12] at hθ3
  generalize (1 : ℚ) / 2 ^ 1000 = t at *
  norm_num at l hθ3
  linarith

theorem nearBy_symm {M : HexaData F64} {X t : ℚ} {x y : Face} (h : NearBy M X t x y) : NearBy M X t y x := by
  obtain ⟨s, ⟨s0, s1, h0, h1, rfl⟩, h⟩ := h
  refine ⟨_, ⟨s1, s0, h1, h0, rfl⟩, ?_⟩
  have : faceGap M y x = faceGap M x y := by
    unfold faceGap
    congr 2
    ring
  rw [this, min_comm]
  exact h

/-- **C143**, as far as it holds: on meshes with finite coordinates up to `X ≤ 2 ^ 400`, with edges of at least `2 ^ -500`, an accurate C library and
a tolerance between 0 and `2 ^ 100`, there is a result; the faces linked are as near as demanded, up to rounding; and no two free faces of different
elements remain that are near enough with a margin for rounding. -/
theorem C143_partial (L : Libm) (hL : LibmAccurate L) (hE : EvenSq L) (M : HexaData F64) (hw : WFF M) (hn : M.elem.length ≤ 2 ^ 53) (hb : 0 < M.nbc)
    (X : ℚ) (hX : X ≤ 2 ^ 400) (hT : Tame M X) (he : EdgesVisible M) (hl : LinksFinite M) (tol : F64) (tf : tol.Finite) (t0 : 0 ≤ tol.val)
    (t1 : tol.val ≤ 2 ^ 100) :
    ∃ M' n hs, generateInternalBcsF L M tol = .ok (M', n) ∧ ConnectedPairs M.vals (NearUpTo M X tol.val) hs M'.vals ∧ SameButBC M M' ∧
      n = hs.length * M.nbc ∧
      ∀ x y : Face, x.1 < M.elem.length → x.2 < 2 * M.ndim → y.1 < M.elem.length → y.2 < 2 * M.ndim → x.1 ≠ y.1 →
        (M'.bc x.1 0 x.2).typ = [] → (M'.bc y.1 0 y.2).typ = [] → ¬ NearBy M X tol.val x y := by
  have hd6 : 2 * M.ndim ≤ 6 := by rcases hw.dim with h | h <;> omega
  have hp := scalesPosF_of_visible L hL M hw X hX hT he
  have lV : M.vals.elem.length = M.elem.length := vals_length M
  obtain ⟨M', n, hs, e, con, same, en⟩ := generateF_links L M hw hn hb hp tol hl
  refine ⟨M', n, hs, e, ⟨con.hdr, con.len, con.el, ?_, con.nodup, con.link, con.other⟩, same, en, ?_⟩
  · intro p hp
    obtain ⟨a1, a2, a3, a4, a5, a6, c0, c1, s0, s1, k0, k1, k2, k3, k4⟩ := con.pair p hp
    refine ⟨a1, a2, a3, a4, a5, a6, ?_⟩
    rw [lV] at a2
    have a3' : p.1.2 < 2 * M.ndim := a3
    have a4' : p.2.2 < 2 * M.ndim := a4
    refine (nearF_both L hL M hw X hX hT tol tf t0 t1 p.1 p.2 (by omega) (by omega) a2 (by omega)).1 ⟨c0, c1, s0, s1, k0, k1, k2, k3, ?_⟩
    rw [sumSqF_swap hE c0 c1]
    exact gt_false_of_le k4
  · have main : ∀ x y : Face, x.1 < M.elem.length → x.2 < 2 * M.ndim → y.1 < M.elem.length → y.2 < 2 * M.ndim → x.1 < y.1 →
        (M'.bc x.1 0 x.2).typ = [] → (M'.bc y.1 0 y.2).typ = [] → ¬ NearBy M X tol.val x y := by
      intro x y hx hx2 hy hy2 hlt fx fy hN
      refine C142_complete L M hw hn hb hp tol hl M' n e x y hx2 hy hy2 hlt fx fy ?_
      obtain ⟨c, c', m0, m1, k0, k1, k2, k3, f1, f2⟩ := test_finite L hL M hw X hX hT tol tf t0 t1 x y hx (by omega) hy (by omega)
      obtain ⟨d, d', n0, n1, j0, j1, j2, j3, j4⟩ := (nearF_both L hL M hw X hX hT tol tf t0 t1 x y hx (by omega) hy (by omega)).2 hN
      cases k0.symm.trans j0
      cases k1.symm.trans j1
      cases k2.symm.trans j2
      cases k3.symm.trans j3
      have pos : ∀ e, (M'.el e).pos = (M.el e).pos := fun e => by rw [same.el e]
      refine ⟨c, c', m0, m1, by rw [faceCenter_pos (pos x.1)]; exact k0, by rw [faceCenter_pos (pos y.1)]; exact k1,
        by rw [smallestEdgeF_pos L (pos x.1)]; exact k2, by rw [smallestEdgeF_pos L (pos y.1)]; exact k3, ?_⟩
      rw [sumSqF_swap hE c' c]
      refine (leF_iff f1 f2).2 (not_lt.1 fun h => ?_)
      rw [(gt_iff f1 f2).2 h] at j4
      cases j4
    intro x y hx hx2 hy hy2 hne fx fy
    rcases lt_or_gt_of_ne hne with hlt | hgt
    · exact main x y hx hx2 hy hy2 hlt fx fy
    · exact fun h => main y x hy hy2 hx hx2 hgt fy fx (nearBy_symm h)

namespace Samples

theorem ok_of_isSome {α : Type} {x : Py α} (h : x.toOption.isSome = true) : ∃ r, x = .ok r := by
  cases x with
  | error e => cases h
  | ok r => exact ⟨r, rfl⟩

/-- Two squares like `pairF` with no conditions at all. -/
def freeF (a b c d : F64) : HexaData F64 :=
  let el (x0 x1 : F64) : Elem F64 := { (Elem.new 0 0 0 2 2 1 1 : Elem F64) with
    pos := ⟨3, 1, 2, 2, fun i _ j k => if i = 0 then (if k = 0 then x0 else x1) else if i = 1 then (if j = 0 then a else b) else 0⟩
    bcs := fun _ _ => ⟨[], 0, 0, 0, 0, 0, 0, 0⟩ }
  { (HexaData.new .little 2 2 ⟨2, 2, 1, false⟩ ⟨2, 0, 0, 0, 0⟩ 1 : HexaData F64) with elem := [el a b, el c d] }

theorem freeF_tame {a b c d : F64} {X : ℚ} (h : ∀ x ∈ [a, b, c, d], x.Finite ∧ |x.val| ≤ X) (hX : 0 ≤ X) : Tame (freeF a b c d) X := by
  have z : (0 : F64).Finite ∧ |(0 : F64).val| ≤ X := by
    rw [zeroF_val, abs_zero]
    exact ⟨by decide +kernel, hX⟩
  have ha := h a (by simp)
  have hb := h b (by simp)
  have hc := h c (by simp)
  have hd := h d (by simp)
  intro el hel i hi k hk j hj m hm
  rcases List.mem_pair.mp hel with rfl | rfl
  all_goals
    dsimp only
    split_ifs <;> assumption

theorem freeF_wff (a b c d : F64) : WFF (freeF a b c d) := by
  refine ⟨rfl, ?_, Or.inl rfl, ?_⟩
  · intro el h
    rcases List.mem_pair.mp h with rfl | rfl <;> rfl
  · intro el h
    rcases List.mem_pair.mp h with rfl | rfl <;> exact ⟨le_rfl, le_rfl, le_rfl⟩

theorem freeF_typ (a b c d : F64) (e : Nat) (he : e < 2) (k f : Nat) : ((freeF a b c d).bc e k f).typ = [] := by
  match e, he with
  | 0, _ => rfl
  | 1, _ => rfl

end Samples

open Samples

/-- C142 and C143 apply to two unit squares, which are linked. -/
example : ∃ M n hs, generateInternalBcsF libm (freeF f0 one one two) milli = .ok (M, n) ∧ n = hs.length * 1 ∧
    ConnectedPairs (freeF f0 one one two).vals (TouchF libm (freeF f0 one one two) (freeF f0 one one two) milli) hs M.vals ∧
    M.checkConnectivityF libm milli = .ok true := by
  obtain ⟨M, n, hs, h, c, _, hn, k⟩ := C142 libm libm_even (freeF f0 one one two) (freeF_wff _ _ _ _) (by decide +kernel) (by decide +kernel)
    ((C142_raises libm _ (freeF_wff _ _ _ _) (by decide +kernel) milli).2.1 (ok_of_isSome (by decide +kernel))) milli
    (fun b _ x hx _ hl => by
      exfalso
      change IsLink ((freeF f0 one one two).vals.bc x.1 b x.2) at hl
      rw [vals_bc] at hl
      have hx' : x.1 < 2 := by rw [vals_length] at hx; exact hx
      have := freeF_typ f0 one one two x.1 hx' b x.2
      rcases hl with h | h <;> exact absurd (this.symm.trans h) (by decide))
    (by decide +kernel)
    (fun b _ x hx _ _ hl => by
      have := freeF_typ f0 one one two x.1 hx b x.2
      rcases hl with h | h <;> (rw [this] at h; cases h))
  exact ⟨M, n, hs, h, hn, c, k⟩

example : (generateInternalBcsF libm (freeF f0 one one two) milli).toOption.map Prod.snd = some 1 := by decide +kernel

example : ∃ M n hs, generateInternalBcsF libm (freeF f0 one one two) milli = .ok (M, n) ∧
    ConnectedPairs (freeF f0 one one two).vals (NearUpTo (freeF f0 one one two) 2 milli.val) hs M.vals := by
  obtain ⟨M, n, hs, h, c, _⟩ := C143_partial libm libm_accurate libm_even (freeF f0 one one two) (freeF_wff _ _ _ _) (by decide +kernel) (by decide +kernel)
    2 ((pow_one (2 : ℚ)).symm.le.trans (pow_le_pow_right₀ (by norm_num) (by norm_num))) (freeF_tame (by decide +kernel) (by norm_num))
    (fun e he => ⟨1, by match e, he with
      | 0, _ => decide +kernel
      | 1, _ => decide +kernel, by
        rw [one_div]
        exact inv_le_one_of_one_le₀ (one_le_pow₀ (by norm_num))⟩)
    (fun e he b _ f _ hl => by
      have := freeF_typ f0 one one two e he b f
      rcases hl with h | h <;> (rw [this] at h; cases h))
    milli (by decide +kernel) (by decide +kernel) ((show milli.val ≤ 1 by decide +kernel).trans (one_le_pow₀ (by norm_num)))
  exact ⟨M, n, hs, h, c⟩

/-- **C143 is false in the code.** With a correctly rounding library and the tolerance 0.001: two squares with edges of 1e200 that are four edges
apart are linked, all coordinates being finite (both the distance and the limit are infinite); and two elements with edges of 1e-200 and more that share a
side are refused because of "an edge with zero length". -/
theorem C143_false :
    (∃ M M' : HexaData F64, ∃ n, WFF M ∧ Tame M (2 ^ 670) ∧ generateInternalBcsF libm M milli = .ok (M', n) ∧ (M'.bc 0 0 1).typ = nE ∧
      PointsToF (M'.bc 0 0 1) (1, 1) ∧ FarApartF M (0, 1) (1, 1)) ∧
    (∃ M : HexaData F64, WFF M ∧ Tame M 1 ∧ (∀ e < M.elem.length, ∃ s, (M.el e).vals.smallestEdgeSq = .ok s ∧ 0 < s) ∧
      generateInternalBcsF libm M milli = .error .valueError) := by
  refine ⟨⟨freeF f0 big1 big5 big6, ((generateInternalBcsF libm (freeF f0 big1 big5 big6) milli).getD (freeF f0 f0 f0 f0, 0)).1,
    ((generateInternalBcsF libm (freeF f0 big1 big5 big6) milli).getD (freeF f0 f0 f0 f0, 0)).2, freeF_wff _ _ _ _,
    freeF_tame (by decide +kernel) (by positivity), ?_, ?_, ?_, ?_⟩,
    ⟨freeF f0 tiny1 tiny1 tiny5, freeF_wff _ _ _ _, freeF_tame (by decide +kernel) (by norm_num), ?_, ?_⟩⟩
  · rw [generateF_ok libm _ (freeF_wff _ _ _ _) (by decide +kernel)
      ((C142_raises libm _ (freeF_wff _ _ _ _) (by decide +kernel) milli).2.1 (ok_of_isSome (by decide +kernel)))]
    rfl
  · decide +kernel
  · exact ⟨by decide +kernel, by decide +kernel, by decide +kernel, by decide +kernel⟩
  · exact ⟨big1.val ^ 2, (big6.val - big5.val) ^ 2, by decide +kernel, by decide +kernel, by decide +kernel⟩
  · intro e he
    match e, he with
    | 0, _ => exact ⟨tiny1.val ^ 2, by decide +kernel, by decide +kernel⟩
    | 1, _ => exact ⟨(tiny5.val - tiny1.val) ^ 2, by decide +kernel, by decide +kernel⟩
  · exact (C142_raises libm _ (freeF_wff _ _ _ _) (by decide +kernel) milli).1.2 ⟨0, by decide +kernel, 0, by decide +kernel, by decide +kernel⟩

end Pymech
