import Verif.Samples
import Verif.Props.Geom
import Verif.Props.Bridge

/-!
# C37 `check_connectivity`, C38 `check_bcs_present`
-/

set_option linter.unusedSectionVars false

namespace Pymech

variable {F : Type} [Field F] [LinearOrder F] [IsStrictOrderedRing F] [FloorRing F]

namespace Spec

/-- Face `x` and face `y` of `M` are at the same place up to `tol` times the smaller of the lengths reported by
`smallest_edge` for the two elements (all lengths squared; see `near_iff_real` for the form with square roots). -/
def Near (M : HexaData F) (tol : F) (x y : Face) : Prop :=
  ∃ s0 s1, (M.el x.1).smallestEdgeSq = .ok s0 ∧ (M.el y.1).smallestEdgeSq = .ok s1 ∧
    let d2 := (faceMean (M.el y.1) y.2 0 - faceMean (M.el x.1) x.2 0) ^ 2
      + (faceMean (M.el y.1) y.2 1 - faceMean (M.el x.1) x.2 1) ^ 2
      + (faceMean (M.el y.1) y.2 2 - faceMean (M.el x.1) x.2 2) ^ 2
    (0 ≤ tol ∧ d2 ≤ tol ^ 2 * min s0 s1) ∨ (tol < 0 ∧ d2 = 0 ∧ min s0 s1 = 0)

/-- What `check_connectivity` promises: every internal or periodic condition names an existing face with the
same condition that names it back; internal faces are moreover near each other. -/
def Connected (M : HexaData F) (tol : F) : Prop :=
  ∀ b < M.nbc, ∀ x : Face, x.1 < M.elem.length → x.2 < 2 * M.ndim → IsLink (M.bc x.1 b x.2) →
    ∃ y : Face, y.1 < M.elem.length ∧ y.2 < 6 ∧ PointsTo (M.bc x.1 b x.2) y ∧
      (M.bc y.1 b y.2).typ = (M.bc x.1 b x.2).typ ∧ PointsTo (M.bc y.1 b y.2) x ∧
      ((M.bc x.1 b x.2).typ = nE → Near M tol x y)

end Spec

theorem smallestEdgeSq_ok (el : Elem F) (h : 2 ≤ el.pos.lx ∧ 2 ≤ el.pos.ly ∧ 1 ≤ el.pos.lz) :
    ∃ s, el.smallestEdgeSq = .ok s := by
  unfold Elem.smallestEdgeSq
  rw [if_neg (by omega)]
  split_ifs <;> exact ⟨_, rfl⟩

theorem closeFaces_near (M : HexaData F) (hg : Spec.Grid M) (tol : F) (x y : Spec.Face)
    (hx : x.1 < M.elem.length) (hx2 : x.2 < 6) (hy : y.1 < M.elem.length) (hy2 : y.2 < 6) :
    (∃ b, closeFaces (M.el x.1) x.2 (M.el y.1) y.2 tol = .ok b) ∧
    (closeFaces (M.el x.1) x.2 (M.el y.1) y.2 tol = .ok true ↔ Spec.Near M tol x y) := by
  have gx := hg _ (M.el_mem _ hx)
  have gy := hg _ (M.el_mem _ hy)
  obtain ⟨s0, hs0⟩ := smallestEdgeSq_ok _ gx
  obtain ⟨s1, hs1⟩ := smallestEdgeSq_ok _ gy
  have h : closeFaces (M.el x.1) x.2 (M.el y.1) y.2 tol = .ok (closeB
      (distSq ⟨Spec.faceMean (M.el x.1) x.2 0, Spec.faceMean (M.el x.1) x.2 1, Spec.faceMean (M.el x.1) x.2 2⟩
        ⟨Spec.faceMean (M.el y.1) y.2 0, Spec.faceMean (M.el y.1) y.2 1, Spec.faceMean (M.el y.1) y.2 2⟩)
      tol (min s0 s1)) := by
    unfold closeFaces
    rw [face_center_eq_mean _ _ hx2 (by omega) (by omega) (by omega),
      face_center_eq_mean _ _ hy2 (by omega) (by omega) (by omega), hs0, hs1]
    rfl
  refine ⟨⟨_, h⟩, ?_⟩
  rw [h, Except.ok.injEq]
  unfold Spec.Near closeB distSq
  constructor
  · intro h
    refine ⟨s0, s1, hs0, hs1, ?_⟩
    split_ifs at h with ht
    · left; refine ⟨ht, ?_⟩; simpa [sq] using h
    · right; refine ⟨not_le.1 ht, ?_⟩; simpa using h
  · rintro ⟨t0, t1, ht0, ht1, h⟩
    rw [hs0] at ht0; rw [hs1] at ht1
    cases ht0; cases ht1
    rcases h with ⟨h1, h2⟩ | ⟨h1, h2⟩
    · rw [if_pos h1]; simpa [sq] using h2
    · rw [if_neg (not_le.2 h1)]; simpa using h2

theorem bcAt_ok (M : HexaData F) (hw : Spec.WF M) (e b f : Nat) (he : e < M.elem.length) (hb : b < M.nbc) (hf : f < 6) :
    (M.el e).bcAt b f = .ok (M.bc e b f) := by
  unfold Elem.bcAt
  rw [hw.rows _ (M.el_mem e he), if_neg (by omega), pyIndex_nat hf]
  rfl

theorem bcAt_any (el : Elem F) (b : Nat) (i : Int) :
    (∃ e, el.bcAt b i = .error e) ∨ (∃ k : Nat, k < 6 ∧ (i = k ∨ i = (k : Int) - 6) ∧ el.bcAt b i = .ok (el.bcs b k)) := by
  unfold Elem.bcAt
  split_ifs
  · left; exact ⟨_, rfl⟩
  · cases h : pyIndex 6 i with
    | error e => left; exact ⟨e, rfl⟩
    | ok k =>
      right
      obtain ⟨h1, h2⟩ := pyIndex_ok_iff.1 h
      exact ⟨k, h1, h2, rfl⟩

theorem checkFace_iff (M : HexaData F) (hw : Spec.WF M) (hg : Spec.Grid M) (tol : F) (e b f : Nat)
    (he : e < M.elem.length) (hb : b < M.nbc) (hf : f < 2 * M.ndim) :
    M.checkFace tol (e, b, f) = .ok false ↔
      (Spec.IsLink (M.bc e b f) →
        ∃ y : Spec.Face, y.1 < M.elem.length ∧ y.2 < 6 ∧ Spec.PointsTo (M.bc e b f) y ∧
          (M.bc y.1 b y.2).typ = (M.bc e b f).typ ∧ Spec.PointsTo (M.bc y.1 b y.2) (e, f) ∧
          ((M.bc e b f).typ = nE → Spec.Near M tol (e, f) y)) := by
  have hf6 : f < 6 := by rcases hw.dim with h | h <;> omega
  have ge := hg _ (M.el_mem e he)
  have hfc : (M.el e).faceCenter f = .ok ⟨Spec.faceMean (M.el e) f 0, Spec.faceMean (M.el e) f 1, Spec.faceMean (M.el e) f 2⟩ :=
    face_center_eq_mean _ _ hf6 (by omega) (by omega) (by omega)
  unfold HexaData.checkFace
  simp only [bcAt_ok M hw e b f he hb hf6, hfc, bind, Except.bind]
  by_cases hl : (M.bc e b f).typ = nE ∨ (M.bc e b f).typ = nP
  swap
  · simp only [hl, if_false]
    exact ⟨fun _ h => absurd h hl, fun _ => rfl⟩
  simp only [hl, if_true]
  -- the target element
  by_cases hr : trunc (M.bc e b f).p3 - 1 < 0 ∨ trunc (M.bc e b f).p3 - 1 ≥ M.nel
  · rw [if_pos hr]
    refine ⟨fun h => (by cases h), fun h => ?_⟩
    obtain ⟨y, hy1, _, hp, _⟩ := h hl
    have := hp.1
    rw [hw.nel] at hr
    omega
  rw [if_neg hr]
  rw [hw.nel] at hr
  obtain ⟨ce, hce⟩ : ∃ ce : Nat, trunc (M.bc e b f).p3 - 1 = ce :=
    ⟨(trunc (M.bc e b f).p3 - 1).toNat, by omega⟩
  have hcel : ce < M.elem.length := by omega
  rw [hce, pyIndex_nat hcel]
  simp only
  rcases bcAt_any (M.el ce) b (trunc (M.bc e b f).p4 - 1) with ⟨er, her⟩ | ⟨k, hk, hki, hok⟩
  · rw [her]
    refine ⟨fun h => (by cases h), fun h => ?_⟩
    obtain ⟨y, hy1, hy2, hp, _⟩ := h hl
    have h1 := hp.1; have h2 := hp.2
    have : y.1 = ce := by omega
    rw [show trunc (M.bc e b f).p4 - 1 = (y.2 : Int) by omega] at her
    subst this
    rw [bcAt_ok M hw _ _ _ hy1 hb hy2] at her
    cases her
  rw [hok]
  simp only
  rcases hki with hki | hki
  swap
  · rw [hki]
    have : (M.el ce).faceCenter ((k : Int) - 6) = .error .unboundLocal := face_center_invalid _ _ (by omega)
    rw [this]
    refine ⟨fun h => (by cases h), fun h => ?_⟩
    obtain ⟨y, hy1, hy2, hp, _⟩ := h hl
    have h2 := hp.2
    omega
  rw [hki]
  have gc := hg _ (M.el_mem ce hcel)
  rw [face_center_eq_mean (M.el ce) k hk (by omega) (by omega) (by omega)]
  simp only
  change (if (M.bc ce b k).typ ≠ (M.bc e b f).typ ∨ trunc (M.bc ce b k).p3 - 1 ≠ (e : Int) ∨ trunc (M.bc ce b k).p4 - 1 ≠ (f : Int)
    then _ else _) = _ ↔ _
  have huniq : ∀ y : Spec.Face, Spec.PointsTo (M.bc e b f) y → y = (ce, k) := by
    intro y hp
    have h1 := hp.1; have h2 := hp.2
    apply Prod.ext <;> simp only <;> omega
  by_cases hm : (M.bc ce b k).typ ≠ (M.bc e b f).typ ∨ trunc (M.bc ce b k).p3 - 1 ≠ (e : Int) ∨ trunc (M.bc ce b k).p4 - 1 ≠ (f : Int)
  · rw [if_pos hm]
    refine ⟨fun h => (by cases h), fun h => ?_⟩
    obtain ⟨y, hy1, hy2, hp, ht, hpb, _⟩ := h hl
    rw [huniq y hp] at ht hpb
    have h1 := hpb.1; have h2 := hpb.2
    simp only at h1 h2
    rcases hm with hm | hm | hm
    · exact absurd ht hm
    · omega
    · omega
  rw [if_neg hm]
  push Not at hm
  obtain ⟨hm1, hm2, hm3⟩ := hm
  have hpt : Spec.PointsTo (M.bc e b f) (ce, k) := ⟨by simp only; omega, by simp only; omega⟩
  have hptb : Spec.PointsTo (M.bc ce b k) (e, f) := ⟨by simp only; omega, by simp only; omega⟩
  by_cases hE : (M.bc e b f).typ = nE
  · rw [if_pos hE]
    obtain ⟨⟨c, hc⟩, hiff⟩ := closeFaces_near M hg tol (e, f) (ce, k) he hf6 hcel hk
    simp only at hc hiff
    rw [hc]
    simp only [pure, Except.pure, Except.ok.injEq, Bool.not_eq_false']
    rw [hc, Except.ok.injEq] at hiff
    rw [hiff]
    constructor
    · intro hn _
      exact ⟨(ce, k), hcel, hk, hpt, hm1, hptb, fun _ => hn⟩
    · intro h
      obtain ⟨y, hy1, hy2, hp, ht, hpb, hC⟩ := h hl
      rw [huniq y hp] at hC
      exact hC hE
  · rw [if_neg hE]
    refine ⟨fun _ _ => ⟨(ce, k), hcel, hk, hpt, hm1, hptb, fun h => absurd h hE⟩, fun _ => rfl⟩

/-- **C37.** `check_connectivity(tol)` returns `True` if and only if the mesh is connected in the sense of
`Spec.Connected`. -/
theorem check_connectivity_iff (M : HexaData F) (hw : Spec.WF M) (hg : Spec.Grid M) (tol : F) :
    M.checkConnectivity tol = .ok true ↔ Spec.Connected M tol := by
  have key : anyErr (M.checkFace tol)
      (prod3 (List.range M.elem.length) (List.range M.nbc) (List.range (2 * M.ndim))) = .ok false ↔
      Spec.Connected M tol := by
    rw [anyErr_eq_false_iff]
    constructor
    · intro h b hb x hx hx2 hl
      have := h (x.1, b, x.2) (by simp [hx, hb, hx2])
      exact (checkFace_iff M hw hg tol x.1 b x.2 hx hb hx2).1 this hl
    · rintro h ⟨e, b, f⟩ hm
      simp only [mem_prod3, List.mem_range] at hm
      exact (checkFace_iff M hw hg tol e b f hm.1 hm.2.1 hm.2.2).2 fun hl => h b hm.2.1 (e, f) hm.1 hm.2.2 hl
  rw [← key]
  unfold HexaData.checkConnectivity
  cases h : anyErr (M.checkFace tol) (prod3 (List.range M.elem.length) (List.range M.nbc) (List.range (2 * M.ndim))) with
  | error e => exact ⟨fun h => (by cases h), fun h => (by cases h)⟩
  | ok b =>
    cases b
    · exact ⟨fun _ => rfl, fun _ => rfl⟩
    · exact ⟨fun h => (by cases h), fun h => (by cases h)⟩

/-- The hypotheses hold for the periodic channel of 2×2 elements, which is connected for every tolerance tested… -/
example : Spec.Connected Samples.channel 0 :=
  (check_connectivity_iff _ (Samples.wf_of_wfB _ (by decide +kernel)) (Samples.grid_of_gridB _ (by decide +kernel)) _).1
    (by decide +kernel)

/-- **C37.** It raises exactly on meshes that are not connected; it never returns `False`. -/
theorem check_connectivity_raises_iff (M : HexaData F) (hw : Spec.WF M) (hg : Spec.Grid M) (tol : F) :
    (∃ e, M.checkConnectivity tol = .error e) ↔ ¬ Spec.Connected M tol := by
  rw [← check_connectivity_iff M hw hg tol]
  have : M.checkConnectivity tol = .ok true ∨ ∃ e, M.checkConnectivity tol = .error e := by
    unfold HexaData.checkConnectivity
    cases h : anyErr (M.checkFace tol) (prod3 (List.range M.elem.length) (List.range M.nbc) (List.range (2 * M.ndim))) with
    | error e => exact Or.inr ⟨e, rfl⟩
    | ok b => cases b; exact Or.inl rfl; exact Or.inr ⟨_, rfl⟩
  rcases this with h | ⟨e, h⟩
  · rw [h]; simp
  · rw [h]; simp

/-- … and not connected once one link is redirected. -/
example : ¬ Spec.Connected (Samples.channel.modBC 0 0 1 (BC.link nE 4 4)) (1 / 1000) :=
  (check_connectivity_raises_iff _ (Samples.wf_of_wfB _ (by decide +kernel)) (Samples.grid_of_gridB _ (by decide +kernel)) _).1
    ⟨.valueError, by decide +kernel⟩

/-- Valid connectivity in the sense of `Spec.Valid` with links that are near each other is what the check accepts
(and for 3D meshes nothing else). -/
theorem connected_of_valid (M : HexaData F) (hw : Spec.WF M) (tol : F) (h : Spec.Valid M (Spec.Near M tol)) :
    Spec.Connected M tol := by
  intro b hb x hx hx2 hl
  obtain ⟨y, h1, h2, h3, h4, h5, h6⟩ := h b hb x hx hx2 hl
  exact ⟨y, h1, by rcases hw.dim with h | h <;> omega, h3, h4, h5, h6⟩

example : Spec.WF Samples.channel ∧ Spec.Valid Samples.channel (fun _ _ => True) :=
  ⟨Samples.wf_of_wfB _ (by decide +kernel), Samples.valid_of_validB _ (by decide +kernel)⟩

/-- Over the reals nearness is the comparison of Euclidean lengths made by the Python code. -/
theorem near_iff_real (M : HexaData ℝ) (tol : ℝ) (x y : Spec.Face) (s0 s1 : ℝ)
    (h0 : (M.el x.1).smallestEdgeSq = .ok s0) (h1 : (M.el y.1).smallestEdgeSq = .ok s1) :
    Spec.Near M tol x y ↔
      Real.sqrt ((Spec.faceMean (M.el y.1) y.2 0 - Spec.faceMean (M.el x.1) x.2 0) ^ 2
        + (Spec.faceMean (M.el y.1) y.2 1 - Spec.faceMean (M.el x.1) x.2 1) ^ 2
        + (Spec.faceMean (M.el y.1) y.2 2 - Spec.faceMean (M.el x.1) x.2 2) ^ 2)
      ≤ tol * min (Real.sqrt s0) (Real.sqrt s1) := by
  have hs0 := smallestEdgeSq_nonneg _ s0 h0
  have hs1 := smallestEdgeSq_nonneg _ s1 h1
  rw [min_sqrt, ← closeB_iff_sqrt _ _ _ (by positivity) (le_min hs0 hs1)]
  unfold Spec.Near closeB
  constructor
  · rintro ⟨t0, t1, ht0, ht1, h⟩
    rw [h0] at ht0; rw [h1] at ht1
    cases ht0; cases ht1
    rcases h with ⟨h1, h2⟩ | ⟨h1, h2⟩
    · rw [if_pos h1]; simpa [sq] using h2
    · rw [if_neg (not_le.2 h1)]; simpa using h2
  · intro h
    refine ⟨s0, s1, h0, h1, ?_⟩
    split_ifs at h with ht
    · left; refine ⟨ht, ?_⟩; simpa [sq] using h
    · right; refine ⟨not_le.1 ht, ?_⟩; simpa using h

/-! ## C38 -/

/-- **C38.** `check_bcs_present()` returns `True` iff no face in any field has an empty condition; otherwise it raises
`ValueError`. -/
theorem check_bcs_present_iff (M : HexaData F) (hw : Spec.WF M) :
    (M.checkBcsPresent = .ok true ↔
      ∀ e < M.elem.length, ∀ b < M.nbc, ∀ f < 2 * M.ndim, (M.bc e b f).typ ≠ []) ∧
    (M.checkBcsPresent = .error .valueError ↔
      ∃ e < M.elem.length, ∃ b < M.nbc, ∃ f < 2 * M.ndim, (M.bc e b f).typ = []) := by
  have hbody : ∀ t ∈ prod3 (List.range M.elem.length) (List.range M.nbc) (List.range (2 * M.ndim)),
      (do let r ← (M.el t.1).bcAt t.2.1 t.2.2; pure (decide (r.typ = [])) : Py Bool)
        = .ok (decide ((M.bc t.1 t.2.1 t.2.2).typ = [])) := by
    rintro ⟨e, b, f⟩ hm
    simp only [mem_prod3, List.mem_range] at hm
    rw [bcAt_ok M hw e b f hm.1 hm.2.1 (by rcases hw.dim with h | h <;> omega)]
    rfl
  obtain ⟨r, hr⟩ := anyErr_ok (fun x hx => ⟨_, hbody x hx⟩)
  have hfalse := anyErr_eq_false_iff (body := fun t : Nat × Nat × Nat => do
      let r ← (M.el t.1).bcAt t.2.1 t.2.2
      pure (decide (r.typ = [])))
      (l := prod3 (List.range M.elem.length) (List.range M.nbc) (List.range (2 * M.ndim)))
  have hspec : r = false ↔ ∀ e < M.elem.length, ∀ b < M.nbc, ∀ f < 2 * M.ndim, (M.bc e b f).typ ≠ [] := by
    rw [hr, Except.ok.injEq] at hfalse
    rw [hfalse]
    constructor
    · intro h e he b hb f hf
      have hm : (e, b, f) ∈ prod3 (List.range M.elem.length) (List.range M.nbc) (List.range (2 * M.ndim)) := by
        simp [he, hb, hf]
      have := h _ hm
      rw [hbody _ hm] at this
      simpa using this
    · rintro h ⟨e, b, f⟩ hm
      rw [hbody _ hm]
      simp only [mem_prod3, List.mem_range] at hm
      simpa using h e hm.1 b hm.2.1 f hm.2.2
  unfold HexaData.checkBcsPresent
  rw [hr]
  cases r
  · have h := hspec.1 rfl
    refine ⟨⟨fun _ => h, fun _ => rfl⟩, ⟨fun h => (by cases h), ?_⟩⟩
    rintro ⟨e, he, b, hb, f, hf, h'⟩
    exact absurd h' (h e he b hb f hf)
  · have h : ¬ _ := fun h => by simpa using hspec.2 h
    refine ⟨⟨fun h => (by cases h), fun h' => absurd h' h⟩, ⟨fun _ => ?_, fun _ => rfl⟩⟩
    push Not at h
    exact h

example : Samples.channel.checkBcsPresent = .ok true ∧
    (Samples.channel.modBC 3 0 2 fun _ => BC.zero).checkBcsPresent = .error .valueError := by decide +kernel
example : Spec.WF (Samples.channel.modBC 3 0 2 fun _ => BC.zero) := Samples.wf_of_wfB _ (by decide +kernel)

end Pymech
