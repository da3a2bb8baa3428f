import Verif.Lemmas.Basic

set_option linter.unusedSectionVars false

/-! Helper lemmas for `merge`. -/

namespace Pymech

open Spec Classical

theorem foldlM_inv_pre {α σ : Type} {f : σ → α → Py σ} (I : List α → σ → Prop) (l : List α) (s : σ)
    (h0 : I [] s) (hstep : ∀ p a r s, p ++ a :: r = l → I p s → ∃ s', f s a = .ok s' ∧ I (p ++ [a]) s') :
    ∃ s', l.foldlM f s = .ok s' ∧ I l s' := by
  suffices H : ∀ (r p : List α) (s : σ), p ++ r = l → I p s → ∃ s', r.foldlM f s = .ok s' ∧ I l s' from
    H l [] s rfl h0
  intro r
  induction r with
  | nil =>
    intro p s hp hI
    rw [List.append_nil] at hp
    subst hp
    exact ⟨s, rfl, hI⟩
  | cons a r ih =>
    intro p s hp hI
    obtain ⟨s', hs, hI'⟩ := hstep p a r s hp hI
    simp only [List.foldlM_cons, hs]
    exact ih (p ++ [a]) s' (by simp [hp]) hI'

section
variable {F : Type} [Field F] [LinearOrder F] [IsStrictOrderedRing F] [FloorRing F]

theorem pointsTo_link (t : Name) (e f : Int) (r : BC F) (y : Face) :
    PointsTo (BC.link t e f r) y ↔ e = (y.1 : Int) + 1 ∧ f = (y.2 : Int) + 1 := by
  simp [PointsTo, BC.link]

theorem pointsTo_unique {r : BC F} {y y' : Face} (h : PointsTo r y) (h' : PointsTo r y') : y = y' := by
  obtain ⟨h1, h2⟩ := h
  obtain ⟨h1', h2'⟩ := h'
  apply Prod.ext <;> omega

/-- Link `x0` and `x1` with each other by condition `t`. -/
def joinF (t : Name) (g : Face → BC F) (x0 x1 : Face) : Face → BC F := fun x =>
  if x = x1 then BC.link t ((x0.1 : Int) + 1) ((x0.2 : Int) + 1) (g x)
  else if x = x0 then BC.link t ((x1.1 : Int) + 1) ((x1.2 : Int) + 1) (g x)
  else g x

theorem joinF_right (t : Name) (g : Face → BC F) (x0 x1 : Face) :
    joinF t g x0 x1 x1 = BC.link t ((x0.1 : Int) + 1) ((x0.2 : Int) + 1) (g x1) := by simp [joinF]
theorem joinF_left (t : Name) (g : Face → BC F) (x0 x1 : Face) (h : x0 ≠ x1) :
    joinF t g x0 x1 x0 = BC.link t ((x1.1 : Int) + 1) ((x1.2 : Int) + 1) (g x0) := by simp [joinF, h]
theorem joinF_other (t : Name) (g : Face → BC F) (x0 x1 x : Face) (h0 : x ≠ x0) (h1 : x ≠ x1) :
    joinF t g x0 x1 x = g x := by simp [joinF, h0, h1]

theorem joinF_typ (t : Name) (g : Face → BC F) (x0 x1 x : Face) :
    (joinF t g x0 x1 x).typ = if x = x0 ∨ x = x1 then t else (g x).typ := by
  unfold joinF
  by_cases h1 : x = x1
  · simp [h1, BC.link]
  · by_cases h0 : x = x0
    · subst h0; simp [h1, BC.link]
    · simp [h0, h1]

theorem mutual_join_free {n nf : Nat} {g : Face → BC F} {C : Face → Face → Prop} (h : Mutual n nf g C)
    {x0 x1 : Face} (hne : x0 ≠ x1) (r0 : x0.1 < n ∧ x0.2 < nf) (r1 : x1.1 < n ∧ x1.2 < nf)
    (f0 : ¬ IsLink (g x0)) (f1 : ¬ IsLink (g x1)) (c01 : C x0 x1) (c10 : C x1 x0) :
    Mutual n nf (joinF nE g x0 x1) C := by
  intro x hx hx2 hl
  by_cases e1 : x = x1
  · subst e1
    refine ⟨x0, r0.1, r0.2, ?_, ?_, ?_, fun _ => c10⟩
    · rw [joinF_right, pointsTo_link]; exact ⟨rfl, rfl⟩
    · simp [joinF_typ]
    · rw [joinF_left _ _ _ _ hne, pointsTo_link]; exact ⟨rfl, rfl⟩
  by_cases e0 : x = x0
  · subst e0
    refine ⟨x1, r1.1, r1.2, ?_, ?_, ?_, fun _ => c01⟩
    · rw [joinF_left _ _ _ _ hne, pointsTo_link]; exact ⟨rfl, rfl⟩
    · simp [joinF_typ]
    · rw [joinF_right, pointsTo_link]; exact ⟨rfl, rfl⟩
  rw [joinF_other _ _ _ _ _ e0 e1] at hl ⊢
  obtain ⟨y, hy1, hy2, hp, ht, hb, hC⟩ := h x hx hx2 hl
  have hly : IsLink (g y) := by unfold IsLink at hl ⊢; rw [ht]; exact hl
  have y0 : y ≠ x0 := fun h => f0 (h ▸ hly)
  have y1 : y ≠ x1 := fun h => f1 (h ▸ hly)
  refine ⟨y, hy1, hy2, hp, ?_, ?_, hC⟩
  · rw [joinF_other _ _ _ _ _ y0 y1]; exact ht
  · rw [joinF_other _ _ _ _ _ y0 y1]; exact hb

/-- The periodic case: `x0`, `x1` had the partners `p0`, `p1`; these are linked with each other, then `x0` with `x1`. -/
theorem mutual_join_periodic {n nf : Nat} {g : Face → BC F} {C : Face → Face → Prop} (h : Mutual n nf g C)
    {x0 x1 p0 p1 : Face} (hne : x0 ≠ x1) (r0 : x0.1 < n ∧ x0.2 < nf) (r1 : x1.1 < n ∧ x1.2 < nf)
    (q0 : p0.1 < n ∧ p0.2 < nf) (q1 : p1.1 < n ∧ p1.2 < nf)
    (t0 : (g x0).typ = nP) (t1 : (g x1).typ = nP) (a0 : PointsTo (g x0) p0) (a1 : PointsTo (g x1) p1)
    (s0 : p0 ≠ x0) (s1 : p1 ≠ x1) (c01 : C x0 x1) (c10 : C x1 x0) :
    Mutual n nf (joinF nE (joinF nP g p0 p1) x0 x1) C := by
  -- back pointers of the partners
  have b0 : PointsTo (g p0) x0 ∧ (g p0).typ = nP := by
    obtain ⟨y, _, _, hp, ht, hb, _⟩ := h x0 r0.1 r0.2 (Or.inr t0)
    rw [pointsTo_unique a0 hp]; exact ⟨hb, ht.trans t0⟩
  have b1 : PointsTo (g p1) x1 ∧ (g p1).typ = nP := by
    obtain ⟨y, _, _, hp, ht, hb, _⟩ := h x1 r1.1 r1.2 (Or.inr t1)
    rw [pointsTo_unique a1 hp]; exact ⟨hb, ht.trans t1⟩
  have hpne : p0 ≠ p1 := fun e => hne (pointsTo_unique b0.1 (e ▸ b1.1))
  have hx : p0 = x1 ↔ p1 = x0 := by
    constructor
    · intro e; rw [e] at b0; exact pointsTo_unique a1 b0.1
    · intro e; rw [e] at b1; exact pointsTo_unique a0 b1.1
  intro x hx1 hx2 hl
  by_cases e1 : x = x1
  · subst e1
    refine ⟨x0, r0.1, r0.2, ?_, ?_, ?_, fun _ => c10⟩
    · rw [joinF_right, pointsTo_link]; exact ⟨rfl, rfl⟩
    · simp [joinF_typ]
    · rw [joinF_left _ _ _ _ hne, pointsTo_link]; exact ⟨rfl, rfl⟩
  by_cases e0 : x = x0
  · subst e0
    refine ⟨x1, r1.1, r1.2, ?_, ?_, ?_, fun _ => c01⟩
    · rw [joinF_left _ _ _ _ hne, pointsTo_link]; exact ⟨rfl, rfl⟩
    · simp [joinF_typ]
    · rw [joinF_right, pointsTo_link]; exact ⟨rfl, rfl⟩
  rw [joinF_other _ _ _ _ _ e0 e1] at hl ⊢
  by_cases ep0 : x = p0
  · have p1x0 : p1 ≠ x0 := fun e => e1 (by rw [ep0]; exact hx.2 e)
    subst ep0
    refine ⟨p1, q1.1, q1.2, ?_, ?_, ?_, ?_⟩
    · rw [joinF_left _ _ _ _ hpne, pointsTo_link]; exact ⟨rfl, rfl⟩
    · rw [joinF_other _ _ _ _ _ p1x0 s1]; simp [joinF_typ]
    · rw [joinF_other _ _ _ _ _ p1x0 s1, joinF_right, pointsTo_link]; exact ⟨rfl, rfl⟩
    · intro hE; rw [joinF_typ] at hE; simp at hE; exact absurd hE nP_ne_nE
  by_cases ep1 : x = p1
  · have p0x1 : p0 ≠ x1 := fun e => e0 (by rw [ep1]; exact hx.1 e)
    subst ep1
    refine ⟨p0, q0.1, q0.2, ?_, ?_, ?_, ?_⟩
    · rw [joinF_right, pointsTo_link]; exact ⟨rfl, rfl⟩
    · rw [joinF_other _ _ _ _ _ s0 p0x1]; simp [joinF_typ]
    · rw [joinF_other _ _ _ _ _ s0 p0x1, joinF_left _ _ _ _ hpne, pointsTo_link]; exact ⟨rfl, rfl⟩
    · intro hE; rw [joinF_typ] at hE; simp at hE; exact absurd hE nP_ne_nE
  rw [joinF_other _ _ _ _ _ ep0 ep1] at hl ⊢
  obtain ⟨y, hy1, hy2, hp, ht, hb, hC⟩ := h x hx1 hx2 hl
  have y0 : y ≠ x0 := fun e => ep0 (by rw [e] at hb; exact pointsTo_unique hb a0)
  have y1 : y ≠ x1 := fun e => ep1 (by rw [e] at hb; exact pointsTo_unique hb a1)
  have yp0 : y ≠ p0 := fun e => e0 (by rw [e] at hb; exact pointsTo_unique hb b0.1)
  have yp1 : y ≠ p1 := fun e => e1 (by rw [e] at hb; exact pointsTo_unique hb b1.1)
  refine ⟨y, hy1, hy2, hp, ?_, ?_, hC⟩
  · rw [joinF_other _ _ _ _ _ y0 y1, joinF_other _ _ _ _ _ yp0 yp1]; exact ht
  · rw [joinF_other _ _ _ _ _ y0 y1, joinF_other _ _ _ _ _ yp0 yp1]; exact hb

/-! ### Frame: only the `bcs` of elements change -/

/-- `M'` differs from `M` only in the boundary conditions of its elements. -/
structure Frame (M M' : HexaData F) : Prop where
  hdr : M' = { M with elem := M'.elem }
  len : M'.elem.length = M.elem.length
  el : ∀ i < M.elem.length, M'.el i = { M.el i with bcs := (M'.el i).bcs }

theorem Frame.refl (M : HexaData F) : Frame M M := ⟨rfl, rfl, fun _ _ => rfl⟩

theorem Frame.trans {A B C : HexaData F} (h : Frame A B) (h' : Frame B C) : Frame A C := by
  refine ⟨?_, h'.len.trans h.len, fun i hi => ?_⟩
  · have h1 := h'.hdr; rw [h.hdr] at h1; exact h1
  · have h1 := h'.el i (h.len ▸ hi)
    rw [h1, h.el i hi]

theorem Frame.modBC (M : HexaData F) (i b f : Nat) (g : BC F → BC F) : Frame M (M.modBC i b f g) := by
  refine ⟨rfl, by simp, fun j hj => ?_⟩
  rw [M.el_modBC i b f g j hj]
  split_ifs <;> rfl

theorem Frame.nbc {M M' : HexaData F} (h : Frame M M') : M'.nbc = M.nbc := by rw [h.hdr]
theorem Frame.ndim {M M' : HexaData F} (h : Frame M M') : M'.ndim = M.ndim := by rw [h.hdr]
theorem Frame.nel {M M' : HexaData F} (h : Frame M M') : M'.nel = M.nel := by rw [h.hdr]
theorem Frame.elmap {M M' : HexaData F} (h : Frame M M') : M'.elmap = M.elmap := by rw [h.hdr]

theorem Frame.foldl {st : HexaData F → Nat → HexaData F} (h : ∀ M k, Frame M (st M k)) (l : List Nat) (M : HexaData F) :
    Frame M (l.foldl st M) := by
  induction l generalizing M with
  | nil => exact Frame.refl M
  | cons a l ih => exact (h M a).trans (ih (st M a))

/-- A loop over the fields in which iteration `k` applies `G` to the records of field `k`. -/
theorem foldl_fields {st : HexaData F → Nat → HexaData F} {N : Nat} {G : Face → BC F → BC F}
    (hlen : ∀ M k, (st M k).elem.length = M.elem.length)
    (hbc : ∀ (M : HexaData F) k i b f, M.elem.length = N → i < N →
      (st M k).bc i b f = if b = k then G (i, f) (M.bc i b f) else M.bc i b f)
    (n : Nat) (M : HexaData F) (hM : M.elem.length = N) (i b f : Nat) (hi : i < N) :
    ((List.range n).foldl st M).elem.length = N ∧
    ((List.range n).foldl st M).bc i b f = if b < n then G (i, f) (M.bc i b f) else M.bc i b f := by
  induction n with
  | zero => simp [hM]
  | succ n ih =>
    rw [List.range_succ, List.foldl_append]
    simp only [List.foldl_cons, List.foldl_nil]
    refine ⟨(hlen _ _).trans ih.1, ?_⟩
    rw [hbc _ n i b f ih.1 hi, ih.2]
    by_cases h1 : b = n
    · subst h1; simp
    · by_cases h2 : b < n
      · simp [h1, h2, Nat.lt_succ_of_lt h2]
      · simp [h1, h2, show ¬ b < n + 1 by omega]

/-- The two writes of a connection as a function on records. -/
def joinG (t : Name) (x0 x1 : Face) (x : Face) (r : BC F) : BC F :=
  if x = x1 then BC.link t ((x0.1 : Int) + 1) ((x0.2 : Int) + 1) r
  else if x = x0 then BC.link t ((x1.1 : Int) + 1) ((x1.2 : Int) + 1) r
  else r

theorem bc_two_links (M : HexaData F) (t : Name) (k : Nat) (x0 x1 : Face) (i b f : Nat) (hi : i < M.elem.length)
    (hne : x0 ≠ x1) :
    ((M.modBC x0.1 k x0.2 (BC.link t ((x1.1 : Int) + 1) ((x1.2 : Int) + 1))).modBC x1.1 k x1.2
      (BC.link t ((x0.1 : Int) + 1) ((x0.2 : Int) + 1))).bc i b f
      = if b = k then joinG t x0 x1 (i, f) (M.bc i b f) else M.bc i b f := by
  rw [HexaData.bc_modBC _ _ _ _ _ _ _ _ (by simpa using hi), HexaData.bc_modBC _ _ _ _ _ _ _ _ hi]
  obtain ⟨e0, f0⟩ := x0
  obtain ⟨e1, f1⟩ := x1
  unfold joinG
  simp only [Prod.mk.injEq]
  by_cases hb : b = k
  · subst hb
    by_cases h1 : i = e1 ∧ f = f1
    · obtain ⟨rfl, rfl⟩ := h1
      have : ¬ (i = e0 ∧ f = f0) := by
        rintro ⟨rfl, rfl⟩; exact hne rfl
      simp [this]
    · by_cases h0 : i = e0 ∧ f = f0
      · obtain ⟨rfl, rfl⟩ := h0; simp [h1]
      · simp [h0, h1]
  · simp [hb]

/-! ### One pair of touching faces -/

/-- The mesh after linking `x0`, `x1` in the first `nbc` fields. -/
theorem connect_fields (M : HexaData F) (nbc : Nat) (x0 x1 : Face) (hne : x0 ≠ x1) :
    let M' := (List.range nbc).foldl (fun M ibc => M.connect ibc x0.1 x0.2 x1.1 x1.2) M
    Frame M M' ∧ ∀ i < M.elem.length, ∀ b f, M'.bc i b f = if b < nbc then joinG nE x0 x1 (i, f) (M.bc i b f) else M.bc i b f := by
  intro M'
  refine ⟨Frame.foldl (fun M k => (Frame.modBC _ _ _ _ _).trans (Frame.modBC _ _ _ _ _)) _ _, ?_⟩
  intro i hi b f
  refine (foldl_fields (N := M.elem.length) (G := joinG nE x0 x1) ?_ ?_ nbc M rfl i b f hi).2
  · intro M k; simp [HexaData.connect]
  · intro M1 k i b f hM hi
    exact bc_two_links M1 nE k x0 x1 i b f (hM ▸ hi) hne

theorem relink_fields (M : HexaData F) (nbc : Nat) (p0 p1 : Face) (hne : p0 ≠ p1) :
    let M' := (List.range nbc).foldl (fun M ibc => M.relink ibc p0.1 p0.2 p1.1 p1.2 p0.1 p0.2 p1.1 p1.2) M
    Frame M M' ∧ ∀ i < M.elem.length, ∀ b f, M'.bc i b f = if b < nbc then joinG nP p0 p1 (i, f) (M.bc i b f) else M.bc i b f := by
  intro M'
  refine ⟨Frame.foldl (fun M k => (Frame.modBC _ _ _ _ _).trans (Frame.modBC _ _ _ _ _)) _ _, ?_⟩
  intro i hi b f
  refine (foldl_fields (N := M.elem.length) (G := joinG nP p0 p1) ?_ ?_ nbc M rfl i b f hi).2
  · intro M k; simp [HexaData.relink]
  · intro M1 k i b f hM hi
    exact bc_two_links M1 nP k p0 p1 i b f (hM ▸ hi) hne

theorem Frame.valid {M M' : HexaData F} (h : Frame M M') {C : Face → Face → Prop} {g : Nat → Face → BC F}
    (hbc : ∀ i < M.elem.length, ∀ b < M.nbc, ∀ f, M'.bc i b f = g b (i, f))
    (hv : ∀ b < M.nbc, Mutual M.elem.length (2 * M.ndim) (g b) C) : Valid M' C := by
  intro b hb
  rw [h.nbc] at hb
  rw [h.len, h.ndim]
  intro x hx hx2 hl
  have e : ∀ x : Face, x.1 < M.elem.length → M'.bc x.1 b x.2 = g b x := fun x hx => hbc x.1 hx b hb x.2
  simp only [e x hx] at hl ⊢
  obtain ⟨y, hy1, hy2, h1, h2, h3, h4⟩ := hv b hb x hx hx2 hl
  refine ⟨y, hy1, hy2, h1, ?_, ?_, h4⟩
  · rw [e y hy1]; exact h2
  · rw [e y hy1]; exact h3

/-- Loop invariant data of `merge`: `M` is reached from `M0` by linking the pairs in `hs`. -/
structure MInv (M0 : HexaData F) (C : Face → Face → Prop) (hs : List (Face × Face)) (M : HexaData F) : Prop where
  frame : Frame M0 M
  valid : Valid M C
  uniform : Uniform M
  noself : NoSelf M
  typ : ∀ b < M0.nbc, ∀ x : Face, x.1 < M0.elem.length → x.2 < 2 * M0.ndim →
    (M.bc x.1 b x.2).typ = if (∃ y, (x, y) ∈ hs ∨ (y, x) ∈ hs) then nE else (M0.bc x.1 b x.2).typ
  linked : ∀ p ∈ hs, ∀ b < M0.nbc, PointsTo (M.bc p.1.1 b p.1.2) p.2 ∧ PointsTo (M.bc p.2.1 b p.2.2) p.1
  /-- records that were not linked before and not linked now are untouched -/
  other : ∀ b < M0.nbc, ∀ x : Face, x.1 < M0.elem.length → x.2 < 2 * M0.ndim →
    (¬ ∃ y, (x, y) ∈ hs ∨ (y, x) ∈ hs) → (M0.bc x.1 b x.2).typ ≠ nP → M.bc x.1 b x.2 = M0.bc x.1 b x.2

theorem joinG_joinF (t : Name) (x0 x1 : Face) (g : Face → BC F) (x : Face) :
    joinG t x0 x1 x (g x) = joinF t g x0 x1 x := rfl

theorem MInv.step {M0 M : HexaData F} {C : Face → Face → Prop} {hs : List (Face × Face)} (I : MInv M0 C hs M)
    (x0 x1 : Face) (hne : x0 ≠ x1) (hnbc : 0 < M0.nbc) (hdim : 2 * M0.ndim ≤ 6)
    (r0 : x0.1 < M0.elem.length ∧ x0.2 < 2 * M0.ndim) (r1 : x1.1 < M0.elem.length ∧ x1.2 < 2 * M0.ndim)
    (u0 : ¬ ∃ y, (x0, y) ∈ hs ∨ (y, x0) ∈ hs) (u1 : ¬ ∃ y, (x1, y) ∈ hs ∨ (y, x1) ∈ hs)
    (bc0 bc1 : Name) (hb0 : (M0.bc x0.1 0 x0.2).typ = bc0) (hb1 : (M0.bc x1.1 0 x1.2).typ = bc1)
    (e0 : bc0 ≠ nE) (e1 : bc1 ≠ nE) (hP : bc0 = nP ↔ bc1 = nP) (c01 : C x0 x1) (c10 : C x1 x0) :
    ∃ M', M.mergePair M0.nbc bc0 bc1 x0.1 x0.2 x1.1 x1.2 = .ok M' ∧ MInv M0 C (hs ++ [(x0, x1)]) M' := by
  have hlen := I.frame.len
  have hnb := I.frame.nbc
  have hnd := I.frame.ndim
  have T := fun b hb x h1 h2 => I.typ b hb x h1 h2
  have ty0 : ∀ b < M0.nbc, (M.bc x0.1 b x0.2).typ = (M0.bc x0.1 b x0.2).typ := fun b hb => by
    rw [T b hb x0 r0.1 r0.2, if_neg u0]
  have ty1 : ∀ b < M0.nbc, (M.bc x1.1 b x1.2).typ = (M0.bc x1.1 b x1.2).typ := fun b hb => by
    rw [T b hb x1 r1.1 r1.2, if_neg u1]
  have t0 : (M.bc x0.1 0 x0.2).typ = bc0 := by rw [ty0 0 hnbc]; exact hb0
  have t1 : (M.bc x1.1 0 x1.2).typ = bc1 := by rw [ty1 0 hnbc]; exact hb1
  have U := fun b (hb : b < M0.nbc) x (h1 : x.1 < M0.elem.length) (h2 : x.2 < 2 * M0.ndim) =>
    I.uniform b (hnb ▸ hb) x (hlen ▸ h1) (hnd ▸ h2)
  have V := fun b (hb : b < M0.nbc) => I.valid b (hnb ▸ hb)
  rw [hlen, hnd] at V
  have memhs : ∀ x : Face, (∃ y, (x, y) ∈ hs ++ [(x0, x1)] ∨ (y, x) ∈ hs ++ [(x0, x1)]) ↔
      (∃ y, (x, y) ∈ hs ∨ (y, x) ∈ hs) ∨ x = x0 ∨ x = x1 := by
    intro x
    constructor
    · rintro ⟨y, h | h⟩
      · rw [List.mem_append, List.mem_singleton] at h
        rcases h with h | h
        · exact Or.inl ⟨y, Or.inl h⟩
        · exact Or.inr (Or.inl (by simpa using congrArg Prod.fst h))
      · rw [List.mem_append, List.mem_singleton] at h
        rcases h with h | h
        · exact Or.inl ⟨y, Or.inr h⟩
        · exact Or.inr (Or.inr (by simpa using congrArg Prod.snd h))
    · rintro (⟨y, h | h⟩ | h | h)
      · exact ⟨y, Or.inl (List.mem_append_left _ h)⟩
      · exact ⟨y, Or.inr (List.mem_append_left _ h)⟩
      · exact ⟨x1, Or.inl (by simp [h])⟩
      · exact ⟨x0, Or.inr (by simp [h])⟩
  by_cases hp : bc0 = nP
  · -- periodic faces
    have hp1 : bc1 = nP := hP.1 hp
    have P0 : ∀ b < M0.nbc, (M.bc x0.1 b x0.2).typ = nP := fun b hb =>
      ((U b hb x0 r0.1 r0.2).2.1).2 (t0.trans hp)
    have P1 : ∀ b < M0.nbc, (M.bc x1.1 b x1.2).typ = nP := fun b hb =>
      ((U b hb x1 r1.1 r1.2).2.1).2 (t1.trans hp1)
    obtain ⟨p0, q01, q02, a0, _, ba0, _⟩ := V 0 hnbc x0 r0.1 r0.2 (Or.inr (P0 0 hnbc))
    obtain ⟨p1, q11, q12, a1, _, ba1, _⟩ := V 0 hnbc x1 r1.1 r1.2 (Or.inr (P1 0 hnbc))
    have A0 : ∀ b < M0.nbc, PointsTo (M.bc x0.1 b x0.2) p0 := fun b hb =>
      (U b hb x0 r0.1 r0.2).2.2 (Or.inr (P0 0 hnbc)) p0 a0
    have A1 : ∀ b < M0.nbc, PointsTo (M.bc x1.1 b x1.2) p1 := fun b hb =>
      (U b hb x1 r1.1 r1.2).2.2 (Or.inr (P1 0 hnbc)) p1 a1
    have s0 : p0 ≠ x0 := fun e => I.noself 0 (hnb ▸ hnbc) x0 (hlen ▸ r0.1) (hnd ▸ r0.2) (P0 0 hnbc) (e ▸ a0)
    have s1 : p1 ≠ x1 := fun e => I.noself 0 (hnb ▸ hnbc) x1 (hlen ▸ r1.1) (hnd ▸ r1.2) (P1 0 hnbc) (e ▸ a1)
    -- partners have type P and point back, in all fields
    have B0 : ∀ b < M0.nbc, (M.bc p0.1 b p0.2).typ = nP ∧ PointsTo (M.bc p0.1 b p0.2) x0 := by
      intro b hb
      obtain ⟨y, _, _, h1, h2, h3, _⟩ := V b hb x0 r0.1 r0.2 (Or.inr (P0 b hb))
      rw [pointsTo_unique (A0 b hb) h1]; exact ⟨h2.trans (P0 b hb), h3⟩
    have B1 : ∀ b < M0.nbc, (M.bc p1.1 b p1.2).typ = nP ∧ PointsTo (M.bc p1.1 b p1.2) x1 := by
      intro b hb
      obtain ⟨y, _, _, h1, h2, h3, _⟩ := V b hb x1 r1.1 r1.2 (Or.inr (P1 b hb))
      rw [pointsTo_unique (A1 b hb) h1]; exact ⟨h2.trans (P1 b hb), h3⟩
    have hpne : p0 ≠ p1 := fun e => hne (pointsTo_unique (B0 0 hnbc).2 (e ▸ (B1 0 hnbc).2))
    obtain ⟨fr1, hb1'⟩ := relink_fields M M0.nbc p0 p1 hpne
    set M1 := (List.range M0.nbc).foldl (fun M ibc => M.relink ibc p0.1 p0.2 p1.1 p1.2 p0.1 p0.2 p1.1 p1.2) M with hM1
    obtain ⟨fr2, hb2'⟩ := connect_fields M1 M0.nbc x0 x1 hne
    set M2 := (List.range M0.nbc).foldl (fun M ibc => M.connect ibc x0.1 x0.2 x1.1 x1.2) M1 with hM2
    have hres : M.mergePair M0.nbc bc0 bc1 x0.1 x0.2 x1.1 x1.2 = .ok M2 := by
      unfold HexaData.mergePair
      rw [if_pos ⟨by rw [hp, hp1], hp1⟩]
      have i0 : trunc (M.bc x0.1 0 x0.2).p3 - 1 = (p0.1 : Int) := by have h := a0.1; dsimp only at h; omega
      have i1 : trunc (M.bc x1.1 0 x1.2).p3 - 1 = (p1.1 : Int) := by have h := a1.1; dsimp only at h; omega
      have j0 : trunc (M.bc x0.1 0 x0.2).p4 - 1 = (p0.2 : Int) := by have h := a0.2; dsimp only at h; omega
      have j1 : trunc (M.bc x1.1 0 x1.2).p4 - 1 = (p1.2 : Int) := by have h := a1.2; dsimp only at h; omega
      simp only [i0, i1, j0, j1]
      rw [pyIndex_nat (by omega), pyIndex_nat (by omega), pyIndex_nat (show p0.2 < 6 by omega),
        pyIndex_nat (show p1.2 < 6 by omega)]
      rfl
    -- records of the new mesh
    have R : ∀ i < M0.elem.length, ∀ b < M0.nbc, ∀ f,
        M2.bc i b f = joinF nE (joinF nP (fun x => M.bc x.1 b x.2) p0 p1) x0 x1 (i, f) := by
      intro i hi b hb f
      rw [hb2' i (by rw [fr1.len, hlen]; exact hi) b f, if_pos hb, hb1' i (by rw [hlen]; exact hi) b f, if_pos hb]
      rfl
    have F2 : Frame M0 M2 := I.frame.trans (fr1.trans fr2)
    have Ty : ∀ b < M0.nbc, ∀ x : Face, x.1 < M0.elem.length →
        (M2.bc x.1 b x.2).typ = if x = x0 ∨ x = x1 then nE else (M.bc x.1 b x.2).typ := by
      intro b hb x hx
      rw [R x.1 hx b hb x.2, joinF_typ]
      by_cases hc : x = x0 ∨ x = x1
      · rw [if_pos hc, if_pos hc]
      · rw [if_neg hc, if_neg hc, joinF_typ]
        by_cases hpp : x = p0 ∨ x = p1
        · rw [if_pos hpp]
          rcases hpp with h | h
          · rw [h]; exact (B0 b hb).1.symm
          · rw [h]; exact (B1 b hb).1.symm
        · rw [if_neg hpp]
    refine ⟨M2, hres, F2, ?_, ?_, ?_, ?_, ?_, ?_⟩
    · -- valid
      refine F2.valid (fun i hi b hb f => R i hi b hb f) fun b hb => ?_
      exact mutual_join_periodic (V b hb) hne r0 r1 ⟨q01, q02⟩ ⟨q11, q12⟩ (P0 b hb) (P1 b hb) (A0 b hb) (A1 b hb) s0 s1 c01 c10
    · -- uniform
      intro b hb x hx hx2
      rw [F2.nbc] at hb; rw [F2.len] at hx; rw [F2.ndim] at hx2
      rw [Ty b hb x hx, Ty 0 hnbc x hx]
      by_cases hc : x = x0 ∨ x = x1
      · simp only [hc, if_true, iff_self]
        refine ⟨trivial, trivial, fun _ y hy => ?_⟩
        rw [R x.1 hx 0 hnbc x.2] at hy
        rw [R x.1 hx b hb x.2]
        rcases hc with h | h
        · subst h
          rw [joinF_left _ _ _ _ hne, pointsTo_link] at hy ⊢; exact hy
        · subst h
          rw [joinF_right, pointsTo_link] at hy ⊢; exact hy
      · simp only [hc, if_false]
        obtain ⟨u1, u2, u3⟩ := U b hb x hx hx2
        refine ⟨u1, u2, fun hl y hy => ?_⟩
        push Not at hc
        rw [R x.1 hx 0 hnbc x.2, joinF_other _ _ _ _ _ hc.1 hc.2] at hy hl
        rw [R x.1 hx b hb x.2, joinF_other _ _ _ _ _ hc.1 hc.2]
        by_cases h0 : x = p0
        · rw [h0, joinF_left _ _ _ _ hpne, pointsTo_link] at hy ⊢; exact hy
        by_cases h1 : x = p1
        · rw [h1, joinF_right, pointsTo_link] at hy ⊢; exact hy
        rw [joinF_other _ _ _ _ _ h0 h1] at hy hl ⊢
        exact u3 hl y hy
    · -- no self links
      intro b hb x hx hx2 ht hself
      rw [F2.nbc] at hb; rw [F2.len] at hx; rw [F2.ndim] at hx2
      rw [Ty b hb x hx] at ht
      by_cases hc : x = x0 ∨ x = x1
      · rw [if_pos hc] at ht; exact nE_ne_nP ht
      · rw [if_neg hc] at ht
        push Not at hc
        rw [R x.1 hx b hb x.2, joinF_other _ _ _ _ _ hc.1 hc.2] at hself
        by_cases h0 : x = p0
        · rw [h0, joinF_left _ _ _ _ hpne, pointsTo_link] at hself
          exact hpne (Prod.ext (by omega) (by omega))
        by_cases h1 : x = p1
        · rw [h1, joinF_right, pointsTo_link] at hself
          exact hpne (Prod.ext (by omega) (by omega))
        rw [joinF_other _ _ _ _ _ h0 h1] at hself
        exact I.noself b (hnb ▸ hb) x (hlen ▸ hx) (hnd ▸ hx2) ht hself
    · -- types
      intro b hb x hx hx2
      rw [Ty b hb x hx, T b hb x hx hx2]
      simp only [memhs x]
      by_cases hc : x = x0 ∨ x = x1
      · simp [hc]
      · simp [hc]
    · -- handled pairs are linked
      intro p hp' b hb
      rw [List.mem_append, List.mem_singleton] at hp'
      rcases hp' with hp' | rfl
      · have l1 : p.1.1 < M0.elem.length ∧ p.2.1 < M0.elem.length := by
          have := I.linked p hp' b hb
          by_contra hcon
          -- out of range faces cannot be linked: the records of blank elements are zero
          rcases Classical.not_and_iff_not_or_not.1 hcon with h | h
          · have hz : M.el p.1.1 = Elem.blank := by
              unfold HexaData.el
              rw [List.getD_eq_getElem?_getD, List.getElem?_eq_none (by omega)]; rfl
            have := this.1.1
            unfold HexaData.bc at this
            rw [hz] at this
            simp [Elem.blank, Elem.new, BC.zero] at this
            omega
          · have hz : M.el p.2.1 = Elem.blank := by
              unfold HexaData.el
              rw [List.getD_eq_getElem?_getD, List.getElem?_eq_none (by omega)]; rfl
            have := this.2.1
            unfold HexaData.bc at this
            rw [hz] at this
            simp [Elem.blank, Elem.new, BC.zero] at this
            omega
        -- the faces of handled pairs are of type E, so they differ from all the others
        have nx : ∀ x : Face, (∃ y, (x, y) ∈ hs ∨ (y, x) ∈ hs) → x.1 < M0.elem.length → x ≠ x0 ∧ x ≠ x1 ∧ x ≠ p0 ∧ x ≠ p1 := by
          intro x hx hxr
          refine ⟨fun e => u0 (e ▸ hx), fun e => u1 (e ▸ hx), fun e => ?_, fun e => ?_⟩
          · have h1 := T 0 hnbc p0 q01 q02
            rw [if_pos (e ▸ hx), (B0 0 hnbc).1] at h1; exact nP_ne_nE h1
          · have h1 := T 0 hnbc p1 q11 q12
            rw [if_pos (e ▸ hx), (B1 0 hnbc).1] at h1; exact nP_ne_nE h1
        have n1 := nx p.1 ⟨p.2, Or.inl hp'⟩ l1.1
        have n2 := nx p.2 ⟨p.1, Or.inr hp'⟩ l1.2
        have := I.linked p hp' b hb
        rw [R p.1.1 l1.1 b hb, R p.2.1 l1.2 b hb, joinF_other _ _ _ _ _ n1.1 n1.2.1, joinF_other _ _ _ _ _ n1.2.2.1 n1.2.2.2,
          joinF_other _ _ _ _ _ n2.1 n2.2.1, joinF_other _ _ _ _ _ n2.2.2.1 n2.2.2.2]
        exact this
      · rw [R x0.1 r0.1 b hb, R x1.1 r1.1 b hb, joinF_left _ _ _ _ hne, joinF_right, pointsTo_link, pointsTo_link]
        exact ⟨⟨rfl, rfl⟩, ⟨rfl, rfl⟩⟩
    · -- other records
      intro b hb x hx hx2 hnot hnP
      rw [memhs x] at hnot
      push Not at hnot
      obtain ⟨hn1, hn2, hn3⟩ := hnot
      have hnot' : ¬ ∃ y, (x, y) ∈ hs ∨ (y, x) ∈ hs := by push Not; exact hn1
      have tx := T b hb x hx hx2
      rw [if_neg hnot'] at tx
      have np0 : x ≠ p0 := fun e => hnP (by rw [← tx, e]; exact (B0 b hb).1)
      have np1 : x ≠ p1 := fun e => hnP (by rw [← tx, e]; exact (B1 b hb).1)
      rw [R x.1 hx b hb x.2, joinF_other _ _ _ _ _ hn2 hn3, joinF_other _ _ _ _ _ np0 np1]
      exact I.other b hb x hx hx2 hnot' hnP
  · -- free faces
    have hp1 : bc1 ≠ nP := fun h => hp (hP.2 h)
    obtain ⟨fr2, hb2'⟩ := connect_fields M M0.nbc x0 x1 hne
    set M2 := (List.range M0.nbc).foldl (fun M ibc => M.connect ibc x0.1 x0.2 x1.1 x1.2) M with hM2
    have hres : M.mergePair M0.nbc bc0 bc1 x0.1 x0.2 x1.1 x1.2 = .ok M2 := by
      unfold HexaData.mergePair
      rw [if_neg (fun h => hp1 h.2)]
      rfl
    have N0 : ∀ b < M0.nbc, ¬ IsLink (M.bc x0.1 b x0.2) := by
      intro b hb hl
      obtain ⟨u1, u2, _⟩ := U b hb x0 r0.1 r0.2
      rcases hl with h | h
      · exact e0 (t0 ▸ u1.1 h)
      · exact hp (t0 ▸ u2.1 h)
    have N1 : ∀ b < M0.nbc, ¬ IsLink (M.bc x1.1 b x1.2) := by
      intro b hb hl
      obtain ⟨u1, u2, _⟩ := U b hb x1 r1.1 r1.2
      rcases hl with h | h
      · exact e1 (t1 ▸ u1.1 h)
      · exact hp1 (t1 ▸ u2.1 h)
    have R : ∀ i < M0.elem.length, ∀ b < M0.nbc, ∀ f,
        M2.bc i b f = joinF nE (fun x => M.bc x.1 b x.2) x0 x1 (i, f) := by
      intro i hi b hb f
      rw [hb2' i (by rw [hlen]; exact hi) b f, if_pos hb]
      rfl
    have F2 : Frame M0 M2 := I.frame.trans fr2
    have Ty : ∀ b < M0.nbc, ∀ x : Face, x.1 < M0.elem.length →
        (M2.bc x.1 b x.2).typ = if x = x0 ∨ x = x1 then nE else (M.bc x.1 b x.2).typ := by
      intro b hb x hx
      rw [R x.1 hx b hb x.2, joinF_typ]
    refine ⟨M2, hres, F2, ?_, ?_, ?_, ?_, ?_, ?_⟩
    · refine F2.valid (fun i hi b hb f => R i hi b hb f) fun b hb => ?_
      exact mutual_join_free (V b hb) hne r0 r1 (N0 b hb) (N1 b hb) c01 c10
    · intro b hb x hx hx2
      rw [F2.nbc] at hb; rw [F2.len] at hx; rw [F2.ndim] at hx2
      rw [Ty b hb x hx, Ty 0 hnbc x hx]
      by_cases hc : x = x0 ∨ x = x1
      · simp only [hc, if_true, iff_self]
        refine ⟨trivial, trivial, fun _ y hy => ?_⟩
        rw [R x.1 hx 0 hnbc x.2] at hy
        rw [R x.1 hx b hb x.2]
        rcases hc with h | h
        · subst h
          rw [joinF_left _ _ _ _ hne, pointsTo_link] at hy ⊢; exact hy
        · subst h
          rw [joinF_right, pointsTo_link] at hy ⊢; exact hy
      · simp only [hc, if_false]
        obtain ⟨u1, u2, u3⟩ := U b hb x hx hx2
        refine ⟨u1, u2, fun hl y hy => ?_⟩
        push Not at hc
        rw [R x.1 hx 0 hnbc x.2, joinF_other _ _ _ _ _ hc.1 hc.2] at hy hl
        rw [R x.1 hx b hb x.2, joinF_other _ _ _ _ _ hc.1 hc.2]
        exact u3 hl y hy
    · intro b hb x hx hx2 ht hself
      rw [F2.nbc] at hb; rw [F2.len] at hx; rw [F2.ndim] at hx2
      rw [Ty b hb x hx] at ht
      by_cases hc : x = x0 ∨ x = x1
      · rw [if_pos hc] at ht; exact nE_ne_nP ht
      · rw [if_neg hc] at ht
        push Not at hc
        rw [R x.1 hx b hb x.2, joinF_other _ _ _ _ _ hc.1 hc.2] at hself
        exact I.noself b (hnb ▸ hb) x (hlen ▸ hx) (hnd ▸ hx2) ht hself
    · intro b hb x hx hx2
      rw [Ty b hb x hx, T b hb x hx hx2]
      simp only [memhs x]
      by_cases hc : x = x0 ∨ x = x1
      · simp [hc]
      · simp [hc]
    · intro p hp' b hb
      rw [List.mem_append, List.mem_singleton] at hp'
      rcases hp' with hp' | rfl
      · have l1 : p.1.1 < M0.elem.length ∧ p.2.1 < M0.elem.length := by
          have := I.linked p hp' b hb
          by_contra hcon
          rcases Classical.not_and_iff_not_or_not.1 hcon with h | h
          · have hz : M.el p.1.1 = Elem.blank := by
              unfold HexaData.el
              rw [List.getD_eq_getElem?_getD, List.getElem?_eq_none (by omega)]; rfl
            have := this.1.1
            unfold HexaData.bc at this
            rw [hz] at this
            simp [Elem.blank, Elem.new, BC.zero] at this
            omega
          · have hz : M.el p.2.1 = Elem.blank := by
              unfold HexaData.el
              rw [List.getD_eq_getElem?_getD, List.getElem?_eq_none (by omega)]; rfl
            have := this.2.1
            unfold HexaData.bc at this
            rw [hz] at this
            simp [Elem.blank, Elem.new, BC.zero] at this
            omega
        have n1 : p.1 ≠ x0 ∧ p.1 ≠ x1 := ⟨fun e => u0 ⟨p.2, Or.inl (by rw [← e]; exact hp')⟩,
          fun e => u1 ⟨p.2, Or.inl (by rw [← e]; exact hp')⟩⟩
        have n2 : p.2 ≠ x0 ∧ p.2 ≠ x1 := ⟨fun e => u0 ⟨p.1, Or.inr (by rw [← e]; exact hp')⟩,
          fun e => u1 ⟨p.1, Or.inr (by rw [← e]; exact hp')⟩⟩
        have := I.linked p hp' b hb
        rw [R p.1.1 l1.1 b hb, R p.2.1 l1.2 b hb, joinF_other _ _ _ _ _ n1.1 n1.2,
          joinF_other _ _ _ _ _ n2.1 n2.2]
        exact this
      · rw [R x0.1 r0.1 b hb, R x1.1 r1.1 b hb, joinF_left _ _ _ _ hne, joinF_right, pointsTo_link, pointsTo_link]
        exact ⟨⟨rfl, rfl⟩, ⟨rfl, rfl⟩⟩
    · intro b hb x hx hx2 hnot hnP
      rw [memhs x] at hnot
      push Not at hnot
      obtain ⟨hn1, hn2, hn3⟩ := hnot
      have hnot' : ¬ ∃ y, (x, y) ∈ hs ∨ (y, x) ∈ hs := by push Not; exact hn1
      rw [R x.1 hx b hb x.2, joinF_other _ _ _ _ _ hn2 hn3]
      exact I.other b hb x hx hx2 hnot' hnP

end
end Pymech
