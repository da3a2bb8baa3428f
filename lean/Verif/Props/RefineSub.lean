import Verif.Props.ExtrudeRefine
import Verif.Props.Chain

/-!
# The plane parts of `extrude_refine` with their conditions

Used for C109: which conditions the meshes have that `extrude_refine` extrudes, and that they are validly connected.
-/

set_option linter.unusedSectionVars false
set_option autoImplicit false

namespace Pymech

open Spec

variable {F : Type} [Field F] [LinearOrder F] [IsStrictOrderedRing F] [FloorRing F] {P : Type}

namespace Spec

/-- `R` is the part of `M` with the elements `S`, in increasing order. Links between them are renumbered, other links are replaced by `ext`. -/
structure Sub (M : HexaData F) (ext : Name) (S : List Nat) (R : HexaData F) : Prop where
  hdr : R = { M with elem := R.elem, nel := R.elem.length, ncurv := R.ncurv }
  inc : S.Pairwise (· < ·)
  len : R.elem.length = S.length
  el : ∀ j i, S[j]? = some i → i < M.elem.length ∧ R.el j = { M.el i with bcs := (R.el j).bcs }
  other : ∀ j i, S[j]? = some i → ∀ b < M.nbc, ∀ f < 2 * M.ndim, ¬ IsLink (M.bc i b f) → (R.bc j b f).typ = (M.bc i b f).typ
  kept : ∀ j i, S[j]? = some i → ∀ b < M.nbc, ∀ f < 2 * M.ndim, IsLink (M.bc i b f) → ∀ y, PointsTo (M.bc i b f) y → ∀ q, S[q]? = some y.1 →
    (R.bc j b f).typ = (M.bc i b f).typ ∧ PointsTo (R.bc j b f) (q, y.2) ∧ (R.bc j b f).p3 = (M.bc i b f).p3 - ((y.1 : F) - (q : F))
  removed : ∀ j i, S[j]? = some i → ∀ b < M.nbc, ∀ f < 2 * M.ndim, IsLink (M.bc i b f) → ∀ y, PointsTo (M.bc i b f) y → y.1 ∉ S →
    (R.bc j b f).typ = u3 ext

end Spec

theorem points_unique {r : BC F} {x y : Face} (h : PointsTo r x) (h' : PointsTo r y) : x = y := by
  obtain ⟨a1, a2⟩ := h
  obtain ⟨b1, b2⟩ := h'
  ext <;> omega

theorem Spec.Sub.nbc {M R : HexaData F} {ext : Name} {S : List Nat} (h : Sub M ext S R) : R.nbc = M.nbc := by rw [h.hdr]
theorem Spec.Sub.ndim {M R : HexaData F} {ext : Name} {S : List Nat} (h : Sub M ext S R) : R.ndim = M.ndim := by rw [h.hdr]
theorem Spec.Sub.nel {M R : HexaData F} {ext : Name} {S : List Nat} (h : Sub M ext S R) : R.nel = R.elem.length := by rw [h.hdr]

theorem Spec.Sub.nodup {M R : HexaData F} {ext : Name} {S : List Nat} (h : Sub M ext S R) : S.Nodup := h.inc.imp (fun h => Nat.ne_of_lt h)

theorem Spec.Sub.inj {M R : HexaData F} {ext : Name} {S : List Nat} (h : Sub M ext S R) {j j' i : Nat} (h1 : S[j]? = some i) (h2 : S[j']? = some i) :
    j = j' := by
  obtain ⟨a1, a2⟩ := List.getElem?_eq_some_iff.1 h1
  obtain ⟨b1, b2⟩ := List.getElem?_eq_some_iff.1 h2
  exact (h.nodup.getElem_inj_iff (hi := a1) (hj := b1)).1 (a2.trans b2.symm)

theorem sub_refl (M : HexaData F) (hn : M.nel = M.elem.length) (hv : Valid M fun _ _ => True) (ext : Name) : Sub M ext (List.range M.elem.length) M := by
  have key : ∀ j i, (List.range M.elem.length)[j]? = some i → j = i ∧ i < M.elem.length := by
    intro j i h
    obtain ⟨h1, h2⟩ := List.getElem?_eq_some_iff.1 h
    rw [List.length_range] at h1
    rw [List.getElem_range] at h2
    exact ⟨h2, h2 ▸ h1⟩
  refine ⟨?_, List.pairwise_lt_range, by simp, ?_, ?_, ?_, ?_⟩
  · cases M; congr
  · intro j i h
    obtain ⟨rfl, h⟩ := key j i h
    exact ⟨h, rfl⟩
  · intro j i h b _ f _ _
    obtain ⟨rfl, h⟩ := key j i h
    rfl
  · intro j i h b _ f _ _ y hy q hq
    obtain ⟨rfl, h⟩ := key j i h
    obtain ⟨rfl, h'⟩ := key q _ hq
    exact ⟨rfl, hy, by simp⟩
  · intro j i h b hb f hf hl y hy hno
    obtain ⟨rfl, h⟩ := key j i h
    obtain ⟨y', y1, -, y3, -⟩ := hv b hb (j, f) h hf hl
    obtain rfl := points_unique hy y3
    exact absurd (List.mem_range.2 y1) hno

theorem sub_trans {M R Q : HexaData F} {ext : Name} {S T : List Nat} (hE : ext ≠ nE) (hP : ext ≠ nP) (h : Sub M ext S R) (k : Sub R ext T Q) :
    Sub M ext (T.map fun j => S.getD j 0) Q := by
  have hnl : ∀ r : BC F, r.typ = u3 ext → ¬ IsLink r := by
    intro r hr hl
    unfold IsLink at hl
    rw [hr] at hl
    rcases hl with h | h
    · exact hE ((u3_single _ 'E').1 h)
    · exact hP ((u3_single _ 'P').1 h)
  have hb := h.nbc
  have hd := h.ndim
  have hT : ∀ j ∈ T, j < S.length := by
    intro j hj
    obtain ⟨q, hq⟩ := List.mem_iff_getElem?.1 hj
    have := (k.el q j hq).1
    rw [h.len] at this
    exact this
  have e : ∀ q i : Nat, (T.map fun j => S.getD j 0)[q]? = some i ↔ ∃ j, T[q]? = some j ∧ S[j]? = some i := by
    intro q i
    rw [List.getElem?_map]
    constructor
    · intro hq
      obtain ⟨j, h1, h2⟩ := Option.map_eq_some_iff.1 hq
      have hj := hT j (List.mem_of_getElem? h1)
      refine ⟨j, h1, ?_⟩
      rw [List.getD_eq_getElem?_getD, List.getElem?_eq_getElem hj] at h2
      rw [List.getElem?_eq_getElem hj]
      exact congrArg some h2
    · rintro ⟨j, h1, h2⟩
      rw [h1, Option.map_some, List.getD_eq_getElem?_getD, h2]
      rfl
  refine ⟨?_, ?_, ?_, ?_, ?_, ?_, ?_⟩
  · conv_lhs => rw [k.hdr, h.hdr]
  · rw [List.pairwise_map]
    refine k.inc.imp_of_mem ?_
    intro a b ha hb hab
    have h1 := hT a ha
    have h2 := hT b hb
    have := List.pairwise_iff_getElem.1 h.inc a b h1 h2 hab
    rw [List.getD_eq_getElem?_getD, List.getElem?_eq_getElem h1, List.getD_eq_getElem?_getD, List.getElem?_eq_getElem h2]
    exact this
  · rw [k.len, List.length_map]
  · intro q i hq
    obtain ⟨j, h1, h2⟩ := (e q i).1 hq
    refine ⟨(h.el j i h2).1, ?_⟩
    conv_lhs => rw [(k.el q j h1).2, (h.el j i h2).2]
  · intro q i hq b hb' f hf hn
    obtain ⟨j, h1, h2⟩ := (e q i).1 hq
    have t := h.other j i h2 b hb' f hf hn
    have hn' : ¬ IsLink (R.bc j b f) := by unfold IsLink at hn ⊢; rw [t]; exact hn
    rw [k.other q j h1 b (by omega) f (by omega) hn', t]
  · intro q i hq b hb' f hf hl y hy p hp
    obtain ⟨j, h1, h2⟩ := (e q i).1 hq
    obtain ⟨c, c1, c2⟩ := (e p y.1).1 hp
    obtain ⟨t1, t2, t3⟩ := h.kept j i h2 b hb' f hf hl y hy c c2
    have hl' : IsLink (R.bc j b f) := by unfold IsLink at hl ⊢; rw [t1]; exact hl
    obtain ⟨u1, u2, u3⟩ := k.kept q j h1 b (by omega) f (by omega) hl' (c, y.2) t2 p c1
    refine ⟨u1.trans t1, u2, ?_⟩
    rw [u3, t3]
    dsimp only
    ring
  · intro q i hq b hb' f hf hl y hy hn
    obtain ⟨j, h1, h2⟩ := (e q i).1 hq
    by_cases hyS : y.1 ∈ S
    · obtain ⟨c, hc⟩ := List.mem_iff_getElem?.1 hyS
      obtain ⟨t1, t2, t3⟩ := h.kept j i h2 b hb' f hf hl y hy c hc
      have hl' : IsLink (R.bc j b f) := by unfold IsLink at hl ⊢; rw [t1]; exact hl
      refine k.removed q j h1 b (by omega) f (by omega) hl' (c, y.2) t2 fun hcT => hn ?_
      obtain ⟨p, hp⟩ := List.mem_iff_getElem?.1 hcT
      exact List.mem_iff_getElem?.2 ⟨p, (e p y.1).2 ⟨c, hp, hc⟩⟩
    · have t := h.removed j i h2 b hb' f hf hl y hy hyS
      rw [k.other q j h1 b (by omega) f (by omega) (hnl _ t), t]

theorem sub_ncurv {M R : HexaData F} {ext : Name} {S : List Nat} (h : Sub M ext S R) : Sub M ext S R.updateNcurv := by
  refine ⟨?_, h.inc, h.len, h.el, h.other, h.kept, h.removed⟩
  rw [update_ncurv_spec]
  have := h.hdr
  conv_lhs => rw [this]

/-- A kept element, a removed one, or no link: all cases of a record. -/
theorem Spec.Sub.link {M R : HexaData F} {ext : Name} {S : List Nat} (hE : ext ≠ nE) (hP : ext ≠ nP) (h : Sub M ext S R) {C : Face → Face → Prop}
    (hv : Valid M C) {j i b f : Nat} (hj : S[j]? = some i) (hb : b < M.nbc) (hf : f < 2 * M.ndim) (hl : IsLink (R.bc j b f)) :
    ∃ y q, S[q]? = some y.1 ∧ y.2 < 2 * M.ndim ∧ IsLink (M.bc i b f) ∧ PointsTo (M.bc i b f) y ∧ (M.bc y.1 b y.2).typ = (M.bc i b f).typ ∧
      PointsTo (M.bc y.1 b y.2) (i, f) ∧ ((M.bc i b f).typ = nE → C (i, f) y) ∧
      (R.bc j b f).typ = (M.bc i b f).typ ∧ PointsTo (R.bc j b f) (q, y.2) ∧ (R.bc j b f).p3 = (M.bc i b f).p3 - ((y.1 : F) - (q : F)) := by
  have hi := (h.el j i hj).1
  have hl0 : IsLink (M.bc i b f) := by
    by_contra hn
    have := h.other j i hj b hb f hf hn
    unfold IsLink at hl hn
    rw [this] at hl
    exact hn hl
  obtain ⟨y, y1, y2, y3, y4, y5, y6⟩ := hv b hb (i, f) hi hf hl0
  by_cases hy : y.1 ∈ S
  · obtain ⟨q, hq⟩ := List.mem_iff_getElem?.1 hy
    obtain ⟨t1, t2, t3⟩ := h.kept j i hj b hb f hf hl0 y y3 q hq
    exact ⟨y, q, hq, y2, hl0, y3, y4, y5, y6, t1, t2, t3⟩
  · have t := h.removed j i hj b hb f hf hl0 y y3 hy
    exfalso
    unfold IsLink at hl
    rw [t] at hl
    rcases hl with h | h
    · exact hE ((u3_single _ 'E').1 h)
    · exact hP ((u3_single _ 'P').1 h)

theorem sub_at {M R : HexaData F} {ext : Name} {S : List Nat} (h : Sub M ext S R) {j : Nat} (hj : j < R.elem.length) : ∃ i, S[j]? = some i :=
  ⟨_, List.getElem?_eq_getElem (by rw [← h.len]; exact hj)⟩

theorem sub_wf {M R : HexaData F} {ext : Name} {S : List Nat} (hw : WF M) (h : Sub M ext S R) : WF R := by
  refine ⟨h.nel, fun el hel => ?_, by rw [h.ndim]; exact hw.dim⟩
  obtain ⟨j, hj, rfl⟩ := List.getElem_of_mem hel
  rw [← R.el_eq_getElem j hj, h.nbc]
  obtain ⟨i, hi⟩ := sub_at h hj
  obtain ⟨a1, a2⟩ := h.el j i hi
  rw [a2]
  have := hw.rows _ (M.el_mem _ a1)
  exact this

theorem sub_valid {M R : HexaData F} {ext : Name} {S : List Nat} (hE : ext ≠ nE) (hP : ext ≠ nP) {C : Face → Face → Prop}
    (hv : Valid M C) (h : Sub M ext S R) : Valid R fun x y => ∃ i c, S[x.1]? = some i ∧ S[y.1]? = some c ∧ C (i, x.2) (c, y.2) := by
  intro b hb
  rw [h.nbc] at hb
  rw [h.ndim]
  rintro ⟨j, f⟩ hj hf hl
  dsimp only at hj hf hl ⊢
  obtain ⟨i, hi⟩ := sub_at h hj
  obtain ⟨y, q, q1, y2, hl0, y3, y4, y5, y6, t1, t2, t3⟩ := h.link hE hP hv hi hb hf hl
  have hly : IsLink (M.bc y.1 b y.2) := by unfold IsLink at hl0 ⊢; rw [y4]; exact hl0
  obtain ⟨u1, u2, u3⟩ := h.kept q y.1 q1 b hb y.2 y2 hly (i, f) y5 j hi
  refine ⟨(q, y.2), ?_, y2, t2, ?_, u2, fun he => ⟨i, y.1, hi, q1, y6 (t1.symm.trans he)⟩⟩
  · rw [h.len]; exact (List.getElem?_eq_some_iff.1 q1).1
  · dsimp only; rw [u1, t1, y4]

theorem sub_uniform {M R : HexaData F} {ext : Name} {S : List Nat} (hE : ext ≠ nE) (hP : ext ≠ nP) {C : Face → Face → Prop}
    (hv : Valid M C) (hu : Uniform M) (h : Sub M ext S R) : Uniform R := by
  intro b hb x hx hx2
  rw [h.nbc] at hb
  rw [h.ndim] at hx2
  obtain ⟨j, f⟩ := x
  dsimp only at hx hx2 ⊢
  obtain ⟨i, hi⟩ := sub_at h hx
  have hi' := (h.el j i hi).1
  obtain ⟨w1, w2, w3⟩ := hu b hb (i, f) hi' hx2
  have h0 : 0 < M.nbc := by omega
  dsimp only at w1 w2 w3
  by_cases hl : IsLink (M.bc i 0 f)
  · have hlb : IsLink (M.bc i b f) := by unfold IsLink at hl ⊢; rw [w1, w2]; exact hl
    obtain ⟨y, y1, y2, y3, y4, y5, y6⟩ := hv 0 h0 (i, f) hi' hx2 hl
    have y3b := w3 hl y y3
    by_cases hy : y.1 ∈ S
    · obtain ⟨q, hq⟩ := List.mem_iff_getElem?.1 hy
      obtain ⟨t1, t2, t3⟩ := h.kept j i hi 0 h0 f hx2 hl y y3 q hq
      obtain ⟨u1, u2, u3⟩ := h.kept j i hi b hb f hx2 hlb y y3b q hq
      rw [t1, u1]
      refine ⟨w1, w2, fun _ y' hy' => ?_⟩
      obtain rfl := points_unique hy' t2
      exact u2
    · have t := h.removed j i hi 0 h0 f hx2 hl y y3 hy
      have u := h.removed j i hi b hb f hx2 hlb y y3b hy
      rw [t, u]
      refine ⟨Iff.rfl, Iff.rfl, fun hl' => ?_⟩
      exfalso
      unfold IsLink at hl'
      rw [t] at hl'
      rcases hl' with h | h
      · exact hE ((u3_single _ 'E').1 h)
      · exact hP ((u3_single _ 'P').1 h)
  · have hlb : ¬ IsLink (M.bc i b f) := by unfold IsLink at hl ⊢; rw [w1, w2]; exact hl
    have t := h.other j i hi 0 h0 f hx2 hl
    have u := h.other j i hi b hb f hx2 hlb
    rw [t, u]
    refine ⟨w1, w2, fun hl' => ?_⟩
    unfold IsLink at hl hl'
    rw [t] at hl'
    exact absurd hl' hl

theorem sub_self {M R : HexaData F} {ext : Name} {S : List Nat} (hE : ext ≠ nE) (hP : ext ≠ nP) {C : Face → Face → Prop}
    (hv : Valid M C) (hs : NoSelf M) (h : Sub M ext S R) : NoSelf R := by
  intro b hb x hx hx2 ht hp
  rw [h.nbc] at hb
  rw [h.ndim] at hx2
  obtain ⟨j, f⟩ := x
  dsimp only at hx hx2 ht hp
  obtain ⟨i, hi⟩ := sub_at h hx
  obtain ⟨y, q, q1, y2, hl0, y3, y4, y5, y6, t1, t2, t3⟩ := h.link hE hP hv hi hb hx2 (Or.inr ht)
  have e := points_unique hp t2
  simp only [Prod.mk.injEq] at e
  obtain ⟨rfl, e2⟩ := e
  rw [hi] at q1
  obtain rfl := Option.some.inj q1
  refine hs b hb (y.1, f) (h.el j y.1 hi).1 hx2 (t1.symm.trans ht) ?_
  rw [e2]
  dsimp only
  rw [e2] at y3
  exact y3

theorem sub_whole {M R : HexaData F} {ext : Name} {S : List Nat} (hE : ext ≠ nE) (hP : ext ≠ nP) {C : Face → Face → Prop}
    (hd : M.ndim = 2) (hn : M.nel = M.elem.length) (hv : Valid M C) (hs : WholeLinks M) (h : Sub M ext S R) : WholeLinks R := by
  intro b hb j hj f hf hl
  rw [h.nbc] at hb
  rw [h.nel] at hj
  obtain ⟨i, hi⟩ := sub_at h hj
  obtain ⟨y, q, q1, y2, hl0, y3, y4, y5, y6, t1, t2, t3⟩ := h.link hE hP hv hi hb (by rw [hd]; exact hf) hl
  obtain ⟨k, hk⟩ := hs b hb i (by rw [hn]; exact (h.el j i hi).1) f hf hl0
  have hk' : k = y.1 + 1 := by
    have := y3.1
    rw [hk, trunc_natCast] at this
    omega
  refine ⟨q + 1, ?_⟩
  rw [t3, hk, hk']
  push_cast
  ring

/-! ### The splits -/

theorem sub_keep (M : HexaData F) (hw : WF M) (hv : Valid M fun _ _ => True) (p : Elem F → Bool) (ext : Name) :
    ∃ R S, keepElements M (numbers M p M.nel) ext = .ok R ∧ Sub M ext S R ∧ ∀ i, i ∈ S ↔ i < M.elem.length ∧ p (M.el i) = true := by
  have A : KeepArgs M (numbers M p M.nel) := by
    refine ⟨?_, fun x hx => ?_⟩
    · exact (List.nodup_map_iff (fun a b h => by simpa using h)).2 (List.nodup_range.filter _)
    · unfold numbers at hx
      obtain ⟨i, hi, rfl⟩ := List.mem_map.1 hx
      have := List.mem_range.1 (List.mem_filter.1 hi).1
      omega
  have hl : LinksExist M := by
    intro e he b hb f hf hlk
    obtain ⟨y, y1, _, y3, _⟩ := hv b hb (e, f) he hf hlk
    exact ⟨y.1, by rw [hw.nel]; exact y1, y3.1⟩
  obtain ⟨S, R, s1, h1, h2, h3, h4⟩ := keep_elements_spec M hw.nel (numbers M p M.nel) A ext hl
  have hlen : S.length = (numbers M p M.nel).length := by simpa using s1.2.length_eq
  refine ⟨R, S, h1, ⟨?_, s1.1, h3, fun j i hj => ⟨(h4 j i hj).1, (h4 j i hj).2.1⟩, ?_, ?_, ?_⟩, fun i => ?_⟩
  · rw [h2]
    simp only
    congr 1
    rw [h3, hlen]
  · intro j i hj b hb f hf hn
    rw [(((h4 j i hj).2.2 b f).1 ⟨hb, hf⟩).other hn]
  · intro j i hj b hb f hf hlk y hy q hq
    have hK := ((h4 j i hj).2.2 b f).1 ⟨hb, hf⟩
    obtain ⟨t1, t2⟩ := KeptRec_points S s1.1 ext j _ _ hK q y.1 y.2 hq hlk hy
    refine ⟨t1, t2, ?_⟩
    rw [hK.kept q y.1 hq hlk hy.1]
  · intro j i hj b hb f hf hlk y hy hno
    have hK := ((h4 j i hj).2.2 b f).1 ⟨hb, hf⟩
    rw [hK.removed hlk]
    intro c hc ht
    rw [hy.1] at ht
    obtain rfl : y.1 = c := by omega
    exact hno hc
  · have := s1.2.mem_iff (a := (i : Int))
    rw [List.mem_map_of_injective (fun a b h => by simpa using h)] at this
    rw [this]
    unfold numbers
    rw [hw.nel]
    simp

/-- The elements of the part are those with the fate `φ`. -/
def Spec.HasFate (M : HexaData F) (gs : List (F → F → F)) (φ : Fate) (S : List Nat) : Prop := ∀ i, i ∈ S ↔ i < M.elem.length ∧ fate gs (M.el i) = φ

theorem sub_fate {M R : HexaData F} {ext : Name} {S : List Nat} (h : Sub M ext S R) {j i : Nat} (hj : S[j]? = some i) (gs : List (F → F → F)) :
    fate gs (R.el j) = fate gs (M.el i) := by
  rw [← fate_bare, ← fate_bare gs (M.el i), (h.el j i hj).2]
  rfl

theorem sub_corners {M R : HexaData F} {ext : Name} {S : List Nat} (h : Sub M ext S R) (hc : ∀ el ∈ M.elem, HasCorners el) : ∀ el ∈ R.elem, HasCorners el := by
  intro el hel
  obtain ⟨j, hj, rfl⟩ := List.getElem_of_mem hel
  obtain ⟨i, hi⟩ := sub_at h hj
  rw [← R.el_eq_getElem j hj, (h.el j i hi).2]
  have := hc _ (M.el_mem i (h.el j i hi).1)
  exact this

/-- The elements of a part of a part. -/
theorem mem_sub_trans {M R Q : HexaData F} {ext : Name} {S T : List Nat} (h : Sub M ext S R) (k : Sub R ext T Q) (i : Nat) :
    (i ∈ T.map fun j => S.getD j 0) ↔ ∃ j ∈ T, S[j]? = some i := by
  rw [List.mem_map]
  constructor
  · rintro ⟨j, h1, h2⟩
    obtain ⟨q, hq⟩ := List.mem_iff_getElem?.1 h1
    have hj := (k.el q j hq).1
    rw [h.len] at hj
    refine ⟨j, h1, ?_⟩
    rw [List.getD_eq_getElem?_getD, List.getElem?_eq_getElem hj] at h2
    rw [List.getElem?_eq_getElem hj]
    exact congrArg some h2
  · rintro ⟨j, h1, h2⟩
    refine ⟨j, h1, ?_⟩
    rw [List.getD_eq_getElem?_getD, h2]
    rfl

/-- The outcome of all splits, with the conditions. -/
theorem splits_sub (ext : Name) (hE : ext ≠ nE) (hP : ext ≠ nP) (par : Nat → Option P) (fs : List (F → F → P → F)) (ps : List P) (n : Nat)
    (hl : ps.length = fs.length) (hp : ∀ k < ps.length, par (n + k) = ps[k]?)
    (acc : List (HexaData F × HexaData F)) (M : HexaData F) (hw : WF M) (hv : Valid M fun _ _ => True) (hc : ∀ el ∈ M.elem, HasCorners el) :
    ∃ parts E, (fs.zipIdx n).foldlM (fun s p => refineSplit ext s p.1 (par p.2)) (acc, M) = .ok (acc ++ parts, E) ∧
      parts.length = fs.length ∧
      (∀ (k : Nat) (p : HexaData F × HexaData F), parts[k]? = some p →
        (∃ S, Sub M ext S p.1 ∧ HasFate M (applied fs ps) (.inner k) S) ∧ ∃ S, Sub M ext S p.2 ∧ HasFate M (applied fs ps) (.mid k) S) ∧
      ∃ S, Sub M ext S E ∧ HasFate M (applied fs ps) .outer S := by
  induction fs generalizing ps n acc M with
  | nil =>
    refine ⟨[], M, by simp [pure, Except.pure], rfl, by simp, List.range M.elem.length, sub_refl M hw.nel hv ext, fun i => ?_⟩
    rw [List.mem_range]
    exact ⟨fun h => ⟨h, rfl⟩, fun h => h.1⟩
  | cons f fs ih =>
    match ps, hl, hp with
    | q :: ps, hl, hp =>
      have h0 : par n = some q := by
        have := hp 0 (by simp)
        simpa using this
      obtain ⟨A, SA, a1, a2, a3⟩ := sub_keep M hw hv (isLow fun x y => f x y q) ext
      obtain ⟨B, SB, b1, b2, b3⟩ := sub_keep M hw hv (isMid fun x y => f x y q) ext
      obtain ⟨C, SC, c1, c2, c3⟩ := sub_keep M hw hv (isHigh fun x y => f x y q) ext
      have hs : refineSplit ext (acc, M) f (some q) = .ok (acc ++ [(A.updateNcurv, B.updateNcurv)], C) := by
        unfold refineSplit
        rw [refineSort_ok f q M hw.nel hc]
        simp only [bind, Except.bind]
        rw [a1]
        simp only
        rw [b1]
        simp only
        rw [c1]
        rfl
      obtain ⟨parts, E, g1, g2, g3, SE, g4, g5⟩ := ih ps (n + 1) (by simpa using hl) (by
        intro k hk
        have := hp (k + 1) (by simp; omega)
        rw [show n + 1 + k = n + (k + 1) by omega, this]
        simp) (acc ++ [(A.updateNcurv, B.updateNcurv)]) C (sub_wf hw c2) ((sub_valid hE hP hv c2).mono fun _ _ _ => trivial) (sub_corners c2 hc)
      have hf : ∀ el, fate (applied (f :: fs) (q :: ps)) el =
          if AllLow (fun x y => f x y q) el then .inner 0 else if AllHigh (fun x y => f x y q) el then (fate (applied fs ps) el).succ else .mid 0 :=
        fun _ => rfl
      -- parts of the remaining mesh
      have later : ∀ (φ ψ : Fate), (∀ χ : Fate, χ.succ = ψ ↔ χ = φ) → ψ ≠ .inner 0 → ψ ≠ .mid 0 → ∀ Q, (∃ T, Sub C ext T Q ∧ HasFate C (applied fs ps) φ T) →
          ∃ T, Sub M ext T Q ∧ HasFate M (applied (f :: fs) (q :: ps)) ψ T := by
        rintro φ ψ hψ n1 n2 Q ⟨T, t1, t2⟩
        refine ⟨_, sub_trans hE hP c2 t1, fun i => ?_⟩
        rw [mem_sub_trans c2 t1, hf]
        constructor
        · rintro ⟨j, j1, j2⟩
          have hi := (c3 i).1 (List.mem_of_getElem? j2)
          obtain ⟨i1, i2⟩ := hi
          unfold isHigh at i2
          rw [decide_eq_true_eq] at i2
          refine ⟨i1, ?_⟩
          rw [if_neg i2.1, if_pos i2.2, hψ, ← sub_fate c2 j2]
          exact ((t2 j).1 j1).2
        · rintro ⟨i1, i2⟩
          split_ifs at i2 with h1 h2
          · exact absurd i2.symm n1
          · have hi : i ∈ SC := (c3 i).2 ⟨i1, by unfold isHigh; rw [decide_eq_true_eq]; exact ⟨h1, h2⟩⟩
            obtain ⟨j, hj⟩ := List.mem_iff_getElem?.1 hi
            refine ⟨j, (t2 j).2 ⟨?_, ?_⟩, hj⟩
            · rw [c2.len]; exact (List.getElem?_eq_some_iff.1 hj).1
            · rw [sub_fate c2 hj]; exact (hψ _).1 i2
          · exact absurd i2.symm n2
      refine ⟨(A.updateNcurv, B.updateNcurv) :: parts, E, ?_, by simp [g2], ?_, ?_⟩
      · rw [List.zipIdx_cons, List.foldlM_cons, h0, hs]
        simp only [bind, Except.bind]
        rw [g1]
        simp
      · intro k p hk
        match k with
        | 0 =>
          simp only [List.getElem?_cons_zero, Option.some.injEq] at hk
          subst hk
          refine ⟨⟨SA, sub_ncurv a2, fun i => ?_⟩, ⟨SB, sub_ncurv b2, fun i => ?_⟩⟩
          · rw [a3, hf]
            unfold isLow
            by_cases h : AllLow (fun x y => f x y q) (M.el i)
            · simp [h]
            · by_cases h' : AllHigh (fun x y => f x y q) (M.el i)
              · cases hh : fate (applied fs ps) (M.el i) <;> simp [h, h', Fate.succ]
              · simp [h, h']
          · rw [b3, hf]
            unfold isMid
            by_cases h : AllLow (fun x y => f x y q) (M.el i)
            · simp [h]
            · by_cases h' : AllHigh (fun x y => f x y q) (M.el i)
              · cases hh : fate (applied fs ps) (M.el i) <;> simp [h, h', Fate.succ]
              · simp [h, h']
        | k + 1 =>
          simp only [List.getElem?_cons_succ] at hk
          obtain ⟨x1, y1⟩ := g3 k p hk
          exact ⟨later (.inner k) (.inner (k + 1)) (fun χ => by cases χ <;> simp [Fate.succ]) (by simp) (by simp) _ x1,
            later (.mid k) (.mid (k + 1)) (fun χ => by cases χ <;> simp [Fate.succ]) (by simp) (by simp) _ y1⟩
      · exact later .outer .outer (fun χ => by cases χ <;> simp [Fate.succ]) (by simp) (by simp) _ ⟨SE, g4, g5⟩

end Pymech
