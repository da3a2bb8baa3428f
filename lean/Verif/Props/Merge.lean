import Verif.Lemmas.Merge
import Verif.Props.Conn
import Verif.Mesh.Internal
import Verif.Props.Check

/-!
# C39–C42 `merge`
-/

set_option linter.unusedSectionVars false

namespace Pymech

open Spec Classical

variable {F : Type} [Field F] [LinearOrder F] [IsStrictOrderedRing F] [FloorRing F]

/-! ## The concatenated mesh -/

/-- Face `y` of the second mesh in the numbering of the merged mesh, where `n` elements come first. -/
def Spec.up (n : Nat) (y : Face) : Face := (n + y.1, y.2)

theorem append_length (A B : HexaData F) : (A.append B).elem.length = A.elem.length + B.elem.length := by
  simp [HexaData.append, offset_length]

theorem append_el_left (A B : HexaData F) (e : Nat) (he : e < A.elem.length) : (A.append B).el e = A.el e := by
  rw [HexaData.el_eq_getElem _ e (by rw [append_length]; omega), A.el_eq_getElem e he]
  simp [HexaData.append, List.getElem_append_left, he]

theorem append_el_right (A B : HexaData F) (e : Nat) (he : e < B.elem.length) :
    (A.append B).el (A.elem.length + e) = { B.el e with
      bcs := fun b f => if b < B.nbc ∧ f < 2 * B.ndim then shifted (A.nel : Int) 0 (0 ≤ e) (B.bc e b f) else B.bc e b f } := by
  rw [← offset_el B A.nel 0 e he, HexaData.el_eq_getElem _ _ (by rw [append_length]; omega),
    HexaData.el_eq_getElem _ e (by rw [offset_length]; exact he)]
  simp [HexaData.append]

theorem append_bc_left (A B : HexaData F) (e b f : Nat) (he : e < A.elem.length) : (A.append B).bc e b f = A.bc e b f := by
  unfold HexaData.bc; rw [append_el_left A B e he]

theorem append_bc_right (A B : HexaData F) (e b f : Nat) (he : e < B.elem.length) (hb : b < B.nbc) (hf : f < 2 * B.ndim) :
    (A.append B).bc (A.elem.length + e) b f = shifted (A.nel : Int) 0 (0 ≤ e) (B.bc e b f) := by
  conv_lhs => unfold HexaData.bc
  rw [append_el_right A B e he]
  simp [hb, hf]

theorem shifted_pointsTo (A B : HexaData F) (hA : A.nel = A.elem.length) (e b f : Nat) (he : e < B.elem.length) (hb : b < B.nbc)
    (hf : f < 2 * B.ndim) (y : Face) (hl : IsLink (B.bc e b f)) (hp : PointsTo (B.bc e b f) y) :
    PointsTo ((A.append B).bc (A.elem.length + e) b f) (up A.elem.length y) := by
  have h := (offset_connectivity_link B A.nel 0 e b f he hb hf y hl hp).1 (by omega) (A.elem.length + y.1) (by push_cast; omega)
  have : (B.offsetConnectivity (A.nel : Int) 0).bc e b f = (A.append B).bc (A.elem.length + e) b f := by
    rw [append_bc_right A B e b f he hb hf]
    conv_lhs => unfold HexaData.bc
    rw [offset_el B A.nel 0 e he]
    simp [hb, hf]
  rw [this] at h
  exact h

theorem append_typ_right (A B : HexaData F) (e b f : Nat) (he : e < B.elem.length) (hb : b < B.nbc) (hf : f < 2 * B.ndim) :
    ((A.append B).bc (A.elem.length + e) b f).typ = (B.bc e b f).typ := by
  rw [append_bc_right A B e b f he hb hf]; rfl

/-- A face of the concatenation belongs to the first or to the second mesh. -/
theorem face_cases {n m : Nat} {x : Face} (h : x.1 < n + m) : x.1 < n ∨ ∃ y : Face, y.1 < m ∧ x = up n y := by
  by_cases hx : x.1 < n
  · exact Or.inl hx
  · exact Or.inr ⟨(x.1 - n, x.2), by simp only; omega, by unfold up; apply Prod.ext <;> simp only; omega⟩

theorem append_valid (A B : HexaData F) (hA : WF A) (hd : A.ndim = B.ndim) (hn : A.nbc = B.nbc)
    (C : Face → Face → Prop) (vA : Valid A C)
    (vB : Valid B fun x y => C (up A.elem.length x) (up A.elem.length y)) : Valid (A.append B) C := by
  intro b hb
  change b < A.nbc at hb
  rw [append_length]
  change Mutual _ (2 * A.ndim) _ _
  intro x hx hx2 hl
  rcases face_cases hx with hx | ⟨y, hy, rfl⟩
  · simp only [append_bc_left A B x.1 b x.2 hx] at hl ⊢
    obtain ⟨z, z1, z2, h1, h2, h3, h4⟩ := vA b hb x hx hx2 hl
    exact ⟨z, by omega, z2, h1, by rw [append_bc_left A B z.1 b z.2 z1]; exact h2,
      by rw [append_bc_left A B z.1 b z.2 z1]; exact h3, h4⟩
  · simp only [up] at hl hx2 ⊢
    have ty := append_typ_right A B y.1 b y.2 hy (hn ▸ hb) (hd ▸ hx2)
    have hl' : IsLink (B.bc y.1 b y.2) := by unfold IsLink at hl ⊢; rw [← ty]; exact hl
    obtain ⟨z, z1, z2, h1, h2, h3, h4⟩ := vB b (hn ▸ hb) y hy (hd ▸ hx2) hl'
    have hlz : IsLink (B.bc z.1 b z.2) := by unfold IsLink at hl' ⊢; rw [h2]; exact hl'
    refine ⟨up A.elem.length z, by simp only [up]; omega, by simp only [up]; omega,
      shifted_pointsTo A B hA.nel y.1 b y.2 hy (hn ▸ hb) (hd ▸ hx2) z hl' h1, ?_, ?_, ?_⟩
    · simp only [up]
      rw [append_typ_right A B z.1 b z.2 z1 (hn ▸ hb) z2, ty]; exact h2
    · exact shifted_pointsTo A B hA.nel z.1 b z.2 z1 (hn ▸ hb) z2 y hlz h3
    · rw [ty]; exact h4

theorem append_uniform (A B : HexaData F) (hA : WF A) (hd : A.ndim = B.ndim) (hn : A.nbc = B.nbc)
    {CB : Face → Face → Prop} (vB : Valid B CB)
    (uA : Uniform A) (uB : Uniform B) (hpos : 0 < A.nbc) : Uniform (A.append B) := by
  intro b hb x hx hx2
  change b < A.nbc at hb
  change x.2 < 2 * A.ndim at hx2
  rw [append_length] at hx
  rcases face_cases hx with hx | ⟨y, hy, rfl⟩
  · rw [append_bc_left A B x.1 b x.2 hx, append_bc_left A B x.1 0 x.2 hx]
    exact uA b hb x hx hx2
  · simp only [up] at hx2 ⊢
    obtain ⟨h1, h2, h3⟩ := uB b (hn ▸ hb) y hy (hd ▸ hx2)
    rw [append_typ_right A B y.1 b y.2 hy (hn ▸ hb) (hd ▸ hx2), append_typ_right A B y.1 0 y.2 hy (hn ▸ hpos) (hd ▸ hx2)]
    refine ⟨h1, h2, fun hl z hz => ?_⟩
    have hl' : IsLink (B.bc y.1 0 y.2) := by
      unfold IsLink at hl ⊢
      rw [append_typ_right A B y.1 0 y.2 hy (hn ▸ hpos) (hd ▸ hx2)] at hl; exact hl
    have hlb : IsLink (B.bc y.1 b y.2) := by
      rcases hl' with h | h
      · exact Or.inl (h1.2 h)
      · exact Or.inr (h2.2 h)
    obtain ⟨w, _, _, hw, _⟩ := vB 0 (hn ▸ hpos) y hy (hd ▸ hx2) hl'
    have e1 := shifted_pointsTo A B hA.nel y.1 0 y.2 hy (hn ▸ hpos) (hd ▸ hx2) w hl' hw
    rw [pointsTo_unique hz e1]
    exact shifted_pointsTo A B hA.nel y.1 b y.2 hy (hn ▸ hb) (hd ▸ hx2) w hlb (h3 hl' w hw)

theorem append_noself (A B : HexaData F) (hA : WF A) (hd : A.ndim = B.ndim) (hn : A.nbc = B.nbc)
    {CB : Face → Face → Prop} (vB : Valid B CB)
    (uA : NoSelf A) (uB : NoSelf B) : NoSelf (A.append B) := by
  intro b hb x hx hx2
  change b < A.nbc at hb
  change x.2 < 2 * A.ndim at hx2
  rw [append_length] at hx
  rcases face_cases hx with hx | ⟨y, hy, rfl⟩
  · rw [append_bc_left A B x.1 b x.2 hx]
    exact uA b hb x hx hx2
  · simp only [up] at hx2 ⊢
    rw [append_typ_right A B y.1 b y.2 hy (hn ▸ hb) (hd ▸ hx2)]
    intro ht hself
    obtain ⟨w, _, _, hw, _⟩ := vB b (hn ▸ hb) y hy (hd ▸ hx2) (Or.inr ht)
    have e1 := shifted_pointsTo A B hA.nel y.1 b y.2 hy (hn ▸ hb) (hd ▸ hx2) w (Or.inr ht) hw
    have e2 := pointsTo_unique hself e1
    have : w = y := by
      simp only [up, Prod.mk.injEq] at e2
      apply Prod.ext <;> omega
    rw [this] at hw
    exact uB b (hn ▸ hb) y hy (hd ▸ hx2) ht hw

/-! ## C39 -/

theorem mergePair_frame (M M' : HexaData F) (nbc : Nat) (bc0 bc1 : Name) (e0 f0 e1 f1 : Nat)
    (h : M.mergePair nbc bc0 bc1 e0 f0 e1 f1 = .ok M') : Frame M M' := by
  have hc : ∀ M : HexaData F, Frame M ((List.range nbc).foldl (fun M ibc => M.connect ibc e0 f0 e1 f1) M) := fun M =>
    Frame.foldl (fun M k => (Frame.modBC _ _ _ _ _).trans (Frame.modBC _ _ _ _ _)) _ _
  have hr : ∀ (M : HexaData F) (a b c d : Int) (p q r s : Nat),
      Frame M ((List.range nbc).foldl (fun M ibc => M.relink ibc a b c d p q r s) M) := fun M a b c d p q r s =>
    Frame.foldl (fun M k => (Frame.modBC _ _ _ _ _).trans (Frame.modBC _ _ _ _ _)) _ _
  unfold HexaData.mergePair at h
  split_ifs at h
  · simp only [bind, Except.bind] at h
    split at h
    · cases h
    · split at h
      · cases h
      · split at h
        · cases h
        · split at h
          · cases h
          · cases h
            exact (hr _ _ _ _ _ _ _ _ _).trans (hc _)
  · cases h
    exact hc M

theorem foldlM_frame {α : Type} {f : HexaData F × Nat → α → Py (HexaData F × Nat)}
    (hf : ∀ s a s', f s a = .ok s' → Frame s.1 s'.1) (l : List α) (s s' : HexaData F × Nat)
    (h : l.foldlM f s = .ok s') : Frame s.1 s'.1 := by
  induction l generalizing s with
  | nil => cases h; exact Frame.refl _
  | cons a l ih =>
    simp only [List.foldlM_cons] at h
    cases ha : f s a with
    | error e => rw [ha] at h; cases h
    | ok t => rw [ha] at h; exact (hf s a t ha).trans (ih t h)

theorem mergeInner_frame (touch : Nat → Nat → Nat → Nat → Py Bool) (nbc : Nat) (ie : Bool) (e0 f0 : Nat) (bc0 : Name)
    (s : HexaData F × Nat) (t : Nat × Nat) (s' : HexaData F × Nat)
    (h : mergeInner touch nbc ie e0 f0 bc0 s t = .ok s') : Frame s.1 s'.1 := by
  unfold mergeInner at h
  simp only [bind, Except.bind] at h
  split at h
  · split at h
    · cases h
    · split at h
      · split at h
        · cases h
        · next M hM => cases h; exact mergePair_frame _ _ _ _ _ _ _ _ _ hM
      · cases h; exact Frame.refl _
  · cases h; exact Frame.refl _

theorem mergeWith_frame (A B : HexaData F) (touch : Nat → Nat → Nat → Nat → Py Bool) (ie ia : Bool) (M : HexaData F) (n : Nat)
    (h : A.mergeWith B touch ie ia = .ok (M, n)) : Frame (A.append B) M := by
  unfold HexaData.mergeWith at h
  simp only at h
  split_ifs at h
  · cases h; exact Frame.refl _
  · refine foldlM_frame ?_ _ _ _ h
    intro s a s' hs
    unfold mergeOuter at hs
    simp only at hs
    split_ifs at hs
    · exact foldlM_frame (fun s a s' h => mergeInner_frame _ _ _ _ _ _ _ _ _ h) _ _ _ hs
    · cases hs; exact Frame.refl _

/-- **C39.** Whenever `a.merge(b)` succeeds — with any tolerance and flags, for any meshes — the elements are those of
`a` followed by those of `b`, unchanged except for their boundary conditions; `nel` and `ncurv` are the sums; `elmap`
is extended by the shifted map of `b`; all other metadata are those of `a`. -/
theorem merge_concat (A B : HexaData F) (tol : F) (ie ia : Bool) (M : HexaData F) (n : Nat)
    (h : A.merge B tol ie ia = .ok (M, n)) :
    M = { A with nel := A.nel + B.nel, ncurv := A.ncurv + B.ncurv, elmap := A.elmap ++ B.elmap.map (· + (A.nel : Int)),
                 elem := M.elem } ∧
    M.elem.length = A.elem.length + B.elem.length ∧
    (∀ e < A.elem.length, M.el e = { A.el e with bcs := (M.el e).bcs }) ∧
    (∀ e < B.elem.length, M.el (A.elem.length + e) = { B.el e with bcs := (M.el (A.elem.length + e)).bcs }) := by
  have hF : Frame (A.append B) M := by
    unfold HexaData.merge at h
    split_ifs at h
    exact mergeWith_frame A B _ ie ia M n h
  refine ⟨hF.hdr, hF.len.trans (append_length A B), fun e he => ?_, fun e he => ?_⟩
  · have := hF.el e (by rw [append_length]; omega)
    rw [append_el_left A B e he] at this
    exact this
  · have := hF.el (A.elem.length + e) (by rw [append_length]; omega)
    rw [append_el_right A B e he] at this
    exact this

/-- Two periodic channels of 2×2 elements side by side: two pairs of faces are connected. -/
example : (match Samples.channel.merge (Samples.box 2 2 2 nP nP Samples.nW Samples.nW) (1 / 100) true false with
    | .ok r => (r.1.nel, r.2) | .error _ => (0, 0)) = (8, 2) := by decide +kernel

/-- **C39.** The element map of the result is a permutation of `1..nel` if those of the two meshes were. -/
theorem merge_elmap (A B : HexaData F) (tol : F) (ie ia : Bool) (M : HexaData F) (n : Nat)
    (h : A.merge B tol ie ia = .ok (M, n)) (hA : PermMap A.nel A.elmap) (hB : PermMap B.nel B.elmap) :
    PermMap M.nel M.elmap := by
  obtain ⟨hM, _⟩ := merge_concat A B tol ie ia M n h
  rw [hM]
  unfold PermMap at hA hB ⊢
  simp only
  rw [List.range_add, List.map_append]
  refine hA.append ?_
  refine (hB.map _).trans ?_
  rw [List.map_map, List.map_map]
  refine List.Perm.of_eq (List.map_congr_left fun i _ => ?_)
  simp only [Function.comp]
  push_cast
  ring

example : PermMap Samples.channel.nel Samples.channel.elmap := by
  unfold PermMap
  have : Samples.channel.elmap = (List.range Samples.channel.nel).map fun i : Nat => (i : Int) + 1 := by decide +kernel
  rw [this]

/-- **C39.** Meshes of different dimension or polynomial order are rejected. (The checks are the first statements of
the method, so `self` has not been touched when it raises.) -/
theorem merge_rejects (A B : HexaData F) (tol : F) (ie ia : Bool) (h : A.ndim ≠ B.ndim ∨ A.lr1.x ≠ B.lr1.x) :
    A.merge B tol ie ia = .error .valueError := by
  unfold HexaData.merge
  rcases h with h | h
  · rw [if_pos h]
  · split_ifs <;> rfl

example : Samples.channel.ndim ≠ ({ Samples.channel with ndim := 3 } : HexaData ℚ).ndim := by decide +kernel

/-! ## C40–C42 -/

namespace Spec

/-- Faces considered by `merge`: those without internal connection, and, with `ignore_empty`, those with a condition. -/
def Candidate (ie : Bool) (r : BC F) : Prop := r.typ ≠ nE ∧ ¬ (ie = true ∧ r.typ = [])

/-- `y` (a face of `B`) and `x` (a face of `A`) are candidates that touch. -/
def Meets (A B : HexaData F) (ie : Bool) (Touch : Face → Face → Prop) (y x : Face) : Prop :=
  y.1 < B.elem.length ∧ y.2 < 2 * B.ndim ∧ x.1 < A.elem.length ∧ x.2 < 2 * A.ndim ∧
    Candidate ie (B.bc y.1 0 y.2) ∧ Candidate ie (A.bc x.1 0 x.2) ∧ Touch y x

/-- The assumptions on two meshes under which `merge` is expected to work: consistent metadata, valid connectivity with
the same links in all fields and no face periodic to itself; each face meets at most one face of the other mesh; a
periodic face only meets periodic faces. -/
structure Mergeable (A B : HexaData F) (ie : Bool) (Touch : Face → Face → Prop) (C : Face → Face → Prop) : Prop where
  wfA : WF A
  wfB : WF B
  dim : A.ndim = B.ndim
  nbc : A.nbc = B.nbc
  pos : 0 < A.nbc
  validA : Valid A C
  validB : Valid B fun x y => C (up A.elem.length x) (up A.elem.length y)
  uniA : Uniform A
  uniB : Uniform B
  selfA : NoSelf A
  selfB : NoSelf B
  oneA : ∀ y x x', Meets A B ie Touch y x → Meets A B ie Touch y x' → x = x'
  oneB : ∀ y y' x, Meets A B ie Touch y x → Meets A B ie Touch y' x → y = y'
  per : ∀ y x, Meets A B ie Touch y x → ((B.bc y.1 0 y.2).typ = nP ↔ (A.bc x.1 0 x.2).typ = nP)
  near : ∀ y x, Meets A B ie Touch y x → C (up A.elem.length y) x ∧ C x (up A.elem.length y)

end Spec

/-- The faces of the elements that `merge` compares: `B` in merged numbering against `A`. -/
def Spec.TouchTol (A B : HexaData F) (tol : F) (y x : Face) : Prop := Near (A.append B) tol (up A.elem.length y) x

/-! ### Boolean tests of the hypotheses, for the examples -/

namespace Samples

/-- Boolean form of `Mergeable` for a Boolean touch relation. -/
def mergeableB (A B : HexaData F) (ie : Bool) (touchB : Face → Face → Bool) : Bool :=
  let cand (r : BC F) : Bool := decide (r.typ ≠ nE) && !(ie && decide (r.typ = []))
  let L := ((allFaces B).flatMap fun y => (allFaces A).map fun x => (y, x)).filter fun p =>
    cand (B.bc p.1.1 0 p.1.2) && cand (A.bc p.2.1 0 p.2.2) && touchB p.1 p.2
  (wfB A && wfB B && decide (A.ndim = B.ndim ∧ A.nbc = B.nbc ∧ 0 < A.nbc)) &&
  (validB A && validB B && uniformB A && uniformB B && noSelfB A && noSelfB B) &&
  (L.all fun p => L.all fun q => decide (p.1 = q.1 ↔ p.2 = q.2)) &&
  (L.all fun p => decide ((B.bc p.1.1 0 p.1.2).typ = nP ↔ (A.bc p.2.1 0 p.2.2).typ = nP))

theorem mergeable_of_B (A B : HexaData F) (ie : Bool) (touchB : Face → Face → Bool) (Touch : Face → Face → Prop)
    (hT : ∀ y x : Face, y.1 < B.elem.length → y.2 < 2 * B.ndim → x.1 < A.elem.length → x.2 < 2 * A.ndim →
      Touch y x → touchB y x = true)
    (h : mergeableB A B ie touchB = true) : Mergeable A B ie Touch fun _ _ => True := by
  unfold mergeableB at h
  simp only [Bool.and_eq_true, decide_eq_true_eq] at h
  obtain ⟨⟨⟨⟨⟨w1, w2⟩, d1, d2, d3⟩, ⟨⟨⟨⟨v1, v2⟩, u1⟩, u2⟩, n1⟩, n2⟩, h1⟩, h2⟩ := h
  rw [List.all_eq_true] at h1 h2
  have key : ∀ y x, Meets A B ie Touch y x → (y, x) ∈
      ((allFaces B).flatMap fun y => (allFaces A).map fun x => (y, x)).filter fun p =>
        ((decide ((B.bc p.1.1 0 p.1.2).typ ≠ nE) && !(ie && decide ((B.bc p.1.1 0 p.1.2).typ = []))) &&
        (decide ((A.bc p.2.1 0 p.2.2).typ ≠ nE) && !(ie && decide ((A.bc p.2.1 0 p.2.2).typ = []))) && touchB p.1 p.2) := by
    intro y x hm
    obtain ⟨m1, m2, m3, m4, m5, m6, m7⟩ := hm
    have := hT y x m1 m2 m3 m4 m7
    unfold Candidate at m5 m6
    simp only [List.mem_filter, List.mem_flatMap, List.mem_map, allFaces, mem_prod2, List.mem_range]
    refine ⟨⟨y, ⟨m1, m2⟩, x, ⟨m3, m4⟩, rfl⟩, ?_⟩
    simp only [this, Bool.and_true, Bool.and_eq_true, decide_eq_true_eq, Bool.not_eq_true', Bool.and_eq_false_iff,
      decide_eq_false_iff_not]
    refine ⟨⟨m5.1, ?_⟩, m6.1, ?_⟩
    · by_cases hi : ie = true
      · exact Or.inr fun h => m5.2 ⟨hi, h⟩
      · exact Or.inl (by simpa using hi)
    · by_cases hi : ie = true
      · exact Or.inr fun h => m6.2 ⟨hi, h⟩
      · exact Or.inl (by simpa using hi)
  have key2 : ∀ y x y' x', Meets A B ie Touch y x → Meets A B ie Touch y' x' → (y = y' ↔ x = x') := by
    intro y x y' x' a b
    have q := h1 _ (key y x a)
    rw [List.all_eq_true] at q
    simpa using q _ (key y' x' b)
  refine ⟨wf_of_wfB _ w1, wf_of_wfB _ w2, d1, d2, d3, valid_of_validB _ v1, valid_of_validB _ v2,
    uniform_of_uniformB _ u1, uniform_of_uniformB _ u2, noSelf_of_noSelfB _ n1, noSelf_of_noSelfB _ n2, ?_, ?_, ?_,
    fun _ _ _ => ⟨trivial, trivial⟩⟩
  · intro y x x' a b; exact (key2 y x y x' a b).1 rfl
  · intro y y' x a b; exact (key2 y x y' x a b).2 rfl
  · intro y x a; simpa using h2 _ (key y x a)

/-- The test of `merge` on two meshes, as a Boolean. -/
def touchTolB (A B : HexaData F) (tol : F) (y x : Face) : Bool :=
  Py.getD (closeFaces ((A.append B).el (A.elem.length + y.1)) y.2 ((A.append B).el x.1) x.2 tol) false

theorem append_grid (A B : HexaData F) (gA : Grid A) (gB : Grid B) : Grid (A.append B) := by
  have len0 := append_length A B
  intro el hel
  obtain ⟨i, hi, rfl⟩ := List.getElem_of_mem hel
  rw [← HexaData.el_eq_getElem _ i hi]
  by_cases h : i < A.elem.length
  · rw [append_el_left A B i h]; exact gA _ (A.el_mem i h)
  · obtain ⟨j, rfl⟩ : ∃ j, i = A.elem.length + j := ⟨i - A.elem.length, by omega⟩
    have := gB _ (B.el_mem j (by rw [len0] at hi; omega))
    rw [append_el_right A B j (by rw [len0] at hi; omega)]
    exact this

theorem touchTol_B (A B : HexaData F) (tol : F) (gA : Grid A) (gB : Grid B) (dA : A.ndim ≤ 3) (dB : B.ndim ≤ 3)
    (y x : Face) (h1 : y.1 < B.elem.length) (h2 : y.2 < 2 * B.ndim) (h3 : x.1 < A.elem.length) (h4 : x.2 < 2 * A.ndim) :
    TouchTol A B tol y x ↔ touchTolB A B tol y x = true := by
  have len0 := append_length A B
  have := closeFaces_near (A.append B) (append_grid A B gA gB) tol (up A.elem.length y) x (by simp only [up, len0]; omega)
    (by simp only [up]; omega) (by rw [len0]; omega) (by omega)
  obtain ⟨⟨b, hb⟩, h⟩ := this
  unfold TouchTol touchTolB
  rw [← h]
  simp only [up] at hb
  rw [hb]
  unfold up
  simp only [hb, Py.getD, Except.ok.injEq]

theorem validNear_of_B (M : HexaData F) (tol : F) (hw : wfB M = true) (hg : gridB M = true) (hv : validB M = true)
    (hc : M.checkConnectivity tol = .ok true) : Valid M (Near M tol) := by
  intro b hb x hx hx2 hl
  obtain ⟨y, y1, y2, y3, y4, y5, _⟩ := valid_of_validB M hv b hb x hx hx2 hl
  refine ⟨y, y1, y2, y3, y4, y5, fun hE => ?_⟩
  obtain ⟨z, _, _, z3, _, _, z6⟩ := (check_connectivity_iff M (wf_of_wfB _ hw) (grid_of_gridB _ hg) tol).1 hc b hb x hx hx2 hl
  rw [pointsTo_unique y3 z3]
  exact z6 hE

/-- A second periodic channel, to the right of `channel`. -/
def channel2 : HexaData ℚ := box 2 2 2 nP nP nW nW

end Samples

/-- The pairs (face of `B` in merged numbering, face of `A`) that meet, in the order of the loops. -/
noncomputable def meetList (A B : HexaData F) (ie : Bool) (Touch : Face → Face → Prop) (l : List Face) : List (Face × Face) :=
  l.flatMap fun y => ((prod2 (List.range A.elem.length) (List.range (2 * A.ndim))).filter fun x =>
    decide (Meets A B ie Touch y x)).map fun x => (up A.elem.length y, x)

/-- What `merge` does, under the hypotheses `Mergeable`; main invariant. -/
theorem mergeWith_main (A B : HexaData F) (ie : Bool) (Touch C : Face → Face → Prop) (H : Mergeable A B ie Touch C)
    (touch : Nat → Nat → Nat → Nat → Py Bool)
    (hT : ∀ y x : Face, y.1 < B.elem.length → y.2 < 2 * B.ndim → x.1 < A.elem.length → x.2 < 2 * A.ndim →
      touch (A.elem.length + y.1) y.2 x.1 x.2 = .ok (decide (Touch y x))) :
    ∃ M, A.mergeWith B touch ie false =
        .ok (M, (meetList A B ie Touch (prod2 (List.range B.elem.length) (List.range (2 * A.ndim)))).length) ∧
      MInv (A.append B) C (meetList A B ie Touch (prod2 (List.range B.elem.length) (List.range (2 * A.ndim)))) M := by
  set inner := prod2 (List.range A.elem.length) (List.range (2 * A.ndim)) with hinner
  have nd_inner : inner.Nodup := nodup_prod2 List.nodup_range List.nodup_range
  set outer := prod2 (List.range B.elem.length) (List.range (2 * A.ndim)) with houter
  have nd_outer : outer.Nodup := nodup_prod2 List.nodup_range List.nodup_range
  have len0 := append_length A B
  have hnbc0 : (A.append B).nbc = A.nbc := rfl
  have hdim0 : (A.append B).ndim = A.ndim := rfl
  have hd6 : 2 * (A.append B).ndim ≤ 6 := by rw [hdim0]; rcases H.wfA.dim with h | h <;> omega
  -- faces of the concatenation
  have typR : ∀ y : Face, y.1 < B.elem.length → y.2 < 2 * A.ndim →
      ((A.append B).bc (A.elem.length + y.1) 0 y.2).typ = (B.bc y.1 0 y.2).typ := fun y h1 h2 =>
    append_typ_right A B y.1 0 y.2 h1 (H.nbc ▸ H.pos) (H.dim ▸ h2)
  have typL : ∀ x : Face, x.1 < A.elem.length → ((A.append B).bc x.1 0 x.2).typ = (A.bc x.1 0 x.2).typ := fun x h1 => by
    rw [append_bc_left A B x.1 0 x.2 h1]
  -- pairs in lists meet
  have inMeet : ∀ (l : List Face) (p : Face × Face), p ∈ meetList A B ie Touch l →
      ∃ y ∈ l, p.1 = up A.elem.length y ∧ Meets A B ie Touch y p.2 := by
    intro l p hp
    unfold meetList at hp
    rw [List.mem_flatMap] at hp
    obtain ⟨y, hy, hp⟩ := hp
    rw [List.mem_map] at hp
    obtain ⟨x, hx, rfl⟩ := hp
    rw [List.mem_filter] at hx
    exact ⟨y, hy, rfl, by simpa using hx.2⟩
  have up_inj : ∀ y y' : Face, up A.elem.length y = up A.elem.length y' → y = y' := by
    intro y y' h
    simp only [up, Prod.mk.injEq] at h
    apply Prod.ext <;> omega
  have inner_step : ∀ (p : List Face) (y : Face) (r : List Face), p ++ y :: r = outer →
      Candidate ie (B.bc y.1 0 y.2) → ∀ (q : List Face) (x : Face) (r' : List Face) (s : HexaData F × Nat), q ++ x :: r' = inner →
      (MInv (A.append B) C (meetList A B ie Touch p ++ (q.filter fun x => decide (Meets A B ie Touch y x)).map fun x => (up A.elem.length y, x)) s.1 ∧
        s.2 = (meetList A B ie Touch p ++ (q.filter fun x => decide (Meets A B ie Touch y x)).map fun x => (up A.elem.length y, x)).length) →
      ∃ s', mergeInner touch A.nbc ie (A.elem.length + y.1) y.2 (B.bc y.1 0 y.2).typ s x = .ok s' ∧
        (MInv (A.append B) C (meetList A B ie Touch p ++ ((q ++ [x]).filter fun x => decide (Meets A B ie Touch y x)).map fun x => (up A.elem.length y, x)) s'.1 ∧
        s'.2 = (meetList A B ie Touch p ++ ((q ++ [x]).filter fun x => decide (Meets A B ie Touch y x)).map fun x => (up A.elem.length y, x)).length) := by
    intro p y r hp hcand q x r' s hq ⟨I, hn⟩
    have hy : y ∈ outer := by rw [← hp]; simp
    rw [houter, mem_prod2, List.mem_range, List.mem_range] at hy
    have hx : x ∈ inner := by rw [← hq]; simp
    rw [hinner, mem_prod2, List.mem_range, List.mem_range] at hx
    have hyp : y ∉ p := by
      intro h
      rw [← hp, List.nodup_append] at nd_outer
      exact nd_outer.2.2 y h y (by simp) rfl
    have hxq : x ∉ q := by
      intro h
      rw [← hq, List.nodup_append] at nd_inner
      exact nd_inner.2.2 x h x (by simp) rfl
    set hs := meetList A B ie Touch p ++ (q.filter fun x => decide (Meets A B ie Touch y x)).map fun x => (up A.elem.length y, x) with hhs
    -- what is in the list of handled pairs
    have hmem : ∀ pr ∈ hs, ∃ y', pr.1 = up A.elem.length y' ∧ Meets A B ie Touch y' pr.2 ∧ ((y' ∈ p) ∨ (y' = y ∧ pr.2 ∈ q)) := by
      intro pr hpr
      rw [hhs, List.mem_append] at hpr
      rcases hpr with hpr | hpr
      · obtain ⟨y', h1, h2, h3⟩ := inMeet p pr hpr
        exact ⟨y', h2, h3, Or.inl h1⟩
      · rw [List.mem_map] at hpr
        obtain ⟨x', hx', rfl⟩ := hpr
        rw [List.mem_filter] at hx'
        exact ⟨y, rfl, by simpa using hx'.2, Or.inr ⟨rfl, hx'.1⟩⟩
    -- lower faces are not upper faces
    have low_ne : ∀ x' : Face, x'.1 < A.elem.length → ∀ y' : Face, x' ≠ up A.elem.length y' := by
      intro x' h y' e
      have := congrArg Prod.fst e
      simp only [up] at this
      omega
    -- current type of x
    have tx := I.typ 0 H.pos x (by rw [len0]; omega) hx.2
    rw [typL x hx.1] at tx
    by_cases hh : ∃ w, (x, w) ∈ hs ∨ (w, x) ∈ hs
    · -- x has been linked before
      rw [if_pos hh] at tx
      have hnm : ¬ Meets A B ie Touch y x := by
        intro hm
        obtain ⟨w, hw | hw⟩ := hh
        · obtain ⟨y', h1, _, _⟩ := hmem _ hw
          exact low_ne x hx.1 y' h1
        · obtain ⟨y', _, h2, h3⟩ := hmem _ hw
          have : y' = y := H.oneB y' y x h2 hm
          rcases h3 with h3 | h3
          · exact hyp (this ▸ h3)
          · exact hxq h3.2
      refine ⟨s, ?_, ?_⟩
      · unfold mergeInner
        simp only [tx]
        rw [if_neg (by simp)]
        rfl
      · rw [List.filter_append, List.filter_singleton]
        simp only [hnm, decide_false, cond_false, List.append_nil]
        exact ⟨I, hn⟩
    · rw [if_neg hh] at tx
      by_cases hcx : Candidate ie (A.bc x.1 0 x.2)
      swap
      · have hnm : ¬ Meets A B ie Touch y x := fun hm => hcx hm.2.2.2.2.2.1
        refine ⟨s, ?_, ?_⟩
        · unfold mergeInner
          simp only [tx]
          rw [if_neg (by unfold Candidate at hcx; exact hcx)]
          rfl
        · rw [List.filter_append, List.filter_singleton]
          simp only [hnm, decide_false, cond_false, List.append_nil]
          exact ⟨I, hn⟩
      have htouch := hT y x hy.1 (H.dim ▸ hy.2) hx.1 hx.2
      by_cases ht : Touch y x
      swap
      · have hnm : ¬ Meets A B ie Touch y x := fun hm => ht hm.2.2.2.2.2.2
        refine ⟨s, ?_, ?_⟩
        · unfold mergeInner
          simp only [tx]
          rw [if_pos (by unfold Candidate at hcx; exact hcx), htouch]
          simp [ht, bind, Except.bind]
          rfl
        · rw [List.filter_append, List.filter_singleton]
          simp only [hnm, decide_false, cond_false, List.append_nil]
          exact ⟨I, hn⟩
      -- the faces are linked
      have hm : Meets A B ie Touch y x := ⟨hy.1, H.dim ▸ hy.2, hx.1, hx.2, hcand, hcx, ht⟩
      have u0 : ¬ ∃ w, (up A.elem.length y, w) ∈ hs ∨ (w, up A.elem.length y) ∈ hs := by
        rintro ⟨w, hw | hw⟩
        · obtain ⟨y', h1, h2, h3⟩ := hmem _ hw
          have e := up_inj _ _ h1
          subst e
          have : w = x := H.oneA y w x h2 hm
          subst this
          rcases h3 with h3 | h3
          · exact hyp h3
          · exact hxq h3.2
        · obtain ⟨y', _, h2, _⟩ := hmem _ hw
          have := h2.2.2.1
          simp only [up] at this
          omega
      obtain ⟨M', hM', I'⟩ := I.step (up A.elem.length y) x (low_ne x hx.1 y).symm H.pos hd6
        ⟨by rw [len0]; simp only [up]; omega, hy.2⟩ ⟨by rw [len0]; omega, hx.2⟩ u0 hh
        (B.bc y.1 0 y.2).typ (A.bc x.1 0 x.2).typ (typR y hy.1 hy.2) (typL x hx.1) hcand.1 hcx.1 (H.per y x hm)
        (H.near y x hm).1 (H.near y x hm).2
      have e : meetList A B ie Touch p ++ ((q ++ [x]).filter fun x => decide (Meets A B ie Touch y x)).map (fun x => (up A.elem.length y, x))
          = hs ++ [(up A.elem.length y, x)] := by
        rw [List.filter_append, List.filter_singleton, hhs]
        simp [hm]
      rw [e]
      refine ⟨(M', s.2 + 1), ?_, I', by simp [hn]⟩
      unfold mergeInner
      simp only [tx]
      rw [if_pos (by unfold Candidate at hcx; exact hcx), htouch]
      have hM'' : s.1.mergePair A.nbc (B.bc y.1 0 y.2).typ (A.bc x.1 0 x.2).typ (A.elem.length + y.1) y.2 x.1 x.2 = .ok M' := hM'
      simp [ht, bind, Except.bind, hM'']
      rfl
  -- the outer loop
  have outer_step : ∀ (p : List Face) (y : Face) (r : List Face) (s : HexaData F × Nat), p ++ y :: r = outer →
      (MInv (A.append B) C (meetList A B ie Touch p) s.1 ∧ s.2 = (meetList A B ie Touch p).length) →
      ∃ s', mergeOuter touch A.nbc ie A.elem.length (2 * A.ndim) s (A.elem.length + y.1, y.2) = .ok s' ∧
        (MInv (A.append B) C (meetList A B ie Touch (p ++ [y])) s'.1 ∧ s'.2 = (meetList A B ie Touch (p ++ [y])).length) := by
    intro p y r s hp ⟨I, hn⟩
    have hy : y ∈ outer := by rw [← hp]; simp
    rw [houter, mem_prod2, List.mem_range, List.mem_range] at hy
    have hyp : y ∉ p := by
      intro h
      rw [← hp, List.nodup_append] at nd_outer
      exact nd_outer.2.2 y h y (by simp) rfl
    have e : meetList A B ie Touch (p ++ [y]) = meetList A B ie Touch p ++
        (inner.filter fun x => decide (Meets A B ie Touch y x)).map fun x => (up A.elem.length y, x) := by
      unfold meetList
      rw [List.flatMap_append]
      simp [hinner]
    have ty := I.typ 0 H.pos (up A.elem.length y) (by rw [len0]; simp only [up]; omega) hy.2
    rw [if_neg] at ty
    swap
    · rintro ⟨w, hw | hw⟩
      · obtain ⟨y', h1, h2, _⟩ := inMeet p _ hw
        exact hyp (up_inj _ _ h2 ▸ h1)
      · obtain ⟨y', _, _, h3⟩ := inMeet p _ hw
        have := h3.2.2.1
        simp only [up] at this
        omega
    simp only [up] at ty
    rw [typR y hy.1 hy.2] at ty
    by_cases hc : Candidate ie (B.bc y.1 0 y.2)
    · obtain ⟨s', hs', hI'⟩ := foldlM_inv_pre (f := mergeInner touch A.nbc ie (A.elem.length + y.1) y.2 (B.bc y.1 0 y.2).typ)
        (fun q s => MInv (A.append B) C (meetList A B ie Touch p ++ (q.filter fun x => decide (Meets A B ie Touch y x)).map fun x => (up A.elem.length y, x)) s.1 ∧
        s.2 = (meetList A B ie Touch p ++ (q.filter fun x => decide (Meets A B ie Touch y x)).map fun x => (up A.elem.length y, x)).length)
        inner s (by simpa using ⟨I, hn⟩) (fun q x r' s hq h => inner_step p y r hp hc q x r' s hq h)
      refine ⟨s', ?_, by rw [e]; exact hI'⟩
      unfold mergeOuter
      simp only [ty]
      rw [if_pos (by unfold Candidate at hc; exact hc)]
      exact hs'
    · refine ⟨s, ?_, ?_⟩
      · unfold mergeOuter
        simp only [ty]
        rw [if_neg (by unfold Candidate at hc; exact hc)]
        rfl
      · rw [e]
        have : (inner.filter fun x => decide (Meets A B ie Touch y x)) = [] := by
          rw [List.filter_eq_nil_iff]
          intro x _
          simp only [decide_eq_true_eq]
          exact fun h => hc h.2.2.2.2.1
        rw [this]
        simpa using ⟨I, hn⟩
  obtain ⟨s', hs', I, hn⟩ := foldlM_inv_pre
    (f := fun s (y : Face) => mergeOuter touch A.nbc ie A.elem.length (2 * A.ndim) s (A.elem.length + y.1, y.2))
    (fun p s => MInv (A.append B) C (meetList A B ie Touch p) s.1 ∧ s.2 = (meetList A B ie Touch p).length)
    outer (A.append B, 0) ⟨⟨Frame.refl _, append_valid A B H.wfA H.dim H.nbc C H.validA H.validB,
      append_uniform A B H.wfA H.dim H.nbc H.validB H.uniA H.uniB H.pos,
      append_noself A B H.wfA H.dim H.nbc H.validB H.selfA H.selfB,
      fun b _ x _ _ => by simp [meetList], fun p hp => by simp [meetList] at hp, fun b _ x _ _ _ _ => rfl⟩, rfl⟩
    (fun p y r s hp h => outer_step p y r s hp h)
  refine ⟨s'.1, ?_, I⟩
  rw [← hn]
  unfold HexaData.mergeWith
  simp only
  have hmin : min A.nbc B.nbc = A.nbc := by rw [← H.nbc, min_self]
  rw [hmin, if_neg (by have := H.pos; simp; omega), H.wfA.nel, H.wfB.nel]
  have hlist : prod2 (List.range' A.elem.length B.elem.length) (List.range (2 * A.ndim))
      = outer.map fun y => (A.elem.length + y.1, y.2) := by
    rw [houter]
    unfold prod2
    rw [List.map_flatMap, List.range'_eq_map_range, List.flatMap_map]
    simp only [List.map_map]
    rfl
  rw [hlist, List.foldlM_map]
  exact hs'

/-- **C40.** If `a` and `b` are mergeable then `a.merge(b)` succeeds, whatever test decides that faces touch, and
* the merged mesh is validly connected (with any property `C` of internal faces that holds in `a`, in `b` and between touching faces),
* every pair of boundary faces that touch is now connected by `E` in all fields,
* every other face keeps its condition type, and its whole record if it is not periodic. -/
theorem merge_valid (A B : HexaData F) (ie : Bool) (Touch C : Face → Face → Prop) (H : Mergeable A B ie Touch C)
    (touch : Nat → Nat → Nat → Nat → Py Bool)
    (hT : ∀ y x : Face, y.1 < B.elem.length → y.2 < 2 * B.ndim → x.1 < A.elem.length → x.2 < 2 * A.ndim →
      touch (A.elem.length + y.1) y.2 x.1 x.2 = .ok (decide (Touch y x))) :
    ∃ M n, A.mergeWith B touch ie false = .ok (M, n) ∧ Valid M C ∧ Uniform M ∧ NoSelf M ∧
      (∀ y x, Meets A B ie Touch y x → ∀ b < A.nbc,
        (M.bc (A.elem.length + y.1) b y.2).typ = nE ∧ PointsTo (M.bc (A.elem.length + y.1) b y.2) x ∧
        (M.bc x.1 b x.2).typ = nE ∧ PointsTo (M.bc x.1 b x.2) (A.elem.length + y.1, y.2)) ∧
      (∀ x : Face, x.1 < A.elem.length → x.2 < 2 * A.ndim → (¬ ∃ y, Meets A B ie Touch y x) → ∀ b < A.nbc,
        (M.bc x.1 b x.2).typ = (A.bc x.1 b x.2).typ ∧
        ((A.bc x.1 b x.2).typ ≠ nP → M.bc x.1 b x.2 = A.bc x.1 b x.2)) ∧
      (∀ y : Face, y.1 < B.elem.length → y.2 < 2 * A.ndim → (¬ ∃ x, Meets A B ie Touch y x) → ∀ b < A.nbc,
        (M.bc (A.elem.length + y.1) b y.2).typ = (B.bc y.1 b y.2).typ ∧
        ((B.bc y.1 b y.2).typ ≠ nP →
          M.bc (A.elem.length + y.1) b y.2 = shifted (A.elem.length : Int) 0 True (B.bc y.1 b y.2))) := by
  obtain ⟨M, hM, I⟩ := mergeWith_main A B ie Touch C H touch hT
  set hs := meetList A B ie Touch (prod2 (List.range B.elem.length) (List.range (2 * A.ndim))) with hhs
  have len0 := append_length A B
  have hmem : ∀ (w x : Face), (w, x) ∈ hs ↔ ∃ y, w = up A.elem.length y ∧ Meets A B ie Touch y x := by
    intro w x
    rw [hhs]
    unfold meetList
    rw [List.mem_flatMap]
    constructor
    · rintro ⟨y, _, h⟩
      rw [List.mem_map] at h
      obtain ⟨x', hx', h⟩ := h
      rw [List.mem_filter] at hx'
      simp only [Prod.mk.injEq] at h
      exact ⟨y, h.1.symm, h.2 ▸ by simpa using hx'.2⟩
    · rintro ⟨y, rfl, hm⟩
      refine ⟨y, by simp; exact ⟨hm.1, H.dim ▸ hm.2.1⟩, ?_⟩
      rw [List.mem_map]
      refine ⟨x, ?_, rfl⟩
      rw [List.mem_filter]
      exact ⟨by simp; exact ⟨hm.2.2.1, hm.2.2.2.1⟩, by simpa using hm⟩
  refine ⟨M, _, hM, I.valid, I.uniform, I.noself, ?_, ?_, ?_⟩
  · intro y x hm b hb
    have hin : (up A.elem.length y, x) ∈ hs := (hmem _ _).2 ⟨y, rfl, hm⟩
    obtain ⟨l1, l2⟩ := I.linked _ hin b hb
    have t1 := I.typ b hb (up A.elem.length y) (by rw [len0]; simp only [up]; have := hm.1; omega)
      (by have := hm.2.1; rw [← H.dim] at this; exact this)
    rw [if_pos ⟨x, Or.inl hin⟩] at t1
    have t2 := I.typ b hb x (by rw [len0]; have := hm.2.2.1; omega) hm.2.2.2.1
    rw [if_pos ⟨_, Or.inr hin⟩] at t2
    exact ⟨t1, l1, t2, l2⟩
  · intro x hx hx2 hno b hb
    have hn : ¬ ∃ w, (x, w) ∈ hs ∨ (w, x) ∈ hs := by
      rintro ⟨w, h | h⟩
      · obtain ⟨y, h, _⟩ := (hmem _ _).1 h
        have := congrArg Prod.fst h
        simp only [up] at this
        omega
      · obtain ⟨y, _, h⟩ := (hmem _ _).1 h
        exact hno ⟨y, h⟩
    have t := I.typ b hb x (by rw [len0]; omega) hx2
    rw [if_neg hn, append_bc_left A B x.1 b x.2 hx] at t
    refine ⟨t, fun hP => ?_⟩
    have := I.other b hb x (by rw [len0]; omega) hx2 hn (by rw [append_bc_left A B x.1 b x.2 hx]; exact hP)
    rw [append_bc_left A B x.1 b x.2 hx] at this
    exact this
  · intro y hy hy2 hno b hb
    have hn : ¬ ∃ w, (up A.elem.length y, w) ∈ hs ∨ (w, up A.elem.length y) ∈ hs := by
      rintro ⟨w, h | h⟩
      · obtain ⟨y', h, hm⟩ := (hmem _ _).1 h
        have : y = y' := by
          simp only [up, Prod.mk.injEq] at h
          apply Prod.ext <;> omega
        exact hno ⟨w, this ▸ hm⟩
      · obtain ⟨y', _, h⟩ := (hmem _ _).1 h
        have := h.2.2.1
        simp only [up] at this
        omega
    have hrange : (up A.elem.length y).1 < (A.append B).elem.length := by rw [len0]; simp only [up]; omega
    have tB := append_typ_right A B y.1 b y.2 hy (H.nbc ▸ hb) (H.dim ▸ hy2)
    have t := I.typ b hb (up A.elem.length y) hrange hy2
    rw [if_neg hn] at t
    refine ⟨t.trans tB, fun hP => ?_⟩
    have := I.other b hb (up A.elem.length y) hrange hy2 hn (by simp only [up]; rw [tB]; exact hP)
    simp only [up] at this
    rw [this, append_bc_right A B y.1 b y.2 hy (H.nbc ▸ hb) (H.dim ▸ hy2), H.wfA.nel]
    unfold shifted
    simp

/-- The hypotheses hold for two periodic channels side by side. -/
example : Mergeable Samples.channel Samples.channel2 true (TouchTol Samples.channel Samples.channel2 (1 / 100))
    (fun _ _ => True) :=
  Samples.mergeable_of_B _ _ _ (Samples.touchTolB Samples.channel Samples.channel2 (1 / 100)) _
    (fun y x h1 h2 h3 h4 => (Samples.touchTol_B _ _ _ (Samples.grid_of_gridB _ (by decide +kernel))
      (Samples.grid_of_gridB _ (by decide +kernel)) (by decide +kernel) (by decide +kernel) y x h1 h2 h3 h4).1)
    (by decide +kernel)

theorem countP_meetList (A B : HexaData F) (ie : Bool) (Touch : Face → Face → Prop) (l : List Face) :
    (meetList A B ie Touch l).length =
      (l.flatMap fun y => (prod2 (List.range A.elem.length) (List.range (2 * A.ndim))).map fun x => (y, x)).countP
        fun p => decide (Meets A B ie Touch p.1 p.2) := by
  induction l with
  | nil => rfl
  | cons a l ih =>
    unfold meetList at ih ⊢
    rw [List.flatMap_cons, List.flatMap_cons, List.length_append, ih, List.countP_append, List.length_map,
      ← List.countP_eq_length_filter, List.countP_map]
    rfl

/-- **C42.** The number returned by `merge` is the number of pairs (face of `b`, face of `a`) of non-internal (and, with
`ignore_empty`, non-empty) faces that touch. -/
theorem merge_count (A B : HexaData F) (ie : Bool) (Touch C : Face → Face → Prop) (H : Mergeable A B ie Touch C)
    (touch : Nat → Nat → Nat → Nat → Py Bool)
    (hT : ∀ y x : Face, y.1 < B.elem.length → y.2 < 2 * B.ndim → x.1 < A.elem.length → x.2 < 2 * A.ndim →
      touch (A.elem.length + y.1) y.2 x.1 x.2 = .ok (decide (Touch y x))) :
    ∃ M, A.mergeWith B touch ie false = .ok (M,
      ((prod2 (List.range B.elem.length) (List.range (2 * A.ndim))).flatMap fun y =>
        (prod2 (List.range A.elem.length) (List.range (2 * A.ndim))).map fun x => (y, x)).countP
          fun p => decide (Meets A B ie Touch p.1 p.2)) := by
  obtain ⟨M, hM, _⟩ := mergeWith_main A B ie Touch C H touch hT
  refine ⟨M, ?_⟩
  rw [← countP_meetList]
  exact hM

/-- **C42.** With `ignore_all_bcs` nothing is connected: the count is zero and the mesh is the concatenation with the
links of `b` renumbered. -/
theorem merge_ignore_all (A B : HexaData F) (tol : F) (ie : Bool) (hd : A.ndim = B.ndim) (hl : A.lr1.x = B.lr1.x) :
    ∃ M, A.merge B tol ie true = .ok (M, 0) ∧ M.elem.length = A.elem.length + B.elem.length ∧
      (∀ e < A.elem.length, M.el e = A.el e) ∧
      (∀ e < B.elem.length, M.el (A.elem.length + e) = { B.el e with
        bcs := fun b f => if b < B.nbc ∧ f < 2 * B.ndim then shifted (A.nel : Int) 0 True (B.bc e b f) else B.bc e b f }) := by
  refine ⟨A.append B, ?_, append_length A B, fun e he => append_el_left A B e he, fun e he => ?_⟩
  · unfold HexaData.merge HexaData.mergeWith
    rw [if_neg (by simp [hd]), if_neg (by simp [hl])]
    simp
  · rw [append_el_right A B e he]
    simp [shifted]

/-! ## C41 -/

theorem near_mono {M : HexaData F} {t t' : F} (h0 : 0 ≤ t) (h : t ≤ t') {x y : Face} (hn : Near M t x y) : Near M t' x y := by
  obtain ⟨s0, s1, e0, e1, hd⟩ := hn
  refine ⟨s0, s1, e0, e1, ?_⟩
  rcases hd with ⟨_, hd⟩ | ⟨ht, _⟩
  · refine Or.inl ⟨h0.trans h, hd.trans ?_⟩
    have n0 := smallestEdgeSq_nonneg _ s0 e0
    have n1 := smallestEdgeSq_nonneg _ s1 e1
    exact mul_le_mul_of_nonneg_right (pow_le_pow_left₀ h0 h 2) (le_min n0 n1)
  · exact absurd h0 (not_le.2 ht)

theorem near_symm {M : HexaData F} {t : F} {x y : Face} (hn : Near M t x y) : Near M t y x := by
  obtain ⟨s0, s1, e0, e1, hd⟩ := hn
  refine ⟨s1, s0, e1, e0, ?_⟩
  simp only at hd ⊢
  rw [min_comm s1 s0]
  have e : ∀ a b : F, (a - b) ^ 2 = (b - a) ^ 2 := fun a b => by ring
  rw [e (faceMean (M.el x.1) x.2 0), e (faceMean (M.el x.1) x.2 1), e (faceMean (M.el x.1) x.2 2)]
  exact hd

/-- Nearness only depends on the positions. -/
theorem near_congr {M M' : HexaData F} {t : F} {x y x' y' : Face} (hx : (M.el x.1).pos = (M'.el x'.1).pos)
    (hy : (M.el y.1).pos = (M'.el y'.1).pos) (hfx : x.2 = x'.2) (hfy : y.2 = y'.2) :
    Near M t x y ↔ Near M' t x' y' := by
  unfold Near faceMean faceCoord Spec.corner Elem.smallestEdgeSq Elem.pt
  rw [hx, hy, hfx, hfy]

/-- **C41.** If `a` and `b` are mergeable at tolerance `tol`, and both are valid at a tolerance `tol' ≥ tol`, then the result
of `a.merge(b, tol)` passes `check_connectivity(tol')`. -/
theorem merge_check (A B : HexaData F) (tol tol' : F) (ht : 0 ≤ tol) (ht' : tol ≤ tol') (ie : Bool)
    (gA : Grid A) (gB : Grid B) (hl : A.lr1.x = B.lr1.x)
    (nearA : Valid A (Near A tol')) (nearB : Valid B (Near B tol'))
    (H : Mergeable A B ie (TouchTol A B tol) fun _ _ => True) :
    ∃ M n, A.merge B tol ie false = .ok (M, n) ∧ M.checkConnectivity tol' = .ok true := by
  have len0 := append_length A B
  have gAB : Grid (A.append B) := by
    intro el hel
    obtain ⟨i, hi, rfl⟩ := List.getElem_of_mem hel
    rw [← HexaData.el_eq_getElem _ i hi]
    by_cases h : i < A.elem.length
    · rw [append_el_left A B i h]; exact gA _ (A.el_mem i h)
    · obtain ⟨j, rfl⟩ : ∃ j, i = A.elem.length + j := ⟨i - A.elem.length, by omega⟩
      have := gB _ (B.el_mem j (by rw [len0] at hi; omega))
      rw [append_el_right A B j (by rw [len0] at hi; omega)]
      exact this
  have hd6 : 2 * A.ndim ≤ 6 := by rcases H.wfA.dim with h | h <;> omega
  have hT : ∀ y x : Face, y.1 < B.elem.length → y.2 < 2 * B.ndim → x.1 < A.elem.length → x.2 < 2 * A.ndim →
      closeFaces ((A.append B).el (A.elem.length + y.1)) y.2 ((A.append B).el x.1) x.2 tol
        = .ok (decide (TouchTol A B tol y x)) := by
    intro y x hy hy2 hx hx2
    rw [← H.dim] at hy2
    obtain ⟨⟨c, hc⟩, hiff⟩ := closeFaces_near (A.append B) gAB tol (up A.elem.length y) x
      (by rw [len0]; simp only [up]; omega) (by simp only [up]; omega) (by rw [len0]; omega) (by omega)
    simp only [up] at hc
    rw [hc]
    simp only [up, hc, Except.ok.injEq] at hiff
    unfold TouchTol
    by_cases hn : Near (A.append B) tol (up A.elem.length y) x
    · rw [decide_eq_true hn, hiff.2 hn]
    · rw [decide_eq_false hn]
      cases c
      · rfl
      · exact absurd (hiff.1 rfl) hn
  have H' : Mergeable A B ie (TouchTol A B tol) (Near (A.append B) tol') := by
    refine ⟨H.wfA, H.wfB, H.dim, H.nbc, H.pos, ?_, ?_, H.uniA, H.uniB, H.selfA, H.selfB, H.oneA, H.oneB, H.per, ?_⟩
    · intro b hb x hx hx2 hlk
      obtain ⟨y, h1, h2, h3, h4, h5, h6⟩ := nearA b hb x hx hx2 hlk
      refine ⟨y, h1, h2, h3, h4, h5, fun h => ?_⟩
      exact (near_congr (by rw [append_el_left A B x.1 hx]) (by rw [append_el_left A B y.1 h1]) rfl rfl).1 (h6 h)
    · intro b hb x hx hx2 hlk
      obtain ⟨y, h1, h2, h3, h4, h5, h6⟩ := nearB b hb x hx hx2 hlk
      refine ⟨y, h1, h2, h3, h4, h5, fun h => ?_⟩
      refine (near_congr (M := B) (M' := A.append B) (x := x) (y := y) (x' := up A.elem.length x) (y' := up A.elem.length y)
        ?_ ?_ rfl rfl).1 (h6 h)
      · simp only [up]; rw [append_el_right A B x.1 hx]
      · simp only [up]; rw [append_el_right A B y.1 h1]
    · intro y x hm
      have := near_mono ht ht' hm.2.2.2.2.2.2
      exact ⟨this, near_symm this⟩
  obtain ⟨M, hM, I⟩ := mergeWith_main A B ie _ _ H'
    (fun e0 f0 e1 f1 => closeFaces ((A.append B).el e0) f0 ((A.append B).el e1) f1 tol) hT
  refine ⟨M, (meetList A B ie (TouchTol A B tol) (prod2 (List.range B.elem.length) (List.range (2 * A.ndim)))).length, ?_, ?_⟩
  · unfold HexaData.merge
    rw [if_neg (by simp [H.dim]), if_neg (by simp [hl])]
    exact hM
  · have posM : ∀ e < (A.append B).elem.length, (M.el e).pos = ((A.append B).el e).pos := by
      intro e he
      rw [I.frame.el e he]
    have wM : WF M := by
      refine ⟨?_, ?_, ?_⟩
      · rw [I.frame.nel, I.frame.len, len0]
        change A.nel + B.nel = _
        rw [H.wfA.nel, H.wfB.nel]
      · intro el hel
        obtain ⟨i, hi, rfl⟩ := List.getElem_of_mem hel
        rw [← HexaData.el_eq_getElem _ i hi, I.frame.el i (I.frame.len ▸ hi), I.frame.nbc]
        have hi' : i < A.elem.length + B.elem.length := by rw [← len0, ← I.frame.len]; exact hi
        change ((A.append B).el i).rows = A.nbc
        by_cases h : i < A.elem.length
        · rw [append_el_left A B i h]; exact H.wfA.rows _ (A.el_mem i h)
        · obtain ⟨j, rfl⟩ : ∃ j, i = A.elem.length + j := ⟨i - A.elem.length, by omega⟩
          have := H.wfB.rows _ (B.el_mem j (by omega))
          rw [append_el_right A B j (by omega), H.nbc]
          exact this
      · rw [I.frame.ndim]; exact H.wfA.dim
    have gM : Grid M := by
      intro el hel
      obtain ⟨i, hi, rfl⟩ := List.getElem_of_mem hel
      rw [← HexaData.el_eq_getElem _ i hi, posM i (I.frame.len ▸ hi)]
      exact gAB _ (HexaData.el_mem _ i (I.frame.len ▸ hi))
    rw [check_connectivity_iff M wM gM]
    refine connected_of_valid M wM tol' ?_
    intro b hb x hx hx2 hlk
    obtain ⟨y, h1, h2, h3, h4, h5, h6⟩ := I.valid b hb x hx hx2 hlk
    refine ⟨y, h1, h2, h3, h4, h5, fun h => ?_⟩
    exact (near_congr (posM x.1 (I.frame.len ▸ hx)) (posM y.1 (I.frame.len ▸ h1)) rfl rfl).2 (h6 h)

/-- All hypotheses hold for two periodic channels side by side. -/
example : ∃ M n, Samples.channel.merge Samples.channel2 (1 / 100) true false = .ok (M, n) ∧
    M.checkConnectivity (1 / 10) = .ok true :=
  merge_check _ _ _ _ (by norm_num) (by norm_num) true (Samples.grid_of_gridB _ (by decide +kernel))
    (Samples.grid_of_gridB _ (by decide +kernel)) (by decide +kernel)
    (Samples.validNear_of_B _ _ (by decide +kernel) (by decide +kernel) (by decide +kernel) (by decide +kernel))
    (Samples.validNear_of_B _ _ (by decide +kernel) (by decide +kernel) (by decide +kernel) (by decide +kernel))
    (Samples.mergeable_of_B _ _ _ (Samples.touchTolB Samples.channel Samples.channel2 (1 / 100)) _
      (fun y x h1 h2 h3 h4 => (Samples.touchTol_B _ _ _ (Samples.grid_of_gridB _ (by decide +kernel))
        (Samples.grid_of_gridB _ (by decide +kernel)) (by decide +kernel) (by decide +kernel) y x h1 h2 h3 h4).1)
      (by decide +kernel))

end Pymech
