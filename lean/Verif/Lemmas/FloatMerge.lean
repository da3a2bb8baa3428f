import Verif.Core.FloatMerge
import Verif.Props.FloatNear
import Verif.Props.Generate
import Verif.Props.Merge

/-!
# `merge` of doubles and of the exact values of the doubles
-/

set_option autoImplicit false

namespace Pymech

open Spec Flt

/-- The mesh with the exact values of all doubles. -/
def HexaData.vals (M : HexaData F64) : HexaData ℚ :=
  ⟨M.ndim, M.nel, M.ncurv, M.nbc, M.var, M.lr1, M.time, M.istep, M.wdsz, M.endian, M.elem.map Elem.vals, M.elmap⟩

theorem blank_vals : (Elem.blank : Elem F64).vals = Elem.blank := by
  have h0 : (0 : F64).val = 0 := zeroF_val
  unfold Elem.blank Elem.new Elem.vals Arr.vals
  simp only [Arr.zeros, h0, zero_vals]

theorem vals_length (M : HexaData F64) : M.vals.elem.length = M.elem.length := by
  unfold HexaData.vals
  simp

theorem vals_el (M : HexaData F64) (i : Nat) : M.vals.el i = (M.el i).vals := by
  unfold HexaData.el HexaData.vals
  simp only [List.getD_eq_getElem?_getD, List.getElem?_map]
  cases M.elem[i]? with
  | none => exact blank_vals.symm
  | some el => rfl

theorem vals_bc (M : HexaData F64) (i b f : Nat) : M.vals.bc i b f = (M.bc i b f).vals := by
  unfold HexaData.bc
  rw [vals_el]
  rfl

theorem vals_modBC (M : HexaData F64) (i b f : Nat) (g : BC F64 → BC F64) (g' : BC ℚ → BC ℚ) (h : ∀ r, (g r).vals = g' r.vals) :
    (M.modBC i b f g).vals = M.vals.modBC i b f g' := by
  unfold HexaData.modBC HexaData.vals
  simp only [HexaData.mk.injEq, true_and, and_true]
  apply List.ext_getElem?
  intro k
  simp only [List.getElem?_map, List.getElem?_modify]
  cases M.elem[k]? with
  | none => rfl
  | some el =>
    by_cases hk : i = k
    · simp only [hk, if_true, Option.map_some]
      refine congrArg some ?_
      unfold Elem.modBC Elem.vals
      refine congrArg (Elem.mk _ _ _ _ _ _ _ _) ?_
      funext b' f'
      by_cases hb : b' = b ∧ f' = f
      · simp only [if_pos hb, h]
      · simp only [if_neg hb]
    · simp only [hk, if_false, Option.map_some]; rfl

theorem intCast_exact (n : Int) (h : |n| ≤ 2 ^ 53) : ((n : F64)).Finite ∧ ((n : F64)).val = n := by
  have e0 : ((n : F64)) = ofQ false (n : ℚ) := rfl
  have e1 : ((n.natAbs : Nat) : F64) = ofQ false ((n.natAbs : Nat) : ℚ) := rfl
  have hn : n.natAbs ≤ 2 ^ 53 := by
    have := Int.natCast_natAbs n
    have : ((n.natAbs : Nat) : Int) ≤ 2 ^ 53 := by rw [this]; exact h
    exact_mod_cast this
  obtain ⟨a, b⟩ := natCast_exact n.natAbs hn
  have hq : |(n : ℚ)| = ((n.natAbs : Nat) : ℚ) := by
    rw [← Int.cast_abs, ← Int.natCast_natAbs]; simp
  rw [e1, ofQ_val] at b
  rw [e1] at a
  have hnn : (0 : ℚ) ≤ ((n.natAbs : Nat) : ℚ) := Nat.cast_nonneg _
  rw [if_neg (not_lt.2 hnn), abs_of_nonneg hnn] at b
  constructor
  · unfold Flt.Finite at *
    rw [e0, ofQ_mag, hq]
    rw [ofQ_mag, abs_of_nonneg hnn] at a
    exact a
  · rw [e0, ofQ_val, hq, b]
    by_cases hneg : (n : ℚ) < 0
    · rw [if_pos hneg, ← hq, abs_of_neg hneg, neg_neg]
    · rw [if_neg hneg, ← hq, abs_of_nonneg (not_lt.1 hneg)]

theorem link_vals (t : Name) (e f : Int) (he : |e| ≤ 2 ^ 53) (hf : |f| ≤ 2 ^ 53) (r : BC F64) :
    (BC.link t e f r).vals = BC.link t e f r.vals := by
  unfold BC.link BC.vals
  simp only [(intCast_exact e he).2, (intCast_exact f hf).2]

namespace Spec

/-- The element and face numbers of linked faces are finite, and the element numbers are whole numbers up to 2^52 in size. -/
def LinksWhole (M : HexaData F64) : Prop :=
  ∀ el ∈ M.elem, ∀ b < M.nbc, ∀ f < 2 * M.ndim, ((el.bcs b f).typ = nE ∨ (el.bcs b f).typ = nP) →
    (el.bcs b f).p3.Finite ∧ (el.bcs b f).p4.Finite ∧ ∃ k : Int, (el.bcs b f).p3.val = k ∧ |k| ≤ 2 ^ 52

/-- The element and face numbers of linked faces are finite. -/
def LinksFinite (M : HexaData F64) : Prop :=
  ∀ e < M.elem.length, ∀ b < M.nbc, ∀ f < 2 * M.ndim, ((M.bc e b f).typ = nE ∨ (M.bc e b f).typ = nP) →
    (M.bc e b f).p3.Finite ∧ (M.bc e b f).p4.Finite

/-- `M'` differs from `M` only in the boundary conditions of its elements. -/
structure SameButBC (M M' : HexaData F64) : Prop where
  hdr : M' = { M with elem := M'.elem }
  len : M'.elem.length = M.elem.length
  el : ∀ i, M'.el i = { M.el i with bcs := (M'.el i).bcs }

end Spec

theorem sameButBC_refl (M : HexaData F64) : SameButBC M M := ⟨rfl, rfl, fun _ => rfl⟩

theorem sameButBC_trans {A B C : HexaData F64} (h : SameButBC A B) (h' : SameButBC B C) : SameButBC A C := by
  refine ⟨?_, h'.len.trans h.len, fun i => ?_⟩
  · have h1 := h'.hdr; rw [h.hdr] at h1; exact h1
  · have h1 := h'.el i
    rw [h1, h.el i]

theorem elF_modBC (M : HexaData F64) (i b f : Nat) (g : BC F64 → BC F64) (j : Nat) :
    (M.modBC i b f g).el j = if i = j ∧ j < M.elem.length then (M.el j).modBC b f g else M.el j := by
  unfold HexaData.modBC HexaData.el
  simp only [List.getD_eq_getElem?_getD, List.getElem?_modify]
  by_cases hj : j < M.elem.length
  · rw [List.getElem?_eq_getElem hj]
    by_cases hi : i = j
    · simp [hi, hj]
    · simp [hi]
  · rw [List.getElem?_eq_none (not_lt.1 hj)]
    simp [hj]

theorem sameButBC_modBC (M : HexaData F64) (i b f : Nat) (g : BC F64 → BC F64) : SameButBC M (M.modBC i b f g) := by
  refine ⟨rfl, by simp [HexaData.modBC], fun j => ?_⟩
  rw [elF_modBC]
  split <;> rfl

/-- The condition of a record is a link. -/
def IsLinkF (r : BC F64) : Prop := r.typ = nE ∨ r.typ = nP

/-- A step of the simulation: same values, finite links, only conditions changed, and the faces in `Q` have links in the first field. -/
structure Sim (M : HexaData F64) (Q : Nat → Nat → Prop) (M' : HexaData F64) (N' : HexaData ℚ) : Prop where
  vals : M'.vals = N'
  same : SameButBC M M'
  fin : LinksFinite M'
  lk : ∀ e f, Q e f → IsLinkF (M'.bc e 0 f)

theorem Sim.modBC {M M' : HexaData F64} {N' : HexaData ℚ} {Q : Nat → Nat → Prop} (h : Sim M Q M' N') (i b f : Nat) (t : Name)
    (ht : t = nE ∨ t = nP) (e k : Int) (he : |e| ≤ 2 ^ 53) (hk : |k| ≤ 2 ^ 53) :
    Sim M Q (M'.modBC i b f (BC.link t e k)) (N'.modBC i b f (BC.link t e k)) := by
  have key : ∀ e' b' f', (M'.modBC i b f (BC.link t e k)).bc e' b' f' = M'.bc e' b' f' ∨
      (M'.modBC i b f (BC.link t e k)).bc e' b' f' = BC.link t e k (M'.bc e' b' f') := by
    intro e' b' f'
    unfold HexaData.bc
    rw [elF_modBC]
    by_cases hi : i = e' ∧ e' < M'.elem.length
    · rw [if_pos hi]
      unfold Elem.modBC
      by_cases hb : b' = b ∧ f' = f
      · simp only [if_pos hb]; exact Or.inr trivial
      · simp only [if_neg hb]; exact Or.inl trivial
    · rw [if_neg hi]; exact Or.inl rfl
  refine ⟨?_, sameButBC_trans h.same (sameButBC_modBC _ _ _ _ _), ?_, ?_⟩
  · rw [vals_modBC _ _ _ _ _ _ (link_vals t e k he hk), h.vals]
  · intro e' he' b' hb' f' hf' hl
    have hlen : (M'.modBC i b f (BC.link t e k)).elem.length = M'.elem.length := by simp [HexaData.modBC]
    rw [hlen] at he'
    rcases key e' b' f' with q | q
    · rw [q] at hl ⊢
      exact h.fin e' he' b' hb' f' hf' hl
    · rw [q]
      exact ⟨(intCast_exact e he).1, (intCast_exact k hk).1⟩
  · intro e' f' hq
    rcases key e' 0 f' with q | q <;> rw [q]
    · exact h.lk e' f' hq
    · exact ht

theorem Sim.foldl {M : HexaData F64} {Q : Nat → Nat → Prop} {f : HexaData F64 → Nat → HexaData F64} {g : HexaData ℚ → Nat → HexaData ℚ}
    (hs : ∀ M' N' k, Sim M Q M' N' → Sim M Q (f M' k) (g N' k)) (l : List Nat) : ∀ {M' : HexaData F64} {N' : HexaData ℚ}, Sim M Q M' N' →
      Sim M Q (l.foldl f M') (l.foldl g N') := by
  induction l with
  | nil => exact fun h => h
  | cons a l ih => exact fun h => ih (hs _ _ a h)

/-- Two computations end in the same way, with results related by `R`. -/
def Both {α β : Type} (R : α → β → Prop) : Py α → Py β → Prop
  | .ok a, .ok b => R a b
  | .error e, .error e' => e = e'
  | _, _ => False

theorem both_foldlM {α σ τ : Type} {R : σ → τ → Prop} {f : σ → α → Py σ} {g : τ → α → Py τ} (l : List α)
    (h : ∀ s t a, a ∈ l → R s t → Both R (f s a) (g t a)) : ∀ {s : σ} {t : τ}, R s t → Both R (l.foldlM f s) (l.foldlM g t) := by
  induction l with
  | nil => exact fun h => h
  | cons a l ih =>
    intro s t hst
    have h1 := h s t a (by simp) hst
    simp only [List.foldlM_cons]
    cases hf : f s a with
    | error e =>
      cases hg : g t a with
      | error e' => rw [hf, hg] at h1; exact h1
      | ok t' => rw [hf, hg] at h1; exact h1.elim
    | ok s' =>
      cases hg : g t a with
      | error e' => rw [hf, hg] at h1; exact h1.elim
      | ok t' =>
        rw [hf, hg] at h1
        exact ih (fun s t a ha => h s t a (by simp [ha])) h1

theorem pyIndex_bounds {n : Nat} {i : Int} {k : Nat} (h : pyIndex n i = .ok k) : -(n : Int) ≤ i ∧ i < n ∧ k < n := by
  unfold pyIndex at h
  by_cases h1 : 0 ≤ i
  · rw [if_pos h1] at h
    by_cases h2 : i < n
    · rw [if_pos h2] at h; cases h; omega
    · rw [if_neg h2] at h; cases h
  · rw [if_neg h1] at h
    by_cases h2 : 0 ≤ n + i
    · rw [if_pos h2] at h; cases h; omega
    · rw [if_neg h2] at h; cases h

theorem mergePair_sim {M M' : HexaData F64} {N' : HexaData ℚ} {Q : Nat → Nat → Prop} (h : Sim M Q M' N') (nbc : Nat) (hnbc : nbc ≤ M.nbc)
    (h0 : 0 < nbc) (hd : 2 * M.ndim ≤ 6) (hn : M.elem.length ≤ 2 ^ 53 - 1) (bc0 bc1 : Name) (e0 f0 e1 f1 : Nat) (he0 : e0 < M.elem.length)
    (he1 : e1 < M.elem.length) (hf0 : f0 < 2 * M.ndim) (hf1 : f1 < 2 * M.ndim) (t0 : bc0 = nP → IsLinkF (M'.bc e0 0 f0))
    (t1 : (M'.bc e1 0 f1).typ = bc1) :
    Both (Sim M Q) (M'.mergePairF nbc bc0 bc1 e0 f0 e1 f1) (N'.mergePair nbc bc0 bc1 e0 f0 e1 f1) := by
  have hlen : M'.elem.length = M.elem.length := h.same.len
  have hdim : M'.ndim = M.ndim := by rw [h.same.hdr]
  have hnb : M'.nbc = M.nbc := by rw [h.same.hdr]
  have hlenN : N'.elem.length = M.elem.length := by rw [← h.vals, vals_length, hlen]
  have last : ∀ (A : HexaData F64) (B : HexaData ℚ), Sim M Q A B →
      Sim M Q ((List.range nbc).foldl (fun M ibc => M.connect ibc e0 f0 e1 f1) A)
        ((List.range nbc).foldl (fun M ibc => M.connect ibc e0 f0 e1 f1) B) := by
    intro A B hAB
    refine Sim.foldl (fun M1 N1 k h1 => ?_) _ hAB
    unfold HexaData.connect
    refine (h1.modBC _ _ _ _ (Or.inl rfl) _ _ ?_ ?_).modBC _ _ _ _ (Or.inl rfl) _ _ ?_ ?_ <;> rw [abs_of_nonneg (by omega)] <;> omega
  unfold HexaData.mergePairF HexaData.mergePair
  by_cases hP : bc0 = bc1 ∧ bc1 = nP
  · simp only [if_pos hP]
    have tp1 : (M'.bc e1 0 f1).typ = nE ∨ (M'.bc e1 0 f1).typ = nP := Or.inr (by rw [t1, hP.2])
    obtain ⟨a0, b0⟩ := h.fin e0 (by omega) 0 (by omega) f0 (by omega) (t0 (hP.1.trans hP.2))
    obtain ⟨a1, b1⟩ := h.fin e1 (by omega) 0 (by omega) f1 (by omega) tp1
    have v0 : N'.bc e0 0 f0 = (M'.bc e0 0 f0).vals := by rw [← h.vals, vals_bc]
    have v1 : N'.bc e1 0 f1 = (M'.bc e1 0 f1).vals := by rw [← h.vals, vals_bc]
    rw [truncF_fin a0, truncF_fin a1, truncF_fin b0, truncF_fin b1, v0, v1, hlen, hlenN]
    simp only [bind, Except.bind, BC.vals]
    cases i0 : pyIndex M.elem.length (trunc (M'.bc e0 0 f0).p3.val - 1) with
    | error e => exact rfl
    | ok q0 =>
    cases i1 : pyIndex M.elem.length (trunc (M'.bc e1 0 f1).p3.val - 1) with
    | error e => exact rfl
    | ok q1 =>
    cases i2 : pyIndex 6 (trunc (M'.bc e0 0 f0).p4.val - 1) with
    | error e => exact rfl
    | ok g0 =>
    cases i3 : pyIndex 6 (trunc (M'.bc e1 0 f1).p4.val - 1) with
    | error e => exact rfl
    | ok g1 =>
    obtain ⟨x1, x2, _⟩ := pyIndex_bounds i0
    obtain ⟨y1, y2, _⟩ := pyIndex_bounds i1
    obtain ⟨z1, z2, _⟩ := pyIndex_bounds i2
    obtain ⟨w1, w2, _⟩ := pyIndex_bounds i3
    refine last _ _ ?_
    refine Sim.foldl (fun M1 N1 k h1 => ?_) _ h
    unfold HexaData.relink
    refine (h1.modBC _ _ _ _ (Or.inr rfl) _ _ ?_ ?_).modBC _ _ _ _ (Or.inr rfl) _ _ ?_ ?_ <;> rw [abs_le] <;> constructor <;>
      push_cast at * <;> omega
  · simp only [if_neg hP]
    exact last _ _ h

theorem both_imp {α β : Type} {R R' : α → β → Prop} (h : ∀ a b, R a b → R' a b) {x : Py α} {y : Py β} (hb : Both R x y) : Both R' x y := by
  cases x <;> cases y <;> first | exact h _ _ hb | exact hb

/-- The states of the loops of `merge` with doubles and with their values. -/
def SimN (M : HexaData F64) (Q : Nat → Nat → Prop) (s : HexaData F64 × Nat) (t : HexaData ℚ × Nat) : Prop := Sim M Q s.1 t.1 ∧ s.2 = t.2

theorem mergeInner_sim {M : HexaData F64} (touch : Nat → Nat → Nat → Nat → Py Bool) (nbc : Nat) (ie : Bool) (hnbc : nbc ≤ M.nbc) (h0 : 0 < nbc)
    (hd : 2 * M.ndim ≤ 6) (hn : M.elem.length ≤ 2 ^ 53 - 1) (e0 f0 : Nat) (bc0 : Name) (he0 : e0 < M.elem.length) (hf0 : f0 < 2 * M.ndim)
    (s : HexaData F64 × Nat) (t : HexaData ℚ × Nat) (x : Nat × Nat) (hx : x.1 < M.elem.length) (hx2 : x.2 < 2 * M.ndim)
    (h : SimN M (fun e f => bc0 = nP ∧ e = e0 ∧ f = f0) s t) :
    Both (SimN M fun e f => bc0 = nP ∧ e = e0 ∧ f = f0) (mergeInnerF touch nbc ie e0 f0 bc0 s x) (mergeInner touch nbc ie e0 f0 bc0 t x) := by
  obtain ⟨A, n⟩ := s
  obtain ⟨B, m⟩ := t
  obtain ⟨h1, rfl⟩ := h
  simp only at h1
  have v1 : (B.bc x.1 0 x.2).typ = (A.bc x.1 0 x.2).typ := by rw [← h1.vals, vals_bc]; rfl
  unfold mergeInnerF mergeInner
  simp only [v1]
  by_cases hc : (A.bc x.1 0 x.2).typ ≠ nE ∧ ¬ (ie = true ∧ (A.bc x.1 0 x.2).typ = [])
  · rw [if_pos hc, if_pos hc]
    cases touch e0 f0 x.1 x.2 with
    | error e => exact rfl
    | ok b =>
      cases b
      · exact ⟨h1, rfl⟩
      · have := mergePair_sim h1 nbc hnbc h0 hd hn bc0 (A.bc x.1 0 x.2).typ e0 f0 x.1 x.2 he0 hx hf0 hx2
          (fun hP => h1.lk e0 f0 ⟨hP, rfl, rfl⟩) rfl
        revert this
        simp only [bind, Except.bind, if_true]
        cases A.mergePairF nbc bc0 (A.bc x.1 0 x.2).typ e0 f0 x.1 x.2 <;> cases B.mergePair nbc bc0 (A.bc x.1 0 x.2).typ e0 f0 x.1 x.2
        · exact fun h => h
        · exact fun h => h.elim
        · exact fun h => h.elim
        · exact fun h => ⟨h, rfl⟩
  · rw [if_neg hc, if_neg hc]
    exact ⟨h1, rfl⟩

theorem mergeOuter_sim {M : HexaData F64} (touch : Nat → Nat → Nat → Nat → Py Bool) (nbc : Nat) (ie : Bool) (hnbc : nbc ≤ M.nbc) (h0 : 0 < nbc)
    (hd : 2 * M.ndim ≤ 6) (hn : M.elem.length ≤ 2 ^ 53 - 1) (nel1 : Nat) (hnel : nel1 ≤ M.elem.length)
    (s : HexaData F64 × Nat) (t : HexaData ℚ × Nat) (y : Nat × Nat) (hy : y.1 < M.elem.length) (hy2 : y.2 < 2 * M.ndim)
    (h : SimN M (fun _ _ => False) s t) :
    Both (SimN M fun _ _ => False) (mergeOuterF touch nbc ie nel1 (2 * M.ndim) s y) (mergeOuter touch nbc ie nel1 (2 * M.ndim) t y) := by
  obtain ⟨h1, h2⟩ := h
  have v1 : (t.1.bc y.1 0 y.2).typ = (s.1.bc y.1 0 y.2).typ := by rw [← h1.vals, vals_bc]; rfl
  unfold mergeOuterF mergeOuter
  simp only [v1]
  by_cases hc : (s.1.bc y.1 0 y.2).typ ≠ nE ∧ ¬ (ie = true ∧ (s.1.bc y.1 0 y.2).typ = [])
  · rw [if_pos hc, if_pos hc]
    refine both_imp (R := SimN M fun e f => (s.1.bc y.1 0 y.2).typ = nP ∧ e = y.1 ∧ f = y.2)
      (fun a b hab => ⟨⟨hab.1.vals, hab.1.same, hab.1.fin, fun _ _ h => h.elim⟩, hab.2⟩) ?_
    refine both_foldlM _ (fun s' t' x hx hs => ?_) ⟨⟨h1.vals, h1.same, h1.fin, ?_⟩, h2⟩
    · simp only [mem_prod2, List.mem_range] at hx
      exact mergeInner_sim touch nbc ie hnbc h0 hd hn _ _ _ hy hy2 s' t' x (by omega) hx.2 hs
    · rintro e f ⟨hP, rfl, rfl⟩
      exact Or.inr hP
  · rw [if_neg hc, if_neg hc]
    exact ⟨h1, h2⟩

theorem ofQ_int (z : Bool) (n : Int) (h : |n| ≤ 2 ^ 53) : (ofQ z (n : ℚ)).Finite ∧ (ofQ z (n : ℚ)).val = n := by
  obtain ⟨a, b⟩ := intCast_exact n h
  have e0 : ((n : F64)) = ofQ false (n : ℚ) := rfl
  rw [e0] at a b
  constructor
  · unfold Flt.Finite at *
    rw [ofQ_mag] at *
    exact a
  · rw [ofQ_val] at *
    exact b

/-- Renumbering a whole link is exact. -/
theorem offsetLinkF_vals (o : Nat) (m : Int) (ho : o ≤ 2 ^ 52) (r : BC F64)
    (hr : (r.typ = nE ∨ r.typ = nP) → r.p3.Finite ∧ r.p4.Finite ∧ ∃ k : Int, r.p3.val = k ∧ |k| ≤ 2 ^ 52) :
    (r.offsetLinkF o m).vals = r.vals.offsetLink o m ∧
      (((r.offsetLinkF o m).typ = nE ∨ (r.offsetLinkF o m).typ = nP) → (r.offsetLinkF o m).p3.Finite ∧ (r.offsetLinkF o m).p4.Finite) := by
  unfold BC.offsetLinkF BC.offsetLink
  by_cases h : (r.typ = nE ∨ r.typ = nP) ∧ trunc r.p3.val > m
  · have h' : (r.vals.typ = nE ∨ r.vals.typ = nP) ∧ trunc r.vals.p3 > m := h
    rw [if_pos h, if_pos h']
    obtain ⟨f3, f4, k, hk, hk2⟩ := hr h.1
    have ho' : |((o : Nat) : Int)| ≤ 2 ^ 53 := by rw [abs_of_nonneg (by omega)]; omega
    obtain ⟨c1, c2⟩ := intCast_exact ((o : Nat) : Int) ho'
    have hs : r.p3.val + (((o : Nat) : Int) : F64).val = ((k + (o : Int) : Int) : ℚ) := by rw [c2, hk]; push_cast; rfl
    have hb : |k + (o : Int)| ≤ 2 ^ 53 := by rw [abs_le] at hk2 ⊢; omega
    have e : r.p3 + (((o : Nat) : Int) : F64) = ofQ (r.p3.neg && (((o : Nat) : Int) : F64).neg) ((k + (o : Int) : Int) : ℚ) := by
      rw [add_fin f3 c1, hs]
    obtain ⟨g1, g2⟩ := ofQ_int (r.p3.neg && (((o : Nat) : Int) : F64).neg) (k + (o : Int)) hb
    refine ⟨?_, fun _ => ⟨?_, f4⟩⟩
    · unfold BC.vals
      simp only [e, g2, hk]
      push_cast
      rfl
    · change (r.p3 + (((o : Nat) : Int) : F64)).Finite
      rw [e]
      exact g1
  · have h' : ¬ ((r.vals.typ = nE ∨ r.vals.typ = nP) ∧ trunc r.vals.p3 > m) := h
    rw [if_neg h, if_neg h']
    exact ⟨rfl, fun hl => ⟨(hr hl).1, (hr hl).2.1⟩⟩

theorem offsetOwn_vals (o m : Int) (r : BC F64) : (r.offsetOwn o m).vals = r.vals.offsetOwn o m := by
  unfold BC.offsetOwn
  by_cases h : r.own > m
  · have h' : r.vals.own > m := h
    rw [if_pos h, if_pos h']; rfl
  · have h' : ¬ r.vals.own > m := h
    rw [if_neg h, if_neg h']

theorem mapBC_vals (el : Elem F64) (nbc nf : Nat) (g : BC F64 → BC F64) (g' : BC ℚ → BC ℚ)
    (h : ∀ b < nbc, ∀ f < nf, (g (el.bcs b f)).vals = g' (el.bcs b f).vals) : (el.mapBC nbc nf g).vals = el.vals.mapBC nbc nf g' := by
  unfold Elem.mapBC Elem.vals
  refine congrArg (Elem.mk _ _ _ _ _ _ _ _) ?_
  funext b f
  by_cases hb : b < nbc ∧ f < nf
  · simp only [if_pos hb]; exact h b hb.1 f hb.2
  · simp only [if_neg hb]

/-- Adding the elements of the second mesh: the exact result, rounded nowhere. -/
theorem appendF_sim (A B : HexaData F64) (hd : A.ndim = B.ndim) (hn : A.nbc = B.nbc) (hA : LinksWhole A) (hB : LinksWhole B) (hs : A.nel ≤ 2 ^ 52) :
    ∃ M, A.appendF B = .ok M ∧ Sim M (fun _ _ => False) M (A.vals.append B.vals) ∧ M.elem.length = A.elem.length + B.elem.length ∧
      M.nel = A.nel + B.nel ∧ M.ndim = A.ndim ∧ M.nbc = A.nbc ∧ M.elmap = A.elmap ++ B.elmap.map (· + (A.nel : Int)) ∧
      (∀ e < A.elem.length, M.el e = A.el e) ∧
      (∀ e < B.elem.length, M.el (A.elem.length + e) = { B.el e with bcs := (M.el (A.elem.length + e)).bcs }) := by
  obtain ⟨r, hr, _⟩ := mapM_ok' B.elem (fun el => (prod2 (List.range B.nbc) (List.range (2 * B.ndim))).mapM fun t => (el.bcs t.1 t.2).readLink)
    (fun el hel => by
      obtain ⟨r, hr, _⟩ := mapM_ok' (prod2 (List.range B.nbc) (List.range (2 * B.ndim))) (fun t => (el.bcs t.1 t.2).readLink) (fun t ht => by
        simp only [mem_prod2, List.mem_range] at ht
        unfold BC.readLink
        by_cases hl : (el.bcs t.1 t.2).typ = nE ∨ (el.bcs t.1 t.2).typ = nP
        · rw [if_pos hl, truncF_fin (hB el hel t.1 ht.1 t.2 ht.2 hl).1]
          exact ⟨_, rfl⟩
        · rw [if_neg hl]
          exact ⟨_, rfl⟩)
      exact ⟨r, hr⟩)
  have e1 : A.appendF B = .ok { A with
      nel := A.nel + B.nel
      ncurv := A.ncurv + B.ncurv
      elmap := A.elmap ++ B.elmap.map (· + (A.nel : Int))
      elem := A.elem ++ mapFrom 0 (fun el : Elem F64 => el.mapBC B.nbc (2 * B.ndim) (BC.offsetOwn A.nel 0))
        (B.elem.map fun el : Elem F64 => el.mapBC B.nbc (2 * B.ndim) (BC.offsetLinkF A.nel 0)) } := by
    unfold HexaData.appendF HexaData.offsetConnectivityF
    rw [hr]
    rfl
  have e2 : mapFrom 0 (fun el : Elem F64 => el.mapBC B.nbc (2 * B.ndim) (BC.offsetOwn A.nel 0))
        (B.elem.map fun el : Elem F64 => el.mapBC B.nbc (2 * B.ndim) (BC.offsetLinkF A.nel 0)) =
      B.elem.map fun el : Elem F64 => (el.mapBC B.nbc (2 * B.ndim) (BC.offsetLinkF A.nel 0)).mapBC B.nbc (2 * B.ndim) (BC.offsetOwn A.nel 0) := by
    unfold mapFrom
    apply List.ext_getElem?
    intro k
    simp only [List.getElem?_mapIdx, List.getElem?_map, Nat.zero_le, if_true]
    cases B.elem[k]? <;> rfl
  rw [e2] at e1
  have el1 : ∀ e < A.elem.length, HexaData.el { A with
      nel := A.nel + B.nel
      ncurv := A.ncurv + B.ncurv
      elmap := A.elmap ++ B.elmap.map (· + (A.nel : Int))
      elem := A.elem ++ B.elem.map fun el : Elem F64 =>
        (el.mapBC B.nbc (2 * B.ndim) (BC.offsetLinkF A.nel 0)).mapBC B.nbc (2 * B.ndim) (BC.offsetOwn A.nel 0) } e = A.el e := by
    intro e he
    unfold HexaData.el
    simp only [List.getD_eq_getElem?_getD, List.getElem?_append_left he]
  have el2 : ∀ e < B.elem.length, HexaData.el { A with
      nel := A.nel + B.nel
      ncurv := A.ncurv + B.ncurv
      elmap := A.elmap ++ B.elmap.map (· + (A.nel : Int))
      elem := A.elem ++ B.elem.map fun el : Elem F64 =>
        (el.mapBC B.nbc (2 * B.ndim) (BC.offsetLinkF A.nel 0)).mapBC B.nbc (2 * B.ndim) (BC.offsetOwn A.nel 0) } (A.elem.length + e) =
      ((B.el e).mapBC B.nbc (2 * B.ndim) (BC.offsetLinkF A.nel 0)).mapBC B.nbc (2 * B.ndim) (BC.offsetOwn A.nel 0) := by
    intro e he
    unfold HexaData.el
    simp only [List.getD_eq_getElem?_getD]
    rw [List.getElem?_append_right (by omega)]
    simp [he]
  refine ⟨_, e1, ⟨?_, sameButBC_refl _, ?_, fun _ _ h => h.elim⟩, by simp, rfl, rfl, rfl, rfl, ?_, ?_⟩
  · unfold HexaData.append HexaData.offsetConnectivity HexaData.vals
    simp only [HexaData.mk.injEq, true_and, and_true, List.map_append, List.append_cancel_left_eq]
    unfold mapFrom
    apply List.ext_getElem?
    intro k
    simp only [List.getElem?_mapIdx, List.getElem?_map, Nat.zero_le, if_true]
    cases hk : B.elem[k]? with
    | none => rfl
    | some el =>
      have hel : el ∈ B.elem := List.mem_of_getElem? hk
      simp only [Option.map_some]
      refine congrArg some ?_
      rw [mapBC_vals _ _ _ _ (BC.offsetOwn A.nel 0) (fun b _ f _ => offsetOwn_vals _ _ _),
        mapBC_vals el _ _ _ (BC.offsetLink A.nel 0) (fun b hb f hf => (offsetLinkF_vals A.nel 0 hs _ (hB el hel b hb f hf)).1)]
      rfl
  · intro e he b hb f hf hl
    unfold HexaData.bc at hl ⊢
    by_cases hc : e < A.elem.length
    · rw [el1 e hc] at hl ⊢
      have := hA (A.el e) (A.el_mem e hc) b hb f hf hl
      exact ⟨this.1, this.2.1⟩
    · obtain ⟨j, rfl⟩ : ∃ j, e = A.elem.length + j := ⟨e - A.elem.length, by omega⟩
      have hj : j < B.elem.length := by
        simp only [List.length_append, List.length_map] at he
        omega
      have hb' : b < B.nbc := hn ▸ hb
      have hf' : f < 2 * B.ndim := hd ▸ hf
      rw [el2 j hj] at hl ⊢
      have hw := offsetLinkF_vals A.nel 0 hs ((B.el j).bcs b f) (hB (B.el j) (B.el_mem j hj) b hb' f hf')
      unfold Elem.mapBC at hl ⊢
      simp only [if_pos (And.intro hb' hf')] at hl ⊢
      generalize BC.offsetLinkF (A.nel : Int) 0 ((B.el j).bcs b f) = r at hl hw
      have ho : (r.offsetOwn (A.nel : Int) 0).typ = r.typ ∧ (r.offsetOwn (A.nel : Int) 0).p3 = r.p3 ∧
          (r.offsetOwn (A.nel : Int) 0).p4 = r.p4 := by
        unfold BC.offsetOwn
        split <;> exact ⟨rfl, rfl, rfl⟩
      rw [ho.1] at hl
      rw [ho.2.1, ho.2.2]
      exact hw.2 hl
  · exact el1
  · intro e he
    rw [el2 e he]
    rfl

end Pymech
