import Verif.Props.Conn
import Verif.Props.Lims
import Verif.Props.Box
import Verif.Mesh.Keep

/-!
# C56, C57 `keep_elements`
-/

set_option linter.unusedSectionVars false

namespace Pymech

open Spec

variable {F : Type} [Field F] [LinearOrder F] [IsStrictOrderedRing F] [FloorRing F]

namespace Spec

/-- `S` lists the element numbers `elems` in increasing order. -/
def Sorts (S : List Nat) (elems : List Int) : Prop :=
  S.Pairwise (· < ·) ∧ (S.map fun n : Nat => (n : Int)).Perm elems

/-- Usable element numbers: distinct and in range. -/
structure KeepArgs (M : HexaData F) (elems : List Int) : Prop where
  nodup : elems.Nodup
  range : ∀ x ∈ elems, 0 ≤ x ∧ x < M.nel

/-- Each link names an existing element. -/
def LinksExist (M : HexaData F) : Prop :=
  ∀ e < M.elem.length, ∀ b < M.nbc, ∀ f < 2 * M.ndim, IsLink (M.bc e b f) → ∃ c < M.nel, trunc (M.bc e b f).p3 = (c : Int) + 1

/-- How a record changes when only the elements `S` are kept and the record's element becomes number `j`. -/
structure KeptRec (S : List Nat) (ext : Name) (j : Nat) (r r' : BC F) : Prop where
  other : ¬ IsLink r → r' = { r with own := (j : Int) + 1 }
  kept : ∀ q c : Nat, S[q]? = some c → IsLink r → trunc r.p3 = (c : Int) + 1 →
    r' = { r with own := (j : Int) + 1, p3 := r.p3 - ((c : F) - (q : F)) }
  removed : IsLink r → (∀ c ∈ S, trunc r.p3 ≠ (c : Int) + 1) →
    r' = { r with typ := u3 ext, own := (j : Int) + 1, p3 := 0, p4 := 0 }

end Spec

theorem sorts_exists (elems : List Int) (hn : elems.Nodup) (h0 : ∀ x ∈ elems, 0 ≤ x) :
    ∃ S, Sorts S elems ∧ elems.mergeSort (fun a b => decide (a ≤ b)) = S.map fun n : Nat => (n : Int) := by
  set T := elems.mergeSort (fun a b => decide (a ≤ b)) with hT
  have hp : T.Perm elems := List.mergeSort_perm _ _
  have hs : T.Pairwise (fun a b => decide (a ≤ b) = true) := by
    rw [hT]
    apply List.pairwise_mergeSort
    · intro a b c h1 h2; simp only [decide_eq_true_eq] at *; omega
    · intro a b; simp only [Bool.or_eq_true, decide_eq_true_eq]; omega
  have hnT : T.Nodup := hp.nodup_iff.2 hn
  have hm : T = (T.map Int.toNat).map fun n : Nat => (n : Int) := by
    rw [List.map_map]
    conv_lhs => rw [← List.map_id T]
    apply List.map_congr_left
    intro x hx
    have := h0 x (hp.mem_iff.1 hx)
    simp only [Function.comp, id]; omega
  refine ⟨T.map Int.toNat, ⟨?_, ?_⟩, hm⟩
  · rw [List.pairwise_map]
    have hlt : T.Pairwise (· < ·) := by
      refine (hs.and hnT).imp ?_
      intro a b h
      simp only [decide_eq_true_eq] at h
      have := h.1; have := h.2; omega
    refine hlt.imp_of_mem ?_
    intro a b ha hb h
    have := h0 a (hp.mem_iff.1 ha)
    omega
  · rw [← hm]; exact hp

/-- Result of the first loop. -/
theorem keepScan_ok (nel : Nat) (S : List Nat) (hS : S.Nodup) (hr : ∀ i ∈ S, i < nel) :
    ∃ s, (S.map fun n : Nat => (n : Int)).foldlM (keepScan nel) ⟨fun _ => false, fun _ => 0, -1, 0⟩ = .ok s ∧
      (∀ i, s.kept i = true ↔ i ∈ S) ∧ ∀ q c : Nat, S[q]? = some c → s.offsets c = (c : Int) - q := by
  have hnd : (S.map fun n : Nat => (n : Int)).Nodup := (List.nodup_map_iff (fun a b h => by simpa using h)).2 hS
  refine Exists.elim (foldlM_inv_pre (f := keepScan nel)
    (fun p s => (∀ i : Nat, s.kept i = true ↔ (i : Int) ∈ p) ∧ (∀ q c : Nat, p[q]? = some (c : Int) → s.offsets c = (c : Int) - q) ∧
      s.cur = s.lastIel + 1 - p.length) (S.map fun n : Nat => (n : Int)) ⟨fun _ => false, fun _ => 0, -1, 0⟩
    ⟨by simp, by simp, by simp⟩ ?step) ?main
  case main =>
    rintro s ⟨h1, h2⟩
    refine ⟨s, h1, fun i => ?_, fun q c hq => h2.2.1 q c (by rw [List.getElem?_map, hq]; rfl)⟩
    rw [h2.1 i]; simp
  case step =>
    rintro p a r s hl ⟨i1, i2, i3⟩
    have ha : a ∈ S.map fun n : Nat => (n : Int) := by rw [← hl]; simp
    obtain ⟨k, hk, rfl⟩ := List.mem_map.1 ha
    have hkn := hr k hk
    have hap : (k : Int) ∉ p := by
      rw [← hl, List.nodup_append] at hnd
      exact fun h => hnd.2.2 _ h _ (by simp) rfl
    unfold keepScan
    rw [if_neg (by omega), pyIndex_nat hkn]
    refine ⟨_, rfl, fun i => ?_, fun q c hq => ?_, ?_⟩
    · by_cases h : i = k
      · subst h; simp
      · simp only [if_neg h, i1 i, List.mem_append, List.mem_singleton]
        constructor
        · exact Or.inl
        · rintro (h' | h')
          · exact h'
          · exact absurd (by simpa using h') h
    · by_cases hqp : q < p.length
      · rw [List.getElem?_append_left hqp] at hq
        have hck : c ≠ k := by
          rintro rfl; exact hap (List.mem_of_getElem? hq)
        simp only [if_neg hck]
        exact i2 q c hq
      · rw [List.getElem?_append_right (by omega)] at hq
        have hq0 : q - p.length = 0 := by
          by_contra h
          rw [List.getElem?_eq_none (by simp; omega)] at hq
          cases hq
        rw [hq0] at hq
        simp only [List.getElem?_cons_zero, Option.some.injEq] at hq
        obtain rfl : k = c := by omega
        simp only [if_true, i3]
        omega
    · simp only [i3, List.length_append, List.length_singleton]; push_cast; ring

/-- New record of a kept element. -/
theorem keepBC_ok (S : List Nat) (hS : S.Nodup) (s : KeepState) (hk : ∀ i, s.kept i = true ↔ i ∈ S)
    (ho : ∀ q c : Nat, S[q]? = some c → s.offsets c = (c : Int) - q) (nel : Nat) (ext : Name) (j i : Nat) (hj : S[j]? = some i)
    (r : BC F) (hl : IsLink r → ∃ c < nel, trunc r.p3 = (c : Int) + 1) :
    ∃ r', keepBC s nel ext i (s.offsets i) r = .ok r' ∧ KeptRec S ext j r r' := by
  have hown : (i : Int) - s.offsets i + 1 = (j : Int) + 1 := by rw [ho j i hj]; omega
  unfold keepBC
  simp only [hown]
  by_cases h : IsLink r
  · have h' : (({ r with own := (j : Int) + 1 } : BC F).typ = nE ∨ ({ r with own := (j : Int) + 1 } : BC F).typ = nP) := h
    rw [if_pos h']
    obtain ⟨c, hc, hp⟩ := hl h
    have hpi : pyIndex nel (trunc r.p3 - 1) = .ok c := by
      rw [hp, show (c : Int) + 1 - 1 = c by omega, pyIndex_nat hc]
    simp only [hpi, bind, Except.bind]
    by_cases hkc : s.kept c = true
    · rw [if_pos hkc]
      refine ⟨_, rfl, fun hn => absurd h hn, fun q c' hq _ hp' => ?_, fun _ hn => absurd hp (hn c ((hk c).1 hkc))⟩
      obtain rfl : c = c' := by rw [hp] at hp'; omega
      simp only [ho q c hq]
      push_cast
      rfl
    · rw [if_neg hkc]
      refine ⟨_, rfl, fun hn => absurd h hn, fun q c' hq _ hp' => ?_, fun _ _ => rfl⟩
      obtain rfl : c = c' := by rw [hp] at hp'; omega
      exact absurd ((hk c).2 (List.mem_of_getElem? hq)) hkc
  · have h' : ¬ (({ r with own := (j : Int) + 1 } : BC F).typ = nE ∨ ({ r with own := (j : Int) + 1 } : BC F).typ = nP) := h
    rw [if_neg h']
    exact ⟨_, rfl, fun _ => rfl, fun _ _ _ hn => absurd hn h, fun hn => absurd hn h⟩

theorem keepElemBy_ok {F : Type} (upd : BC F → Py (BC F)) (K : BC F → BC F → Prop) (nbc nf : Nat) (el : Elem F)
    (hrec : ∀ b < nbc, ∀ f < nf, ∃ r', upd (el.bcs b f) = .ok r' ∧ K (el.bcs b f) r') :
    ∃ el', keepElemBy upd nbc nf el = .ok el' ∧ el' = { el with bcs := el'.bcs } ∧
      ∀ b f, (b < nbc ∧ f < nf → K (el.bcs b f) (el'.bcs b f)) ∧ (¬ (b < nbc ∧ f < nf) → el'.bcs b f = el.bcs b f) := by
  obtain ⟨r, hr, -⟩ := mapM_ok' (prod2 (List.range nbc) (List.range nf)) (fun t => upd (el.bcs t.1 t.2)) (by
    rintro ⟨b, f⟩ hm
    simp only [prod2, List.mem_flatMap, List.mem_range, List.mem_map, Prod.mk.injEq] at hm
    obtain ⟨b', hb, f', hf, rfl, rfl⟩ := hm
    obtain ⟨r', h, -⟩ := hrec b' hb f' hf
    exact ⟨r', h⟩)
  unfold keepElemBy
  rw [hr]
  refine ⟨_, rfl, rfl, fun b f => ⟨fun h => ?_, fun h => ?_⟩⟩
  · obtain ⟨r', h1, h2⟩ := hrec b h.1 f h.2
    simp only [if_pos h, h1]
    exact h2
  · simp only [if_neg h]

/-- `keep_elements` with any update of records that succeeds with a result as described by `K`. -/
theorem keepElementsBy_spec {F : Type} [Zero F] (upd : KeepState → Nat → Name → Int → Int → BC F → Py (BC F)) (K : List Nat → Nat → BC F → BC F → Prop)
    (M : HexaData F) (hn : M.nel = M.elem.length) (elems : List Int) (hnodup : elems.Nodup) (hrange : ∀ x ∈ elems, 0 ≤ x ∧ x < M.nel) (ext : Name)
    (hu : ∀ S : List Nat, S.Pairwise (· < ·) → (∀ i ∈ S, i < M.nel) → ∀ s : KeepState, (∀ i, s.kept i = true ↔ i ∈ S) →
      (∀ q c : Nat, S[q]? = some c → s.offsets c = (c : Int) - q) → ∀ j i : Nat, S[j]? = some i → ∀ b < M.nbc, ∀ f < 2 * M.ndim,
      ∃ r', upd s M.nel ext i (s.offsets i) (M.bc i b f) = .ok r' ∧ K S j (M.bc i b f) r') :
    ∃ S R, Sorts S elems ∧ keepElementsBy upd M elems ext = .ok R ∧
      R = { M with elem := R.elem, nel := elems.length,
                   ncurv := (R.elem.map fun el => ((List.range 12).filter fun i => el.ccurv i ≠ []).length).sum } ∧
      R.elem.length = S.length ∧
      ∀ j i, S[j]? = some i → i < M.elem.length ∧ R.el j = { M.el i with bcs := (R.el j).bcs } ∧
        ∀ b f, (b < M.nbc ∧ f < 2 * M.ndim → K S j (M.bc i b f) (R.bc j b f)) ∧
          (¬ (b < M.nbc ∧ f < 2 * M.ndim) → R.bc j b f = M.bc i b f) := by
  obtain ⟨S, hSo, hms⟩ := sorts_exists elems hnodup fun x hx => (hrange x hx).1
  have hnd : S.Nodup := hSo.1.imp (fun h => Nat.ne_of_lt h)
  have hr : ∀ i ∈ S, i < M.nel := by
    intro i hi
    have := (hrange i (hSo.2.mem_iff.1 (List.mem_map.2 ⟨i, hi, rfl⟩))).2
    omega
  obtain ⟨s, hs1, hs2, hs3⟩ := keepScan_ok M.nel S hnd hr
  have hndI : (S.map fun n : Nat => (n : Int)).Nodup := (List.nodup_map_iff (fun a b h => by simpa using h)).2 hnd
  -- second loop
  refine Exists.elim (foldlM_inv_pre (f := fun (M' : HexaData F) iel => do
      let k ← pyIndex M'.elem.length iel
      let el ← keepElemBy (upd s M'.nel ext iel (s.offsets k)) M'.nbc (2 * M'.ndim) (M'.el k)
      pure { M' with elem := M'.elem.set k el })
    (fun p M1 => M1 = { M with elem := M1.elem } ∧ M1.elem.length = M.elem.length ∧
      ∀ i < M.elem.length, ((i : Int) ∉ p → M1.el i = M.el i) ∧
        ((i : Int) ∈ p → ∀ j, S[j]? = some i → M1.el i = { M.el i with bcs := (M1.el i).bcs } ∧
          ∀ b f, (b < M.nbc ∧ f < 2 * M.ndim → K S j (M.bc i b f) (M1.bc i b f)) ∧
            (¬ (b < M.nbc ∧ f < 2 * M.ndim) → M1.bc i b f = M.bc i b f)))
    (S.map fun n : Nat => (n : Int)) M ⟨rfl, rfl, fun i _ => ⟨fun _ => rfl, fun h => by simp at h⟩⟩ ?step) ?main
  case main => -- third loop
    rintro M1 ⟨h1, hH, hL, hE⟩
    have h2 : (S.map fun n : Nat => (n : Int)).mapM (fun iel => do
        let k ← pyIndex M1.elem.length iel
        pure (M1.el k)) = .ok ((S.map fun n : Nat => (n : Int)).map fun x => M1.el x.toNat) := by
      apply mapM_ok
      intro x hx
      obtain ⟨k, hk, rfl⟩ := List.mem_map.1 hx
      have := hr k hk
      rw [pyIndex_nat (by omega)]
      rfl
    have hlenS : S.length = elems.length := by simpa using hSo.2.length_eq
    refine ⟨S, ({ M1 with elem := (S.map fun n : Nat => (n : Int)).map fun x => M1.el x.toNat, nel := elems.length } : HexaData F).updateNcurv,
      hSo, ?_, ?_, ?_, ?_⟩
    · unfold keepElementsBy
      simp only [hms]
      rw [hs1]
      simp only [bind, Except.bind] at h1 h2 ⊢
      rw [h1]
      simp only
      rw [h2]
      simp [pure, Except.pure, hlenS]
    · rw [update_ncurv_spec]
      cases M1
      simp only [HexaData.mk.injEq] at hH
      simp [hH]
    · simp [HexaData.updateNcurv]
    · intro j i hj
      have hi : i < M.elem.length := by have := hr i (List.mem_of_getElem? hj); omega
      have hR : ({ M1 with elem := (S.map fun n : Nat => (n : Int)).map fun x => M1.el x.toNat, nel := elems.length } : HexaData F).updateNcurv.el j = M1.el i := by
        unfold HexaData.el HexaData.updateNcurv
        rw [List.getD_eq_getElem?_getD, List.getElem?_map, List.getElem?_map, hj]
        rfl
      have := (hE i hi).2 (List.mem_map.2 ⟨i, List.mem_of_getElem? hj, rfl⟩) j hj
      unfold HexaData.bc at this ⊢
      rw [hR]
      exact ⟨hi, this⟩
  case step =>
    rintro p a r M1 hpl ⟨hH, hL, hE⟩
    have ha : a ∈ S.map fun n : Nat => (n : Int) := by rw [← hpl]; simp
    obtain ⟨k, hk, rfl⟩ := List.mem_map.1 ha
    have hkn : k < M.elem.length := by have := hr k hk; omega
    have hap : (k : Int) ∉ p := by
      rw [← hpl, List.nodup_append] at hndI
      exact fun h => hndI.2.2 _ h _ (by simp) rfl
    obtain ⟨j, hj⟩ := List.mem_iff_getElem?.1 hk
    have hMk := (hE k hkn).1 hap
    obtain ⟨el', e1, e2, e3⟩ := keepElemBy_ok (upd s M.nel ext k (s.offsets k)) (K S j) M.nbc (2 * M.ndim) (M.el k)
      (hu S hSo.1 hr s hs2 hs3 j k hj)
    have hn1 : M1.nel = M.nel := by rw [hH]
    have hn2 : M1.nbc = M.nbc := by rw [hH]
    have hn3 : M1.ndim = M.ndim := by rw [hH]
    refine ⟨{ M1 with elem := M1.elem.set k el' }, ?_, ?_, ?_, ?_⟩
    · simp only [pyIndex_nat (show k < M1.elem.length by omega), bind, Except.bind, hn1, hn2, hn3, hMk, e1]
      rfl
    · conv_lhs => rw [hH]
    · simp [hL]
    · intro i hi
      have hel : ({ M1 with elem := M1.elem.set k el' } : HexaData F).el i = if i = k then el' else M1.el i := by
        unfold HexaData.el
        simp only [List.getD_eq_getElem?_getD, List.getElem?_set]
        by_cases h : k = i
        · subst h; simp [hL, hi]
        · simp [h, Ne.symm h]
      unfold HexaData.bc at hE ⊢
      rw [hel]
      by_cases hik : i = k
      · subst hik
        refine ⟨fun h => absurd (by simp) h, fun _ j' hj' => ?_⟩
        have hjj : j' = j := by
          have hlj := (List.getElem?_eq_some_iff.1 hj).1
          have hlj' := (List.getElem?_eq_some_iff.1 hj').1
          exact (hnd.getElem_inj_iff (hi := hlj') (hj := hlj)).1
            ((List.getElem?_eq_some_iff.1 hj').2.trans (List.getElem?_eq_some_iff.1 hj).2.symm)
        subst hjj
        rw [if_pos rfl]
        exact ⟨e2, e3⟩
      · rw [if_neg hik]
        refine ⟨fun h => (hE i hi).1 fun h' => h (by simp [h']), fun h => (hE i hi).2 ?_⟩
        simp only [List.mem_append, List.mem_singleton] at h
        rcases h with h | h
        · exact h
        · exact absurd (by simpa using h) hik

/-- **C56, C57.** What `keep_elements` does. With distinct element numbers in range, the result has exactly these elements in
increasing order, with unchanged geometry, curvature and other data; `nel` and `ncurv` match; the conditions change as described by
`KeptRec`. -/
theorem keep_elements_spec (M : HexaData F) (hn : M.nel = M.elem.length) (elems : List Int) (A : KeepArgs M elems) (ext : Name)
    (hl : LinksExist M) :
    ∃ S R, Sorts S elems ∧ keepElements M elems ext = .ok R ∧
      R = { M with elem := R.elem, nel := elems.length,
                   ncurv := (R.elem.map fun el => ((List.range 12).filter fun i => el.ccurv i ≠ []).length).sum } ∧
      R.elem.length = S.length ∧
      ∀ j i, S[j]? = some i → i < M.elem.length ∧ R.el j = { M.el i with bcs := (R.el j).bcs } ∧
        ∀ b f, (b < M.nbc ∧ f < 2 * M.ndim → KeptRec S ext j (M.bc i b f) (R.bc j b f)) ∧
          (¬ (b < M.nbc ∧ f < 2 * M.ndim) → R.bc j b f = M.bc i b f) := by
  refine keepElementsBy_spec keepBC (fun S j => KeptRec S ext j) M hn elems A.nodup A.range ext ?_
  intro S hS hr s hk ho j i hj b hb f hf
  exact keepBC_ok S (hS.imp fun h => Nat.ne_of_lt h) s hk ho M.nel ext j i hj _ (fun h => hl i (hn ▸ hr i (List.mem_of_getElem? hj)) b hb f hf h)

/-- **C56.** The kept elements, without the description of the conditions. -/
theorem keep_elements_kept (M : HexaData F) (hn : M.nel = M.elem.length) (elems : List Int) (A : KeepArgs M elems) (ext : Name)
    (hl : LinksExist M) :
    ∃ S R, Sorts S elems ∧ keepElements M elems ext = .ok R ∧ R.nel = elems.length ∧ R.elem.length = R.nel ∧
      R.ncurv = (R.elem.map fun el => ((List.range 12).filter fun i => el.ccurv i ≠ []).length).sum ∧
      ∀ j i, S[j]? = some i → R.el j = { M.el i with bcs := (R.el j).bcs } := by
  obtain ⟨S, R, h1, h2, h3, h4, h5⟩ := keep_elements_spec M hn elems A ext hl
  have hlen : S.length = elems.length := by simpa using h1.2.length_eq
  exact ⟨S, R, h1, h2, by rw [h3], by rw [h4, hlen, h3], by conv_lhs => rw [h3], fun j i hj => (h5 j i hj).2.1⟩

/-- **C56.** An element number that is too large is refused, before anything is modified. -/
theorem keep_elements_rejects (M : HexaData F) (elems : List Int) (ext : Name) (h0 : ∀ x ∈ elems, 0 ≤ x)
    (h : ∃ x ∈ elems, (M.nel : Int) ≤ x) : keepElements M elems ext = .error .valueError := by
  have hm : ∀ x, x ∈ elems.mergeSort (fun a b => decide (a ≤ b)) ↔ x ∈ elems := fun x => (List.mergeSort_perm _ _).mem_iff
  have key : ∀ (l : List Int) (s : KeepState), (∀ x ∈ l, 0 ≤ x) → (∃ x ∈ l, (M.nel : Int) ≤ x) →
      l.foldlM (keepScan M.nel) s = .error .valueError := by
    intro l
    induction l with
    | nil => rintro s - ⟨x, hx, -⟩; simp at hx
    | cons a l ih =>
      rintro s h0 ⟨x, hx, hxn⟩
      rw [List.foldlM_cons]
      by_cases ha : a ≥ M.nel
      · have : keepScan M.nel s a = .error .valueError := by unfold keepScan; rw [if_pos ha]
        rw [this]; rfl
      · have h0a := h0 a (by simp)
        obtain ⟨k, rfl⟩ : ∃ k : Nat, a = k := ⟨a.toNat, by omega⟩
        have : ∃ s', keepScan M.nel s k = .ok s' := by
          unfold keepScan
          rw [if_neg ha, pyIndex_nat (by omega)]
          exact ⟨_, rfl⟩
        obtain ⟨s', hs⟩ := this
        rw [hs]
        refine ih s' (fun x hx => h0 x (by simp [hx])) ⟨x, ?_, hxn⟩
        rcases List.mem_cons.1 hx with rfl | hx
        · omega
        · exact hx
  unfold keepElements keepElementsBy
  simp only
  rw [key _ _ (fun x hx => h0 x ((hm x).1 hx)) (by obtain ⟨x, hx, hxn⟩ := h; exact ⟨x, (hm x).2 hx, hxn⟩)]
  rfl

/-- A renumbered link points to the new number of the same neighbour. -/
theorem KeptRec_points (S : List Nat) (hS : S.Pairwise (· < ·)) (ext : Name) (j : Nat) (r r' : BC F) (h : KeptRec S ext j r r') (q c f : Nat)
    (hq : S[q]? = some c) (hl : IsLink r) (hp : PointsTo r (c, f)) : r'.typ = r.typ ∧ PointsTo r' (q, f) := by
  have hp1 := hp.1
  have := h.kept q c hq hl hp1
  rw [this]
  refine ⟨rfl, ?_, hp.2⟩
  -- the numbers of a strictly increasing list are at least their positions
  have hge : ∀ (T : List Nat), T.Pairwise (· < ·) → ∀ q c : Nat, T[q]? = some c → q ≤ c := by
    intro T hT q
    induction q with
    | zero => intro c _; omega
    | succ q ih =>
      intro c hc
      obtain ⟨hlt, hc'⟩ := List.getElem?_eq_some_iff.1 hc
      have h1 := ih T[q] (List.getElem?_eq_getElem (by omega))
      have h2 := List.pairwise_iff_getElem.1 hT q (q + 1) (by omega) hlt (by omega)
      omega
  have hqc := hge S hS q c hq
  dsimp only at hp1 ⊢
  have hp3 : (1 : F) ≤ r.p3 := by
    by_contra hlt
    push Not at hlt
    have : trunc r.p3 ≤ 0 := by
      unfold trunc
      split_ifs with h0
      · have : ⌊r.p3⌋ < 1 := Int.floor_lt.2 (by simpa using hlt)
        omega
      · push Not at h0
        exact Int.ceil_le.2 (by simpa using h0.le)
    omega
  have hp3' : ((c : F) + 1) ≤ r.p3 := by
    unfold trunc at hp1
    rw [if_pos (by linarith)] at hp1
    have : (((c : Int) + 1 : Int) : F) ≤ r.p3 := Int.le_floor.1 (by omega)
    simpa using this
  have e : r.p3 - ((c : F) - (q : F)) = r.p3 + (((q : Int) - (c : Int) : Int) : F) := by push_cast; ring
  rw [e, trunc_add_int _ _ (by linarith) (by push_cast; have : (0 : F) ≤ q := Nat.cast_nonneg q; linarith)]
  omega

/-- **C57.** If the mesh is validly connected and `external_bc` is neither `'E'` nor `'P'`, the reduced mesh is validly connected;
links between kept elements are renumbered, links to removed elements become `external_bc`. -/
theorem keep_elements_valid (M : HexaData F) (hw : WF M) (elems : List Int) (A : KeepArgs M elems) (ext : Name)
    (hE : ext ≠ nE) (hP : ext ≠ nP) (C : Face → Face → Prop) (hv : Valid M C) :
    ∃ S R, Sorts S elems ∧ keepElements M elems ext = .ok R ∧ WF R ∧
      Valid R (fun x y => ∃ i c, S[x.1]? = some i ∧ S[y.1]? = some c ∧ C (i, x.2) (c, y.2)) ∧
      ∀ j i, S[j]? = some i → ∀ b < M.nbc, ∀ f < 2 * M.ndim,
        (¬ IsLink (M.bc i b f) → R.bc j b f = { M.bc i b f with own := (j : Int) + 1 }) ∧
        (IsLink (M.bc i b f) → ∀ c g, PointsTo (M.bc i b f) (c, g) →
          (∀ q, S[q]? = some c → (R.bc j b f).typ = (M.bc i b f).typ ∧ PointsTo (R.bc j b f) (q, g)) ∧
          (c ∉ S → (R.bc j b f).typ = u3 ext ∧ (R.bc j b f).p3 = 0 ∧ (R.bc j b f).p4 = 0)) := by
  have hl : LinksExist M := by
    intro e he b hb f hf hlk
    obtain ⟨y, y1, _, y3, _⟩ := hv b hb (e, f) he hf hlk
    exact ⟨y.1, by rw [hw.nel]; exact y1, y3.1⟩
  obtain ⟨S, R, h1, h2, h3, h4, h5⟩ := keep_elements_spec M hw.nel elems A ext hl
  have hlen : S.length = elems.length := by simpa using h1.2.length_eq
  have hd : R.ndim = M.ndim := by rw [h3]
  have hbc : R.nbc = M.nbc := by rw [h3]
  have hrec : ∀ j i, S[j]? = some i → ∀ b < M.nbc, ∀ f < 2 * M.ndim,
        (¬ IsLink (M.bc i b f) → R.bc j b f = { M.bc i b f with own := (j : Int) + 1 }) ∧
        (IsLink (M.bc i b f) → ∀ c g, PointsTo (M.bc i b f) (c, g) →
          (∀ q, S[q]? = some c → (R.bc j b f).typ = (M.bc i b f).typ ∧ PointsTo (R.bc j b f) (q, g)) ∧
          (c ∉ S → (R.bc j b f).typ = u3 ext ∧ (R.bc j b f).p3 = 0 ∧ (R.bc j b f).p4 = 0)) := by
    intro j i hj b hb f hf
    have hK := ((h5 j i hj).2.2 b f).1 ⟨hb, hf⟩
    refine ⟨hK.other, fun hlk c g hp => ⟨fun q hq => KeptRec_points S h1.1 ext j _ _ hK q c g hq hlk hp, fun hc => ?_⟩⟩
    have := hK.removed hlk (by
      intro c' hc' ht
      have := hp.1
      dsimp only at this
      rw [this] at ht
      obtain rfl : c = c' := by omega
      exact hc hc')
    rw [this]
    exact ⟨rfl, rfl, rfl⟩
  refine ⟨S, R, h1, h2, ⟨by rw [h4, hlen, h3], ?_, by rw [hd]; exact hw.dim⟩, ?_, hrec⟩
  · intro el hel
    obtain ⟨j, hj, rfl⟩ := List.getElem_of_mem hel
    rw [← R.el_eq_getElem j hj, hbc]
    have hj' : j < S.length := by omega
    obtain ⟨hi, he, _⟩ := h5 j S[j] (List.getElem?_eq_getElem hj')
    rw [he]
    have := hw.rows _ (M.el_mem _ hi)
    exact this
  · intro b hb
    rw [hbc] at hb
    rw [hd, h4]
    rintro ⟨j, f⟩ hj hf hlk
    dsimp only at hj hf hlk
    have hSj : S[j]? = some S[j] := List.getElem?_eq_getElem hj
    obtain ⟨hi, -, -⟩ := h5 j _ hSj
    obtain ⟨n1, n2⟩ := hrec j _ hSj b hb f hf
    have hlk0 : IsLink (M.bc S[j] b f) := by
      by_contra hn
      rw [n1 hn] at hlk
      exact hn hlk
    obtain ⟨y, y1, y2, y3, y4, y5, y6⟩ := hv b hb (S[j], f) hi hf hlk0
    dsimp only at y3 y4 y5 y6
    obtain ⟨k1, k2⟩ := n2 hlk0 y.1 y.2 y3
    by_cases hy : y.1 ∈ S
    · obtain ⟨q, hq⟩ := List.mem_iff_getElem?.1 hy
      obtain ⟨t1, t2⟩ := k1 q hq
      have hly : IsLink (M.bc y.1 b y.2) := by unfold IsLink at hlk0 ⊢; rw [y4]; exact hlk0
      obtain ⟨-, m2⟩ := hrec q _ hq b hb y.2 y2
      obtain ⟨u1, u2⟩ := (m2 hly S[j] f y5).1 j hSj
      refine ⟨(q, y.2), (List.getElem?_eq_some_iff.1 hq).1, y2, t2, ?_, u2, fun hE' => ⟨S[j], y.1, hSj, hq, ?_⟩⟩
      · dsimp only; rw [u1, t1, y4]
      · dsimp only at hE' ⊢
        rw [t1] at hE'
        exact y6 hE'
    · obtain ⟨t1, -, -⟩ := k2 hy
      exfalso
      unfold IsLink at hlk
      rw [t1] at hlk
      rcases hlk with h | h
      · exact hE ((u3_single _ 'E').1 h)
      · exact hP ((u3_single _ 'P').1 h)

/-- A case that meets the hypotheses: the elements 3, 0, 1 of the 2×2 channel. -/
example : KeepArgs Samples.channel [3, 0, 1] := ⟨by decide, by decide +kernel⟩
example : WF Samples.channel ∧ Valid Samples.channel (fun _ _ => True) :=
  ⟨Samples.wf_of_wfB _ (by decide +kernel), Samples.valid_of_validB _ (by decide +kernel)⟩
example : ∃ x ∈ [0, (7 : Int)], (Samples.channel.nel : Int) ≤ x := ⟨7, by simp, by decide +kernel⟩

end Pymech
