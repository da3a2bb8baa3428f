import Verif.Props.Keep

/-!
# C126 `keep_elements` applied twice
-/

set_option autoImplicit false
set_option linter.unusedSectionVars false

namespace Pymech

open Spec

variable {F : Type} [Field F] [LinearOrder F] [IsStrictOrderedRing F] [FloorRing F]

theorem sorts_unique {S T : List Nat} {l : List Int} (hS : Sorts S l) (hT : Sorts T l) : S = T := by
  have hp : S.Perm T := by
    have := hS.2.trans hT.2.symm
    exact (List.map_perm_map_iff (fun a b h => by simpa using h)).mp this
  exact hp.eq_of_pairwise (fun a b _ _ h1 h2 => by omega) hS.1 hT.1

theorem sorted_inj (T : List Nat) (hT : T.Pairwise (· < ·)) (p q c : Nat) (hp : T[p]? = some c) (hq : T[q]? = some c) : p = q := by
  obtain ⟨p1, p2⟩ := List.getElem?_eq_some_iff.1 hp
  obtain ⟨q1, q2⟩ := List.getElem?_eq_some_iff.1 hq
  by_contra hne
  rcases Nat.lt_or_gt_of_ne hne with h | h
  · have := List.pairwise_iff_getElem.1 hT p q p1 q1 h
    omega
  · have := List.pairwise_iff_getElem.1 hT q p q1 p1 h
    omega

/-- A renumbered link names the new number of the same element. -/
theorem kept_trunc (x : F) (q c : Nat) (h : trunc x = (c : Int) + 1) : trunc (x - ((c : F) - (q : F))) = (q : Int) + 1 := by
  have hp3 : (1 : F) ≤ x := by
    by_contra hlt
    push Not at hlt
    have : trunc x ≤ 0 := by
      unfold trunc
      split_ifs with h0
      · have : ⌊x⌋ < 1 := Int.floor_lt.2 (by simpa using hlt)
        omega
      · push Not at h0
        exact Int.ceil_le.2 (by simpa using h0.le)
    omega
  have hp3' : ((c : F) + 1) ≤ x := by
    unfold trunc at h
    rw [if_pos (by linarith)] at h
    have : (((c : Int) + 1 : Int) : F) ≤ x := Int.le_floor.1 (by omega)
    simpa using this
  have e : x - ((c : F) - (q : F)) = x + (((q : Int) - (c : Int) : Int) : F) := by push_cast; ring
  rw [e, trunc_add_int _ _ (by linarith) (by push_cast; have : (0 : F) ≤ q := Nat.cast_nonneg q; linarith)]
  omega

/-- Keeping the elements `S`, and of these the elements `T`, changes a record as keeping the elements `S[T[0]], S[T[1]], …` does. -/
theorem keptRec_comp (S T : List Nat) (hS : S.Pairwise (· < ·)) (hT : ∀ k ∈ T, k < S.length) (ext : Name) (hE : ext ≠ nE) (hP : ext ≠ nP)
    (i j : Nat) (r r1 r2 r3 : BC F) (hl : IsLink r → ∃ c : Nat, trunc r.p3 = (c : Int) + 1) (h1 : KeptRec S ext i r r1)
    (h2 : KeptRec T ext j r1 r2) (h3 : KeptRec (T.map fun k => S.getD k 0) ext j r r3) : r2 = r3 := by
  have hx : ∀ t : BC F, t.typ = u3 ext → ¬ IsLink t := by
    intro t ht hk
    rcases hk with h | h
    · exact hE ((u3_single _ 'E').1 (ht.symm.trans h))
    · exact hP ((u3_single _ 'P').1 (ht.symm.trans h))
  have hget : ∀ k, k < S.length → S[k]? = some (S.getD k 0) := fun k hk => by
    rw [List.getD_eq_getElem?_getD, List.getElem?_eq_getElem hk]; rfl
  by_cases hlk : IsLink r
  · obtain ⟨c, hc⟩ := hl hlk
    by_cases hcS : c ∈ S
    · obtain ⟨q, hq⟩ := List.getElem?_of_mem hcS
      have e1 := h1.kept q c hq hlk hc
      have ht := kept_trunc r.p3 q c hc
      have hlk1 : IsLink r1 := by rw [e1]; exact hlk
      have ht1 : trunc r1.p3 = (q : Int) + 1 := by rw [e1]; exact ht
      by_cases hqT : q ∈ T
      · obtain ⟨k, hk⟩ := List.getElem?_of_mem hqT
        have e2 := h2.kept k q hk hlk1 ht1
        have hk' : (T.map fun k => S.getD k 0)[k]? = some c := by
          rw [List.getElem?_map, hk, Option.map_some, List.getD_eq_getElem?_getD, hq]
          rfl
        have e3 := h3.kept k c hk' hlk hc
        rw [e2, e3, e1]
        simp only [BC.mk.injEq, true_and, and_true]
        ring
      · have e2 := h2.removed hlk1 (fun c' hc' h => hqT (by
          rw [ht1] at h
          obtain rfl : q = c' := by omega
          exact hc'))
        have e3 := h3.removed hlk (fun c' hc' h => by
          obtain ⟨k, hk, rfl⟩ := List.mem_map.mp hc'
          rw [hc] at h
          have hkS := hget k (hT k hk)
          have : S.getD k 0 = c := by omega
          rw [this] at hkS
          rw [sorted_inj S hS q k c hq hkS] at hqT
          exact hqT hk)
        rw [e2, e3, e1]
    · have e1 := h1.removed hlk (fun c' hc' h => hcS (by
        rw [hc] at h
        obtain rfl : c = c' := by omega
        exact hc'))
      have e2 := h2.other (hx r1 (by rw [e1]))
      have e3 := h3.removed hlk (fun c' hc' h => by
        obtain ⟨k, hk, rfl⟩ := List.mem_map.mp hc'
        rw [hc] at h
        have : S.getD k 0 = c := by omega
        exact hcS (by rw [← this]; exact List.mem_of_getElem? (hget k (hT k hk))))
      rw [e2, e3, e1]
  · have e1 := h1.other hlk
    have e2 := h2.other (by rw [e1]; exact hlk)
    have e3 := h3.other hlk
    rw [e2, e3, e1]

/-- **C126.** `keep_elements` for `first`, and then for the positions `second` among the elements kept, gives the same mesh as a single call for
the elements meant. `S` lists the elements kept by the first call in increasing order. -/
theorem C126 (M : HexaData F) (hn : M.nel = M.elem.length) (hl : LinksExist M) (ext : Name) (hE : ext ≠ nE) (hP : ext ≠ nP)
    (first second both : List Int) (A : KeepArgs M first) (hnd : second.Nodup) (hr : ∀ x ∈ second, 0 ≤ x ∧ x < first.length)
    (S : List Nat) (hS : Sorts S first) (hb : both.Perm (second.map fun x => ((S.getD x.toNat 0 : Nat) : Int))) :
    ∃ R Q, keepElements M first ext = .ok R ∧ keepElements R second ext = .ok Q ∧ keepElements M both ext = .ok Q := by
  obtain ⟨S', R, g1, g2, g3, g4, g5⟩ := keep_elements_spec M hn first A ext hl
  obtain rfl : S = S' := sorts_unique hS g1
  have hlen : S.length = first.length := by simpa using g1.2.length_eq
  have hRn : R.nel = R.elem.length := by rw [g4, hlen, g3]
  have hRnel : R.nel = first.length := by rw [g3]
  have hRb : R.nbc = M.nbc := by rw [g3]
  have hRd : R.ndim = M.ndim := by rw [g3]
  have hSget : ∀ k, k < S.length → S[k]? = some (S.getD k 0) := fun k hk => by
    rw [List.getD_eq_getElem?_getD, List.getElem?_eq_getElem hk]; rfl
  have hinv : ∀ t : BC F, t.typ = u3 ext → ¬ IsLink t := by
    intro t ht hk
    rcases hk with h | h
    · exact hE ((u3_single _ 'E').1 (ht.symm.trans h))
    · exact hP ((u3_single _ 'P').1 (ht.symm.trans h))
  have hRl : LinksExist R := by
    intro j hj b hb f hf hlk
    rw [hRb] at hb
    rw [hRd] at hf
    rw [g4] at hj
    obtain ⟨a1, a2, a3⟩ := g5 j _ (hSget j hj)
    have K := (a3 b f).1 ⟨hb, hf⟩
    by_cases h : IsLink (M.bc (S.getD j 0) b f)
    · obtain ⟨c, -, hc2⟩ := hl _ a1 b hb f hf h
      by_cases hcS : c ∈ S
      · obtain ⟨q, hq⟩ := List.getElem?_of_mem hcS
        refine ⟨q, ?_, ?_⟩
        · rw [hRnel, ← hlen]
          exact (List.getElem?_eq_some_iff.1 hq).1
        · rw [K.kept q c hq h hc2]
          exact kept_trunc _ q c hc2
      · have e1 := K.removed h (fun c' hc' h => hcS (by
          rw [hc2] at h
          obtain rfl : c = c' := by omega
          exact hc'))
        exact absurd hlk (hinv _ (by rw [e1]))
    · rw [K.other h] at hlk
      exact absurd hlk h
  have B : KeepArgs R second := ⟨hnd, fun x hx => by rw [hRnel]; exact hr x hx⟩
  obtain ⟨T, Q, k1, k2, k3, k4, k5⟩ := keep_elements_spec R hRn second B ext hRl
  have hTlen : T.length = second.length := by simpa using k1.2.length_eq
  have hTS : ∀ k ∈ T, k < S.length := by
    intro k hk
    have := (hr k (k1.2.mem_iff.1 (List.mem_map.2 ⟨k, hk, rfl⟩))).2
    omega
  -- the sorted list of the elements meant
  have hsorted : Sorts (T.map fun k => S.getD k 0) both := by
    constructor
    · rw [List.pairwise_map]
      refine k1.1.imp_of_mem ?_
      intro a b ha hb hab
      have e1 := List.getElem?_eq_some_iff.1 (hSget a (hTS a ha))
      have e2 := List.getElem?_eq_some_iff.1 (hSget b (hTS b hb))
      obtain ⟨a1, a2⟩ := e1
      obtain ⟨b1, b2⟩ := e2
      have := List.pairwise_iff_getElem.1 hS.1 a b a1 b1 hab
      rw [← a2, ← b2]
      exact this
    · refine List.Perm.trans ?_ hb.symm
      have := k1.2.map fun x : Int => ((S.getD x.toNat 0 : Nat) : Int)
      rw [List.map_map] at this ⊢
      exact this
  have hC : KeepArgs M both := by
    constructor
    · refine hsorted.2.nodup_iff.1 ?_
      refine (List.nodup_map_iff (fun a b h => by simpa using h)).2 ?_
      exact hsorted.1.imp (fun h => Nat.ne_of_lt h)
    · intro x hx
      obtain ⟨n, hn', rfl⟩ := List.mem_map.1 (hsorted.2.mem_iff.2 hx)
      obtain ⟨k, hk, rfl⟩ := List.mem_map.1 hn'
      have := List.mem_of_getElem? (hSget k (hTS k hk))
      exact A.range _ (hS.2.mem_iff.1 (List.mem_map.2 ⟨_, this, rfl⟩))
  obtain ⟨U, P, m1, m2, m3, m4, m5⟩ := keep_elements_spec M hn both hC ext hl
  have hU : U = T.map fun k => S.getD k 0 := sorts_unique m1 hsorted
  have hUlen : U.length = T.length := by rw [hU, List.length_map]
  have hbl : both.length = second.length := by simpa using hb.length_eq
  -- the elements agree
  have hel : ∀ j < T.length, Q.el j = P.el j := by
    intro j hj
    have hTj : T[j]? = some T[j] := List.getElem?_eq_getElem hj
    have hk : T[j] < S.length := hTS _ (List.getElem_mem hj)
    have hUj : U[j]? = some (S.getD T[j] 0) := by rw [hU, List.getElem?_map, hTj]; rfl
    obtain ⟨a1, a2, a3⟩ := g5 T[j] _ (hSget _ hk)
    obtain ⟨b1, b2, b3⟩ := k5 j _ hTj
    obtain ⟨c1, c2, c3⟩ := m5 j _ hUj
    have hbcs : (Q.el j).bcs = (P.el j).bcs := by
      funext b f
      have hgoal : Q.bc j b f = P.bc j b f := by
        by_cases hbf : b < M.nbc ∧ f < 2 * M.ndim
        · have K1 := (a3 b f).1 hbf
          have K2 := (b3 b f).1 (by rw [hRb, hRd]; exact hbf)
          have K3 := (c3 b f).1 hbf
          rw [hU] at K3
          exact keptRec_comp S T hS.1 hTS ext hE hP T[j] j _ _ _ _
            (fun h => by obtain ⟨c, -, hc⟩ := hl _ a1 b hbf.1 f hbf.2 h; exact ⟨c, hc⟩) K1 K2 K3
        · rw [(b3 b f).2 (by rw [hRb, hRd]; exact hbf), (a3 b f).2 hbf, (c3 b f).2 hbf]
      exact hgoal
    rw [b2, c2, a2, hbcs]
  have hlist : Q.elem = P.elem := by
    apply List.ext_getElem
    · rw [k4, m4, hUlen]
    · intro j h1 h2
      rw [← Q.el_eq_getElem j h1, ← P.el_eq_getElem j h2]
      exact hel j (by rw [← k4]; exact h1)
  have hQP : Q = P := by
    rw [k3, m3, hlist, g3, hbl]
  exact ⟨R, Q, g2, k2, by rw [hQP]; exact m2⟩

/-- Of the 2×2 channel first the elements 1, 2, 3 and of these the first and last: the elements 1 and 3. -/
example : ∃ R Q, keepElements Samples.channel [3, 1, 2] Samples.nW = .ok R ∧ keepElements R [2, 0] Samples.nW = .ok Q ∧
    keepElements Samples.channel [1, 3] Samples.nW = .ok Q := by
  refine C126 Samples.channel (by decide +kernel) ?_ Samples.nW (by decide) (by decide) [3, 1, 2] [2, 0] [1, 3]
    ⟨by decide, by decide +kernel⟩ (by decide) (by decide) [1, 2, 3] ⟨by decide, by decide⟩ (by decide)
  intro e he b hb f hf h
  obtain ⟨y, y1, _, y3, _⟩ := Samples.valid_of_validB Samples.channel (by decide +kernel) b hb (e, f) he hf h
  exact ⟨y.1, by rw [(Samples.wf_of_wfB Samples.channel (by decide +kernel)).nel]; exact y1, y3.1⟩

/-- Keeping all elements only renumbers: nothing changes in a mesh whose records name their own element. -/
theorem C126_all (M : HexaData F) (hn : M.nel = M.elem.length) (hl : LinksExist M) (ext : Name)
    (ho : ∀ i < M.nel, ∀ b < M.nbc, ∀ f < 2 * M.ndim, (M.bc i b f).own = (i : Int) + 1)
    (hc : M.ncurv = (M.elem.map fun el => ((List.range 12).filter fun i => el.ccurv i ≠ []).length).sum) :
    keepElements M ((List.range M.nel).map fun i : Nat => (i : Int)) ext = .ok M := by
  have A : KeepArgs M ((List.range M.nel).map fun i : Nat => (i : Int)) := by
    constructor
    · exact (List.nodup_map_iff (fun a b h => by simpa using h)).2 List.nodup_range
    · intro x hx
      obtain ⟨i, hi, rfl⟩ := List.mem_map.1 hx
      have := List.mem_range.1 hi
      omega
  obtain ⟨S, R, g1, g2, g3, g4, g5⟩ := keep_elements_spec M hn _ A ext hl
  have hS : S = List.range M.nel := sorts_unique g1 ⟨List.pairwise_lt_range, List.Perm.refl _⟩
  have hlist : R.elem = M.elem := by
    apply List.ext_getElem
    · rw [g4, hS, List.length_range, hn]
    · intro j h1 h2
      rw [← R.el_eq_getElem j h1, ← M.el_eq_getElem j h2]
      have hj : j < M.nel := by omega
      have hSj : S[j]? = some j := by rw [hS, List.getElem?_range hj]
      obtain ⟨a1, a2, a3⟩ := g5 j j hSj
      rw [a2]
      have : (R.el j).bcs = (M.el j).bcs := by
        funext b f
        have hgoal : R.bc j b f = M.bc j b f := by
          by_cases hbf : b < M.nbc ∧ f < 2 * M.ndim
          · have K := (a3 b f).1 hbf
            have hown := ho j hj b hbf.1 f hbf.2
            by_cases h : IsLink (M.bc j b f)
            · obtain ⟨c, hc1, hc2⟩ := hl j h2 b hbf.1 f hbf.2 h
              rw [K.kept c c (by rw [hS, List.getElem?_range hc1]) h hc2, _root_.sub_self, _root_.sub_zero, ← hown]
            · rw [K.other h, ← hown]
          · exact (a3 b f).2 hbf
        exact hgoal
      rw [this]
  rw [g2, g3, hlist, ← hc]
  simp

example : (∀ i < Samples.channel.nel, ∀ b < Samples.channel.nbc, ∀ f < 2 * Samples.channel.ndim, (Samples.channel.bc i b f).own = (i : Int) + 1) ∧
    Samples.channel.ncurv = (Samples.channel.elem.map fun el => ((List.range 12).filter fun i => el.ccurv i ≠ []).length).sum := by
  decide +kernel

end Pymech
