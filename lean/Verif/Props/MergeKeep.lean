import Verif.Props.KeepTwice
import Verif.Props.CircleGeom

/-!
# C127 `keep_elements` undoes `merge`
-/

set_option autoImplicit false
set_option linter.unusedSectionVars false

namespace Pymech

open Spec

variable {F : Type} [Field F] [LinearOrder F] [IsStrictOrderedRing F] [FloorRing F]

namespace Spec

/-- A record of a boundary face of type `ext` that names no other face. -/
def Unlinked (ext : Name) (r : BC F) : Prop := r.typ = u3 ext ∧ r.p3 = 0 ∧ r.p4 = 0

/-- Every record names its own element, counted from one. -/
def OwnNumbers (M : HexaData F) : Prop := ∀ i < M.elem.length, ∀ b < M.nbc, ∀ f < 2 * M.ndim, (M.bc i b f).own = (i : Int) + 1

/-- `ncurv` is the number of curved edges. -/
def CurvCount (M : HexaData F) : Prop := M.ncurv = (M.elem.map fun el => ((List.range 12).filter fun i => el.ccurv i ≠ []).length).sum

/-- What has to be known of a mesh that is put together with another one and taken out again. -/
structure Separable (M : HexaData F) : Prop where
  nel : M.nel = M.elem.length
  grid : Grid M
  own : OwnNumbers M
  links : LinksExist M
  curv : CurvCount M
  nop : ∀ e < M.elem.length, ∀ f < 2 * M.ndim, (M.bc e 0 f).typ ≠ nP

end Spec

/-! ### The records after `merge` -/

/-- The records of `M` are those of `A`, except that in the fields below `nbc` faces related by `T` to another face became internal. -/
def Linked (T : Face → Face → Prop) (nbc : Nat) (A M : HexaData F) : Prop :=
  M.elem.length = A.elem.length ∧ ∀ i < A.elem.length, ∀ b f, M.bc i b f = A.bc i b f ∨
    (b < nbc ∧ ∃ y, T (i, f) y ∧ M.bc i b f = BC.link nE ((y.1 : Int) + 1) ((y.2 : Int) + 1) (A.bc i b f))

theorem link_link (r : BC F) (t t' : Name) (a b a' b' : Int) : BC.link t a b (BC.link t' a' b' r) = BC.link t a b r := rfl

theorem Linked.refl (T : Face → Face → Prop) (nbc : Nat) (A : HexaData F) : Linked T nbc A A := ⟨rfl, fun _ _ _ _ => Or.inl rfl⟩

theorem Linked.trans {T : Face → Face → Prop} {nbc : Nat} {A B C : HexaData F} (h : Linked T nbc A B) (h' : Linked T nbc B C) : Linked T nbc A C := by
  refine ⟨h'.1.trans h.1, fun i hi b f => ?_⟩
  rcases h'.2 i (by rw [h.1]; exact hi) b f with h1 | ⟨h0, y, h1, h2⟩
  · rw [h1]; exact h.2 i hi b f
  · refine Or.inr ⟨h0, y, h1, ?_⟩
    rw [h2]
    rcases h.2 i hi b f with h3 | ⟨-, y', -, h3⟩
    · rw [h3]
    · rw [h3, link_link]

theorem Linked.candidate {T : Face → Face → Prop} {nbc : Nat} {A M : HexaData F} (h : Linked T nbc A M) {ie : Bool} {i f : Nat} (hi : i < A.elem.length)
    (hc : Candidate ie (M.bc i 0 f)) : M.bc i 0 f = A.bc i 0 f ∧ Candidate ie (A.bc i 0 f) := by
  rcases h.2 i hi 0 f with h1 | ⟨-, y, -, h1⟩
  · exact ⟨h1, h1 ▸ hc⟩
  · rw [h1] at hc
    exact absurd rfl hc.1

theorem Linked.connects {T : Face → Face → Prop} (M : HexaData F) (nbc : Nat) (x0 x1 : Face) (hne : x0 ≠ x1) (h0 : T x0 x1) (h1 : T x1 x0) :
    Linked T nbc M ((List.range nbc).foldl (fun M ibc => M.connect ibc x0.1 x0.2 x1.1 x1.2) M) := by
  obtain ⟨hF, hb⟩ := connect_fields M nbc x0 x1 hne
  refine ⟨hF.len, fun i hi b f => ?_⟩
  rw [hb i hi b f]
  by_cases hlt : b < nbc
  · rw [if_pos hlt]
    unfold joinG
    by_cases e1 : (i, f) = x1
    · rw [if_pos e1, e1]
      exact Or.inr ⟨hlt, x0, h1, rfl⟩
    · rw [if_neg e1]
      by_cases e0 : (i, f) = x0
      · rw [if_pos e0, e0]
        exact Or.inr ⟨hlt, x1, h0, rfl⟩
      · rw [if_neg e0]
        exact Or.inl rfl
  · rw [if_neg hlt]
    exact Or.inl rfl

theorem foldlM_linked {α : Type} {T : Face → Face → Prop} {nbc : Nat} {A : HexaData F} {f : HexaData F × Nat → α → Py (HexaData F × Nat)} (l : List α)
    (hf : ∀ s, ∀ a ∈ l, Linked T nbc A s.1 → ∃ s', f s a = .ok s' ∧ Linked T nbc A s'.1) (s : HexaData F × Nat) (hs : Linked T nbc A s.1) :
    ∃ s', l.foldlM f s = .ok s' ∧ Linked T nbc A s'.1 := by
  induction l generalizing s with
  | nil => exact ⟨s, rfl, hs⟩
  | cons a l ih =>
    obtain ⟨t, ht, ht'⟩ := hf s a (List.mem_cons_self ..) hs
    obtain ⟨u, hu, hu'⟩ := ih (fun s x hx => hf s x (List.mem_cons_of_mem _ hx)) t ht'
    exact ⟨u, by rw [List.foldlM_cons, ht]; exact hu, hu'⟩

/-- The faces that `merge` may connect, in the numbering of the merged mesh. -/
def Joins (A B : HexaData F) (ie : Bool) (tol : F) (x y : Face) : Prop :=
  (∃ z, y = up A.elem.length z ∧ Meets A B ie (TouchTol A B tol) z x) ∨ (∃ z, x = up A.elem.length z ∧ Meets A B ie (TouchTol A B tol) z y)

/-- The records of a merged mesh, without periodic faces. -/
theorem merge_linked (A B : HexaData F) (tol : F) (ie ia : Bool) (hd : A.ndim = B.ndim) (hl : A.lr1.x = B.lr1.x) (h3 : A.ndim ≤ 3)
    (sA : Separable A) (sB : Separable B) : ∃ M n, A.merge B tol ie ia = .ok (M, n) ∧ Linked (Joins A B ie tol) (min A.nbc B.nbc) (A.append B) M := by
  have hA := sA.nel
  have hB := sB.nel
  have hg := Samples.append_grid A B sA.grid sB.grid
  have hlen : (A.append B).elem.length = A.elem.length + B.elem.length := append_length A B
  unfold HexaData.merge
  rw [if_neg (by simp [hd]), if_neg (by simp [hl])]
  simp only
  unfold HexaData.mergeWith
  simp only
  split_ifs with hn
  · exact ⟨_, _, rfl, Linked.refl _ _ _⟩
  suffices H : ∃ s', (prod2 (List.range' A.nel B.nel) (List.range (2 * A.ndim))).foldlM
      (mergeOuter (fun e0 f0 e1 f1 => closeFaces ((A.append B).el e0) f0 ((A.append B).el e1) f1 tol) (min A.nbc B.nbc) ie A.nel (2 * A.ndim)) (A.append B, 0)
        = .ok s' ∧ Linked (Joins A B ie tol) (min A.nbc B.nbc) (A.append B) s'.1 by
    obtain ⟨s', h1, h2⟩ := H
    exact ⟨s'.1, s'.2, h1, h2⟩
  refine foldlM_linked (A := A.append B) _ ?_ _ (Linked.refl _ _ _)
  intro s a ha hs
  obtain ⟨a1, a2⟩ := mem_prod2.1 ha
  rw [List.mem_range'_1] at a1
  rw [List.mem_range] at a2
  unfold mergeOuter
  simp only
  split_ifs with hc0
  · have la : a.1 < (A.append B).elem.length := by omega
    obtain ⟨r0, c0⟩ := hs.candidate la hc0
    have hty := append_typ A B (a.1 - A.elem.length) 0 a.2 (by omega)
    rw [show A.elem.length + (a.1 - A.elem.length) = a.1 by omega] at hty
    have hnp : (s.1.bc a.1 0 a.2).typ ≠ nP := by
      rw [r0, hty]
      exact sB.nop _ (by omega) _ (by omega)
    refine foldlM_linked (A := A.append B) _ ?_ _ hs
    intro t x hx ht
    obtain ⟨x1, x2⟩ := mem_prod2.1 hx
    rw [List.mem_range] at x1 x2
    have ⟨v, hv⟩ := (closeFaces_near _ hg tol a x la (by omega) (by omega) (by omega)).1
    unfold mergeInner
    simp only
    split_ifs with hc1
    · rw [hv]
      cases v
      · exact ⟨_, rfl, ht⟩
      · unfold HexaData.mergePair
        rw [if_neg (fun hc => hnp (hc.1.trans hc.2))]
        refine ⟨_, rfl, ?_⟩
        obtain ⟨r1, c1⟩ := ht.candidate (by omega) hc1
        have hnear := (closeFaces_near _ hg tol a x la (by omega) (by omega) (by omega)).2.1 hv
        have hup : a = up A.elem.length (a.1 - A.elem.length, a.2) := by
          unfold up
          apply Prod.ext <;> simp only
          omega
        have hm : Meets A B ie (TouchTol A B tol) (a.1 - A.elem.length, a.2) x := by
          refine ⟨by simp only; omega, by rw [← hd]; exact a2, by omega, x2, ?_, ?_, ?_⟩
          · unfold Candidate at c0 ⊢
            rw [hty] at c0
            exact c0
          · rw [append_bc_left A B _ _ _ (by omega)] at c1
            exact c1
          · unfold TouchTol
            rw [← hup]
            exact hnear
        refine ht.trans (Linked.connects _ _ a x ?_ (Or.inr ⟨_, hup, hm⟩) (Or.inl ⟨_, hup, hm⟩))
        rintro rfl
        omega
    · exact ⟨_, rfl, ht⟩
  · exact ⟨_, rfl, hs⟩

theorem range_args (M : HexaData F) (a n : Nat) (h : a + n ≤ M.nel) : KeepArgs M ((List.range' a n).map fun i : Nat => (i : Int)) := by
  constructor
  · exact (List.nodup_map_iff (fun a b h => by simpa using h)).2 (List.nodup_range' ..)
  · intro x hx
    obtain ⟨i, hi, rfl⟩ := List.mem_map.1 hx
    have := List.mem_range'_1.1 hi
    omega

/-- `keep_elements` for the elements `a … a + n - 1`, which may be linked among themselves and to others. -/
theorem keep_range (M N : HexaData F) (ext : Name) (a : Nat) (hn : M.nel = M.elem.length) (hl : LinksExist M) (hN : N.nel = N.elem.length)
    (ha : a + N.nel ≤ M.nel) (hb : N.nbc = M.nbc) (hd : N.ndim = M.ndim) (hc : CurvCount N)
    (hel : ∀ i < N.nel, M.el (a + i) = { N.el i with bcs := (M.el (a + i)).bcs })
    (hout : ∀ i < N.nel, ∀ b f, ¬ (b < N.nbc ∧ f < 2 * N.ndim) → M.bc (a + i) b f = N.bc i b f)
    (hin : ∀ i < N.nel, ∀ b < N.nbc, ∀ f < 2 * N.ndim, ∀ r, KeptRec (List.range' a N.nel) ext i (M.bc (a + i) b f) r → r = N.bc i b f) :
    keepElements M ((List.range' a N.nel).map fun i : Nat => (i : Int)) ext = .ok { M with elem := N.elem, nel := N.nel, ncurv := N.ncurv } := by
  obtain ⟨S, R, g1, g2, g3, g4, g5⟩ := keep_elements_spec M hn _ (range_args M a N.nel ha) ext hl
  have hS : S = List.range' a N.nel := sorts_unique g1 ⟨List.pairwise_lt_range', List.Perm.refl _⟩
  have hlist : R.elem = N.elem := by
    apply List.ext_getElem
    · rw [g4, hS, List.length_range', hN]
    · intro j h1 h2
      rw [← R.el_eq_getElem j h1, ← N.el_eq_getElem j h2]
      have hj : j < N.nel := by omega
      have hSj : S[j]? = some (a + j) := by rw [hS, List.getElem?_range' hj, Nat.one_mul]
      obtain ⟨a1, a2, a3⟩ := g5 j _ hSj
      rw [a2, hel j hj]
      have : (R.el j).bcs = (N.el j).bcs := by
        funext b f
        have hgoal : R.bc j b f = N.bc j b f := by
          by_cases hbf : b < N.nbc ∧ f < 2 * N.ndim
          · have K := (a3 b f).1 (by rw [← hb, ← hd]; exact hbf)
            rw [hS] at K
            exact hin j hj b hbf.1 f hbf.2 _ K
          · rw [(a3 b f).2 (by rw [← hb, ← hd]; exact hbf)]
            exact hout j hj b f hbf
        exact hgoal
      rw [this]
  rw [g2, g3, hlist, ← hc]
  simp

theorem trunc_int (z : Int) : trunc ((z : Int) : F) = z := by
  unfold trunc
  split_ifs <;> simp

theorem trunc_up (x : F) (c k : Nat) (h : trunc x = (c : Int) + 1) : trunc (x + ((k : Nat) : Int)) = ((k + c : Nat) : Int) + 1 := by
  have hp3 : (0 : F) ≤ x := by
    by_contra hlt
    push Not at hlt
    unfold trunc at h
    rw [if_neg (not_le.2 hlt)] at h
    have : ⌈x⌉ ≤ 0 := Int.ceil_le.2 (by simpa using hlt.le)
    omega
  rw [trunc_add_int _ _ hp3 (by have : (0 : F) ≤ k := Nat.cast_nonneg k; push_cast; linarith), h]
  push_cast
  ring

/-- **C127.** Two meshes are merged, and the elements of either are kept: both come back, if the faces that were connected carried the condition
that `keep_elements` writes. Only the entry `elmap` is not restored. -/
theorem C127 (A B : HexaData F) (tol : F) (ie ia : Bool) (ext : Name) (hE : ext ≠ nE) (hP : ext ≠ nP) (hd : A.ndim = B.ndim) (h3 : A.ndim ≤ 3)
    (hl : A.lr1.x = B.lr1.x) (hb : A.nbc = B.nbc) (sA : Separable A) (sB : Separable B)
    (pl : ∀ y x, Meets A B ie (TouchTol A B tol) y x → ∀ b < A.nbc, Unlinked ext (A.bc x.1 b x.2) ∧ Unlinked ext (B.bc y.1 b y.2)) :
    ∃ M n, A.merge B tol ie ia = .ok (M, n) ∧
      keepElements M ((List.range' 0 A.nel).map fun i : Nat => (i : Int)) ext = .ok { A with elmap := M.elmap } ∧
      keepElements M ((List.range' A.nel B.nel).map fun i : Nat => (i : Int)) ext =
        .ok { A with elem := B.elem, nel := B.nel, ncurv := B.ncurv, elmap := M.elmap } := by
  have hA := sA.nel
  have hB := sB.nel
  obtain ⟨M, n, hM, -, lk⟩ := merge_linked A B tol ie ia hd hl h3 sA sB
  obtain ⟨c1, c2, c3, c4⟩ := merge_concat A B tol ie ia M n hM
  rw [append_length] at lk
  have hMb : M.nbc = A.nbc := by rw [c1]
  have hMd : M.ndim = A.ndim := by rw [c1]
  have hMn : M.nel = A.nel + B.nel := by rw [c1]
  -- the records of the two parts
  have recA : ∀ i < A.elem.length, ∀ b f, M.bc i b f = A.bc i b f ∨ ((b < A.nbc ∧ f < 2 * A.ndim) ∧ Unlinked ext (A.bc i b f) ∧
      ∃ y : Face, A.nel ≤ y.1 ∧ y.1 < A.nel + B.nel ∧ M.bc i b f = BC.link nE ((y.1 : Int) + 1) ((y.2 : Int) + 1) (A.bc i b f)) := by
    intro i hi b f
    rcases lk i (by omega) b f with h | ⟨h0, y, h1, h2⟩
    · rw [append_bc_left A B i b f hi] at h
      exact Or.inl h
    · rw [append_bc_left A B i b f hi] at h2
      rcases h1 with ⟨z, hz, hm⟩ | ⟨z, hz, hm⟩
      · refine Or.inr ⟨⟨by omega, hm.2.2.2.1⟩, (pl _ _ hm b (by omega)).1, y, ?_, ?_, h2⟩
        · rw [hz]; unfold up; simp only; omega
        · rw [hz]; unfold up; have := hm.1; simp only; omega
      · have := congrArg Prod.fst hz
        simp only [up] at this
        omega
  have recB : ∀ i < B.elem.length, ∀ b f, M.bc (A.elem.length + i) b f = (A.append B).bc (A.elem.length + i) b f ∨
      ((b < B.nbc ∧ f < 2 * B.ndim) ∧ Unlinked ext (B.bc i b f) ∧
      ∃ y : Face, y.1 < A.nel ∧ M.bc (A.elem.length + i) b f =
        BC.link nE ((y.1 : Int) + 1) ((y.2 : Int) + 1) ((A.append B).bc (A.elem.length + i) b f)) := by
    intro i hi b f
    rcases lk (A.elem.length + i) (by omega) b f with h | ⟨h0, y, h1, h2⟩
    · exact Or.inl h
    · rcases h1 with ⟨z, hz, hm⟩ | ⟨z, hz, hm⟩
      · have := hm.2.2.1
        simp only at this
        omega
      · have e1 := congrArg Prod.fst hz
        have e2 := congrArg Prod.snd hz
        simp only [up] at e1 e2
        have e1 : z.1 = i := by omega
        have p := (pl _ _ hm b (by omega)).2
        rw [e1, ← e2] at p
        exact Or.inr ⟨⟨by omega, by have := hm.2.1; omega⟩, p, y, by have := hm.2.2.1; omega, h2⟩
  have isl : ∀ (r : BC F) (x y : Int), IsLink (BC.link nE x y r) := fun _ _ _ => Or.inl rfl
  have tr : ∀ (r : BC F) (x y : Int), trunc (BC.link nE x y r).p3 = x := fun _ x _ => trunc_int x
  have notlink : ∀ r : BC F, Unlinked ext r → ¬ IsLink r := by
    rintro r ⟨hp, -⟩ (h | h)
    · exact hE ((u3_single _ 'E').1 (hp.symm.trans h))
    · exact hP ((u3_single _ 'P').1 (hp.symm.trans h))
  have shl : ∀ i, ∀ r : BC F, ∀ c : Nat, IsLink r → trunc r.p3 = (c : Int) + 1 →
      (shifted (A.nel : Int) 0 (0 ≤ i) r).p3 = r.p3 + ((A.nel : Nat) : Int) := by
    intro i r c h hc
    unfold shifted
    simp only
    rw [if_pos ⟨h, by rw [hc]; push_cast; omega⟩]
  have links : LinksExist M := by
    intro e he b hbb f hf hlk
    rw [hMb] at hbb
    rw [hMd] at hf
    rw [hMn]
    rw [c2] at he
    by_cases hlt : e < A.elem.length
    · rcases recA e hlt b f with h | ⟨-, -, y, y1, y2, h⟩
      · rw [h] at hlk ⊢
        obtain ⟨c, hc, hc'⟩ := sA.links e hlt b hbb f hf hlk
        exact ⟨c, by omega, hc'⟩
      · rw [h]
        exact ⟨y.1, by omega, tr _ _ _⟩
    · obtain ⟨k, rfl⟩ : ∃ k, e = A.elem.length + k := ⟨e - A.elem.length, by omega⟩
      have hk : k < B.elem.length := by omega
      rcases recB k hk b f with h | ⟨-, -, y, y1, h⟩
      · rw [h, append_bc_right A B k b f hk (by omega) (by omega)] at hlk ⊢
        have hlk' : IsLink (B.bc k b f) := hlk
        obtain ⟨c, hc, hc'⟩ := sB.links k hk b (by omega) f (by omega) hlk'
        exact ⟨A.nel + c, by omega, by rw [shl k _ c hlk' hc']; exact trunc_up _ _ _ hc'⟩
      · rw [h]
        exact ⟨y.1, by omega, tr _ _ _⟩
  have hMl : M.nel = M.elem.length := by omega
  refine ⟨M, n, hM, ?_, ?_⟩
  · have K := keep_range M A ext 0 hMl links hA (by omega) hMb.symm hMd.symm sA.curv (fun i hi => by rw [Nat.zero_add]; exact c3 i (by omega)) ?_ ?_
    · rw [K, c1]
    · intro i hi b f ho
      rw [Nat.zero_add]
      rcases recA i (by omega) b f with h | ⟨h, -⟩
      · exact h
      · exact absurd h ho
    · intro i hi b hbb f hf r K
      rw [Nat.zero_add] at K
      have hown := sA.own i (by omega) b hbb f hf
      rcases recA i (by omega) b f with h | ⟨-, p, y, y1, y2, h⟩
      · rw [h] at K
        by_cases hlk : IsLink (A.bc i b f)
        · obtain ⟨c, hc, hc'⟩ := sA.links i (by omega) b hbb f hf hlk
          rw [K.kept c c (by rw [List.getElem?_range' hc]; simp) hlk hc', _root_.sub_self, _root_.sub_zero, ← hown]
        · rw [K.other hlk, ← hown]
      · rw [h] at K
        rw [K.removed (isl _ _ _) (fun c hc hh => by
          rw [tr] at hh
          have := List.mem_range'_1.1 hc
          omega)]
        obtain ⟨p1, p2, p3⟩ := p
        simp only [BC.link, ← hown, ← p1]
        rw [show (0 : F) = (A.bc i b f).p3 from p2.symm]
        conv_rhs => rw [show A.bc i b f = { A.bc i b f with p3 := (A.bc i b f).p3, p4 := (A.bc i b f).p4 } from rfl, p3, ← p2]
  · have K := keep_range M B ext A.nel hMl links hB (by omega) (by omega) (by omega) sB.curv (fun i hi => by rw [hA]; exact c4 i (by omega)) ?_ ?_
    · rw [K, c1]
    · intro i hi b f ho
      rw [hA]
      rcases recB i (by omega) b f with h | ⟨h, -⟩
      · rw [h]
        conv_lhs => unfold HexaData.bc
        rw [append_el_right A B i (by omega)]
        simp only [ho, if_false]
      · exact absurd h ho
    · intro i hi b hbb f hf r K
      have hi' : i < B.elem.length := by omega
      rw [hA] at K
      have hown := sB.own i hi' b hbb f hf
      rcases recB i hi' b f with h | ⟨-, p, y, y1, h⟩
      · rw [h, append_bc_right A B i b f hi' hbb hf] at K
        by_cases hlk : IsLink (B.bc i b f)
        · obtain ⟨c, hc, hc'⟩ := sB.links i hi' b hbb f hf hlk
          have e := shl i _ c hlk hc'
          have hk := K.kept c (A.nel + c) (by rw [List.getElem?_range' hc, Nat.one_mul, hA]) hlk (by rw [e]; exact trunc_up _ _ _ hc')
          rw [hk, e, ← hown]
          unfold shifted
          simp only
          congr 1
          push_cast
          rw [hA]
          ring_nf
          rfl
        · have hk := K.other hlk
          rw [hk, ← hown]
          unfold shifted
          simp only
          rw [if_neg (fun h => hlk h.1)]
      · rw [h, append_bc_right A B i b f hi' hbb hf] at K
        rw [K.removed (isl _ _ _) (fun c hc hh => by
          rw [tr] at hh
          have := List.mem_range'_1.1 hc
          omega)]
        obtain ⟨p1, p2, p3⟩ := p
        unfold shifted
        simp only [BC.link, ← hown, ← p1]
        conv_rhs => rw [show B.bc i b f = { B.bc i b f with p3 := (B.bc i b f).p3, p4 := (B.bc i b f).p4 } from rfl, p3, p2]

namespace Samples

/-- Boolean form of the hypotheses of `C127`. -/
def separableB (M : HexaData ℚ) (ext : Name) : Bool :=
  wfB M && gridB M && validB M && decide (∀ i < M.elem.length, ∀ b < M.nbc, ∀ f < 2 * M.ndim, (M.bc i b f).own = (i : Int) + 1) &&
  decide (M.ncurv = (M.elem.map fun el => ((List.range 12).filter fun i => el.ccurv i ≠ []).length).sum) &&
  decide (∀ e < M.elem.length, ∀ b < M.nbc, ∀ f < 2 * M.ndim, (M.bc e b f).typ ≠ nP) &&
  decide (∀ e < M.elem.length, ∀ b < M.nbc, ∀ f < 2 * M.ndim, (M.bc e 0 f).typ = nE ∨
    ((M.bc e b f).typ = u3 ext ∧ (M.bc e b f).p3 = 0 ∧ (M.bc e b f).p4 = 0)) && decide (0 < M.nbc)

theorem separable_of_B (M : HexaData ℚ) (ext : Name) (h : separableB M ext = true) : Separable M ∧
    ∀ e < M.elem.length, ∀ f < 2 * M.ndim, (M.bc e 0 f).typ ≠ nE → ∀ b < M.nbc, Unlinked ext (M.bc e b f) := by
  unfold separableB at h
  simp only [Bool.and_eq_true, decide_eq_true_eq] at h
  obtain ⟨⟨⟨⟨⟨⟨⟨h1, h2⟩, h3⟩, h4⟩, h5⟩, h6⟩, h8⟩, h7⟩ := h
  refine ⟨⟨(wf_of_wfB M h1).nel, grid_of_gridB M h2, h4, ?_, h5, fun e he f hf => h6 e he 0 h7 f hf⟩,
    fun e he f hf ht b hb => (h8 e he b hb f hf).resolve_left ht⟩
  intro e he b hb f hf h
  obtain ⟨y, y1, _, y3, _⟩ := valid_of_validB M h3 b hb (e, f) he hf h
  exact ⟨y.1, by rw [(wf_of_wfB M h1).nel]; exact y1, y3.1⟩

/-- Two walled cavities side by side. -/
def cavity (x : ℚ) : HexaData ℚ := box 2 2 x nW nW nW nW

end Samples

/-- Two cavities are joined along a wall and separated again. -/
example : ∃ M n, (Samples.cavity 0).merge (Samples.cavity 2) (1 / 1000) true false = .ok (M, n) ∧
    keepElements M ((List.range' 0 (Samples.cavity 0).nel).map fun i : Nat => (i : Int)) Samples.nW = .ok { Samples.cavity 0 with elmap := M.elmap } ∧
    keepElements M ((List.range' (Samples.cavity 0).nel (Samples.cavity 2).nel).map fun i : Nat => (i : Int)) Samples.nW =
      .ok { Samples.cavity 0 with elem := (Samples.cavity 2).elem, nel := (Samples.cavity 2).nel, ncurv := (Samples.cavity 2).ncurv, elmap := M.elmap } := by
  obtain ⟨sA, pA⟩ := Samples.separable_of_B (Samples.cavity 0) Samples.nW (by decide +kernel)
  obtain ⟨sB, pB⟩ := Samples.separable_of_B (Samples.cavity 2) Samples.nW (by decide +kernel)
  have hn : (Samples.cavity 0).nbc = (Samples.cavity 2).nbc := by decide +kernel
  exact C127 (Samples.cavity 0) (Samples.cavity 2) (1 / 1000) true false Samples.nW (by decide) (by decide) (by decide +kernel) (by decide +kernel)
    (by decide +kernel) hn sA sB
    (fun y x hm b hb => ⟨pA x.1 hm.2.2.1 x.2 hm.2.2.2.1 hm.2.2.2.2.2.1.1 b hb, pB y.1 hm.1 y.2 hm.2.1 hm.2.2.2.2.1.1 b (hn ▸ hb)⟩)

example : (Samples.cavity 0).nel = 4 ∧ (Samples.cavity 2).nel = 4 := by decide +kernel

/-- The two faces on `x = 2` are connected. -/
example : ∃ M, (Samples.cavity 0).merge (Samples.cavity 2) (1 / 1000) true false = .ok (M, 2) := by
  have h : (match (Samples.cavity 0).merge (Samples.cavity 2) (1 / 1000) true false with
    | .ok s => decide (s.2 = 2)
    | .error _ => false) = true := by decide +kernel
  revert h
  cases (Samples.cavity 0).merge (Samples.cavity 2) (1 / 1000) true false with
  | error e => intro h; cases h
  | ok s => intro h; exact ⟨s.1, by rw [← of_decide_eq_true h]⟩

end Pymech
