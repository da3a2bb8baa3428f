import Verif.Props.Box
import Verif.Props.Generate

/-!
# C90 `generate_internal_bcs` and `delete_internal_bcs` on the meshes of `gen_box`
-/

set_option autoImplicit false
set_option linter.unusedSectionVars false

namespace Pymech

open Spec

variable {F : Type} [Field F] [LinearOrder F] [IsStrictOrderedRing F] [FloorRing F]

namespace Spec

/-- Order in which the faces are visited. -/
def Before (x y : Face) : Prop := x.1 < y.1 ∨ x.1 = y.1 ∧ x.2 < y.2

end Spec

theorem find?_first {α : Type} {r : α → α → Prop} {l : List α} (hl : l.Pairwise r) (p : α → Bool) (a : α) (ha : a ∈ l) (hp : p a = true)
    (h : ∀ u ∈ l, r u a → p u = false) : l.find? p = some a := by
  induction l with
  | nil => simp at ha
  | cons b l ih =>
    rw [List.pairwise_cons] at hl
    rcases List.mem_cons.1 ha with rfl | hm
    · simp [hp]
    · have : p b = false := h b (by simp) (hl.1 a hm)
      rw [List.find?_cons_of_neg (by simp [this])]
      exact ih hl.2 hm fun u hu hr => h u (by simp [hu]) hr

theorem faces_pairwise (s m n : Nat) : (prod2 (List.range' s m) (List.range n)).Pairwise Before := by
  unfold prod2
  rw [List.pairwise_flatMap]
  constructor
  · intro i _
    rw [List.pairwise_map]
    exact List.pairwise_lt_range.imp fun h => .inr ⟨rfl, h⟩
  · refine (List.pairwise_lt_range' ..).imp ?_
    intro a b hab x hx y hy
    obtain ⟨j, -, rfl⟩ := List.mem_map.mp hx
    obtain ⟨k, -, rfl⟩ := List.mem_map.mp hy
    exact .inl hab

/-- Two meshes that differ at most in the conditions, and agree in these, are equal. -/
theorem Frame.ext {A B : HexaData F} (h : Frame A B) (hb : ∀ i < A.elem.length, ∀ b f, B.bc i b f = A.bc i b f) : B = A := by
  have : B.elem = A.elem := by
    apply List.ext_getElem h.len
    intro i h1 h2
    have := h.el i h2
    rw [← HexaData.el_eq_getElem B i h1, ← HexaData.el_eq_getElem A i h2, this]
    have e : (B.el i).bcs = (A.el i).bcs := by
      funext b f; exact hb i h2 b f
    rw [e]
  rw [h.hdr, this]

/-- A mesh `T` obtained from `M` by connecting every face `x` of a set `I` of free faces with its partner `p x`, in all
fields. -/
structure Paired (M T : HexaData F) (I : Face → Bool) (p : Face → Face) : Prop where
  frame : Frame M T
  free : ∀ x : Face, x.1 < M.elem.length → x.2 < 2 * M.ndim → (Free M x ↔ I x = true)
  par : ∀ x : Face, x.1 < M.elem.length → x.2 < 2 * M.ndim → I x = true →
    (p x).1 < M.elem.length ∧ (p x).2 < 2 * M.ndim ∧ I (p x) = true ∧ p (p x) = x ∧ (p x).1 ≠ x.1
  bc : ∀ x : Face, x.1 < M.elem.length → ∀ b, T.bc x.1 b x.2 =
    if b < M.nbc ∧ x.2 < 2 * M.ndim ∧ I x = true then linked x (p x) (M.bc x.1 b x.2) else M.bc x.1 b x.2

/-- State of the loop after the faces `done`: the pairs with a member among these are connected. -/
structure PInv (M : HexaData F) (I : Face → Bool) (p : Face → Face) (done : List Face) (s : GenState F) : Prop where
  frame : Frame M s.mesh
  lc : ∀ x : Face, x.1 < M.elem.length → x.2 < 2 * M.ndim → (s.lc x.1 x.2 = true ↔ I x = false ∨ x ∈ done ∨ p x ∈ done)
  bc : ∀ x : Face, x.1 < M.elem.length → ∀ b, s.mesh.bc x.1 b x.2 =
    if b < M.nbc ∧ x.2 < 2 * M.ndim ∧ I x = true ∧ (x ∈ done ∨ p x ∈ done) then linked x (p x) (M.bc x.1 b x.2)
    else M.bc x.1 b x.2
  n : s.n = (done.filter fun x => I x && decide (x.1 < (p x).1)).length * M.nbc

/-- The loop of `generate_internal_bcs` makes exactly the wanted connections if, whenever it looks for the partner of a
face, the first close face that it sees and that is not connected yet is this partner. -/
theorem generateWith_pairs (M T : HexaData F) (hw : WF M) (close : Nat → Nat → Nat → Nat → Bool) (I : Face → Bool) (p : Face → Face)
    (P : Paired M T I p)
    (hclose : ∀ x : Face, x.1 < M.elem.length → x.2 < 2 * M.ndim → I x = true → x.1 < (p x).1 → close x.1 x.2 (p x).1 (p x).2 = true)
    (hord : ∀ x u : Face, x.1 < M.elem.length → x.2 < 2 * M.ndim → I x = true → x.1 < (p x).1 →
      u.1 < M.elem.length → u.2 < 2 * M.ndim → I u = true → x.1 < u.1 → close x.1 x.2 u.1 u.2 = true →
      u = p x ∨ Before (p u) x ∨ Before (p x) u) :
    generateWith close M = (T, ((prod2 (List.range M.nel) (List.range (2 * M.ndim))).filter
      fun x => I x && decide (x.1 < (p x).1)).length * M.nbc) := by
  have hwn := hw.nel
  have hall : ∀ x : Face, x ∈ prod2 (List.range M.nel) (List.range (2 * M.ndim)) ↔ x.1 < M.elem.length ∧ x.2 < 2 * M.ndim := by
    intro x; rw [mem_prod2, List.mem_range, List.mem_range, hwn]
  have hpw : (prod2 (List.range M.nel) (List.range (2 * M.ndim))).Pairwise Before := by
    rw [List.range_eq_range']; exact faces_pairwise _ _ _
  have key := foldl_inv_pre (f := genStep close M.nel (2 * M.ndim)) (PInv M I p)
    (prod2 (List.range M.nel) (List.range (2 * M.ndim))) ⟨M, fun e f => decide ((M.bc e 0 f).typ ≠ []), 0⟩ ?_ ?_
  · have hm : ((prod2 (List.range M.nel) (List.range (2 * M.ndim))).foldl (genStep close M.nel (2 * M.ndim))
        ⟨M, fun e f => decide ((M.bc e 0 f).typ ≠ []), 0⟩).mesh = T := by
      have f2 : Frame T M := by
        refine ⟨?_, P.frame.len.symm, fun i hi => ?_⟩
        · rw [P.frame.hdr]
        · have := P.frame.el i (by rw [← P.frame.len]; exact hi)
          rw [this]
      refine Frame.ext (f2.trans key.frame) ?_
      intro i hi b f
      rw [P.frame.len] at hi
      have k1 := key.bc (i, f) hi b
      have k2 := P.bc (i, f) hi b
      simp only at k1 k2
      rw [k1, k2]
      refine if_congr ?_ rfl rfl
      constructor
      · rintro ⟨a, b, c, -⟩; exact ⟨a, b, c⟩
      · rintro ⟨a, b, c⟩; exact ⟨a, b, c, .inl ((hall _).2 ⟨hi, b⟩)⟩
    unfold generateWith
    simp only
    rw [hm, key.n]
  · refine ⟨Frame.refl M, ?_, ?_, by simp⟩
    · intro x h1 h2
      have := P.free x h1 h2
      unfold Free at this
      simp only [decide_eq_true_eq, List.not_mem_nil, or_false]
      rw [← Bool.not_eq_true, ← this]
    · intro x _ b; simp
  · intro done a r s hl K
    have ha := (hall a).1 (by rw [← hl]; simp)
    -- the faces before `a` are those done
    have hbef : ∀ u : Face, u.1 < M.elem.length → u.2 < 2 * M.ndim → Before u a → u ∈ done := by
      intro u h1 h2 hb
      have hu : u ∈ done ++ a :: r := by rw [hl]; exact (hall u).2 ⟨h1, h2⟩
      rcases List.mem_append.1 hu with h | h
      · exact h
      · rw [← hl, List.pairwise_append, List.pairwise_cons] at hpw
        rcases List.mem_cons.1 h with rfl | h
        · rcases hb with h | h <;> omega
        · have := hpw.2.1.1 u h
          rcases hb with h | h <;> rcases this with h' | h' <;> omega
    have hnd : a ∉ done := by
      intro h
      rw [← hl, List.pairwise_append] at hpw
      have := hpw.2.2 a h a (by simp)
      rcases this with h | h <;> omega
    have hlc := K.lc a ha.1 ha.2
    have hbefore : ∀ u ∈ done, Before u a := by
      intro u h
      rw [← hl, List.pairwise_append] at hpw
      exact hpw.2.2 u h a (by simp)
    obtain ⟨e1, f1⟩ := a
    unfold genStep
    by_cases hc : s.lc e1 f1 = true
    · simp only [hc, if_true]
      have hc' := hlc.1 hc
      -- nothing new: either the face is not to be connected, or it has been
      have same : ∀ x : Face, x.1 < M.elem.length → x.2 < 2 * M.ndim → I x = true →
          ((x ∈ done ++ [(e1, f1)] ∨ p x ∈ done ++ [(e1, f1)]) ↔ (x ∈ done ∨ p x ∈ done)) := by
        intro x h1 h2 hI
        constructor
        · intro h
          by_cases hxa : x = (e1, f1)
          · subst hxa
            rcases hc' with h' | h'
            · rw [h'] at hI; cases hI
            · exact h'
          · by_cases hpa : p x = (e1, f1)
            · obtain ⟨_, _, q3, q4, _⟩ := P.par x h1 h2 hI
              rw [hpa] at q3 q4
              rcases hc' with h' | h'
              · rw [h'] at q3; cases q3
              · rw [q4] at h'
                exact h'.elim (fun h => absurd h hnd) .inl
            · simp only [List.mem_append, List.mem_singleton, hxa, hpa, or_false] at h
              exact h
        · rintro (h | h)
          · exact .inl (by simp [h])
          · exact .inr (by simp [h])
      refine ⟨K.frame, ?_, ?_, ?_⟩
      · intro x h1 h2
        rw [K.lc x h1 h2]
        by_cases hI : I x = true
        · rw [same x h1 h2 hI]
        · simp only [Bool.not_eq_true] at hI; simp [hI]
      · intro x h1 b
        rw [K.bc x h1 b]
        refine if_congr ?_ rfl rfl
        constructor
        · rintro ⟨u, v, w, z⟩; exact ⟨u, v, w, (same x h1 v w).2 z⟩
        · rintro ⟨u, v, w, z⟩; exact ⟨u, v, w, (same x h1 v w).1 z⟩
      · rw [K.n, List.filter_append]
        have : ¬ (I (e1, f1) = true ∧ e1 < (p (e1, f1)).1) := by
          rintro ⟨hI, h⟩
          rcases hc' with h' | h' | h'
          · rw [h'] at hI; cases hI
          · exact hnd h'
          · rcases hbefore _ h' with h | h <;> simp only at h <;> omega
        simp [this]
    · simp only [hc, if_false, Bool.false_eq_true]
      have hc' : ¬ (I (e1, f1) = false ∨ (e1, f1) ∈ done ∨ p (e1, f1) ∈ done) := fun h => hc (hlc.2 h)
      push Not at hc'
      obtain ⟨hI, -, hpd⟩ := hc'
      have hI : I (e1, f1) = true := by simpa using hI
      obtain ⟨q1, q2, q3, q4, q5⟩ := P.par _ ha.1 ha.2 hI
      have hlt : e1 < (p (e1, f1)).1 := by
        rcases Nat.lt_or_ge e1 (p (e1, f1)).1 with h | h
        · exact h
        · exact absurd (hbef _ q1 q2 (.inl (by simp only at q5 ⊢; omega))) hpd
      have hfind : (prod2 (List.range' (e1 + 1) (M.nel - (e1 + 1))) (List.range (2 * M.ndim))).find?
          (fun u => !s.lc u.1 u.2 && close e1 f1 u.1 u.2) = some (p (e1, f1)) := by
        apply find?_first (faces_pairwise _ _ _)
        · rw [mem_prod2, List.mem_range'_1, List.mem_range]
          exact ⟨⟨by omega, by omega⟩, q2⟩
        · have : s.lc (p (e1, f1)).1 (p (e1, f1)).2 = false := by
            rw [← Bool.not_eq_true, K.lc _ q1 q2, q4]
            rintro (h | h | h)
            · rw [q3] at h; cases h
            · exact hpd h
            · exact hnd h
          rw [this]
          exact hclose _ ha.1 ha.2 hI hlt
        · intro u hu hbu
          rw [mem_prod2, List.mem_range'_1, List.mem_range] at hu
          by_contra hne
          simp only [Bool.not_eq_false, Bool.and_eq_true, Bool.not_eq_true'] at hne
          have hu1 : u.1 < M.elem.length := by omega
          have hul : ¬ (I u = false ∨ u ∈ done ∨ p u ∈ done) := fun h => by
            have := (K.lc u hu1 hu.2).2 h
            rw [hne.1] at this; cases this
          push Not at hul
          obtain ⟨i1, i2, i3⟩ := hul
          have i1 : I u = true := by simpa using i1
          obtain ⟨t1, t2, -, -, -⟩ := P.par u hu1 hu.2 i1
          rcases hord (e1, f1) u ha.1 ha.2 hI hlt hu1 hu.2 i1 (by simp only; omega) hne.2 with h | h | h
          · rw [h] at hbu; rcases hbu with h | h <;> omega
          · exact i3 (hbef _ t1 t2 h)
          · rcases hbu with h' | h' <;> rcases h with h | h <;> omega
      rw [hfind]
      rcases hpx : p (e1, f1) with ⟨e2, f2⟩
      rw [hpx] at q1 q2 q3 q4 q5 hlt hpd
      simp only at q1 q2 q5 hlt ha
      have hne : ((e1, f1) : Face) ≠ (e2, f2) := fun h => q5 (congrArg Prod.fst h).symm
      obtain ⟨cf1, cf2⟩ := connectFull_fields s.mesh s.mesh.nbc (e1, f1) (e2, f2) hne
      have hnb : s.mesh.nbc = M.nbc := by rw [K.frame.hdr]
      -- which faces are new
      have mem : ∀ x : Face, x.1 < M.elem.length → x.2 < 2 * M.ndim → I x = true →
          ((x ∈ done ++ [(e1, f1)] ∨ p x ∈ done ++ [(e1, f1)]) ↔ ((x ∈ done ∨ p x ∈ done) ∨ x = (e1, f1) ∨ x = (e2, f2))) := by
        intro x h1 h2 hx
        have : p x = (e1, f1) ↔ x = (e2, f2) := by
          constructor
          · intro h
            rw [← (P.par x h1 h2 hx).2.2.2.1, h, hpx]
          · rintro rfl; exact q4
        simp only [List.mem_append, List.mem_singleton, this]
        exact or_or_or_comm
      refine ⟨K.frame.trans cf1, ?_, ?_, ?_⟩
      · intro x h1 h2
        have k := K.lc x h1 h2
        simp only [Bool.or_eq_true, Bool.and_eq_true, beq_iff_eq]
        rw [k]
        by_cases hx : I x = true
        · rw [mem x h1 h2 hx]
          obtain ⟨a, c⟩ := x
          simp only [Prod.mk.injEq, or_assoc]
        · simp only [Bool.not_eq_true] at hx; simp [hx]
      · intro x h1 b
        have k := K.bc x h1 b
        rw [cf2 x.1 (by rw [K.frame.len]; exact h1) b x.2, hnb]
        by_cases hb : b < M.nbc
        · rw [if_pos hb]
          by_cases hx2 : x = (e2, f2)
          · subst hx2
            have nd : ¬ ((e2, f2) ∈ done ∨ p (e2, f2) ∈ done) := by
              rw [q4]; rintro (h | h)
              · exact hpd h
              · exact hnd h
            rw [if_neg fun h => nd h.2.2.2] at k
            simp only at k ⊢
            rw [if_pos trivial, k, if_pos ⟨hb, q2, q3, by rw [q4]; simp⟩, q4]
          · rw [if_neg hx2]
            by_cases hx1 : x = (e1, f1)
            · subst hx1
              have nd : ¬ ((e1, f1) ∈ done ∨ p (e1, f1) ∈ done) := by
                rw [hpx]; rintro (h | h)
                · exact hnd h
                · exact hpd h
              rw [if_neg fun h => nd h.2.2.2] at k
              simp only at k ⊢
              rw [if_pos trivial, k, if_pos ⟨hb, ha.2, hI, by simp⟩, hpx]
            · rw [if_neg hx1, k]
              refine if_congr ?_ rfl rfl
              constructor
              · rintro ⟨u, v, w, z⟩; exact ⟨u, v, w, (mem x h1 v w).2 (.inl z)⟩
              · rintro ⟨u, v, w, z⟩
                refine ⟨u, v, w, ?_⟩
                rcases (mem x h1 v w).1 z with h | h | h
                · exact h
                · exact absurd h hx1
                · exact absurd h hx2
        · rw [if_neg hb, k, if_neg fun h => hb h.1, if_neg fun h => hb h.1]
      · simp only [hnb]
        rw [K.n, List.filter_append]
        have : (I (e1, f1) && decide (e1 < (p (e1, f1)).1)) = true := by
          rw [hI, hpx]; simpa using hlt
        simp only [List.filter_cons, this, if_true, List.filter_nil, List.length_append, List.length_cons, List.length_nil]
        ring

/-! ## The faces inside a box -/

namespace Spec

/-- Face `x` of the grid of `nx` by `ny` elements lies inside. -/
def inside (nx ny : Nat) (x : Face) : Bool :=
  match x.2 with
  | 0 => decide (x.1 / nx ≠ 0)
  | 1 => decide (x.1 % nx + 1 ≠ nx)
  | 2 => decide (x.1 / nx + 1 ≠ ny)
  | 3 => decide (x.1 % nx ≠ 0)
  | _ => false

/-- The other side of a face inside the grid. -/
def across (nx : Nat) (x : Face) : Face :=
  match x.2 with
  | 0 => (x.1 - nx, 2)
  | 1 => (x.1 + 1, 3)
  | 2 => (x.1 + nx, 0)
  | _ => (x.1 - 1, 1)

end Spec

theorem mod_elnum {nx i : Nat} (hi : i < nx) (j : Nat) : (i + nx * j) % nx = i := by
  rw [Nat.add_mul_mod_self_left, Nat.mod_eq_of_lt hi]

theorem div_elnum {nx i : Nat} (hi : i < nx) (j : Nat) : (i + nx * j) / nx = j := by
  rw [Nat.add_mul_div_left _ _ (by omega), Nat.div_eq_of_lt hi, Nat.zero_add]

/-- The four kinds of faces inside. -/
theorem inside_cases {nx ny : Nat} {x : Face} (hx : x.1 < nx * ny) (hI : inside nx ny x = true) :
    (∃ i j, i < nx ∧ j + 1 < ny ∧ x = (i + nx * j, 2) ∧ across nx x = (i + nx * (j + 1), 0)) ∨
    (∃ i j, i < nx ∧ j + 1 < ny ∧ x = (i + nx * (j + 1), 0) ∧ across nx x = (i + nx * j, 2)) ∨
    (∃ i j, i + 1 < nx ∧ j < ny ∧ x = (i + nx * j, 1) ∧ across nx x = (i + 1 + nx * j, 3)) ∨
    (∃ i j, i + 1 < nx ∧ j < ny ∧ x = (i + 1 + nx * j, 3) ∧ across nx x = (i + nx * j, 1)) := by
  obtain ⟨e, f⟩ := x
  obtain ⟨i, hi, j, hj, rfl⟩ := elnum_cases hx
  unfold inside at hI
  unfold across
  have e1 := mod_elnum hi j
  have e2 := div_elnum hi j
  match f with
  | 0 =>
    simp only [e2, ne_eq, decide_not, Bool.not_eq_true', decide_eq_false_iff_not] at hI
    obtain ⟨j, rfl⟩ := Nat.exists_eq_succ_of_ne_zero hI
    refine .inr (.inl ⟨i, j, hi, hj, rfl, ?_⟩)
    simp only [Nat.mul_succ, Prod.mk.injEq, and_true]; omega
  | 1 =>
    simp only [e1, ne_eq, decide_not, Bool.not_eq_true', decide_eq_false_iff_not] at hI
    refine .inr (.inr (.inl ⟨i, j, by omega, hj, rfl, ?_⟩))
    simp only [Prod.mk.injEq, and_true]; omega
  | 2 =>
    simp only [e2, ne_eq, decide_not, Bool.not_eq_true', decide_eq_false_iff_not] at hI
    refine .inl ⟨i, j, hi, by omega, rfl, ?_⟩
    simp only [Nat.mul_succ, Prod.mk.injEq, and_true]; omega
  | 3 =>
    simp only [e1, ne_eq, decide_not, Bool.not_eq_true', decide_eq_false_iff_not] at hI
    obtain ⟨i, rfl⟩ := Nat.exists_eq_succ_of_ne_zero hI
    refine .inr (.inr (.inr ⟨i, j, hi, hj, rfl, ?_⟩))
    simp only [Prod.mk.injEq, and_true]; omega
  | f + 4 => simp at hI

theorem across_up {nx ny i j : Nat} (hi : i < nx) (hj : j + 1 < ny) :
    inside nx ny (i + nx * j, 2) = true ∧ across nx (i + nx * j, 2) = (i + nx * (j + 1), 0) ∧
    inside nx ny (i + nx * (j + 1), 0) = true ∧ across nx (i + nx * (j + 1), 0) = (i + nx * j, 2) := by
  refine ⟨?_, ?_, ?_, ?_⟩
  · simp only [inside, div_elnum hi]; simp; omega
  · simp only [across, Nat.mul_succ, Prod.mk.injEq, and_true]; omega
  · simp only [inside, div_elnum hi]; simp
  · simp only [across, Nat.mul_succ, Prod.mk.injEq, and_true]; omega

theorem across_right {nx ny i j : Nat} (hi : i + 1 < nx) :
    inside nx ny (i + nx * j, 1) = true ∧ across nx (i + nx * j, 1) = (i + 1 + nx * j, 3) ∧
    inside nx ny (i + 1 + nx * j, 3) = true ∧ across nx (i + 1 + nx * j, 3) = (i + nx * j, 1) := by
  refine ⟨?_, ?_, ?_, ?_⟩
  · simp only [inside, mod_elnum (show i < nx by omega)]; simp; omega
  · simp only [across, Prod.mk.injEq, and_true]; omega
  · simp only [inside, mod_elnum hi]; simp
  · simp only [across, Prod.mk.injEq, and_true]; omega

theorem range_mul (nx ny : Nat) : List.range (nx * ny) = (List.range ny).flatMap fun j => (List.range nx).map fun i => i + nx * j := by
  induction ny with
  | zero => simp
  | succ n ih =>
    rw [Nat.mul_succ, List.range_add, ih, List.range_succ, List.flatMap_append, List.flatMap_singleton]
    congr 1
    apply List.map_congr_left
    intro i _; omega

theorem sum_ite_ne (n k : Nat) (hk : k < n) : ((List.range n).map fun i => if i ≠ k then 1 else 0).sum = n - 1 := by
  induction n with
  | zero => omega
  | succ n ih =>
    rw [List.range_succ, List.map_append, List.sum_append, List.map_singleton, List.sum_singleton]
    rcases Nat.lt_or_ge k n with h | h
    · rw [ih h, if_pos (by omega)]; omega
    · obtain rfl : n = k := by omega
      rw [if_neg (by simp)]
      have : ((List.range n).map fun i => if i ≠ n then 1 else 0) = (List.range n).map fun _ => 1 :=
        List.map_congr_left fun i hi => by rw [List.mem_range] at hi; rw [if_pos (by omega)]
      rw [this]; simp

theorem sum_grid (nx ny : Nat) (g h : Nat → Nat) :
    ((List.range (nx * ny)).map fun e => g (e % nx) + h (e / nx)).sum =
      ny * ((List.range nx).map g).sum + nx * ((List.range ny).map h).sum := by
  rw [range_mul, List.map_flatMap]
  induction ny with
  | zero => simp
  | succ n ih =>
    rw [List.range_succ, List.flatMap_append, List.sum_append, ih, List.flatMap_singleton, List.map_append, List.sum_append,
      List.map_singleton, List.sum_singleton, List.map_map]
    have : ((List.range nx).map ((fun e => g (e % nx) + h (e / nx)) ∘ fun i => i + nx * n)) = (List.range nx).map fun i => g i + h n :=
      List.map_congr_left fun i hi => by
        rw [List.mem_range] at hi
        simp only [Function.comp, mod_elnum hi, div_elnum hi]
    rw [this, List.sum_map_add]
    simp only [List.map_const', List.length_range, List.sum_replicate, smul_eq_mul]
    ring

/-- Number of pairs of faces inside. -/
theorem count_pairs (nx ny : Nat) (hx : 0 < nx) (hy : 0 < ny) :
    ((prod2 (List.range (nx * ny)) (List.range 4)).filter fun x => inside nx ny x && decide (x.1 < (across nx x).1)).length =
      nx * (ny - 1) + (nx - 1) * ny := by
  unfold prod2
  rw [filter_flatMap', length_flatMap']
  have : ∀ e ∈ List.range (nx * ny), (((List.range 4).map fun j => (e, j)).filter
      fun x => inside nx ny x && decide (x.1 < (across nx x).1)).length =
      (if e % nx ≠ nx - 1 then 1 else 0) + (if e / nx ≠ ny - 1 then 1 else 0) := by
    intro e _
    have h1 : e % nx ≠ nx - 1 ↔ e % nx + 1 ≠ nx := by omega
    have h2 : e / nx ≠ ny - 1 ↔ e / nx + 1 ≠ ny := by omega
    rw [if_congr h1 rfl rfl, if_congr h2 rfl rfl]
    have h3 : ¬ e < e - nx := by omega
    have h4 : ¬ e < e - 1 := by omega
    simp only [List.range_succ, List.range_zero, List.nil_append, List.cons_append, List.map_cons, List.map_nil,
      List.filter_cons, List.filter_nil, inside, across, h3, h4, decide_false, Bool.and_false, Bool.false_eq_true,
      if_false, hx, decide_true, Bool.and_true, decide_eq_true_eq, Nat.lt_add_one, Nat.lt_add_right_iff_pos]
    by_cases a : e % nx + 1 = nx <;> by_cases b : e / nx + 1 = ny <;> simp [a, b]
  rw [List.map_congr_left this, sum_grid nx ny (fun i => if i ≠ nx - 1 then 1 else 0) (fun j => if j ≠ ny - 1 then 1 else 0),
    sum_ite_ne nx _ (by omega), sum_ite_ne ny _ (by omega)]
  ring

/-- Number of faces inside, each counted from both sides. -/
theorem count_inside (nx ny : Nat) (hx : 0 < nx) (hy : 0 < ny) :
    ((List.range (nx * ny)).map fun e => ((List.range 6).filter fun f => inside nx ny (e, f)).length).sum =
      2 * (nx * (ny - 1) + (nx - 1) * ny) := by
  have : ∀ e ∈ List.range (nx * ny), ((List.range 6).filter fun f => inside nx ny (e, f)).length =
      ((if e % nx ≠ nx - 1 then 1 else 0) + if e % nx ≠ 0 then 1 else 0) +
      ((if e / nx ≠ ny - 1 then 1 else 0) + if e / nx ≠ 0 then 1 else 0) := by
    intro e _
    have h1 : e % nx ≠ nx - 1 ↔ e % nx + 1 ≠ nx := by omega
    have h2 : e / nx ≠ ny - 1 ↔ e / nx + 1 ≠ ny := by omega
    rw [if_congr h1 rfl rfl, if_congr h2 rfl rfl]
    simp only [List.range_succ, List.range_zero, List.nil_append, List.cons_append, List.filter_cons, List.filter_nil, inside,
      Bool.false_eq_true, if_false, decide_eq_true_eq]
    split_ifs <;> rfl
  rw [List.map_congr_left this, sum_grid nx ny (fun i => (if i ≠ nx - 1 then 1 else 0) + if i ≠ 0 then 1 else 0)
    (fun j => (if j ≠ ny - 1 then 1 else 0) + if j ≠ 0 then 1 else 0), List.sum_map_add, List.sum_map_add,
    sum_ite_ne nx _ (by omega), sum_ite_ne ny _ (by omega), sum_ite_ne nx _ hx, sum_ite_ne ny _ hy]
  ring

/-! ## The two meshes -/

section
variable {native : Endian} {nx ny : Nat} {xmin xmax ymin ymax : F} {var : Var} {o1 o2 o3 o4 : Option (List Name)}
  {internal : Bool}

/-- Width of the elements. -/
theorem subdiv_succ (a b : F) (n i : Nat) : subdiv a b n (i + 1) = subdiv a b n i + (b - a) / n := by
  unfold subdiv; push_cast; ring

theorem subdiv_sub (a b : F) (n i j : Nat) : subdiv a b n i - subdiv a b n j = ((i : F) - j) * ((b - a) / n) := by
  unfold subdiv; ring

/-- `smallest_edge` of the elements of a box is their width in x (even if they are longer in x than in y). -/
theorem box_scale (M : HexaData F) (A : BoxArgs nx ny xmin xmax ymin ymax var o1 o2 o3 o4)
    (hM : genBox native nx ny xmin xmax ymin ymax var o1 o2 o3 o4 internal = .ok M) (i j : Nat) (hi : i < nx) (hj : j < ny) :
    (M.el (i + nx * j)).smallestEdgeSq = .ok (((xmax - xmin) / nx) ^ 2) := by
  obtain ⟨M', h1, -, -, -, hgeo⟩ := gen_box_geometry native nx ny xmin xmax ymin ymax var o1 o2 o3 o4 internal A
  obtain rfl : M = M' := by rw [h1] at hM; simpa using hM.symm
  obtain ⟨l1, l2, l3, hp⟩ := hgeo i hi j hj
  have h00 := hp 0 (by omega) 0 (by omega)
  have h01 := hp 0 (by omega) 1 (by omega)
  have h10 := hp 1 (by omega) 0 (by omega)
  have h11 := hp 1 (by omega) 1 (by omega)
  simp only [Nat.add_zero, subdiv_succ] at h00 h01 h10 h11
  unfold Elem.smallestEdgeSq
  rw [if_neg (by omega)]
  simp only [l3, gt_iff_lt, lt_irrefl, if_false, Except.ok.injEq]
  generalize (xmax - xmin) / (nx : F) = dx at *
  generalize (ymax - ymin) / (ny : F) = dy at *
  have hy := sq_nonneg dy
  apply minList_eq
  · left
    simp only [distSq, Elem.pt, h00, h01]; ring
  · simp only [distSq, Elem.pt, h00, h01, h10, h11, List.mem_cons, List.not_mem_nil, or_false, forall_eq_or_imp, forall_eq]
    refine ⟨?_, ?_, ?_, ?_⟩ <;> nlinarith

/-- Centre of the four faces of an element of a box. -/
theorem box_centres (M : HexaData F) (A : BoxArgs nx ny xmin xmax ymin ymax var o1 o2 o3 o4)
    (hM : genBox native nx ny xmin xmax ymin ymax var o1 o2 o3 o4 internal = .ok M) (i j : Nat) (hi : i < nx) (hj : j < ny) :
    let E := M.el (i + nx * j)
    let dx := (xmax - xmin) / nx
    let dy := (ymax - ymin) / ny
    (faceMean E 0 0 = xmin + dx * (i + 1 / 2) ∧ faceMean E 0 1 = ymin + dy * j ∧ faceMean E 0 2 = 0) ∧
    (faceMean E 1 0 = xmin + dx * (i + 1) ∧ faceMean E 1 1 = ymin + dy * (j + 1 / 2) ∧ faceMean E 1 2 = 0) ∧
    (faceMean E 2 0 = xmin + dx * (i + 1 / 2) ∧ faceMean E 2 1 = ymin + dy * (j + 1) ∧ faceMean E 2 2 = 0) ∧
    (faceMean E 3 0 = xmin + dx * i ∧ faceMean E 3 1 = ymin + dy * (j + 1 / 2) ∧ faceMean E 3 2 = 0) := by
  intro E dx dy
  obtain ⟨M', h1, -, -, -, hgeo⟩ := gen_box_geometry native nx ny xmin xmax ymin ymax var o1 o2 o3 o4 internal A
  obtain rfl : M = M' := by rw [h1] at hM; simpa using hM.symm
  obtain ⟨l1, l2, l3, hp⟩ := hgeo i hi j hj
  have cor : ∀ sx sy sz : Bool,
      Spec.corner E sx sy sz 0 = xmin + dx * i + (if sx then dx else 0) ∧
      Spec.corner E sx sy sz 1 = ymin + dy * j + (if sy then dy else 0) ∧ Spec.corner E sx sy sz 2 = 0 := by
    intro sx sy sz
    unfold Spec.corner
    rw [l1, l2, l3]
    obtain ⟨p1, p2, p3⟩ := hp (if sy then 1 else 0) (by split_ifs <;> omega) (if sx then 1 else 0) (by split_ifs <;> omega)
    simp only [Nat.add_one_sub_one, Nat.sub_self, ite_self]
    refine ⟨p1.trans ?_, p2.trans ?_, p3⟩
    · cases sx <;> simp only [if_true, Bool.false_eq_true, if_false, subdiv, dx] <;> push_cast <;> ring
    · cases sy <;> simp only [if_true, Bool.false_eq_true, if_false, subdiv, dy] <;> push_cast <;> ring
  simp only [faceMean, faceCoord, (cor _ _ _).1, (cor _ _ _).2.1, (cor _ _ _).2.2, if_true, Bool.false_eq_true, if_false]
  refine ⟨⟨?_, ?_, ?_⟩, ⟨?_, ?_, ?_⟩, ⟨?_, ?_, ?_⟩, ⟨?_, ?_, ?_⟩⟩ <;> ring

/-- The meshes with and without internal conditions differ in the conditions on the faces inside, which are blank in
one and connected in the other. -/
theorem box_paired (M T : HexaData F) (A : BoxArgs nx ny xmin xmax ymin ymax var o1 o2 o3 o4) (hb : 0 < boxNbc var)
    (h0 : ∀ o ∈ [o1, o2, o3, o4], sideBC o 0 ≠ [])
    (hM : genBox native nx ny xmin xmax ymin ymax var o1 o2 o3 o4 false = .ok M)
    (hT : genBox native nx ny xmin xmax ymin ymax var o1 o2 o3 o4 true = .ok T) :
    WF M ∧ Grid M ∧ Paired M T (inside nx ny) (across nx) ∧
      (∀ i < nx, ∀ j < ny, ∀ b f, inside nx ny (i + nx * j, f) = true → M.bc (i + nx * j) b f = BC.zero) := by
  obtain ⟨M', m1, m2, m3, m4⟩ := genBox_ok (native := native) (internal := false) A
  obtain rfl : M = M' := by rw [m1] at hM; simpa using hM.symm
  obtain ⟨T', t1, t2, t3, t4⟩ := genBox_ok (native := native) (internal := true) A
  obtain rfl : T = T' := by rw [t1] at hT; simpa using hT.symm
  have hnx := A.nx
  have hny := A.ny
  have hnbc : M.nbc = boxNbc var := by rw [m2]; rfl
  have hndim : M.ndim = 2 := by rw [m2]; rfl
  have hnel : M.nel = nx * ny := by rw [m2]; rfl
  simp only [Bool.false_eq_true, if_false] at m4
  simp only [if_true] at t4
  have fr : Frame M T := by
    refine ⟨?_, by rw [m3, t3], ?_⟩
    · rw [t2, m2]
    · intro e he
      rw [m3] at he
      obtain ⟨i, hi, j, hj, rfl⟩ := elnum_cases he
      rw [m4 i hi j hj, t4 i hi j hj]
  have zero : ∀ i < nx, ∀ j < ny, ∀ b f, inside nx ny (i + nx * j, f) = true → M.bc (i + nx * j) b f = BC.zero := by
    intro i hi j hj b f hI
    unfold HexaData.bc
    rw [m4 i hi j hj]
    simp only
    split_ifs with hb'
    · unfold inside at hI
      match f with
      | 0 => simp only [div_elnum hi, decide_eq_true_eq] at hI; simp [boxOuter, hI]
      | 1 => simp only [mod_elnum hi, decide_eq_true_eq] at hI; simp [boxOuter, show i ≠ nx - 1 by omega]
      | 2 => simp only [div_elnum hi, decide_eq_true_eq] at hI; simp [boxOuter, show j ≠ ny - 1 by omega]
      | 3 => simp only [mod_elnum hi, decide_eq_true_eq] at hI; simp [boxOuter, hI]
      | f + 4 => simp at hI
    · rfl
  have side : ∀ i < nx, ∀ j < ny, ∀ b < boxNbc var, ∀ f < 4, inside nx ny (i + nx * j, f) = false →
      ∃ o ∈ [o1, o2, o3, o4], (M.bc (i + nx * j) b f).typ = u3 (sideBC o b) ∧ T.bc (i + nx * j) b f = M.bc (i + nx * j) b f := by
    intro i hi j hj b hb' f hf hI
    unfold HexaData.bc
    rw [m4 i hi j hj, t4 i hi j hj]
    simp only [if_pos hb']
    unfold inside at hI
    match f, hf with
    | 0, _ =>
      simp only [div_elnum hi, ne_eq, decide_not, Bool.not_eq_false', decide_eq_true_eq] at hI
      subst hI
      exact ⟨o3, by simp, by simp [boxOuter, wrExt_typ], by simp [boxOuter, boxInner]⟩
    | 1, _ =>
      simp only [mod_elnum hi, ne_eq, decide_not, Bool.not_eq_false', decide_eq_true_eq] at hI
      obtain rfl : i = nx - 1 := by omega
      exact ⟨o2, by simp, by simp [boxOuter, wrExt_typ], by simp [boxOuter, boxInner]⟩
    | 2, _ =>
      simp only [div_elnum hi, ne_eq, decide_not, Bool.not_eq_false', decide_eq_true_eq] at hI
      obtain rfl : j = ny - 1 := by omega
      exact ⟨o4, by simp, by simp [boxOuter, wrExt_typ], by simp [boxOuter, boxInner]⟩
    | 3, _ =>
      simp only [mod_elnum hi, ne_eq, decide_not, Bool.not_eq_false', decide_eq_true_eq] at hI
      subst hI
      exact ⟨o1, by simp, by simp [boxOuter, wrExt_typ], by simp [boxOuter, boxInner]⟩
    | f + 4, h => omega
  refine ⟨?_, ?_, ⟨fr, ?_, ?_, ?_⟩, zero⟩
  · refine ⟨by rw [hnel, m3], fun el hel => ?_, .inl hndim⟩
    obtain ⟨e, he, rfl⟩ := mem_elem_el M hel
    rw [m3] at he
    obtain ⟨i, hi, j, hj, rfl⟩ := elnum_cases he
    rw [m4 i hi j hj, hnbc]; rfl
  · intro el hel
    obtain ⟨e, he, rfl⟩ := mem_elem_el M hel
    rw [m3] at he
    obtain ⟨i, hi, j, hj, rfl⟩ := elnum_cases he
    rw [m4 i hi j hj]
    simp [boxPos, Arr.zeros]
  · rintro ⟨e, f⟩ he hf
    simp only [m3] at he
    simp only [hndim] at hf
    obtain ⟨i, hi, j, hj, rfl⟩ := elnum_cases he
    constructor
    · intro h
      by_contra hI
      simp only [Bool.not_eq_true] at hI
      obtain ⟨o, ho, h1, -⟩ := side i hi j hj 0 hb f (by omega) hI
      unfold Free at h
      simp only at h
      rw [h1, u3_nil] at h
      exact h0 o ho h
    · intro hI
      unfold Free
      simp only
      rw [zero i hi j hj 0 f hI]; rfl
  · intro x hx hf hI
    rw [m3] at hx ⊢
    rw [hndim]
    rcases inside_cases hx hI with ⟨i, j, hi, hj, rfl, -⟩ | ⟨i, j, hi, hj, rfl, -⟩ | ⟨i, j, hi, hj, rfl, -⟩ | ⟨i, j, hi, hj, rfl, -⟩
    · obtain ⟨a1, a2, a3, a4⟩ := across_up hi hj
      rw [a2]
      exact ⟨elnum_lt hi hj, by simp, a3, a4, by simp only [Nat.mul_succ]; omega⟩
    · obtain ⟨a1, a2, a3, a4⟩ := across_up hi hj
      rw [a4]
      exact ⟨elnum_lt hi (by omega), by simp, a1, a2, by simp only [Nat.mul_succ]; omega⟩
    · obtain ⟨a1, a2, a3, a4⟩ := across_right (ny := ny) (j := j) hi
      rw [a2]
      exact ⟨elnum_lt hi hj, by simp, a3, a4, by simp only; omega⟩
    · obtain ⟨a1, a2, a3, a4⟩ := across_right (ny := ny) (j := j) hi
      rw [a4]
      exact ⟨elnum_lt (by omega) hj, by simp, a1, a2, by simp only; omega⟩
  · rintro ⟨e, f⟩ he b
    simp only [m3] at he
    simp only [hndim, hnbc]
    split_ifs with hc
    · obtain ⟨hb', hf, hI⟩ := hc
      have hz : M.bc e b f = BC.zero := by
        obtain ⟨i, hi, j, hj, rfl⟩ := elnum_cases he
        exact zero i hi j hj b f hI
      rw [hz]
      rcases inside_cases he hI with ⟨i, j, hi, hj, h, ha⟩ | ⟨i, j, hi, hj, h, ha⟩ | ⟨i, j, hi, hj, h, ha⟩ | ⟨i, j, hi, hj, h, ha⟩
      all_goals
        obtain ⟨rfl, rfl⟩ := Prod.mk.inj h
        rw [ha]
      · unfold HexaData.bc
        rw [t4 i hi j (by omega)]
        simp only [if_pos hb']
        simp [boxOuter, boxInner, show j ≠ ny - 1 by omega, linked, wrLink, elnum]
      · unfold HexaData.bc
        rw [t4 i hi (j + 1) hj]
        simp only [if_pos hb']
        simp [boxOuter, boxInner, linked, wrLink, elnum]
      · unfold HexaData.bc
        rw [t4 i (by omega) j hj]
        simp only [if_pos hb']
        simp [boxOuter, boxInner, show i ≠ nx - 1 by omega, linked, wrLink, elnum]
      · unfold HexaData.bc
        rw [t4 (i + 1) hi j hj]
        simp only [if_pos hb']
        simp [boxOuter, boxInner, linked, wrLink, elnum]
    · obtain ⟨i, hi, j, hj, rfl⟩ := elnum_cases he
      by_cases hb' : b < boxNbc var
      · by_cases hf : f < 4
        · have hI : inside nx ny (i + nx * j, f) = false := by
            rw [← Bool.not_eq_true]; exact fun h => hc ⟨hb', by omega, h⟩
          obtain ⟨o, ho, -, h⟩ := side i hi j hj b hb' f hf hI
          exact h
        · unfold HexaData.bc
          rw [m4 i hi j hj, t4 i hi j hj]
          simp only [if_pos hb']
          simp [boxInner, show f ≠ 0 by omega, show f ≠ 1 by omega, show f ≠ 2 by omega, show f ≠ 3 by omega]
      · unfold HexaData.bc
        rw [m4 i hi j hj, t4 i hi j hj]
        simp only [if_neg hb']

/-- Faces of the box that are near each other for a tolerance less than one half lie at the same x. -/
theorem box_near (M : HexaData F) (A : BoxArgs nx ny xmin xmax ymin ymax var o1 o2 o3 o4)
    (hM : genBox native nx ny xmin xmax ymin ymax var o1 o2 o3 o4 internal = .ok M) (tol : F) (ht : tol < 1 / 2)
    (i j i' j' f f' : Nat) (hi : i < nx) (hj : j < ny) (hi' : i' < nx) (hj' : j' < ny) (k k' : Nat)
    (hk : faceMean (M.el (i + nx * j)) f 0 = xmin + (xmax - xmin) / nx * (k / 2))
    (hk' : faceMean (M.el (i' + nx * j')) f' 0 = xmin + (xmax - xmin) / nx * (k' / 2))
    (h : Near M tol (i + nx * j, f) (i' + nx * j', f')) : k = k' := by
  obtain ⟨s0, s1, e0, e1, h⟩ := h
  simp only at e0 e1 h
  rw [box_scale M A hM i j hi hj] at e0
  rw [box_scale M A hM i' j' hi' hj'] at e1
  have hdx : 0 < (xmax - xmin) / (nx : F) := div_pos (by have := A.x; linarith) (by exact_mod_cast A.nx)
  obtain rfl : ((xmax - xmin) / (nx : F)) ^ 2 = s0 := by simpa using e0
  obtain rfl : ((xmax - xmin) / (nx : F)) ^ 2 = s1 := by simpa using e1
  rw [min_self, hk, hk'] at h
  generalize (xmax - xmin) / (nx : F) = dx at *
  have hd2 : 0 < dx ^ 2 := by positivity
  rcases h with ⟨ht0, h⟩ | ⟨-, -, h⟩
  · have a1 := sq_nonneg (faceMean (M.el (i' + nx * j')) f' 1 - faceMean (M.el (i + nx * j)) f 1)
    have a2 := sq_nonneg (faceMean (M.el (i' + nx * j')) f' 2 - faceMean (M.el (i + nx * j)) f 2)
    have e : (xmin + dx * ((k' : F) / 2) - (xmin + dx * ((k : F) / 2))) ^ 2 = (((k' : F) - k) / 2) ^ 2 * dx ^ 2 := by ring
    have h2 : (((k' : F) - k) / 2) ^ 2 * dx ^ 2 ≤ tol ^ 2 * dx ^ 2 := by rw [← e]; linarith
    have h3 := le_of_mul_le_mul_right h2 hd2
    have h4 : tol ^ 2 < (1 / 2) ^ 2 := by gcongr
    have h5 : ((k' : F) - k) ^ 2 < 1 := by nlinarith
    have h6 : ((k' : Int) - k) ^ 2 < 1 := by exact_mod_cast h5
    have h7 : (k' : Int) - k = 0 := by
      have : ((k' : Int) - k) ^ 2 = 0 := le_antisymm (by omega) (sq_nonneg _)
      exact pow_eq_zero_iff (two_ne_zero) |>.1 this
    omega
  · exact absurd h hd2.ne'

/-- **C90.** `generate_internal_bcs` applied to a box made without internal conditions gives the box made with them,
whatever the shape of its elements; the number returned is the number of pairs of faces inside times the number of
fields. The tolerance is anything from 0 up to (not including) one half, as the default `1e-3`. -/
theorem gen_box_generate (native : Endian) (nx ny : Nat) (xmin xmax ymin ymax : F) (var : Var) (o1 o2 o3 o4 : Option (List Name))
    (A : BoxArgs nx ny xmin xmax ymin ymax var o1 o2 o3 o4) (hb : 0 < boxNbc var)
    (h0 : ∀ o ∈ [o1, o2, o3, o4], sideBC o 0 ≠ []) (tol : F) (ht0 : 0 ≤ tol) (ht : tol < 1 / 2) :
    ∃ M T : HexaData F, genBox native nx ny xmin xmax ymin ymax var o1 o2 o3 o4 false = .ok M ∧
      genBox native nx ny xmin xmax ymin ymax var o1 o2 o3 o4 true = .ok T ∧
      generateInternalBcs M tol = .ok (T, (nx * (ny - 1) + (nx - 1) * ny) * boxNbc var) := by
  obtain ⟨M, hM, m2, m3, -⟩ := genBox_ok (native := native) (internal := false) A
  obtain ⟨T, hT, -, -, -⟩ := genBox_ok (native := native) (internal := true) A
  refine ⟨M, T, hM, hT, ?_⟩
  obtain ⟨hw, hg, P, -⟩ := box_paired M T A hb h0 hM hT
  have hnx := A.nx
  have hny := A.ny
  have hnbc : M.nbc = boxNbc var := by rw [m2]; rfl
  have hndim : M.ndim = 2 := by rw [m2]; rfl
  have hnel : M.nel = nx * ny := by rw [m2]; rfl
  have hp : ScalesPos M := by
    intro e he
    rw [m3] at he
    obtain ⟨i, hi, j, hj, rfl⟩ := elnum_cases he
    refine ⟨_, box_scale M A hM i j hi hj, ?_⟩
    have : 0 < (xmax - xmin) / (nx : F) := div_pos (by have := A.x; linarith) (by exact_mod_cast hnx)
    positivity
  obtain ⟨close, h1, h2⟩ := generate_ok M hw hg (by omega) hp tol
  rw [h1, generateWith_pairs M T hw close (inside nx ny) (across nx) P, hnel, hndim, hnbc, count_pairs nx ny hnx hny]
  · -- partners have the same centre
    intro x hx hf hI hlt
    obtain ⟨q1, q2, -, -, -⟩ := P.par x hx hf hI
    rw [h2 x (across nx x) hx hf q1 q2]
    apply near_of_sameCentre M hg tol ht0 _ _ hx q1
    rw [m3] at hx
    intro d hd
    rcases inside_cases hx hI with ⟨i, j, hi, hj, rfl, ha⟩ | ⟨i, j, hi, hj, rfl, ha⟩ | ⟨i, j, hi, hj, rfl, ha⟩ | ⟨i, j, hi, hj, rfl, ha⟩
    · rw [ha]
      obtain ⟨-, -, c2, -⟩ := box_centres M A hM i j hi (by omega)
      obtain ⟨c0, -, -, -⟩ := box_centres M A hM i (j + 1) hi hj
      have : d = 0 ∨ d = 1 ∨ d = 2 := by omega
      rcases this with rfl | rfl | rfl
      · exact c2.1.trans c0.1.symm
      · refine c2.2.1.trans (Eq.trans ?_ c0.2.1.symm); push_cast; rfl
      · exact c2.2.2.trans c0.2.2.symm
    · rw [ha] at hlt; simp only [Nat.mul_succ] at hlt; omega
    · rw [ha]
      obtain ⟨-, c1, -, -⟩ := box_centres M A hM i j (by omega) hj
      obtain ⟨-, -, -, c3⟩ := box_centres M A hM (i + 1) j hi hj
      have : d = 0 ∨ d = 1 ∨ d = 2 := by omega
      rcases this with rfl | rfl | rfl
      · refine c1.1.trans (Eq.trans ?_ c3.1.symm); push_cast; rfl
      · exact c1.2.1.trans c3.2.1.symm
      · exact c1.2.2.trans c3.2.2.symm
    · rw [ha] at hlt; simp only at hlt; omega
  · -- and are the first to be found
    intro x u hx hf hI hlt hu hfu hIu hxu hc
    rw [h2 x u hx hf hu hfu] at hc
    rw [m3] at hx hu
    have pos : ∀ y : Face, y.1 < nx * ny → inside nx ny y = true → ∃ i j, i < nx ∧ j < ny ∧ y.1 = i + nx * j ∧
        ((y.2 = 0 ∧ j ≠ 0 ∧ faceMean (M.el (i + nx * j)) y.2 0 = xmin + (xmax - xmin) / nx * (((2 * i + 1 : Nat) : F) / 2)) ∨
         (y.2 = 1 ∧ i + 1 < nx ∧ faceMean (M.el (i + nx * j)) y.2 0 = xmin + (xmax - xmin) / nx * (((2 * i + 2 : Nat) : F) / 2)) ∨
         (y.2 = 2 ∧ j + 1 < ny ∧ faceMean (M.el (i + nx * j)) y.2 0 = xmin + (xmax - xmin) / nx * (((2 * i + 1 : Nat) : F) / 2)) ∨
         (y.2 = 3 ∧ i ≠ 0 ∧ faceMean (M.el (i + nx * j)) y.2 0 = xmin + (xmax - xmin) / nx * (((2 * i : Nat) : F) / 2))) := by
      intro y hy hIy
      rcases inside_cases hy hIy with ⟨i, j, hi, hj, rfl, -⟩ | ⟨i, j, hi, hj, rfl, -⟩ | ⟨i, j, hi, hj, rfl, -⟩ | ⟨i, j, hi, hj, rfl, -⟩
      · obtain ⟨-, -, c, -⟩ := box_centres M A hM i j hi (by omega)
        refine ⟨i, j, hi, by omega, rfl, .inr (.inr (.inl ⟨rfl, hj, c.1.trans ?_⟩))⟩
        push_cast; ring
      · obtain ⟨c, -, -, -⟩ := box_centres M A hM i (j + 1) hi hj
        refine ⟨i, j + 1, hi, hj, rfl, .inl ⟨rfl, by simp, c.1.trans ?_⟩⟩
        push_cast; ring
      · obtain ⟨-, c, -, -⟩ := box_centres M A hM i j (by omega) hj
        refine ⟨i, j, by omega, hj, rfl, .inr (.inl ⟨rfl, hi, c.1.trans ?_⟩)⟩
        push_cast; ring
      · obtain ⟨-, -, -, c⟩ := box_centres M A hM (i + 1) j hi hj
        refine ⟨i + 1, j, hi, hj, rfl, .inr (.inr (.inr ⟨rfl, by simp, c.1.trans ?_⟩))⟩
        push_cast; ring
    obtain ⟨i', j', hi', hj', ue, uc⟩ := pos u hu hIu
    have mono : ∀ a b : Nat, a < b → nx * a + nx ≤ nx * b := fun a b h => by
      rw [← Nat.mul_succ]; exact Nat.mul_le_mul_left _ h
    have hcol : ∀ a b : Nat, nx * a < nx * b → a < b := fun a b h => Nat.lt_of_mul_lt_mul_left h
    obtain ⟨eu, fu⟩ := u
    simp only at ue uc hxu hfu
    subst ue
    rcases inside_cases hx hI with ⟨i, j, hi, hj, rfl, ha⟩ | ⟨i, j, hi, hj, rfl, ha⟩ | ⟨i, j, hi, hj, rfl, ha⟩ | ⟨i, j, hi, hj, rfl, ha⟩
    · rw [ha]
      have ck : faceMean (M.el (i + nx * j)) 2 0 = xmin + (xmax - xmin) / nx * (((2 * i + 1 : Nat) : F) / 2) := by
        obtain ⟨-, -, c, -⟩ := box_centres M A hM i j hi (by omega)
        refine c.1.trans ?_; push_cast; ring
      have near := fun k' hk' => box_near M A hM tol ht i j i' j' 2 fu hi (by omega) hi' hj' (2 * i + 1) k' ck hk' hc
      have same : i = i' := by
        rcases uc with ⟨-, -, h⟩ | ⟨-, -, h⟩ | ⟨-, -, h⟩ | ⟨-, -, h⟩ <;> have := near _ h <;> omega
      subst same
      have hjj : j < j' := hcol _ _ (by simp only at hxu; omega)
      have hle : nx * (j + 1) ≤ nx * j' := Nat.mul_le_mul_left _ hjj
      rcases Nat.lt_or_ge (j + 1) j' with h | h
      · have := mono _ _ h
        exact .inr (.inr (.inl (by simp only; omega)))
      · obtain rfl : j' = j + 1 := by omega
        rcases uc with ⟨rfl, -⟩ | ⟨rfl, -, h⟩ | ⟨rfl, -⟩ | ⟨rfl, -, h⟩
        · exact .inl rfl
        · have := near _ h; omega
        · exact .inr (.inr (.inr ⟨rfl, by simp⟩))
        · have := near _ h; omega
    · rw [ha] at hlt; simp only [Nat.mul_succ] at hlt; omega
    · rw [ha]
      have ck : faceMean (M.el (i + nx * j)) 1 0 = xmin + (xmax - xmin) / nx * (((2 * i + 2 : Nat) : F) / 2) := by
        obtain ⟨-, c, -, -⟩ := box_centres M A hM i j (by omega) hj
        refine c.1.trans ?_; push_cast; ring
      have near := fun k' hk' => box_near M A hM tol ht i j i' j' 1 fu (by omega) hj hi' hj' (2 * i + 2) k' ck hk' hc
      simp only at hxu
      rcases uc with ⟨-, -, h⟩ | ⟨rfl, -, h⟩ | ⟨-, -, h⟩ | ⟨rfl, h0', h⟩
      · have := near _ h; omega
      · have := near _ h
        obtain rfl : i' = i := by omega
        have hjj : j < j' := hcol _ _ (by omega)
        have := mono _ _ hjj
        exact .inr (.inr (.inl (by simp only; omega)))
      · have := near _ h; omega
      · have := near _ h
        obtain rfl : i' = i + 1 := by omega
        rcases Nat.lt_trichotomy j j' with h | h | h
        · have := mono _ _ h
          exact .inr (.inr (.inl (by simp only; omega)))
        · subst h; exact .inl rfl
        · have := mono _ _ h; omega
    · rw [ha] at hlt; simp only at hlt; omega

/-- Without internal conditions a record is blank or that of a side. -/
theorem box_typ (M : HexaData F) (A : BoxArgs nx ny xmin xmax ymin ymax var o1 o2 o3 o4)
    (hM : genBox native nx ny xmin xmax ymin ymax var o1 o2 o3 o4 false = .ok M) (e b f : Nat) (he : e < nx * ny) :
    M.bc e b f = BC.zero ∨ b < boxNbc var ∧ ∃ o ∈ [o1, o2, o3, o4], (M.bc e b f).typ = u3 (sideBC o b) := by
  obtain ⟨M', m1, m2, m3, m4⟩ := genBox_ok (native := native) (internal := false) A
  obtain rfl : M = M' := by rw [m1] at hM; simpa using hM.symm
  obtain ⟨i, hi, j, hj, rfl⟩ := elnum_cases he
  unfold HexaData.bc
  rw [m4 i hi j hj]
  simp only [Bool.false_eq_true, if_false]
  by_cases hb : b < boxNbc var
  · simp only [if_pos hb]
    unfold boxOuter
    simp only
    split_ifs
    · exact .inr ⟨hb, o3, by simp, wrExt_typ ..⟩
    · exact .inr ⟨hb, o4, by simp, wrExt_typ ..⟩
    · exact .inr ⟨hb, o1, by simp, wrExt_typ ..⟩
    · exact .inr ⟨hb, o2, by simp, wrExt_typ ..⟩
    · exact .inl rfl
  · simp only [if_neg hb]; exact .inl trivial

/-- **C90.** `delete_internal_bcs` takes the internal conditions off again: it gives the box made without, and returns
twice the number of pairs of faces inside times the number of fields. -/
theorem gen_box_delete (native : Endian) (nx ny : Nat) (xmin xmax ymin ymax : F) (var : Var) (o1 o2 o3 o4 : Option (List Name))
    (A : BoxArgs nx ny xmin xmax ymin ymax var o1 o2 o3 o4) (hb : 0 < boxNbc var)
    (h0 : ∀ b < boxNbc var, ∀ o ∈ [o1, o2, o3, o4], sideBC o b ≠ [] ∧ sideBC o b ≠ nE) :
    ∃ M T : HexaData F, genBox native nx ny xmin xmax ymin ymax var o1 o2 o3 o4 false = .ok M ∧
      genBox native nx ny xmin xmax ymin ymax var o1 o2 o3 o4 true = .ok T ∧
      deleteInternalBcs T = (M, 2 * (nx * (ny - 1) + (nx - 1) * ny) * boxNbc var) := by
  obtain ⟨M, hM, m2, m3, -⟩ := genBox_ok (native := native) (internal := false) A
  obtain ⟨T, hT, t2, t3, -⟩ := genBox_ok (native := native) (internal := true) A
  refine ⟨M, T, hM, hT, ?_⟩
  obtain ⟨-, -, P, hz⟩ := box_paired M T A hb (fun o ho => (h0 0 hb o ho).1) hM hT
  have hnbc : M.nbc = boxNbc var := by rw [m2]; rfl
  have hndim : M.ndim = 2 := by rw [m2]; rfl
  have tnbc : T.nbc = boxNbc var := by rw [t2]; rfl
  have hM0 : ∀ e < nx * ny, ∀ b f, (M.bc e b f).typ ≠ nE := by
    intro e he b f
    rcases box_typ M A hM e b f he with h | ⟨hb', o, ho, h⟩
    · rw [h]; exact fun h => by cases h
    · rw [h]
      exact fun h' => (h0 b hb' o ho).2 ((u3_single _ _).1 h')
  have lt4 : ∀ e f, inside nx ny (e, f) = true → f < 4 := by
    intro e f h
    by_contra hf
    obtain ⟨g, rfl⟩ : ∃ g, f = g + 4 := ⟨f - 4, by omega⟩
    simp [inside] at h
  have hT0 : ∀ e < nx * ny, ∀ b < boxNbc var, ∀ f, ((T.bc e b f).typ = nE ↔ inside nx ny (e, f) = true) := by
    intro e he b hb' f
    have := P.bc (e, f) (by rw [m3]; exact he) b
    simp only [hnbc, hndim] at this
    rw [this]
    split_ifs with hc
    · exact ⟨fun _ => hc.2.2, fun _ => rfl⟩
    · exact ⟨fun h => absurd h (hM0 e he b f), fun h => absurd ⟨hb', by have := lt4 e f h; omega, h⟩ hc⟩
  apply Prod.ext
  · have f1 := P.frame
    have f2 : Frame M (deleteInternalBcs T).1 := f1.trans (delete_frame T)
    refine Frame.ext f2 ?_
    intro e he b f
    rw [m3] at he
    have := P.bc (e, f) (by rw [m3]; exact he) b
    simp only [hnbc, hndim] at this
    rw [delete_bc T e b f (by rw [t3]; exact he), tnbc]
    split_ifs with hc
    · unfold BC.clearE
      by_cases hI : inside nx ny (e, f) = true
      · rw [if_pos ((hT0 e he b hc.1 f).2 hI)]
        obtain ⟨i, hi, j, hj, rfl⟩ := elnum_cases he
        exact (hz i hi j hj b f hI).symm
      · rw [if_neg fun h => hI ((hT0 e he b hc.1 f).1 h), this, if_neg fun h => hI h.2.2]
    · rw [this, if_neg fun h => hc ⟨h.1, by omega⟩]
  · simp only
    rw [countE_eq]
    unfold positions prod3
    rw [filter_flatMap', length_flatMap', t3, tnbc, ← count_inside nx ny A.nx A.ny, ← List.sum_map_mul_right]
    refine congrArg List.sum (List.map_congr_left fun e he => ?_)
    rw [List.mem_range] at he
    rw [filter_flatMap', length_flatMap']
    have : ∀ b ∈ List.range (boxNbc var), (((List.range 6).map fun k => (e, b, k)).filter
        fun t => decide ((T.bc t.1 t.2.1 t.2.2).typ = nE)).length = ((List.range 6).filter fun f => inside nx ny (e, f)).length := by
      intro b hb'
      rw [List.mem_range] at hb'
      rw [List.filter_map, List.length_map]
      refine congrArg List.length (List.filter_congr fun f _ => ?_)
      simp only [Function.comp]
      rw [Bool.eq_iff_iff, decide_eq_true_eq, hT0 e he b hb' f]
    rw [List.map_congr_left this, List.map_const', List.length_range, List.sum_replicate, smul_eq_mul, Nat.mul_comm]

end

/-- The hypotheses hold for the sample arguments (3×2 elements, two fields, periodic in x)… -/
example : 0 < boxNbc ⟨2, 2, 1, 1, 0⟩ ∧ ∀ b < boxNbc ⟨2, 2, 1, 1, 0⟩, ∀ o ∈ [none, none, some [['W'], ['t']], some [['W'], ['f']]],
    sideBC o b ≠ [] ∧ sideBC o b ≠ nE := by decide

/-- …and for a box of elements 4000 times longer than high. -/
theorem Samples.flatArgs : BoxArgs (F := ℚ) 2 2 0 8000 0 2 ⟨2, 2, 1, 0, 0⟩ none none (some [['W']]) (some [['W']]) :=
  ⟨by decide, by decide, by norm_num, by norm_num, (by simp), (by simp), (by decide), (by decide)⟩

example : ∃ M T : HexaData ℚ, genBox .little 2 2 0 8000 0 2 ⟨2, 2, 1, 0, 0⟩ none none (some [['W']]) (some [['W']]) false = .ok M ∧
    genBox .little 2 2 0 8000 0 2 ⟨2, 2, 1, 0, 0⟩ none none (some [['W']]) (some [['W']]) true = .ok T ∧
    generateInternalBcs M (1 / 1000) = .ok (T, 4) ∧ (M.bc 0 0 1).typ = [] ∧ (T.bc 0 0 1).typ = nE := by
  obtain ⟨M, T, h1, h2, h3⟩ := gen_box_generate .little 2 2 0 8000 0 2 ⟨2, 2, 1, 0, 0⟩ none none (some [['W']]) (some [['W']])
    Samples.flatArgs (by decide) (by decide) (1 / 1000) (by norm_num) (by norm_num)
  refine ⟨M, T, h1, h2, h3, ?_, ?_⟩
  · rw [← show Samples.get (genBox .little 2 2 0 8000 0 2 ⟨2, 2, 1, 0, 0⟩ none none (some [['W']]) (some [['W']]) false) = M by
      rw [h1]; rfl]
    decide +kernel
  · rw [← show Samples.get (genBox .little 2 2 0 8000 0 2 ⟨2, 2, 1, 0, 0⟩ none none (some [['W']]) (some [['W']]) true) = T by
      rw [h2]; rfl]
    decide +kernel

end Pymech
