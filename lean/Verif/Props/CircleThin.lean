import Verif.Props.CircleFits

/-!
# C63: a thin ring of `gen_circle` loses conditions of the wall
-/

set_option autoImplicit false
set_option linter.unusedSectionVars false

namespace Pymech

open Spec

section

variable {F : Type} [Field F] [LinearOrder F] [IsStrictOrderedRing F] [FloorRing F]

theorem Glued.E {T : Nat → Nat → Prop} {A M : HexaData F} (h : Glued T A M) {i b f : Nat} (hi : i < A.elem.length) (hE : (A.bc i b f).typ = nE) :
    (M.bc i b f).typ = nE := by
  rcases h.2 i hi b f with h1 | h1
  · exact h1.trans hE
  · exact h1.1

theorem Glued.mono {T T' : Nat → Nat → Prop} {A M : HexaData F} (h : Glued T A M) (hT : ∀ i f, T i f → T' i f) : Glued T' A M :=
  ⟨h.1, fun i hi b f => (h.2 i hi b f).imp id fun h => ⟨h.1, hT _ _ h.2⟩⟩

theorem connects_E (l : List Nat) (M : HexaData F) (e0 f0 e1 f1 : Nat) (h0 : 0 ∈ l) (h1 : e1 < M.elem.length) :
    ((l.foldl (fun M ibc => M.connect ibc e0 f0 e1 f1) M).bc e1 0 f1).typ = nE := by
  induction l generalizing M with
  | nil => cases h0
  | cons a l ih =>
    have hlen : (M.connect a e0 f0 e1 f1).elem.length = M.elem.length := by simp [HexaData.connect]
    rw [List.foldl_cons]
    by_cases ha : a = 0
    · subst ha
      refine (Glued.connects (T := fun _ _ => True) l _ e0 f0 e1 f1 trivial trivial).E (by rw [hlen]; exact h1) ?_
      unfold HexaData.connect
      rw [HexaData.bc_modBC _ _ _ _ _ _ _ _ (by simpa using h1), if_pos ⟨rfl, rfl, rfl⟩]
      rfl
    · refine ih _ ?_ (by rw [hlen]; exact h1)
      rcases List.mem_cons.1 h0 with h | h
      · exact absurd h.symm ha
      · exact h

/-- The inner loop of `merge` connects every face that touches and is not empty. -/
theorem inner_touch (touch : Nat → Nat → Nat → Nat → Py Bool) (nbc : Nat) (hn : 0 < nbc) (ie : Bool) (e0 f0 : Nat) (bc0 : Name) (h0 : bc0 ≠ nP)
    (l : List (Nat × Nat)) (t : Nat × Nat) (ht : t ∈ l) (htouch : touch e0 f0 t.1 t.2 = .ok true) (s s' : HexaData F × Nat)
    (h1 : t.1 < s.1.elem.length) (hne : (s.1.bc t.1 0 t.2).typ ≠ [])
    (h : l.foldlM (mergeInner touch nbc ie e0 f0 bc0) s = .ok s') : (s'.1.bc t.1 0 t.2).typ = nE := by
  induction l generalizing s with
  | nil => cases ht
  | cons a l ih =>
    rw [List.foldlM_cons] at h
    cases ha : mergeInner touch nbc ie e0 f0 bc0 s a with
    | error e => rw [ha] at h; cases h
    | ok u =>
      rw [ha] at h
      have g1 : Glued (fun _ _ => True) s.1 u.1 := mergeInner_glued touch nbc ie e0 f0 bc0 h0 s a u (fun _ => ⟨trivial, trivial⟩) ha
      have g2 : Glued (fun _ _ => True) u.1 s'.1 := foldlM_glued l
        (fun s a _ s' h => mergeInner_glued touch nbc ie e0 f0 bc0 h0 s a s' (fun _ => ⟨trivial, trivial⟩) h) u s' h
      have hu : t.1 < u.1.elem.length := by rw [g1.1]; exact h1
      by_cases hat : a = t
      · subst hat
        refine g2.E hu ?_
        by_cases hE : (s.1.bc a.1 0 a.2).typ = nE
        · exact g1.E h1 hE
        · unfold mergeInner at ha
          simp only [bind, Except.bind] at ha
          rw [if_pos ⟨hE, fun hc => hne hc.2⟩, htouch] at ha
          simp only [if_true] at ha
          unfold HexaData.mergePair at ha
          rw [if_neg (fun hc => h0 (hc.1.trans hc.2))] at ha
          simp only [bind, Except.bind, pure, Except.pure] at ha
          cases ha
          exact connects_E _ _ _ _ _ _ (List.mem_range.2 hn) h1
      · refine ih ?_ u hu ?_ h
        · rcases List.mem_cons.1 ht with h | h
          · exact absurd h.symm hat
          · exact h
        · rcases g1.2 t.1 h1 0 t.2 with h | h
          · rw [h]; exact hne
          · rw [h.1]; decide

/-- `merge` connects every face of the first mesh that touches a face of the second one, if none is periodic. -/
theorem merge_touch {A B M : HexaData F} {tol : F} {ie : Bool} {n : Nat} (h : A.merge B tol ie false = .ok (M, n)) (pA : NoP A) (pB : NoP B)
    (hA : A.elem.length = A.nel) (hB : B.elem.length = B.nel) (hn : 0 < min A.nbc B.nbc) (x y : Face) (hx : x.1 < A.elem.length) (hx2 : x.2 < 2 * A.ndim)
    (hy : y.1 < B.elem.length) (hy2 : y.2 < 2 * A.ndim) (hxe : (A.bc x.1 0 x.2).typ ≠ []) (hye : (B.bc y.1 0 y.2).typ ≠ [])
    (hyE : (B.bc y.1 0 y.2).typ ≠ nE)
    (ht : closeFaces ((A.append B).el (A.elem.length + y.1)) y.2 ((A.append B).el x.1) x.2 tol = .ok true) : (M.bc x.1 0 x.2).typ = nE := by
  unfold HexaData.merge at h
  split_ifs at h
  unfold HexaData.mergeWith at h
  simp only at h
  rw [if_neg (by rintro (h | h); · omega
                 · cases h)] at h
  have hP := pA.append pB
  have hlen : (A.append B).elem.length = A.nel + B.nel := by rw [append_length, hA, hB]
  set touch : Nat → Nat → Nat → Nat → Py Bool := fun e0 f0 e1 f1 => closeFaces ((A.append B).el e0) f0 ((A.append B).el e1) f1 tol with htouch
  have glue : ∀ (s s' : HexaData F × Nat) (a : Nat × Nat), Glued (fun _ _ => True) (A.append B) s.1 → a.1 < (A.append B).elem.length →
      mergeOuter touch (min A.nbc B.nbc) ie A.nel (2 * A.ndim) s a = .ok s' → Glued (fun e f => e < A.nel ∨ (e, f) = a) s.1 s'.1 := by
    intro s s' a hg ha h
    unfold mergeOuter at h
    simp only at h
    split_ifs at h
    · refine foldlM_glued _ (fun s x hx s' h => mergeInner_glued _ _ _ _ _ _ ?_ _ _ _ ?_ h) _ _ h
      · rcases hg.2 a.1 ha 0 a.2 with h1 | h1
        · rw [h1]; exact hP _ ha _
        · rw [h1.1]; decide
      · intro _
        obtain ⟨x1, -⟩ := mem_prod2.1 hx
        rw [List.mem_range] at x1
        exact ⟨Or.inr rfl, Or.inl x1⟩
    · cases h; exact Glued.refl _ _
  have key : ∀ (l : List (Nat × Nat)) (s s' : HexaData F × Nat), (∀ a ∈ l, a.1 < (A.append B).elem.length) →
      Glued (fun _ _ => True) (A.append B) s.1 → (A.nel + y.1, y.2) ∈ l ∧ (s.1.bc (A.nel + y.1) 0 y.2).typ = (B.bc y.1 0 y.2).typ ∨ (s.1.bc x.1 0 x.2).typ = nE →
      l.foldlM (mergeOuter touch (min A.nbc B.nbc) ie A.nel (2 * A.ndim)) s = .ok s' → (s'.1.bc x.1 0 x.2).typ = nE := by
    intro l
    induction l with
    | nil =>
      intro s s' _ _ hor h
      cases h
      rcases hor with h | h
      · cases h.1
      · exact h
    | cons a l ih =>
      intro s s' hl hg hor h
      rw [List.foldlM_cons] at h
      cases ha : mergeOuter touch (min A.nbc B.nbc) ie A.nel (2 * A.ndim) s a with
      | error e => rw [ha] at h; cases h
      | ok u =>
        rw [ha] at h
        have ga := glue s u a hg (hl a (List.mem_cons_self ..)) ha
        have hxs : x.1 < s.1.elem.length := by rw [hg.1]; omega
        refine ih u s' (fun b hb => hl b (List.mem_cons_of_mem _ hb)) (hg.trans (ga.mono fun _ _ _ => trivial)) ?_ h
        rcases hor with ⟨hm, ht'⟩ | hE
        · by_cases hay : a = (A.nel + y.1, y.2)
          · right
            subst hay
            unfold mergeOuter at ha
            simp only at ha
            rw [ht', if_pos ⟨hyE, fun hc => hye hc.2⟩] at ha
            refine inner_touch touch _ hn ie _ _ _ (pB y.1 hy y.2) _ x (mem_prod2.2 ⟨List.mem_range.2 (by omega), List.mem_range.2 hx2⟩) ?_ s u hxs ?_ ha
            · rw [← ht, hA]
            · rcases hg.2 x.1 (by omega) 0 x.2 with h1 | h1
              · rw [h1, append_bc_left A B _ _ _ hx]; exact hxe
              · rw [h1.1]; decide
          · left
            refine ⟨?_, ?_⟩
            · rcases List.mem_cons.1 hm with h | h
              · exact absurd h.symm hay
              · exact h
            · rcases ga.2 (A.nel + y.1) (by rw [hg.1]; omega) 0 y.2 with h1 | ⟨-, h1 | h1⟩
              · exact h1.trans ht'
              · omega
              · exact absurd h1.symm hay
        · exact Or.inr (ga.E hxs hE)
  refine key _ _ _ ?_ (Glued.refl _ _) (Or.inl ⟨?_, ?_⟩) h
  · intro a ha
    obtain ⟨a1, -⟩ := mem_prod2.1 ha
    rw [List.mem_range'_1] at a1
    omega
  · refine mem_prod2.2 ⟨?_, List.mem_range.2 hy2⟩
    rw [List.mem_range'_1]
    exact ⟨by simp, by simp only; omega⟩
  · have := append_typ A B y.1 0 y.2 hy
    rw [hA] at this
    exact this

end

section

variable {native : Endian} {cf bl : ℝ → Py ℝ} {r s : ℝ} {ns : Nat} {var : Var} {bc : List Name} {ib : Bool} {o : HexaData ℝ} {eta : Nat → ℝ}

/-- Points of the square and points of the circle are far from each other. -/
theorem square_far (hr : 0 < r) (hs : 0 ≤ s) (hs1 : s < 1) (t a : ℝ) (ht0 : 0 ≤ t) (ht : t ≤ 1) :
    ((1 - s) * r) ^ 2 ≤ (1 / 2 * (s * r * Real.sqrt 2) - r * Real.cos a) ^ 2 + (s * r * Real.sqrt 2 * (t - 1 / 2) - r * Real.sin a) ^ 2 := by
  have sq2 : Real.sqrt 2 ^ 2 = 2 := Real.sq_sqrt (by norm_num)
  have sc := Real.sin_sq_add_cos_sq a
  set p := 1 / 2 * (s * r * Real.sqrt 2) with hp
  set q := s * r * Real.sqrt 2 * (t - 1 / 2) with hq
  have h1 : p ^ 2 + q ^ 2 ≤ (s * r) ^ 2 := by
    have e : p ^ 2 + q ^ 2 = (s * r) ^ 2 * (1 / 2 + 2 * (t - 1 / 2) ^ 2) := by
      rw [hp, hq]; linear_combination ((s * r) ^ 2 * (1 / 4 + (t - 1 / 2) ^ 2)) * sq2
    rw [e]
    have : 1 / 2 + 2 * (t - 1 / 2) ^ 2 ≤ 1 := by nlinarith
    have := mul_le_mul_of_nonneg_left this (sq_nonneg (s * r))
    linarith
  have h2 : p * Real.cos a + q * Real.sin a ≤ s * r := by
    refine abs_le_of_sq_le_sq' ?_ (by positivity) |>.2
    have : (p * Real.cos a + q * Real.sin a) ^ 2 + (p * Real.sin a - q * Real.cos a) ^ 2 = p ^ 2 + q ^ 2 := by
      linear_combination (p ^ 2 + q ^ 2) * sc
    nlinarith [sq_nonneg (p * Real.sin a - q * Real.cos a)]
  -- with |P| = rho ≤ s r:  |P - B|² = rho² + r² - 2 r P·b
  have h3 : p * Real.cos a + q * Real.sin a ≤ Real.sqrt (p ^ 2 + q ^ 2) := by
    apply Real.le_sqrt_of_sq_le
    have : (p * Real.cos a + q * Real.sin a) ^ 2 + (p * Real.sin a - q * Real.cos a) ^ 2 = p ^ 2 + q ^ 2 := by
      linear_combination (p ^ 2 + q ^ 2) * sc
    nlinarith [sq_nonneg (p * Real.sin a - q * Real.cos a)]
  have h4 : Real.sqrt (p ^ 2 + q ^ 2) ≤ s * r := Real.sqrt_le_iff.2 ⟨by positivity, h1⟩
  have h5 : Real.sqrt (p ^ 2 + q ^ 2) ^ 2 = p ^ 2 + q ^ 2 := Real.sq_sqrt (by positivity)
  set rho := Real.sqrt (p ^ 2 + q ^ 2)
  have e : (p - r * Real.cos a) ^ 2 + (q - r * Real.sin a) ^ 2 = rho ^ 2 + r ^ 2 - 2 * r * (p * Real.cos a + q * Real.sin a) := by
    rw [h5]; linear_combination (r ^ 2) * sc
  rw [e]
  have h6 : (1 - s) * r ≤ r - rho := by linarith
  have h7 : 0 ≤ (1 - s) * r := mul_nonneg (by linarith) hr.le
  have h8 : ((1 - s) * r) ^ 2 ≤ (r - rho) ^ 2 := pow_le_pow_left₀ h7 h6 2
  have h9 : r * (p * Real.cos a + q * Real.sin a) ≤ r * rho := mul_le_mul_of_nonneg_left h3 hr.le
  nlinarith

theorem planeDist_turn_self (q : Nat) (u v : ℝ × ℝ) : planeDist (turn q u) (turn q v) = planeDist u v := by
  induction q with
  | zero => rfl
  | succ q ih =>
    rw [← ih]
    simp only [turn, planeDist]
    ring

/-- Elements of a ring of one layer are not smaller than the layer. -/
theorem ring_edge (ho : circleO native realFns cf bl r s ns 1 var bc ib = .ok o) (hns : 0 < ns) (hr : 0 < r) (hs : 0 ≤ s) (hs1 : s < 1)
    (hS : Spacing cf bl 1 eta) (q j : Nat) (hj : j < ns) (t : ℝ) (ht : ((quarter realFns o q).el j).smallestEdgeSq = .ok t) : ((1 - s) * r) ^ 2 ≤ t := by
  have hz := circleO_plane ho q j (by omega)
  have sh := (quarter_rows (circleO_rows ho) realFns q).shape j (by omega)
  have hn : (0 : ℝ) < ns := by positivity
  have far : ∀ ky < 2, ∀ ky' < 2, ((1 - s) * r) ^ 2 ≤ planeDist (planeCorner (quarter realFns o q) j ky 0) (planeCorner (quarter realFns o q) j ky' 1) := by
    intro ky hy ky' hy'
    obtain ⟨g, hg, e⟩ := block_corner ho hS.pos q 0 j (by omega) hj ky 0 hy (by omega)
    obtain ⟨g', hg', e'⟩ := block_corner ho hS.pos q 0 j (by omega) hj ky' 1 hy' (by omega)
    rw [Nat.add_zero, hS.eta0, hS.cf0] at hg
    rw [Nat.zero_add, hS.eta1, hS.cf1] at hg'
    obtain rfl := Except.ok.inj hg
    obtain rfl := Except.ok.inj hg'
    rw [Nat.add_zero, hS.eta0, rayPoint_inner _ _ _ _ hns] at e
    rw [Nat.zero_add 1, hS.eta1, rayPoint_outer] at e'
    rw [show 0 + 1 * j = j by omega] at e e'
    rw [e, e', planeDist_turn_self]
    have h2 : ((j + ky : Nat) : ℝ) / ns ≤ 1 := by
      rw [div_le_one hn]; exact_mod_cast (by omega : j + ky ≤ ns)
    rw [planeDist_symm]
    exact square_far hr hs hs1 _ _ (by positivity) h2
  have hd : ∀ ky ky' kx kx', distSq (((quarter realFns o q).el j).pt 0 ky kx) (((quarter realFns o q).el j).pt 0 ky' kx') =
      planeDist (planeCorner (quarter realFns o q) j ky kx) (planeCorner (quarter realFns o q) j ky' kx') := by
    intro ky ky' kx kx'
    simp only [distSq, Elem.pt, planeDist, planeCorner, hz]
    ring
  unfold Elem.smallestEdgeSq at ht
  rw [if_neg (by omega), if_neg (by omega)] at ht
  simp only [hd] at ht
  obtain rfl := Except.ok.inj ht
  rcases minList_mem (planeDist (planeCorner (quarter realFns o q) j 0 0) (planeCorner (quarter realFns o q) j 0 1))
    [planeDist (planeCorner (quarter realFns o q) j 0 1) (planeCorner (quarter realFns o q) j 1 0),
      planeDist (planeCorner (quarter realFns o q) j 1 0) (planeCorner (quarter realFns o q) j 1 1),
      planeDist (planeCorner (quarter realFns o q) j 1 1) (planeCorner (quarter realFns o q) j 0 0)] with h | h
  · rw [h]; exact far 0 (by omega) 0 (by omega)
  · simp only [List.mem_cons, List.not_mem_nil, or_false] at h
    rcases h with h | h | h <;> rw [h]
    · rw [planeDist_symm]; exact far 1 (by omega) 0 (by omega)
    · exact far 1 (by omega) 1 (by omega)
    · rw [planeDist_symm]; exact far 0 (by omega) 1 (by omega)

/-- The centres of the faces on both sides of a corner of the square. -/
theorem arc_gap (hns : 0 < ns) : planeDist ((Key.arc 0 (ns - 1)).centre r s ns eta) ((Key.arc 1 0).centre r s ns eta) ≤ (r * Real.pi / (2 * ns)) ^ 2 := by
  have hn : (0 : ℝ) < ns := by positivity
  have a0 : rayAlpha ns (ns - 1) = Real.pi / 4 - Real.pi / (2 * ns) := by
    unfold rayAlpha; rw [Nat.cast_sub hns]; field_simp; push_cast; ring
  have a1 : rayAlpha ns (ns - 1 + 1) = Real.pi / 4 := by
    rw [Nat.sub_add_cancel hns]; unfold rayAlpha; field_simp; ring
  have b0 : rayAlpha ns 0 = Real.pi / 4 - Real.pi / 2 := by
    unfold rayAlpha; field_simp; push_cast; ring
  have b1 : rayAlpha ns (0 + 1) = Real.pi / 4 + Real.pi / (2 * ns) - Real.pi / 2 := by
    unfold rayAlpha; field_simp; push_cast; ring
  simp only [Key.centre, turn, a0, a1, b0, b1, planeDist, Real.cos_sub_pi_div_two, Real.sin_sub_pi_div_two]
  set d := Real.pi / (2 * ns) with hd
  rw [Real.cos_sub, Real.sin_sub, Real.cos_add, Real.sin_add]
  have sc := Real.sin_sq_add_cos_sq (Real.pi / 4)
  have h1 : Real.sin d ^ 2 ≤ d ^ 2 := by
    have := Real.abs_sin_le_abs (x := d)
    rwa [sq_le_sq]
  have e : r * Real.pi / (2 * ns) = r * d := by rw [hd]; ring
  rw [e]
  calc _ = r ^ 2 * Real.sin d ^ 2 := by linear_combination (r ^ 2 * Real.sin d ^ 2) * sc
    _ ≤ r ^ 2 * d ^ 2 := mul_le_mul_of_nonneg_left h1 (sq_nonneg r)
    _ = _ := by ring

theorem closeFaces_same {F : Type} [Field F] [LinearOrder F] {a a' b b' : Elem F} (ha : SameButBcs a a') (hb : SameButBcs b b') (f g : Int) (tol : F) :
    closeFaces a f b g tol = closeFaces a' f b' g tol := by
  obtain ⟨x, rfl⟩ := ha
  obtain ⟨y, rfl⟩ := hb
  rfl

end

/-- **C63**: on a thin layer the curved faces next to a corner of the square become internal. If the layer between square and circle is one
element thick and `ns ≥ 50 π / (1 - s)`, then with internal connections the last curved face of the first quarter is of type `E`, whatever
condition was given for the circle. -/
theorem C63_thin {native : Endian} {r s : ℝ} {ns : Nat} {cf : Option (ℝ → Py ℝ)} {bl : ℝ → Py ℝ} {var : Var} {bc : List Name} {M : HexaData ℝ} {eta : Nat → ℝ}
    (h : genCircle native realFns r s ns 1 cf (some bl) var bc true = .ok M) (hr : 0 < r) (hs : 0 ≤ s) (hs1 : s < 1)
    (hS : Spacing (cf.getD fun x => .ok (realFns.sin (1 / 2 * realFns.pi * x) ^ 2)) bl 1 eta) (hbc : 0 < bc.length) (hP : u3 (bc.getD 0 []) ≠ nP)
    (h0 : u3 (bc.getD 0 []) ≠ []) (hbig : 50 * Real.pi ≤ ns * (1 - s)) :
    (M.el (ns * ns + (ns - 1))).ccurv 1 = ['C'] ∧ (M.bc (ns * ns + (ns - 1)) 0 1).typ = nE := by
  have hpi := Real.pi_pos
  have hns : 0 < ns := by
    rcases Nat.eq_zero_or_pos ns with rfl | h
    · rw [Nat.cast_zero, zero_mul] at hbig; linarith
    · exact h
  obtain ⟨c1, -, -, c4, -, c6⟩ := C63 h
  have hi : ns * ns + (ns - 1) < M.nel := by rw [c1]; omega
  have hcurv := c6 _ hi 1
  have hne : (M.el (ns * ns + (ns - 1))).ccurv 1 ≠ [] := hcurv.1.2 ⟨rfl, by omega, by rw [Nat.mod_one]⟩
  refine ⟨(hcurv.2 hne).1, ?_⟩
  have hkept := C63_bc_partial h hP _ hi 1 hne 0 hbc
  by_cases hE : u3 (bc.getD 0 []) = nE
  · rcases hkept with h | h
    · rw [h]; exact hE
    · exact h.1
  obtain ⟨cf', bl', o, M1, M2, M3, n1, n2, n3, n4, hpos, -, hcf, hbl, ho, h1, h2, h3, h4⟩ := genCircle_eq h
  obtain rfl : bl' = bl := by
    simp only [circleBl] at hbl
    exact (Except.ok.inj hbl).symm
  rw [← hcf] at hS
  obtain ⟨o1, o2, o3, -, o5, -⟩ := circleO_eq ho
  obtain ⟨s1, s2, s3, -, s5, -, -⟩ := square_ccurv native realFns r s ns var bc.length true
  have pA := square_noP native realFns r s ns var bc.length true
  have pB := fun q => quarter_noP (m := realFns) (circleO_noP ho hP) q
  have lB : ∀ q, (quarter realFns o q).elem.length = ns := fun q => (quarter_len realFns o q).trans (by rw [o2]; omega)
  have nB : ∀ q, (quarter realFns o q).nel = ns := fun q => (quarter_nel realFns o q).trans (by rw [o1]; omega)
  have lq : o.elem.length = ns := lB 0
  have nq : o.nel = ns := nB 0
  obtain ⟨p1, -, t1⟩ := merge_typs h1 pA (pB 0) (by rw [s1, s2]) (lq.trans nq.symm)
  obtain ⟨a1, a2, a3, a4, -, a6⟩ := merge_same h1
  rw [s2] at a1 a6 t1
  rw [s1] at a2
  have l1 : M1.elem.length = M1.nel := by rw [a1, a2, lq, nq]
  have y0 : (bcAt (circleBlocks (circleSquare native realFns r s ns var bc.length true) o realFns) 0 (1, (ns - 1, 1))).typ = u3 (bc.getD 0 []) := by
    have := key_bc ho hns Nat.one_pos (.arc 0 (ns - 1)) ⟨by omega, by omega⟩ _ (Or.inl rfl) 0 hbc
    simpa [Key.fst] using this
  have y1 : (bcAt (circleBlocks (circleSquare native realFns r s ns var bc.length true) o realFns) 0 (2, (0, 1))).typ = u3 (bc.getD 0 []) := by
    have := key_bc ho hns Nat.one_pos (.arc 1 0) ⟨by omega, by omega⟩ _ (Or.inl rfl) 0 hbc
    simpa [Key.fst] using this
  obtain ⟨m1, m2, m3, m4, -⟩ := quarter_meta realFns o 1
  have sh0 : (o.el (ns - 1)).pos.lx = 2 ∧ (o.el (ns - 1)).pos.ly = 2 ∧ (o.el (ns - 1)).pos.lz = 1 :=
    (quarter_rows (circleO_rows ho) realFns 0).shape (ns - 1) (by omega)
  have sh1 := (quarter_rows (circleO_rows ho) realFns 1).shape 0 (by omega)
  have hnear : NearEl (1 / 100) ((quarter realFns o 1).el 0) 1 (o.el (ns - 1)) 1 := by
    obtain ⟨e0, he0⟩ := smallestEdgeSq_ok (o.el (ns - 1)) (by omega)
    obtain ⟨e1, he1⟩ := smallestEdgeSq_ok ((quarter realFns o 1).el 0) (by omega)
    have b0 := ring_edge ho hns hr hs hs1 hS 0 (ns - 1) (by omega) e0 he0
    have b1 := ring_edge ho hns hr hs hs1 hS 1 0 hns e1 he1
    refine ⟨e1, e0, he1, he0, Or.inl ⟨by norm_num, ?_⟩⟩
    have f0 := key_centre ho hns Nat.one_pos hS (.arc 0 (ns - 1)) ⟨by omega, by omega⟩ _ (Or.inl rfl)
    have f1 := key_centre ho hns Nat.one_pos hS (.arc 1 0) ⟨by omega, by omega⟩ _ (Or.inl rfl)
    have z0 := (place_plane ho _ (key_place ho hns Nat.one_pos (.arc 0 (ns - 1)) ⟨by omega, by omega⟩).1).2
    have z1 := (place_plane ho _ (key_place ho hns Nat.one_pos (.arc 1 0) ⟨by omega, by omega⟩).1).2
    simp only [Key.fst, circleBlocks, Nat.sub_self, Nat.zero_add, Nat.one_mul, Nat.mul_zero] at f0 f1 z0 z1
    have gap := arc_gap (r := r) (s := s) (eta := eta) hns
    rw [← f0, ← f1] at gap
    change faceMean (o.el (ns - 1)) 1 2 = 0 at z0
    change (faceMean (o.el (ns - 1)) 1 0 - faceMean ((quarter realFns o 1).el 0) 1 0) ^ 2 + (faceMean (o.el (ns - 1)) 1 1 - faceMean ((quarter realFns o 1).el 0) 1 1) ^ 2 +
      (faceMean (o.el (ns - 1)) 1 2 - faceMean ((quarter realFns o 1).el 0) 1 2) ^ 2 ≤ _
    rw [z0, z1]
    change (faceMean ((quarter realFns o 1).el 0) 1 0 - faceMean (o.el (ns - 1)) 1 0) ^ 2 + (faceMean ((quarter realFns o 1).el 0) 1 1 - faceMean (o.el (ns - 1)) 1 1) ^ 2 ≤ _ at gap
    have hn : (0 : ℝ) < ns := by positivity
    have w : r * Real.pi / (2 * ns) ≤ 1 / 100 * ((1 - s) * r) := by
      rw [div_le_iff₀ (by positivity)]
      have := mul_le_mul_of_nonneg_left hbig hr.le
      linarith
    have w2 : (r * Real.pi / (2 * ns)) ^ 2 ≤ (1 / 100 * ((1 - s) * r)) ^ 2 := pow_le_pow_left₀ (by positivity) w 2
    have w3 : ((1 - s) * r) ^ 2 ≤ min e1 e0 := le_min b1 b0
    have w4 : ∀ a b : ℝ, (a - b) ^ 2 = (b - a) ^ 2 := fun a b => by ring
    rw [w4 (faceMean (o.el (ns - 1)) 1 0), w4 (faceMean (o.el (ns - 1)) 1 1), sub_self]
    linarith
  have htyp : (M2.bc (ns * ns + (ns - 1)) 0 1).typ = nE := by
    have k1 := t1 (ns - 1) (by rw [lq]; omega) 0 1
    have tA : (o.bc (ns - 1) 0 1).typ = u3 (bc.getD 0 []) := y0
    rw [tA] at k1
    have tB : ((quarter realFns o 1).bc 0 0 1).typ = u3 (bc.getD 0 []) := y1
    refine merge_touch (x := (ns * ns + (ns - 1), 1)) (y := (0, 1)) h2 p1 (pB 1) l1 ((lB 1).trans (nB 1).symm) ?_ ?_ ?_ ?_ ?_ ?_ ?_ ?_ ?_
    · rw [a4, s5, m3, o5, min_self]; exact hbc
    · simp only; omega
    · simp only; rw [a3, s3]; omega
    · simp only; rw [lB]; exact hns
    · simp only; rw [a3, s3]; omega
    · simp only
      rcases k1 with k | k
      · rw [k]; exact h0
      · rw [k.1]; decide
    · simp only; rw [tB]; exact h0
    · simp only; rw [tB]; exact hE
    · simp only
      have hcl : closeFaces ((quarter realFns o 1).el 0) ((1 : Nat) : Int) (o.el (ns - 1)) ((1 : Nat) : Int) (1 / 100) = .ok true := by
        have := (nearEl_close _ _ (by omega) (by omega) (1 / 100) 1 1 (by omega) (by omega)).1 hnear
        revert this
        cases closeFaces ((quarter realFns o 1).el 0) ((1 : Nat) : Int) (o.el (ns - 1)) ((1 : Nat) : Int) (1 / 100) with
        | error e => intro h; cases h
        | ok v => intro h; exact congrArg _ h
      rw [← hcl]
      refine closeFaces_same ?_ ?_ _ _ _
      · rw [append_el_right _ _ _ (by rw [lB]; exact hns)]
        exact ⟨_, rfl⟩
      · rw [append_el_left _ _ _ (by omega)]
        exact a6 (ns - 1) (by rw [lq]; omega)
  obtain ⟨p2, -, -⟩ := merge_typs h2 p1 (pB 1) l1 ((lB 1).trans (nB 1).symm)
  obtain ⟨b1, b2, -⟩ := merge_same h2
  have l2 : M2.elem.length = M2.nel := by rw [b1, b2, lB, nB, l1]
  obtain ⟨p3, -, -⟩ := merge_typs h3 p2 (pB 2) l2 ((lB 2).trans (nB 2).symm)
  obtain ⟨d1, d2, -⟩ := merge_same h3
  have l3 : M3.elem.length = M3.nel := by rw [d1, d2, lB, nB, l2]
  have k2 : KeptOrGlued M2 (1 / 100) (!true) (ns * ns + (ns - 1)) 0 1 nE := Or.inl htyp
  have k3 := KeptOrGlued.merge h3 p2 (pB 2) l2 ((lB 2).trans (nB 2).symm) (by omega) k2
  have k4 := KeptOrGlued.merge h4 p3 (pB 3) l3 ((lB 3).trans (nB 3).symm) (by omega) k3
  rcases k4 with k | k
  · exact k
  · exact k.1

/-- **C63** fails: a circle of 400 elements per side, a square of half its size and a single layer in between; the condition `W` of a curved face is
replaced by an internal connection. -/
theorem C63_false : ∃ M, genCircle .little realFns 1 (1 / 2) 400 1 none (some fun x => .ok x) ⟨2, 2, 1, 1, 0⟩ [['W']] true = .ok M ∧
    (M.el 160399).ccurv 1 = ['C'] ∧ (M.bc 160399 0 1).typ ≠ ['W'] := by
  obtain ⟨M, hM⟩ := C65_partial .little 1 (1 / 2) 400 1 (by norm_num) (by norm_num) none (by simp) (fun x => .ok x) (fun x => ⟨x, rfl⟩) ⟨2, 2, 1, 1, 0⟩ [['W']] (by decide) true
  have hS : Spacing ((none : Option (ℝ → Py ℝ)).getD fun x => .ok (realFns.sin (1 / 2 * realFns.pi * x) ^ 2)) (fun x => .ok x) 1 (fun i => (i : ℝ)) :=
    ⟨fun i _ => by simp, by simp, by simp, default_curv.1, default_curv.2⟩
  have := C63_thin hM one_pos (by norm_num) (by norm_num) hS (by decide) (by decide) (by decide) (by have := Real.pi_le_four; push_cast; linarith)
  refine ⟨M, hM, this.1, ?_⟩
  rw [this.2]
  decide

end Pymech
