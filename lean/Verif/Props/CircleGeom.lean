import Verif.Props.Circle

/-!
# C63, C65 `gen_circle` over the real numbers
-/

set_option linter.unusedSectionVars false

namespace Pymech

open Spec

section
variable {F : Type} [Field F] [LinearOrder F] [IsStrictOrderedRing F] [FloorRing F]

/-- `merge` does not raise if the meshes have at least two points in each direction and no periodic faces. -/
theorem merge_ok (A B : HexaData F) (tol : F) (ie ia : Bool) (hd : A.ndim = B.ndim) (h3 : A.ndim ≤ 3) (hl : A.lr1.x = B.lr1.x) (gA : Grid A) (gB : Grid B)
    (pA : NoP A) (pB : NoP B) (hA : A.elem.length = A.nel) (hB : B.elem.length = B.nel) : ∃ M n, A.merge B tol ie ia = .ok (M, n) := by
  have hg := Samples.append_grid A B gA gB
  have hlen : (A.append B).elem.length = A.nel + B.nel := by rw [append_length, hA, hB]
  have hp := pA.append pB
  unfold HexaData.merge
  rw [if_neg (by simp [hd]), if_neg (by simp [hl])]
  simp only
  unfold HexaData.mergeWith
  simp only
  split_ifs
  · exact ⟨_, _, rfl⟩
  have hin : ∀ (e0 f0 : Nat) (bc0 : Name), bc0 ≠ nP → e0 < (A.append B).elem.length → f0 < 2 * A.ndim → ∀ (l : List (Nat × Nat)),
      (∀ x ∈ l, x.1 < (A.append B).elem.length ∧ x.2 < 2 * A.ndim) → ∀ (s : HexaData F × Nat), ∃ s',
      l.foldlM (mergeInner (fun e0 f0 e1 f1 => closeFaces ((A.append B).el e0) f0 ((A.append B).el e1) f1 tol) (min A.nbc B.nbc) ie e0 f0 bc0) s = .ok s' := by
    intro e0 f0 bc0 hb he hf l
    induction l with
    | nil => intro _ s; exact ⟨s, rfl⟩
    | cons a l ih =>
      intro hx s
      obtain ⟨x1, x2⟩ := hx a (List.mem_cons_self ..)
      have ⟨v, hv⟩ := (closeFaces_near (A.append B) hg tol (e0, f0) a he (by simp only; omega) x1 (by omega)).1
      have hstep : ∃ t, mergeInner (fun e0 f0 e1 f1 => closeFaces ((A.append B).el e0) f0 ((A.append B).el e1) f1 tol) (min A.nbc B.nbc) ie e0 f0 bc0 s a = .ok t := by
        unfold mergeInner
        simp only at hv ⊢
        split_ifs
        · rw [hv]
          cases v
          · exact ⟨_, rfl⟩
          · unfold HexaData.mergePair
            rw [if_neg (fun hc => hb (hc.1.trans hc.2))]
            exact ⟨_, rfl⟩
        · exact ⟨_, rfl⟩
      obtain ⟨t, ht⟩ := hstep
      obtain ⟨s', hs'⟩ := ih (fun x h => hx x (List.mem_cons_of_mem _ h)) t
      exact ⟨s', by rw [List.foldlM_cons, ht]; exact hs'⟩
  have hout : ∀ (l : List (Nat × Nat)), (∀ x ∈ l, x.1 < (A.append B).elem.length ∧ x.2 < 2 * A.ndim) → ∀ (s : HexaData F × Nat), s.1.elem.length = (A.append B).elem.length → NoP s.1 →
      ∃ s', l.foldlM (mergeOuter (fun e0 f0 e1 f1 => closeFaces ((A.append B).el e0) f0 ((A.append B).el e1) f1 tol) (min A.nbc B.nbc) ie A.nel (2 * A.ndim)) s = .ok s' := by
    intro l
    induction l with
    | nil => intro _ s _ _; exact ⟨s, rfl⟩
    | cons a l ih =>
      intro hx s hs hN
      obtain ⟨x1, x2⟩ := hx a (List.mem_cons_self ..)
      have hx' : ∀ x ∈ prod2 (List.range A.nel) (List.range (2 * A.ndim)), x.1 < (A.append B).elem.length ∧ x.2 < 2 * A.ndim := by
        intro x hx
        obtain ⟨y1, y2⟩ := mem_prod2.1 hx
        rw [List.mem_range] at y1 y2
        exact ⟨by omega, y2⟩
      have hb := hN a.1 (by omega) a.2
      have hstep : ∃ t, mergeOuter (fun e0 f0 e1 f1 => closeFaces ((A.append B).el e0) f0 ((A.append B).el e1) f1 tol) (min A.nbc B.nbc) ie A.nel (2 * A.ndim) s a = .ok t ∧
          Glued (fun _ _ => True) s.1 t.1 := by
        unfold mergeOuter
        simp only
        split_ifs
        · obtain ⟨t, ht⟩ := hin a.1 a.2 _ hb x1 x2 _ hx' s
          exact ⟨t, ht, foldlM_glued _ (fun s x _ s' h => mergeInner_glued _ _ _ _ _ _ hb _ _ _ (fun _ => ⟨trivial, trivial⟩) h) _ _ ht⟩
        · exact ⟨s, rfl, Glued.refl _ _⟩
      obtain ⟨t, ht, hg⟩ := hstep
      obtain ⟨s', hs'⟩ := ih (fun x h => hx x (List.mem_cons_of_mem _ h)) t (hg.1.trans hs) (hN.glued hg)
      exact ⟨s', by rw [List.foldlM_cons, ht]; exact hs'⟩
  obtain ⟨s', hs'⟩ := hout (prod2 (List.range' A.nel B.nel) (List.range (2 * A.ndim))) (by
    intro x hx
    obtain ⟨y1, y2⟩ := mem_prod2.1 hx
    rw [List.mem_range'_1] at y1
    rw [List.mem_range] at y2
    exact ⟨by omega, y2⟩) (A.append B, 0) rfl hp
  exact ⟨s'.1, s'.2, hs'⟩

theorem merge_grid {A B M : HexaData F} {tol : F} {ie ia : Bool} {n : Nat} (h : A.merge B tol ie ia = .ok (M, n)) (gA : Grid A) (gB : Grid B) : Grid M := by
  obtain ⟨h1, -, -, -, h5, h6⟩ := merge_same h
  intro el hel
  obtain ⟨i, hi, rfl⟩ := List.getElem_of_mem hel
  rw [← HexaData.el_eq_getElem _ i hi]
  rcases Nat.lt_or_ge i A.elem.length with hlt | hge
  · obtain ⟨g, hg⟩ := h5 i hlt
    have := gA _ (A.el_mem i hlt)
    rw [hg]
    exact this
  · obtain ⟨k, rfl⟩ : ∃ k, i = A.elem.length + k := ⟨i - A.elem.length, by omega⟩
    obtain ⟨g, hg⟩ := h6 k (by omega)
    have := gB _ (B.el_mem k (by omega))
    rw [hg]
    exact this

theorem rotate_grid {M : HexaData F} (h : Grid M) (x y c s : F) : Grid (rotate2d M x y c s) := by
  intro el hel
  obtain ⟨a, ha, rfl⟩ := List.mem_map.1 hel
  exact h a ha

theorem quarter_grid {m : MathFns F} {o : HexaData F} (h : Grid o) (q : Nat) : Grid (quarter m o q) := by
  induction q with
  | zero => exact h
  | succ q ih => exact rotate_grid ih _ _ _ _

theorem square_grid (native : Endian) (m : MathFns F) (r s : F) (ns : Nat) (var : Var) (nbc : Nat) (ib : Bool) :
    Grid (circleSquare native m r s ns var nbc ib) := by
  obtain ⟨-, s2, -, -, -, -, s6⟩ := square_ccurv native m r s ns var nbc ib
  intro el hel
  obtain ⟨i, hi, rfl⟩ := List.getElem_of_mem hel
  rw [← HexaData.el_eq_getElem _ i hi, (s6 i (by rw [← s2]; exact hi)).2.2.2]
  exact ⟨le_refl 2, le_refl 2, le_refl 1⟩

/-- The corners of an element of the quarter O. -/
theorem oPos_eq {m : MathFns F} {cf bl : F → Py F} {r c : F} {ns no i j : Nat} {old p : Arr F} (h : oPos m cf bl r c ns no i j old = .ok p) :
    (p.n = old.n ∧ p.lz = old.lz ∧ p.ly = old.ly ∧ p.lx = old.lx) ∧
    ∃ eta : Nat → F, (∀ kx < 2, bl (((i + kx : Nat) : F) / (no : F)) = .ok (eta kx)) ∧
      ∀ ky < 2, ∀ kx < 2, ∃ x y, oCorner m cf r c ns (j + ky) (eta kx) = .ok (x, y) ∧ p.dat 0 0 ky kx = x ∧ p.dat 1 0 ky kx = y := by
  unfold oPos at h
  simp only [bind, Except.bind] at h
  split at h
  · cases h
  next e0 he0 =>
  split at h
  · cases h
  next e1 he1 =>
  split at h
  · cases h
  next p00 h00 =>
  split at h
  · cases h
  next p01 h01 =>
  split at h
  · cases h
  next p10 h10 =>
  split at h
  · cases h
  next p11 h11 =>
  cases h
  refine ⟨⟨rfl, rfl, rfl, rfl⟩, fun k => if k = 0 then e0 else e1, ?_, ?_⟩
  · intro kx hk
    rcases (by omega : kx = 0 ∨ kx = 1) with rfl | rfl
    · simpa using he0
    · simpa using he1
  · intro ky hy kx hx
    rcases (by omega : ky = 0 ∨ ky = 1) with rfl | rfl <;> rcases (by omega : kx = 0 ∨ kx = 1) with rfl | rfl
    · exact ⟨_, _, h00, rfl, rfl⟩
    · exact ⟨_, _, h01, rfl, rfl⟩
    · exact ⟨_, _, h10, rfl, rfl⟩
    · exact ⟨_, _, h11, rfl, rfl⟩

theorem circleO_grid {native : Endian} {m : MathFns F} {cf bl : F → Py F} {r s : F} {ns no : Nat} {var : Var} {bc : List Name} {ib : Bool} {o : HexaData F}
    (ho : circleO native m cf bl r s ns no var bc ib = .ok o) : Grid o := by
  obtain ⟨o1, o2, -, -, -, -, o6⟩ := circleO_eq ho
  intro el hel
  obtain ⟨i, hi, rfl⟩ := List.getElem_of_mem hel
  rw [← HexaData.el_eq_getElem _ i hi]
  obtain ⟨⟨-, h1, h2, h3⟩, -⟩ := oPos_eq (o6 i (by rw [← o2]; exact hi)).2.2.2.2
  rw [h1, h2, h3]
  exact ⟨le_refl 2, le_refl 2, le_refl 1⟩

end

/-! ### Over the real numbers -/

/-- The angle of ray `j` on the circle. -/
noncomputable def rayAlpha (ns j : Nat) : ℝ := 1 / 2 * Real.pi * ((j : ℝ) / (ns : ℝ) - 1 / 2)

theorem cos_rayAlpha_pos (ns j : Nat) (hn : 0 < ns) (hj : j ≤ ns) : 0 < Real.cos (rayAlpha ns j) := by
  have hn' : (0 : ℝ) < ns := by exact_mod_cast hn
  have h1 : (j : ℝ) / ns ≤ 1 := by rw [div_le_one hn']; exact_mod_cast hj
  have h0 : (0 : ℝ) ≤ (j : ℝ) / ns := by positivity
  have hp := Real.pi_pos
  unfold rayAlpha
  apply Real.cos_pos_of_mem_Ioo
  constructor <;> nlinarith

theorem oCorner_ok (cf : ℝ → Py ℝ) (hcf : ∀ x, ∃ y, cf x = .ok y) (r c : ℝ) (ns j : Nat) (hn : 0 < ns) (hj : j ≤ ns) (eta : ℝ) :
    ∃ p, oCorner realFns cf r c ns j eta = .ok p := by
  have h1 := (cos_rayAlpha_pos ns j hn hj).ne'
  have h2 := (Real.cos_arctan_pos (2 * (j : ℝ) / (ns : ℝ) - 1)).ne'
  obtain ⟨g, hg⟩ := hcf eta
  unfold rayAlpha at h1
  unfold oCorner
  simp only [realFns, pyDiv_ok h1, pyDiv_ok h2, hg, bind, Except.bind, pure, Except.pure]
  exact ⟨_, rfl⟩

/-- **C65**, what holds: given a spacing function that does not raise, `gen_circle` returns a mesh for any number of layers, in
particular for one; the same with the function for the curvature left out or given. -/
theorem C65_partial (native : Endian) (r s : ℝ) (ns no : Nat) (hns : 0 < ns) (hno : 0 < no) (cf : Option (ℝ → Py ℝ)) (hcf : ∀ f ∈ cf, ∀ x, ∃ y, f x = .ok y)
    (bl : ℝ → Py ℝ) (hbl : ∀ x, ∃ y, bl x = .ok y) (var : Var) (bc : List Name) (hP : u3 (bc.getD 0 []) ≠ nP) (ib : Bool) :
    ∃ M, genCircle native realFns r s ns no cf (some bl) var bc ib = .ok M := by
  have hcf' : ∀ x, ∃ y, cf.getD (fun x => .ok (realFns.sin (1 / 2 * realFns.pi * x) ^ 2)) x = .ok y := by
    intro x
    cases cf with
    | none => exact ⟨_, rfl⟩
    | some f => exact hcf f rfl x
  have ho : ∃ o, circleO native realFns (cf.getD fun x => .ok (realFns.sin (1 / 2 * realFns.pi * x) ^ 2)) bl r s ns no var bc ib = .ok o := by
    unfold circleO
    obtain ⟨l, hl, -⟩ := mapM_ok' (List.range (no * ns)) (fun iel => oPos realFns (cf.getD fun x => .ok (realFns.sin (1 / 2 * realFns.pi * x) ^ 2)) bl r
      (s * r * realFns.sqrt2) ns no (iel % no) (iel / no) ((HexaData.new native 2 (no * ns) ⟨2, 2, 1, true⟩ var bc.length : HexaData ℝ).el iel).pos) (by
      intro i hi
      rw [List.mem_range] at hi
      have hj : i / no < ns := by rw [Nat.div_lt_iff_lt_mul hno, Nat.mul_comm]; exact hi
      obtain ⟨e0, h0⟩ := hbl (((i % no : Nat) : ℝ) / (no : ℝ))
      obtain ⟨e1, h1⟩ := hbl (((i % no + 1 : Nat) : ℝ) / (no : ℝ))
      obtain ⟨p00, h00⟩ := oCorner_ok _ hcf' r (s * r * realFns.sqrt2) ns (i / no) hns hj.le e0
      obtain ⟨p01, h01⟩ := oCorner_ok _ hcf' r (s * r * realFns.sqrt2) ns (i / no) hns hj.le e1
      obtain ⟨p10, h10⟩ := oCorner_ok _ hcf' r (s * r * realFns.sqrt2) ns (i / no + 1) hns hj e0
      obtain ⟨p11, h11⟩ := oCorner_ok _ hcf' r (s * r * realFns.sqrt2) ns (i / no + 1) hns hj e1
      unfold oPos
      simp only [h0, h1, h00, h01, h10, h11, bind, Except.bind]
      exact ⟨_, rfl⟩)
    simp only [bind, Except.bind, hl]
    exact ⟨_, rfl⟩
  obtain ⟨o, ho⟩ := ho
  obtain ⟨o1, o2, o3, o4, -⟩ := circleO_eq ho
  obtain ⟨s1, s2, s3, s4, -⟩ := square_ccurv native realFns r s ns var bc.length ib
  have pO := circleO_noP ho hP
  have gO := circleO_grid ho
  have hl : ∀ q, (quarter realFns o q).elem.length = (quarter realFns o q).nel := fun q => by rw [quarter_len, quarter_nel, o1, o2]
  have hd : ∀ q, (quarter realFns o q).ndim = 2 := by
    intro q
    induction q with
    | zero => exact o3
    | succ q ih => exact ih
  have hx : ∀ q, (quarter realFns o q).lr1.x = 2 := by
    intro q
    induction q with
    | zero => show o.lr1.x = 2; rw [o4]
    | succ q ih => exact ih
  have step : ∀ (A : HexaData ℝ) (q : Nat), A.ndim = 2 → A.lr1.x = 2 → Grid A → NoP A → A.elem.length = A.nel →
      ∃ M n, A.merge (quarter realFns o q) (1 / 100) true (!ib) = .ok (M, n) ∧ M.ndim = 2 ∧ M.lr1.x = 2 ∧ Grid M ∧ NoP M ∧ M.elem.length = M.nel := by
    intro A q h1 h2 h3 h4 h5
    obtain ⟨M, n, hM⟩ := merge_ok A (quarter realFns o q) (1 / 100) true (!ib) (by rw [h1, hd]) (by omega) (by rw [h2, hx]) h3 (quarter_grid gO q) h4
      (quarter_noP pO q) h5 (hl q)
    obtain ⟨m1, m2, m3, -⟩ := merge_same hM
    obtain ⟨m4, -⟩ := merge_concat _ _ _ _ _ _ _ hM
    refine ⟨M, n, hM, m3.trans h1, ?_, merge_grid hM h3 (quarter_grid gO q), (merge_typs hM h4 (quarter_noP pO q) h5 (hl q)).1, by rw [m1, m2, h5, hl]⟩
    rw [m4]
    exact h2
  obtain ⟨M1, n1, h1, a1, a2, a3, a4, a5⟩ := step _ 0 s3 (by rw [s4]) (square_grid native realFns r s ns var bc.length ib)
    (square_noP native realFns r s ns var bc.length ib) (by rw [s1, s2])
  obtain ⟨M2, n2, h2, b1, b2, b3, b4, b5⟩ := step M1 1 a1 a2 a3 a4 a5
  obtain ⟨M3, n3, h3, c1, c2, c3, c4, c5⟩ := step M2 2 b1 b2 b3 b4 b5
  obtain ⟨M4, n4, h4, -⟩ := step M3 3 c1 c2 c3 c4 c5
  refine ⟨M4, ?_⟩
  unfold genCircle
  simp only [circleBl, bind, Except.bind]
  rw [if_neg (by omega), ho]
  simp only [quarter] at h1 h2 h3 h4
  simp only [h1, h2, h3, h4, pure, Except.pure]

example : ∃ M, genCircle .little realFns 1 (1 / 2) 3 1 none (some fun x => .ok x) ⟨3, 3, 1, 1, 0⟩ [['W']] true = .ok M :=
  C65_partial _ _ _ _ _ (by norm_num) (by norm_num) _ (by simp) _ (fun x => ⟨x, rfl⟩) _ _ (by decide) _

/-- The planeCorner of the O mesh in closed form. -/
noncomputable def rayPoint (r c : ℝ) (ns j : Nat) (g eta : ℝ) : ℝ × ℝ :=
  let a := rayAlpha ns j
  let b := Real.arctan (2 * (j : ℝ) / (ns : ℝ) - 1)
  let la := 1 / 2 * c / Real.cos a
  let lb := 1 / 2 * c / Real.cos b
  let d := g * (la + eta * (r - la)) + (1 - g) * (lb + eta * (1 / 2 * Real.sqrt 2 * r / Real.cos b - lb))
  (d * Real.cos (g * a + (1 - g) * b), d * Real.sin (g * a + (1 - g) * b))

theorem oCorner_eq {cf : ℝ → Py ℝ} {r c : ℝ} {ns j : Nat} {eta : ℝ} {p : ℝ × ℝ} (h : oCorner realFns cf r c ns j eta = .ok p) :
    ∃ g, cf eta = .ok g ∧ p = rayPoint r c ns j g eta := by
  unfold oCorner at h
  simp only [bind, Except.bind] at h
  split at h
  · cases h
  next l1 h1 =>
  split at h
  · cases h
  next l2 h2 =>
  split at h
  · cases h
  next l3 h3 =>
  split at h
  · cases h
  next g hg =>
  obtain ⟨-, rfl⟩ := pyDiv_eq h1
  obtain ⟨-, rfl⟩ := pyDiv_eq h2
  obtain ⟨-, rfl⟩ := pyDiv_eq h3
  cases h
  exact ⟨g, hg, rfl⟩

/-- On the circle: at distance `r` from the origin. -/
theorem rayPoint_outer (r c : ℝ) (ns j : Nat) : rayPoint r c ns j 1 1 = (r * Real.cos (rayAlpha ns j), r * Real.sin (rayAlpha ns j)) := by
  unfold rayPoint
  simp

/-- On the side of the square. -/
theorem rayPoint_inner (r c : ℝ) (ns j : Nat) (hn : 0 < ns) : rayPoint r c ns j 0 0 = (1 / 2 * c, c * ((j : ℝ) / ns - 1 / 2)) := by
  have h2 := (Real.cos_arctan_pos (2 * (j : ℝ) / (ns : ℝ) - 1)).ne'
  have hn' : (ns : ℝ) ≠ 0 := by positivity
  unfold rayPoint
  simp only [zero_mul, sub_zero, one_mul, zero_add, add_zero]
  refine Prod.ext ?_ ?_ <;> simp only
  · field_simp
  · rw [div_mul_eq_mul_div, mul_div_assoc, ← Real.tan_eq_sin_div_cos, Real.tan_arctan]
    field_simp

/-- The first and the last ray are the diagonals. -/
theorem rayPoint_zero (r c : ℝ) (ns : Nat) (g eta : ℝ) : rayPoint r c ns 0 g eta =
    let d := 1 / 2 * c * Real.sqrt 2 + eta * (r - 1 / 2 * c * Real.sqrt 2)
    (d * (Real.sqrt 2 / 2), - (d * (Real.sqrt 2 / 2))) := by
  have ha : rayAlpha ns 0 = -(Real.pi / 4) := by unfold rayAlpha; simp; ring
  have hb : Real.arctan (2 * ((0 : Nat) : ℝ) / (ns : ℝ) - 1) = -(Real.pi / 4) := by simp [Real.arctan_neg]
  have hs : Real.sqrt 2 ≠ 0 := by positivity
  have hq : Real.sqrt 2 * Real.sqrt 2 = 2 := Real.mul_self_sqrt (by norm_num)
  unfold rayPoint
  rw [ha, hb]
  have ht : g * -(Real.pi / 4) + (1 - g) * -(Real.pi / 4) = -(Real.pi / 4) := by ring
  simp only [ht, Real.cos_neg, Real.sin_neg, Real.cos_pi_div_four, Real.sin_pi_div_four]
  have h1 : 1 / 2 * c / (Real.sqrt 2 / 2) = 1 / 2 * c * Real.sqrt 2 := by
    field_simp
    linear_combination (-c) * hq
  have h2 : 1 / 2 * Real.sqrt 2 * r / (Real.sqrt 2 / 2) = r := by field_simp
  rw [h1, h2]
  refine Prod.ext ?_ ?_ <;> simp only <;> ring

theorem rayPoint_last (r c : ℝ) (ns : Nat) (hn : 0 < ns) (g eta : ℝ) : rayPoint r c ns ns g eta =
    let d := 1 / 2 * c * Real.sqrt 2 + eta * (r - 1 / 2 * c * Real.sqrt 2)
    (d * (Real.sqrt 2 / 2), d * (Real.sqrt 2 / 2)) := by
  have hn' : (ns : ℝ) ≠ 0 := by positivity
  have ha : rayAlpha ns ns = Real.pi / 4 := by unfold rayAlpha; rw [div_self hn']; ring
  have hb : Real.arctan (2 * (ns : ℝ) / (ns : ℝ) - 1) = Real.pi / 4 := by
    rw [mul_div_assoc, div_self hn', show (2 : ℝ) * 1 - 1 = 1 by norm_num, Real.arctan_one]
  have hs : Real.sqrt 2 ≠ 0 := by positivity
  have hq : Real.sqrt 2 * Real.sqrt 2 = 2 := Real.mul_self_sqrt (by norm_num)
  unfold rayPoint
  rw [ha, hb]
  have ht : g * (Real.pi / 4) + (1 - g) * (Real.pi / 4) = Real.pi / 4 := by ring
  simp only [ht, Real.cos_pi_div_four, Real.sin_pi_div_four]
  have h1 : 1 / 2 * c / (Real.sqrt 2 / 2) = 1 / 2 * c * Real.sqrt 2 := by
    field_simp
    linear_combination (-c) * hq
  have h2 : 1 / 2 * Real.sqrt 2 * r / (Real.sqrt 2 / 2) = r := by field_simp
  rw [h1, h2]
  refine Prod.ext ?_ ?_ <;> simp only <;> ring

/-- Corner of an element in the plane. -/
def Spec.planeCorner (M : HexaData ℝ) (i ky kx : Nat) : ℝ × ℝ := ((M.el i).pos.dat 0 0 ky kx, (M.el i).pos.dat 1 0 ky kx)

/-- A point turned by `q` right angles. -/
def Spec.turn : Nat → ℝ × ℝ → ℝ × ℝ
  | 0, p => p
  | q + 1, p => (- (Spec.turn q p).2, (Spec.turn q p).1)

theorem quarter_corner (o : HexaData ℝ) (q k : Nat) (hk : k < o.elem.length) (ky kx : Nat) :
    planeCorner (quarter realFns o q) k ky kx = turn q (planeCorner o k ky kx) := by
  induction q with
  | zero => rfl
  | succ q ih =>
    rw [turn, ← ih]
    unfold planeCorner
    rw [quarter, rotate2d_el _ _ _ _ _ _ (by rw [quarter_len]; exact hk)]
    have e1 : (1 : ℝ) / 2 * Real.pi = Real.pi / 2 := by ring
    simp only [rotateElem, rotatePos, realFns, e1, Real.cos_pi_div_two, Real.sin_pi_div_two]
    simp

/-- The corners of the circle: those of the square, and for the element at layer `i` and angle `j` of quarter `q` the points at
radial positions `bl (i / no)`, `bl ((i + 1) / no)` on the rays `j` and `j + 1`, turned by `q` right angles. -/
theorem circle_corners {native : Endian} {r s : ℝ} {ns no : Nat} {cf : Option (ℝ → Py ℝ)} {bl : ℝ → Py ℝ} {var : Var} {bc : List Name} {ib : Bool}
    {M : HexaData ℝ} (h : genCircle native realFns r s ns no cf (some bl) var bc ib = .ok M) :
    (∀ i < ns, ∀ j < ns, ∀ ky < 2, ∀ kx < 2, planeCorner M (i + j * ns) ky kx =
      (s * r * Real.sqrt 2 * (((i + kx : Nat) : ℝ) / ns - 1 / 2), s * r * Real.sqrt 2 * (((j + ky : Nat) : ℝ) / ns - 1 / 2))) ∧
    (∀ q < 4, ∀ i < no, ∀ j < ns, ∀ ky < 2, ∀ kx < 2, ∃ eta g, bl (((i + kx : Nat) : ℝ) / no) = .ok eta ∧
      (cf.getD fun x => .ok (Real.sin (1 / 2 * Real.pi * x) ^ 2)) eta = .ok g ∧
      planeCorner M (ns * ns + no * ns * q + (i + j * no)) ky kx = turn q (rayPoint r (s * r * Real.sqrt 2) ns (j + ky) g eta)) := by
  obtain ⟨cf', bl', o, hpos, hcf, hbl, ho, e1, e2, e3, e4, e5, e6⟩ := genCircle_blocks h
  obtain ⟨-, o2, -, -, -, -, o6⟩ := circleO_eq ho
  obtain ⟨-, s2, -, -, -, -, s6⟩ := square_ccurv native realFns r s ns var bc.length ib
  obtain rfl : bl = bl' := Except.ok.inj hbl
  have hsame : ∀ (M M' : HexaData ℝ) (i i' ky kx : Nat), SameButBcs (M.el i) (M'.el i') → planeCorner M i ky kx = planeCorner M' i' ky kx := by
    intro M M' i i' ky kx hs
    obtain ⟨g, hg⟩ := hs
    unfold planeCorner
    rw [hg]
  refine ⟨fun i hi j hj ky hy kx hx => ?_, fun q hq i hi j hj ky hy kx hx => ?_⟩
  · have hlt : i + j * ns < ns * ns := by nlinarith
    have hm : (i + j * ns) % ns = i := by rw [Nat.add_mul_mod_self_right, Nat.mod_eq_of_lt hi]
    have hd : (i + j * ns) / ns = j := by rw [Nat.add_mul_div_right _ _ (by omega), Nat.div_eq_of_lt hi, Nat.zero_add]
    rw [hsame _ _ _ _ ky kx (e5 _ hlt)]
    unfold planeCorner
    rw [(s6 _ hlt).2.2.2, hm, hd]
    unfold squarePos
    simp only [realFns]
    rcases (by omega : ky = 0 ∨ ky = 1) with rfl | rfl <;> rcases (by omega : kx = 0 ∨ kx = 1) with rfl | rfl <;> simp
  · have hlt : i + j * no < no * ns := by nlinarith
    have hm : (i + j * no) % no = i := by rw [Nat.add_mul_mod_self_right, Nat.mod_eq_of_lt hi]
    have hd : (i + j * no) / no = j := by rw [Nat.add_mul_div_right _ _ (by omega), Nat.div_eq_of_lt hi, Nat.zero_add]
    have hp := (o6 _ hlt).2.2.2.2
    rw [hm, hd] at hp
    obtain ⟨-, eta, h1, h2⟩ := oPos_eq hp
    obtain ⟨x, y, h3, h4, h5⟩ := h2 ky hy kx hx
    obtain ⟨g, h6, h7⟩ := oCorner_eq h3
    rw [show realFns.sqrt2 = Real.sqrt 2 from rfl] at h7
    refine ⟨eta kx, g, h1 kx hx, by rw [hcf] at h6; exact h6, ?_⟩
    rw [hsame _ _ _ _ ky kx (e6 q hq _ hlt), quarter_corner o q _ (by rw [o2]; exact hlt), ← h7]
    unfold planeCorner
    rw [h4, h5]

theorem turn_sq (q : Nat) (p : ℝ × ℝ) : (turn q p).1 ^ 2 + (turn q p).2 ^ 2 = p.1 ^ 2 + p.2 ^ 2 := by
  induction q with
  | zero => rfl
  | succ q ih => rw [turn, ← ih]; ring

/-- **C63**, the geometry of the boundary. If the spacing ends at 1 and the curvature there is 1 (as by default), then both ends of every
curved edge of the mesh lie on the circle of radius `r` about the origin. -/
theorem C63_radius {native : Endian} {r s : ℝ} {ns no : Nat} {cf : Option (ℝ → Py ℝ)} {bl : ℝ → Py ℝ} {var : Var} {bc : List Name} {ib : Bool}
    {M : HexaData ℝ} (h : genCircle native realFns r s ns no cf (some bl) var bc ib = .ok M) (hbl : bl 1 = .ok 1) (hcf : ∀ f ∈ cf, f 1 = .ok 1)
    (i : Nat) (hi : i < M.nel) (e : Nat) (he : (M.el i).ccurv e ≠ []) :
    e = 1 ∧ ∀ ky < 2, (planeCorner M i ky 1).1 ^ 2 + (planeCorner M i ky 1).2 ^ 2 = r ^ 2 := by
  obtain ⟨n1, -, -, -, -, n6⟩ := C63 h
  obtain ⟨rfl, e2, e3⟩ := ((n6 i hi e).1).1 he
  refine ⟨rfl, fun ky hy => ?_⟩
  rw [n1, Nat.mul_comm ns no] at hi
  have hp : 0 < no * ns := by omega
  have hno : 0 < no := Nat.pos_of_mul_pos_right hp
  obtain ⟨q, k, hq, hk, rfl⟩ : ∃ q k, q < 4 ∧ k < no * ns ∧ i = ns * ns + no * ns * q + k := by
    refine ⟨(i - ns * ns) / (no * ns), (i - ns * ns) % (no * ns), ?_, Nat.mod_lt _ hp, ?_⟩
    · rw [Nat.div_lt_iff_lt_mul hp]; omega
    · have := Nat.div_add_mod (i - ns * ns) (no * ns); omega
  have hmod : (ns * ns + no * ns * q + k - ns * ns) % no = k % no := by
    rw [Nat.add_assoc, Nat.add_sub_cancel_left, Nat.mul_assoc, Nat.mul_add_mod]
  rw [hmod] at e3
  have hj : k / no < ns := by rw [Nat.div_lt_iff_lt_mul hno, Nat.mul_comm]; exact hk
  have hk' : k = no - 1 + k / no * no := by
    have := Nat.div_add_mod k no
    rw [e3, Nat.mul_comm] at this
    omega
  obtain ⟨eta, g, h1, h2, h3⟩ := (circle_corners h).2 q hq (no - 1) (by omega) (k / no) hj ky hy 1 (by omega)
  rw [← hk'] at h3
  have hne : (no : ℝ) ≠ 0 := by positivity
  rw [Nat.sub_add_cancel hno, div_self hne, hbl] at h1
  obtain rfl := Except.ok.inj h1
  have hg : g = 1 := by
    cases hc : cf with
    | none =>
      rw [hc] at h2
      have := Except.ok.inj h2
      rw [← this, mul_one, show (1 : ℝ) / 2 * Real.pi = Real.pi / 2 by ring, Real.sin_pi_div_two, one_pow]
    | some f =>
      have h4 := hcf f (by rw [hc]; rfl)
      rw [hc] at h2
      have h2' : f 1 = .ok g := h2
      rw [h4] at h2'
      exact (Except.ok.inj h2').symm
  rw [h3, turn_sq, hg, rayPoint_outer]
  simp only
  linear_combination r ^ 2 * Real.cos_sq_add_sin_sq (rayAlpha ns (k / no + ky))

/-- **C63**, the blocks fit. If the spacing starts at 0 and the curvature there is 0 (as by default), then the innermost elements of each
quarter share their inner corners exactly with the square: element `j` of quarter 0 with the right side, of quarter 1 with the top, of
quarter 2 with the left side and of quarter 3 with the bottom. -/
theorem C63_inner {native : Endian} {r s : ℝ} {ns no : Nat} {cf : Option (ℝ → Py ℝ)} {bl : ℝ → Py ℝ} {var : Var} {bc : List Name} {ib : Bool}
    {M : HexaData ℝ} (h : genCircle native realFns r s ns no cf (some bl) var bc ib = .ok M) (hno : 0 < no) (hbl : bl 0 = .ok 0) (hcf : ∀ f ∈ cf, f 0 = .ok 0)
    (j : Nat) (hj : j < ns) (ky : Nat) (hy : ky < 2) :
    planeCorner M (ns * ns + j * no) ky 0 = planeCorner M (ns - 1 + j * ns) ky 1 ∧
    planeCorner M (ns * ns + no * ns + j * no) ky 0 = planeCorner M (ns - 1 - j + (ns - 1) * ns) 1 (1 - ky) ∧
    planeCorner M (ns * ns + no * ns * 2 + j * no) ky 0 = planeCorner M (0 + (ns - 1 - j) * ns) (1 - ky) 0 ∧
    planeCorner M (ns * ns + no * ns * 3 + j * no) ky 0 = planeCorner M (j + 0 * ns) 0 ky := by
  obtain ⟨hs, ho⟩ := circle_corners h
  have hns : 0 < ns := by omega
  have hn' : (ns : ℝ) ≠ 0 := by positivity
  have key : ∀ q < 4, planeCorner M (ns * ns + no * ns * q + j * no) ky 0 =
      turn q (1 / 2 * (s * r * Real.sqrt 2), s * r * Real.sqrt 2 * (((j + ky : Nat) : ℝ) / ns - 1 / 2)) := by
    intro q hq
    obtain ⟨eta, g, h1, h2, h3⟩ := ho q hq 0 hno j hj ky hy 0 (by omega)
    rw [Nat.zero_add] at h3
    rw [h3, ← rayPoint_inner r (s * r * Real.sqrt 2) ns (j + ky) hns]
    simp only [Nat.add_zero, Nat.cast_zero, zero_div] at h1
    rw [hbl] at h1
    obtain rfl := Except.ok.inj h1
    have hg : g = 0 := by
      cases hc : cf with
      | none =>
        rw [hc] at h2
        have := Except.ok.inj h2
        rw [← this]
        simp
      | some f =>
        have h4 := hcf f (by rw [hc]; rfl)
        rw [hc] at h2
        have h2' : f 0 = .ok g := h2
        rw [h4] at h2'
        exact (Except.ok.inj h2').symm
    rw [hg]
  have hj' : ((ns - 1 - j + (1 - ky) : Nat) : ℝ) = ns - ((j + ky : Nat) : ℝ) := by
    have : ns - 1 - j + (1 - ky) + (j + ky) = ns := by omega
    have : ((ns - 1 - j + (1 - ky) : Nat) : ℝ) + ((j + ky : Nat) : ℝ) = ns := by exact_mod_cast this
    linarith
  have k0 := key 0 (by omega)
  have k1 := key 1 (by omega)
  rw [Nat.mul_zero, Nat.add_zero] at k0
  rw [Nat.mul_one] at k1
  refine ⟨?_, ?_, ?_, ?_⟩
  · rw [k0, hs (ns - 1) (by omega) j hj ky hy 1 (by omega), Nat.sub_add_cancel hns, div_self hn']
    refine Prod.ext ?_ ?_ <;> simp only [turn] <;> ring
  · rw [k1, hs (ns - 1 - j) (by omega) (ns - 1) (by omega) 1 (by omega) (1 - ky) (by omega), Nat.sub_add_cancel hns, div_self hn', hj']
    refine Prod.ext ?_ ?_ <;> simp only [turn]
    · field_simp
      ring
    · ring
  · rw [key 2 (by omega), hs 0 (by omega) (ns - 1 - j) (by omega) (1 - ky) (by omega) 0 (by omega), hj']
    refine Prod.ext ?_ ?_ <;> simp only [turn, Nat.add_zero, Nat.cast_zero] <;> field_simp <;> ring
  · rw [key 3 (by omega), hs j hj 0 (by omega) 0 (by omega) ky hy]
    refine Prod.ext ?_ ?_ <;> simp only [turn, Nat.add_zero, Nat.cast_zero] <;> field_simp <;> ring

theorem turn_four (p : ℝ × ℝ) : turn 4 p = p := by
  simp [turn]

/-- **C63**, the quarters fit: the last elements of each quarter share their upper corners exactly with the first elements of the next,
for any spacing and curvature. -/
theorem C63_quarters {native : Endian} {r s : ℝ} {ns no : Nat} {cf : Option (ℝ → Py ℝ)} {bl : ℝ → Py ℝ} {var : Var} {bc : List Name} {ib : Bool}
    {M : HexaData ℝ} (h : genCircle native realFns r s ns no cf (some bl) var bc ib = .ok M) (hns : 0 < ns) (q : Nat) (hq : q < 4) (i : Nat) (hi : i < no) (kx : Nat)
    (hx : kx < 2) : planeCorner M (ns * ns + no * ns * q + (i + (ns - 1) * no)) 1 kx = planeCorner M (ns * ns + no * ns * ((q + 1) % 4) + i) 0 kx := by
  obtain ⟨-, ho⟩ := circle_corners h
  obtain ⟨eta, g, h1, h2, h3⟩ := ho q hq i hi (ns - 1) (by omega) 1 (by omega) kx hx
  obtain ⟨eta', g', h1', h2', h3'⟩ := ho ((q + 1) % 4) (Nat.mod_lt _ (by omega)) i hi 0 hns 0 (by omega) kx hx
  rw [h1] at h1'
  obtain rfl := Except.ok.inj h1'
  rw [Nat.zero_mul, Nat.add_zero i, Nat.add_zero 0] at h3'
  rw [h3, h3', Nat.sub_add_cancel hns, rayPoint_last _ _ _ hns, rayPoint_zero]
  have ht : ∀ p, turn ((q + 1) % 4) p = turn (q + 1) p := by
    intro p
    rcases (by omega : q < 3 ∨ q = 3) with h | rfl
    · rw [Nat.mod_eq_of_lt (by omega)]
    · exact (turn_four p).symm
  rw [ht]
  have hc : ∀ q (x : ℝ × ℝ), turn (q + 1) x = turn q (-x.2, x.1) := by
    intro q
    induction q with
    | zero => intro x; rfl
    | succ q ih => intro x; rw [turn, ih, turn]
  rw [hc]
  simp only [neg_neg]

/-- A circle of 3×3 and four times 3×2 elements with its conditions, arcs and fitting blocks. -/
example : ∃ M, genCircle .little realFns 2 (1 / 2) 3 2 none (some fun x => .ok x) ⟨3, 3, 1, 1, 0⟩ [['W'], ['t']] true = .ok M ∧ M.nel = 33 ∧ curvedEdges M = 12 ∧
    KeptOrGlued M (1 / 100) false 10 1 1 ['t'] ∧ (planeCorner M 10 0 1).1 ^ 2 + (planeCorner M 10 0 1).2 ^ 2 = 4 ∧ planeCorner M 9 0 0 = planeCorner M 2 0 1 ∧
    planeCorner M (9 + 6 * 3 + 4) 1 0 = planeCorner M 9 0 0 ∧ M.ncurv = 0 := by
  obtain ⟨M, h⟩ := C65_partial .little 2 (1 / 2) 3 2 (by norm_num) (by norm_num) none (by simp) (fun x => .ok x) (fun x => ⟨x, rfl⟩) ⟨3, 3, 1, 1, 0⟩
    [['W'], ['t']] (by decide) true
  obtain ⟨c1, -, -, -, c5, c6⟩ := C63 h
  have h10 : (M.el 10).ccurv 1 ≠ [] := ((c6 10 (by omega) 1).1).2 (by norm_num)
  have hq := C63_quarters h (by norm_num) 3 (by norm_num) 0 (by norm_num) 0 (by norm_num)
  have hr := (C63_radius h rfl (by simp) 10 (by omega) 1 h10).2 0 (by norm_num)
  refine ⟨M, h, by omega, c5, C63_bc_partial h (by decide) 10 (by omega) 1 h10 1 (by decide), by rw [hr]; norm_num,
    (C63_inner h (by norm_num) rfl (by simp) 0 (by norm_num) 0 (by norm_num)).1, ?_, (C64_circle h).1⟩
  simpa using hq

end Pymech
