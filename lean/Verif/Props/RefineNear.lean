import Verif.Props.RefineMid

/-!
# Which faces of the extruded parts of `extrude_refine` are near each other

Used for C109. The parts are blocks above parts of a plane mesh; `φ i` is the number of the part element `i` belongs to.
-/

set_option linter.unusedSectionVars false
set_option autoImplicit false

namespace Pymech

open Spec

variable {F : Type} [Field F] [LinearOrder F] [IsStrictOrderedRing F] [FloorRing F]

namespace Spec

/-- The two sides are internally linked (in the first field). -/
def Joined (M : HexaData F) (x y : Face) : Prop := (M.bc x.1 0 x.2).typ = nE ∧ PointsTo (M.bc x.1 0 x.2) y

/-- The side has a condition and is not internally linked within its part. -/
def Open (M : HexaData F) (φ : Nat → Nat) (x : Face) : Prop := (M.bc x.1 0 x.2).typ ≠ [] ∧ ¬ ∃ y, Joined M x y ∧ φ y.1 = φ x.1

/-- Points are further apart than the tolerance of `merge` for elements above the two plane elements. -/
def FarApart (a b : Elem F) (p q : F × F) : Prop := (1 / 100) ^ 2 * min (wide a) (wide b) < plane2 p q

/-- The dummy condition. -/
def con : Name := ['c', 'o', 'n']

/-- The parts of a plane mesh, each extruded. -/
structure Pieces (M : HexaData F) (φ : Nat → Nat) (n : Nat) (Z : Nat → F) (N : Nat) (step : Nat → Nat → Option Nat) (slot : Nat → Nat → Nat → Nat → Face)
    (pts : Nat → Nat → List (F × F)) (ends : Nat → List (F × F)) (l1 l2 : List Name) (S : Nat → List Nat) (R Q : Nat → HexaData F) : Prop where
  sub : ∀ p ≤ n, Sub M con (S p) (R p)
  mem : ∀ p ≤ n, ∀ i, i ∈ S p ↔ i < M.elem.length ∧ φ i = p
  block : ∀ p ≤ n, Block (R p) Z N (fun j g => step ((S p).getD j 0) g) (slot p) (fun j g => pts ((S p).getD j 0) g) (fun j => ends ((S p).getD j 0)) l1 l2 (Q p)
  rise : ∀ a b, a < b → b ≤ N → Z a < Z b
  mids : ∀ i < M.elem.length, ∀ g < 4, ∀ s, step i g = some s → 0 < s ∧ pts i g = [sideMid (M.el i) g]
  inj : ∀ p ≤ n, ∀ j < (R p).elem.length, ∀ j' < (R p).elem.length, ∀ g g' t t', slot p j g t = slot p j' g' t' → j = j' ∧ g = g'

/-- The parts fit: sides linked across parts are divided at the same heights, and sides and ends of elements of different parts that are not linked are
far from each other. -/
structure Fitting (M : HexaData F) (φ : Nat → Nat) (step : Nat → Nat → Option Nat) (pts : Nat → Nat → List (F × F)) (ends : Nat → List (F × F)) : Prop where
  same : ∀ x y : Face, x.1 < M.elem.length → x.2 < 4 → Joined M x y → φ x.1 ≠ φ y.1 → step x.1 x.2 = step y.1 y.2 ∧ step x.1 x.2 ≠ none
  sides : ∀ x y : Face, x.1 < M.elem.length → x.2 < 4 → y.1 < M.elem.length → y.2 < 4 → φ x.1 ≠ φ y.1 → Open M φ x → Open M φ y → ¬ Joined M x y →
    ∀ p ∈ pts x.1 x.2, ∀ q ∈ pts y.1 y.2, FarApart (M.el x.1) (M.el y.1) p q
  ends : ∀ i < M.elem.length, ∀ j < M.elem.length, φ i ≠ φ j → ∀ p ∈ ends i, ∀ q ∈ ends j, FarApart (M.el i) (M.el j) p q

end Spec

variable {M : HexaData F} {φ : Nat → Nat} {n : Nat} {Z : Nat → F} {N : Nat} {step : Nat → Nat → Option Nat} {slot : Nat → Nat → Nat → Nat → Face}
  {pts : Nat → Nat → List (F × F)} {ends : Nat → List (F × F)} {l1 l2 : List Name} {S : Nat → List Nat} {R Q : Nat → HexaData F}

theorem wide_pos {a b : Elem F} (h : a.pos = b.pos) : wide a = wide b := by
  unfold wide planePt
  rw [h]

theorem sideMid_pos {a b : Elem F} (h : a.pos = b.pos) (g : Nat) : sideMid a g = sideMid b g := by
  unfold sideMid planePt
  rw [h]

theorem upright_pos {el a b : Elem F} {f g : Nat} {s t : F} (h : a.pos = b.pos) (hu : Upright el f a g s t) : Upright el f b g s t := by
  unfold Upright planePt at hu ⊢
  rw [← h]; exact hu

theorem Spec.Sub.pos {ext : Name} {T : List Nat} {A B : HexaData F} (h : Sub A ext T B) {j i : Nat} (hj : T[j]? = some i) : (B.el j).pos = (A.el i).pos := by
  rw [(h.el j i hj).2]

theorem upright_mean {el base : Elem F} {f g : Nat} {a b : F} (h : Upright el f base g a b) : xyMean el f = sideMid base g ∧ faceMean el f 2 = (a + b) / 2 := by
  obtain ⟨h0, h1, h2⟩ := faceMean_perm h
  simp only [at3] at h0 h1 h2
  refine ⟨Prod.ext ?_ ?_, ?_⟩
  · simp only [xyMean, sideMid, along]; rw [h0]; ring
  · simp only [xyMean, sideMid, along]; rw [h1]; ring
  · rw [h2]; ring

/-- A face that may be connected in `merge`, of an element of vertical size `l` above the plane element `i`. -/
inductive Spec.Outside (M : HexaData F) (φ : Nat → Nat) (Z : Nat → F) (N : Nat) (step : Nat → Nat → Option Nat) (slot : Nat → Nat → Nat → Nat → Face)
    (pts : Nat → Nat → List (F × F)) (ends : Nat → List (F × F)) (S : Nat → List Nat) (p : Nat) (i : Nat) (l : F) (xy : F × F) (h : F) (x : Face) : Prop
  | bottom : xy ∈ ends i → h = Z 0 → Outside M φ Z N step slot pts ends S p i l xy h x
  | top : xy ∈ ends i → h = Z N → Outside M φ Z N step slot pts ends S p i l xy h x
  | side (g : Nat) : g < 4 → Open M φ (i, g) → xy ∈ pts i g → Z 0 + l / 4 ≤ h → h ≤ Z N - l / 4 →
      (∀ s, step i g = some s → ∃ t j, (S p)[j]? = some i ∧ s * (t + 1) ≤ N ∧ x = slot p j g t ∧ l ≤ Z (s * (t + 1)) - Z (s * t) ∧
        h = (Z (s * t) + Z (s * (t + 1))) / 2) → Outside M φ Z N step slot pts ends S p i l xy h x

theorem open_of_candidate (hn : 0 < M.nbc) (hd : M.ndim = 2) (hv : Valid M (SameEdge M)) {A : HexaData F} {T : List Nat} {p : Nat} (h : Sub M con T A)
    (hm : ∀ i, i ∈ T ↔ i < M.elem.length ∧ φ i = p) {j i g : Nat} (hj : T[j]? = some i) (hg : g < 4) (hc : Candidate true (A.bc j 0 g)) : Open M φ (i, g) := by
  have hi := (h.el j i hj).1
  have hp : φ i = p := ((hm i).1 (List.mem_of_getElem? hj)).2
  refine ⟨fun h0 => ?_, ?_⟩
  · refine hc.2 ⟨rfl, ?_⟩
    rw [h.other j i hj 0 hn g (by rw [hd]; exact hg) (by dsimp only at h0; unfold IsLink; rw [h0]; decide)]
    exact h0
  · rintro ⟨y, ⟨h1, h2⟩, h3⟩
    dsimp only at h1 h2 h3
    obtain ⟨y', y1, -, y3, -⟩ := hv 0 hn (i, g) hi (by rw [hd]; exact hg) (.inl h1)
    obtain rfl := points_unique h2 y3
    obtain ⟨q, hq⟩ := List.mem_iff_getElem?.1 ((hm y.1).2 ⟨y1, h3.trans hp⟩)
    refine hc.1 ?_
    rw [(h.kept j i hj 0 hn g (by rw [hd]; exact hg) (.inl h1) y h2 q hq).1]
    exact h1

/-- The faces that may be connected. -/
theorem outside (P : Pieces M φ n Z N step slot pts ends l1 l2 S R Q) (hn : 0 < M.nbc) (hd : M.ndim = 2) (hv : Valid M (SameEdge M)) {p : Nat} (hp : p ≤ n)
    {e : Nat} (he : e < (Q p).elem.length) : ∃ i < M.elem.length, φ i = p ∧ ∃ s0 l, ((Q p).el e).smallestEdgeSq = .ok s0 ∧ s0 ≤ wide (M.el i) ∧ 0 < l ∧
      s0 ≤ l ^ 2 ∧ l ≤ Z N - Z 0 ∧ ∀ f < 6, Candidate true ((Q p).bc e 0 f) →
        Outside M φ Z N step slot pts ends S p i l (xyMean ((Q p).el e) f) (faceMean ((Q p).el e) f 2) (e, f) := by
  have B := P.block p hp
  have U := P.sub p hp
  obtain ⟨j, hj, s0, l, c1, c2, c3, c4, c5, c6⟩ := B.cell e he
  obtain ⟨i, hi⟩ := sub_at U hj
  have hiM := (U.el j i hi).1
  have hget : (S p).getD j 0 = i := by rw [List.getD_eq_getElem?_getD, hi]; rfl
  refine ⟨i, hiM, ((P.mem p hp i).1 (List.mem_of_getElem? hi)).2, s0, l, c1, by rw [← wide_pos (U.pos hi)]; exact c2, c3, c4, c5, fun f hf hc => ?_⟩
  have hn' : 0 < (R p).nbc := by rw [U.nbc]; exact hn
  have cand : ∀ g < 4, ((Q p).bc e 0 f).typ = ((R p).bc j 0 g).typ → Open M φ (i, g) := by
    intro g hg ht
    refine open_of_candidate hn hd hv U (P.mem p hp) hi hg ?_
    unfold Candidate at hc ⊢
    rw [← ht]; exact hc
  rcases c6 f hf with k1 | ⟨k1, k2, -⟩ | ⟨k1, k2, -⟩ | ⟨g, s, t, k1, k2, k3, k4, k5⟩ | ⟨g, k1, k2, k3, k4, k5, k6⟩
  · exact absurd (k1 0 hn') hc.1
  · rw [hget] at k1; exact .bottom k1 k2
  · rw [hget] at k1; exact .top k1 k2
  · obtain ⟨-, -, u1, u2⟩ := B.slots j hj g k1 s t k2 k3
    rw [← k4] at u1 u2
    dsimp only at u1 u2
    rw [hget] at k2
    obtain ⟨m1, m2⟩ := upright_mean (upright_pos (U.pos hi) u1)
    have spos := (P.mids i hiM g k1 s k2).1
    have z0 : Z 0 ≤ Z (s * t) := by
      rcases Nat.eq_zero_or_pos (s * t) with h | h
      · rw [h]
      · exact (P.rise _ _ h (by rw [Nat.mul_add] at k3; omega)).le
    have z1 : Z (s * (t + 1)) ≤ Z N := by
      rcases Nat.lt_or_eq_of_le k3 with h | h
      · exact (P.rise _ _ h (le_refl _)).le
      · rw [h]
    refine .side g k1 (cand g k1 (u2 0 hn')) ?_ ?_ ?_ ?_
    · rw [(P.mids i hiM g k1 s k2).2, m1]; exact List.mem_singleton.2 rfl
    · rw [m2]; linarith
    · rw [m2]; linarith
    · intro s' hs'
      obtain rfl : s = s' := by rw [k2] at hs'; simpa using hs'
      exact ⟨t, j, hi, k3, k4, k5, m2⟩
  · rw [hget] at k2 k3
    refine .side g k1 (cand g k1 (k6 0 hn')) k3 k4 k5 fun s hs => ?_
    rw [k2] at hs
    exact absurd hs (by simp)

/-- Heights differ too much. -/
theorem height_apart {l d m : F} (hl : 0 < l) (hm : m ≤ l ^ 2) (h : l / 4 ≤ d ∨ l / 4 ≤ -d) (hd : d ^ 2 ≤ (1 / 100) ^ 2 * m) : False := by
  have h1 : (l / 4) ^ 2 ≤ d ^ 2 := by
    rcases h with h | h <;> nlinarith
  nlinarith

theorem Joined_symm (hd : M.ndim = 2) (hn : 0 < M.nbc) (hv : Valid M (SameEdge M)) {x y : Face} (hx : x.1 < M.elem.length) (hx2 : x.2 < 4) (h : Joined M x y) :
    Joined M y x ∧ y.1 < M.elem.length ∧ y.2 < 4 ∧ SameEdge M x y := by
  obtain ⟨y', y1, y2, y3, y4, y5, y6⟩ := hv 0 hn x hx (by rw [hd]; exact hx2) (.inl h.1)
  obtain rfl := points_unique h.2 y3
  exact ⟨⟨y4.trans h.1, y5⟩, y1, by rw [hd] at y2; exact y2, y6 h.1⟩

/-- Faces of different parts that `merge` connects are the rectangles above linked sides, at the same height. -/
theorem adj_sides (P : Pieces M φ n Z N step slot pts ends l1 l2 S R Q) (T : Fitting M φ step pts ends) (hn : 0 < M.nbc) (hd : M.ndim = 2)
    (hv : Valid M (SameEdge M)) {u v : Place} (h : Adj Q n true (1 / 100) u v) :
    ∃ (x y : Face) (j j' s t : Nat), x.1 < M.elem.length ∧ x.2 < 4 ∧ Joined M x y ∧ φ x.1 = u.1 ∧ φ y.1 = v.1 ∧ (S u.1)[j]? = some x.1 ∧ (S v.1)[j']? = some y.1 ∧
      step x.1 x.2 = some s ∧ step y.1 y.2 = some s ∧ s * (t + 1) ≤ N ∧ u.2 = slot u.1 j x.2 t ∧ v.2 = slot v.1 j' y.2 t := by
  obtain ⟨hu, hw, huv, cu, cv, hnear⟩ := h
  obtain ⟨i, hi, hpi, s0, l, a1, a2, a3, a4, a5, a6⟩ := outside P hn hd hv hu.1 hu.2.1
  obtain ⟨i', hi', hpi', s0', l', b1, b2, b3, b4, b5, b6⟩ := outside P hn hd hv hw.1 hw.2.1
  have fu : u.2.2 < 6 := by have := hu.2.2; rw [(P.block u.1 hu.1).good.dim] at this; omega
  have fv : v.2.2 < 6 := by have := hw.2.2; rw [(P.block v.1 hw.1).good.dim] at this; omega
  have ku := a6 u.2.2 fu cu
  have kv := b6 v.2.2 fv cv
  have hne : φ i ≠ φ i' := by rw [hpi, hpi']; exact huv
  obtain ⟨r0, r1, n1, n2, n3⟩ := hnear
  obtain rfl : s0 = r0 := by rw [a1] at n1; simpa using n1
  obtain rfl : s0' = r1 := by rw [b1] at n2; simpa using n2
  have n4 : plane2 (xyMean ((Q u.1).el u.2.1) u.2.2) (xyMean ((Q v.1).el v.2.1) v.2.2) +
      (faceMean ((Q v.1).el v.2.1) v.2.2 2 - faceMean ((Q u.1).el u.2.1) u.2.2 2) ^ 2 ≤ (1 / 100) ^ 2 * min s0 s0' := by
    rcases n3 with ⟨-, h⟩ | ⟨h, -⟩
    · exact h
    · exact absurd h (by norm_num)
  clear n3
  generalize xyMean ((Q u.1).el u.2.1) u.2.2 = xu at ku n4
  generalize xyMean ((Q v.1).el v.2.1) v.2.2 = xv at kv n4
  generalize faceMean ((Q u.1).el u.2.1) u.2.2 2 = zu at ku n4
  generalize faceMean ((Q v.1).el v.2.1) v.2.2 2 = zv at kv n4
  have nz : (zv - zu) ^ 2 ≤ (1 / 100) ^ 2 * min s0 s0' := le_trans (le_add_of_nonneg_left (plane2_nonneg _ _)) n4
  have np : plane2 xu xv ≤ (1 / 100) ^ 2 * min s0 s0' := le_trans (le_add_of_nonneg_right (sq_nonneg _)) n4
  have mu : min s0 s0' ≤ l ^ 2 := (min_le_left _ _).trans a4
  have mv : min s0 s0' ≤ l' ^ 2 := (min_le_right _ _).trans b4
  have far : FarApart (M.el i) (M.el i') xu xv → False := by
    intro hf
    unfold FarApart at hf
    have : min s0 s0' ≤ min (wide (M.el i)) (wide (M.el i')) := min_le_min a2 b2
    have : (1 / 100 : F) ^ 2 * min s0 s0' ≤ (1 / 100) ^ 2 * min (wide (M.el i)) (wide (M.el i')) := mul_le_mul_of_nonneg_left this (by positivity)
    linarith
  rcases ku with ⟨u1, u2⟩ | ⟨u1, u2⟩ | ⟨g, u1, u2, u3, u4, u5, u6⟩ <;> rcases kv with ⟨v1, v2⟩ | ⟨v1, v2⟩ | ⟨g', v1, v2, v3, v4, v5, v6⟩
  · exact (far (T.ends i hi i' hi' hne _ u1 _ v1)).elim
  · exact (height_apart a3 mu (.inl (by rw [u2, v2]; linarith)) nz).elim
  · exact (height_apart b3 mv (.inl (by rw [u2]; linarith)) nz).elim
  · exact (height_apart a3 mu (.inr (by rw [u2, v2]; linarith)) nz).elim
  · exact (far (T.ends i hi i' hi' hne _ u1 _ v1)).elim
  · exact (height_apart b3 mv (.inr (by rw [u2]; linarith)) nz).elim
  · exact (height_apart a3 mu (.inr (by rw [v2]; linarith)) nz).elim
  · exact (height_apart a3 mu (.inl (by rw [v2]; linarith)) nz).elim
  · by_cases hJ : Joined M (i, g) (i', g')
    · obtain ⟨e1, e2⟩ := T.same (i, g) (i', g') hi u1 hJ hne
      dsimp only at e1 e2
      obtain ⟨s, hs⟩ := Option.ne_none_iff_exists'.1 e2
      have hs' := e1 ▸ hs
      obtain ⟨t, j, t1, t2, t3, t4, t5⟩ := u6 s hs
      obtain ⟨t', j', w1, w2, w3, w4, w5⟩ := v6 s hs'
      have spos := (P.mids i hi g u1 s hs).1
      have mono : ∀ a b, a ≤ b → b ≤ N → Z a ≤ Z b := by
        intro a b hab hb
        rcases Nat.lt_or_eq_of_le hab with h | h
        · exact (P.rise a b h hb).le
        · rw [h]
      have hN : s * t ≤ N ∧ s * t' ≤ N := by rw [Nat.mul_add] at t2 w2; omega
      have htt : t = t' := by
        rcases Nat.lt_trichotomy t t' with h | h | h
        · have := mono (s * (t + 1)) (s * t') (Nat.mul_le_mul_left _ h) hN.2
          exact (height_apart a3 mu (.inl (by rw [t5, w5]; linarith)) nz).elim
        · exact h
        · have := mono (s * (t' + 1)) (s * t) (Nat.mul_le_mul_left _ h) hN.1
          exact (height_apart a3 mu (.inr (by rw [t5, w5]; linarith)) nz).elim
      subst htt
      exact ⟨(i, g), (i', g'), j, j', s, t, hi, u1, hJ, hpi, hpi', t1, w1, hs, hs', t2, t3, w3⟩
    · exact (far (T.sides (i, g) (i', g') hi u1 hi' v1 hne u2 v2 hJ _ u3 _ v3)).elim

/-- The condition of a side of a part whose partner belongs to another part. -/
theorem cut_side (hd : M.ndim = 2) (hu : Uniform M) {A : HexaData F} {T : List Nat} {p : Nat} (h : Sub M con T A)
    (hm : ∀ i, i ∈ T ↔ i < M.elem.length ∧ φ i = p) {j i g : Nat} (hj : T[j]? = some i) (hg : g < 4) {y : Face} (hl : IsLink (M.bc i 0 g))
    (hy : PointsTo (M.bc i 0 g) y) (hne : φ i ≠ φ y.1) : ∀ b < M.nbc, (A.bc j b g).typ = con := by
  intro b hb
  have hi := (h.el j i hj).1
  have hp : φ i = p := ((hm i).1 (List.mem_of_getElem? hj)).2
  obtain ⟨u1, u2, u3⟩ := hu b hb (i, g) hi (by rw [hd]; exact hg)
  dsimp only at u1 u2 u3
  rw [h.removed j i hj b hb g (by rw [hd]; exact hg) ?_ y (u3 hl y hy) ?_]
  · rfl
  · rcases hl with h0 | h0
    · exact .inl (u1.2 h0)
    · exact .inr (u2.2 h0)
  · intro hmem
    exact hne (hp.trans ((hm _).1 hmem).2.symm)

theorem perm_square {p q p' q' : F × F} (h : [p, q].Perm [p', q']) (a b : F) :
    [at3 p a, at3 q a, at3 p b, at3 q b].Perm [at3 p' a, at3 q' a, at3 p' b, at3 q' b] := by
  have h1 := h.map fun p => at3 p a
  have h2 := h.map fun p => at3 p b
  exact List.Perm.append h1 h2

theorem shared_of_upright {el el' A B : Elem F} {f f' g g' : Nat} {a b : F} (h : Upright el f A g a b) (h' : Upright el' f' B g' a b)
    (hs : [planePt A (sideCorner g 0), planePt A (sideCorner g 1)].Perm [planePt B (sideCorner g' 0), planePt B (sideCorner g' 1)]) :
    SharedFace el f el' f' :=
  (List.Perm.trans h (perm_square hs a b)).trans (List.Perm.symm h')

theorem shared_means {A B : Elem F} {f g : Nat} (h : SharedFace A f B g) (c : Nat) (hc : c < 3) : faceMean A f c = faceMean B g c := by
  unfold SharedFace faceVerts at h
  unfold faceMean
  have hx := (List.Perm.map V3.x h).sum_eq
  have hy := (List.Perm.map V3.y h).sum_eq
  have hz := (List.Perm.map V3.z h).sum_eq
  simp only [List.map_cons, List.map_nil, List.sum_cons, List.sum_nil] at hx hy hz
  have h3 : c = 0 ∨ c = 1 ∨ c = 2 := by omega
  rcases h3 with rfl | rfl | rfl
  · linarith
  · linarith
  · linarith

/-- The face of a part above a side, in the mesh it belongs to. -/
theorem slot_facts (P : Pieces M φ n Z N step slot pts ends l1 l2 S R Q) {p : Nat} (hp : p ≤ n) {j i g s t : Nat} (hj : (S p)[j]? = some i) (hg : g < 4)
    (hs : step i g = some s) (ht : s * (t + 1) ≤ N) : j < (R p).elem.length ∧ IsPlace Q n (p, slot p j g t) ∧
      Upright ((Q p).el (slot p j g t).1) (slot p j g t).2 (M.el i) g (Z (s * t)) (Z (s * (t + 1))) ∧
      ∀ b < M.nbc, (bcAt Q b (p, slot p j g t)).typ = ((R p).bc j b g).typ := by
  have U := P.sub p hp
  have hjl : j < (R p).elem.length := by rw [U.len]; exact (List.getElem?_eq_some_iff.1 hj).1
  have hget : (S p).getD j 0 = i := by rw [List.getD_eq_getElem?_getD, hj]; rfl
  obtain ⟨a1, a2, a3, a4⟩ := (P.block p hp).slots j hjl g hg s t (by rw [hget]; exact hs) ht
  refine ⟨hjl, ⟨hp, a1, ?_⟩, upright_pos (U.pos hj) a3, ?_⟩
  · rw [(P.block p hp).good.dim]; exact a2
  · rw [← U.nbc]; exact a4

/-- The rectangles above sides linked across parts are connected in `merge`. -/
theorem adj_of_joined (P : Pieces M φ n Z N step slot pts ends l1 l2 S R Q) (hn : 0 < M.nbc) (hd : M.ndim = 2)
    (hv : Valid M (SameEdge M)) (hu : Uniform M) {x y : Face} (hx : x.1 < M.elem.length) (hx2 : x.2 < 4) (hJ : Joined M x y) (hne : φ x.1 ≠ φ y.1)
    {j j' s t : Nat} (hp : φ x.1 ≤ n) (hp' : φ y.1 ≤ n) (hj : (S (φ x.1))[j]? = some x.1) (hj' : (S (φ y.1))[j']? = some y.1)
    (hs : step x.1 x.2 = some s) (hs' : step y.1 y.2 = some s) (ht : s * (t + 1) ≤ N) :
    Adj Q n true (1 / 100) (φ x.1, slot (φ x.1) j x.2 t) (φ y.1, slot (φ y.1) j' y.2 t) := by
  obtain ⟨hJ', hy, hy2, hE⟩ := Joined_symm hd hn hv hx hx2 hJ
  obtain ⟨-, a1, a2, a3⟩ := slot_facts P hp hj hx2 hs ht
  obtain ⟨-, b1, b2, b3⟩ := slot_facts P hp' hj' hy2 hs' ht
  have ca := cut_side hd hu (P.sub _ hp) (P.mem _ hp) hj hx2 (.inl hJ.1) hJ.2 hne 0 hn
  have cb := cut_side hd hu (P.sub _ hp') (P.mem _ hp') hj' hy2 (.inl hJ'.1) hJ'.2 hne.symm 0 hn
  rw [← a3 0 hn] at ca
  rw [← b3 0 hn] at cb
  have hsf := shared_of_upright a2 b2 hE
  obtain ⟨-, -, s0, -, e0, -⟩ := (P.block _ hp).cell _ a1.2.1
  obtain ⟨-, -, s1, -, e1, -⟩ := (P.block _ hp').cell _ b1.2.1
  have cand : ∀ {r : BC F}, r.typ = con → Candidate true r := by
    intro r hr
    unfold Candidate
    rw [hr]
    decide
  refine ⟨a1, b1, hne, cand ca, cand cb, s0, s1, e0, e1, .inl ⟨by norm_num, ?_⟩⟩
  dsimp only
  rw [shared_means hsf 0 (by omega), shared_means hsf 1 (by omega), shared_means hsf 2 (by omega), _root_.sub_self, _root_.sub_self,
    _root_.sub_self]
  have := le_min (smallestEdgeSq_nonneg _ _ e0) (smallestEdgeSq_nonneg _ _ e1)
  have : 0 ≤ (1 / 100 : F) ^ 2 * min s0 s1 := by positivity
  simpa using this

/-- The parts can be merged. -/
theorem pieces_merged (P : Pieces M φ n Z N step slot pts ends l1 l2 S R Q) (T : Fitting M φ step pts ends) (hn : 0 < M.nbc) (hd : M.ndim = 2)
    (hv : Valid M (SameEdge M)) (hu : Uniform M) : ∃ D, mergeAll (1 / 100) true Q n = .ok D ∧ Merged SharedFace 3 M.nbc 2 Q n true (1 / 100) D := by
  refine C105 SharedFace sharedFace_pos Q n true (1 / 100) 3 M.nbc 2 hn (fun p hp => ?_) ⟨?_, ?_⟩ ?_
  · have := (P.block p hp).good
    rw [(P.sub p hp).nbc] at this
    exact this
  · intro u v w h1 h2
    obtain ⟨x, y, j, j', s, t, a1, a2, a3, a4, a5, a6, a7, a8, a9, a10, a11, a12⟩ := adj_sides P T hn hd hv h1
    obtain ⟨x', y', k, k', s', t', b1, b2, b3, b4, b5, b6, b7, b8, b9, b10, b11, b12⟩ := adj_sides P T hn hd hv h2
    have f1 := slot_facts P h1.1.1 a6 a2 a8 a10
    have f2 := slot_facts P h1.1.1 b6 b2 b8 b10
    obtain ⟨rfl, hg⟩ := P.inj u.1 h1.1.1 j f1.1 k f2.1 _ _ _ _ (a11.symm.trans b11)
    have hx : x = x' := by
      refine Prod.ext ?_ hg
      rw [a6] at b6
      simpa using b6
    subst hx
    obtain rfl := points_unique a3.2 b3.2
    obtain rfl : s = s' := by rw [a8] at b8; simpa using b8
    have hpv : v.1 = w.1 := a5.symm.trans b5
    have htt : t = t' := by
      have m1 := (upright_mean f1.2.2.1).2
      have m2 := (upright_mean f2.2.2.1).2
      rw [← a11] at m1
      rw [← b11, m1] at m2
      have spos := (P.mids x.1 a1 x.2 a2 s a8).1
      have mono : ∀ a b, a ≤ b → b ≤ N → Z a ≤ Z b := by
        intro a b hab hb
        rcases Nat.lt_or_eq_of_le hab with h | h
        · exact (P.rise a b h hb).le
        · rw [h]
      have hN : s * t ≤ N ∧ s * t' ≤ N := by rw [Nat.mul_add] at a10 b10; omega
      have up : ∀ t, s * (t + 1) ≤ N → Z (s * t) < Z (s * (t + 1)) := fun t ht => P.rise _ _ (by rw [Nat.mul_add]; omega) ht
      have := up t a10
      have := up t' b10
      rcases Nat.lt_trichotomy t t' with h | h | h
      · have := mono (s * (t + 1)) (s * t') (Nat.mul_le_mul_left _ h) hN.2
        exfalso; linarith
      · exact h
      · have := mono (s * (t' + 1)) (s * t) (Nat.mul_le_mul_left _ h) hN.1
        exfalso; linarith
    subst htt
    refine Prod.ext hpv ?_
    rw [a12, b12, hpv]
    rw [hpv] at a7
    rw [(P.sub w.1 h2.2.1.1).inj a7 b7]
  · intro u v h
    obtain ⟨x, y, j, j', s, t, a1, a2, a3, a4, a5, a6, a7, a8, a9, a10, a11, a12⟩ := adj_sides P T hn hd hv h
    obtain ⟨hJ', hy, hy2, hE⟩ := Joined_symm hd hn hv a1 a2 a3
    have hne : φ x.1 ≠ φ y.1 := by rw [a4, a5]; exact h.2.2.1
    have ca := cut_side hd hu (P.sub _ h.1.1) (P.mem _ h.1.1) a6 a2 (.inl a3.1) a3.2 hne 0 hn
    have cb := cut_side hd hu (P.sub _ h.2.1.1) (P.mem _ h.2.1.1) a7 hy2 (.inl hJ'.1) hJ'.2 hne.symm 0 hn
    have f1 := (slot_facts P h.1.1 a6 a2 a8 a10).2.2.2 0 hn
    have f2 := (slot_facts P h.2.1.1 a7 hy2 a9 a10).2.2.2 0 hn
    rw [← a11] at f1
    rw [← a12] at f2
    have f1' : (bcAt Q 0 u).typ = con := f1.trans ca
    have f2' : (bcAt Q 0 v).typ = con := f2.trans cb
    rw [f1', f2']
  · intro u v h
    obtain ⟨x, y, j, j', s, t, a1, a2, a3, a4, a5, a6, a7, a8, a9, a10, a11, a12⟩ := adj_sides P T hn hd hv h
    obtain ⟨hJ', hy, hy2, hE⟩ := Joined_symm hd hn hv a1 a2 a3
    have f1 := (slot_facts P h.1.1 a6 a2 a8 a10).2.2.1
    have f2 := (slot_facts P h.2.1.1 a7 hy2 a9 a10).2.2.1
    rw [← a11] at f1
    rw [← a12] at f2
    exact shared_of_upright f1 f2 hE

/-- What is proved about the merged mesh, in terms of the plane mesh. -/
structure Spec.Assembled (M : HexaData F) (φ : Nat → Nat) (Z : Nat → F) (N : Nat) (step : Nat → Nat → Option Nat) (l1 l2 : List Name) (D : HexaData F) : Prop where
  wf : WF D
  grid : Grid D
  dim : D.ndim = 3
  nbc : D.nbc = M.nbc
  /-- The links are mutual, and linked faces have the same vertices. -/
  valid : Valid D (SameFace D)
  uni : Uniform D
  self : NoSelf D
  /-- Above sides linked across parts the rectangles are linked. -/
  joined : ∀ x y : Face, x.1 < M.elem.length → x.2 < 4 → Joined M x y → φ x.1 ≠ φ y.1 → ∀ s t, step x.1 x.2 = some s → s * (t + 1) ≤ N →
    ∃ u v : Face, u.1 < D.elem.length ∧ v.1 < D.elem.length ∧ u.2 < 6 ∧ v.2 < 6 ∧
      Upright (D.el u.1) u.2 (M.el x.1) x.2 (Z (s * t)) (Z (s * (t + 1))) ∧ Upright (D.el v.1) v.2 (M.el y.1) y.2 (Z (s * t)) (Z (s * (t + 1))) ∧
      ∀ b < M.nbc, (D.bc u.1 b u.2).typ = nE ∧ PointsTo (D.bc u.1 b u.2) v ∧ (D.bc v.1 b v.2).typ = nE ∧ PointsTo (D.bc v.1 b v.2) u
  /-- Above a periodic side whose partner belongs to another part there are faces with the dummy condition. -/
  cut : ∀ x y : Face, x.1 < M.elem.length → x.2 < 4 → (M.bc x.1 0 x.2).typ = nP → PointsTo (M.bc x.1 0 x.2) y → φ x.1 ≠ φ y.1 → ∀ s t,
    step x.1 x.2 = some s → s * (t + 1) ≤ N → ∃ u : Face, u.1 < D.elem.length ∧ u.2 < 6 ∧
      Upright (D.el u.1) u.2 (M.el x.1) x.2 (Z (s * t)) (Z (s * (t + 1))) ∧ ∀ b < M.nbc, (D.bc u.1 b u.2).typ = con
  /-- Every face is linked internally, or has an end condition, or the condition of a side of the plane mesh; but a periodic side whose partner belongs to
  another part gives faces with the dummy condition. -/
  types : ∀ e < D.elem.length, ∀ f < 6, (∀ b < M.nbc, (D.bc e b f).typ = nE) ∨ (∀ b < M.nbc, (D.bc e b f).typ = u3 (l1.getD b [])) ∨
    (∀ b < M.nbc, (D.bc e b f).typ = u3 (l2.getD b [])) ∨
    ∃ x : Face, x.1 < M.elem.length ∧ x.2 < 4 ∧ ((∀ b < M.nbc, (D.bc e b f).typ = (M.bc x.1 b x.2).typ) ∨
      ((M.bc x.1 0 x.2).typ = nP ∧ (∃ y, PointsTo (M.bc x.1 0 x.2) y ∧ φ x.1 ≠ φ y.1) ∧ ∀ b < M.nbc, (D.bc e b f).typ = con))

theorem assembled (P : Pieces M φ n Z N step slot pts ends l1 l2 S R Q) (T : Fitting M φ step pts ends) (hφ : ∀ i < M.elem.length, φ i ≤ n) (hn : 0 < M.nbc)
    (hd : M.ndim = 2) (hv : Valid M (SameEdge M)) (hu : Uniform M) : ∃ D, mergeAll (1 / 100) true Q n = .ok D ∧ Assembled M φ Z N step l1 l2 D ∧
      D.elem.length = off Q (n + 1) := by
  obtain ⟨D, hD, I⟩ := pieces_merged P T hn hd hv hu
  have find : ∀ i < M.elem.length, ∃ j, (S (φ i))[j]? = some i := fun i hi => List.mem_iff_getElem?.1 ((P.mem _ (hφ i hi) i).2 ⟨hi, rfl⟩)
  have lift : ∀ u, IsPlace Q n u → (place Q u).1 < D.elem.length ∧ (D.el (place Q u).1).pos = ((Q u.1).el u.2.1).pos := by
    intro u hu
    refine ⟨?_, I.pos u.1 hu.1 u.2.1 hu.2.1⟩
    rw [I.len]
    have := off_mono Q (show u.1 + 1 ≤ n + 1 by have := hu.1; omega)
    unfold place
    have := hu.2.1
    simp only [off] at *
    omega
  have upr : ∀ {a b c : Elem F} {f g : Nat} {s t : F}, a.pos = b.pos → Upright b f c g s t → Upright a f c g s t := by
    intro a b c f g s t h h'
    unfold Upright faceVerts faceCoord Spec.corner at h' ⊢
    rw [h]; exact h'
  have key : ∀ x y : Face, x.1 < M.elem.length → x.2 < 4 → Joined M x y → φ x.1 ≠ φ y.1 → ∀ j, (S (φ x.1))[j]? = some x.1 → ∀ s t, step x.1 x.2 = some s →
      s * (t + 1) ≤ N → ∃ j', (S (φ y.1))[j']? = some y.1 ∧ step y.1 y.2 = some s ∧ y.1 < M.elem.length ∧ y.2 < 4 ∧
        Adj Q n true (1 / 100) (φ x.1, slot (φ x.1) j x.2 t) (φ y.1, slot (φ y.1) j' y.2 t) := by
    intro x y hx hx2 hJ hne j hj s t hs ht
    obtain ⟨hJ', hy, hy2, hE⟩ := Joined_symm hd hn hv hx hx2 hJ
    obtain ⟨j', hj'⟩ := find y.1 hy
    have hs' := (T.same x y hx hx2 hJ hne).1 ▸ hs
    exact ⟨j', hj', hs', hy, hy2, adj_of_joined P hn hd hv hu hx hx2 hJ hne (hφ _ hx) (hφ _ hy) hj hj' hs hs' ht⟩
  refine ⟨D, hD, ⟨I.good.wf, I.good.grid, I.good.dim, I.good.nbc, I.good.valid, I.good.uni, I.good.self, ?_, ?_, ?_⟩, I.len⟩
  · intro x y hx hx2 hJ hne s t hs ht
    obtain ⟨j, hj⟩ := find x.1 hx
    obtain ⟨j', hj', hs', hy, hy2, hA⟩ := key x y hx hx2 hJ hne j hj s t hs ht
    have f1 := slot_facts P (hφ _ hx) hj hx2 hs ht
    have f2 := slot_facts P (hφ _ hy) hj' hy2 hs' ht
    have g1 := lift _ f1.2.1
    have g2 := lift _ f2.2.1
    have six : ∀ u, IsPlace Q n u → u.2.2 < 6 := fun u hu => by have := hu.2.2; rw [(P.block u.1 hu.1).good.dim] at this; omega
    refine ⟨_, _, g1.1, g2.1, six _ f1.2.1, six _ f2.2.1, upr g1.2 f1.2.2.1, upr g2.2 f2.2.2.1, fun b hb => ?_⟩
    have l1 := I.linked _ _ hA b hb
    have l2 := I.linked _ _ (adj_symm hA) b hb
    exact ⟨l1.1, l1.2, l2.1, l2.2⟩
  · intro x y hx hx2 hP hy hne s t hs ht
    obtain ⟨j, hj⟩ := find x.1 hx
    have f1 := slot_facts P (hφ _ hx) hj hx2 hs ht
    have g1 := lift _ f1.2.1
    have six : ∀ u, IsPlace Q n u → u.2.2 < 6 := fun u hu => by have := hu.2.2; rw [(P.block u.1 hu.1).good.dim] at this; omega
    refine ⟨_, g1.1, six _ f1.2.1, upr g1.2 f1.2.2.1, fun b hb => ?_⟩
    have hno : ¬ ∃ v, Adj Q n true (1 / 100) (φ x.1, slot (φ x.1) j x.2 t) v := by
      rintro ⟨v, hA⟩
      obtain ⟨x', y', k, k', s', t', b1, b2, b3, b4, b5, b6, b7, b8, b9, b10, b11, b12⟩ := adj_sides P T hn hd hv hA
      have f2 := slot_facts P (hφ _ hx) b6 b2 b8 b10
      obtain ⟨rfl, hg⟩ := P.inj _ (hφ _ hx) j f1.1 k f2.1 _ _ _ _ b11
      have hxx : x = x' := by
        refine Prod.ext ?_ hg
        dsimp only at b6
        rw [hj] at b6
        simpa using b6
      rw [← hxx] at b3
      exact absurd (hP.symm.trans b3.1) (by decide)
    exact (I.free _ f1.2.1 hno b hb).trans ((f1.2.2.2 b hb).trans (cut_side hd hu (P.sub _ (hφ _ hx)) (P.mem _ (hφ _ hx)) hj hx2 (.inr hP) hy hne b hb))
  · intro e he f hf
    rw [I.len] at he
    obtain ⟨p, hp, e', he', rfl⟩ := off_cases Q n e he
    have B := P.block p hp
    have U := P.sub p hp
    have hpl : IsPlace Q n (p, (e', f)) := ⟨hp, he', by rw [B.good.dim]; exact hf⟩
    by_cases hadj : ∃ v, Adj Q n true (1 / 100) (p, (e', f)) v
    · obtain ⟨v, hv'⟩ := hadj
      exact .inl fun b hb => (I.linked _ _ hv' b hb).1
    · have fr : ∀ b < M.nbc, (D.bc (off Q p + e') b f).typ = ((Q p).bc e' b f).typ := fun b hb => I.free _ hpl hadj b hb
      obtain ⟨j, hj, s0, l, -, -, -, -, -, c6⟩ := B.cell e' he'
      obtain ⟨i, hi⟩ := sub_at U hj
      have hiM := (U.el j i hi).1
      have hpi : φ i = p := ((P.mem p hp i).1 (List.mem_of_getElem? hi)).2
      have hget : (S p).getD j 0 = i := by rw [List.getD_eq_getElem?_getD, hi]; rfl
      -- the condition of a side in its part
      have side : ∀ g < 4, (∀ b < M.nbc, ((Q p).bc e' b f).typ = ((R p).bc j b g).typ) →
          (∀ y, Joined M (i, g) y → φ i ≠ φ y.1 → False) → ∃ x : Face, x.1 < M.elem.length ∧ x.2 < 4 ∧
            ((∀ b < M.nbc, (D.bc (off Q p + e') b f).typ = (M.bc x.1 b x.2).typ) ∨
              ((M.bc x.1 0 x.2).typ = nP ∧ (∃ y, PointsTo (M.bc x.1 0 x.2) y ∧ φ x.1 ≠ φ y.1) ∧ ∀ b < M.nbc, (D.bc (off Q p + e') b f).typ = con)) := by
        intro g hg ht hno
        refine ⟨(i, g), hiM, hg, ?_⟩
        have hg' : g < 2 * M.ndim := by rw [hd]; exact hg
        by_cases hl : IsLink (M.bc i 0 g)
        · obtain ⟨y, y1, y2, y3, -⟩ := hv 0 hn (i, g) hiM hg' hl
          dsimp only at y3
          by_cases hne : φ i = φ y.1
          · left
            intro b hb
            obtain ⟨u1, u2, u3⟩ := hu b hb (i, g) hiM hg'
            dsimp only at u1 u2 u3
            obtain ⟨q, hq⟩ := List.mem_iff_getElem?.1 ((P.mem p hp y.1).2 ⟨y1, hne.symm.trans hpi⟩)
            rw [fr b hb, ht b hb, (U.kept j i hi b hb g hg' (by
              rcases hl with h0 | h0
              · exact .inl (u1.2 h0)
              · exact .inr (u2.2 h0)) y (u3 hl y y3) q hq).1]
          · rcases hl with h0 | h0
            · exact (hno y ⟨h0, y3⟩ hne).elim
            · right
              refine ⟨h0, ⟨y, y3, hne⟩, fun b hb => ?_⟩
              rw [fr b hb, ht b hb]
              exact cut_side hd hu U (P.mem p hp) hi hg (.inr h0) y3 hne b hb
        · left
          intro b hb
          obtain ⟨u1, u2, -⟩ := hu b hb (i, g) hiM hg'
          dsimp only at u1 u2
          rw [fr b hb, ht b hb, U.other j i hi b hb g hg']
          rintro (h0 | h0)
          · exact hl (.inl (u1.1 h0))
          · exact hl (.inr (u2.1 h0))
      have nb := U.nbc
      rcases c6 f hf with k1 | ⟨-, -, k3⟩ | ⟨-, -, k3⟩ | ⟨g, s, t, k1, k2, k3, k4, -⟩ | ⟨g, k1, k2, -, -, -, k6⟩
      · exact .inl fun b hb => (fr b hb).trans (k1 b (by rw [nb]; exact hb))
      · exact .inr (.inl fun b hb => (fr b hb).trans (k3 b (by rw [nb]; exact hb)))
      · exact .inr (.inr (.inl fun b hb => (fr b hb).trans (k3 b (by rw [nb]; exact hb))))
      · rw [hget] at k2
        have sf := slot_facts P hp hi k1 k2 k3
        rw [← k4] at sf
        refine .inr (.inr (.inr (side g k1 sf.2.2.2 fun y hJ hne => hadj ?_)))
        obtain ⟨j', -, -, -, -, hA⟩ := key (i, g) y hiM k1 hJ hne j (by dsimp only; rw [hpi]; exact hi) s t k2 k3
        dsimp only at hA
        rw [hpi, ← k4] at hA
        exact ⟨_, hA⟩
      · rw [hget] at k2
        refine .inr (.inr (.inr (side g k1 (fun b hb => k6 b (by rw [nb]; exact hb)) fun y hJ hne => ?_)))
        exact (T.same (i, g) y hiM k1 hJ hne).2 k2

end Pymech
