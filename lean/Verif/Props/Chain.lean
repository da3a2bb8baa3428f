import Verif.Props.Merge

/-!
# C105: several meshes merged one after the other

`gen_circle` and `extrude_refine` build their result from parts by repeated calls of `merge`. The hypotheses are about the parts only, not about the
intermediate results.
-/

set_option autoImplicit false
set_option linter.unusedSectionVars false

namespace Pymech

open Spec Classical

variable {F : Type} [Field F] [LinearOrder F] [IsStrictOrderedRing F] [FloorRing F]

namespace Spec

/-- A relation of faces of elements only depends on the positions. -/
def PosOnly (R : Elem F → Nat → Elem F → Nat → Prop) : Prop :=
  ∀ a a' b b' f g, a.pos = a'.pos → b.pos = b'.pos → (R a f b g ↔ R a' f b' g)

/-- The relation, for faces of a mesh. -/
def Rel (R : Elem F → Nat → Elem F → Nat → Prop) (M : HexaData F) (x y : Face) : Prop := R (M.el x.1) x.2 (M.el y.1) y.2

/-- A mesh with valid connectivity, in which internally linked faces are in the relation `R`. -/
structure Good (R : Elem F → Nat → Elem F → Nat → Prop) (d n l : Nat) (M : HexaData F) : Prop where
  wf : WF M
  grid : Grid M
  dim : M.ndim = d
  nbc : M.nbc = n
  lr1 : M.lr1.x = l
  valid : Valid M (Rel R M)
  uni : Uniform M
  self : NoSelf M

/-- Two faces of elements are near each other, with the tolerance of `merge`; see `Near`. -/
def NearEl (tol : F) (a : Elem F) (f : Nat) (b : Elem F) (g : Nat) : Prop :=
  ∃ s0 s1, a.smallestEdgeSq = .ok s0 ∧ b.smallestEdgeSq = .ok s1 ∧
    let d2 := (faceMean b g 0 - faceMean a f 0) ^ 2 + (faceMean b g 1 - faceMean a f 1) ^ 2 + (faceMean b g 2 - faceMean a f 2) ^ 2
    (0 ≤ tol ∧ d2 ≤ tol ^ 2 * min s0 s1) ∨ (tol < 0 ∧ d2 = 0 ∧ min s0 s1 = 0)

/-- A face of one of several meshes: the number of the mesh, and the face. -/
abbrev Place := Nat × Face

/-- Number of elements before mesh `p`. -/
def off (P : Nat → HexaData F) : Nat → Nat
  | 0 => 0
  | p + 1 => off P p + (P p).elem.length

/-- The face in the numbering of all meshes. -/
def place (P : Nat → HexaData F) (u : Place) : Face := (off P u.1 + u.2.1, u.2.2)

/-- The face exists in one of the meshes `0..n`. -/
def IsPlace (P : Nat → HexaData F) (n : Nat) (u : Place) : Prop := u.1 ≤ n ∧ u.2.1 < (P u.1).elem.length ∧ u.2.2 < 2 * (P u.1).ndim

/-- The condition of a face, in field `b`. -/
def bcAt (P : Nat → HexaData F) (b : Nat) (u : Place) : BC F := (P u.1).bc u.2.1 b u.2.2

/-- Two faces of different meshes that are near each other and may be connected. -/
def Adj (P : Nat → HexaData F) (n : Nat) (ie : Bool) (tol : F) (u v : Place) : Prop :=
  IsPlace P n u ∧ IsPlace P n v ∧ u.1 ≠ v.1 ∧ Candidate ie (bcAt P 0 u) ∧ Candidate ie (bcAt P 0 v) ∧
    NearEl tol ((P u.1).el u.2.1) u.2.2 ((P v.1).el v.2.1) v.2.2

/-- The meshes fit: no face is near two faces of other meshes, and periodic faces are only near periodic faces. -/
structure Fits (P : Nat → HexaData F) (n : Nat) (ie : Bool) (tol : F) : Prop where
  one : ∀ u v w, Adj P n ie tol u v → Adj P n ie tol u w → v = w
  per : ∀ u v, Adj P n ie tol u v → ((bcAt P 0 u).typ = nP ↔ (bcAt P 0 v).typ = nP)

end Spec

/-- Meshes `0..n` merged in this order. -/
def mergeAll (tol : F) (ie : Bool) (P : Nat → HexaData F) : Nat → Py (HexaData F)
  | 0 => .ok (P 0)
  | n + 1 => do
    let M ← mergeAll tol ie P n
    let r ← M.merge (P (n + 1)) tol ie false
    pure r.1

theorem near_el (M : HexaData F) (tol : F) (x y : Face) : Near M tol x y ↔ NearEl tol (M.el x.1) x.2 (M.el y.1) y.2 := Iff.rfl

theorem nearEl_symm {tol : F} {a b : Elem F} {f g : Nat} (h : NearEl tol a f b g) : NearEl tol b g a f := by
  obtain ⟨s0, s1, e0, e1, hd⟩ := h
  refine ⟨s1, s0, e1, e0, ?_⟩
  simp only at hd ⊢
  rw [min_comm s1 s0]
  have e : ∀ a b : F, (a - b) ^ 2 = (b - a) ^ 2 := fun a b => by ring
  rw [e (faceMean a f 0), e (faceMean a f 1), e (faceMean a f 2)]
  exact hd

theorem nearEl_pos (tol : F) : PosOnly (NearEl tol) := by
  intro a a' b b' f g ha hb
  unfold NearEl faceMean faceCoord Spec.corner Elem.smallestEdgeSq Elem.pt
  rw [ha, hb]

theorem adj_symm {P : Nat → HexaData F} {n : Nat} {ie : Bool} {tol : F} {u v : Place} (h : Adj P n ie tol u v) : Adj P n ie tol v u :=
  ⟨h.2.1, h.1, h.2.2.1.symm, h.2.2.2.2.1, h.2.2.2.1, nearEl_symm h.2.2.2.2.2⟩

/-- One merge, with all that is needed for the next one. -/
theorem merge_step (R : Elem F → Nat → Elem F → Nat → Prop) (hR : PosOnly R) (A B : HexaData F) (tol : F) (ie : Bool) (d n l : Nat) (hn : 0 < n)
    (gA : Good R d n l A) (gB : Good R d n l B)
    (oneA : ∀ y x x', Meets A B ie (TouchTol A B tol) y x → Meets A B ie (TouchTol A B tol) y x' → x = x')
    (oneB : ∀ y y' x, Meets A B ie (TouchTol A B tol) y x → Meets A B ie (TouchTol A B tol) y' x → y = y')
    (per : ∀ y x, Meets A B ie (TouchTol A B tol) y x → ((B.bc y.1 0 y.2).typ = nP ↔ (A.bc x.1 0 x.2).typ = nP))
    (rel : ∀ y x, Meets A B ie (TouchTol A B tol) y x → R (B.el y.1) y.2 (A.el x.1) x.2 ∧ R (A.el x.1) x.2 (B.el y.1) y.2) :
    ∃ M k, A.merge B tol ie false = .ok (M, k) ∧ Good R d n l M ∧ M.elem.length = A.elem.length + B.elem.length ∧
      (∀ e < A.elem.length, (M.el e).pos = (A.el e).pos) ∧ (∀ e < B.elem.length, (M.el (A.elem.length + e)).pos = (B.el e).pos) ∧
      (∀ y x, Meets A B ie (TouchTol A B tol) y x → ∀ b < n,
        (M.bc (A.elem.length + y.1) b y.2).typ = nE ∧ PointsTo (M.bc (A.elem.length + y.1) b y.2) x ∧
        (M.bc x.1 b x.2).typ = nE ∧ PointsTo (M.bc x.1 b x.2) (A.elem.length + y.1, y.2)) ∧
      (∀ x : Face, x.1 < A.elem.length → x.2 < 2 * d → (¬ ∃ y, Meets A B ie (TouchTol A B tol) y x) → ∀ b < n,
        (M.bc x.1 b x.2).typ = (A.bc x.1 b x.2).typ ∧ ((A.bc x.1 b x.2).typ ≠ nP → M.bc x.1 b x.2 = A.bc x.1 b x.2)) ∧
      (∀ y : Face, y.1 < B.elem.length → y.2 < 2 * d → (¬ ∃ x, Meets A B ie (TouchTol A B tol) y x) → ∀ b < n,
        (M.bc (A.elem.length + y.1) b y.2).typ = (B.bc y.1 b y.2).typ) := by
  have len0 := append_length A B
  have gAB := Samples.append_grid A B gA.grid gB.grid
  have dim : A.ndim = B.ndim := gA.dim.trans gB.dim.symm
  have hd6 : 2 * A.ndim ≤ 6 := by rcases gA.wf.dim with h | h <;> omega
  have pL : ∀ e < A.elem.length, ((A.append B).el e).pos = (A.el e).pos := fun e he => by rw [append_el_left A B e he]
  have pR : ∀ e < B.elem.length, ((A.append B).el (A.elem.length + e)).pos = (B.el e).pos := fun e he => by rw [append_el_right A B e he]
  have hT : ∀ y x : Face, y.1 < B.elem.length → y.2 < 2 * B.ndim → x.1 < A.elem.length → x.2 < 2 * A.ndim →
      closeFaces ((A.append B).el (A.elem.length + y.1)) y.2 ((A.append B).el x.1) x.2 tol = .ok (decide (TouchTol A B tol y x)) := by
    intro y x hy hy2 hx hx2
    obtain ⟨⟨c, hc⟩, hiff⟩ := closeFaces_near (A.append B) gAB tol (up A.elem.length y) x
      (by rw [len0]; simp only [up]; omega) (by simp only [up]; omega) (by rw [len0]; omega) (by omega)
    simp only [up] at hc
    rw [hc]
    simp only [up, hc, Except.ok.injEq] at hiff
    unfold TouchTol
    by_cases hn : Near (A.append B) tol (up A.elem.length y) x
    · rw [decide_eq_true hn, hiff.2 hn]
    · rw [decide_eq_false hn]
      cases c
      · rfl
      · exact absurd (hiff.1 rfl) hn
  have H : Mergeable A B ie (TouchTol A B tol) (Rel R (A.append B)) := by
    refine ⟨gA.wf, gB.wf, dim, gA.nbc.trans gB.nbc.symm, by rw [gA.nbc]; exact hn, ?_, ?_, gA.uni, gB.uni, gA.self, gB.self, oneA, oneB, per, ?_⟩
    · intro b hb x hx hx2 hlk
      obtain ⟨y, h1, h2, h3, h4, h5, h6⟩ := gA.valid b hb x hx hx2 hlk
      exact ⟨y, h1, h2, h3, h4, h5, fun h => (hR _ _ _ _ _ _ (pL x.1 hx) (pL y.1 h1)).2 (h6 h)⟩
    · intro b hb x hx hx2 hlk
      obtain ⟨y, h1, h2, h3, h4, h5, h6⟩ := gB.valid b hb x hx hx2 hlk
      exact ⟨y, h1, h2, h3, h4, h5, fun h => (hR _ _ _ _ _ _ (pR x.1 hx) (pR y.1 h1)).2 (h6 h)⟩
    · intro y x hm
      have := rel y x hm
      exact ⟨(hR _ _ _ _ _ _ (pR y.1 hm.1) (pL x.1 hm.2.2.1)).2 this.1, (hR _ _ _ _ _ _ (pL x.1 hm.2.2.1) (pR y.1 hm.1)).2 this.2⟩
  obtain ⟨M, k, hM, hv, hu, hs, m1, m2, m3⟩ := merge_valid A B ie _ _ H
    (fun e0 f0 e1 f1 => closeFaces ((A.append B).el e0) f0 ((A.append B).el e1) f1 tol) hT
  have hm : A.merge B tol ie false = .ok (M, k) := by
    unfold HexaData.merge
    rw [if_neg (by simp [dim]), if_neg (by simp [gA.lr1, gB.lr1])]
    exact hM
  obtain ⟨hdr, hlen, e1, e2⟩ := merge_concat A B tol ie false M k hm
  have p1 : ∀ e < A.elem.length, (M.el e).pos = (A.el e).pos := fun e he => by rw [e1 e he]
  have p2 : ∀ e < B.elem.length, (M.el (A.elem.length + e)).pos = (B.el e).pos := fun e he => by rw [e2 e he]
  have cases_ : ∀ e < M.elem.length, e < A.elem.length ∨ ∃ j < B.elem.length, e = A.elem.length + j := by
    intro e he
    rcases Nat.lt_or_ge e A.elem.length with h | h
    · exact .inl h
    · exact .inr ⟨e - A.elem.length, by omega, by omega⟩
  have pM : ∀ e < M.elem.length, (M.el e).pos = ((A.append B).el e).pos := by
    intro e he
    rcases cases_ e he with h | ⟨j, hj, rfl⟩
    · rw [p1 e h, pL e h]
    · rw [p2 j hj, pR j hj]
  have mnel : M.nel = A.nel + B.nel := by rw [hdr]
  have mnbc : M.nbc = A.nbc := by rw [hdr]
  have mdim : M.ndim = A.ndim := by rw [hdr]
  have mlr1 : M.lr1 = A.lr1 := by rw [hdr]
  refine ⟨M, k, hm, ⟨⟨?_, ?_, ?_⟩, ?_, mdim.trans gA.dim, mnbc.trans gA.nbc, by rw [mlr1]; exact gA.lr1, ?_, hu, hs⟩, hlen, p1, p2, ?_, ?_, ?_⟩
  · rw [mnel, hlen, gA.wf.nel, gB.wf.nel]
  · intro el hel
    obtain ⟨i, hi, rfl⟩ := List.getElem_of_mem hel
    rw [← HexaData.el_eq_getElem _ i hi, mnbc, gA.nbc]
    rcases cases_ i hi with h | ⟨j, hj, rfl⟩
    · rw [e1 i h, ← gA.nbc]
      have := gA.wf.rows (A.el i) (A.el_mem i h)
      exact this
    · rw [e2 j hj, ← gB.nbc]
      have := gB.wf.rows (B.el j) (B.el_mem j hj)
      exact this
  · rw [mdim]; exact gA.wf.dim
  · intro el hel
    obtain ⟨i, hi, rfl⟩ := List.getElem_of_mem hel
    rw [← HexaData.el_eq_getElem _ i hi, pM i hi]
    exact gAB _ (HexaData.el_mem _ i (by rw [len0, ← hlen]; exact hi))
  · intro b hb x hx hx2 hlk
    obtain ⟨y, h1, h2, h3, h4, h5, h6⟩ := hv b hb x hx hx2 hlk
    exact ⟨y, h1, h2, h3, h4, h5, fun h => (hR _ _ _ _ _ _ (pM x.1 hx) (pM y.1 h1)).2 (h6 h)⟩
  · intro y x hyx b hb
    exact m1 y x hyx b (by rw [gA.nbc]; exact hb)
  · intro x hx hx2 hno b hb
    exact m2 x hx (by rw [gA.dim]; exact hx2) hno b (by rw [gA.nbc]; exact hb)
  · intro y hy hy2 hno b hb
    exact (m3 y hy (by rw [gA.dim]; exact hy2) hno b (by rw [gA.nbc]; exact hb)).1

theorem off_mono (P : Nat → HexaData F) {p q : Nat} (h : p ≤ q) : off P p ≤ off P q := by
  induction h with
  | refl => exact le_refl _
  | step _ ih => exact ih.trans (Nat.le_add_right _ _)

/-- Elements of the merged mesh are elements of the parts. -/
theorem off_cases (P : Nat → HexaData F) (n e : Nat) (h : e < off P (n + 1)) : ∃ p ≤ n, ∃ i < (P p).elem.length, e = off P p + i := by
  induction n with
  | zero => exact ⟨0, le_refl _, e, by simpa [off] using h, by simp [off]⟩
  | succ n ih =>
    rcases Nat.lt_or_ge e (off P (n + 1)) with h' | h'
    · obtain ⟨p, hp, i, hi, rfl⟩ := ih h'
      exact ⟨p, by omega, i, hi, rfl⟩
    · refine ⟨n + 1, le_refl _, e - off P (n + 1), ?_, by omega⟩
      rw [off] at h
      omega

theorem place_inj (P : Nat → HexaData F) (n : Nat) (u v : Place) (hu : IsPlace P n u) (hv : IsPlace P n v) (h : place P u = place P v) : u = v := by
  obtain ⟨p, i, f⟩ := u
  obtain ⟨q, j, g⟩ := v
  unfold place at h
  obtain ⟨-, hi, -⟩ := hu
  obtain ⟨-, hj, -⟩ := hv
  simp only [Prod.mk.injEq] at h hi hj ⊢
  have key : ∀ p q, p < q → off P p + (P p).elem.length ≤ off P q := fun p q hpq => off_mono P hpq
  have : p = q := by
    rcases Nat.lt_trichotomy p q with h' | h' | h'
    · have := key p q h'; omega
    · exact h'
    · have := key q p h'; omega
  subst this
  exact ⟨rfl, by omega, h.2⟩

/-- What is known of the mesh merged from the meshes `0..n`. -/
structure Spec.Merged (R : Elem F → Nat → Elem F → Nat → Prop) (d nb l : Nat) (P : Nat → HexaData F) (n : Nat) (ie : Bool) (tol : F) (M : HexaData F) : Prop where
  /-- The mesh is valid. -/
  good : Good R d nb l M
  /-- It consists of the elements of the parts. -/
  len : M.elem.length = off P (n + 1)
  pos : ∀ p ≤ n, ∀ i < (P p).elem.length, (M.el (off P p + i)).pos = ((P p).el i).pos
  /-- Faces of different parts that are near each other are connected. -/
  linked : ∀ u v, Adj P n ie tol u v → ∀ b < nb,
    (M.bc (place P u).1 b (place P u).2).typ = nE ∧ PointsTo (M.bc (place P u).1 b (place P u).2) (place P v)
  /-- All others keep their condition. -/
  free : ∀ u, IsPlace P n u → (¬ ∃ v, Adj P n ie tol u v) → ∀ b < nb, (M.bc (place P u).1 b (place P u).2).typ = (bcAt P b u).typ

/-- **C105.** If all meshes are valid and fit then they can be merged one after the other, and the result is valid, with a connection between each two
faces of different meshes that are near each other, and with the conditions of the parts on all other faces. -/
theorem C105 (R : Elem F → Nat → Elem F → Nat → Prop) (hR : PosOnly R) (P : Nat → HexaData F) (n : Nat) (ie : Bool) (tol : F) (d nb l : Nat) (hnb : 0 < nb)
    (hP : ∀ p ≤ n, Good R d nb l (P p)) (hF : Fits P n ie tol)
    (rel : ∀ u v, Adj P n ie tol u v → R ((P u.1).el u.2.1) u.2.2 ((P v.1).el v.2.1) v.2.2) :
    ∃ M, mergeAll tol ie P n = .ok M ∧ Merged R d nb l P n ie tol M := by
  induction n with
  | zero =>
    refine ⟨P 0, rfl, hP 0 (le_refl _), by simp [off], ?_, ?_, ?_⟩
    · intro p hp i _
      obtain rfl : p = 0 := by omega
      simp [off]
    · intro u v h
      have h1 := h.1.1
      have h2 := h.2.1.1
      exact absurd (show u.1 = v.1 by omega) h.2.2.1
    · intro u hu _ b _
      obtain ⟨p, i, f⟩ := u
      obtain rfl : p = 0 := by have := hu.1; dsimp only at this; omega
      simp [place, off, bcAt]
  | succ n ih =>
    have up1 : ∀ u, IsPlace P n u → IsPlace P (n + 1) u := fun u h => ⟨by have := h.1; omega, h.2⟩
    have upA : ∀ u v, Adj P n ie tol u v → Adj P (n + 1) ie tol u v := fun u v h => ⟨up1 u h.1, up1 v h.2.1, h.2.2⟩
    have dnA : ∀ u v, u.1 ≤ n → v.1 ≤ n → Adj P (n + 1) ie tol u v → Adj P n ie tol u v := fun u v hu hv h => ⟨⟨hu, h.1.2⟩, ⟨hv, h.2.1.2⟩, h.2.2⟩
    obtain ⟨A, hA, I⟩ := ih (fun p hp => hP p (by omega))
      ⟨fun u v w h1 h2 => hF.one u v w (upA _ _ h1) (upA _ _ h2), fun u v h => hF.per u v (upA _ _ h)⟩ (fun u v h => rel u v (upA _ _ h))
    set B := P (n + 1) with hB
    have gB := hP (n + 1) (le_refl _)
    have dimP : ∀ p ≤ n + 1, (P p).ndim = d := fun p hp => (hP p hp).dim
    -- faces of the mesh merged so far
    have faces : ∀ x : Face, x.1 < A.elem.length → x.2 < 2 * d → ∃ u, IsPlace P n u ∧ place P u = x := by
      intro x hx hx2
      obtain ⟨p, hp, i, hi, he⟩ := off_cases P n x.1 (by rw [← I.len]; exact hx)
      refine ⟨(p, i, x.2), ⟨hp, hi, ?_⟩, ?_⟩
      · change x.2 < 2 * (P p).ndim
        rw [dimP p (by omega)]
        exact hx2
      · unfold place
        rw [← he]
    -- they meet faces of the next mesh exactly if the faces of the parts do
    have meets : ∀ (y : Face) (u : Place), IsPlace P n u → (Meets A B ie (TouchTol A B tol) y (place P u) ↔ Adj P (n + 1) ie tol u (n + 1, y)) := by
      intro y u hu
      have hl : (place P u).1 < A.elem.length := by
        rw [I.len]
        have h1 := hu.2.1
        have h2 := off_mono P (show u.1 + 1 ≤ n + 1 by have := hu.1; omega)
        rw [off] at h2
        change off P u.1 + u.2.1 < _
        omega
      have hpu : (A.el (place P u).1).pos = ((P u.1).el u.2.1).pos := I.pos u.1 hu.1 u.2.1 hu.2.1
      have touch : y.1 < B.elem.length → (TouchTol A B tol y (place P u) ↔ NearEl tol ((P u.1).el u.2.1) u.2.2 (B.el y.1) y.2) := by
        intro hy
        unfold TouchTol
        rw [near_el]
        refine Iff.trans (nearEl_pos tol _ (B.el y.1) _ ((P u.1).el u.2.1) _ _ ?_ ?_) ⟨nearEl_symm, nearEl_symm⟩
        · simp only [up]; rw [append_el_right A B y.1 hy]
        · rw [append_el_left A B _ hl]; exact hpu
      constructor
      · rintro ⟨h1, h2, h3, h4, h5, h6, h7⟩
        refine ⟨up1 u hu, ⟨le_refl _, h1, h2⟩, by have := hu.1; dsimp only; omega, ?_, h5, (touch h1).1 h7⟩
        by_cases hv : ∃ v, Adj P n ie tol u v
        · obtain ⟨v, hv⟩ := hv
          exact absurd (I.linked u v hv 0 hnb).1 h6.1
        · have := I.free u hu hv 0 hnb
          unfold Candidate at h6 ⊢
          rw [← this]
          exact h6
      · intro h
        have hno : ¬ ∃ v, Adj P n ie tol u v := by
          rintro ⟨v, hv⟩
          have := hF.one u v _ (upA _ _ hv) h
          have h2 := hv.2.1.1
          rw [this] at h2
          dsimp only at h2
          omega
        refine ⟨h.2.1.2.1, h.2.1.2.2, hl, ?_, h.2.2.2.2.1, ?_, (touch h.2.1.2.1).2 h.2.2.2.2.2⟩
        · rw [I.good.dim, ← dimP u.1 (by have := hu.1; omega)]
          exact hu.2.2
        · have := I.free u hu hno 0 hnb
          have hc := h.2.2.2.1
          unfold Candidate at hc ⊢
          rw [this]
          exact hc
    have toAdj : ∀ y x, Meets A B ie (TouchTol A B tol) y x → ∃ u, IsPlace P n u ∧ place P u = x ∧ Adj P (n + 1) ie tol u (n + 1, y) := by
      intro y x h
      obtain ⟨u, hu, rfl⟩ := faces x h.2.2.1 (by rw [← I.good.dim]; exact h.2.2.2.1)
      exact ⟨u, hu, rfl, (meets y u hu).1 h⟩
    obtain ⟨M, k, hM, gM, hlen, p1, p2, m1, m2, m3⟩ := merge_step R hR A B tol ie d nb l hnb I.good gB
      (by
        intro y x x' h h'
        obtain ⟨u, -, rfl, hu⟩ := toAdj y x h
        obtain ⟨u', -, rfl, hu'⟩ := toAdj y x' h'
        rw [hF.one _ u u' (adj_symm hu) (adj_symm hu')])
      (by
        intro y y' x h h'
        obtain ⟨u, hu0, rfl, hu⟩ := toAdj y x h
        have hu' := (meets y' u hu0).1 h'
        have := hF.one u _ _ hu hu'
        simpa using this)
      (by
        intro y x h
        obtain ⟨u, hu0, rfl, hu⟩ := toAdj y x h
        have hp := hF.per u _ hu
        have hno : ¬ ∃ v, Adj P n ie tol u v := by
          rintro ⟨v, hv⟩
          have := hF.one u v _ (upA _ _ hv) hu
          have h2 := hv.2.1.1
          rw [this] at h2
          dsimp only at h2
          omega
        rw [I.free u hu0 hno 0 hnb]
        exact hp.symm)
      (by
        intro y x h
        obtain ⟨u, hu0, rfl, hu⟩ := toAdj y x h
        have hpu : (A.el (place P u).1).pos = ((P u.1).el u.2.1).pos := I.pos u.1 hu0.1 u.2.1 hu0.2.1
        exact ⟨(hR _ _ _ _ _ _ rfl hpu).2 (rel _ _ (adj_symm hu)), (hR _ _ _ _ _ _ hpu rfl).2 (rel _ _ hu)⟩)
    refine ⟨M, ?_, gM, ?_, ?_, ?_, ?_⟩
    · change (mergeAll tol ie P n >>= fun M => M.merge (P (n + 1)) tol ie false >>= fun r => pure r.1) = _
      rw [hA]
      change (A.merge (P (n + 1)) tol ie false >>= fun r => pure r.1) = _
      rw [← hB, hM]
      rfl
    · rw [hlen, I.len]
      rfl
    · intro p hp i hi
      rcases Nat.lt_or_ge n p with h | h
      · obtain rfl : p = n + 1 := by omega
        rw [← I.len]
        exact p2 i hi
      · have hl : off P p + i < A.elem.length := by
          rw [I.len]
          have h2 := off_mono P (show p + 1 ≤ n + 1 by omega)
          rw [off] at h2
          omega
        rw [p1 _ hl]
        exact I.pos p h i hi
    · have side : ∀ u v, u.1 ≤ n → v.1 = n + 1 → Adj P (n + 1) ie tol u v → ∀ b < nb,
          ((M.bc (place P u).1 b (place P u).2).typ = nE ∧ PointsTo (M.bc (place P u).1 b (place P u).2) (place P v)) ∧
          ((M.bc (place P v).1 b (place P v).2).typ = nE ∧ PointsTo (M.bc (place P v).1 b (place P v).2) (place P u)) := by
        rintro u ⟨q, y⟩ hu hv h b hb
        dsimp only at hv
        subst hv
        have := m1 y (place P u) ((meets y u ⟨hu, h.1.2⟩).2 h) b hb
        have e : place P (n + 1, y) = (A.elem.length + y.1, y.2) := by
          unfold place
          rw [I.len]
        rw [e]
        exact ⟨⟨this.2.2.1, this.2.2.2⟩, this.1, this.2.1⟩
      intro u v h b hb
      rcases Nat.lt_or_ge n u.1 with hu | hu
      · have h1 : u.1 = n + 1 := by have := h.1.1; omega
        have h2 : v.1 ≤ n := by
          have := h.2.1.1
          have := h.2.2.1
          omega
        exact (side v u h2 h1 (adj_symm h) b hb).2
      · rcases Nat.lt_or_ge n v.1 with hv | hv
        · exact (side u v hu (by have := h.2.1.1; omega) h b hb).1
        · have hA0 := dnA u v hu hv h
          obtain ⟨t1, t2⟩ := I.linked u v hA0 b hb
          have hl : (place P u).1 < A.elem.length := by
            rw [I.len]
            have h1 := h.1.2.1
            have h2 := off_mono P (show u.1 + 1 ≤ n + 1 by omega)
            rw [off] at h2
            change off P u.1 + u.2.1 < _
            omega
          have hno : ¬ ∃ y, Meets A B ie (TouchTol A B tol) y (place P u) := by
            rintro ⟨y, hy⟩
            exact hy.2.2.2.2.2.1.1 (I.linked u v hA0 0 hnb).1
          have hd : (place P u).2 < 2 * d := by
            have := h.1.2.2
            rw [dimP u.1 (by omega)] at this
            exact this
          have := (m2 (place P u) hl hd hno b hb).2 (by rw [t1]; decide)
          rw [this]
          exact ⟨t1, t2⟩
    · intro u hu hno b hb
      have hd : (place P u).2 < 2 * d := by
        have := hu.2.2
        rw [dimP u.1 hu.1] at this
        exact this
      rcases Nat.lt_or_ge n u.1 with h | h
      · obtain ⟨q, y⟩ := u
        obtain rfl : q = n + 1 := by have := hu.1; dsimp only at this h; omega
        have hno' : ¬ ∃ x, Meets A B ie (TouchTol A B tol) y x := by
          rintro ⟨x, hx⟩
          obtain ⟨u, -, -, hu⟩ := toAdj y x hx
          exact hno ⟨u, adj_symm hu⟩
        have := m3 y hu.2.1 hd hno' b hb
        have e : place P (n + 1, y) = (A.elem.length + y.1, y.2) := by
          unfold place
          rw [I.len]
        rw [e]
        exact this
      · have hu' : IsPlace P n u := ⟨h, hu.2⟩
        have hl : (place P u).1 < A.elem.length := by
          rw [I.len]
          have h1 := hu.2.1
          have h2 := off_mono P (show u.1 + 1 ≤ n + 1 by omega)
          rw [off] at h2
          change off P u.1 + u.2.1 < _
          omega
        have hno' : ¬ ∃ y, Meets A B ie (TouchTol A B tol) y (place P u) := by
          rintro ⟨y, hy⟩
          exact hno ⟨_, (meets y u hu').1 hy⟩
        rw [(m2 (place P u) hl hd hno' b hb).1]
        exact I.free u hu' (fun ⟨v, hv⟩ => hno ⟨v, upA _ _ hv⟩) b hb

/-- **C105**: the result passes `check_connectivity`, with every tolerance that all parts pass and that is not less than the tolerance of `merge`. -/
theorem C105_check (P : Nat → HexaData F) (n : Nat) (ie : Bool) (tol tol' : F) (h0 : 0 ≤ tol) (ht : tol ≤ tol') (d nb l : Nat) (hnb : 0 < nb)
    (hP : ∀ p ≤ n, Good (NearEl tol') d nb l (P p)) (hF : Fits P n ie tol) :
    ∃ M, mergeAll tol ie P n = .ok M ∧ M.checkConnectivity tol' = .ok true := by
  obtain ⟨M, hM, I⟩ := C105 (NearEl tol') (nearEl_pos tol') P n ie tol d nb l hnb hP hF (by
    intro u v h
    obtain ⟨s0, s1, e0, e1, hd⟩ := h.2.2.2.2.2
    refine ⟨s0, s1, e0, e1, ?_⟩
    rcases hd with ⟨_, hd⟩ | ⟨ht, _⟩
    · refine Or.inl ⟨h0.trans ht, hd.trans ?_⟩
      have n0 := smallestEdgeSq_nonneg _ s0 e0
      have n1 := smallestEdgeSq_nonneg _ s1 e1
      exact mul_le_mul_of_nonneg_right (pow_le_pow_left₀ h0 ht 2) (le_min n0 n1)
    · exact absurd h0 (not_le.2 ht))
  refine ⟨M, hM, ?_⟩
  rw [check_connectivity_iff M I.good.wf I.good.grid]
  exact connected_of_valid M I.good.wf tol' I.good.valid

/-! ### Boolean test of the hypotheses, for the examples -/

theorem nearEl_close (a b : Elem F) (ha : 2 ≤ a.pos.lx ∧ 2 ≤ a.pos.ly ∧ 1 ≤ a.pos.lz) (hb : 2 ≤ b.pos.lx ∧ 2 ≤ b.pos.ly ∧ 1 ≤ b.pos.lz) (tol : F)
    (f g : Nat) (hf : f < 6) (hg : g < 6) : NearEl tol a f b g ↔ Py.getD (closeFaces a f b g tol) false = true := by
  set M : HexaData F := { (HexaData.new .little 2 0 ⟨2, 2, 1, true⟩ ⟨2, 2, 0, 0, 0⟩ 0 : HexaData F) with elem := [a, b] } with hM
  have hg' : Grid M := by
    intro el hel
    rcases List.mem_cons.1 hel with rfl | hel
    · exact ha
    · rcases List.mem_cons.1 hel with rfl | hel
      · exact hb
      · cases hel
  obtain ⟨⟨c, hc⟩, hiff⟩ := closeFaces_near M hg' tol (0, f) (1, g) (by simp [hM]) hf (by simp [hM]) hg
  have e : closeFaces a f b g tol = .ok c := hc
  rw [e]
  change NearEl tol a f b g ↔ c = true
  have hiff' : closeFaces a f b g tol = .ok true ↔ NearEl tol a f b g := hiff
  rw [← hiff', e]
  simp

namespace Samples

/-- The faces of the meshes `0..n`. -/
def places (P : Nat → HexaData F) (n : Nat) : List Place := (List.range (n + 1)).flatMap fun p => (allFaces (P p)).map fun x => (p, x)

/-- Boolean form of `Adj` for faces of the list. -/
def adjB (P : Nat → HexaData F) (ie : Bool) (tol : F) (u v : Place) : Bool :=
  let cand (r : BC F) : Bool := decide (r.typ ≠ nE) && !(ie && decide (r.typ = []))
  decide (u.1 ≠ v.1) && (cand (bcAt P 0 u) && (cand (bcAt P 0 v) &&
    Py.getD (closeFaces ((P u.1).el u.2.1) u.2.2 ((P v.1).el v.2.1) v.2.2 tol) false))

/-- Boolean form of `Fits`. -/
def chainFitsB (P : Nat → HexaData F) (n : Nat) (ie : Bool) (tol : F) : Bool :=
  let l := places P n
  (List.range (n + 1)).all (fun p => gridB (P p) && decide ((P p).ndim ≤ 3)) &&
  l.all fun u => let vs := l.filter (adjB P ie tol u)
    decide (vs.length ≤ 1) && vs.all fun v => decide ((bcAt P 0 u).typ = nP ↔ (bcAt P 0 v).typ = nP)

theorem mem_places {P : Nat → HexaData F} {n : Nat} {u : Place} (h : IsPlace P n u) : u ∈ places P n := by
  obtain ⟨p, x⟩ := u
  simp only [places, List.mem_flatMap, List.mem_map, List.mem_range]
  refine ⟨p, by have := h.1; dsimp only at this; omega, x, ?_, rfl⟩
  simp only [allFaces, mem_prod2, List.mem_range]
  exact ⟨h.2.1, h.2.2⟩

theorem chainFits_of_B {P : Nat → HexaData F} {n : Nat} {ie : Bool} {tol : F} (h : chainFitsB P n ie tol = true) : Fits P n ie tol := by
  unfold chainFitsB at h
  simp only [Bool.and_eq_true, List.all_eq_true, decide_eq_true_eq] at h
  obtain ⟨h0, h⟩ := h
  have key : ∀ u v, Adj P n ie tol u v → v ∈ (places P n).filter (adjB P ie tol u) := by
    intro u v ⟨a1, a2, a3, a4, a5, a6⟩
    rw [List.mem_filter]
    refine ⟨mem_places a2, ?_⟩
    have gu := h0 u.1 (by have := a1.1; rw [List.mem_range]; omega)
    have gv := h0 v.1 (by have := a2.1; rw [List.mem_range]; omega)
    have c : ∀ r : BC F, Candidate ie r → (decide (r.typ ≠ nE) && !(ie && decide (r.typ = []))) = true := by
      intro r hr
      obtain ⟨r1, r2⟩ := hr
      cases ie <;> simp_all
    unfold adjB
    simp only
    rw [decide_eq_true a3, c _ a4, c _ a5, (nearEl_close _ _ ?_ ?_ tol _ _ ?_ ?_).1 a6]
    · rfl
    · exact grid_of_gridB _ gu.1 _ (HexaData.el_mem _ _ a1.2.1)
    · exact grid_of_gridB _ gv.1 _ (HexaData.el_mem _ _ a2.2.1)
    · have := a1.2.2
      have := gu.2
      omega
    · have := a2.2.2
      have := gv.2
      omega
  refine ⟨fun u v w hv hw => ?_, fun u v huv => (h u (mem_places huv.1)).2 v (key u v huv)⟩
  have hl := (h u (mem_places hv.1)).1
  have kv := key u v hv
  have kw := key u w hw
  generalize (places P n).filter (adjB P ie tol u) = l at hl kv kw
  match l, hl, kv, kw with
  | [a], _, kv, kw => rw [List.mem_singleton.1 kv, List.mem_singleton.1 kw]

/-- Boolean form of `Good` for nearness. -/
theorem chainGood_of_B (M : HexaData F) (tol : F) (d n l : Nat) (h : (wfB M && gridB M && validB M && uniformB M && noSelfB M &&
    decide (M.ndim = d ∧ M.nbc = n ∧ M.lr1.x = l)) = true) (hc : M.checkConnectivity tol = .ok true) : Good (NearEl tol) d n l M := by
  simp only [Bool.and_eq_true, decide_eq_true_eq] at h
  obtain ⟨⟨⟨⟨⟨h1, h2⟩, h3⟩, h4⟩, h5⟩, h6, h7, h8⟩ := h
  exact ⟨wf_of_wfB _ h1, grid_of_gridB _ h2, h6, h7, h8, validNear_of_B M tol h1 h2 h3 hc, uniform_of_uniformB _ h4, noSelf_of_noSelfB _ h5⟩

/-- Three periodic channels side by side. -/
def channels (p : Nat) : HexaData ℚ := box 2 2 (2 * p) nP nP nW nW

end Samples

/-- All hypotheses hold for three periodic channels side by side. -/
example : ∃ M, mergeAll (1 / 100) true Samples.channels 2 = .ok M ∧ M.checkConnectivity (1 / 10) = .ok true :=
  C105_check Samples.channels 2 true (1 / 100) (1 / 10) (by norm_num) (by norm_num) 2 1 2 (by decide)
    (by
      intro p hp
      rcases (by omega : p = 0 ∨ p = 1 ∨ p = 2) with rfl | rfl | rfl <;>
        exact Samples.chainGood_of_B _ _ _ _ _ (by decide +kernel) (by decide +kernel))
    (Samples.chainFits_of_B (by decide +kernel))

/-- In this example there are near faces: the outlet of the first channel and the inlet of the second. -/
example : Adj Samples.channels 2 true (1 / 100) (0, 1, 1) (1, 0, 3) := by
  refine ⟨by unfold IsPlace; decide +kernel, by unfold IsPlace; decide +kernel, by decide, by unfold Candidate; decide +kernel, by unfold Candidate; decide +kernel, ?_⟩
  exact (nearEl_close _ _ (by decide +kernel) (by decide +kernel) _ _ _ (by decide) (by decide)).2 (by decide +kernel)

end Pymech
