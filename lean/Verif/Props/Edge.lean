import Verif.Mesh.Edge
import Verif.Props.Bridge
import Verif.Samples

/-!
# `edge_mid` and `edge_circle`: C69–C71
-/

namespace Pymech

namespace Spec

/-- The vertex at the beginning and at the end of each edge in the numbering of Nek5000: the bottom face is run through
counter-clockwise, then the top face, then the edges from bottom to top. Vertices are given as `(ix, iy, iz)`. -/
def edgeVertex : List ((Nat × Nat × Nat) × (Nat × Nat × Nat)) :=
  let corner (k : Nat) : Nat × Nat := [(0, 0), (1, 0), (1, 1), (0, 1)].getD (k % 4) (0, 0)
  ([0, 1].flatMap fun z => (List.range 4).map fun k => (((corner k).1, (corner k).2, z), ((corner (k + 1)).1, (corner (k + 1)).2, z))) ++
    (List.range 4).map fun k => (((corner k).1, (corner k).2, 0), ((corner k).1, (corner k).2, 1))

/-- The point of an element with given indices. -/
def point {F : Type} (el : Elem F) (k : Nat × Nat × Nat) : V3 F :=
  ⟨el.pos.dat 0 k.2.2 k.2.1 k.1, el.pos.dat 1 k.2.2 k.2.1 k.1, el.pos.dat 2 k.2.2 k.2.1 k.1⟩

/-- The first and second end of an edge. -/
def edgeFrom {F : Type} (el : Elem F) (e : Nat) : V3 F := point el (edgeVertex.getD e ((0, 0, 0), (0, 0, 0))).1
def edgeTo {F : Type} (el : Elem F) (e : Nat) : V3 F := point el (edgeVertex.getD e ((0, 0, 0), (0, 0, 0))).2

/-- The element has the edge: the edges of the bottom face exist in two dimensions. -/
def HasEdge {F : Type} (el : Elem F) (e : Nat) : Prop :=
  e < 12 ∧ 2 ≤ el.pos.lx ∧ 2 ≤ el.pos.ly ∧ 1 ≤ el.pos.lz ∧ (4 ≤ e → 2 ≤ el.pos.lz)

end Spec

open Spec

theorem edgeEnds_spec (e : Nat) (h : e < 12) :
    edgeVertex.getD e ((0, 0, 0), (0, 0, 0)) =
      (((edgeEnds e).1.2.2, (edgeEnds e).1.2.1, (edgeEnds e).1.1), ((edgeEnds e).2.2.2, (edgeEnds e).2.2.1, (edgeEnds e).2.1)) := by
  have : ∀ e < 12, edgeVertex.getD e ((0, 0, 0), (0, 0, 0)) =
      (((edgeEnds e).1.2.2, (edgeEnds e).1.2.1, (edgeEnds e).1.1), ((edgeEnds e).2.2.2, (edgeEnds e).2.2.1, (edgeEnds e).2.1)) := by decide
  exact this e h

section
variable {F : Type}

theorem ptAt_ends (el : Elem F) (e : Nat) (h : HasEdge el e) :
    el.ptAt (edgeEnds e).1 = .ok (edgeFrom el e) ∧ el.ptAt (edgeEnds e).2 = .ok (edgeTo el e) := by
  obtain ⟨h12, hx, hy, hz, hz'⟩ := h
  have hb : (edgeEnds e).1.2.2 < 2 ∧ (edgeEnds e).1.2.1 < 2 ∧ (edgeEnds e).1.1 < 2 ∧ (edgeEnds e).2.2.2 < 2 ∧ (edgeEnds e).2.2.1 < 2 ∧
      (edgeEnds e).2.1 < 2 ∧ (e < 4 → (edgeEnds e).1.1 < 1 ∧ (edgeEnds e).2.1 < 1) := by
    have : ∀ e < 12, (edgeEnds e).1.2.2 < 2 ∧ (edgeEnds e).1.2.1 < 2 ∧ (edgeEnds e).1.1 < 2 ∧ (edgeEnds e).2.2.2 < 2 ∧
      (edgeEnds e).2.2.1 < 2 ∧ (edgeEnds e).2.1 < 2 ∧ (e < 4 → (edgeEnds e).1.1 < 1 ∧ (edgeEnds e).2.1 < 1) := by decide
    exact this e h12
  obtain ⟨b1, b2, b3, b4, b5, b6, b7⟩ := hb
  have hl : (edgeEnds e).1.1 < el.pos.lz ∧ (edgeEnds e).2.1 < el.pos.lz := by
    by_cases h4 : e < 4
    · have := b7 h4; omega
    · have := hz' (by omega); omega
  unfold Elem.ptAt edgeFrom edgeTo
  rw [edgeEnds_spec e h12, if_pos ⟨hl.1, by omega, by omega⟩, if_pos ⟨hl.2, by omega, by omega⟩]
  exact ⟨rfl, rfl⟩

/-- The midpoint and the element afterwards, case by case. -/
theorem edgeMid_eq [Field F] [LinearOrder F] (rt : F → F) (el : Elem F) (e : Nat) (h : HasEdge el e) :
    edgeMid rt el e =
      if el.ccurv e = ['m'] then .ok (el.cpt e, el)
      else if el.ccurv e = [] then .ok (⟨((edgeFrom el e).x + (edgeTo el e).x) / 2, ((edgeFrom el e).y + (edgeTo el e).y) / 2,
        ((edgeFrom el e).z + (edgeTo el e).z) / 2⟩, el)
      else if el.ccurv e = ['C'] then .ok (arcMid rt (el.curv e 0) (edgeFrom el e) (edgeTo el e),
        el.setCpt e (arcMid rt (el.curv e 0) (edgeFrom el e) (edgeTo el e)))
      else if el.ccurv e = ['s'] then .ok (sphereMid rt (el.curv e 4) (el.cpt e) (edgeFrom el e) (edgeTo el e), el)
      else .ok (el.cpt e, el) := by
  obtain ⟨h1, h2⟩ := ptAt_ends el e h
  unfold edgeMid
  rw [if_neg (by have := h.1; omega), h1, h2]
  rfl

end

/-! ### C69 -/

/-- A number `r` is the square root of `x`. -/
def IsRoot {F : Type} [Field F] [LinearOrder F] (r x : F) : Prop := 0 ≤ r ∧ r ^ 2 = x

theorem isRoot_sqrt (x : ℝ) (h : 0 ≤ x) : IsRoot (Real.sqrt x) x := ⟨Real.sqrt_nonneg x, Real.sq_sqrt h⟩

/-- **C69**, straight edges: the mean of the end points. -/
theorem C69_straight {F : Type} [Field F] [LinearOrder F] (rt : F → F) (el : Elem F) (e : Nat) (h : HasEdge el e) (hc : el.ccurv e = []) :
    edgeMid rt el e = .ok (⟨((edgeFrom el e).x + (edgeTo el e).x) / 2, ((edgeFrom el e).y + (edgeTo el e).y) / 2,
        ((edgeFrom el e).z + (edgeTo el e).z) / 2⟩, el) := by
  rw [edgeMid_eq rt el e h, if_neg (by rw [hc]; decide), if_pos hc]

/-- **C69**, edges with a midpoint: the stored one. -/
theorem C69_mid {F : Type} [Field F] [LinearOrder F] (rt : F → F) (el : Elem F) (e : Nat) (h : e < 12) (hc : el.ccurv e = ['m']) :
    edgeMid rt el e = .ok (⟨el.curv e 0, el.curv e 1, el.curv e 2⟩, el) := by
  unfold edgeMid
  rw [if_neg (by omega), if_pos hc]
  rfl

/-- The middle of an arc. -/
theorem arcMid_spec {F : Type} [Field F] [LinearOrder F] [IsStrictOrderedRing F] (rt : F → F) (R : F) (p q : V3 F)
    (hd : 0 < (q.x - p.x) ^ 2 + (q.y - p.y) ^ 2) (hR : ((q.x - p.x) ^ 2 + (q.y - p.y) ^ 2) / 4 ≤ R ^ 2)
    (r1 : IsRoot (rt ((q.x - p.x) ^ 2 + (q.y - p.y) ^ 2)) ((q.x - p.x) ^ 2 + (q.y - p.y) ^ 2))
    (r2 : IsRoot (rt (R ^ 2 - (q.x - p.x) ^ 2 / 4 - (q.y - p.y) ^ 2 / 4)) (R ^ 2 - (q.x - p.x) ^ 2 / 4 - (q.y - p.y) ^ 2 / 4)) :
    let m := arcMid rt R p q
    (m.x - p.x) ^ 2 + (m.y - p.y) ^ 2 = (m.x - q.x) ^ 2 + (m.y - q.y) ^ 2 ∧ m.z = (p.z + q.z) / 2 ∧
    (∃ cx cy, (cx - p.x) ^ 2 + (cy - p.y) ^ 2 = R ^ 2 ∧ (cx - q.x) ^ 2 + (cy - q.y) ^ 2 = R ^ 2 ∧ (cx - m.x) ^ 2 + (cy - m.y) ^ 2 = R ^ 2) ∧
    (m.x - (p.x + q.x) / 2) ^ 2 + (m.y - (p.y + q.y) / 2) ^ 2 ≤ R ^ 2 ∧
    (0 < R → 0 ≤ (q.y - p.y) * (m.x - p.x) - (q.x - p.x) * (m.y - p.y)) ∧
    (R < 0 → (q.y - p.y) * (m.x - p.x) - (q.x - p.x) * (m.y - p.y) ≤ 0) := by
  intro m
  obtain ⟨g1, g1'⟩ := r1
  obtain ⟨g2, g2'⟩ := r2
  set dx := q.x - p.x with hdx
  set dy := q.y - p.y with hdy
  set L := rt (dx ^ 2 + dy ^ 2) with hL
  set H := rt (R ^ 2 - dx ^ 2 / 4 - dy ^ 2 / 4) with hH
  have hL0 : L ≠ 0 := by
    intro h0
    rw [h0] at g1'
    norm_num at g1'
    linarith
  have hR0 : R ≠ 0 := by
    rintro rfl
    norm_num at hR
    linarith
  have hHR : H ≤ |R| := by
    apply abs_le_of_sq_le_sq' _ (abs_nonneg R) |>.2
    rw [sq_abs, g2']
    nlinarith [sq_nonneg dx, sq_nonneg dy]
  -- the sign of the radius
  obtain ⟨σ, hσ, hσ2⟩ : ∃ σ : F, R = σ * |R| ∧ σ ^ 2 = 1 := by
    rcases lt_or_gt_of_ne hR0 with h | h
    · exact ⟨-1, by rw [abs_of_neg h]; ring, by norm_num⟩
    · exact ⟨1, by rw [abs_of_pos h]; ring, by norm_num⟩
  have hA : |R| ≠ 0 := abs_ne_zero.mpr hR0
  set A := |R| with hAdef
  have hA2 : A ^ 2 = R ^ 2 := sq_abs R
  set k := (A - H) / L * σ with hk
  have hk' : (A - H) / L * R / A = k := by
    rw [hk]
    field_simp
    rw [mul_comm]
    nth_rewrite 1 [hσ]
    ring
  have hkL : k * L = (A - H) * σ := by rw [hk]; field_simp
  have mx : m.x = (q.x + p.x) / 2 + k * dy := by
    show (q.x + p.x) / 2 + (A - H) / L * R / A * dy = _
    rw [hk']
  have my : m.y = (q.y + p.y) / 2 - k * dx := by
    show (q.y + p.y) / 2 - (A - H) / L * R / A * dx = _
    rw [hk']
  have hk2 : k ^ 2 * (dx ^ 2 + dy ^ 2) = (A - H) ^ 2 := by
    rw [← g1']
    calc k ^ 2 * L ^ 2 = (k * L) ^ 2 := by ring
      _ = ((A - H) * σ) ^ 2 := by rw [hkL]
      _ = (A - H) ^ 2 * σ ^ 2 := by ring
      _ = _ := by rw [hσ2, mul_one]
  have hq : q.x = p.x + dx ∧ q.y = p.y + dy := ⟨by rw [hdx]; ring, by rw [hdy]; ring⟩
  refine ⟨?_, ?_, ?_, ?_, ?_, ?_⟩
  · rw [mx, my, hq.1, hq.2]
    ring
  · show (q.z + p.z) / 2 = _
    ring
  · -- the centre is on the other side of the chord
    set j := H / L * σ with hj
    have hj2 : j ^ 2 * (dx ^ 2 + dy ^ 2) = H ^ 2 := by
      rw [← g1', hj]
      calc (H / L * σ) ^ 2 * L ^ 2 = H ^ 2 * σ ^ 2 * (L ^ 2 / L ^ 2) := by ring
        _ = H ^ 2 := by rw [hσ2, div_self (pow_ne_zero 2 hL0)]; ring
    have hjk2 : (j + k) ^ 2 * (dx ^ 2 + dy ^ 2) = A ^ 2 := by
      rw [← g1', hj, hk]
      calc (H / L * σ + (A - H) / L * σ) ^ 2 * L ^ 2 = A ^ 2 * σ ^ 2 * (L ^ 2 / L ^ 2) := by ring
        _ = A ^ 2 := by rw [hσ2, div_self (pow_ne_zero 2 hL0)]; ring
    refine ⟨(q.x + p.x) / 2 - j * dy, (q.y + p.y) / 2 + j * dx, ?_, ?_, ?_⟩
    · rw [hq.1, hq.2]
      linear_combination hj2 + g2'
    · rw [hq.1, hq.2]
      linear_combination hj2 + g2'
    · rw [mx, my]
      linear_combination hjk2 + hA2
  · rw [mx, my]
    have : ((q.x + p.x) / 2 + k * dy - (p.x + q.x) / 2) ^ 2 + ((q.y + p.y) / 2 - k * dx - (p.y + q.y) / 2) ^ 2 = (A - H) ^ 2 := by
      linear_combination hk2
    rw [this, ← hA2]
    nlinarith
  · intro hpos
    have hσ1 : σ = 1 := by
      have : A = R := abs_of_pos hpos
      rw [this] at hσ
      exact (mul_right_cancel₀ hR0 (by rw [one_mul]; exact hσ)).symm
    have hk0 : 0 ≤ k := by
      rw [hk, hσ1, mul_one]
      exact div_nonneg (by linarith) g1
    rw [mx, my, hq.1, hq.2]
    have : dy * ((p.x + dx + p.x) / 2 + k * dy - p.x) - dx * ((p.y + dy + p.y) / 2 - k * dx - p.y) = k * (dx ^ 2 + dy ^ 2) := by ring
    rw [this]
    exact mul_nonneg hk0 hd.le
  · intro hneg
    have hσ1 : σ = -1 := by
      have : A = -R := abs_of_neg hneg
      rw [this] at hσ
      exact (mul_right_cancel₀ hR0 (by linear_combination -hσ)).symm
    have hk0 : k ≤ 0 := by
      rw [hk, hσ1]
      have : 0 ≤ (A - H) / L := div_nonneg (by linarith) g1
      linarith
    rw [mx, my, hq.1, hq.2]
    have : dy * ((p.x + dx + p.x) / 2 + k * dy - p.x) - dx * ((p.y + dy + p.y) / 2 - k * dx - p.y) = k * (dx ^ 2 + dy ^ 2) := by ring
    rw [this]
    exact mul_nonpos_of_nonpos_of_nonneg hk0 hd.le

/-- **C69**, arcs: the point is as far from one end of the edge as from the other, it lies on a circle of the given radius through
both ends, on the shorter arc, and for a positive radius to the right of the edge (outside of the element). -/
theorem C69_arc (el : Elem ℝ) (e : Nat) (h : HasEdge el e) (hc : el.ccurv e = ['C']) (p q : V3 ℝ) (hp : p = edgeFrom el e) (hq : q = edgeTo el e)
    (R : ℝ) (hR : R = el.curv e 0) (hd : (p.x, p.y) ≠ (q.x, q.y)) (hch : ((q.x - p.x) ^ 2 + (q.y - p.y) ^ 2) / 4 ≤ R ^ 2) :
    ∃ m el', edgeMid Real.sqrt el e = .ok (m, el') ∧ (m.x - p.x) ^ 2 + (m.y - p.y) ^ 2 = (m.x - q.x) ^ 2 + (m.y - q.y) ^ 2 ∧
      m.z = (p.z + q.z) / 2 ∧
      (∃ cx cy, (cx - p.x) ^ 2 + (cy - p.y) ^ 2 = R ^ 2 ∧ (cx - q.x) ^ 2 + (cy - q.y) ^ 2 = R ^ 2 ∧ (cx - m.x) ^ 2 + (cy - m.y) ^ 2 = R ^ 2) ∧
      (m.x - (p.x + q.x) / 2) ^ 2 + (m.y - (p.y + q.y) / 2) ^ 2 ≤ R ^ 2 ∧
      (0 < R → 0 ≤ (q.y - p.y) * (m.x - p.x) - (q.x - p.x) * (m.y - p.y)) ∧
      (R < 0 → (q.y - p.y) * (m.x - p.x) - (q.x - p.x) * (m.y - p.y) ≤ 0) := by
  have hd' : 0 < (q.x - p.x) ^ 2 + (q.y - p.y) ^ 2 := by
    by_contra h0
    apply hd
    have h1 : q.x - p.x = 0 := by nlinarith [sq_nonneg (q.x - p.x), sq_nonneg (q.y - p.y)]
    have h2 : q.y - p.y = 0 := by nlinarith [sq_nonneg (q.x - p.x), sq_nonneg (q.y - p.y)]
    rw [sub_eq_zero.mp h1, sub_eq_zero.mp h2]
  have := arcMid_spec Real.sqrt R p q hd' hch (isRoot_sqrt _ hd'.le) (isRoot_sqrt _ (by linarith))
  refine ⟨arcMid Real.sqrt R p q, el.setCpt e (arcMid Real.sqrt R p q), ?_, this⟩
  rw [edgeMid_eq _ el e h, if_neg (by rw [hc]; decide), if_neg (by rw [hc]; decide), if_pos hc, hp, hq, hR]

namespace Samples

/-- Square roots of squares of fractions. -/
def rootQ (q : ℚ) : ℚ := (Nat.sqrt q.num.natAbs : ℚ) / (Nat.sqrt q.den : ℚ)

/-- The rectangle between (0, 0) and (6, 2), whose lower side is an arc. -/
def arcElem {F : Type} [Field F] : Elem F :=
  { (Elem.new 0 0 0 2 2 1 1 : Elem F) with
    pos := ⟨3, 1, 2, 2, fun d _ j i => if d = 0 then 6 * (i : F) else if d = 1 then 2 * (j : F) else 0⟩
    ccurv := fun e => if e = 0 then ['C'] else if e = 2 then ['m'] else []
    curv := fun e q => if e = 0 then (if q = 0 then 5 else 0) else if e = 2 then (if q = 0 then 3 else if q = 1 then 7 else 0) else 0 }

example : HasEdge (arcElem : Elem ℚ) 0 ∧ HasEdge (arcElem : Elem ℚ) 3 := by unfold HasEdge; decide

/-- The four edges: the arc has its middle one below the chord. -/
example : (edgeMid rootQ arcElem 0).toOption.map Prod.fst = some ⟨3, -1, 0⟩ ∧ (edgeMid rootQ arcElem 1).toOption.map Prod.fst = some ⟨6, 1, 0⟩ ∧
    (edgeMid rootQ arcElem 2).toOption.map Prod.fst = some ⟨3, 7, 0⟩ ∧ (edgeMid rootQ arcElem 3).toOption.map Prod.fst = some ⟨0, 1, 0⟩ := by
  decide +kernel

example : ∃ m el', edgeMid Real.sqrt arcElem 0 = .ok (m, el') ∧ (m.x - 0) ^ 2 + (m.y - 0) ^ 2 = (m.x - 6) ^ 2 + (m.y - 0) ^ 2 := by
  obtain ⟨m, el', h1, h2, -⟩ := C69_arc arcElem 0 (by unfold HasEdge; decide) (by decide) ⟨0, 0, 0⟩ ⟨6, 0, 0⟩
    (by simp [edgeFrom, point, edgeVertex, arcElem]) (by simp [edgeTo, point, edgeVertex, arcElem]) 5 (by simp [arcElem]) (by simp) (by norm_num)
  exact ⟨m, el', h1, h2⟩

end Samples

/-! ### C70 -/

/-- **C70**, the part that holds: on an edge that is not an arc `edge_mid` leaves the element as it is. Missing: arcs, and
`edge_circle`, see `C70_false`, `C70_arc` and `C70_circle`. -/
theorem C70_partial {F : Type} [Field F] [LinearOrder F] (rt : F → F) (el el' : Elem F) (e : Nat) (m : V3 F) (hc : el.ccurv e ≠ ['C'])
    (h : edgeMid rt el e = .ok (m, el')) : el' = el := by
  unfold edgeMid at h
  split at h
  · exact absurd h (by simp)
  split at h
  · exact (congrArg Prod.snd (Except.ok.inj h)).symm
  cases h1 : el.ptAt (edgeEnds e).1 with
  | error => rw [h1] at h; exact absurd h (by simp [bind, Except.bind])
  | ok p1 =>
  cases h2 : el.ptAt (edgeEnds e).2 with
  | error => rw [h1, h2] at h; exact absurd h (by simp [bind, Except.bind])
  | ok p2 =>
  rw [h1, h2] at h
  simp only [bind, Except.bind] at h
  split at h
  · exact (congrArg Prod.snd (Except.ok.inj h)).symm
  split at h
  · exact (congrArg Prod.snd (Except.ok.inj h)).symm
  · exact (congrArg Prod.snd (Except.ok.inj h)).symm

example : (Samples.arcElem : Elem ℚ).ccurv 1 ≠ ['C'] := by decide

/-- **C70** is false in the code: on an arc `edge_mid` overwrites the radius with the abscissa of the midpoint and the next
parameter with its ordinate. -/
theorem C70_arc {F : Type} [Field F] [LinearOrder F] (rt : F → F) (el : Elem F) (e : Nat) (h : HasEdge el e) (hc : el.ccurv e = ['C']) :
    ∃ m el', edgeMid rt el e = .ok (m, el') ∧ el'.curv e 0 = m.x ∧ el'.curv e 1 = m.y ∧ (m.x ≠ el.curv e 0 → el' ≠ el) := by
  refine ⟨arcMid rt (el.curv e 0) (edgeFrom el e) (edgeTo el e), el.setCpt e (arcMid rt (el.curv e 0) (edgeFrom el e) (edgeTo el e)), ?_, ?_⟩
  · rw [edgeMid_eq _ el e h, if_neg (by rw [hc]; decide), if_neg (by rw [hc]; decide), if_pos hc]
  · have e0 : ∀ m : V3 F, (el.setCpt e m).curv e 0 = m.x := fun m => by simp [Elem.setCpt]
    have e1 : ∀ m : V3 F, (el.setCpt e m).curv e 1 = m.y := fun m => by simp [Elem.setCpt]
    refine ⟨e0 _, e1 _, fun hne heq => hne ?_⟩
    rw [← e0 (arcMid rt (el.curv e 0) (edgeFrom el e) (edgeTo el e)), heq]

/-- Two calls in a row do not agree. -/
theorem C70_false : ∃ (el el' el'' : Elem ℚ) (m m' : V3 ℚ), HasEdge el 0 ∧ edgeMid Samples.rootQ el 0 = .ok (m, el') ∧
    edgeMid Samples.rootQ el' 0 = .ok (m', el'') ∧ el'.curv 0 0 ≠ el.curv 0 0 ∧ m' ≠ m := by
  have h : HasEdge (Samples.arcElem : Elem ℚ) 0 := by unfold HasEdge; decide
  obtain ⟨m, el', h1, -⟩ := C70_arc Samples.rootQ Samples.arcElem 0 h (by decide)
  have e1 : m = ⟨3, -1, 0⟩ ∧ el'.curv 0 0 ≠ (Samples.arcElem : Elem ℚ).curv 0 0 ∧
      ((edgeMid Samples.rootQ el' 0).toOption.map fun t => t.1.y) = some (-3) := by
    have e2 : (match edgeMid Samples.rootQ Samples.arcElem 0 with
      | .ok (m, el') => decide (m = ⟨3, -1, 0⟩ ∧ el'.curv 0 0 ≠ (Samples.arcElem : Elem ℚ).curv 0 0 ∧
          ((edgeMid Samples.rootQ el' 0).toOption.map fun t => t.1.y) = some (-3))
      | .error _ => false) = true := by decide +kernel
    rw [h1] at e2
    exact of_decide_eq_true e2
  obtain ⟨e1, e2, e3⟩ := e1
  cases h2 : edgeMid Samples.rootQ el' 0 with
  | error => rw [h2] at e3; exact absurd e3 (by simp [Except.toOption])
  | ok t =>
    rw [h2] at e3
    refine ⟨_, el', t.2, m, t.1, h, h1, h2, e2, ?_⟩
    intro heq
    have : t.1.y = -3 := Option.some.inj e3
    rw [heq, e1] at this
    exact absurd this (by decide)

theorem edgeCircle_eq {F : Type} [Field F] [LinearOrder F] (rt : F → F) (el : Elem F) (e : Nat) (h : HasEdge el e) (m : V3 F) :
    edgeCircle rt el e m = .ok (circle3 rt (edgeFrom el e) m (edgeTo el e),
      el.setCircle e (circle3 rt (edgeFrom el e) m (edgeTo el e)).1 (circle3 rt (edgeFrom el e) m (edgeTo el e)).2) := by
  obtain ⟨h1, h2⟩ := ptAt_ends el e h
  unfold edgeCircle
  rw [if_neg (by have := h.1; omega), h1, h2]
  rfl

/-- **C70** is false for `edge_circle`: it overwrites four curvature parameters of the edge. -/
theorem C70_circle {F : Type} [Field F] [LinearOrder F] (rt : F → F) (el : Elem F) (e : Nat) (h : HasEdge el e) (m : V3 F) :
    ∃ r c el', edgeCircle rt el e m = .ok ((r, c), el') ∧ el'.curv e 0 = r ∧ el'.curv e 1 = c.x ∧ el'.curv e 2 = c.y ∧ el'.curv e 3 = c.z ∧
      (r ≠ el.curv e 0 → el' ≠ el) := by
  set t := circle3 rt (edgeFrom el e) m (edgeTo el e) with ht
  have e0 : (el.setCircle e t.1 t.2).curv e 0 = t.1 := by simp [Elem.setCircle]
  refine ⟨t.1, t.2, el.setCircle e t.1 t.2, edgeCircle_eq rt el e h m, e0, by simp [Elem.setCircle], by simp [Elem.setCircle],
    by simp [Elem.setCircle], fun hne heq => hne ?_⟩
  rw [← e0, heq]

/-! ### C71 -/

namespace Spec

/-- Square of the length of a vector. -/
def lenSq {F : Type} [Field F] (p q : V3 F) : F := (q.x - p.x) ^ 2 + (q.y - p.y) ^ 2 + (q.z - p.z) ^ 2

/-- Square of the area of the triangle `p m q`: a quarter of the squared cross product of two sides. -/
def triSq {F : Type} [Field F] (p m q : V3 F) : F :=
  (((m.y - p.y) * (q.z - m.z) - (m.z - p.z) * (q.y - m.y)) ^ 2 + ((m.z - p.z) * (q.x - m.x) - (m.x - p.x) * (q.z - m.z)) ^ 2 +
    ((m.x - p.x) * (q.y - m.y) - (m.y - p.y) * (q.x - m.x)) ^ 2) / 4

end Spec

/-- The formula of Heron. -/
theorem heron {F : Type} [Field F] [CharZero F] (p m q : V3 F) (d1 d2 d3 : F) (h1 : d1 ^ 2 = lenSq p m) (h2 : d2 ^ 2 = lenSq m q) (h3 : d3 ^ 2 = lenSq q p) :
    (d1 + d2 + d3) / 2 * ((d1 + d2 + d3) / 2 - d1) * ((d1 + d2 + d3) / 2 - d2) * ((d1 + d2 + d3) / 2 - d3) = triSq p m q := by
  have e : (d1 + d2 + d3) / 2 * ((d1 + d2 + d3) / 2 - d1) * ((d1 + d2 + d3) / 2 - d2) * ((d1 + d2 + d3) / 2 - d3) =
      (2 * d1 ^ 2 * d2 ^ 2 + 2 * d2 ^ 2 * d3 ^ 2 + 2 * d3 ^ 2 * d1 ^ 2 - (d1 ^ 2) ^ 2 - (d2 ^ 2) ^ 2 - (d3 ^ 2) ^ 2) / 16 := by ring
  rw [e, h1, h2, h3]
  unfold lenSq triSq
  ring

/-- The identity behind the barycentric coordinates of the circumcentre. -/
theorem circumcentre {F : Type} [Field F] [CharZero F] (p m q : V3 F) (S : F) (hS : S = triSq p m q) (h0 : S ≠ 0) :
    let A := lenSq p m
    let B := lenSq m q
    let C := lenSq q p
    let c : V3 F := ⟨(B * (A + C - B) / 2 * p.x + C * (B + A - C) / 2 * m.x + A * (C + B - A) / 2 * q.x) / (8 * S),
      (B * (A + C - B) / 2 * p.y + C * (B + A - C) / 2 * m.y + A * (C + B - A) / 2 * q.y) / (8 * S),
      (B * (A + C - B) / 2 * p.z + C * (B + A - C) / 2 * m.z + A * (C + B - A) / 2 * q.z) / (8 * S)⟩
    lenSq c p = A * B * C / (16 * S) ∧ lenSq c m = A * B * C / (16 * S) ∧ lenSq c q = A * B * C / (16 * S) := by
  intro A B C c
  have hK : 16 * S = 2 * A * B + 2 * B * C + 2 * C * A - A ^ 2 - B ^ 2 - C ^ 2 := by
    rw [hS]
    simp only [A, B, C]
    unfold lenSq triSq
    ring
  set a1 := B * (A + C - B) / 2 with ha1
  set a2 := C * (B + A - C) / 2 with ha2
  set a3 := A * (C + B - A) / 2 with ha3
  have hsum : a1 + a2 + a3 = 8 * S := by
    rw [ha1, ha2, ha3]
    linear_combination -hK / 2
  have h8 : (8 * S) ≠ 0 := mul_ne_zero (by norm_num) h0
  have h16 : (16 * S) ≠ 0 := mul_ne_zero (by norm_num) h0
  -- distance from a point with weights
  have key : ∀ r : V3 F, lenSq c r * (8 * S) ^ 2 =
      (a1 * (p.x - r.x) + a2 * (m.x - r.x) + a3 * (q.x - r.x)) ^ 2 + (a1 * (p.y - r.y) + a2 * (m.y - r.y) + a3 * (q.y - r.y)) ^ 2 +
        (a1 * (p.z - r.z) + a2 * (m.z - r.z) + a3 * (q.z - r.z)) ^ 2 := by
    intro r
    have hx : c.x * (8 * S) = a1 * p.x + a2 * m.x + a3 * q.x := div_mul_cancel₀ _ h8
    have hy : c.y * (8 * S) = a1 * p.y + a2 * m.y + a3 * q.y := div_mul_cancel₀ _ h8
    have hz : c.z * (8 * S) = a1 * p.z + a2 * m.z + a3 * q.z := div_mul_cancel₀ _ h8
    have e1 : (r.x - c.x) * (8 * S) = -(a1 * (p.x - r.x) + a2 * (m.x - r.x) + a3 * (q.x - r.x)) := by
      linear_combination -hx - r.x * hsum
    have e2 : (r.y - c.y) * (8 * S) = -(a1 * (p.y - r.y) + a2 * (m.y - r.y) + a3 * (q.y - r.y)) := by
      linear_combination -hy - r.y * hsum
    have e3 : (r.z - c.z) * (8 * S) = -(a1 * (p.z - r.z) + a2 * (m.z - r.z) + a3 * (q.z - r.z)) := by
      linear_combination -hz - r.z * hsum
    unfold lenSq
    calc ((r.x - c.x) ^ 2 + (r.y - c.y) ^ 2 + (r.z - c.z) ^ 2) * (8 * S) ^ 2 =
        ((r.x - c.x) * (8 * S)) ^ 2 + ((r.y - c.y) * (8 * S)) ^ 2 + ((r.z - c.z) * (8 * S)) ^ 2 := by ring
      _ = _ := by rw [e1, e2, e3]; ring
  have fin : ∀ r : V3 F, lenSq c r * (8 * S) ^ 2 = A * B * C * (16 * S) / 4 → lenSq c r = A * B * C / (16 * S) := by
    intro r hr
    rw [eq_div_iff h16]
    have : (16 * S) * (lenSq c r * (16 * S) - A * B * C) = 0 := by linear_combination 4 * hr
    rcases mul_eq_zero.mp this with h | h
    · exact absurd h h16
    · exact sub_eq_zero.mp h
  have dots : ∀ u v w : V3 F, (v.x - u.x) * (w.x - u.x) + (v.y - u.y) * (w.y - u.y) + (v.z - u.z) * (w.z - u.z) =
      (lenSq u v + lenSq u w - lenSq v w) / 2 := by
    intro u v w
    unfold lenSq
    ring
  have sym : ∀ u v : V3 F, lenSq u v = lenSq v u := by
    intro u v
    unfold lenSq
    ring
  have nrm : ∀ u v : V3 F, (v.x - u.x) ^ 2 + (v.y - u.y) ^ 2 + (v.z - u.z) ^ 2 = lenSq u v := fun _ _ => rfl
  refine ⟨fin p ?_, fin m ?_, fin q ?_⟩
  · rw [key p]
    have d := dots p m q
    rw [sym p q] at d
    have n1 := nrm p m
    have n2 := nrm p q
    rw [sym p q] at n2
    change _ = (A + C - B) / 2 at d
    change _ = A at n1
    change _ = C at n2
    have : (a1 * (p.x - p.x) + a2 * (m.x - p.x) + a3 * (q.x - p.x)) ^ 2 + (a1 * (p.y - p.y) + a2 * (m.y - p.y) + a3 * (q.y - p.y)) ^ 2 +
        (a1 * (p.z - p.z) + a2 * (m.z - p.z) + a3 * (q.z - p.z)) ^ 2 = a2 ^ 2 * A + 2 * a2 * a3 * ((A + C - B) / 2) + a3 ^ 2 * C := by
      linear_combination a2 ^ 2 * n1 + a3 ^ 2 * n2 + 2 * a2 * a3 * d
    rw [this, hK, ha2, ha3]
    ring
  · rw [key m]
    have d := dots m p q
    rw [sym m p, sym p q] at d
    have n1 := nrm m p
    have n2 := nrm m q
    rw [sym m p] at n1
    change _ = (A + B - C) / 2 at d
    change _ = A at n1
    change _ = B at n2
    have : (a1 * (p.x - m.x) + a2 * (m.x - m.x) + a3 * (q.x - m.x)) ^ 2 + (a1 * (p.y - m.y) + a2 * (m.y - m.y) + a3 * (q.y - m.y)) ^ 2 +
        (a1 * (p.z - m.z) + a2 * (m.z - m.z) + a3 * (q.z - m.z)) ^ 2 = a1 ^ 2 * A + 2 * a1 * a3 * ((A + B - C) / 2) + a3 ^ 2 * B := by
      linear_combination a1 ^ 2 * n1 + a3 ^ 2 * n2 + 2 * a1 * a3 * d
    rw [this, hK, ha1, ha3]
    ring
  · rw [key q]
    have d := dots q p m
    rw [sym q m] at d
    have n1 := nrm q p
    have n2 := nrm q m
    rw [sym q m] at n2
    change _ = (C + B - A) / 2 at d
    change _ = C at n1
    change _ = B at n2
    have : (a1 * (p.x - q.x) + a2 * (m.x - q.x) + a3 * (q.x - q.x)) ^ 2 + (a1 * (p.y - q.y) + a2 * (m.y - q.y) + a3 * (q.y - q.y)) ^ 2 +
        (a1 * (p.z - q.z) + a2 * (m.z - q.z) + a3 * (q.z - q.z)) ^ 2 = a1 ^ 2 * C + 2 * a1 * a2 * ((C + B - A) / 2) + a2 ^ 2 * B := by
      linear_combination a1 ^ 2 * n1 + a2 ^ 2 * n2 + 2 * a1 * a2 * d
    rw [this, hK, ha1, ha2]
    ring

theorem lenSq_nonneg (p q : V3 ℝ) : 0 ≤ lenSq p q := by unfold lenSq; positivity

theorem triSq_nonneg (p m q : V3 ℝ) : 0 ≤ triSq p m q := by unfold triSq; positivity

/-- The test for flatness in terms of squares. -/
theorem flat_iff (p m q : V3 ℝ) : Real.sqrt (triSq p m q) > 1 / 10000 * Real.sqrt (lenSq p m) * Real.sqrt (lenSq m q) ↔
    1 / 10 ^ 8 * (lenSq p m * lenSq m q) < triSq p m q := by
  have e : 1 / 10000 * Real.sqrt (lenSq p m) * Real.sqrt (lenSq m q) = Real.sqrt (1 / 10 ^ 8 * (lenSq p m * lenSq m q)) := by
    rw [Real.sqrt_mul (by norm_num), Real.sqrt_mul (lenSq_nonneg p m), show (1 : ℝ) / 10 ^ 8 = (1 / 10000) ^ 2 by norm_num,
      Real.sqrt_sq (by norm_num)]
    ring
  rw [e, gt_iff_lt, Real.sqrt_lt_sqrt_iff (by have := mul_nonneg (lenSq_nonneg p m) (lenSq_nonneg m q); positivity)]

/-- The circle in terms of squares. -/
theorem circle3_eq (p m q : V3 ℝ) :
    circle3 Real.sqrt p m q =
      if 1 / 10 ^ 8 * (lenSq p m * lenSq m q) < triSq p m q then
        let A := lenSq p m
        let B := lenSq m q
        let C := lenSq q p
        let S := triSq p m q
        let c : V3 ℝ := ⟨(B * (A + C - B) / 2 * p.x + C * (B + A - C) / 2 * m.x + A * (C + B - A) / 2 * q.x) / (8 * S),
          (B * (A + C - B) / 2 * p.y + C * (B + A - C) / 2 * m.y + A * (C + B - A) / 2 * q.y) / (8 * S),
          (B * (A + C - B) / 2 * p.z + C * (B + A - C) / 2 * m.z + A * (C + B - A) / 2 * q.z) / (8 * S)⟩
        let r := Real.sqrt A * Real.sqrt B * Real.sqrt C / (4 * Real.sqrt S)
        if (m.x - p.x) * (q.y - m.y) - (m.y - p.y) * (q.x - m.x) < 0 then (-r, c) else (r, c)
      else (0, ⟨0, 0, 0⟩) := by
  have h1 := Real.sq_sqrt (lenSq_nonneg p m)
  have h2 := Real.sq_sqrt (lenSq_nonneg m q)
  have h3 := Real.sq_sqrt (lenSq_nonneg q p)
  have h4 := Real.sq_sqrt (triSq_nonneg p m q)
  have hh := heron p m q _ _ _ h1 h2 h3
  have ho : ((m.x - p.x - (p.x - q.x)) * (q.y - m.y - (m.y - p.y)) - (m.x - p.x - (q.x - m.x)) * (p.y - q.y - (m.y - p.y)) < 0) ↔
      ((m.x - p.x) * (q.y - m.y) - (m.y - p.y) * (q.x - m.x) < 0) := by
    constructor <;> intro h <;> nlinarith
  have l1 : (m.x - p.x) ^ 2 + (m.y - p.y) ^ 2 + (m.z - p.z) ^ 2 = lenSq p m := rfl
  have l2 : (q.x - m.x) ^ 2 + (q.y - m.y) ^ 2 + (q.z - m.z) ^ 2 = lenSq m q := rfl
  have l3 : (p.x - q.x) ^ 2 + (p.y - q.y) ^ 2 + (p.z - q.z) ^ 2 = lenSq q p := rfl
  unfold circle3
  simp only [l1, l2, l3, hh, h1, h2, h3, h4, flat_iff, ho]

/-- **C71**: if the triangle is not too flat, the point returned by `edge_circle` is at the distance of the returned radius from
the two ends and the midpoint, and the radius is negative if and only if the three points are in clockwise order. -/
theorem C71 (el : Elem ℝ) (e : Nat) (h : HasEdge el e) (m p q : V3 ℝ) (hp : p = edgeFrom el e) (hq : q = edgeTo el e)
    (hflat : 1 / 10 ^ 8 * (lenSq p m * lenSq m q) < triSq p m q) :
    ∃ r c el', edgeCircle Real.sqrt el e m = .ok ((r, c), el') ∧ r ≠ 0 ∧ lenSq c p = r ^ 2 ∧ lenSq c m = r ^ 2 ∧ lenSq c q = r ^ 2 ∧
      (r < 0 ↔ (m.x - p.x) * (q.y - m.y) - (m.y - p.y) * (q.x - m.x) < 0) := by
  have hAB : 0 ≤ lenSq p m * lenSq m q := mul_nonneg (lenSq_nonneg p m) (lenSq_nonneg m q)
  have hS : 0 < triSq p m q := lt_of_le_of_lt (by positivity) hflat
  obtain ⟨c1, c2, c3⟩ := circumcentre p m q (triSq p m q) rfl hS.ne'
  have heq := edgeCircle_eq Real.sqrt el e h m
  rw [← hp, ← hq, circle3_eq, if_pos hflat] at heq
  simp only at heq
  -- none of the sides vanishes
  have pos : 0 < lenSq p m ∧ 0 < lenSq m q ∧ 0 < lenSq q p := by
    refine ⟨lt_of_le_of_ne (lenSq_nonneg _ _) ?_, lt_of_le_of_ne (lenSq_nonneg _ _) ?_, lt_of_le_of_ne (lenSq_nonneg _ _) ?_⟩ <;>
    · intro h0
      apply hS.ne'
      unfold lenSq at h0
      have hx := sq_nonneg (m.x - p.x)
      first
        | (have a1 : m.x - p.x = 0 := by nlinarith [sq_nonneg (m.x - p.x), sq_nonneg (m.y - p.y), sq_nonneg (m.z - p.z)]
           have a2 : m.y - p.y = 0 := by nlinarith [sq_nonneg (m.x - p.x), sq_nonneg (m.y - p.y), sq_nonneg (m.z - p.z)]
           have a3 : m.z - p.z = 0 := by nlinarith [sq_nonneg (m.x - p.x), sq_nonneg (m.y - p.y), sq_nonneg (m.z - p.z)]
           unfold triSq
           rw [a1, a2, a3]
           ring)
        | (have a1 : q.x - m.x = 0 := by nlinarith [sq_nonneg (q.x - m.x), sq_nonneg (q.y - m.y), sq_nonneg (q.z - m.z)]
           have a2 : q.y - m.y = 0 := by nlinarith [sq_nonneg (q.x - m.x), sq_nonneg (q.y - m.y), sq_nonneg (q.z - m.z)]
           have a3 : q.z - m.z = 0 := by nlinarith [sq_nonneg (q.x - m.x), sq_nonneg (q.y - m.y), sq_nonneg (q.z - m.z)]
           unfold triSq
           rw [a1, a2, a3]
           ring)
        | (have a1 : p.x - q.x = 0 := by nlinarith [sq_nonneg (p.x - q.x), sq_nonneg (p.y - q.y), sq_nonneg (p.z - q.z)]
           have a2 : p.y - q.y = 0 := by nlinarith [sq_nonneg (p.x - q.x), sq_nonneg (p.y - q.y), sq_nonneg (p.z - q.z)]
           have a3 : p.z - q.z = 0 := by nlinarith [sq_nonneg (p.x - q.x), sq_nonneg (p.y - q.y), sq_nonneg (p.z - q.z)]
           unfold triSq
           rw [sub_eq_zero.mp a1, sub_eq_zero.mp a2, sub_eq_zero.mp a3]
           ring)
  obtain ⟨pA, pB, pC⟩ := pos
  set A := lenSq p m
  set B := lenSq m q
  set C := lenSq q p
  set S := triSq p m q
  have hr : 0 < Real.sqrt A * Real.sqrt B * Real.sqrt C / (4 * Real.sqrt S) := by
    have := Real.sqrt_pos.mpr pA
    have := Real.sqrt_pos.mpr pB
    have := Real.sqrt_pos.mpr pC
    have := Real.sqrt_pos.mpr hS
    positivity
  have hr2 : (Real.sqrt A * Real.sqrt B * Real.sqrt C / (4 * Real.sqrt S)) ^ 2 = A * B * C / (16 * S) := by
    rw [div_pow, mul_pow, mul_pow, mul_pow, Real.sq_sqrt pA.le, Real.sq_sqrt pB.le, Real.sq_sqrt pC.le, Real.sq_sqrt hS.le]
    norm_num
  by_cases hor : (m.x - p.x) * (q.y - m.y) - (m.y - p.y) * (q.x - m.x) < 0
  · rw [if_pos hor] at heq
    refine ⟨_, _, _, heq, ?_, ?_, ?_, ?_, ?_⟩
    · exact neg_ne_zero.mpr hr.ne'
    · rw [neg_sq, hr2]; exact c1
    · rw [neg_sq, hr2]; exact c2
    · rw [neg_sq, hr2]; exact c3
    · exact iff_of_true (neg_neg_of_pos hr) hor
  · rw [if_neg hor] at heq
    refine ⟨_, _, _, heq, hr.ne', ?_, ?_, ?_, ?_⟩
    · rw [hr2]; exact c1
    · rw [hr2]; exact c2
    · rw [hr2]; exact c3
    · exact iff_of_false (not_lt.mpr hr.le) hor

/-- The circle through (0, 0), (3, -1) and (6, 0) has radius 5, and a point on the edge gives none. -/
example : ∃ r c el', edgeCircle Real.sqrt Samples.arcElem 0 ⟨3, -1, 0⟩ = .ok ((r, c), el') ∧ lenSq c ⟨0, 0, 0⟩ = r ^ 2 ∧ lenSq c ⟨6, 0, 0⟩ = r ^ 2 ∧ ¬ r < 0 := by
  obtain ⟨r, c, el', h1, -, h2, -, h3, h4⟩ := C71 Samples.arcElem 0 (by unfold HasEdge; decide) ⟨3, -1, 0⟩ ⟨0, 0, 0⟩ ⟨6, 0, 0⟩
    (by simp [edgeFrom, point, edgeVertex, Samples.arcElem]) (by simp [edgeTo, point, edgeVertex, Samples.arcElem])
    (by unfold lenSq triSq; norm_num)
  refine ⟨r, c, el', h1, h2, h3, fun h => ?_⟩
  have := h4.mp h
  norm_num at this

example : circle3 Samples.rootQ ⟨0, 0, 0⟩ ⟨5, 12, 0⟩ ⟨14, 0, 0⟩ = (-65 / 8, ⟨7, 33 / 8, 0⟩) := by decide +kernel

/-- **C71**, flat triangles: radius 0. -/
theorem C71_flat (el : Elem ℝ) (e : Nat) (h : HasEdge el e) (m p q : V3 ℝ) (hp : p = edgeFrom el e) (hq : q = edgeTo el e)
    (hflat : triSq p m q ≤ 1 / 10 ^ 8 * (lenSq p m * lenSq m q)) :
    ∃ el', edgeCircle Real.sqrt el e m = .ok ((0, ⟨0, 0, 0⟩), el') := by
  have := edgeCircle_eq Real.sqrt el e h m
  rw [← hp, ← hq, circle3_eq, if_neg (not_lt.mpr hflat)] at this
  exact ⟨_, this⟩

end Pymech
