import Verif.Props.Edge

/-!
# Edges on spheres: C97

Nek5000 stores for a side of type `s` the centre of the sphere and its radius, as parameters 1 to 4 (`CURVE(1,..)` to `CURVE(4,..)`
in its `genxyz.f`). `edge_mid` takes the radius from the fifth.
-/

set_option autoImplicit false

namespace Pymech

namespace Spec

/-- Square of the distance of two points. -/
def squared (a b : V3 ℝ) : ℝ := (a.x - b.x) ^ 2 + (a.y - b.y) ^ 2 + (a.z - b.z) ^ 2

/-- `m` is the middle of the shorter great circle arc between `p` and `q` on the sphere with centre `c` and radius `R`: it is on the
sphere, in the direction of the middle of the chord. -/
def SphereMid (c : V3 ℝ) (R : ℝ) (p q m : V3 ℝ) : Prop :=
  squared m c = R ^ 2 ∧ squared m p = squared m q ∧
    ∃ t > 0, m.x - c.x = t * ((p.x + q.x) / 2 - c.x) ∧ m.y - c.y = t * ((p.y + q.y) / 2 - c.y) ∧ m.z - c.z = t * ((p.z + q.z) / 2 - c.z)

/-- An edge on a sphere, stored as Nek5000 does: centre and radius, both ends on the sphere and not opposite to each other. -/
structure OnSphere (el : Elem ℝ) (e : Nat) (c : V3 ℝ) (R : ℝ) (p q : V3 ℝ) : Prop where
  edge : HasEdge el e
  typ : el.ccurv e = ['s']
  stored : c = ⟨el.curv e 0, el.curv e 1, el.curv e 2⟩ ∧ R = el.curv e 3
  pos : 0 < R
  ends : p = edgeFrom el e ∧ q = edgeTo el e
  on : squared p c = R ^ 2 ∧ squared q c = R ^ 2
  notOpp : (⟨(p.x + q.x) / 2, (p.y + q.y) / 2, (p.z + q.z) / 2⟩ : V3 ℝ) ≠ c

end Spec

open Spec

theorem edgeMid_sphere (el : Elem ℝ) (e : Nat) (h : HasEdge el e) (hc : el.ccurv e = ['s']) :
    edgeMid Real.sqrt el e = .ok (sphereMid Real.sqrt (el.curv e 4) (el.cpt e) (edgeFrom el e) (edgeTo el e), el) := by
  rw [edgeMid_eq _ el e h, if_neg (by rw [hc]; decide), if_neg (by rw [hc]; decide), if_neg (by rw [hc]; decide), if_pos hc]

/-- The point returned by `edge_mid` for an edge on a sphere, whatever the ends are: it is the point in the direction of the middle of the
chord at the distance given by the fifth parameter. The element is not changed. -/
theorem C97_point (el : Elem ℝ) (e : Nat) (h : HasEdge el e) (hc : el.ccurv e = ['s']) (c p q : V3 ℝ)
    (hs : c = ⟨el.curv e 0, el.curv e 1, el.curv e 2⟩) (hp : p = edgeFrom el e) (hq : q = edgeTo el e)
    (hm : (⟨(p.x + q.x) / 2, (p.y + q.y) / 2, (p.z + q.z) / 2⟩ : V3 ℝ) ≠ c) :
    ∃ m, edgeMid Real.sqrt el e = .ok (m, el) ∧ squared m c = el.curv e 4 ^ 2 ∧
      ∃ n > 0, m.x - c.x = el.curv e 4 / n * ((p.x + q.x) / 2 - c.x) ∧ m.y - c.y = el.curv e 4 / n * ((p.y + q.y) / 2 - c.y) ∧
        m.z - c.z = el.curv e 4 / n * ((p.z + q.z) / 2 - c.z) := by
  refine ⟨_, edgeMid_sphere el e h hc, ?_⟩
  rw [← hp, ← hq, show el.cpt e = c from hs.symm]
  generalize el.curv e 4 = R
  set dx := (p.x + q.x) / 2 - c.x with hdx
  set dy := (p.y + q.y) / 2 - c.y with hdy
  set dz := (p.z + q.z) / 2 - c.z with hdz
  have hpos : 0 < dx ^ 2 + dy ^ 2 + dz ^ 2 := by
    by_contra h0
    apply hm
    have h1 : dx = 0 := by nlinarith [sq_nonneg dx, sq_nonneg dy, sq_nonneg dz]
    have h2 : dy = 0 := by nlinarith [sq_nonneg dx, sq_nonneg dy, sq_nonneg dz]
    have h3 : dz = 0 := by nlinarith [sq_nonneg dx, sq_nonneg dy, sq_nonneg dz]
    rw [sub_eq_zero.mp h1, sub_eq_zero.mp h2, sub_eq_zero.mp h3]
  obtain ⟨s1, s2⟩ := isRoot_sqrt _ hpos.le
  have hn : 0 < Real.sqrt (dx ^ 2 + dy ^ 2 + dz ^ 2) := Real.sqrt_pos.mpr hpos
  have e1 : (q.x + p.x) / 2 - c.x = dx := by rw [hdx]; ring
  have e2 : (q.y + p.y) / 2 - c.y = dy := by rw [hdy]; ring
  have e3 : (q.z + p.z) / 2 - c.z = dz := by rw [hdz]; ring
  unfold sphereMid squared
  simp only [e1, e2, e3]
  generalize Real.sqrt (dx ^ 2 + dy ^ 2 + dz ^ 2) = n at *
  refine ⟨?_, n, hn, by ring, by ring, by ring⟩
  have : (c.x + dx * R / n - c.x) ^ 2 + (c.y + dy * R / n - c.y) ^ 2 + (c.z + dz * R / n - c.z) ^ 2 = R ^ 2 * (dx ^ 2 + dy ^ 2 + dz ^ 2) / n ^ 2 := by ring
  rw [this, s2]
  field_simp

/-- **C97**, the part that holds: the middle of the arc is returned if the radius is stored in the fifth parameter, too. Missing: files
written for Nek5000, where it is in the fourth only, see `C97_false`. -/
theorem C97_partial (el : Elem ℝ) (e : Nat) (c : V3 ℝ) (R : ℝ) (p q : V3 ℝ) (h : OnSphere el e c R p q) (h4 : el.curv e 4 = R) :
    ∃ m, edgeMid Real.sqrt el e = .ok (m, el) ∧ SphereMid c R p q m := by
  obtain ⟨m, h1, h2, n, hn, hx, hy, hz⟩ := C97_point el e h.edge h.typ c p q h.stored.1 h.ends.1 h.ends.2 h.notOpp
  rw [h4] at h2 hx hy hz
  refine ⟨m, h1, h2, ?_, R / n, div_pos h.pos hn, hx, hy, hz⟩
  obtain ⟨o1, o2⟩ := h.on
  unfold squared at *
  generalize R / n = t at *
  have ex : m.x = c.x + t * ((p.x + q.x) / 2 - c.x) := by linarith
  have ey : m.y = c.y + t * ((p.y + q.y) / 2 - c.y) := by linarith
  have ez : m.z = c.z + t * ((p.z + q.z) / 2 - c.z) := by linarith
  have key : (m.x - c.x) * (p.x - q.x) + (m.y - c.y) * (p.y - q.y) + (m.z - c.z) * (p.z - q.z) = 0 := by
    rw [hx, hy, hz]
    linear_combination t / 2 * (o1 - o2)
  linear_combination o1 - o2 - 2 * key

/-- **C97** is false in the code: if the fifth parameter is zero, as in files that store centre and radius, the centre of the sphere is
returned, which is not on it. -/
theorem C97_false (el : Elem ℝ) (e : Nat) (c : V3 ℝ) (R : ℝ) (p q : V3 ℝ) (h : OnSphere el e c R p q) (h4 : el.curv e 4 = 0) :
    edgeMid Real.sqrt el e = .ok (c, el) ∧ ∀ m el', edgeMid Real.sqrt el e = .ok (m, el') → ¬ SphereMid c R p q m := by
  obtain ⟨m, h1, -, n, hn, hx, hy, hz⟩ := C97_point el e h.edge h.typ c p q h.stored.1 h.ends.1 h.ends.2 h.notOpp
  rw [h4, zero_div, zero_mul, sub_eq_zero] at hx hy hz
  have hmc : m = c := by
    obtain ⟨a, b, d⟩ := m
    obtain ⟨a', b', d'⟩ := c
    simp only at hx hy hz
    rw [hx, hy, hz]
  subst hmc
  refine ⟨h1, fun m' el' h' hs => ?_⟩
  rw [h1, Except.ok.injEq, Prod.mk.injEq] at h'
  rw [← h'.1] at hs
  have h0 := hs.1
  unfold squared at h0
  have := h.pos
  rw [sub_self, sub_self, sub_self] at h0
  nlinarith

namespace Samples

/-- A cube whose first edge, from (0, 4, 3) to (8, 4, 3), is an arc on the sphere with centre (4, 4, 0) and radius 5. -/
noncomputable def sphereElem (fifth : ℝ) : Elem ℝ :=
  { (Elem.new 0 0 0 2 2 2 1 : Elem ℝ) with
    pos := ⟨3, 2, 2, 2, fun d k j i => if d = 0 then 8 * (i : ℝ) else if d = 1 then 4 + (j : ℝ) else 3 + (k : ℝ)⟩
    ccurv := fun e => if e = 0 then ['s'] else []
    curv := fun e q => if e = 0 then (if q = 0 then 4 else if q = 1 then 4 else if q = 3 then 5 else if q = 4 then fifth else 0) else 0 }

theorem sphereElem_on (x : ℝ) : OnSphere (sphereElem x) 0 ⟨4, 4, 0⟩ 5 ⟨0, 4, 3⟩ ⟨8, 4, 3⟩ := by
  refine ⟨⟨by decide, by simp [sphereElem], by simp [sphereElem], by simp [sphereElem]⟩, by simp [sphereElem], by simp [sphereElem], by norm_num,
    by simp [edgeFrom, edgeTo, point, edgeVertex, sphereElem], by norm_num [squared], by norm_num⟩

end Samples

/-- With the radius as fifth parameter: (4, 4, 5), two above the middle of the chord. -/
example : ∃ m, edgeMid Real.sqrt (Samples.sphereElem 5) 0 = .ok (m, Samples.sphereElem 5) ∧ SphereMid ⟨4, 4, 0⟩ 5 ⟨0, 4, 3⟩ ⟨8, 4, 3⟩ m :=
  C97_partial _ 0 _ _ _ _ (Samples.sphereElem_on 5) (by simp [Samples.sphereElem])

example : SphereMid ⟨4, 4, 0⟩ 5 ⟨0, 4, 3⟩ ⟨8, 4, 3⟩ ⟨4, 4, 5⟩ :=
  ⟨by norm_num [squared], by norm_num [squared], 5 / 3, by norm_num, by norm_num, by norm_num, by norm_num⟩

/-- As stored for Nek5000. -/
example : edgeMid Real.sqrt (Samples.sphereElem 0) 0 = .ok (⟨4, 4, 0⟩, Samples.sphereElem 0) :=
  (C97_false _ 0 _ _ _ _ (Samples.sphereElem_on 0) (by simp [Samples.sphereElem])).1

end Pymech
