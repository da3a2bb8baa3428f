import Verif.Mesh.FloatEdge
import Verif.Props.Edge
import Verif.Props.FloatLibm

/-!
# C138: `edge_mid` in double precision
-/

set_option autoImplicit false

namespace Pymech

open Spec Flt

namespace Spec

/-- Equal bit by bit, or both zero (of any sign). -/
def SameNum (x y : F64) : Prop := x = y ∨ x.mag = 0 ∧ y.mag = 0

/-- Equal points, up to the signs of zeros. -/
def SamePoint (p q : V3 F64) : Prop := SameNum p.x q.x ∧ SameNum p.y q.y ∧ SameNum p.z q.z

/-- The square does not depend on the sign. -/
def EvenSq (L : Libm) : Prop := ∀ x : F64, L.sq x.flip = L.sq x

/-- `m` is a finite number between `a` and `b`. -/
def Between (a b m : F64) : Prop := m.Finite ∧ min a.val b.val ≤ m.val ∧ m.val ≤ max a.val b.val

/-- A finite number of at most half the largest power of two for which overflow is excluded in this model. -/
def Mild (a : F64) : Prop := a.Finite ∧ |a.val| ≤ 2 ^ 999

/-- Edge `e` of `a` and edge `f` of `b` are the same edge, in opposite directions, with the same shape: arcs have opposite radii, midpoints and
spheres the same parameters. -/
structure SharedEdge (a : Elem F64) (e : Nat) (b : Elem F64) (f : Nat) : Prop where
  from_to : edgeFrom a e = edgeTo b f
  to_from : edgeTo a e = edgeFrom b f
  shape : a.ccurv e = b.ccurv f
  arc : a.ccurv e = ['C'] → b.curv f 0 = (a.curv e 0).flip
  other : a.ccurv e ≠ ['C'] → ∀ i < 5, b.curv f i = a.curv e i

end Spec

namespace Flt

/-- `-x`, where NaN is not distinguished from its negative. -/
def opp (x : F64) : F64 := if x.IsNaN then nan else x.flip

theorem flip_flip (x : F64) : x.flip.flip = x := ext' (Bool.not_not x.neg) rfl

theorem flip_nan_iff (x : F64) : x.flip.IsNaN ↔ x.IsNaN := Iff.rfl

theorem ofQ_flip (z : Bool) (q : ℚ) : ofQ (!z) (-q) = (ofQ z q).flip := by
  unfold ofQ
  by_cases h : q = 0
  · subst h
    rw [if_pos neg_zero, if_pos rfl]
    rfl
  · rw [if_neg (neg_ne_zero.mpr h), if_neg h, abs_neg]
    have : decide (-q < 0) = !decide (q < 0) := by
      rcases lt_or_gt_of_ne h with h | h
      · simp [h, h.le]
      · simp [h, h.le]
    rw [this]
    rfl

theorem ofQ_not_nan (z : Bool) (q : ℚ) : ¬ (ofQ z q).IsNaN := by
  unfold IsNaN
  rw [ofQ_mag]
  exact not_lt.2 (roundMag_le 11 52 _)

theorem opp_nan : opp nan = nan := if_pos nan_isNaN

theorem opp_of {x : F64} (h : ¬ x.IsNaN) : opp x = x.flip := if_neg h

theorem opp_of_nan {x : F64} (h : x.IsNaN) : opp x = nan := if_pos h

theorem opp_opp {x : F64} (h : x.IsNaN → x = nan) : opp (opp x) = x := by
  by_cases hx : x.IsNaN
  · rw [opp_of_nan hx, opp_nan, h hx]
  · rw [opp_of hx, opp_of (show ¬ x.flip.IsNaN from hx), flip_flip]

theorem addF_comm (x y : F64) : x + y = y + x := by
  change add x y = add y x
  unfold add
  by_cases hx : x.IsNaN
  · rw [if_pos (Or.inl hx), if_pos (Or.inr hx)]
  by_cases hy : y.IsNaN
  · rw [if_pos (Or.inr hy), if_pos (Or.inl hy)]
  rw [if_neg (not_or.mpr ⟨hx, hy⟩), if_neg (not_or.mpr ⟨hy, hx⟩)]
  by_cases fx : x.Finite <;> by_cases fy : y.Finite
  · rw [if_pos fx, if_pos fy, if_pos fy, if_pos fx, Bool.and_comm, _root_.add_comm]
  · rw [if_pos fx, if_neg fy, if_neg fy, if_pos (Or.inl fx)]
  · rw [if_neg fx, if_pos (Or.inl fy), if_pos fy, if_neg fx]
  · rw [if_neg fx, if_neg fy]
    by_cases h : x.neg = y.neg
    · rw [if_pos (Or.inr h), if_pos (Or.inr h.symm)]
      refine ext' h ?_
      unfold IsNaN Finite at *
      omega
    · rw [if_neg (not_or.mpr ⟨fy, h⟩), if_neg (not_or.mpr ⟨fx, fun e => h e.symm⟩)]

theorem mulF_comm (x y : F64) : x * y = y * x := by
  change mul x y = mul y x
  unfold mul
  by_cases hx : x.IsNaN
  · rw [if_pos (Or.inl hx), if_pos (Or.inr hx)]
  by_cases hy : y.IsNaN
  · rw [if_pos (Or.inr hy), if_pos (Or.inl hy)]
  rw [if_neg (not_or.mpr ⟨hx, hy⟩), if_neg (not_or.mpr ⟨hy, hx⟩)]
  by_cases h : x.Finite ∧ y.Finite
  · rw [if_pos h, if_pos ⟨h.2, h.1⟩, Bool.xor_comm, _root_.mul_comm]
  · rw [if_neg h, if_neg (show ¬ (y.Finite ∧ x.Finite) from fun g => h ⟨g.2, g.1⟩)]
    by_cases h0 : x.mag = 0 ∨ y.mag = 0
    · rw [if_pos h0, if_pos h0.symm]
    · rw [if_neg h0, if_neg (show ¬ (y.mag = 0 ∨ x.mag = 0) from fun g => h0 g.symm)]
      exact ext' (Bool.xor_comm _ _) rfl

theorem inf_not_nan (z : Bool) : ¬ (⟨z, infMag 11 52, infMag_lt 11 52⟩ : F64).IsNaN := lt_irrefl _

theorem mul_nan_eq (x y : F64) (h : (x * y).IsNaN) : x * y = nan := by
  change (mul x y).IsNaN at h
  change mul x y = nan
  unfold mul at *
  by_cases h1 : x.IsNaN ∨ y.IsNaN
  · rw [if_pos h1]
  rw [if_neg h1] at *
  by_cases h2 : x.Finite ∧ y.Finite
  · rw [if_pos h2] at h
    exact absurd h (ofQ_not_nan _ _)
  rw [if_neg h2] at *
  by_cases h3 : x.mag = 0 ∨ y.mag = 0
  · rw [if_pos h3]
  · rw [if_neg h3] at h
    exact absurd h (inf_not_nan _)

theorem sub_nan_eq (x y : F64) (h : (x - y).IsNaN) : x - y = nan := by
  change (add x y.flip).IsNaN at h
  change add x y.flip = nan
  unfold add at *
  by_cases h1 : x.IsNaN ∨ y.flip.IsNaN
  · rw [if_pos h1]
  rw [if_neg h1] at *
  rw [not_or] at h1
  by_cases fx : x.Finite
  · rw [if_pos fx] at *
    by_cases fy : y.flip.Finite
    · rw [if_pos fy] at h
      exact absurd h (ofQ_not_nan _ _)
    · rw [if_neg fy] at h
      exact absurd h h1.2
  · rw [if_neg fx] at *
    by_cases h2 : y.flip.Finite ∨ x.neg = y.flip.neg
    · rw [if_pos h2] at h
      exact absurd h h1.1
    · rw [if_neg h2]

theorem mul_of_nan {x y : F64} (h : x.IsNaN ∨ y.IsNaN) : x * y = nan := by
  change mul x y = nan
  unfold mul
  rw [if_pos h]

theorem div_of_nan {x y : F64} (h : x.IsNaN ∨ y.IsNaN) : x / y = nan := by
  change div x y = nan
  unfold div
  rw [if_pos h]

theorem add_of_nan {x y : F64} (h : x.IsNaN ∨ y.IsNaN) : x + y = nan := by
  change add x y = nan
  unfold add
  rw [if_pos h]

theorem sub_of_nan {x y : F64} (h : x.IsNaN ∨ y.IsNaN) : x - y = nan := by
  change add x y.flip = nan
  unfold add
  rw [if_pos (show x.IsNaN ∨ y.flip.IsNaN from h)]

theorem nan_mul (x : F64) : nan * x = nan := mul_of_nan (Or.inl nan_isNaN)

theorem nan_div (x : F64) : nan / x = nan := div_of_nan (Or.inl nan_isNaN)

theorem sub_if {x y : F64} (hx : ¬ x.IsNaN) (hy : ¬ y.IsNaN) (h : ¬ (x.Finite ∧ y.Finite)) :
    x - y = if x.Finite then y.flip else if y.Finite ∨ x.neg = !y.neg then x else nan := by
  change add x y.flip = _
  unfold add
  rw [if_neg (show ¬ (x.IsNaN ∨ y.flip.IsNaN) from not_or.mpr ⟨hx, hy⟩)]
  by_cases fx : x.Finite
  · rw [if_pos fx, if_pos fx, if_neg (show ¬ y.flip.Finite from fun g => h ⟨fx, g⟩)]
  · rw [if_neg fx, if_neg fx]
    rfl

theorem mul_opp (x y : F64) : x * opp y = opp (x * y) := by
  by_cases hy : y.IsNaN
  · have : x * y = nan := mul_of_nan (Or.inr hy)
    rw [opp_of_nan hy, this, opp_nan, mulF_comm, nan_mul]
  rw [opp_of hy]
  by_cases hx : x.IsNaN
  · have h1 : x * y = nan := mul_of_nan (Or.inl hx)
    have h2 : x * y.flip = nan := mul_of_nan (Or.inl hx)
    rw [h1, h2, opp_nan]
  have hy' : ¬ y.flip.IsNaN := hy
  change mul x y.flip = opp (mul x y)
  unfold mul
  rw [if_neg (not_or.mpr ⟨hx, hy'⟩), if_neg (not_or.mpr ⟨hx, hy⟩)]
  have ex : (x.neg ^^ y.flip.neg) = !(x.neg ^^ y.neg) := Bool.xor_not _ _
  by_cases h2 : x.Finite ∧ y.Finite
  · rw [if_pos h2, if_pos (show x.Finite ∧ y.flip.Finite from h2), opp_of (ofQ_not_nan _ _), flip_val, ex, mul_neg, ofQ_flip]
  rw [if_neg h2, if_neg (show ¬ (x.Finite ∧ y.flip.Finite) from h2)]
  by_cases h3 : x.mag = 0 ∨ y.mag = 0
  · rw [if_pos h3, if_pos (show x.mag = 0 ∨ y.flip.mag = 0 from h3), opp_nan]
  · rw [if_neg h3, if_neg (show ¬ (x.mag = 0 ∨ y.flip.mag = 0) from h3), opp_of (inf_not_nan _)]
    exact ext' ex rfl

theorem opp_mul_opp (x y : F64) : opp x * opp y = x * y := by
  rw [mul_opp, mulF_comm, mul_opp, opp_opp, mulF_comm]
  rw [mulF_comm y x]
  exact mul_nan_eq x y

theorem opp_div (x y : F64) : opp x / y = opp (x / y) := by
  by_cases hx : x.IsNaN
  · have : x / y = nan := div_of_nan (Or.inl hx)
    rw [opp_of_nan hx, this, opp_nan, nan_div]
  rw [opp_of hx]
  by_cases hy : y.IsNaN
  · have h1 : x / y = nan := div_of_nan (Or.inr hy)
    have h2 : x.flip / y = nan := div_of_nan (Or.inr hy)
    rw [h1, h2, opp_nan]
  have hx' : ¬ x.flip.IsNaN := hx
  change div x.flip y = opp (div x y)
  unfold div
  rw [if_neg (not_or.mpr ⟨hx', hy⟩), if_neg (not_or.mpr ⟨hx, hy⟩)]
  have ex : (x.flip.neg ^^ y.neg) = !(x.neg ^^ y.neg) := Bool.not_xor _ _
  by_cases fx : x.Finite
  · rw [if_pos fx, if_pos (show x.flip.Finite from fx)]
    by_cases fy : y.Finite
    · rw [if_pos fy, if_pos fy]
      by_cases h0 : y.mag = 0
      · rw [if_pos h0, if_pos h0]
        by_cases h1 : x.mag = 0
        · rw [if_pos h1, if_pos (show x.flip.mag = 0 from h1), opp_nan]
        · rw [if_neg h1, if_neg (show ¬ x.flip.mag = 0 from h1), opp_of (inf_not_nan _)]
          exact ext' ex rfl
      · rw [if_neg h0, if_neg h0, opp_of (ofQ_not_nan _ _), flip_val, ex, neg_div, ofQ_flip]
    · rw [if_neg fy, if_neg fy]
      have hn : ¬ (ofRat (x.neg ^^ y.neg) 0 : F64).IsNaN := by
        cases (x.neg ^^ y.neg) <;> decide +kernel
      rw [opp_of hn]
      exact ext' ex rfl
  · rw [if_neg fx, if_neg (show ¬ x.flip.Finite from fx)]
    by_cases fy : y.Finite
    · rw [if_pos fy, if_pos fy, opp_of (inf_not_nan _)]
      exact ext' ex rfl
    · rw [if_neg fy, if_neg fy, opp_nan]

/-- The difference in the other direction: the negative one, except for zero. -/
theorem sub_swap (x y : F64) : y - x = opp (x - y) ∨ y - x = 0 ∧ x - y = 0 := by
  by_cases hx : x.IsNaN
  · left
    have h1 : x - y = nan := sub_of_nan (Or.inl hx)
    have h2 : y - x = nan := sub_of_nan (Or.inr hx)
    rw [h1, h2, opp_nan]
  by_cases hy : y.IsNaN
  · left
    have h1 : x - y = nan := sub_of_nan (Or.inr hy)
    have h2 : y - x = nan := sub_of_nan (Or.inl hy)
    rw [h1, h2, opp_nan]
  by_cases fx : x.Finite
  · by_cases fy : y.Finite
    · rw [sub_fin fx fy, sub_fin fy fx]
      by_cases h : x.val = y.val
      · rw [h, _root_.sub_self]
        by_cases hz : x.neg = y.neg
        · right
          rw [hz]
          cases y.neg <;> exact ⟨ofQ_false_zero, ofQ_false_zero⟩
        · left
          rw [opp_of (ofQ_not_nan _ _)]
          have : (y.neg && !x.neg) = !(x.neg && !y.neg) := by
            cases hx : x.neg <;> cases hy : y.neg <;> simp_all
          have e := ofQ_flip (x.neg && !y.neg) 0
          rw [neg_zero] at e
          rw [this, e]
      · left
        rw [opp_of (ofQ_not_nan _ _), ← ofQ_flip, neg_sub]
        unfold ofQ
        rw [if_neg (fun e => h (sub_eq_zero.mp e).symm), if_neg (fun e => h (sub_eq_zero.mp e).symm)]
    · left
      rw [sub_if hx hy (fun h => fy h.2), sub_if hy hx (fun h => fy h.1), if_pos fx, if_neg fy, if_pos (Or.inl fx),
        opp_of (show ¬ y.flip.IsNaN from hy), flip_flip]
  · left
    rw [sub_if hx hy (fun h => fx h.1), sub_if hy hx (fun h => fx h.2), if_neg fx]
    by_cases fy : y.Finite
    · rw [if_pos fy, if_pos (Or.inl fy), opp_of hx]
    · have em : x.mag = y.mag := by
        unfold IsNaN Finite at *
        omega
      rw [if_neg fy]
      by_cases hz : x.neg = !y.neg
      · have hz' : y.neg = !x.neg := by rw [hz, Bool.not_not]
        rw [if_pos (Or.inr hz), if_pos (Or.inr hz'), opp_of hx]
        exact ext' hz' em.symm
      · have hz' : ¬ y.neg = !x.neg := fun h => hz (by rw [h, Bool.not_not])
        rw [if_neg (not_or.mpr ⟨fy, hz⟩), if_neg (not_or.mpr ⟨fx, hz'⟩), opp_nan]

/-- A product with zero is zero or NaN, whatever the sign. -/
theorem opp_mul_zero (x : F64) : SameNum (x * 0) (opp x * 0) := by
  rw [mulF_comm x, mulF_comm (opp x), mul_opp]
  by_cases h : (0 * x).IsNaN
  · rw [mul_nan_eq _ _ h, opp_nan]
    exact Or.inl rfl
  · right
    have : (0 * x : F64).mag = 0 := by
      change (mul 0 x).mag = 0
      change ¬ (mul 0 x).IsNaN at h
      unfold mul at *
      by_cases h1 : (0 : F64).IsNaN ∨ x.IsNaN
      · rw [if_pos h1] at h
        exact absurd nan_isNaN h
      rw [if_neg h1] at *
      by_cases h2 : (0 : F64).Finite ∧ x.Finite
      · rw [if_pos h2, zeroF_val, zero_mul]
        cases ((0 : F64).neg ^^ x.neg) <;> decide +kernel
      · rw [if_neg h2, if_pos (show (0 : F64).mag = 0 ∨ x.mag = 0 from Or.inl rfl)] at h
        exact absurd nan_isNaN h
    refine ⟨this, ?_⟩
    rw [opp_of h]
    exact this

theorem add_same (a : F64) {x y : F64} (h : SameNum x y) : SameNum (a + x) (a + y) := by
  rcases h with rfl | ⟨hx, hy⟩
  · exact Or.inl rfl
  have fx : x.Finite := by
    unfold Finite
    rw [hx]
    decide
  have fy : y.Finite := by
    unfold Finite
    rw [hy]
    decide
  by_cases ha : a.IsNaN
  · exact Or.inl ((add_of_nan (Or.inl ha)).trans (add_of_nan (Or.inl ha)).symm)
  by_cases fa : a.Finite
  · rw [add_fin fa fx, add_fin fa fy, (val_zero_iff x).mpr hx, (val_zero_iff y).mpr hy, _root_.add_zero]
    by_cases h0 : a.val = 0
    · right
      rw [h0, ofQ_mag, ofQ_mag, abs_zero]
      have : roundMag 11 52 0 = 0 := by rw [roundMag, if_pos le_rfl]
      exact ⟨this, this⟩
    · left
      unfold ofQ
      rw [if_neg h0, if_neg h0]
  · left
    change add a x = add a y
    unfold add
    rw [if_neg (not_or.mpr ⟨ha, not_nan fx⟩), if_neg (not_or.mpr ⟨ha, not_nan fy⟩), if_neg fa, if_neg fa, if_pos (Or.inl fx), if_pos (Or.inl fy)]

theorem sub_same (a : F64) {x y : F64} (h : SameNum x y) : SameNum (a - x) (a - y) := by
  refine add_same a ?_
  rcases h with rfl | h
  · exact Or.inl rfl
  · exact Or.inr h

end Flt

theorem sq_swap {L : Libm} (hL : EvenSq L) (x y : F64) : L.sq (y - x) = L.sq (x - y) := by
  rcases sub_swap x y with h | ⟨h1, h2⟩
  · rw [h]
    by_cases hn : (x - y).IsNaN
    · rw [opp_of_nan hn, sub_nan_eq _ _ hn]
    · rw [opp_of hn, hL]
  · rw [h1, h2]

/-- The offset from the chord, from both sides. -/
theorem offset_swap (k x y : F64) : SameNum (k * (x - y)) (opp k * (y - x)) := by
  rcases sub_swap x y with h | ⟨h1, h2⟩
  · rw [h, opp_mul_opp]
    exact Or.inl rfl
  · rw [h1, h2]
    exact opp_mul_zero k

/-- The middle of an arc, from both ends. -/
theorem arcMidF_swap {L : Libm} (hL : EvenSq L) (R : F64) (p q : V3 F64) : SamePoint (arcMidF L R p q) (arcMidF L R.flip q p) := by
  have hR : L.sq R.flip = L.sq R := hL R
  have hA : absF R.flip = absF R := rfl
  have key : ∀ k : F64, k * R.flip / absF R = opp (k * R / absF R) := by
    intro k
    rw [← opp_div, ← mul_opp]
    by_cases hn : R.IsNaN
    · have h1 : k * R.flip = nan := mul_of_nan (Or.inr hn)
      rw [opp_of_nan hn, h1, mulF_comm, nan_mul]
    · rw [opp_of hn]
  unfold arcMidF SamePoint
  dsimp only
  rw [hR, hA, sq_swap hL p.x q.x, sq_swap hL p.y q.y, key, addF_comm q.x p.x, addF_comm q.y p.y, addF_comm q.z p.z]
  exact ⟨add_same _ (offset_swap _ _ _), sub_same _ (offset_swap _ _ _), Or.inl rfl⟩

theorem edgeMidF_eq (L : Libm) (el : Elem F64) (e : Nat) (h : HasEdge el e) : edgeMidF L el e =
    if el.ccurv e = ['m'] then .ok (el.cpt e, el)
    else if el.ccurv e = [] then .ok (⟨((edgeFrom el e).x + (edgeTo el e).x) / 2, ((edgeFrom el e).y + (edgeTo el e).y) / 2,
      ((edgeFrom el e).z + (edgeTo el e).z) / 2⟩, el)
    else if el.ccurv e = ['C'] then .ok (arcMidF L (el.curv e 0) (edgeFrom el e) (edgeTo el e),
      el.setCpt e (arcMidF L (el.curv e 0) (edgeFrom el e) (edgeTo el e)))
    else if el.ccurv e = ['s'] then .ok (sphereMidF L (el.curv e 4) (el.cpt e) (edgeFrom el e) (edgeTo el e), el)
    else .ok (el.cpt e, el) := by
  obtain ⟨h1, h2⟩ := ptAt_ends el e h
  unfold edgeMidF
  rw [if_neg (by have := h.1; omega), h1, h2]
  rfl

/-- **C138.** In double precision `edge_mid` returns the same point for an edge that two elements share, seen from either of them: bit by bit
for straight edges, midpoints and spheres, and up to the signs of zeros for arcs. For all numbers (also infinities and NaN), and all C libraries
for which `(-x) ** 2` is `x ** 2`. -/
theorem C138 (L : Libm) (hL : EvenSq L) (a b : Elem F64) (e f : Nat) (ha : HasEdge a e) (hb : HasEdge b f) (h : SharedEdge a e b f) :
    ∃ m m' a' b', edgeMidF L a e = .ok (m, a') ∧ edgeMidF L b f = .ok (m', b') ∧ SamePoint m m' ∧ (a.ccurv e ≠ ['C'] → m = m') := by
  rw [edgeMidF_eq L a e ha, edgeMidF_eq L b f hb, ← h.shape, ← h.from_to, ← h.to_from]
  have same : ∀ p : V3 F64, SamePoint p p := fun p => ⟨Or.inl rfl, Or.inl rfl, Or.inl rfl⟩
  have cp : a.ccurv e ≠ ['C'] → b.cpt f = a.cpt e := by
    intro hc
    unfold Elem.cpt
    rw [h.other hc 0 (by norm_num), h.other hc 1 (by norm_num), h.other hc 2 (by norm_num)]
  by_cases h1 : a.ccurv e = ['m']
  · have hc : a.ccurv e ≠ ['C'] := by rw [h1]; decide
    rw [if_pos h1, if_pos h1, cp hc]
    exact ⟨_, _, _, _, rfl, rfl, same _, fun _ => rfl⟩
  rw [if_neg h1, if_neg h1]
  by_cases h2 : a.ccurv e = []
  · rw [if_pos h2, if_pos h2, addF_comm (edgeTo a e).x, addF_comm (edgeTo a e).y, addF_comm (edgeTo a e).z]
    exact ⟨_, _, _, _, rfl, rfl, same _, fun _ => rfl⟩
  rw [if_neg h2, if_neg h2]
  by_cases h3 : a.ccurv e = ['C']
  · rw [if_pos h3, if_pos h3, h.arc h3]
    exact ⟨_, _, _, _, rfl, rfl, arcMidF_swap hL _ _ _, fun hc => absurd h3 hc⟩
  rw [if_neg h3, if_neg h3]
  by_cases h4 : a.ccurv e = ['s']
  · rw [if_pos h4, if_pos h4, cp h3, h.other h3 4 (by norm_num)]
    have : sphereMidF L (a.curv e 4) (a.cpt e) (edgeTo a e) (edgeFrom a e) = sphereMidF L (a.curv e 4) (a.cpt e) (edgeFrom a e) (edgeTo a e) := by
      unfold sphereMidF
      rw [addF_comm (edgeTo a e).x, addF_comm (edgeTo a e).y, addF_comm (edgeTo a e).z]
    rw [this]
    exact ⟨_, _, _, _, rfl, rfl, same _, fun _ => rfl⟩
  · rw [if_neg h4, if_neg h4, cp h3]
    exact ⟨_, _, _, _, rfl, rfl, same _, fun _ => rfl⟩

namespace Flt

theorem ofQ_double (z : Bool) (x : F64) (h : |x.val| ≤ 2 ^ 999) : (ofQ z (2 * x.val)).val = 2 * x.val := by
  obtain ⟨k, n, e, h'⟩ := magVal_form (eb := 11) (mb := 52) x.mag
  rw [minExp64] at e
  have hmod := Nat.mod_lt x.mag (Nat.two_pow_pos 52)
  have hn : n < 2 ^ 53 := by
    rcases h' with ⟨h1, -, rfl⟩ | ⟨-, -, rfl⟩
    · exact h1.trans (by norm_num)
    · omega
  have hk : k ≤ 2044 := by
    by_contra hk
    push Not at hk
    rcases h' with ⟨-, h1, -⟩ | ⟨-, -, h1⟩
    · omega
    · have h2 : (2 : ℚ) ^ 52 ≤ n := by
        rw [h1]
        push_cast
        exact le_add_of_nonneg_right (Nat.cast_nonneg _)
      have h3 : (2 : ℚ) ^ (970 : Int) ≤ 2 ^ (-1074 + (k : Int)) := zpow_le_zpow_right₀ (by norm_num) (by omega)
      have h4 : (2 : ℚ) ^ 52 * 2 ^ (970 : Int) ≤ n * 2 ^ (-1074 + (k : Int)) := mul_le_mul h2 h3 (by positivity) (Nat.cast_nonneg _)
      rw [← e, ← abs_val] at h4
      have h5 := h4.trans h
      have h6 : (2 : ℚ) ^ 52 * 2 ^ (970 : Int) = 2 ^ 1022 := by
        rw [show (970 : Int) = ((970 : Nat) : Int) from rfl, zpow_natCast, ← pow_add]
      rw [h6] at h5
      exact absurd h5 (not_le.mpr (pow_lt_pow_right₀ (by norm_num) (by norm_num)))
  have ex := roundMag_exact n (-1074 + (k : Int) + 1) hn (by omega) (by omega)
  have e2 : |2 * x.val| = n * 2 ^ (-1074 + (k : Int) + 1) := by
    rw [abs_mul, abs_val, e, zpow_add_one₀ (by norm_num), abs_of_pos (by norm_num : (0 : ℚ) < 2)]
    ring
  rw [ofQ_val, e2, ex.2, ← e2]
  by_cases h0 : 2 * x.val < 0
  · rw [if_pos h0, abs_of_neg h0, neg_neg]
  · rw [if_neg h0, abs_of_nonneg (not_lt.mp h0)]

theorem twoF_fin : (2 : F64).Finite := by decide +kernel

theorem twoF_val : (2 : F64).val = 2 := (natCast_exact 2 (by norm_num)).2

/-- The mean of two numbers lies between them, also after rounding. -/
theorem mean_between {a b : F64} (ha : Mild a) (hb : Mild b) : Between a b ((a + b) / 2) := by
  have tri : |a.val + b.val| ≤ 2 ^ 1000 := (abs_add_le _ _).trans ((add_le_add ha.2 hb.2).trans (by rw [← two_mul, ← pow_succ']))
  have fs : (a + b).Finite := by
    rw [add_fin ha.1 hb.1]
    exact ofQ_fin _ _ tri
  have two0 : (2 : F64).val ≠ 0 := by rw [twoF_val]; norm_num
  have hs : ∀ x : F64, |x.val| ≤ 2 ^ 999 → (2 * x.val ≤ a.val + b.val → 2 * x.val ≤ (a + b).val) ∧
      (a.val + b.val ≤ 2 * x.val → (a + b).val ≤ 2 * x.val) := by
    intro x hx
    rw [add_fin ha.1 hb.1, ← ofQ_double false x hx]
    exact ⟨fun h => ofQ_mono _ _ _ _ (by rwa [ofQ_double false x hx] at h), fun h => ofQ_mono _ _ _ _ (by rwa [ofQ_double false x hx] at h)⟩
  have hd : ∀ x : F64, x.Finite → (2 * x.val ≤ (a + b).val → x.val ≤ ((a + b) / 2).val) ∧
      ((a + b).val ≤ 2 * x.val → ((a + b) / 2).val ≤ x.val) := by
    intro x hx
    rw [div_fin fs twoF_fin two0, twoF_val]
    refine ⟨fun h => ?_, fun h => ?_⟩
    · have := ofQ_mono false (((a + b).neg ^^ (2 : F64).neg)) x.val ((a + b).val / 2) (by linarith)
      rwa [ofQ_rep _ x hx] at this
    · have := ofQ_mono (((a + b).neg ^^ (2 : F64).neg)) false ((a + b).val / 2) x.val (by linarith)
      rwa [ofQ_rep _ x hx] at this
  have lo : ∀ x : F64, Mild x → 2 * x.val ≤ a.val + b.val → x.val ≤ ((a + b) / 2).val := fun x hx h => (hd x hx.1).1 ((hs x hx.2).1 h)
  have up : ∀ x : F64, Mild x → a.val + b.val ≤ 2 * x.val → ((a + b) / 2).val ≤ x.val := fun x hx h => (hd x hx.1).2 ((hs x hx.2).2 h)
  refine ⟨?_, ?_⟩
  · rw [div_fin fs twoF_fin two0, twoF_val]
    have b1 : |(a + b).val| ≤ 2 ^ 1000 := by
      rw [abs_le]
      have ga := abs_le.mp ha.2
      have gb := abs_le.mp hb.2
      have e : (2 : ℚ) ^ 1000 = 2 * 2 ^ 999 := by rw [← pow_succ']
      rw [e]
      rcases le_total a.val b.val with h | h
      · have h1 := (hs a ha.2).1 (by linarith)
        have h2 := (hs b hb.2).2 (by linarith)
        generalize (2 : ℚ) ^ 999 = H at *
        constructor <;> linarith
      · have h1 := (hs b hb.2).1 (by linarith)
        have h2 := (hs a ha.2).2 (by linarith)
        generalize (2 : ℚ) ^ 999 = H at *
        constructor <;> linarith
    refine ofQ_fin _ _ ?_
    rw [abs_div, abs_of_pos (by norm_num : (0 : ℚ) < 2)]
    generalize (2 : ℚ) ^ 1000 = H at *
    have := abs_nonneg (a + b).val
    linarith
  · rcases le_total a.val b.val with h | h
    · rw [min_eq_left h, max_eq_right h]
      exact ⟨lo a ha (by linarith), up b hb (by linarith)⟩
    · rw [min_eq_right h, max_eq_left h]
      exact ⟨lo b hb (by linarith), up a ha (by linarith)⟩

end Flt

/-- The midpoint of a straight edge lies between its ends in every coordinate, also after rounding; the element is not changed. -/
theorem C138_straight (L : Libm) (el : Elem F64) (e : Nat) (he : HasEdge el e) (hc : el.ccurv e = [])
    (h1 : Mild (edgeFrom el e).x ∧ Mild (edgeFrom el e).y ∧ Mild (edgeFrom el e).z)
    (h2 : Mild (edgeTo el e).x ∧ Mild (edgeTo el e).y ∧ Mild (edgeTo el e).z) :
    ∃ m, edgeMidF L el e = .ok (m, el) ∧ Between (edgeFrom el e).x (edgeTo el e).x m.x ∧ Between (edgeFrom el e).y (edgeTo el e).y m.y ∧
      Between (edgeFrom el e).z (edgeTo el e).z m.z := by
  rw [edgeMidF_eq L el e he, if_neg (by rw [hc]; decide), if_pos hc]
  exact ⟨_, rfl, mean_between h1.1 h2.1, mean_between h1.2.1 h2.2.1, mean_between h1.2.2 h2.2.2⟩

theorem libm_even : EvenSq libm := by
  intro x
  change x.flip * x.flip = x * x
  by_cases h : x.IsNaN
  · rw [mul_of_nan (show x.flip.IsNaN ∨ x.flip.IsNaN from Or.inl h), mul_of_nan (Or.inl h)]
  · rw [← opp_of h, opp_mul_opp]

namespace Samples

/-- An element whose lower edge runs from `p` to `q`, as an arc of radius `R` (or with another shape). -/
def edgeF (shape : Name) (R : F64) (p q : V3 F64) : Elem F64 :=
  { (Elem.new 0 0 0 2 2 1 1 : Elem F64) with
    pos := ⟨3, 1, 2, 2, fun d _ _ i => let v := if i = 0 then p else q
      if d = 0 then v.x else if d = 1 then v.y else v.z⟩
    ccurv := fun e => if e = 0 then shape else []
    curv := fun e k => if e = 0 ∧ k = 0 then R else 0 }

theorem edgeF_has (shape : Name) (R : F64) (p q : V3 F64) : HasEdge (edgeF shape R p q) 0 :=
  ⟨by norm_num, le_rfl, le_rfl, le_rfl, fun h => absurd h (by norm_num)⟩

theorem edgeF_ends (shape : Name) (R : F64) (p q : V3 F64) : edgeFrom (edgeF shape R p q) 0 = p ∧ edgeTo (edgeF shape R p q) 0 = q := ⟨rfl, rfl⟩

/-- Two elements at an arc of radius 5 between (0, 0) and (6, 0), which is given with radius -5 from the other side. -/
theorem edgeF_same (R : F64) (p q : V3 F64) : SharedEdge (edgeF ['C'] R p q) 0 (edgeF ['C'] R.flip q p) 0 :=
  ⟨rfl, rfl, rfl, fun _ => rfl, fun h => absurd rfl h⟩

def arcA : Elem F64 := edgeF ['C'] ((5 : Nat) : F64) ⟨0, 0, 0⟩ ⟨((6 : Nat) : F64), 0, 0⟩
def arcB : Elem F64 := edgeF ['C'] ((5 : Nat) : F64).flip ⟨((6 : Nat) : F64), 0, 0⟩ ⟨0, 0, 0⟩

example : ∃ m m' a' b', edgeMidF libm arcA 0 = .ok (m, a') ∧ edgeMidF libm arcB 0 = .ok (m', b') ∧ SamePoint m m' ∧
    (arcA.ccurv 0 ≠ ['C'] → m = m') :=
  C138 libm libm_even arcA arcB 0 0 (edgeF_has _ _ _ _) (edgeF_has _ _ _ _) (edgeF_same _ _ _)

/-- The point is (3, -1) from both sides. -/
example : ((edgeMidF libm arcA 0).toOption.map fun r => (r.1.x.val, r.1.y.val)) = some (3, -1) ∧
    ((edgeMidF libm arcB 0).toOption.map fun r => (r.1.x.val, r.1.y.val)) = some (3, -1) := by decide +kernel

/-- The mean of 1 and the next number is one of them, and lies between them. -/
example : Between (1 : F64) (1 + 1 / ((2 ^ 52 : Nat) : F64)) ((1 + (1 + 1 / ((2 ^ 52 : Nat) : F64))) / 2) := by
  refine mean_between ⟨by decide +kernel, ?_⟩ ⟨by decide +kernel, ?_⟩ <;> decide +kernel

end Samples

end Pymech
