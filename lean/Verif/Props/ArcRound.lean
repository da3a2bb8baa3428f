import Verif.Props.MidCurv
import Mathlib.Tactic.IntervalCases

/-!
# `edge_circle` and `edge_mid` undo each other, and rings, C108
-/

set_option linter.unusedSectionVars false
set_option autoImplicit false

namespace Pymech

open Spec

namespace Spec

/-- Square of the distance in the plane. -/
def chordSq {F : Type} [Field F] (p q : V3 F) : F := (q.x - p.x) ^ 2 + (q.y - p.y) ^ 2

/-- The point above the middle of the chord from `p` to `q`, to the right of it by `k` times its length. -/
def bump {F : Type} [Field F] (p q : V3 F) (k : F) : V3 F :=
  ⟨(q.x + p.x) / 2 + k * (q.y - p.y), (q.y + p.y) / 2 - k * (q.x - p.x), (q.z + p.z) / 2⟩

end Spec

theorem chordSq_nonneg (p q : V3 ℝ) : 0 ≤ chordSq p q := by unfold chordSq; positivity

theorem lenSq_flat (p q : V3 ℝ) (h : p.z = q.z) : lenSq q p = chordSq p q := by
  unfold lenSq chordSq
  rw [h]
  ring

/-- The sides of the triangle over a chord. -/
theorem bump_sides (p q : V3 ℝ) (k : ℝ) (h : p.z = q.z) :
    lenSq p (bump p q k) = (1 / 4 + k ^ 2) * chordSq p q ∧ lenSq (bump p q k) q = (1 / 4 + k ^ 2) * chordSq p q ∧
    triSq p (bump p q k) q = (k * chordSq p q) ^ 2 / 4 ∧
    ((bump p q k).x - p.x) * (q.y - (bump p q k).y) - ((bump p q k).y - p.y) * (q.x - (bump p q k).x) = k * chordSq p q := by
  unfold lenSq triSq chordSq bump
  simp only [h]
  refine ⟨by ring, by ring, by ring, by ring⟩

/-- The result of `edge_circle` for a midpoint above the middle of the chord. -/
theorem circle3_bump (p q : V3 ℝ) (k : ℝ) (h : p.z = q.z) (hd : 0 < chordSq p q) :
    (circle3 Real.sqrt p (bump p q k) q).1 =
      if (1 / 4 + k ^ 2) ^ 2 < 25000000 * k ^ 2 then (1 / 4 + k ^ 2) / (2 * k) * Real.sqrt (chordSq p q) else 0 := by
  obtain ⟨a1, a2, a3, a4⟩ := bump_sides p q k h
  rw [circle3_eq, a1, a2, a3, a4, lenSq_flat p q h]
  set D := chordSq p q
  have hD2 : 0 < D ^ 2 := by positivity
  have hiff : (1 / 10 ^ 8 * ((1 / 4 + k ^ 2) * D * ((1 / 4 + k ^ 2) * D)) < (k * D) ^ 2 / 4) ↔ (1 / 4 + k ^ 2) ^ 2 < 25000000 * k ^ 2 := by
    constructor
    · intro g
      have : (1 / 4 + k ^ 2) ^ 2 * D ^ 2 < 25000000 * k ^ 2 * D ^ 2 := by nlinarith
      exact lt_of_mul_lt_mul_right this hD2.le
    · intro g
      have := mul_lt_mul_of_pos_right g hD2
      nlinarith
  by_cases g : (1 / 4 + k ^ 2) ^ 2 < 25000000 * k ^ 2
  · rw [if_pos (hiff.mpr g), if_pos g]
    have hk0 : k ≠ 0 := by
      rintro rfl
      norm_num at g
    have hA : 0 ≤ (1 / 4 + k ^ 2) * D := by positivity
    have hs : Real.sqrt ((k * D) ^ 2 / 4) = |k| * D / 2 := by
      rw [show (k * D) ^ 2 / 4 = (|k| * D / 2) ^ 2 by rw [div_pow, mul_pow, mul_pow, sq_abs]; norm_num]
      exact Real.sqrt_sq (by positivity)
    have hval : Real.sqrt ((1 / 4 + k ^ 2) * D) * Real.sqrt ((1 / 4 + k ^ 2) * D) * Real.sqrt D / (4 * Real.sqrt ((k * D) ^ 2 / 4)) =
        (1 / 4 + k ^ 2) / (2 * |k|) * Real.sqrt D := by
      rw [Real.mul_self_sqrt hA, hs]
      have : |k| ≠ 0 := abs_ne_zero.mpr hk0
      field_simp
      ring
    simp only
    rw [hval]
    rcases lt_or_gt_of_ne hk0 with hk | hk
    · rw [if_pos (mul_neg_of_neg_of_pos hk hd), abs_of_neg hk]
      simp only
      field_simp
    · rw [if_neg (not_lt.mpr (mul_pos hk hd).le), abs_of_pos hk]
  · rw [if_neg (fun x => g (hiff.mp x)), if_neg g]

/-- The middle of an arc of radius `R` over a chord. -/
theorem arcMid_bump (p q : V3 ℝ) (R : ℝ) :
    arcMid Real.sqrt R p q = bump p q ((|R| - Real.sqrt (R ^ 2 - chordSq p q / 4)) / Real.sqrt (chordSq p q) * R / |R|) := by
  unfold arcMid bump chordSq
  simp only
  rw [show R ^ 2 - (q.x - p.x) ^ 2 / 4 - (q.y - p.y) ^ 2 / 4 = R ^ 2 - ((q.x - p.x) ^ 2 + (q.y - p.y) ^ 2) / 4 by ring]

/-- The radius of the arc through the middle of an arc. -/
theorem circle3_arcMid (p q : V3 ℝ) (R : ℝ) (h : p.z = q.z) (hd : 0 < chordSq p q) (hR : chordSq p q / 4 ≤ R ^ 2) :
    (circle3 Real.sqrt p (arcMid Real.sqrt R p q) q).1 = if R ^ 2 < 2500 ^ 2 * chordSq p q then R else 0 := by
  have hR0 : R ≠ 0 := by
    rintro rfl
    norm_num at hR
    linarith
  rw [arcMid_bump p q R, circle3_bump p q _ h hd]
  set D := chordSq p q
  set L := Real.sqrt D with hL
  have hL2 : L ^ 2 = D := Real.sq_sqrt hd.le
  have hLp : 0 < L := Real.sqrt_pos.mpr hd
  set H := Real.sqrt (R ^ 2 - D / 4) with hH
  have hH2 : H ^ 2 = R ^ 2 - D / 4 := Real.sq_sqrt (by linarith)
  have hH0 : 0 ≤ H := Real.sqrt_nonneg _
  set A := |R| with hA
  have hA2 : A ^ 2 = R ^ 2 := sq_abs R
  have hAp : 0 < A := abs_pos.mpr hR0
  have hs : 0 < A - H := by nlinarith
  set s := A - H with hsdef
  have hsq : s ^ 2 + L ^ 2 / 4 = 2 * A * s := by rw [hsdef]; nlinarith
  set k := s / L * R / A with hk
  have hkL : k * L * A = s * R := by rw [hk]; field_simp
  have hk2 : k ^ 2 * L ^ 2 = s ^ 2 := by
    have : (k * L * A) ^ 2 = (s * R) ^ 2 := by rw [hkL]
    have h2 : (k ^ 2 * L ^ 2 - s ^ 2) * A ^ 2 = 0 := by rw [hA2] at *; nlinarith
    rcases mul_eq_zero.mp h2 with e | e
    · linarith
    · exact absurd e (by positivity)
  have hsum : (1 / 4 + k ^ 2) * L ^ 2 = 2 * A * s := by nlinarith
  have hiff : (1 / 4 + k ^ 2) ^ 2 < 25000000 * k ^ 2 ↔ R ^ 2 < 2500 ^ 2 * D := by
    have e1 : (1 / 4 + k ^ 2) ^ 2 * L ^ 4 = 4 * A ^ 2 * s ^ 2 := by
      calc (1 / 4 + k ^ 2) ^ 2 * L ^ 4 = ((1 / 4 + k ^ 2) * L ^ 2) ^ 2 := by ring
        _ = _ := by rw [hsum]; ring
    have e2 : 25000000 * k ^ 2 * L ^ 4 = 25000000 * s ^ 2 * L ^ 2 := by
      calc 25000000 * k ^ 2 * L ^ 4 = 25000000 * (k ^ 2 * L ^ 2) * L ^ 2 := by ring
        _ = _ := by rw [hk2]
    have hL4 : 0 < L ^ 4 := by positivity
    have hs2 : 0 < 4 * s ^ 2 := by positivity
    rw [← mul_lt_mul_iff_left₀ hL4, e1, e2, ← hL2, ← hA2, ← mul_lt_mul_iff_left₀ hs2 (b := A ^ 2)]
    constructor <;> intro g <;> nlinarith
  by_cases g : R ^ 2 < 2500 ^ 2 * D
  · rw [if_pos (hiff.mpr g), if_pos g]
    have hk0 : k ≠ 0 := by
      intro e
      rw [e] at hk2
      have : 0 < s ^ 2 := by positivity
      linarith
    have hkne : 2 * k ≠ 0 := mul_ne_zero two_ne_zero hk0
    rw [div_mul_eq_mul_div, div_eq_iff hkne]
    have : ((1 / 4 + k ^ 2) * L - R * (2 * k)) * (L * A) = 0 := by
      calc ((1 / 4 + k ^ 2) * L - R * (2 * k)) * (L * A) = (1 / 4 + k ^ 2) * L ^ 2 * A - 2 * R * (k * L * A) := by ring
        _ = 2 * A * s * A - 2 * R * (s * R) := by rw [hsum, hkL]
        _ = 2 * s * (A ^ 2 - R ^ 2) := by ring
        _ = 0 := by rw [hA2]; ring
    rcases mul_eq_zero.mp this with e | e
    · linarith
    · exact absurd e (by positivity)
  · rw [if_neg (fun x => g (hiff.mp x)), if_neg g]

/-- The middle of the arc through a point above the middle of the chord, if it is at most a semicircle. -/
theorem arcMid_circle3 (p q : V3 ℝ) (k : ℝ) (h : p.z = q.z) (hd : 0 < chordSq p q) (hk : k ^ 2 ≤ 1 / 4)
    (hflat : (1 / 4 + k ^ 2) ^ 2 < 25000000 * k ^ 2) :
    arcMid Real.sqrt (circle3 Real.sqrt p (bump p q k) q).1 p q = bump p q k := by
  have hk0 : k ≠ 0 := by
    rintro rfl
    norm_num at hflat
  rw [circle3_bump p q k h hd, if_pos hflat]
  set D := chordSq p q with hD
  set L := Real.sqrt D with hL
  have hL2 : L ^ 2 = D := Real.sq_sqrt hd.le
  have hLp : 0 < L := Real.sqrt_pos.mpr hd
  set R := (1 / 4 + k ^ 2) / (2 * k) * L with hRdef
  have hR0 : R ≠ 0 := by rw [hRdef]; positivity
  have hkp : 0 < |k| := abs_pos.mpr hk0
  have hA : |R| = (1 / 4 + k ^ 2) / (2 * |k|) * L := by
    rw [hRdef, abs_mul, abs_div, abs_mul, abs_of_pos hLp, abs_of_pos (show (0 : ℝ) < 1 / 4 + k ^ 2 by positivity), abs_two]
  have hH : Real.sqrt (R ^ 2 - D / 4) = (1 / 4 - k ^ 2) / (2 * |k|) * L := by
    have : R ^ 2 - D / 4 = ((1 / 4 - k ^ 2) / (2 * |k|) * L) ^ 2 := by
      rw [hRdef, ← hL2, mul_pow, mul_pow, div_pow, div_pow, mul_pow, mul_pow, sq_abs]
      field_simp
      ring
    rw [this]
    apply Real.sqrt_sq
    have : 0 ≤ 1 / 4 - k ^ 2 := by linarith
    positivity
  rw [arcMid_bump p q R, ← hD, hH, hA]
  congr 1
  have hkk : |k| ≠ 0 := hkp.ne'
  rw [hRdef, ← hL]
  field_simp
  ring

/-- The same if the arc is longer than a semicircle: `edge_mid` takes the shorter one. -/
theorem arcMid_circle3_long (p q : V3 ℝ) (k : ℝ) (h : p.z = q.z) (hd : 0 < chordSq p q) (hk : 1 / 4 ≤ k ^ 2)
    (hflat : (1 / 4 + k ^ 2) ^ 2 < 25000000 * k ^ 2) :
    arcMid Real.sqrt (circle3 Real.sqrt p (bump p q k) q).1 p q = bump p q (1 / (4 * k)) := by
  have hk0 : k ≠ 0 := by
    rintro rfl
    norm_num at hflat
  rw [circle3_bump p q k h hd, if_pos hflat]
  set D := chordSq p q with hD
  set L := Real.sqrt D with hL
  have hL2 : L ^ 2 = D := Real.sq_sqrt hd.le
  have hLp : 0 < L := Real.sqrt_pos.mpr hd
  set R := (1 / 4 + k ^ 2) / (2 * k) * L with hRdef
  have hR0 : R ≠ 0 := by rw [hRdef]; positivity
  have hkp : 0 < |k| := abs_pos.mpr hk0
  have hA : |R| = (1 / 4 + k ^ 2) / (2 * |k|) * L := by
    rw [hRdef, abs_mul, abs_div, abs_mul, abs_of_pos hLp, abs_of_pos (show (0 : ℝ) < 1 / 4 + k ^ 2 by positivity), abs_two]
  have hH : Real.sqrt (R ^ 2 - D / 4) = (k ^ 2 - 1 / 4) / (2 * |k|) * L := by
    have : R ^ 2 - D / 4 = ((k ^ 2 - 1 / 4) / (2 * |k|) * L) ^ 2 := by
      rw [hRdef, ← hL2, mul_pow, mul_pow, div_pow, div_pow, mul_pow, mul_pow, sq_abs]
      field_simp
      ring
    rw [this]
    apply Real.sqrt_sq
    have : 0 ≤ k ^ 2 - 1 / 4 := by linarith
    positivity
  rw [arcMid_bump p q R, ← hD, hH, hA]
  congr 1
  have hkk : |k| ≠ 0 := hkp.ne'
  rw [hRdef, ← hL]
  field_simp
  ring

/-- A point at the same distance from both ends of the chord and at the same height. -/
theorem eq_bump (p q m : V3 ℝ) (h : p.z = q.z) (hm : m.z = p.z) (hd : 0 < chordSq p q) (he : chordSq m p = chordSq m q) :
    ∃ k, m = bump p q k ∧ k ^ 2 * chordSq p q = (m.x - (p.x + q.x) / 2) ^ 2 + (m.y - (p.y + q.y) / 2) ^ 2 := by
  have ho : (m.x - (p.x + q.x) / 2) * (q.x - p.x) + (m.y - (p.y + q.y) / 2) * (q.y - p.y) = 0 := by
    unfold chordSq at he
    linarith
  have hk : ((m.x - (p.x + q.x) / 2) * (q.y - p.y) - (m.y - (p.y + q.y) / 2) * (q.x - p.x)) / chordSq p q * chordSq p q =
      (m.x - (p.x + q.x) / 2) * (q.y - p.y) - (m.y - (p.y + q.y) / 2) * (q.x - p.x) := div_mul_cancel₀ _ hd.ne'
  set k := ((m.x - (p.x + q.x) / 2) * (q.y - p.y) - (m.y - (p.y + q.y) / 2) * (q.x - p.x)) / chordSq p q
  have hx : m.x = (q.x + p.x) / 2 + k * (q.y - p.y) := by
    have : (m.x - ((q.x + p.x) / 2 + k * (q.y - p.y))) * chordSq p q = 0 := by
      have e : chordSq p q = (q.x - p.x) ^ 2 + (q.y - p.y) ^ 2 := rfl
      calc (m.x - ((q.x + p.x) / 2 + k * (q.y - p.y))) * chordSq p q = (m.x - (p.x + q.x) / 2) * chordSq p q - k * chordSq p q * (q.y - p.y) := by ring
        _ = 0 := by rw [hk, e]; linear_combination (q.x - p.x) * ho
    rcases mul_eq_zero.mp this with e | e
    · linarith
    · exact absurd e hd.ne'
  have hy : m.y = (q.y + p.y) / 2 - k * (q.x - p.x) := by
    have : (m.y - ((q.y + p.y) / 2 - k * (q.x - p.x))) * chordSq p q = 0 := by
      have e : chordSq p q = (q.x - p.x) ^ 2 + (q.y - p.y) ^ 2 := rfl
      calc (m.y - ((q.y + p.y) / 2 - k * (q.x - p.x))) * chordSq p q = (m.y - (p.y + q.y) / 2) * chordSq p q + k * chordSq p q * (q.x - p.x) := by ring
        _ = 0 := by rw [hk, e]; linear_combination (q.y - p.y) * ho
    rcases mul_eq_zero.mp this with e | e
    · linarith
    · exact absurd e hd.ne'
  refine ⟨k, ?_, ?_⟩
  · obtain ⟨mx, my, mz⟩ := m
    unfold bump
    simp only at hx hy hm ⊢
    rw [hx, hy, hm, ← h]
    congr 1
    ring
  · rw [hx, hy]
    unfold chordSq
    ring

/-! ### C108 -/

theorem setCpt_ends {F : Type} [Field F] (el : Elem F) (e e' : Nat) (m : V3 F) :
    edgeFrom (el.setCpt e m) e' = edgeFrom el e' ∧ edgeTo (el.setCpt e m) e' = edgeTo el e' := ⟨rfl, rfl⟩

/-- **C108**: from an arc to its middle and back. `edge_circle` finds the radius, unless it is at least 2500 times the length of the
chord, and puts it back where `edge_mid` has overwritten it. -/
theorem C108_radius (el : Elem ℝ) (e : Nat) (h : HasEdge el e) (hc : el.ccurv e = ['C']) (p q : V3 ℝ) (hp : p = edgeFrom el e) (hq : q = edgeTo el e)
    (hz : p.z = q.z) (hd : 0 < chordSq p q) (hR : chordSq p q / 4 ≤ el.curv e 0 ^ 2) :
    ∃ m el' r c el'', edgeMid Real.sqrt el e = .ok (m, el') ∧ edgeCircle Real.sqrt el' e m = .ok ((r, c), el'') ∧
      (el.curv e 0 ^ 2 < 2500 ^ 2 * chordSq p q → r = el.curv e 0) ∧ (2500 ^ 2 * chordSq p q ≤ el.curv e 0 ^ 2 → r = 0) ∧ el''.curv e 0 = r := by
  have h1 := edgeMid_eq Real.sqrt el e h
  rw [if_neg (by rw [hc]; decide), if_neg (by rw [hc]; decide), if_pos hc, ← hp, ← hq] at h1
  set m := arcMid Real.sqrt (el.curv e 0) p q with hm
  have h2 := edgeCircle_eq Real.sqrt (el.setCpt e m) e h m
  rw [(setCpt_ends el e e m).1, (setCpt_ends el e e m).2, ← hp, ← hq] at h2
  have h3 := circle3_arcMid p q (el.curv e 0) hz hd hR
  refine ⟨m, _, (circle3 Real.sqrt p m q).1, (circle3 Real.sqrt p m q).2, _, h1, h2, fun g => ?_, fun g => ?_, ?_⟩
  · rw [hm, h3, if_pos g]
  · rw [hm, h3, if_neg (not_lt.mpr g)]
  · simp [Elem.setCircle]

/-- The test of `edge_circle` for a point above the middle of the chord. -/
theorem bump_flat (p q : V3 ℝ) (k : ℝ) (h : p.z = q.z) (hd : 0 < chordSq p q)
    (hf : 1 / 10 ^ 8 * (lenSq p (bump p q k) * lenSq (bump p q k) q) < triSq p (bump p q k) q) : (1 / 4 + k ^ 2) ^ 2 < 25000000 * k ^ 2 := by
  obtain ⟨a1, a2, a3, -⟩ := bump_sides p q k h
  rw [a1, a2, a3] at hf
  have hD2 : 0 < chordSq p q ^ 2 := by positivity
  have : (1 / 4 + k ^ 2) ^ 2 * chordSq p q ^ 2 < 25000000 * k ^ 2 * chordSq p q ^ 2 := by nlinarith
  exact lt_of_mul_lt_mul_right this hD2.le

/-- **C108**: from a midpoint to the arc and back. If the midpoint is at the same distance from both ends, the triangle is not too flat
and the arc is at most a semicircle, `edge_mid` finds the midpoint from the radius of `edge_circle`; if the arc is longer, it finds the
middle of the shorter arc with this radius, on the same side of the chord. -/
theorem C108_mid (el : Elem ℝ) (e : Nat) (h : HasEdge el e) (p q m : V3 ℝ) (hp : p = edgeFrom el e) (hq : q = edgeTo el e) (hz : p.z = q.z) (hm : m.z = p.z)
    (hd : 0 < chordSq p q) (he : chordSq m p = chordSq m q) (hf : 1 / 10 ^ 8 * (lenSq p m * lenSq m q) < triSq p m q) :
    ∃ r c el' m' el'', edgeCircle Real.sqrt el e m = .ok ((r, c), el') ∧ edgeMid Real.sqrt (el'.setType e ['C']) e = .ok (m', el'') ∧
      ((m.x - (p.x + q.x) / 2) ^ 2 + (m.y - (p.y + q.y) / 2) ^ 2 ≤ chordSq p q / 4 → m' = m) ∧
      (chordSq p q / 4 < (m.x - (p.x + q.x) / 2) ^ 2 + (m.y - (p.y + q.y) / 2) ^ 2 → m' ≠ m) ∧
      (chordSq p q / 4 ≤ (m.x - (p.x + q.x) / 2) ^ 2 + (m.y - (p.y + q.y) / 2) ^ 2 →
        ((m'.x - (p.x + q.x) / 2) ^ 2 + (m'.y - (p.y + q.y) / 2) ^ 2) * ((m.x - (p.x + q.x) / 2) ^ 2 + (m.y - (p.y + q.y) / 2) ^ 2) = (chordSq p q / 4) ^ 2) := by
  obtain ⟨k, rfl, hk⟩ := eq_bump p q m hz hm hd he
  have hg := bump_flat p q k hz hd hf
  have hk0 : k ≠ 0 := by
    rintro rfl
    norm_num at hg
  have h1 := edgeCircle_eq Real.sqrt el e h (bump p q k)
  rw [← hp, ← hq] at h1
  set C := circle3 Real.sqrt p (bump p q k) q with hC
  have h2 := edgeMid_eq Real.sqrt ((el.setCircle e C.1 C.2).setType e ['C']) e h
  have hcc : ((el.setCircle e C.1 C.2).setType e ['C']).ccurv e = ['C'] := by simp [Elem.setType]
  have hcu : ((el.setCircle e C.1 C.2).setType e ['C']).curv e 0 = C.1 := by simp [Elem.setType, Elem.setCircle]
  have hpp : edgeFrom ((el.setCircle e C.1 C.2).setType e ['C']) e = p := by rw [hp]; rfl
  have hqq : edgeTo ((el.setCircle e C.1 C.2).setType e ['C']) e = q := by rw [hq]; rfl
  rw [if_neg (by rw [hcc]; decide), if_neg (by rw [hcc]; decide), if_pos hcc, hcu, hpp, hqq] at h2
  rw [← hk]
  have long : 1 / 4 ≤ k ^ 2 → arcMid Real.sqrt C.1 p q = bump p q (1 / (4 * k)) := fun g => arcMid_circle3_long p q k hz hd g hg
  have four : chordSq p q / 4 ≤ k ^ 2 * chordSq p q ↔ 1 / 4 ≤ k ^ 2 := by
    rw [div_eq_mul_one_div, mul_comm]
    exact mul_le_mul_iff_left₀ hd
  refine ⟨C.1, C.2, _, _, _, h1, h2, fun g => ?_, fun g => ?_, fun g => ?_⟩
  · apply arcMid_circle3 p q k hz hd _ hg
    by_contra x
    push Not at x
    nlinarith
  · have g4 : 1 / 4 < k ^ 2 := by
      by_contra x
      push Not at x
      nlinarith
    rw [long g4.le]
    intro x
    have ex : 1 / (4 * k) * (q.y - p.y) = k * (q.y - p.y) := by
      have := congrArg V3.x x
      simp only [bump] at this
      linarith
    have ey : 1 / (4 * k) * (q.x - p.x) = k * (q.x - p.x) := by
      have := congrArg V3.y x
      simp only [bump] at this
      linarith
    have e4 : 1 / (4 * k) * (4 * k) = 1 := div_mul_cancel₀ _ (mul_ne_zero four_ne_zero hk0)
    have : (1 / (4 * k) - k) * (4 * k) * chordSq p q = 0 := by
      unfold chordSq
      linear_combination 4 * k * (q.x - p.x) * ey + 4 * k * (q.y - p.y) * ex
    rcases mul_eq_zero.mp this with y | y
    · nlinarith
    · exact absurd y hd.ne'
  · rw [long (four.mp g)]
    have : ((bump p q (1 / (4 * k))).x - (p.x + q.x) / 2) ^ 2 + ((bump p q (1 / (4 * k))).y - (p.y + q.y) / 2) ^ 2 = (1 / (4 * k)) ^ 2 * chordSq p q := by
      unfold bump chordSq
      ring
    rw [this]
    field_simp

/-! ### Rings -/

namespace Spec

/-- The element is a sector of a ring around `(cx, cy)`: its low and its high side are arcs of the radii `r1` and `r2` between the rays
in the directions `u 0` and `u 1`, and its lateral sides are straight. -/
structure Sector (el : Elem ℝ) (h : Nat) (cx cy : ℝ) (ux uy : Nat → ℝ) (r1 r2 : ℝ) : Prop where
  unit : ∀ q < 2, ux q ^ 2 + uy q ^ 2 = 1
  lo : sideCurve el (opp h) = .arc r1
  hi : sideCurve el h = .arc r2
  lat : ∀ q < 2, latCurve el h q = .straight
  ptLo : ∀ q < 2, (sidePt el (opp h) q).x = cx + |r1| * ux q ∧ (sidePt el (opp h) q).y = cy + |r1| * uy q
  ptHi : ∀ q < 2, (sidePt el h q).x = cx + |r2| * ux q ∧ (sidePt el h q).y = cy + |r2| * uy q
  sign : 0 < r1 * r2
  bend : 0 < r1 * (ux 0 * uy 1 - uy 0 * ux 1)

end Spec

/-- The middle of an arc is on the bisector of its two rays. -/
theorem arcMid_ray (σ ρ cx cy a b a' b' : ℝ) (hσ : σ = 1 ∨ σ = -1) (hρ : 0 < ρ) (u : a ^ 2 + b ^ 2 = 1) (u' : a' ^ 2 + b' ^ 2 = 1)
    (hb : 0 < σ * (a * b' - b * a')) (p q : V3 ℝ) (px : p.x = cx + ρ * a) (py : p.y = cy + ρ * b) (qx : q.x = cx + ρ * a') (qy : q.y = cy + ρ * b') :
    (arcMid Real.sqrt (σ * ρ) p q).x = cx + ρ * ((a + a') / Real.sqrt ((a + a') ^ 2 + (b + b') ^ 2)) ∧
    (arcMid Real.sqrt (σ * ρ) p q).y = cy + ρ * ((b + b') / Real.sqrt ((a + a') ^ 2 + (b + b') ^ 2)) ∧
    chordSq p q = ρ ^ 2 * ((a' - a) ^ 2 + (b' - b) ^ 2) ∧ 0 < chordSq p q ∧ chordSq p q / 4 ≤ (σ * ρ) ^ 2 := by
  set N2 := (a + a') ^ 2 + (b + b') ^ 2 with hN2
  set D2 := (a' - a) ^ 2 + (b' - b) ^ 2 with hD2
  have hσ2 : σ ^ 2 = 1 := by rcases hσ with rfl | rfl <;> norm_num
  have hND : N2 * D2 = 4 * (a * b' - b * a') ^ 2 := by
    rw [hN2, hD2]
    linear_combination (a ^ 2 + b ^ 2 - 2 * a' ^ 2 - 2 * b' ^ 2 + 1) * u + (a' ^ 2 + b' ^ 2 - 1) * u'
  have hsum : N2 + D2 = 4 := by rw [hN2, hD2]; linear_combination 2 * u + 2 * u'
  have hcr : a * b' - b * a' ≠ 0 := by
    intro e
    rw [e] at hb
    simp at hb
  have hprod : 0 < N2 * D2 := by rw [hND]; positivity
  have hN0 : 0 ≤ N2 := by rw [hN2]; positivity
  have hD0 : 0 ≤ D2 := by rw [hD2]; positivity
  have hNp : 0 < N2 := lt_of_le_of_ne hN0 (fun e => by rw [← e] at hprod; simp at hprod)
  have hDp : 0 < D2 := lt_of_le_of_ne hD0 (fun e => by rw [← e] at hprod; simp at hprod)
  have hch : chordSq p q = ρ ^ 2 * D2 := by unfold chordSq; rw [px, py, qx, qy, hD2]; ring
  set N := Real.sqrt N2 with hN
  have hNN : N ^ 2 = N2 := Real.sq_sqrt hN0
  have hNpos : 0 < N := Real.sqrt_pos.mpr hNp
  set D := Real.sqrt D2 with hD
  have hDD : D ^ 2 = D2 := Real.sq_sqrt hD0
  have hDpos : 0 < D := Real.sqrt_pos.mpr hDp
  have s1 : Real.sqrt (chordSq p q) = ρ * D := by
    rw [hch, Real.sqrt_mul (by positivity), Real.sqrt_sq hρ.le]
  have s2 : Real.sqrt ((σ * ρ) ^ 2 - chordSq p q / 4) = ρ * N / 2 := by
    have : (σ * ρ) ^ 2 - chordSq p q / 4 = (ρ * N / 2) ^ 2 := by
      rw [hch, mul_pow, hσ2, div_pow, mul_pow, hNN]
      linear_combination (-ρ ^ 2 / 4) * hsum
    rw [this]
    exact Real.sqrt_sq (by positivity)
  have s3 : |σ * ρ| = ρ := by
    rw [abs_mul, abs_of_pos hρ]
    rcases hσ with rfl | rfl <;> simp
  have cr : a * b' - b * a' = σ * (N * D / 2) := by
    have e1 : (σ * (a * b' - b * a')) ^ 2 = (N * D / 2) ^ 2 := by
      rw [mul_pow, hσ2, div_pow, mul_pow, hNN, hDD, hND]; ring
    have e2 : σ * (a * b' - b * a') = N * D / 2 := by
      rcases sq_eq_sq_iff_eq_or_eq_neg.mp e1 with e | e
      · exact e
      · have : 0 < N * D / 2 := by positivity
        linarith
    calc a * b' - b * a' = σ ^ 2 * (a * b' - b * a') := by rw [hσ2, one_mul]
      _ = σ * (σ * (a * b' - b * a')) := by ring
      _ = _ := by rw [e2]
  have dy : (b' - b) * N = σ * D * (a + a') := by
    have e : (b' - b) * N2 = 2 * (a * b' - b * a') * (a + a') := by
      rw [hN2]
      linear_combination (b + b') * u' - (b + b') * u
    rw [cr, ← hNN] at e
    have : ((b' - b) * N - σ * D * (a + a')) * N = 0 := by linear_combination e
    rcases mul_eq_zero.mp this with x | x
    · linarith
    · exact absurd x hNpos.ne'
  have dx : (a' - a) * N = -(σ * D * (b + b')) := by
    have e : (a' - a) * N2 = -(2 * (a * b' - b * a') * (b + b')) := by
      rw [hN2]
      linear_combination (a + a') * u' - (a + a') * u
    rw [cr, ← hNN] at e
    have : ((a' - a) * N + σ * D * (b + b')) * N = 0 := by linear_combination e
    rcases mul_eq_zero.mp this with x | x
    · linarith
    · exact absurd x hNpos.ne'
  have hk : (|σ * ρ| - Real.sqrt ((σ * ρ) ^ 2 - chordSq p q / 4)) / Real.sqrt (chordSq p q) * (σ * ρ) / |σ * ρ| = (1 - N / 2) / D * σ := by
    rw [s1, s2, s3]
    field_simp
  refine ⟨?_, ?_, hch, by rw [hch]; positivity, ?_⟩
  · rw [arcMid_bump, hk]
    unfold bump
    simp only
    rw [px, py, qx, qy]
    field_simp
    linear_combination (ρ * σ * (2 - N)) * dy + ρ * D * (a + a') * (2 - N) * hσ2
  · rw [arcMid_bump, hk]
    unfold bump
    simp only
    rw [px, py, qx, qy]
    field_simp
    linear_combination (-ρ * σ * (2 - N)) * dx + ρ * D * (b + b') * (2 - N) * hσ2
  · rw [hch, mul_pow, hσ2]
    have := mul_le_mul_of_nonneg_left (show D2 ≤ 4 by linarith) (sq_nonneg ρ)
    linarith

/-- The points in the middle of the lateral sides are on the circle of the mean radius. -/
theorem Spec.Sector.mid {el : Elem ℝ} {h : Nat} {cx cy r1 r2 : ℝ} {ux uy : Nat → ℝ} (S : Sector el h cx cy ux uy r1 r2) (q : Nat) (hq : q < 2) :
    (colPt Real.sqrt el h q 1).x = cx + |(r1 + r2) / 2| * ux q ∧ (colPt Real.sqrt el h q 1).y = cy + |(r1 + r2) / 2| * uy q := by
  have habs : |(r1 + r2) / 2| = (|r1| + |r2|) / 2 := by
    rcases pos_and_pos_or_neg_and_neg_of_mul_pos S.sign with ⟨a, b⟩ | ⟨a, b⟩
    · rw [abs_of_pos a, abs_of_pos b, abs_of_pos (by linarith)]
    · rw [abs_of_neg a, abs_of_neg b, abs_of_neg (by linarith)]; ring
  unfold colPt
  rw [if_neg (by decide), if_pos rfl, S.lat q hq, habs]
  simp only [Curve.mid]
  rw [(S.ptLo q hq).1, (S.ptLo q hq).2, (S.ptHi q hq).1, (S.ptHi q hq).2]
  constructor <;> ring

/-- **C108**, rings: the new edge in the middle of a sector of a ring is the arc of the mean radius, if the rays are not too close. -/
theorem C108_ring (el : Elem ℝ) (h : Nat) (cx cy r1 r2 : ℝ) (ux uy : Nat → ℝ) (S : Sector el h cx cy ux uy r1 r2)
    (hf : 1 / 2500 ^ 2 < (ux 1 - ux 0) ^ 2 + (uy 1 - uy 0) ^ 2) : blend Real.sqrt el h = .arc ((r1 + r2) / 2) := by
  obtain ⟨σ, hσ, e1, e2⟩ : ∃ σ : ℝ, (σ = 1 ∨ σ = -1) ∧ r1 = σ * |r1| ∧ r2 = σ * |r2| := by
    rcases pos_and_pos_or_neg_and_neg_of_mul_pos S.sign with ⟨a, b⟩ | ⟨a, b⟩
    · exact ⟨1, Or.inl rfl, by rw [abs_of_pos a, one_mul], by rw [abs_of_pos b, one_mul]⟩
    · exact ⟨-1, Or.inr rfl, by rw [abs_of_neg a]; ring, by rw [abs_of_neg b]; ring⟩
  have p1 : 0 < |r1| := abs_pos.mpr (fun e => by have := S.sign; rw [e, zero_mul] at this; exact lt_irrefl _ this)
  have p2 : 0 < |r2| := abs_pos.mpr (fun e => by have := S.sign; rw [e, mul_zero] at this; exact lt_irrefl _ this)
  have hb : 0 < σ * (ux 0 * uy 1 - uy 0 * ux 1) := by
    have := S.bend
    rw [e1, mul_comm σ, mul_assoc] at this
    exact (mul_pos_iff_of_pos_left p1).mp this
  have hR : (r1 + r2) / 2 = σ * ((|r1| + |r2|) / 2) := by
    nth_rewrite 1 [e1, e2]
    ring
  have hσ1 : |σ| = 1 := by rcases hσ with rfl | rfl <;> simp
  have hRa : |(r1 + r2) / 2| = (|r1| + |r2|) / 2 := by
    rw [hR, abs_mul, hσ1, one_mul, abs_of_pos (by positivity)]
  set ρ := (|r1| + |r2|) / 2 with hρ
  have pρ : 0 < ρ := by positivity
  have u0 := S.unit 0 (by decide)
  have u1 := S.unit 1 (by decide)
  obtain ⟨l0, l0'⟩ := S.ptLo 0 (by decide)
  obtain ⟨l1, l1'⟩ := S.ptLo 1 (by decide)
  obtain ⟨h0, h0'⟩ := S.ptHi 0 (by decide)
  obtain ⟨h1, h1'⟩ := S.ptHi 1 (by decide)
  obtain ⟨m0, m0'⟩ := S.mid 0 (by decide)
  obtain ⟨m1, m1'⟩ := S.mid 1 (by decide)
  rw [hRa] at m0 m0' m1 m1'
  obtain ⟨a1, a2, -⟩ := arcMid_ray σ |r1| cx cy _ _ _ _ hσ p1 u0 u1 hb _ _ l0 l0' l1 l1'
  obtain ⟨b1, b2, -⟩ := arcMid_ray σ |r2| cx cy _ _ _ _ hσ p2 u0 u1 hb _ _ h0 h0' h1 h1'
  set P : V3 ℝ := ⟨(colPt Real.sqrt el h 0 1).x, (colPt Real.sqrt el h 0 1).y, 0⟩ with hP
  set Q : V3 ℝ := ⟨(colPt Real.sqrt el h 1 1).x, (colPt Real.sqrt el h 1 1).y, 0⟩ with hQ
  obtain ⟨c1, c2, c3, c4, c5⟩ := arcMid_ray σ ρ cx cy _ _ _ _ hσ pρ u0 u1 hb P Q m0 m0' m1 m1'
  rw [← e1] at a1 a2
  rw [← e2] at b1 b2
  rw [← hR] at c1 c2 c5
  -- the middle of the new edge
  have hm : (⟨(blendMid Real.sqrt el h).x, (blendMid Real.sqrt el h).y, 0⟩ : V3 ℝ) = arcMid Real.sqrt ((r1 + r2) / 2) P Q := by
    have hz : (arcMid Real.sqrt ((r1 + r2) / 2) P Q).z = 0 := by simp [arcMid, hP, hQ]
    have hx : (blendMid Real.sqrt el h).x = (arcMid Real.sqrt ((r1 + r2) / 2) P Q).x := by
      unfold blendMid
      simp only [S.lo, S.hi, Curve.mid]
      rw [c1, a1, b1, l0, l1, h0, h1, m0, m1, hρ]
      ring
    have hy : (blendMid Real.sqrt el h).y = (arcMid Real.sqrt ((r1 + r2) / 2) P Q).y := by
      unfold blendMid
      simp only [S.lo, S.hi, Curve.mid]
      rw [c2, a2, b2, l0', l1', h0', h1', m0', m1', hρ]
      ring
    rw [hx, hy, ← hz]
  have hlt : ((r1 + r2) / 2) ^ 2 < 2500 ^ 2 * chordSq P Q := by
    rw [c3, ← sq_abs, hRa]
    have := mul_lt_mul_of_pos_left hf (pow_pos pρ 2)
    rw [mul_one_div, div_lt_iff₀ (by norm_num)] at this
    rw [mul_comm]
    exact this
  have hne : (r1 + r2) / 2 ≠ 0 := by
    rw [hR]
    exact mul_ne_zero (by rcases hσ with rfl | rfl <;> norm_num) pρ.ne'
  unfold blend
  rw [S.lo, S.hi]
  simp only
  by_cases hh : h < 2
  · rw [if_pos hh]
    unfold arcThrough
    rw [hm, circle3_arcMid P Q _ rfl c4 c5, if_pos hlt]
    simp only
    rw [if_neg hne]
  · rw [if_neg hh]
    unfold arcThrough
    have hs : chordSq Q P = chordSq P Q := by unfold chordSq; ring
    rw [hm, ← arcMid_rev, circle3_arcMid Q P _ rfl (by rw [hs]; exact c4) (by rw [hs, neg_sq]; exact c5), hs, neg_sq, if_pos hlt]
    simp only
    rw [if_neg (neg_ne_zero.mpr hne)]
    simp [Curve.rev]

/-- The same for `extrude_mid`: all edges of the new elements between the middles of the lateral sides are arcs of the mean radius. -/
theorem C108_extrude (M : HexaData ℝ) (z : List ℝ) (l1 l2 : List Name) (f : ℝ → ℝ → ℝ) (nb : Nat) (A : MidArgs M z l1 l2 f nb)
    (ib : Bool) (h : Nat → Nat) (H : ∀ i < M.nel, HighSide f (M.el i) (h i)) (P : ∀ i < M.nel, PlainCurves (M.el i) ∧ LatApart (M.el i) (h i)) :
    ∃ M' R, extrudeMid Real.sqrt M z l1 l2 f ib = .ok (M', R) ∧ ∀ i < M.nel, ∀ cx cy r1 r2 ux uy, Sector (M.el i) (h i) cx cy ux uy r1 r2 →
      1 / 2500 ^ 2 < (ux 1 - ux 0) ^ 2 + (uy 1 - uy 0) ^ 2 → ∀ j < 6, ∀ e < 12, (vtxFrom (h i) 0 j e).col = 1 →
      ((vtxFrom (h i) 0 j e).q = 0 → (vtxTo (h i) 0 j e).q = 1 → curveAt (R.el (6 * i + j)) e = .arc ((r1 + r2) / 2)) ∧
      ((vtxFrom (h i) 0 j e).q = 1 → (vtxTo (h i) 0 j e).q = 0 → curveAt (R.el (6 * i + j)) e = .arc (-((r1 + r2) / 2))) := by
  obtain ⟨M', R, h1, h2⟩ := C107_edges Real.sqrt M z l1 l2 f nb A ib h H P
  refine ⟨M', R, h1, fun i hi cx cy r1 r2 ux uy S hf j hj e he hc => ?_⟩
  obtain ⟨-, -, h3⟩ := h2 0 A.pos i hi (Or.inl rfl) j hj e he
  rw [show 6 * (i + M.nel * 0) + j = 6 * i + j by ring] at h3
  have hbl := C108_ring (M.el i) (h i) cx cy r1 r2 ux uy S hf
  constructor
  · intro q0 q1
    rw [h3]
    unfold edgeCurve
    rw [if_pos (by rw [q0, q1]; decide), hc, q0]
    simp [hbl, Curve.atZ]
  · intro q1 q0
    rw [h3]
    unfold edgeCurve
    rw [if_pos (by rw [q0, q1]; decide), hc, q1]
    simp [hbl, Curve.atZ, Curve.rev]

namespace Samples

/-- A sector of the ring with the radii 5 and 10. -/
def ringElem {F : Type} [Field F] : Elem F :=
  { (Elem.new 0 0 0 2 2 1 1 : Elem F) with
    pos := ⟨3, 1, 2, 2, fun d _ j i => if d = 0 then 4 * ((j : F) + 1) else if d = 1 then ((j : F) + 1) * (6 * (i : F) - 3) else 0⟩
    ccurv := fun e => if e = 0 ∨ e = 2 then ['C'] else []
    curv := fun e q => if q = 0 then (if e = 0 then 5 else if e = 2 then -10 else 0) else 0 }

def ringMesh {F : Type} [Field F] : HexaData F :=
  { (HexaData.new .little 2 1 ⟨2, 2, 1, true⟩ ⟨3, 0, 0, 0, 0⟩ 1 : HexaData F) with elem := [ringElem] }

theorem ring_el {F : Type} [Field F] : (ringMesh : HexaData F).el 0 = ringElem := rfl

theorem ring_sector : Sector ringElem 2 0 0 (fun _ => 4 / 5) (fun q => if q = 0 then -3 / 5 else 3 / 5) 5 10 where
  unit := by
    intro q hq
    interval_cases q <;> norm_num
  lo := by simp [sideCurve, opp, curveAt, ringElem]
  hi := by simp [sideCurve, curveAt, ringElem, Curve.rev]
  lat := by
    intro q hq
    interval_cases q <;> simp [latCurve, latSide, sideCurve, curveAt, ringElem, Curve.rev]
  ptLo := by
    intro q hq
    interval_cases q <;> norm_num [sidePt, vert, point, opp, sideCorner, ringElem]
  ptHi := by
    intro q hq
    interval_cases q <;> norm_num [sidePt, vert, point, opp, sideCorner, ringElem]
  sign := by norm_num
  bend := by norm_num

def ringSplit (x y : ℝ) : ℝ := x ^ 2 + y ^ 2 - 50

theorem ring_high : HighSide ringSplit ringElem 2 := by
  refine ⟨by decide, fun ky hy kx hx => ?_⟩
  interval_cases ky <;> interval_cases kx <;> norm_num [cornerVal, ringSplit, ringElem, OnSide]

theorem ring_args : MidArgs ringMesh [0, 1, 2, 3, 4] [nW] [nW] ringSplit 1 where
  wf := ⟨rfl, by simp [ringMesh, ringElem, Elem.new, HexaData.new], Or.inl rfl⟩
  ndim := rfl
  lr1 := rfl
  var := by decide
  corners := by
    intro i hi
    obtain rfl : i = 0 := by change i < 1 at hi; omega
    exact ⟨le_refl _, le_refl _, le_refl _⟩
  z := rfl
  pos := by decide
  len1 := by decide
  len2 := by decide
  ends := by
    rintro ⟨b, a, c, h1, h2, h3⟩
    rw [h1] at h2
    obtain rfl := Option.some.inj h2
    exact h3 Iff.rfl
  two := by
    intro i hi
    obtain rfl : i = 0 := by change i < 1 at hi; omega
    rw [ring_el]
    norm_num [lowCount, cornerVal, ringSplit, ringElem]
  noS := by
    intro i hi e he
    obtain rfl : i = 0 := by change i < 1 at hi; omega
    rw [ring_el]
    interval_cases e <;> simp [ringElem]

end Samples

/-- The sector: the edge 2 of element 0 and the edge 0 of element 1 are arcs of radius 7.5. -/
example : ∃ M' R, extrudeMid Real.sqrt Samples.ringMesh [0, 1, 2, 3, 4] [Samples.nW] [Samples.nW] Samples.ringSplit true = .ok (M', R) ∧
    curveAt (R.el 0) 2 = .arc (-((5 + 10) / 2)) ∧ curveAt (R.el 1) 0 = .arc ((5 + 10) / 2) := by
  obtain ⟨M', R, h1, h2⟩ := C108_extrude _ _ _ _ _ _ Samples.ring_args true (fun _ => 2)
    (by
      intro i hi
      obtain rfl : i = 0 := by change i < 1 at hi; omega
      exact Samples.ring_high)
    (by
      intro i hi
      obtain rfl : i = 0 := by change i < 1 at hi; omega
      refine ⟨⟨fun e he => ?_, fun e h8 h12 => ?_⟩, fun q hq hm => ?_⟩
      · rw [Samples.ring_el]
        interval_cases e <;> simp [Samples.ringElem]
      · rw [Samples.ring_el]
        simp [Samples.ringElem, show e ≠ 0 by omega, show e ≠ 2 by omega]
      · rw [Samples.ring_el]
        interval_cases q <;> norm_num [sidePt, vert, point, opp, sideCorner, Samples.ringElem])
  have h3 := h2 0 (by decide) 0 0 5 10 _ _ Samples.ring_sector (by norm_num)
  exact ⟨M', R, h1, (h3 0 (by decide) 2 (by decide) (by decide)).2 (by decide) (by decide),
    (h3 1 (by decide) 0 (by decide) (by decide)).1 (by decide) (by decide)⟩

/-- The arc of radius 5 over the chord of length 6, and back; and from the point (3, -1). -/
example : ∃ m el' r c el'', edgeMid Real.sqrt Samples.arcElem 0 = .ok (m, el') ∧ edgeCircle Real.sqrt el' 0 m = .ok ((r, c), el'') ∧ r = 5 := by
  obtain ⟨m, el', r, c, el'', h1, h2, h3, -⟩ := C108_radius Samples.arcElem 0 (by unfold HasEdge; decide) (by decide) ⟨0, 0, 0⟩ ⟨6, 0, 0⟩
    (by simp [edgeFrom, point, edgeVertex, Samples.arcElem]) (by simp [edgeTo, point, edgeVertex, Samples.arcElem]) rfl (by norm_num [chordSq])
    (by norm_num [chordSq, Samples.arcElem])
  exact ⟨m, el', r, c, el'', h1, h2, (h3 (by norm_num [chordSq, Samples.arcElem])).trans (by simp [Samples.arcElem])⟩

example : ∃ r c el' m' el'', edgeCircle Real.sqrt Samples.arcElem 0 ⟨3, -1, 0⟩ = .ok ((r, c), el') ∧
    edgeMid Real.sqrt (el'.setType 0 ['C']) 0 = .ok (m', el'') ∧ m' = ⟨3, -1, 0⟩ := by
  obtain ⟨r, c, el', m', el'', h1, h2, h3, -⟩ := C108_mid Samples.arcElem 0 (by unfold HasEdge; decide) ⟨0, 0, 0⟩ ⟨6, 0, 0⟩ ⟨3, -1, 0⟩
    (by simp [edgeFrom, point, edgeVertex, Samples.arcElem]) (by simp [edgeTo, point, edgeVertex, Samples.arcElem]) rfl rfl (by norm_num [chordSq])
    (by norm_num [chordSq]) (by norm_num [lenSq, triSq])
  exact ⟨r, c, el', m', el'', h1, h2, h3 (by norm_num [chordSq])⟩

/-- The point (3, -9) is the middle of the longer arc: `edge_mid` finds (3, -1). -/
example : ∃ r c el' m' el'', edgeCircle Real.sqrt Samples.arcElem 0 ⟨3, -9, 0⟩ = .ok ((r, c), el') ∧
    edgeMid Real.sqrt (el'.setType 0 ['C']) 0 = .ok (m', el'') ∧ m' ≠ ⟨3, -9, 0⟩ := by
  obtain ⟨r, c, el', m', el'', h1, h2, -, h3, -⟩ := C108_mid Samples.arcElem 0 (by unfold HasEdge; decide) ⟨0, 0, 0⟩ ⟨6, 0, 0⟩ ⟨3, -9, 0⟩
    (by simp [edgeFrom, point, edgeVertex, Samples.arcElem]) (by simp [edgeTo, point, edgeVertex, Samples.arcElem]) rfl rfl (by norm_num [chordSq])
    (by norm_num [chordSq]) (by norm_num [lenSq, triSq])
  exact ⟨r, c, el', m', el'', h1, h2, h3 (by norm_num [chordSq])⟩

end Pymech
