import Verif.Props.Newton
import Verif.Props.CircleGeom

/-!
# The default spacing of `gen_circle`: C102
-/

set_option autoImplicit false

namespace Pymech

open Spec

/-- **C102**, the search for the length of the first layer: secant steps from 1 and 0 on, until the error at the last but one of the lengths is at
most 1e-12, at most 10000 of them. -/
theorem C102_secant {F : Type} [Field F] [LinearOrder F] (err : F → Py F) (e0 l : F) (h0 : err 1 = .ok e0) (h : secant err 10000 1 0 e0 = .ok l) :
    ∃ (k : Nat) (x e : Nat → F), k ≤ 10000 ∧ x 0 = 1 ∧ x 1 = 0 ∧ x (k + 1) = l ∧ (∀ i ≤ k, err (x i) = .ok (e i)) ∧
      (∀ i < k, 1 / 1000000000000 < |e i| ∧ e (i + 1) - e i ≠ 0 ∧
        x (i + 2) = x (i + 1) - (x (i + 1) - x i) / (e (i + 1) - e i) * e (i + 1)) ∧
      (k < 10000 → |e k| ≤ 1 / 1000000000000) := by
  have key : ∀ (f : Nat) (a b ea : F), err a = .ok ea → secant err f a b ea = .ok l →
      ∃ (k : Nat) (x e : Nat → F), k ≤ f ∧ x 0 = a ∧ x 1 = b ∧ x (k + 1) = l ∧ (∀ i ≤ k, err (x i) = .ok (e i)) ∧ e 0 = ea ∧
        (∀ i < k, 1 / 1000000000000 < |e i| ∧ e (i + 1) - e i ≠ 0 ∧
          x (i + 2) = x (i + 1) - (x (i + 1) - x i) / (e (i + 1) - e i) * e (i + 1)) ∧
        (k < f → |e k| ≤ 1 / 1000000000000) := by
    intro f
    induction f with
    | zero =>
      intro a b ea he h
      refine ⟨0, fun i => if i = 0 then a else b, fun _ => ea, le_refl _, rfl, rfl, Except.ok.inj h, ?_, rfl, by simp, by simp⟩
      intro i hi
      have : i = 0 := by omega
      subst this
      exact he
    | succ f ih =>
      intro a b ea he h
      unfold secant at h
      split at h
      · next hr =>
        cases h1 : err b with
        | error x => rw [h1] at h; exact absurd h (by simp [bind, Except.bind])
        | ok eb =>
        rw [h1] at h
        simp only [bind, Except.bind] at h
        cases h2 : pyDiv (b - a) (eb - ea) with
        | error x => rw [h2] at h; exact absurd h (by simp)
        | ok q =>
        rw [h2] at h
        obtain ⟨hne, hq⟩ := pyDiv_eq h2
        obtain ⟨k, x, e, c1, c2, c3, c4, c5, c6, c7, c8⟩ := ih b _ eb h1 h
        refine ⟨k + 1, fun i => if i = 0 then a else x (i - 1), fun i => if i = 0 then ea else e (i - 1), by omega, rfl, by simpa using c2,
          by simpa using c4, ?_, rfl, ?_, ?_⟩
        · intro i hi
          rcases Nat.eq_zero_or_pos i with rfl | hp
          · simpa using he
          · obtain ⟨j, rfl⟩ : ∃ j, i = j + 1 := ⟨i - 1, by omega⟩
            simpa using c5 j (by omega)
        · intro i hi
          rcases Nat.eq_zero_or_pos i with rfl | hp
          · simp only [if_true, zero_add, one_ne_zero, if_false, Nat.sub_self, c6, c2]
            refine ⟨hr, hne, ?_⟩
            have : x 1 = b - q * eb := c3
            simp [this, hq]
          · obtain ⟨j, rfl⟩ : ∃ j, i = j + 1 := ⟨i - 1, by omega⟩
            simpa using c7 j (by omega)
        · intro hk
          simpa using c8 (by omega)
      · next hr =>
        refine ⟨0, fun i => if i = 0 then a else b, fun _ => ea, Nat.zero_le _, rfl, rfl, Except.ok.inj h, ?_, rfl, by simp, fun _ => not_lt.1 hr⟩
        intro i hi
        have : i = 0 := by omega
        subst this
        exact he
  obtain ⟨k, x, e, c1, c2, c3, c4, c5, -, c7, c8⟩ := key 10000 1 0 e0 h0 h
  exact ⟨k, x, e, c1, c2, c3, c4, c5, c7, c8⟩

namespace Spec

/-- Side of the square. -/
def side (r s sqrt2 : ℝ) : ℝ := s * r * sqrt2

/-- Distance between the sides of the square and of the largest square in the circle. -/
noncomputable def gap (r s sqrt2 : ℝ) : ℝ := (r * sqrt2 - side r s sqrt2) / 2

/-- Length of the first layer between the middle of a side of the square and the circle, if it has the length `l` before stretching. -/
noncomputable def stretched (r s sqrt2 l e : ℝ) : ℝ := l / gap r s sqrt2 * ((1 - e) * gap r s sqrt2 + e * (r - side r s sqrt2 / 2))

/-- The functions of the `math` module have the values they should have here. -/
structure MathOk (m : MathFns ℝ) : Prop where
  log : m.log = Real.log
  pow : ∀ (a : ℝ) (j : Nat), m.pow a j = .ok (a ^ j)
  cos : m.cos 0 = 1
  sin : m.sin 0 = 0
  atan : m.atan 0 = 0

end Spec

theorem mathOk_real : MathOk realFns := by
  refine ⟨rfl, fun a j => ?_, Real.cos_zero, Real.sin_zero, Real.arctan_zero⟩
  show (if a = 0 ∧ (j : ℝ) < 0 then _ else _) = _
  rw [if_neg (fun h => by have := Nat.cast_nonneg (α := ℝ) j; linarith [h.2]), Real.rpow_natCast]

theorem stretchErr_eq {m : MathFns ℝ} {cf : ℝ → Py ℝ} {r s l lref f : ℝ}
    (h : stretchErr m cf r s (1 / 2 * r * (1 - s) * m.sqrt2) l lref = .ok f) :
    gap r s m.sqrt2 ≠ 0 ∧ ∃ e, cf (l / gap r s m.sqrt2) = .ok e ∧ f = stretched r s m.sqrt2 l e - lref := by
  have hw : 1 / 2 * r * (1 - s) * m.sqrt2 = gap r s m.sqrt2 := by unfold gap side; ring
  rw [hw] at h
  unfold stretchErr at h
  cases h1 : pyDiv l (gap r s m.sqrt2) with
  | error x => rw [h1] at h; exact absurd h (by simp [bind, Except.bind])
  | ok q =>
  rw [h1] at h
  obtain ⟨h2, h3⟩ := pyDiv_eq h1
  simp only [bind, Except.bind] at h
  cases h4 : cf q with
  | error x => rw [h4] at h; exact absurd h (by simp)
  | ok e =>
  rw [h4] at h
  refine ⟨h2, e, by rw [← h3]; exact h4, ?_⟩
  rw [← Except.ok.inj h, h3]
  unfold stretched side
  ring

/-- The point of a layer on the middle ray. -/
theorem oCorner_middle (m : MathFns ℝ) (hm : MathOk m) (cf : ℝ → Py ℝ) (r s : ℝ) (k : Nat) (hk : 0 < k) (eta e : ℝ) (he : cf eta = .ok e) :
    oCorner m cf r (s * r * m.sqrt2) (2 * k) k eta =
      .ok (side r s m.sqrt2 / 2 + eta * ((1 - e) * gap r s m.sqrt2 + e * (r - side r s m.sqrt2 / 2)), 0) := by
  have hk' : (k : ℝ) ≠ 0 := by positivity
  have ha : 1 / 2 * m.pi * ((k : ℝ) / ((2 * k : Nat) : ℝ) - 1 / 2) = 0 := by
    push_cast
    field_simp
    ring
  have hb : 2 * (k : ℝ) / ((2 * k : Nat) : ℝ) - 1 = 0 := by
    push_cast
    field_simp
    ring
  unfold oCorner
  simp only [ha, hb, hm.atan, hm.cos, pyDiv_ok (one_ne_zero (α := ℝ)), bind, Except.bind, he, mul_zero, add_zero, hm.sin, pure, Except.pure, mul_one, div_one]
  unfold gap side
  congr 2
  ring

/-- **C102.** The default spacing function, if it exists, is a geometric progression with a first length and a ratio (or the identity, if
the ratio is close to 1) that starts at the side of the square; it ends on the circle if the ratio solves its equation (C66); and the
first layer is as wide as the elements of the square, on the middle ray, if the length solves its equation as well.
What is missing is that the function exists and that the solutions are exact: see `C65_false`, `C102_false`, `C102_secant` and C66. -/
theorem C102_partial (m : MathFns ℝ) (hm : MathOk m) (cf : ℝ → Py ℝ) (r s : ℝ) (ns no : Nat) (hno : 0 < no) (bl : ℝ → Py ℝ)
    (h : defaultBl m cf r s ns no = .ok bl) :
    ∃ l alpha : ℝ, refineParam m l (gap r s m.sqrt2) no (1 / 100000000000000) = .ok alpha ∧
      (∃ err : ℝ → Py ℝ, (∀ x f, err x = .ok f → ∃ e, cf (x / gap r s m.sqrt2) = .ok e ∧ f = stretched r s m.sqrt2 x e - side r s m.sqrt2 / ns) ∧
        ∃ e0, err 1 = .ok e0 ∧ secant err 10000 1 0 e0 = .ok l) ∧
      (|alpha - 1| < 1 / 1000000000000 → ∀ x, bl x = .ok x) ∧
      (1 / 1000000000000 ≤ |alpha - 1| → ∀ j : Nat, bl (j / no) = .ok (l * geomSum j alpha / gap r s m.sqrt2)) ∧
      bl 0 = .ok 0 ∧ (l * geomSum no alpha = gap r s m.sqrt2 → bl 1 = .ok 1) ∧
      ∀ k, ns = 2 * k → 0 < k → 1 / 1000000000000 ≤ |alpha - 1| ∨ l * geomSum no 1 = gap r s m.sqrt2 →
        ∀ e, cf (l / gap r s m.sqrt2) = .ok e → stretched r s m.sqrt2 l e = side r s m.sqrt2 / ns →
          ∃ eta, bl (1 / no) = .ok eta ∧ oCorner m cf r (s * r * m.sqrt2) ns k eta = .ok (side r s m.sqrt2 / 2 + side r s m.sqrt2 / ns, 0) := by
  have hw : 1 / 2 * r * (1 - s) * m.sqrt2 = gap r s m.sqrt2 := by unfold gap side; ring
  have hno' : (no : ℝ) ≠ 0 := by positivity
  unfold defaultBl at h
  cases h1 : pyDiv (s * r * m.sqrt2) (ns : ℝ) with
  | error x => rw [h1] at h; exact absurd h (by simp [bind, Except.bind])
  | ok sp =>
  obtain ⟨-, hsp⟩ := pyDiv_eq h1
  have hsp : sp = side r s m.sqrt2 / ns := hsp
  rw [h1] at h
  simp only [bind, Except.bind] at h
  cases h2 : stretchErr m cf r s (1 / 2 * r * (1 - s) * m.sqrt2) 1 sp with
  | error x => rw [h2] at h; exact absurd h (by simp)
  | ok f0 =>
  rw [h2] at h
  simp only at h
  obtain ⟨hg, -⟩ := stretchErr_eq h2
  cases h3 : secant (fun l => stretchErr m cf r s (1 / 2 * r * (1 - s) * m.sqrt2) l sp) 10000 1 0 f0 with
  | error x => rw [h3] at h; exact absurd h (by simp)
  | ok l =>
  rw [h3] at h
  simp only at h
  cases h4 : refineParam m l (1 / 2 * r * (1 - s) * m.sqrt2) no (1 / 100000000000000) with
  | error x => rw [h4] at h; exact absurd h (by simp)
  | ok alpha =>
  rw [h4] at h
  have hbl := Except.ok.inj h
  have near : |alpha - 1| < 1 / 1000000000000 → ∀ x, bl x = .ok x := by
    intro ha x
    rw [← hbl]
    simp only
    rw [if_pos ha]
  have far : 1 / 1000000000000 ≤ |alpha - 1| → ∀ j : Nat, bl (j / no) = .ok (l * geomSum j alpha / gap r s m.sqrt2) := by
    intro ha j
    have hne : alpha - 1 ≠ 0 := by
      intro h0; rw [h0, abs_zero] at ha; norm_num at ha
    have hgs : geomSum j alpha = (alpha ^ j - 1) / (alpha - 1) := geom_sum_eq (by intro h; exact hne (by rw [h]; ring)) j
    rw [← hbl]
    simp only
    rw [if_neg (not_lt.2 ha), hw, pyDiv_ok hg, div_mul_cancel₀ _ hno', hm.pow]
    simp only
    rw [pyDiv_ok hne, hgs]
    congr 1
    field_simp
  have cases_ : |alpha - 1| < 1 / 1000000000000 ∨ 1 / 1000000000000 ≤ |alpha - 1| := lt_or_ge _ _
  refine ⟨l, alpha, by rw [← hw]; exact h4, ⟨_, fun x f hf => ?_, f0, h2, h3⟩, near, far, ?_, ?_, ?_⟩
  · obtain ⟨-, e, h5, h6⟩ := stretchErr_eq hf
    exact ⟨e, h5, by rw [h6, hsp]⟩
  · rcases cases_ with ha | ha
    · exact near ha 0
    · have := far ha 0
      rw [Nat.cast_zero, zero_div] at this
      rw [this]
      simp [geomSum]
  · intro hl
    rcases cases_ with ha | ha
    · exact near ha 1
    · have := far ha no
      rw [div_self hno', hl, div_self hg] at this
      exact this
  · rintro k rfl hk ha e he hst
    have heta : bl (1 / no) = .ok (l / gap r s m.sqrt2) := by
      rcases cases_ with hb | hb
      · have hl := ha.resolve_left (not_le.2 hb)
        rw [geomSum_one] at hl
        rw [near hb, ← hl]
        congr 1
        have : l ≠ 0 := by
          rintro rfl
          rw [zero_mul] at hl
          exact hg hl.symm
        field_simp
      · have := far hb 1
        rw [Nat.cast_one] at this
        rw [this]
        simp [geomSum]
    refine ⟨_, heta, ?_⟩
    rw [oCorner_middle m hm cf r s k hk _ e he, ← hst]
    rfl

/-- **C102** is false in the code: the search starts at the length 1 without looking at it. If this happens to be the solution, here for a
square with four elements that leaves room for one more on each side, the length 0 is used instead and the logarithm of 0 is taken. -/
theorem C102_false (native : Endian) (var : Var) (bc : List Name) (ib : Bool) : ∃ r s : ℝ, 0 < r ∧ 0 < s ∧ s < 1 ∧
    genCircle native realFns r s 2 2 none none var bc ib = .error .valueError := by
  have h2 : Real.sqrt 2 * Real.sqrt 2 = 2 := Real.mul_self_sqrt (by norm_num)
  have hp : 0 < Real.sqrt 2 := Real.sqrt_pos.2 (by norm_num)
  have h1 : 1 < Real.sqrt 2 := by
    rw [show (1 : ℝ) = Real.sqrt 1 from Real.sqrt_one.symm]
    exact Real.sqrt_lt_sqrt (by norm_num) (by norm_num)
  set q := Real.sqrt 2 with hq
  have hr : 0 < 2 + 2 * q := by linarith
  refine ⟨2 + 2 * q, q / 2, hr, by linarith, by nlinarith, ?_⟩
  have hw : 1 / 2 * (2 + 2 * q) * (1 - q / 2) * q = 1 := by
    have : 1 / 2 * (2 + 2 * q) * (1 - q / 2) * q = q + q * q / 2 - q * q * q / 2 := by ring
    rw [this, h2]
    ring
  have hsp : q / 2 * (2 + 2 * q) * q / ((2 : Nat) : ℝ) = 1 + q := by
    push_cast
    have : q / 2 * (2 + 2 * q) * q / 2 = q * q * (1 + q) / 2 := by ring
    rw [this, h2]
    ring
  have htot : (2 + 2 * q) * (1 - 1 / 2 * q * (q / 2)) = 1 + q := by
    have : (2 + 2 * q) * (1 - 1 / 2 * q * (q / 2)) = (2 + 2 * q) * (1 - q * q / 4) := by ring
    rw [this, h2]
    ring
  have hcf : Real.sin (1 / 2 * Real.pi * 1) ^ 2 = 1 := by
    rw [show 1 / 2 * Real.pi * 1 = Real.pi / 2 by ring, Real.sin_pi_div_two]
    norm_num
  have hse : stretchErr realFns (fun x => .ok (realFns.sin (1 / 2 * realFns.pi * x) ^ 2)) (2 + 2 * q) (q / 2) 1 1 (1 + q) = .ok 0 := by
    unfold stretchErr
    rw [pyDiv_ok one_ne_zero]
    simp only [bind, Except.bind, div_one, realFns, hcf, ← hq, htot, pure, Except.pure]
    congr 1
    ring
  have hrp : refineParam realFns 0 1 2 (1 / 100000000000000) = .error .valueError := by
    unfold refineParam
    rw [show 10000 = 9999 + 1 from rfl, refineLoop, if_pos (by norm_num)]
    have : refineStep realFns 0 1 2 (1 : ℝ) = .error .valueError := by
      unfold refineStep refineErr
      rw [if_pos (by norm_num), pyDiv_ok one_ne_zero]
      simp [bind, Except.bind, pyLog]
    rw [this]
    rfl
  have hd : defaultBl realFns (fun x => .ok (realFns.sin (1 / 2 * realFns.pi * x) ^ 2)) (2 + 2 * q) (q / 2) 2 2 = .error .valueError := by
    unfold defaultBl
    have e2 : realFns.sqrt2 = q := rfl
    rw [e2, pyDiv_ok (by norm_num), hsp]
    simp only [bind, Except.bind, hw, hse]
    rw [show 10000 = 9999 + 1 from rfl, secant, if_neg (by norm_num)]
    simp only [hrp]
  unfold genCircle
  simp only [circleBl, Option.getD_none, hd]
  rfl

/-- Straight lines, a third of the diagonal in the square, two elements on its sides and two layers: all layers have the width of the elements of
the square. -/
theorem spacing_uniform : ∃ bl, defaultBl realFns (fun _ => .ok 0) 1 (1 / 3) 2 2 = .ok bl ∧ ∀ x, bl x = .ok x := by
  have hp : 0 < Real.sqrt 2 := Real.sqrt_pos.2 (by norm_num)
  have h2 : Real.sqrt 2 < 2 := by
    rw [Real.sqrt_lt' (by norm_num)]
    norm_num
  have h1 : 1 < Real.sqrt 2 := by
    rw [show (1 : ℝ) = Real.sqrt 1 from Real.sqrt_one.symm]
    exact Real.sqrt_lt_sqrt (by norm_num) (by norm_num)
  set q := Real.sqrt 2 with hq
  have hw : 1 / 2 * 1 * (1 - 1 / 3) * q = q / 3 := by ring
  have hne : q / 3 ≠ 0 := by positivity
  have hse : ∀ l, stretchErr realFns (fun _ => .ok 0) 1 (1 / 3) (q / 3) l (q / 6) = .ok (l - q / 6) := by
    intro l
    unfold stretchErr
    rw [pyDiv_ok hne]
    simp only [bind, Except.bind, pure, Except.pure]
    congr 1
    field_simp
    ring
  have hsec : secant (fun l => (.ok (l - q / 6) : Py ℝ)) 10000 1 0 (1 - q / 6) = .ok (q / 6) := by
    rw [show 10000 = 9997 + 1 + 1 + 1 from rfl, secant, if_pos (by rw [abs_of_pos (by linarith)]; linarith)]
    simp only [bind, Except.bind]
    rw [pyDiv_ok (by ring_nf; norm_num)]
    simp only
    rw [secant, if_pos (by rw [abs_of_neg (by linarith)]; linarith)]
    have e : (0 : ℝ) - (0 - 1) / (0 - q / 6 - (1 - q / 6)) * (0 - q / 6) = q / 6 := by
      rw [show (0 : ℝ) - q / 6 - (1 - q / 6) = -1 by ring]
      ring
    simp only [bind, Except.bind, e, sub_self]
    rw [pyDiv_ok (by rw [zero_sub, zero_sub, neg_neg]; positivity)]
    simp only
    rw [secant, if_neg (by rw [abs_zero]; norm_num)]
    simp
  have hrp := C66_one realFns rfl (q / 6) (q / 3) 2 (1 / 100000000000000) (le_refl 2) (by positivity) (by push_cast; ring)
  unfold defaultBl
  have e2 : realFns.sqrt2 = q := rfl
  have hsp : 1 / 3 * 1 * q / ((2 : Nat) : ℝ) = q / 6 := by push_cast; ring
  rw [e2, pyDiv_ok (by norm_num), hsp, hw]
  simp only [bind, Except.bind, hse, hsec, hrp]
  refine ⟨_, rfl, fun x => ?_⟩
  rw [if_pos (by norm_num)]

example : ∃ bl eta, defaultBl realFns (fun _ => .ok 0) 1 (1 / 3) 2 2 = .ok bl ∧ bl (1 / 2) = .ok eta ∧
    oCorner realFns (fun _ => .ok 0) 1 (1 / 3 * 1 * realFns.sqrt2) 2 1 eta = .ok (side 1 (1 / 3) (Real.sqrt 2), 0) := by
  obtain ⟨bl, h1, h2⟩ := spacing_uniform
  refine ⟨bl, 1 / 2, h1, h2 _, ?_⟩
  have := oCorner_middle realFns mathOk_real (fun _ => .ok 0) 1 (1 / 3) 1 one_pos (1 / 2) 0 rfl
  refine this.trans ?_
  unfold gap
  congr 2
  show _ = 1 / 3 * 1 * Real.sqrt 2
  unfold side
  show 1 / 3 * 1 * Real.sqrt 2 / 2 + _ * (_ * ((1 * Real.sqrt 2 - 1 / 3 * 1 * Real.sqrt 2) / 2) + _ * _) = _
  ring

end Pymech
