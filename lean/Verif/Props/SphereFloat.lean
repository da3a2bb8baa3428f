import Verif.Props.ArcFloat

/-!
# C152: edges on spheres in double precision
-/

set_option autoImplicit false

namespace Pymech

open Spec Flt

namespace Spec

/-- `t` is the point at distance `|R|` from the centre `c` in the direction of the middle of the chord (opposite to it for a negative radius). -/
structure SphereMiddle (R : ℝ) (c p q t : V3 ℝ) : Prop where
  sphere : (t.x - c.x) ^ 2 + (t.y - c.y) ^ 2 + (t.z - c.z) ^ 2 = R ^ 2
  ray : ∃ k, 0 < k * R ∧ t.x - c.x = k * ((p.x + q.x) / 2 - c.x) ∧ t.y - c.y = k * ((p.y + q.y) / 2 - c.y) ∧
    t.z - c.z = k * ((p.z + q.z) / 2 - c.z)

/-- The square of the distance of the middle of the chord from the centre. -/
noncomputable def middleSqR (c p q : V3 ℝ) : ℝ := ((p.x + q.x) / 2 - c.x) ^ 2 + ((p.y + q.y) / 2 - c.y) ^ 2 + ((p.z + q.z) / 2 - c.z) ^ 2

end Spec

section
variable {H η : ℝ}

/-- One component of the direction. -/
theorem sphere_dir (W : RoundR H η) {X D : ℝ} {x y c : F64} (fx : x.Finite) (fy : y.Finite) (fc : c.Finite) (hx : |toR x| ≤ X) (hy : |toR y| ≤ X)
    (hc : |toR c| ≤ X) (hη : η ≤ 1) (hH : 4 * X + 8 ≤ H) (hη1 : η ≤ D / 2 ^ 70) (hX : X ≤ 2 ^ 10 * D) :
    ((y + x) / 2 - c).Finite ∧ |toR ((y + x) / 2 - c) - ((toR x + toR y) / 2 - toR c)| ≤ D / 2 ^ 39 := by
  have η0 := W.η0
  have X0 : 0 ≤ X := (abs_nonneg _).trans hx
  obtain ⟨f1, e1⟩ := half_near W fx fy hx hy hη (by linarith)
  have e1' := abs_le.mp e1
  have hx' := abs_le.mp hx
  have hy' := abs_le.mp hy
  have hc' := abs_le.mp hc
  obtain ⟨f2, e2⟩ := W.sub (B := 3 * X + 2 * η) f1 fc (by rw [abs_le]; constructor <;> linarith) (by linarith)
  have e2' := abs_le.mp e2
  refine ⟨f2, ?_⟩
  rw [abs_le]
  constructor <;> linarith

/-- One component of the square of the direction. -/
theorem sphere_sq {L : Libm} {G : ℝ} (LR : LibmR L G η) {D a : ℝ} (hD : 0 < D) {d : F64} (fd : d.Finite) (ha : |a| ≤ D) (e : |toR d - a| ≤ D / 2 ^ 39)
    (hη2 : η ≤ D ^ 2 / 2 ^ 70) (hG : 2 * D ≤ G) :
    (L.sq d).Finite ∧ 0 ≤ toR (L.sq d) ∧ |toR (L.sq d) - a ^ 2| ≤ D ^ 2 / 2 ^ 37 := by
  have b := near_abs e ha
  obtain ⟨f, p, e1⟩ := LR.sq d fd (b.trans (by linarith))
  refine ⟨f, p, ?_⟩
  have e2 := near_sq (c := D) (δ := 1 / 2 ^ 39) (by rw [mul_one_div]; exact e) ha
  have e2' := abs_le.mp e2
  have D2 : 0 < D ^ 2 := by positivity
  have sq2 : toR d ^ 2 ≤ 2 * D ^ 2 := by
    clear * - e2' D2 ha
    have a2 : a ^ 2 ≤ D ^ 2 := by rw [← sq_abs a]; exact pow_le_pow_left₀ (abs_nonneg _) ha 2
    norm_num at e2'
    linarith [e2'.2]
  have e1' := abs_le.mp e1
  clear * - e1' e2' sq2 hη2 D2
  rw [abs_le]
  norm_num at *
  constructor <;> linarith [e1'.1, e1'.2, e2'.1, e2'.2]

/-- The norm of the direction. -/
theorem sphere_norm (W : RoundR H η) {L : Libm} {G : ℝ} (LR : LibmR L G η) {D a b c : ℝ} (hD : 0 < D) (hs : a ^ 2 + b ^ 2 + c ^ 2 = D ^ 2) {x y z : F64}
    (fx : x.Finite) (fy : y.Finite) (fz : z.Finite) (x0 : 0 ≤ toR x) (y0 : 0 ≤ toR y) (z0 : 0 ≤ toR z) (ex : |toR x - a ^ 2| ≤ D ^ 2 / 2 ^ 37) (ey : |toR y - b ^ 2| ≤ D ^ 2 / 2 ^ 37)
    (ez : |toR z - c ^ 2| ≤ D ^ 2 / 2 ^ 37) (hη2 : η ≤ D ^ 2 / 2 ^ 70) (hH : 4 * D ^ 2 ≤ H) :
    (L.sqrt (x + y + z)).Finite ∧ |toR (L.sqrt (x + y + z)) - D| ≤ D / 2 ^ 35 := by
  have D2 : 0 < D ^ 2 := by positivity
  have ex' := abs_le.mp ex
  have ey' := abs_le.mp ey
  have ez' := abs_le.mp ez
  have η0 := W.η0
  have ha := sq_nonneg a
  have hb := sq_nonneg b
  have hc := sq_nonneg c
  obtain ⟨f1, e1⟩ := W.add (B := 2 * D ^ 2) fx fy (by rw [abs_le]; constructor <;> linarith) (by linarith)
  have e1' := abs_le.mp e1
  obtain ⟨f2, e2⟩ := W.add (B := 3 * D ^ 2) f1 fz (by rw [abs_le]; constructor <;> linarith) (by linarith)
  have e2' := abs_le.mp e2
  obtain ⟨f3, p3, e3⟩ := LR.sqrt _ f2 (by linarith)
  have e3' := abs_le.mp e3
  refine ⟨f3, root_near_far p3 hD le_rfl ?_⟩
  have : D * (D / 2 ^ 35) = D ^ 2 / 2 ^ 35 := by ring
  rw [this, abs_le]
  constructor <;> linarith

/-- One coordinate of the result. -/
theorem sphere_coord (W : RoundR H η) {D X r a : ℝ} (hD : 0 < D) (hr : 0 < r) {d n R c : F64} (fd : d.Finite) (fn : n.Finite) (fR : R.Finite)
    (fc : c.Finite) (ha : |a| ≤ D) (e : |toR d - a| ≤ D / 2 ^ 39) (en : |toR n - D| ≤ D / 2 ^ 35) (hR : |toR R| = r) (hc : |toR c| ≤ X)
    (hη1 : η ≤ r * D / 2 ^ 70) (hη2 : η ≤ r / 2 ^ 70) (hH1 : 2 * (r * D) ≤ H) (hH2 : 4 * r + X ≤ H) :
    (c + d * R / n).Finite ∧ |toR (c + d * R / n) - (toR c + toR R / D * a)| ≤ r / 2 ^ 32 + X / 2 ^ 50 := by
  have X0 : 0 ≤ X := (abs_nonneg _).trans hc
  have rD : 0 < r * D := mul_pos hr hD
  have b := near_abs e ha
  have bR : |toR d * toR R| ≤ 2 * (r * D) := by
    rw [abs_mul, hR]
    calc |toR d| * r ≤ (2 * D) * r := mul_le_mul_of_nonneg_right (b.trans (by linarith)) hr.le
      _ = 2 * (r * D) := by ring
  obtain ⟨f1, e1⟩ := W.mul fd fR bR hH1
  have e2 : |toR d * toR R - a * toR R| ≤ r * D / 2 ^ 39 := by
    rw [← sub_mul, abs_mul, hR]
    calc |toR d - a| * r ≤ D / 2 ^ 39 * r := mul_le_mul_of_nonneg_right e hr.le
      _ = r * D / 2 ^ 39 := by ring
  have e3 : |toR (d * R) - a * toR R| ≤ r * D / 2 ^ 38 := (near_trans e1 e2).trans (by linarith)
  have en' := abs_le.mp en
  have n0 : D / 2 ≤ toR n := by linarith
  have np : 0 < toR n := by linarith
  -- the quotient
  have aR : |a * toR R| ≤ r * D := by
    rw [abs_mul, hR, mul_comm]
    exact mul_le_mul_of_nonneg_left ha hr.le
  have e4 : |toR (d * R) / toR n - toR R / D * a| ≤ r / 2 ^ 33 := by
    have i : toR (d * R) / toR n - toR R / D * a = ((toR (d * R) - a * toR R) - a * toR R * ((toR n - D) / D)) / toR n := by
      field_simp
      ring
    rw [i, abs_div, abs_of_pos np, div_le_iff₀ np]
    have q : |a * toR R * ((toR n - D) / D)| ≤ r * D / 2 ^ 35 := by
      rw [abs_mul]
      have q1 : |(toR n - D) / D| ≤ 1 / 2 ^ 35 := by
        rw [abs_div, abs_of_pos hD, div_le_iff₀ hD]
        exact en.trans (by linarith)
      calc |a * toR R| * |(toR n - D) / D| ≤ r * D * (1 / 2 ^ 35) := mul_le_mul aR q1 (abs_nonneg _) rD.le
        _ = r * D / 2 ^ 35 := by ring
    have tri : |toR (d * R) - a * toR R - a * toR R * ((toR n - D) / D)| ≤ r * D / 2 ^ 38 + r * D / 2 ^ 35 :=
      (abs_sub _ _).trans (add_le_add e3 q)
    have low : r / 2 ^ 33 * (D / 2) ≤ r / 2 ^ 33 * toR n := mul_le_mul_of_nonneg_left n0 (by positivity)
    have low' : r / 2 ^ 33 * (D / 2) = r * D / 2 ^ 34 := by ring
    rw [low'] at low
    linarith
  have tb : |toR R / D * a| ≤ r := by
    rw [abs_mul, abs_div, hR, abs_of_pos hD, div_mul_eq_mul_div, div_le_iff₀ hD]
    exact mul_le_mul_of_nonneg_left ha hr.le
  have b4 := near_abs e4 tb
  obtain ⟨f5, e5⟩ := W.div (B := 2 * r) f1 fn np.ne' (b4.trans (by linarith)) (by linarith)
  have e6 := near_trans e5 e4
  have b6 := near_abs e6 tb
  have e6' := abs_le.mp e6
  have hc' := abs_le.mp hc
  have b6' := abs_le.mp b6
  obtain ⟨f7, e7⟩ := W.add (B := X + 2 * r) fc f5 (by rw [abs_le]; constructor <;> linarith) (by linarith)
  have e7' := abs_le.mp e7
  refine ⟨f7, ?_⟩
  rw [abs_le]
  constructor <;> linarith

end

/-- **C152.** In double precision the midpoint of an edge on a sphere is finite and within `|R| / 2 ^ 32 + X / 2 ^ 50` of the point of the sphere
in the direction of the middle of the chord, `R` being the radius that `edge_mid` uses and `X` a bound of the coordinates, if the middle of the
chord is not too near to the centre. -/
theorem C152 (L : Libm) (hL : LibmAccurate L) (el : Elem F64) (e : Nat) (he : HasEdge el e) (hs : el.ccurv e = ['s']) (c p q : V3 F64)
    (hc : c = el.cpt e) (hp : p = edgeFrom el e) (hq : q = edgeTo el e) (R : F64) (hR : R = el.curv e 4) (X : ℝ) (hX : 4 * X ≤ 2 ^ 200)
    (tc : TameAt c X) (tp : TameAt p X) (tq : TameAt q X) (fR : R.Finite) (bR : |toR R| ≤ 2 ^ 200) (lR : 1 / 2 ^ 200 ≤ |toR R|)
    (hlo : 1 / 2 ^ 400 ≤ middleSqR (toR3 c) (toR3 p) (toR3 q)) (hXD : X ^ 2 ≤ 2 ^ 20 * middleSqR (toR3 c) (toR3 p) (toR3 q)) :
    ∃ m, edgeMidF L el e = .ok (m, el) ∧ ∃ t, SphereMiddle (toR R) (toR3 c) (toR3 p) (toR3 q) t ∧ WithinR m t (|toR R| / 2 ^ 32 + X / 2 ^ 50) := by
  obtain ⟨S, H, G, η, hS, S1, hSH, hSG, hη, W, LR⟩ := arc_abstract L hL
  have hlo' : 1 / S ^ 2 ≤ middleSqR (toR3 c) (toR3 p) (toR3 q) := by rw [hS, ← pow_mul]; exact hlo
  rw [← hS] at hX bR lR
  clear hlo hS
  have S0 : 0 < S := by linarith
  have S2 : 0 < 1 / S ^ 2 := by positivity
  have hd0 : 0 < middleSqR (toR3 c) (toR3 p) (toR3 q) := by linarith
  set a := (toR p.x + toR q.x) / 2 - toR c.x with ha
  set b := (toR p.y + toR q.y) / 2 - toR c.y with hb
  set g := (toR p.z + toR q.z) / 2 - toR c.z with hg
  have hM : middleSqR (toR3 c) (toR3 p) (toR3 q) = a ^ 2 + b ^ 2 + g ^ 2 := rfl
  rw [hM] at hlo' hXD hd0
  set D := Real.sqrt (a ^ 2 + b ^ 2 + g ^ 2) with hDdef
  have hD2 : D ^ 2 = a ^ 2 + b ^ 2 + g ^ 2 := Real.sq_sqrt hd0.le
  have D0 : 0 < D := Real.sqrt_pos.mpr hd0
  have hDS : 1 / S ≤ D := Real.le_sqrt_of_sq_le (by rw [div_pow, one_pow]; exact hlo')
  rw [← hD2] at hlo' hXD
  obtain ⟨⟨fcx, hcx⟩, ⟨fcy, hcy⟩, ⟨fcz, hcz⟩⟩ := tc
  obtain ⟨⟨fpx, hpx⟩, ⟨fpy, hpy⟩, ⟨fpz, hpz⟩⟩ := tp
  obtain ⟨⟨fqx, hqx⟩, ⟨fqy, hqy⟩, ⟨fqz, hqz⟩⟩ := tq
  have X0 : 0 ≤ X := (abs_nonneg _).trans hpx
  have XD : X ≤ 2 ^ 10 * D := by
    refine abs_le_of_sq_le_sq' ?_ (by positivity) |>.2
    rw [mul_pow]
    norm_num at hXD ⊢
    exact hXD
  have a1 : |a| ≤ D := abs_le_of_sq_le_sq (by have := sq_nonneg b; have := sq_nonneg g; linarith) D0.le
  have b1 : |b| ≤ D := abs_le_of_sq_le_sq (by have := sq_nonneg a; have := sq_nonneg g; linarith) D0.le
  have g1 : |g| ≤ D := abs_le_of_sq_le_sq (by have := sq_nonneg a; have := sq_nonneg b; linarith) D0.le
  have comp : ∀ u v w : ℝ, |u| ≤ X → |v| ≤ X → |w| ≤ X → ((u + v) / 2 - w) ^ 2 ≤ S ^ 2 / 4 := by
    intro u v w hu hv hw
    have hu' := abs_le.mp hu
    have hv' := abs_le.mp hv
    have hw' := abs_le.mp hw
    have : |(u + v) / 2 - w| ≤ S / 2 := by rw [abs_le]; constructor <;> linarith
    calc ((u + v) / 2 - w) ^ 2 = |(u + v) / 2 - w| ^ 2 := (sq_abs _).symm
      _ ≤ (S / 2) ^ 2 := pow_le_pow_left₀ (abs_nonneg _) this 2
      _ = S ^ 2 / 4 := by ring
  have DS : D ≤ S := by
    have h1 := comp _ _ _ hpx hqx hcx
    have h2 := comp _ _ _ hpy hqy hcy
    have h3 := comp _ _ _ hpz hqz hcz
    rw [← ha] at h1
    rw [← hb] at h2
    rw [← hg] at h3
    have := sq_nonneg S
    exact abs_le_of_sq_le_sq' (by rw [hD2]; linarith) S0.le |>.2
  have η0 := W.η0
  set r := |toR R| with hr
  have r0 : 0 < r := lt_of_lt_of_le (by positivity) lR
  have hS2 : S ≤ S ^ 2 := by nlinarith
  have hS3 : S ^ 2 ≤ S ^ 3 := pow_le_pow_right₀ S1 (by norm_num)
  have i1 : 1 / S ^ 2 ≤ 1 / S := one_div_le_one_div_of_le S0 hS2
  have i2 : 1 / S ^ 2 ≤ 1 := by rw [div_le_one (by positivity)]; linarith
  have i3 : 1 / S ^ 2 ≤ r * D := by
    calc 1 / S ^ 2 = 1 / S * (1 / S) := by rw [div_mul_div_comm, one_mul, ← sq]
      _ ≤ r * D := mul_le_mul lR hDS (by positivity) r0.le
  have rD : r * D ≤ S ^ 2 := by
    calc r * D ≤ S * S := mul_le_mul bR DS D0.le S0.le
      _ = S ^ 2 := (sq S).symm
  have DD : D ^ 2 ≤ S ^ 2 := pow_le_pow_left₀ D0.le DS 2
  have ηle : ∀ v, 1 / S ^ 2 ≤ v → η ≤ v / 2 ^ 70 := fun v h => hη.trans (div_le_div_of_nonneg_right h (by positivity))
  have n1 := ηle 1 i2
  have ηD := ηle D (i1.trans hDS)
  have ηD2 := ηle (D ^ 2) hlo'
  have ηrD := ηle (r * D) i3
  have ηr := ηle r (i1.trans lR)
  have η1 : η ≤ 1 := n1.trans (by norm_num)
  obtain ⟨fx, ex⟩ := sphere_dir W fpx fqx fcx hpx hqx hcx η1 (by linarith) ηD XD
  obtain ⟨fy, ey⟩ := sphere_dir W fpy fqy fcy hpy hqy hcy η1 (by linarith) ηD XD
  obtain ⟨fz, ez⟩ := sphere_dir W fpz fqz fcz hpz hqz hcz η1 (by linarith) ηD XD
  obtain ⟨sx, px, qx⟩ := sphere_sq LR D0 fx a1 ex ηD2 (by linarith)
  obtain ⟨sy, py, qy⟩ := sphere_sq LR D0 fy b1 ey ηD2 (by linarith)
  obtain ⟨sz, pz, qz⟩ := sphere_sq LR D0 fz g1 ez ηD2 (by linarith)
  obtain ⟨fn, en⟩ := sphere_norm W LR D0 hD2.symm sx sy sz px py pz qx qy qz ηD2 (by linarith)
  obtain ⟨mx, mx'⟩ := sphere_coord W D0 r0 fx fn fR fcx a1 ex en hr.symm hcx ηrD ηr (by linarith) (by linarith)
  obtain ⟨my, my'⟩ := sphere_coord W D0 r0 fy fn fR fcy b1 ey en hr.symm hcy ηrD ηr (by linarith) (by linarith)
  obtain ⟨mz, mz'⟩ := sphere_coord W D0 r0 fz fn fR fcz g1 ez en hr.symm hcz ηrD ηr (by linarith) (by linarith)
  have R0 : toR R ≠ 0 := abs_pos.1 r0
  have em : edgeMidF L el e = .ok (sphereMidF L R c p q, el) := by
    rw [edgeMidF_eq L el e he, hs, hR, hc, hp, hq]
    rfl
  refine ⟨_, em, ⟨toR c.x + toR R / D * a, toR c.y + toR R / D * b, toR c.z + toR R / D * g⟩, ⟨?_, toR R / D, ?_, ?_, ?_, ?_⟩, ⟨mx, my, mz⟩, mx', my', mz'⟩
  · change (toR c.x + toR R / D * a - toR c.x) ^ 2 + (toR c.y + toR R / D * b - toR c.y) ^ 2 + (toR c.z + toR R / D * g - toR c.z) ^ 2 = toR R ^ 2
    have : (toR c.x + toR R / D * a - toR c.x) ^ 2 + (toR c.y + toR R / D * b - toR c.y) ^ 2 + (toR c.z + toR R / D * g - toR c.z) ^ 2 =
        (toR R / D) ^ 2 * (a ^ 2 + b ^ 2 + g ^ 2) := by ring
    rw [this, ← hD2, div_pow, div_mul_cancel₀ _ (by positivity)]
  · rw [div_mul_eq_mul_div, ← sq]
    positivity
  · change toR c.x + toR R / D * a - toR c.x = toR R / D * a
    ring
  · change toR c.y + toR R / D * b - toR c.y = toR R / D * b
    ring
  · change toR c.z + toR R / D * g - toR c.z = toR R / D * g
    ring

namespace Samples

/-- An edge from (6, 0, 0) to (0, 8, 0) on a sphere around the origin whose radius, 10, is stored where `edge_mid` reads it. -/
def ballEdge : Elem F64 :=
  { edgeF ['s'] 0 ⟨((6 : Nat) : F64), 0, 0⟩ ⟨0, ((8 : Nat) : F64), 0⟩ with curv := fun e k => if e = 0 ∧ k = 4 then ((10 : Nat) : F64) else 0 }

theorem ballEdge_has : HasEdge ballEdge 0 := edgeF_has ['s'] 0 ⟨((6 : Nat) : F64), 0, 0⟩ ⟨0, ((8 : Nat) : F64), 0⟩

/-- The midpoint is near the point at distance 10 in the direction of (3, 4, 0). -/
example : ∃ m, edgeMidF libm ballEdge 0 = .ok (m, ballEdge) ∧ ∃ t, SphereMiddle 10 ⟨0, 0, 0⟩ ⟨6, 0, 0⟩ ⟨0, 8, 0⟩ t ∧
    WithinR m t (10 / 2 ^ 32 + 8 / 2 ^ 50) := by
  have n6 : toR ((6 : Nat) : F64) = 6 := by rw [natR 6 (by norm_num)]; norm_num
  have n8 : toR ((8 : Nat) : F64) = 8 := by rw [natR 8 (by norm_num)]; norm_num
  have n10 : toR ((10 : Nat) : F64) = 10 := by rw [natR 10 (by norm_num)]; norm_num
  have hc : toR3 (⟨0, 0, 0⟩ : V3 F64) = ⟨0, 0, 0⟩ := by unfold toR3; rw [zeroR]
  have hp : toR3 (⟨((6 : Nat) : F64), 0, 0⟩ : V3 F64) = ⟨6, 0, 0⟩ := by unfold toR3; dsimp only; rw [zeroR, n6]
  have hq : toR3 (⟨0, ((8 : Nat) : F64), 0⟩ : V3 F64) = ⟨0, 8, 0⟩ := by unfold toR3; dsimp only; rw [zeroR, n8]
  have z : (0 : F64).Finite ∧ |toR 0| ≤ (8 : ℝ) := ⟨by decide +kernel, by rw [zeroR, abs_zero]; norm_num⟩
  have big : (1 : ℝ) / 2 ^ 200 ≤ 1 := (div_le_one (by positivity)).mpr (one_le_pow₀ (by norm_num))
  have big' : (1 : ℝ) / 2 ^ 400 ≤ 1 := (div_le_one (by positivity)).mpr (one_le_pow₀ (by norm_num))
  obtain ⟨m, h1, t, h2, h3⟩ := C152 libm libm_accurate ballEdge 0 ballEdge_has rfl ⟨0, 0, 0⟩ ⟨((6 : Nat) : F64), 0, 0⟩ ⟨0, ((8 : Nat) : F64), 0⟩ rfl rfl rfl
    ((10 : Nat) : F64) rfl 8 (by norm_num) ⟨z, z, z⟩ ⟨⟨(natCast_exact 6 (by norm_num)).1, by rw [n6]; norm_num⟩, z, z⟩
    ⟨z, ⟨(natCast_exact 8 (by norm_num)).1, by rw [n8]; norm_num⟩, z⟩ (natCast_exact 10 (by norm_num)).1
    (by rw [n10]; norm_num) (by rw [n10]; exact big.trans (by norm_num))
    (by rw [hc, hp, hq]; exact big'.trans (by norm_num [middleSqR])) (by rw [hc, hp, hq]; norm_num [middleSqR])
  rw [hc, hp, hq, n10] at h2
  rw [n10] at h3
  refine ⟨m, h1, t, h2, ?_⟩
  norm_num at h3 ⊢
  exact h3

end Samples

end Pymech
