import Verif.Lemmas.FloatOps
import Verif.Props.Box

/-!
# C132, C133: `gen_box` in double precision

The definition `genBox` with `F64` in place of exact numbers: every operation rounds.
-/

set_option autoImplicit false

namespace Pymech

open Spec Flt

/-- One coordinate, meshtools.py:1428–1431. -/
def gridF (a l : F64) (n i : Nat) : F64 := a + l * (i : F64) / (n : F64)

namespace Spec

/-- Two ordinary doubles in the right order (their size is far from overflow). -/
structure Range (a b : F64) : Prop where
  fa : a.Finite
  fb : b.Finite
  ba : |a.val| ≤ 2 ^ 900
  bb : |b.val| ≤ 2 ^ 900
  lt : a.val < b.val

/-- The exact position. -/
def equi (a b : ℚ) (n i : Nat) : ℚ := a + (b - a) * i / n

end Spec

/-- The rounding errors with abstract names for the numbers that are too large to compute with. -/
theorem round_abstract : ∃ H η : ℚ, H = 2 ^ 900 ∧ 1 ≤ H ∧ 0 ≤ η ∧ η ≤ 1 ∧ 8 * η = 1 / 2 ^ 1072 ∧
    ∀ (z : Bool) (q : ℚ), |q| ≤ H * 2 ^ 100 → (ofQ z q).Finite ∧ |(ofQ z q).val - q| ≤ |q| / 2 ^ 53 + η := by
  refine ⟨2 ^ 900, 1 / 2 ^ 1075, rfl, one_le_pow₀ (by norm_num), by positivity, ?_, ?_, ?_⟩
  · rw [div_le_one (by positivity)]
    exact one_le_pow₀ (by norm_num)
  · rw [pow_succ (2 : ℚ) 1074, pow_succ (2 : ℚ) 1073, pow_succ (2 : ℚ) 1072]
    have : (2 : ℚ) ^ 1072 ≠ 0 := by positivity
    field_simp
    norm_num
  · intro z q h
    rw [← pow_add] at h
    exact ⟨ofQ_fin z q h, ofQ_err z q h⟩

/-- One coordinate: the operations do not overflow, and the result is near the exact position. -/
theorem gridF_near (a b : F64) (h : Range a b) (n i : Nat) (hn : 0 < n) (hn2 : n ≤ 2 ^ 53) (hi : i ≤ n) :
    (b - a).Finite ∧ 0 < (b - a).val ∧ ((b - a) * (i : F64)).Finite ∧ ((b - a) * (i : F64) / (n : F64)).Finite ∧ (gridF a (b - a) n i).Finite ∧
      |(gridF a (b - a) n i).val - equi a.val b.val n i| ≤ max |a.val| |b.val| / 2 ^ 50 + 1 / 2 ^ 1072 := by
  obtain ⟨H, η, hH, hH1, hη0, hη1, hη, R⟩ := round_abstract
  obtain ⟨fa, fb, ba, bb, hlt⟩ := h
  rw [← hH] at ba bb
  rw [← hη]
  generalize hB : max |a.val| |b.val| = B
  have hBa : |a.val| ≤ B := hB ▸ le_max_left _ _
  have hBb : |b.val| ≤ B := hB ▸ le_max_right _ _
  have hBH : B ≤ H := hB ▸ max_le ba bb
  clear hB ba bb hη hH
  obtain ⟨fn, vn⟩ := natCast_exact n hn2
  obtain ⟨fi, vi⟩ := natCast_exact i (hi.trans hn2)
  have hn0 : (0 : ℚ) < n := by exact_mod_cast hn
  have hnq : (n : ℚ) ≤ 2 ^ 53 := by exact_mod_cast hn2
  have hn1 : (1 : ℚ) ≤ n := by exact_mod_cast hn
  have hi0 : (0 : ℚ) ≤ i := Nat.cast_nonneg i
  have hin : (i : ℚ) ≤ n := by exact_mod_cast hi
  unfold gridF equi
  have hL1 := abs_le.mp hBa
  have hL2 := abs_le.mp hBb
  -- the length
  have hLp : 0 < (b - a).val := (sub_pos_iff fb fa).mpr hlt
  rw [sub_fin fb fa] at hLp ⊢
  have hl := R (b.neg && !a.neg) (b.val - a.val) (by rw [abs_of_pos (by linarith)]; linarith)
  generalize ofQ (b.neg && !a.neg) (b.val - a.val) = l at hl hLp ⊢
  obtain ⟨fl, el⟩ := hl
  rw [abs_of_pos (show 0 < b.val - a.val by linarith)] at el
  have el' := abs_le.mp el
  -- times i
  rw [mul_fin fl fi, vi]
  have hw0 : 0 ≤ l.val * i := mul_nonneg hLp.le hi0
  have hw1 : l.val * i ≤ l.val * 2 ^ 53 := mul_le_mul_of_nonneg_left (hin.trans hnq) hLp.le
  refine ⟨fl, hLp, ?_⟩
  have hp := R (l.neg ^^ (i : F64).neg) (l.val * i) (by
    rw [abs_of_nonneg hw0]
    linarith)
  generalize ofQ (l.neg ^^ (i : F64).neg) (l.val * i) = p at hp ⊢
  obtain ⟨fp, ep⟩ := hp
  rw [abs_of_nonneg hw0] at ep
  have ep' := abs_le.mp ep
  refine ⟨fp, ?_⟩
  -- divided by n
  rw [div_fin fp fn (by rw [vn]; exact hn0.ne'), vn]
  have hq : |p.val / n - l.val * i / n| ≤ l.val * i / n / 2 ^ 53 + η := by
    rw [← sub_div, abs_div, abs_of_pos hn0, div_le_iff₀ hn0]
    have e : (l.val * i / n / 2 ^ 53 + η) * n = l.val * i / 2 ^ 53 + η * n := by
      field_simp
    rw [e]
    have : η ≤ η * n := le_mul_of_one_le_right hη0 hn1
    linarith
  have hs0 : 0 ≤ l.val * i / n := div_nonneg hw0 hn0.le
  have hs1 : l.val * i / n ≤ l.val := by
    rw [div_le_iff₀ hn0]
    exact mul_le_mul_of_nonneg_left hin hLp.le
  have hs2 : |l.val * i / n - (b.val - a.val) * i / n| ≤ (b.val - a.val) / 2 ^ 53 + η := by
    rw [← sub_div, ← sub_mul, mul_div_assoc, abs_mul, abs_of_nonneg (div_nonneg hi0 hn0.le)]
    calc _ ≤ |l.val - (b.val - a.val)| * 1 := mul_le_mul_of_nonneg_left ((div_le_one hn0).mpr hin) (abs_nonneg _)
      _ ≤ _ := by rw [mul_one]; exact el
  have hT0 : 0 ≤ (b.val - a.val) * i / n := div_nonneg (mul_nonneg (by linarith) hi0) hn0.le
  have hT1 : (b.val - a.val) * i / n ≤ b.val - a.val := by
    rw [div_le_iff₀ hn0]
    exact mul_le_mul_of_nonneg_left hin (by linarith)
  generalize (b.val - a.val) * i / n = T at hs2 hT0 hT1 ⊢
  generalize l.val * i / n = s at hq hs0 hs1 hs2
  clear ep ep' hw0 hw1
  generalize hP : p.val / n = P at hq ⊢
  have hq' := abs_le.mp hq
  have hs2' := abs_le.mp hs2
  have hPabs : |P| ≤ s + (s / 2 ^ 53 + η) := abs_le.mpr ⟨by linarith, by linarith⟩
  have ht := R (p.neg ^^ (n : F64).neg) P (hPabs.trans (by linarith))
  generalize ofQ (p.neg ^^ (n : F64).neg) P = t at ht ⊢
  obtain ⟨ft, et⟩ := ht
  have et2 : |t.val - P| ≤ (s + (s / 2 ^ 53 + η)) / 2 ^ 53 + η := et.trans (by linarith)
  have et' := abs_le.mp et2
  -- plus a
  rw [add_fin fa ft]
  have hx1 : |a.val + t.val| ≤ B + (6 * B / 2 ^ 53 + 4 * η + B / 2 ^ 60) := by
    refine abs_le.mpr ⟨?_, ?_⟩ <;> linarith
  have hx := R (a.neg && t.neg) (a.val + t.val) (hx1.trans (by linarith))
  refine ⟨ft, hx.1, ?_⟩
  have ex := abs_le.mp (hx.2.trans (add_le_add_left (div_le_div_of_nonneg_right hx1 (by norm_num)) η))
  refine abs_le.mpr ⟨?_, ?_⟩ <;> linarith [ex.1, ex.2]

/-- The coordinates do not decrease. -/
theorem gridF_mono (a b : F64) (h : Range a b) (n i j : Nat) (hn : 0 < n) (hn2 : n ≤ 2 ^ 53) (hij : i ≤ j) (hj : j ≤ n) :
    (gridF a (b - a) n i).val ≤ (gridF a (b - a) n j).val := by
  obtain ⟨fl, hl, fp, ft, -, -⟩ := gridF_near a b h n i hn hn2 (hij.trans hj)
  obtain ⟨-, -, fp', ft', -, -⟩ := gridF_near a b h n j hn hn2 hj
  obtain ⟨fn, vn⟩ := natCast_exact n hn2
  obtain ⟨fi, vi⟩ := natCast_exact i ((hij.trans hj).trans hn2)
  obtain ⟨fj, vj⟩ := natCast_exact j (hj.trans hn2)
  have hn0 : (0 : ℚ) < n := by exact_mod_cast hn
  unfold gridF
  rw [add_fin h.fa ft, add_fin h.fa ft']
  apply ofQ_mono
  rw [add_le_add_iff_left, div_fin fp fn (by rw [vn]; exact hn0.ne'), div_fin fp' fn (by rw [vn]; exact hn0.ne')]
  apply ofQ_mono
  rw [vn]
  apply div_le_div_of_nonneg_right _ hn0.le
  rw [mul_fin fl fi, mul_fin fl fj]
  apply ofQ_mono
  rw [vi, vj]
  exact mul_le_mul_of_nonneg_left (by exact_mod_cast hij) hl.le

theorem ofQ_zero (z : Bool) : (ofQ z 0).val = 0 := by
  rw [ofQ_val, abs_zero, roundMag, if_pos le_rfl, magVal_zero]
  simp

/-- The first coordinate is the given one. -/
theorem gridF_first (a b : F64) (h : Range a b) (n : Nat) (hn : 0 < n) (hn2 : n ≤ 2 ^ 53) : (gridF a (b - a) n 0).val = a.val := by
  obtain ⟨fl, hl, fp, ft, -, -⟩ := gridF_near a b h n 0 hn hn2 (Nat.zero_le n)
  obtain ⟨fn, vn⟩ := natCast_exact n hn2
  obtain ⟨f0, v0⟩ := natCast_exact 0 (Nat.zero_le _)
  have hn0 : (0 : ℚ) < n := by exact_mod_cast hn
  unfold gridF
  rw [add_fin h.fa ft, div_fin fp fn (by rw [vn]; exact hn0.ne'), mul_fin fl f0, v0, Nat.cast_zero, mul_zero, ofQ_zero, zero_div, ofQ_zero, add_zero,
    ofQ_rep _ _ h.fa]

/-- The records of a mesh with their doubles replaced by their values. -/
def BC.vals (r : BC F64) : BC ℚ := ⟨r.typ, r.own, r.ownFace, r.p3.val, r.p4.val, r.p5.val, r.p6.val, r.p7.val⟩

namespace Spec

/-- Arguments of `gen_box` in double precision. -/
structure BoxArgsF (nx ny : Nat) (xmin xmax ymin ymax : F64) (var : Var) (o1 o2 o3 o4 : Option (List Name)) : Prop where
  size : nx * ny ≤ 2 ^ 53
  nx : 0 < nx
  ny : 0 < ny
  x : Range xmin xmax
  y : Range ymin ymax
  l1 : ∀ l, o1 = some l → boxNbc var ≤ l.length
  l2 : ∀ l, o2 = some l → boxNbc var ≤ l.length
  l3 : ∀ l, o3 = some l → boxNbc var ≤ l.length
  l4 : ∀ l, o4 = some l → boxNbc var ≤ l.length

/-- How far a coordinate between `a` and `b` may be from its place. -/
def roundTol (a b : ℚ) : ℚ := max |a| |b| / 2 ^ 50 + 1 / 2 ^ 1072

end Spec

theorem zero_vals : (BC.zero : BC F64).vals = BC.zero := by
  have : (0 : F64).val = 0 := by decide +kernel
  simp only [BC.vals, BC.zero, this]

theorem wrLink_vals (t : Name) (a b c d : Nat) (hc : c ≤ 2 ^ 53) (hd : d ≤ 2 ^ 53) (r : BC F64) :
    (wrLink t a b c d r).vals = wrLink t a b c d r.vals := by
  simp only [wrLink, BC.vals, (natCast_exact c hc).2, (natCast_exact d hd).2]

theorem wrExt_vals (bc : Name) (a b c d : Nat) (hc : c ≤ 2 ^ 53) (hd : d ≤ 2 ^ 53) (r : BC F64) :
    (wrExt bc a b c d r).vals = wrExt bc a b c d r.vals := by
  unfold wrExt
  split <;> simp only [BC.vals, (natCast_exact c hc).2, (natCast_exact d hd).2]

theorem elnum_le (nx ny i j N : Nat) (hi : i < nx) (hj : j < ny) (h : nx * ny ≤ N) : elnum i j nx + 1 ≤ N := by
  have := elnum_lt hi hj
  unfold elnum
  omega

theorem boxInner_vals (nx ny i j f : Nat) (hi : i < nx) (hj : j < ny) (h : nx * ny ≤ 2 ^ 53) (r : BC F64) :
    (boxInner nx ny i j f r).vals = boxInner nx ny i j f r.vals := by
  unfold boxInner
  dsimp only
  by_cases h0 : f = 0 ∧ j ≠ 0
  · rw [if_pos h0, if_pos h0, wrLink_vals _ _ _ _ _ (elnum_le nx ny _ _ _ hi (by omega) h) (by norm_num)]
  rw [if_neg h0, if_neg h0]
  by_cases h1 : f = 1 ∧ i ≠ nx - 1
  · rw [if_pos h1, if_pos h1, wrLink_vals _ _ _ _ _ (elnum_le nx ny _ _ _ (by omega) hj h) (by norm_num)]
  rw [if_neg h1, if_neg h1]
  by_cases h2 : f = 2 ∧ j ≠ ny - 1
  · rw [if_pos h2, if_pos h2, wrLink_vals _ _ _ _ _ (elnum_le nx ny _ _ _ hi (by omega) h) (by norm_num)]
  rw [if_neg h2, if_neg h2]
  by_cases h3 : f = 3 ∧ i ≠ 0
  · rw [if_pos h3, if_pos h3, wrLink_vals _ _ _ _ _ (elnum_le nx ny _ _ _ (by omega) hj h) (by norm_num)]
  rw [if_neg h3, if_neg h3]

theorem boxOuter_vals (nx ny i j f : Nat) (n1 n2 n3 n4 : Name) (hi : i < nx) (hj : j < ny) (h : nx * ny ≤ 2 ^ 53) (r : BC F64) :
    (boxOuter nx ny i j n1 n2 n3 n4 f r).vals = boxOuter nx ny i j n1 n2 n3 n4 f r.vals := by
  unfold boxOuter
  dsimp only
  by_cases h0 : f = 0 ∧ j = 0
  · rw [if_pos h0, if_pos h0, wrExt_vals _ _ _ _ _ (elnum_le nx ny _ _ _ hi (by omega) h) (by norm_num)]
  rw [if_neg h0, if_neg h0]
  by_cases h1 : f = 2 ∧ j = ny - 1
  · rw [if_pos h1, if_pos h1, wrExt_vals _ _ _ _ _ (elnum_le nx ny _ _ _ hi (by omega) h) (by norm_num)]
  rw [if_neg h1, if_neg h1]
  by_cases h2 : f = 3 ∧ i = 0
  · rw [if_pos h2, if_pos h2, wrExt_vals _ _ _ _ _ (elnum_le nx ny _ _ _ (by omega) hj h) (by norm_num)]
  rw [if_neg h2, if_neg h2]
  by_cases h3 : f = 1 ∧ i = nx - 1
  · rw [if_pos h3, if_pos h3, wrExt_vals _ _ _ _ _ (elnum_le nx ny _ _ _ (by omega) hj h) (by norm_num)]
  rw [if_neg h3, if_neg h3]

section
variable {native : Endian} {nx ny : Nat} {xmin xmax ymin ymax : F64} {var : Var} {o1 o2 o3 o4 : Option (List Name)} {internal : Bool}

theorem Spec.BoxArgsF.sizes (A : BoxArgsF nx ny xmin xmax ymin ymax var o1 o2 o3 o4) : nx ≤ 2 ^ 53 ∧ ny ≤ 2 ^ 53 :=
  ⟨(Nat.le_mul_of_pos_right nx A.ny).trans A.size, (Nat.le_mul_of_pos_left ny A.nx).trans A.size⟩

theorem range_pos {a b : F64} (h : Range a b) : ¬ b - a ≤ 0 := by
  obtain ⟨fl, hl, -⟩ := gridF_near a b h 1 0 (by norm_num) (by norm_num) (by norm_num)
  have f0 : (0 : F64).Finite := by decide +kernel
  have v0 : (0 : F64).val = 0 := by decide +kernel
  rw [leF_iff fl f0, v0]
  exact not_le.mpr hl

/-- What `gen_box` builds in double precision. -/
theorem genBoxF (A : BoxArgsF nx ny xmin xmax ymin ymax var o1 o2 o3 o4) :
    ∃ M : HexaData F64, genBox native nx ny xmin xmax ymin ymax var o1 o2 o3 o4 internal = .ok M ∧ M.nel = nx * ny ∧ M.elem.length = nx * ny ∧
      ∀ i < nx, ∀ j < ny, ∀ ky < 2, ∀ kx < 2, (M.el (i + nx * j)).pos.dat 0 0 ky kx = gridF xmin (xmax - xmin) nx (i + kx) ∧
        (M.el (i + nx * j)).pos.dat 1 0 ky kx = gridF ymin (ymax - ymin) ny (j + ky) ∧ (M.el (i + nx * j)).pos.dat 2 0 ky kx = 0 := by
  obtain ⟨M, h1, h2, h3, h4⟩ := genBox_any (native := native) (internal := internal) A.nx A.ny (range_pos A.x) (range_pos A.y) A.l1 A.l2 A.l3 A.l4
  refine ⟨M, h1, by rw [h2]; rfl, h3, fun i hi j hj ky hky kx hkx => ?_⟩
  rw [h4 i hi j hj]
  have hkx' : kx = 0 ∨ kx = 1 := by omega
  have hky' : ky = 0 ∨ ky = 1 := by omega
  rcases hkx' with rfl | rfl <;> rcases hky' with rfl | rfl <;> exact ⟨rfl, rfl, rfl⟩

end

/-- **C132.** `gen_box` in double precision: it succeeds; every coordinate is a finite number within a few roundings of its place; the box starts
exactly at `xmin`, `ymin`; the coordinates do not decrease; `z` is zero. -/
theorem C132 (native : Endian) (nx ny : Nat) (xmin xmax ymin ymax : F64) (var : Var) (o1 o2 o3 o4 : Option (List Name)) (internal : Bool)
    (A : BoxArgsF nx ny xmin xmax ymin ymax var o1 o2 o3 o4) :
    ∃ M : HexaData F64, genBox native nx ny xmin xmax ymin ymax var o1 o2 o3 o4 internal = .ok M ∧ M.nel = nx * ny ∧ M.elem.length = nx * ny ∧
      ∀ i < nx, ∀ j < ny, ∀ ky < 2, ∀ kx < 2, ∃ x y : F64,
        (M.el (i + nx * j)).pos.dat 0 0 ky kx = x ∧ (M.el (i + nx * j)).pos.dat 1 0 ky kx = y ∧ (M.el (i + nx * j)).pos.dat 2 0 ky kx = 0 ∧
        x.Finite ∧ |x.val - equi xmin.val xmax.val nx (i + kx)| ≤ roundTol xmin.val xmax.val ∧ (i + kx = 0 → x.val = xmin.val) ∧
        y.Finite ∧ |y.val - equi ymin.val ymax.val ny (j + ky)| ≤ roundTol ymin.val ymax.val ∧ (j + ky = 0 → y.val = ymin.val) := by
  obtain ⟨M, h1, h2, h3, h4⟩ := genBoxF (native := native) (internal := internal) A
  refine ⟨M, h1, h2, h3, fun i hi j hj ky hky kx hkx => ⟨_, _, (h4 i hi j hj ky hky kx hkx).1, (h4 i hi j hj ky hky kx hkx).2.1,
    (h4 i hi j hj ky hky kx hkx).2.2, ?_⟩⟩
  obtain ⟨-, -, -, -, a1, a2⟩ := gridF_near xmin xmax A.x nx (i + kx) A.nx A.sizes.1 (by omega)
  obtain ⟨-, -, -, -, b1, b2⟩ := gridF_near ymin ymax A.y ny (j + ky) A.ny A.sizes.2 (by omega)
  refine ⟨a1, a2, fun h => ?_, b1, b2, fun h => ?_⟩
  · rw [h]
    exact gridF_first xmin xmax A.x nx A.nx A.sizes.1
  · rw [h]
    exact gridF_first ymin ymax A.y ny A.ny A.sizes.2

/-- **C132, neighbours.** Points that belong to several elements have the same coordinates in all of them, bit for bit, and the coordinates are in
order. -/
theorem C132_shared (native : Endian) (nx ny : Nat) (xmin xmax ymin ymax : F64) (var : Var) (o1 o2 o3 o4 : Option (List Name)) (internal : Bool)
    (A : BoxArgsF nx ny xmin xmax ymin ymax var o1 o2 o3 o4) :
    ∃ M : HexaData F64, genBox native nx ny xmin xmax ymin ymax var o1 o2 o3 o4 internal = .ok M ∧
      ∀ i < nx, ∀ j < ny, ∀ ky < 2, ∀ kx < 2, ∀ i' < nx, ∀ j' < ny, ∀ ky' < 2, ∀ kx' < 2,
        (i + kx = i' + kx' → (M.el (i + nx * j)).pos.dat 0 0 ky kx = (M.el (i' + nx * j')).pos.dat 0 0 ky' kx') ∧
        (j + ky = j' + ky' → (M.el (i + nx * j)).pos.dat 1 0 ky kx = (M.el (i' + nx * j')).pos.dat 1 0 ky' kx') ∧
        (i + kx ≤ i' + kx' → ((M.el (i + nx * j)).pos.dat 0 0 ky kx).val ≤ ((M.el (i' + nx * j')).pos.dat 0 0 ky' kx').val) ∧
        (j + ky ≤ j' + ky' → ((M.el (i + nx * j)).pos.dat 1 0 ky kx).val ≤ ((M.el (i' + nx * j')).pos.dat 1 0 ky' kx').val) := by
  obtain ⟨M, h1, h2, h3, h4⟩ := genBoxF (native := native) (internal := internal) A
  refine ⟨M, h1, fun i hi j hj ky hky kx hkx i' hi' j' hj' ky' hky' kx' hkx' => ?_⟩
  obtain ⟨a1, a2, -⟩ := h4 i hi j hj ky hky kx hkx
  obtain ⟨b1, b2, -⟩ := h4 i' hi' j' hj' ky' hky' kx' hkx'
  rw [a1, a2, b1, b2]
  exact ⟨fun h => by rw [h], fun h => by rw [h], fun h => gridF_mono xmin xmax A.x nx _ _ A.nx A.sizes.1 h (by omega),
    fun h => gridF_mono ymin ymax A.y ny _ _ A.ny A.sizes.2 h (by omega)⟩

/-- **C132, links.** The boundary records are those of exact arithmetic. -/
theorem C132_links (native : Endian) (nx ny : Nat) (xmin xmax ymin ymax : F64) (var : Var) (o1 o2 o3 o4 : Option (List Name)) (internal : Bool)
    (A : BoxArgsF nx ny xmin xmax ymin ymax var o1 o2 o3 o4) :
    ∃ (M : HexaData F64) (Q : HexaData ℚ), genBox native nx ny xmin xmax ymin ymax var o1 o2 o3 o4 internal = .ok M ∧
      genBox native nx ny xmin.val xmax.val ymin.val ymax.val var o1 o2 o3 o4 internal = .ok Q ∧ Q.elem.length = M.elem.length ∧
      ∀ e < nx * ny, ∀ b f, (M.bc e b f).vals = Q.bc e b f := by
  have hx := A.x.lt
  have hy := A.y.lt
  obtain ⟨M, h1, h2, h3, h4⟩ := genBox_any (native := native) (internal := internal) A.nx A.ny (range_pos A.x) (range_pos A.y) A.l1 A.l2 A.l3 A.l4
  obtain ⟨Q, q1, q2, q3, q4⟩ := genBox_any (native := native) (internal := internal) A.nx A.ny (show ¬ xmax.val - xmin.val ≤ 0 by linarith)
    (show ¬ ymax.val - ymin.val ≤ 0 by linarith) A.l1 A.l2 A.l3 A.l4
  refine ⟨M, Q, h1, q1, by rw [q3, h3], fun e he b f => ?_⟩
  obtain ⟨i, hi, j, hj, rfl⟩ := elnum_cases he
  unfold HexaData.bc
  rw [h4 i hi j hj, q4 i hi j hj]
  dsimp only
  by_cases hb : b < boxNbc var
  · rw [if_pos hb, if_pos hb, boxOuter_vals nx ny i j f _ _ _ _ hi hj A.size]
    cases internal
    · rw [if_neg (by decide), if_neg (by decide), zero_vals]
    · rw [if_pos rfl, if_pos rfl, boxInner_vals nx ny i j f hi hj A.size, zero_vals]
  · rw [if_neg hb, if_neg hb, zero_vals]

/-! ### The end of the box -/

namespace Spec

/-- The rightmost points of the mesh, those of elements `i = nx - 1`, are at `xmax`. -/
def EndsAt (nx ny : Nat) (xmax : F64) (M : HexaData F64) : Prop :=
  ∀ j < ny, ∀ ky < 2, ((M.el (nx - 1 + nx * j)).pos.dat 0 0 ky 1).val = xmax.val

/-- `q` is the value of a double. -/
def IsDouble (q : ℚ) : Prop := ∃ x : F64, x.Finite ∧ x.val = q

/-- No element has lost its width. -/
def Wide (nx ny : Nat) (M : HexaData F64) : Prop :=
  ∀ i < nx, ∀ j < ny, ((M.el (i + nx * j)).pos.dat 0 0 0 0).val < ((M.el (i + nx * j)).pos.dat 0 0 0 1).val

/-- 0, 0.1, 1 and the double after 1. -/
def f0 : F64 := ofBits 0
def tenth : F64 := ofBits 0x3FB999999999999A
def one : F64 := ofBits 0x3FF0000000000000
def oneNext : F64 := ofBits 0x3FF0000000000001

end Spec

theorem gridF_last (a b : F64) (h : Range a b) (n : Nat) (hn : 0 < n) (hn2 : n ≤ 2 ^ 53) (h1 : IsDouble (b.val - a.val))
    (h2 : IsDouble ((b.val - a.val) * n)) : (gridF a (b - a) n n).val = b.val := by
  obtain ⟨fl, hl, fp, ft, -, -⟩ := gridF_near a b h n n hn hn2 le_rfl
  obtain ⟨fn, vn⟩ := natCast_exact n hn2
  have hn0 : (0 : ℚ) < n := by exact_mod_cast hn
  obtain ⟨l, fl', vl⟩ := h1
  obtain ⟨p, fp', vp⟩ := h2
  have e1 : (b - a).val = b.val - a.val := by rw [sub_fin h.fb h.fa, ← vl, ofQ_rep _ _ fl']
  have e2 : ((b - a) * (n : F64)).val = (b.val - a.val) * n := by rw [mul_fin fl fn, e1, vn, ← vp, ofQ_rep _ _ fp']
  have e3 : ((b - a) * (n : F64) / (n : F64)).val = b.val - a.val := by
    rw [div_fin fp fn (by rw [vn]; exact hn0.ne'), e2, vn, mul_div_assoc, div_self hn0.ne', mul_one, ← vl, ofQ_rep _ _ fl']
  unfold gridF
  rw [add_fin h.fa ft, e3, add_sub_cancel, ofQ_rep _ _ h.fb]

/-- **C133**, as far as it holds: the box ends exactly at `xmax` if its length and its length times the number of elements are doubles. -/
theorem C133_partial (native : Endian) (nx ny : Nat) (xmin xmax ymin ymax : F64) (var : Var) (o1 o2 o3 o4 : Option (List Name)) (internal : Bool)
    (A : BoxArgsF nx ny xmin xmax ymin ymax var o1 o2 o3 o4) (h1 : IsDouble (xmax.val - xmin.val)) (h2 : IsDouble ((xmax.val - xmin.val) * nx)) :
    ∃ M : HexaData F64, genBox native nx ny xmin xmax ymin ymax var o1 o2 o3 o4 internal = .ok M ∧ EndsAt nx ny xmax M := by
  obtain ⟨M, e1, e2, e3, e4⟩ := genBoxF (native := native) (internal := internal) A
  refine ⟨M, e1, fun j hj ky hky => ?_⟩
  have := A.nx
  rw [(e4 (nx - 1) (by omega) j hj ky hky 1 (by norm_num)).1, Nat.sub_add_cancel A.nx]
  exact gridF_last xmin xmax A.x nx A.nx A.sizes.1 h1 h2

theorem Spec.rangeTenth : Range f0 tenth :=
  ⟨by decide +kernel, by decide +kernel, (by decide +kernel : |f0.val| ≤ 1).trans (one_le_pow₀ (by norm_num)),
    (by decide +kernel : |tenth.val| ≤ 1).trans (one_le_pow₀ (by norm_num)), by decide +kernel⟩

theorem Spec.rangeOne : Range f0 one :=
  ⟨by decide +kernel, by decide +kernel, (by decide +kernel : |f0.val| ≤ 1).trans (one_le_pow₀ (by norm_num)),
    (by decide +kernel : |one.val| ≤ 1).trans (one_le_pow₀ (by norm_num)), by decide +kernel⟩

theorem Spec.rangeNext : Range one oneNext :=
  ⟨by decide +kernel, by decide +kernel, (by decide +kernel : |one.val| ≤ 2 ^ 1).trans (pow_le_pow_right₀ (by norm_num) (by norm_num)),
    (by decide +kernel : |oneNext.val| ≤ 2 ^ 1).trans (pow_le_pow_right₀ (by norm_num) (by norm_num)), by decide +kernel⟩

/-- **C133** is false in the code: three elements from 0 to 0.1 end one double after 0.1. -/
theorem C133_false : ∃ M : HexaData F64, genBox .little 3 1 f0 tenth f0 one ⟨2, 2, 1, 0, 0⟩ none none none none true = .ok M ∧
    ¬ EndsAt 3 1 tenth M ∧ tenth.val < ((M.el 2).pos.dat 0 0 0 1).val := by
  have A : BoxArgsF 3 1 f0 tenth f0 one ⟨2, 2, 1, 0, 0⟩ none none none none :=
    ⟨by norm_num, by norm_num, by norm_num, rangeTenth, rangeOne, (by simp), (by simp), (by simp), (by simp)⟩
  obtain ⟨M, e1, e2, e3, e4⟩ := genBoxF (native := .little) (internal := true) A
  have h : tenth.val < ((M.el 2).pos.dat 0 0 0 1).val := by
    have := (e4 2 (by norm_num) 0 (by norm_num) 0 (by norm_num) 1 (by norm_num)).1
    simp only [Nat.mul_zero, Nat.add_zero] at this
    rw [this]
    decide +kernel
  refine ⟨M, e1, fun hc => ?_, h⟩
  have := hc 0 (by norm_num) 0 (by norm_num)
  simp only [Nat.mul_zero, Nat.add_zero] at this
  rw [show 3 - 1 = 2 from rfl] at this
  rw [this] at h
  exact lt_irrefl _ h

/-! ### The width of the elements -/

theorem equi_step (a b : ℚ) (n i : Nat) : equi a b n (i + 1) - equi a b n i = (b - a) / n := by
  unfold equi
  push_cast
  ring

/-- **C134**, as far as it holds: elements that are wider than the rounding keep a width. -/
theorem C134_partial (native : Endian) (nx ny : Nat) (xmin xmax ymin ymax : F64) (var : Var) (o1 o2 o3 o4 : Option (List Name)) (internal : Bool)
    (A : BoxArgsF nx ny xmin xmax ymin ymax var o1 o2 o3 o4) (hw : 2 * roundTol xmin.val xmax.val < (xmax.val - xmin.val) / nx) :
    ∃ M : HexaData F64, genBox native nx ny xmin xmax ymin ymax var o1 o2 o3 o4 internal = .ok M ∧ Wide nx ny M := by
  obtain ⟨M, h1, h2, h3, h4⟩ := C132 native nx ny xmin xmax ymin ymax var o1 o2 o3 o4 internal A
  refine ⟨M, h1, fun i hi j hj => ?_⟩
  obtain ⟨x, -, e, -, -, -, e1, -⟩ := h4 i hi j hj 0 (by norm_num) 0 (by norm_num)
  obtain ⟨x', -, e', -, -, -, e1', -⟩ := h4 i hi j hj 0 (by norm_num) 1 (by norm_num)
  rw [e, e']
  rw [Nat.add_zero] at e1
  have a1 := abs_le.mp e1
  have a2 := abs_le.mp e1'
  have := equi_step xmin.val xmax.val nx i
  linarith

/-- **C134** is false in the code: of two elements between neighbouring doubles one has no width. -/
theorem C134_false : ∃ M : HexaData F64, genBox .little 2 1 one oneNext f0 one ⟨2, 2, 1, 0, 0⟩ none none none none true = .ok M ∧
    ¬ Wide 2 1 M := by
  have A : BoxArgsF 2 1 one oneNext f0 one ⟨2, 2, 1, 0, 0⟩ none none none none :=
    ⟨by norm_num, by norm_num, by norm_num, rangeNext, rangeOne, (by simp), (by simp), (by simp), (by simp)⟩
  obtain ⟨M, e1, e2, e3, e4⟩ := genBoxF (native := .little) (internal := true) A
  refine ⟨M, e1, fun hc => ?_⟩
  have h := hc 0 (by norm_num) 0 (by norm_num)
  rw [(e4 0 (by norm_num) 0 (by norm_num) 0 (by norm_num) 0 (by norm_num)).1,
    (e4 0 (by norm_num) 0 (by norm_num) 0 (by norm_num) 1 (by norm_num)).1] at h
  revert h
  decide +kernel

/-! ### A case -/

namespace Samples

/-- Two times three elements between 0 and 0.1 and between 0 and 1. -/
theorem boxF : BoxArgsF 2 3 f0 tenth f0 one ⟨2, 2, 1, 0, 0⟩ none none (some [['W']]) (some [['W']]) :=
  ⟨by norm_num, by norm_num, by norm_num, rangeTenth, rangeOne, (by simp), (by simp), (by decide), (by decide)⟩

example : ∃ M : HexaData F64, genBox .little 2 3 f0 tenth f0 one ⟨2, 2, 1, 0, 0⟩ none none (some [['W']]) (some [['W']]) true = .ok M ∧
    (M.el 3).pos.dat 0 0 0 0 = (M.el 2).pos.dat 0 0 1 1 ∧ ((M.el 4).pos.dat 1 0 1 0).val - 1 ≤ roundTol 0 1 ∧ M.nel = 6 := by
  obtain ⟨M, h1, h2, h3, h4⟩ := C132 .little 2 3 f0 tenth f0 one ⟨2, 2, 1, 0, 0⟩ none none (some [['W']]) (some [['W']]) true boxF
  obtain ⟨M', h1', h2'⟩ := C132_shared .little 2 3 f0 tenth f0 one ⟨2, 2, 1, 0, 0⟩ none none (some [['W']]) (some [['W']]) true boxF
  obtain rfl : M = M' := by rw [h1] at h1'; injection h1'
  refine ⟨M, h1, (h2' 1 (by norm_num) 1 (by norm_num) 0 (by norm_num) 0 (by norm_num) 0 (by norm_num) 1 (by norm_num) 1 (by norm_num) 1
    (by norm_num)).1 rfl, ?_, h2⟩
  obtain ⟨x, y, e, e', -, -, -, -, -, a, -⟩ := h4 0 (by norm_num) 2 (by norm_num) 1 (by norm_num) 0 (by norm_num)
  have v0 : f0.val = 0 := by decide +kernel
  have v1 : one.val = 1 := by decide +kernel
  have e4 : (M.el 4).pos.dat 1 0 1 0 = y := e'
  rw [e4]
  have h3 : equi f0.val one.val 3 (2 + 1) = 1 := by rw [v0, v1]; norm_num [equi]
  rw [h3, v0, v1] at a
  exact (le_abs_self _).trans a

/-- The links of this box are those of the exact one. -/
example : ∃ (M : HexaData F64) (Q : HexaData ℚ),
    genBox .little 2 3 f0 tenth f0 one ⟨2, 2, 1, 0, 0⟩ none none (some [['W']]) (some [['W']]) true = .ok M ∧
    genBox .little 2 3 f0.val tenth.val f0.val one.val ⟨2, 2, 1, 0, 0⟩ none none (some [['W']]) (some [['W']]) true = .ok Q ∧
    (M.bc 5 0 0).vals = Q.bc 5 0 0 := by
  obtain ⟨M, Q, h1, h2, -, h3⟩ := C132_links .little 2 3 f0 tenth f0 one ⟨2, 2, 1, 0, 0⟩ none none (some [['W']]) (some [['W']]) true boxF
  exact ⟨M, Q, h1, h2, h3 5 (by norm_num) 0 0⟩

/-- Two elements in x: twice 0.1 is a double. -/
example : ∃ M : HexaData F64, genBox .little 2 3 f0 tenth f0 one ⟨2, 2, 1, 0, 0⟩ none none (some [['W']]) (some [['W']]) true = .ok M ∧
    EndsAt 2 3 tenth M :=
  C133_partial .little 2 3 f0 tenth f0 one ⟨2, 2, 1, 0, 0⟩ none none (some [['W']]) (some [['W']]) true boxF
    ⟨tenth, by decide +kernel, by decide +kernel⟩ ⟨ofBits 0x3FC999999999999A, by decide +kernel, by decide +kernel⟩

example : ∃ M : HexaData F64, genBox .little 2 3 f0 tenth f0 one ⟨2, 2, 1, 0, 0⟩ none none (some [['W']]) (some [['W']]) true = .ok M ∧ Wide 2 3 M := by
  refine C134_partial .little 2 3 f0 tenth f0 one ⟨2, 2, 1, 0, 0⟩ none none (some [['W']]) (some [['W']]) true boxF ?_
  unfold roundTol
  have e : (1 : ℚ) / 2 ^ 1072 ≤ 1 / 2 ^ 10 := one_div_le_one_div_of_le (by norm_num) (pow_le_pow_right₀ (by norm_num) (by norm_num))
  have h : 2 * (max |f0.val| |tenth.val| / 2 ^ 50 + 1 / 2 ^ 10) < (tenth.val - f0.val) / ((2 : Nat) : ℚ) := by decide +kernel
  exact lt_of_le_of_lt (mul_le_mul_of_nonneg_left (add_le_add_right e _) (by norm_num)) h

end Samples

end Pymech
