import Verif.Props.Dns
import Mathlib.Algebra.BigOperators.Field

/-!
# The fields and the coordinates of SIMSON velocity files: C93 and C94
-/

set_option autoImplicit false

namespace Pymech

open scoped BigOperators ComplexConjugate

namespace Spec

/-- The real function on an `nx × nz` grid with the coefficients `f k j` for wavenumber `k` in the spanwise direction (`nz - k`
stands for `-k`) and `j` in the streamwise direction: those for `-j` are the conjugates of those for `j`, so that every mode
with `j > 0` counts twice with its real part. -/
noncomputable def realField (nx nz : Nat) (f : Nat → Nat → ℂ) (z x : Nat) : ℝ :=
  ∑ k ∈ Finset.range nz, ((f k 0 * wave nz k z).re + 2 * ∑ j ∈ Finset.Ico 1 (nx / 2), (f k j * wave nx j x * wave nz k z).re)

end Spec

open Spec

theorem wave_zero (n m : Nat) : wave n 0 m = 1 := by
  unfold wave
  simp

theorem wave_conj (n k m : Nat) (hk : k ≤ n) (hn : 0 < n) : wave n (n - k) m = conj (wave n k m) := by
  unfold wave
  rw [← Complex.exp_conj, ← mul_one (Complex.exp (conj _)), ← Complex.exp_nat_mul_two_pi_mul_I m, ← Complex.exp_add]
  congr 1
  have : (n : ℂ) ≠ 0 := by exact_mod_cast hn.ne'
  rw [Nat.cast_sub hk]
  simp only [map_mul, Complex.conj_I, Complex.conj_ofReal, Complex.ofReal_div, Complex.ofReal_mul, Complex.ofReal_sub, Complex.ofReal_natCast, map_ofNat, map_div₀, map_natCast]
  field_simp
  ring

/-- The sum over half of the wavenumbers with weights and the sum over all of them. -/
theorem half_sum (n : Nat) (hn : 0 < n) (g : Nat → ℝ) (hg : ∀ k, 0 < k → k < n → g (n - k) = g k) :
    ∑ k ∈ Finset.range (n / 2 + 1), (if k = 0 ∨ 2 * k = n then 1 else 2) * g k = ∑ k ∈ Finset.range n, g k := by
  have h1 : ∑ k ∈ Finset.range n, g k = ∑ k ∈ Finset.range (n / 2 + 1), g k + ∑ k ∈ Finset.Ico (n / 2 + 1) n, g k :=
    (Finset.sum_range_add_sum_Ico g (by omega)).symm
  have h2 : ∑ k ∈ Finset.Ico (n / 2 + 1) n, g k = ∑ k ∈ (Finset.range (n / 2 + 1)).filter (fun k => ¬ (k = 0 ∨ 2 * k = n)), g k := by
    refine Finset.sum_nbij' (fun k => n - k) (fun k => n - k) ?_ ?_ ?_ ?_ ?_
    · intro k hk
      rw [Finset.mem_Ico] at hk
      rw [Finset.mem_filter, Finset.mem_range]
      omega
    · intro k hk
      rw [Finset.mem_filter, Finset.mem_range] at hk
      rw [Finset.mem_Ico]
      omega
    · intro k hk
      rw [Finset.mem_Ico] at hk
      omega
    · intro k hk
      rw [Finset.mem_filter, Finset.mem_range] at hk
      omega
    · intro k hk
      rw [Finset.mem_Ico] at hk
      exact (hg k (by omega) (by omega)).symm
  rw [h1, h2, Finset.sum_filter, ← Finset.sum_add_distrib]
  refine Finset.sum_congr rfl fun k _ => ?_
  by_cases h : k = 0 ∨ 2 * k = n
  · rw [if_pos h, if_neg (not_not.mpr h)]
    ring
  · rw [if_neg h, if_pos h]
    ring

/-- What the transform of `readdns` gives: a sum of waves over the first half of the spanwise wavenumbers. -/
theorem irfft2_eq (nx nz : Nat) (hx : 2 ≤ nx) (fou : Nat → Nat → Nat → ℂ) (z y x : Nat) (h0 : ∀ k < nz, fou k y (nx / 2) = 0) (hz : 0 < nz) :
    irfft2 nx nz fou z y x = (∑ k ∈ Finset.range (nz / 2 + 1), (if k = 0 ∨ 2 * k = nz then 1 else 2) *
      ((fou k y 0 * wave nz k z).re + ∑ j ∈ Finset.Ico 1 (nx / 2), (fou k y j * wave nx j x * wave nz k z).re)) / (nx * nz) := by
  unfold irfft2 irfft ifft
  have hmin : min nx (nx / 2 + 1) = nx / 2 + 1 := by omega
  rw [hmin, mul_comm (nx : ℝ), ← div_div, div_right_comm _ (nz : ℝ)]
  congr 1
  rw [Finset.sum_div]
  refine Finset.sum_congr rfl fun k hk => ?_
  rw [Finset.mem_range] at hk
  rw [mul_div_assoc]
  congr 1
  beta_reduce
  have hc : ∀ w : ℂ, (w / (nx : ℂ)).re = w.re / nx := fun w => by rw [← Complex.ofReal_natCast, Complex.div_ofReal_re]
  rw [Finset.sum_range_succ, h0 k (by omega), zero_mul, add_zero, div_mul_eq_mul_div, hc, Finset.sum_mul, Complex.re_sum,
    Finset.range_eq_Ico, Finset.sum_eq_sum_Ico_succ_bot (by omega), wave_zero, mul_one]

/-- The sum over half of the wavenumbers for a spectrum without the modes that are missing there. -/
theorem sum_realField (nx nz : Nat) (hz : 0 < nz) (S : Nat → Nat → ℂ) (z x : Nat)
    (hreal : ∀ k, 0 < k → k < nz → S (nz - k) 0 = conj (S k 0))
    (hmodes : ∀ k < nz, k = 0 ∨ nz ≤ 2 * k → ∀ j, 0 < j → j < nx / 2 → S k j = 0) :
    ∑ k ∈ Finset.range (nz / 2 + 1), (if k = 0 ∨ 2 * k = nz then 1 else 2) *
      ((S k 0 * wave nz k z).re + ∑ j ∈ Finset.Ico 1 (nx / 2), (S k j * wave nx j x * wave nz k z).re) = realField nx nz S z x := by
  unfold realField
  have h1 : ∀ k < nz, k = 0 ∨ nz ≤ 2 * k → ∑ j ∈ Finset.Ico 1 (nx / 2), (S k j * wave nx j x * wave nz k z).re = 0 := by
    intro k hk h
    refine Finset.sum_eq_zero fun j hj => ?_
    rw [Finset.mem_Ico] at hj
    rw [hmodes k hk h j (by omega) (by omega), zero_mul, zero_mul, Complex.zero_re]
  rw [Finset.sum_add_distrib, ← half_sum nz hz fun k => (S k 0 * wave nz k z).re]
  · simp only [mul_add]
    rw [Finset.sum_add_distrib]
    congr 1
    rw [← Finset.sum_subset (Finset.range_subset_range.mpr (show nz / 2 + 1 ≤ nz by omega))]
    · refine Finset.sum_congr rfl fun k hk => ?_
      rw [Finset.mem_range] at hk
      by_cases h : k = 0 ∨ 2 * k = nz
      · rw [h1 k (by omega) (by omega), mul_zero, mul_zero]
      · rw [if_neg h]
    · intro k hk1 hk2
      rw [Finset.mem_range] at hk1 hk2
      rw [h1 k hk1 (by omega), mul_zero]
  · intro k hk1 hk2
    rw [hreal k hk1 hk2, wave_conj nz k z (by omega) hz, ← map_mul, Complex.conj_re]

/-- The coefficient of component `c` that a file has for wall-normal index `y` and the wavenumbers `k` and `j`. -/
def Spec.stored (val : F64 → ℝ) (L : Nat → Nat × Nat → List F64) (c y k j : Nat) : ℂ :=
  ⟨val ((L c (k, y)).getD (2 * j) 0), val ((L c (k, y)).getD (2 * j + 1) 0)⟩

/-- The velocity that `readdns` returns for a file, wave by wave. -/
theorem dns_fields (native e : Endian) (val : F64 → ℝ) (H : DnsRaw) (hH : H.Ok) (hx : 2 ≤ H.nx) (hn : Even H.nz)
    (mark : Nat → Bytes) (hmark : ∀ k < 3, (mark k).length = 8)
    (flow : List (List F64 × Bytes)) (hf : flow.map (fun p => p.1.length) = flowRecords H.fltype) (hm : ∀ p ∈ flow, p.2.length = 8)
    (L : Nat → Nat × Nat → List F64) (m : Nat → Nat × Nat → Bytes) (hL : ∀ c t, (L c t).length = H.nx) (hmm : ∀ c t, (m c t).length = 8)
    (rest : Bytes) :
    ∃ D : Dns ℝ, readdnsR native val (dnsFile e H mark flow L m rest) = .ok (some D) ∧
      D.head = ⟨H.re, H.boxX, H.boxZ, H.time, H.nx, H.ny, H.nz, H.fltype, H.dstar⟩ ∧ D.pos = dnsPos val D.head ∧ D.fields.length = 3 ∧
      ∀ c < 3, ∃ f, D.fields[c]? = some f ∧ ∀ y < H.ny, ∀ z x, f z y x = (-1) ^ c *
        ∑ k ∈ Finset.range (H.nz / 2 + 1), (if k = 0 ∨ 2 * k = H.nz then 1 else 2) *
          ((stored val L c y (if H.nz ≤ 2 ∨ 2 * k < H.nz then k else H.nz - 1) 0 * wave H.nz k z).re +
            ∑ j ∈ Finset.Ico 1 (H.nx / 2), (stored val L c y (if H.nz ≤ 2 ∨ 2 * k < H.nz then k else H.nz - 1) j * wave H.nx j x * wave H.nz k z).re) := by
  obtain ⟨D, fou, h1, h2, h3, h4, h5, h6⟩ := C92 native e (0 : ℂ) (dnsCoef val) irfft2 (dnsPos val) H hH (.inr hn) mark hmark flow hf hm L m hL hmm rest
  refine ⟨D, h1, h2, h4, by rw [h5]; rfl, fun c hc => ⟨irfft2 H.nx H.nz (fou c), ?_, fun y hy z x => ?_⟩⟩
  · rw [h5]
    have hc' : c = 0 ∨ c = 1 ∨ c = 2 := by omega
    rcases hc' with rfl | rfl | rfl <;> rfl
  · have hz := hH.nz.1
    have hz2 : 2 ≤ H.nz := by
      obtain ⟨k, hk⟩ := hn
      omega
    rw [irfft2_eq H.nx H.nz hx (fou c) z y x (fun k hk => (h6 c hc k hk y hy).2) hz]
    have hnx : (H.nx : ℝ) ≠ 0 := by
      have : H.nx ≠ 0 := by omega
      exact_mod_cast this
    have hnz : (H.nz : ℝ) ≠ 0 := by exact_mod_cast hz.ne'
    rw [div_eq_iff (mul_ne_zero hnx hnz), mul_assoc, Finset.sum_mul, Finset.mul_sum]
    refine Finset.sum_congr rfl fun k hk => ?_
    rw [Finset.mem_range] at hk
    have hs : source H.nz k = some (if H.nz ≤ 2 ∨ 2 * k < H.nz then k else H.nz - 1) := by
      obtain ⟨q, hq⟩ := hn
      unfold source
      split
      · rw [if_pos (by omega)]
      · rw [if_neg (by omega), if_neg (by omega)]
        congr 1
        omega
    have hfou : ∀ j < H.nx / 2, fou c k y j = stored val L c y (if H.nz ≤ 2 ∨ 2 * k < H.nz then k else H.nz - 1) j * (((-1) ^ c * (H.nx * H.nz) : ℝ) : ℂ) := by
      intro j hj
      have := (h6 c hc k (by omega) y hy).1 j hj
      rw [hs] at this
      rw [this]
      unfold dnsCoef stored
      rw [if_pos hc]
      push_cast
      ring
    rw [hfou 0 (by omega)]
    have hre : ∀ (a w : ℂ) (r : ℝ), (a * r * w).re = r * (a * w).re := by
      intro a w r
      rw [mul_right_comm, Complex.re_mul_ofReal, mul_comm]
    have hsum : ∑ j ∈ Finset.Ico 1 (H.nx / 2), (fou c k y j * wave H.nx j x * wave H.nz k z).re = ((-1) ^ c * (H.nx * H.nz) : ℝ) *
        ∑ j ∈ Finset.Ico 1 (H.nx / 2), (stored val L c y (if H.nz ≤ 2 ∨ 2 * k < H.nz then k else H.nz - 1) j * wave H.nx j x * wave H.nz k z).re := by
      rw [Finset.mul_sum]
      refine Finset.sum_congr rfl fun j hj => ?_
      rw [Finset.mem_Ico] at hj
      rw [hfou j hj.2, mul_assoc _ (wave H.nx j x), hre, ← mul_assoc (stored _ _ _ _ _ _)]
    rw [hsum, hre]
    ring

/-- **C93**, the part that holds: the velocity is the real field with the stored coefficients, up to the sign of the second component,
if those with a positive streamwise wavenumber vanish for the spanwise wavenumbers zero and from `nz / 2` on, which are the
negative ones, those with streamwise wavenumber zero are those of a real function, and among these the ones for the spanwise wavenumbers `±1` and `nz / 2` vanish as
well (for two points only the last condition is not needed). Missing: fields with such modes, see `C93_false`. -/
theorem C93_partial (native e : Endian) (val : F64 → ℝ) (H : DnsRaw) (hH : H.Ok) (hx : 2 ≤ H.nx) (hn : Even H.nz)
    (mark : Nat → Bytes) (hmark : ∀ k < 3, (mark k).length = 8)
    (flow : List (List F64 × Bytes)) (hf : flow.map (fun p => p.1.length) = flowRecords H.fltype) (hm : ∀ p ∈ flow, p.2.length = 8)
    (L : Nat → Nat × Nat → List F64) (m : Nat → Nat × Nat → Bytes) (hL : ∀ c t, (L c t).length = H.nx) (hmm : ∀ c t, (m c t).length = 8)
    (rest : Bytes)
    (hreal : ∀ c < 3, ∀ y < H.ny, ∀ k, 0 < k → k < H.nz → stored val L c y (H.nz - k) 0 = conj (stored val L c y k 0))
    (hmodes : ∀ c < 3, ∀ y < H.ny, ∀ k < H.nz, k = 0 ∨ H.nz ≤ 2 * k → ∀ j, 0 < j → j < H.nx / 2 → stored val L c y k j = 0)
    (hlost : 2 < H.nz → ∀ c < 3, ∀ y < H.ny, stored val L c y 1 0 = 0 ∧ stored val L c y (H.nz / 2) 0 = 0) :
    ∃ D : Dns ℝ, readdnsR native val (dnsFile e H mark flow L m rest) = .ok (some D) ∧ D.fields.length = 3 ∧
      ∀ c < 3, ∃ f, D.fields[c]? = some f ∧ ∀ y < H.ny, ∀ z x, f z y x = (-1) ^ c * realField H.nx H.nz (stored val L c y) z x := by
  obtain ⟨D, h1, -, -, h2, h3⟩ := dns_fields native e val H hH hx hn mark hmark flow hf hm L m hL hmm rest
  refine ⟨D, h1, h2, fun c hc => ?_⟩
  obtain ⟨f, h4, h5⟩ := h3 c hc
  refine ⟨f, h4, fun y hy z x => ?_⟩
  rw [h5 y hy z x, ← sum_realField H.nx H.nz hH.nz.1 (stored val L c y) z x (hreal c hc y hy) (hmodes c hc y hy)]
  congr 1
  refine Finset.sum_congr rfl fun k hk => ?_
  rw [Finset.mem_range] at hk
  by_cases h : H.nz ≤ 2 ∨ 2 * k < H.nz
  · rw [if_pos h]
  · rw [if_neg h]
    obtain ⟨q, hq⟩ := hn
    have hz2 : 2 < H.nz := by omega
    have hkq : k = H.nz / 2 := by omega
    have hl := hlost hz2 c hc y hy
    have e1 : stored val L c y (H.nz - 1) 0 = 0 := by
      rw [hreal c hc y hy 1 (by omega) (by omega), hl.1, map_zero]
    have e2 : stored val L c y k 0 = 0 := by rw [hkq]; exact hl.2
    rw [e1, e2]
    congr 2
    refine Finset.sum_congr rfl fun j hj => ?_
    rw [Finset.mem_Ico] at hj
    rw [hmodes c hc y hy (H.nz - 1) (by omega) (by omega) j (by omega) (by omega), hmodes c hc y hy k (by omega) (by omega) j (by omega) (by omega)]

namespace Samples

/-- The number one. -/
def oneF : F64 := Flt.ofBits (1023 * 2 ^ 52)

/-- A header: `4 × 2 × nz` points in a box of size one. -/
def boxRaw (nz : Nat) : DnsRaw := ⟨oneF, 0, oneF, oneF, 0, List.replicate 8 0, 4, 2, nz, 0, 1, oneF⟩

theorem boxRaw_ok (nz : Nat) (h1 : 0 < nz) (h2 : nz < 2 ^ 31) : (boxRaw nz).Ok :=
  ⟨show -2 ^ 31 ≤ (0 : Int) ∧ (0 : Int) < 2 ^ 31 by decide, show -2 ^ 31 ≤ (0 : Int) ∧ (0 : Int) < 2 ^ 31 by decide,
    show -2 ^ 31 ≤ (1 : Int) ∧ (1 : Int) < 2 ^ 31 by decide, rfl, show 0 < 4 ∧ 4 < 2 ^ 31 by decide, show 2 < 2 ^ 31 by decide, ⟨h1, h2⟩,
    show oneF.mag ≠ 0 by decide +kernel⟩

/-- One wave: the coefficient of the first component for the wavenumbers `k` and 1 is one. -/
def waveLines (k c : Nat) (t : Nat × Nat) : List F64 := if c = 0 ∧ t.1 = k then [0, 0, oneF, 0] else [0, 0, 0, 0]

theorem waveLines_length (k c : Nat) (t : Nat × Nat) : (waveLines k c t).length = 4 := by
  unfold waveLines
  split <;> rfl

/-- The file with one wave. -/
def waveFile (nz k : Nat) : Bytes := dnsFile .little (boxRaw nz) (fun _ => List.replicate 8 0) [] (waveLines k) (fun _ _ => List.replicate 8 0) []

theorem stored_wave (val : F64 → ℝ) (h0 : val 0 = 0) (h1 : val oneF = 1) (k c y k' j : Nat) :
    stored val (waveLines k) c y k' j = if c = 0 ∧ k' = k ∧ j = 1 then 1 else 0 := by
  unfold stored waveLines
  have hd : ∀ i, ([0, 0, 0, 0] : List F64).getD i 0 = 0 := by
    intro i
    rcases i with _ | _ | _ | _ | i <;> rfl
  simp only
  by_cases h : c = 0 ∧ k' = k
  · rw [if_pos h]
    rcases j with _ | _ | j
    · rw [if_neg (by simp)]
      simp [h0]
      rfl
    · rw [if_pos ⟨h.1, h.2, rfl⟩]
      simp [h0, h1]
      rfl
    · rw [if_neg (by omega)]
      have e1 : ([0, 0, oneF, 0] : List F64).getD (2 * (j + 1 + 1)) 0 = 0 := rfl
      have e2 : ([0, 0, oneF, 0] : List F64).getD (2 * (j + 1 + 1) + 1) 0 = 0 := rfl
      rw [e1, e2, h0]
      rfl
  · rw [if_neg h, if_neg (by tauto), hd, hd, h0]
    rfl

end Samples

theorem wave_at_zero (n k : Nat) : wave n k 0 = 1 := by
  unfold wave
  simp

open Samples in
/-- **C93** is false in the code: a wave in the streamwise direction is returned with half of its amplitude, because the transform
takes the other direction for the one of which half of the coefficients are given. -/
theorem C93_false (val : F64 → ℝ) (h0 : val 0 = 0) (h1 : val oneF = 1) :
    ∃ D : Dns ℝ, readdnsR .little val (waveFile 2 0) = .ok (some D) ∧
      ∃ f, D.fields[0]? = some f ∧ f 0 0 0 = 1 ∧ realField 4 2 (stored val (waveLines 0) 0 0) 0 0 = 2 := by
  obtain ⟨D, d1, -, -, -, d2⟩ := dns_fields .little .little val (boxRaw 2) (boxRaw_ok 2 (by decide) (by decide)) (show 2 ≤ 4 by decide)
    (show Even 2 by decide) (fun _ => List.replicate 8 0) (fun _ _ => rfl) [] rfl (by simp) (waveLines 0) (fun _ _ => List.replicate 8 0)
    (fun c t => waveLines_length 0 c t) (fun _ _ => rfl) []
  obtain ⟨f, d3, d4⟩ := d2 0 (by decide)
  refine ⟨D, d1, f, d3, ?_, ?_⟩
  · rw [d4 0 (by decide) 0 0]
    have e1 : (boxRaw 2).nz = 2 := rfl
    have e2 : (boxRaw 2).nx = 4 := rfl
    rw [e1, e2]
    simp [stored_wave val h0 h1, Finset.sum_range_succ, wave_at_zero]
  · unfold realField
    simp [stored_wave val h0 h1, Finset.sum_range_succ, wave_at_zero]

open Samples in
/-- Another reason: a wave with a negative spanwise wavenumber, stored among the last planes, is not in the field at all. -/
theorem C93_lost (val : F64 → ℝ) (h0 : val 0 = 0) (h1 : val oneF = 1) (nz k : Nat) (hn : Even nz) (hb : nz < 2 ^ 31) (hk1 : nz ≤ 2 * k) (hk2 : k + 1 < nz) :
    ∃ D : Dns ℝ, readdnsR .little val (waveFile nz k) = .ok (some D) ∧
      ∃ f, D.fields[0]? = some f ∧ (∀ z x, f z 0 x = 0) ∧ realField 4 nz (stored val (waveLines k) 0 0) 0 0 = 2 := by
  obtain ⟨D, d1, -, -, -, d2⟩ := dns_fields .little .little val (boxRaw nz) (boxRaw_ok nz (by omega) hb) (show 2 ≤ 4 by decide)
    hn (fun _ => List.replicate 8 0) (fun _ _ => rfl) [] rfl (by simp) (waveLines k) (fun _ _ => List.replicate 8 0)
    (fun c t => waveLines_length k c t) (fun _ _ => rfl) []
  obtain ⟨f, d3, d4⟩ := d2 0 (by decide)
  have e1 : (boxRaw nz).nz = nz := rfl
  refine ⟨D, d1, f, d3, fun z x => ?_, ?_⟩
  · rw [d4 0 (show 0 < 2 by decide) z x, e1]
    rw [Finset.sum_eq_zero, mul_zero]
    intro i hi
    rw [Finset.mem_range] at hi
    have hs : ∀ j, stored val (waveLines k) 0 0 (if nz ≤ 2 ∨ 2 * i < nz then i else nz - 1) j = 0 := by
      intro j
      rw [stored_wave val h0 h1, if_neg]
      rintro ⟨-, h, -⟩
      split at h <;> omega
    simp [hs]
  · unfold realField
    rw [Finset.sum_eq_single k]
    · simp [stored_wave val h0 h1, wave_at_zero]
    · intro b _ hb
      simp [stored_wave val h0 h1, wave_at_zero, hb]
    · intro h
      rw [Finset.mem_range] at h
      omega

open Samples in
/-- The wave with spanwise wavenumber 1 of 4 meets the hypotheses of `C93_partial`: it is returned as stored. -/
example (val : F64 → ℝ) (h0 : val 0 = 0) (h1 : val oneF = 1) :
    ∃ D : Dns ℝ, readdnsR .little val (waveFile 4 1) = .ok (some D) ∧
      ∃ f, D.fields[0]? = some f ∧ f 0 0 0 = 2 := by
  obtain ⟨D, d1, -, d2⟩ := C93_partial .little .little val (boxRaw 4) (boxRaw_ok 4 (by decide) (by decide)) (show 2 ≤ 4 by decide)
    (show Even 4 by decide) (fun _ => List.replicate 8 0) (fun _ _ => rfl) [] rfl (by simp) (waveLines 1) (fun _ _ => List.replicate 8 0)
    (fun c t => waveLines_length 1 c t) (fun _ _ => rfl) [] (fun c _ y _ k _ _ => by rw [stored_wave val h0 h1, stored_wave val h0 h1]; simp)
    (fun c _ y _ k _ hk j hj _ => by
      rw [stored_wave val h0 h1, if_neg]
      rintro ⟨-, rfl, -⟩
      rcases hk with h | h
      · omega
      · exact absurd (show 4 ≤ 2 * 1 from h) (by decide))
    (fun _ c _ y _ => by rw [stored_wave val h0 h1, stored_wave val h0 h1]; simp)
  obtain ⟨f, d3, d4⟩ := d2 0 (by decide)
  refine ⟨D, d1, f, d3, ?_⟩
  rw [d4 0 (show 0 < 2 by decide) 0 0]
  have e1 : (boxRaw 4).nz = 4 := rfl
  have e2 : (boxRaw 4).nx = 4 := rfl
  rw [e1, e2]
  unfold realField
  simp [stored_wave val h0 h1, Finset.sum_range_succ, wave_at_zero]

/-- **C94**: the coordinates. In x they start from zero in equal steps, the end of the box being one step beyond the last; in y
they are the Chebyshev points, which increase from zero to `2 / dstar` symmetrically; in z they start from minus half of the box in
equal steps. Every coordinate depends on its own index only. -/
theorem C94 (native e : Endian) (val : F64 → ℝ) (H : DnsRaw) (hH : H.Ok) (hy : 2 ≤ H.ny) (hn : H.nz = 1 ∨ Even H.nz) (hx0 : 0 < val H.boxX)
    (hz0 : 0 < val H.boxZ) (hd0 : 0 < val H.dstar)
    (mark : Nat → Bytes) (hmark : ∀ k < 3, (mark k).length = 8)
    (flow : List (List F64 × Bytes)) (hf : flow.map (fun p => p.1.length) = flowRecords H.fltype) (hm : ∀ p ∈ flow, p.2.length = 8)
    (L : Nat → Nat × Nat → List F64) (m : Nat → Nat × Nat → Bytes) (hL : ∀ c t, (L c t).length = H.nx) (hmm : ∀ c t, (m c t).length = 8)
    (rest : Bytes) :
    ∃ D : Dns ℝ, readdnsR native val (dnsFile e H mark flow L m rest) = .ok (some D) ∧ ∃ X Y Z : Nat → ℝ,
      (∀ z y x, D.pos 0 z y x = X x ∧ D.pos 1 z y x = Y y ∧ D.pos 2 z y x = Z z) ∧
      (X 0 = 0 ∧ X H.nx = val H.boxX ∧ ∀ i, X (i + 1) - X i = val H.boxX / H.nx) ∧
      (Y 0 = 0 ∧ Y (H.ny - 1) = 2 / val H.dstar ∧ (∀ i j, i < j → j < H.ny → Y i < Y j) ∧
        ∀ i < H.ny, Y (H.ny - 1 - i) = 2 / val H.dstar - Y i) ∧
      (Z 0 = -(val H.boxZ / 2) ∧ Z H.nz = val H.boxZ / 2 ∧ ∀ i, Z (i + 1) - Z i = val H.boxZ / H.nz) := by
  obtain ⟨D, fou, h1, h2, -, h4, -, -⟩ := C92 native e (0 : ℂ) (dnsCoef val) irfft2 (dnsPos val) H hH hn mark hmark flow hf hm L m hL hmm rest
  have hnx : (H.nx : ℝ) ≠ 0 := by exact_mod_cast hH.nx.1.ne'
  have hnz : (H.nz : ℝ) ≠ 0 := by exact_mod_cast hH.nz.1.ne'
  have hny : (0 : ℝ) < (H.ny : ℝ) - 1 := by
    have : (2 : ℝ) ≤ H.ny := by exact_mod_cast hy
    linarith
  refine ⟨D, h1, fun x => val H.boxX / H.nx * x, fun y => 2 / val H.dstar * (1 - Real.cos (Real.pi / ((H.ny : ℝ) - 1) * y)) / 2,
    fun z => val H.boxZ / H.nz * (z - (H.nz : ℝ) / 2), ?_, ⟨?_, ?_, ?_⟩, ⟨?_, ?_, ?_, ?_⟩, ⟨?_, ?_, ?_⟩⟩
  · intro z y x
    rw [h4, h2]
    exact ⟨rfl, rfl, rfl⟩
  · simp
  · field_simp
  · intro i
    push_cast
    ring
  · simp
  · have : Real.pi / ((H.ny : ℝ) - 1) * ((H.ny - 1 : Nat) : ℝ) = Real.pi := by
      rw [Nat.cast_sub (by omega), Nat.cast_one]
      field_simp
    simp only [this, Real.cos_pi]
    ring
  · intro i j hij hj
    have hi' : (i : ℝ) < j := by exact_mod_cast hij
    have hj' : (j : ℝ) ≤ (H.ny : ℝ) - 1 := by
      have : (j : ℝ) + 1 ≤ H.ny := by exact_mod_cast hj
      linarith
    have hstep : 0 < Real.pi / ((H.ny : ℝ) - 1) := div_pos Real.pi_pos hny
    have hc : Real.cos (Real.pi / ((H.ny : ℝ) - 1) * j) < Real.cos (Real.pi / ((H.ny : ℝ) - 1) * i) := by
      refine Real.strictAntiOn_cos ⟨by positivity, ?_⟩ ⟨by positivity, ?_⟩ (mul_lt_mul_of_pos_left hi' hstep)
      · calc Real.pi / ((H.ny : ℝ) - 1) * i ≤ Real.pi / ((H.ny : ℝ) - 1) * ((H.ny : ℝ) - 1) := mul_le_mul_of_nonneg_left (by linarith) hstep.le
          _ = Real.pi := by field_simp
      · calc Real.pi / ((H.ny : ℝ) - 1) * j ≤ Real.pi / ((H.ny : ℝ) - 1) * ((H.ny : ℝ) - 1) := mul_le_mul_of_nonneg_left hj' hstep.le
          _ = Real.pi := by field_simp
    have h2d : 0 < 2 / val H.dstar := by positivity
    have := mul_lt_mul_of_pos_left (sub_lt_sub_left hc 1) h2d
    simp only
    linarith
  · intro i hi
    have : Real.pi / ((H.ny : ℝ) - 1) * ((H.ny - 1 - i : Nat) : ℝ) = Real.pi - Real.pi / ((H.ny : ℝ) - 1) * i := by
      rw [Nat.cast_sub (by omega), Nat.cast_sub (by omega), Nat.cast_one]
      field_simp
    simp only [this, Real.cos_pi_sub]
    ring
  · simp only [Nat.cast_zero, zero_sub]
    field_simp
  · simp only
    field_simp
    ring
  · intro i
    push_cast
    ring

open Samples in
/-- Two points in y: the walls. -/
example (val : F64 → ℝ) (h1 : val oneF = 1) :
    ∃ D : Dns ℝ, readdnsR .little val (waveFile 2 0) = .ok (some D) ∧ D.pos 0 0 0 0 = 0 ∧ D.pos 1 1 0 2 = 0 ∧ D.pos 1 0 1 0 = 2 ∧ D.pos 2 0 1 3 = -(1 / 2) := by
  have hp : 0 < val oneF := by rw [h1]; norm_num
  obtain ⟨D, d1, X, Y, Z, d2, ⟨dx, -⟩, ⟨dy0, dy1, -⟩, dz, -⟩ := C94 .little .little val (boxRaw 2) (boxRaw_ok 2 (by decide) (by decide)) (show 2 ≤ 2 by decide)
    (.inr (show Even 2 by decide)) hp hp hp (fun _ => List.replicate 8 0) (fun _ _ => rfl) [] rfl (by simp) (waveLines 0) (fun _ _ => List.replicate 8 0)
    (fun c t => waveLines_length 0 c t) (fun _ _ => rfl) []
  refine ⟨D, d1, by rw [(d2 0 0 0).1, dx], by rw [(d2 1 0 2).2.1, dy0], ?_, ?_⟩
  · rw [(d2 0 1 0).2.1]
    have : (boxRaw 2).dstar = oneF := rfl
    rw [this, h1] at dy1
    have h2 : (boxRaw 2).ny - 1 = 1 := rfl
    rw [h2] at dy1
    rw [dy1]
    norm_num
  · have : (boxRaw 2).boxZ = oneF := rfl
    rw [this, h1] at dz
    rw [(d2 0 1 3).2.2, dz]

end Pymech
