import Verif.IO.Simson
import Mathlib.Analysis.SpecialFunctions.Complex.Circle

/-!
# `readdns` in exact arithmetic

The coefficients, the inverse transform and the coordinates of `readdns` with real and complex numbers instead of floats;
`val` gives the number a float stands for. `numpy` is modelled by the documented formulas of its transforms.
-/

set_option autoImplicit false

namespace Pymech

open scoped BigOperators

/-- `exp(2πi k m / n)`. -/
noncomputable def wave (n k m : Nat) : ℂ := Complex.exp (2 * Real.pi * Complex.I * (k * m / n : ℝ))

/-- `(fi[ip] + 1j * fi[ip + 1]) * nppl * (-1) ** idim` for the velocity, simsonsuite.py:205, and without the sign for the
scalars, simsonsuite.py:225. -/
noncomputable def dnsCoef (val : F64 → ℝ) (nppl c : Nat) (a b : F64) : ℂ :=
  (⟨val a, val b⟩ : ℂ) * nppl * (if c < 3 then (-1) ^ c else 1)

/-- `np.fft.ifft(a, n)` for `len` numbers `a`: the rest is dropped, or zeros are appended. -/
noncomputable def ifft (n len : Nat) (a : Nat → ℂ) (m : Nat) : ℂ := (∑ k ∈ Finset.range (min n len), a k * wave n k m) / n

/-- `np.fft.irfft(a, n)` for at least `n // 2 + 1` numbers `a`: only these are used, the others are taken to be the conjugates;
of the first and, if `n` is even, of the last only the real part counts. -/
noncomputable def irfft (n : Nat) (a : Nat → ℂ) (m : Nat) : ℝ :=
  (∑ k ∈ Finset.range (n / 2 + 1), (if k = 0 ∨ 2 * k = n then 1 else 2) * (a k * wave n k m).re) / n

/-- `np.fft.irfft2(fou, (lr1[0], lr1[2]), (2, 0))`, simsonsuite.py:211 and 231, for an array with `nx // 2 + 1` numbers in the
last direction: `ifft` in the last direction, then `irfft` in the first, because the last of the axes is the real one. -/
noncomputable def irfft2 (nx nz : Nat) (fou : Nat → Nat → Nat → ℂ) (z y x : Nat) : ℝ :=
  irfft nz (fun k => ifft nx (nx / 2 + 1) (fun j => fou k y j) x) z

/-- The coordinates, simsonsuite.py:180–191. For one point in y the code divides by zero and gets NaN; the model does not. -/
noncomputable def dnsPos (val : F64 → ℝ) (h : DnsHead) (c z y x : Nat) : ℝ :=
  if c = 0 then val h.boxX / h.nx * x
  else if c = 1 then 2 / val h.dstar * (1 - Real.cos (Real.pi / ((h.ny : ℝ) - 1) * y)) / 2
  else val h.boxZ / h.nz * (z - (h.nz : ℝ) / 2)

/-- `readdns` in exact arithmetic, simsonsuite.py:13–241. -/
noncomputable def readdnsR (native : Endian) (val : F64 → ℝ) (b : Bytes) : Py (Option (Dns ℝ)) :=
  readdns native (0 : ℂ) (dnsCoef val) irfft2 (dnsPos val) b

end Pymech
