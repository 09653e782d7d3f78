import Mathlib.Analysis.SpecialFunctions.Trigonometric.Basic
/-
Design of the low-pass filter of the hit finder: src/wib/tpg/DesignFIR.cpp l.20-68, used by
src/wib/WIBFrameProcessor.hpp l.99-102. Double-precision arithmetic is modelled by the real numbers;
`tapsFrom` takes the coefficients as a parameter so that the effect of floating-point errors can be
stated. Not covered: one tap (0/0 in `hamming`) and coefficients outside the range of int16_t.
-/
namespace Verif.Fir
open Real

/-- `hamming(M)[n]`, DesignFIR.cpp l.20-28. -/
noncomputable def hamming (M n : ℕ) : ℝ := 0.54 - 0.46 * cos (2 * π * n / (M - 1))

/-- `sinc`, DesignFIR.cpp l.30-37. -/
noncomputable def sinc (x : ℝ) : ℝ := if x = 0 then 1 else sin (π * x) / (π * x)

/-- The unnormalised coefficient, DesignFIR.cpp l.42, 47. -/
noncomputable def raw (N : ℕ) (cutoff : ℝ) (m : ℕ) : ℝ :=
  hamming N m * sinc (cutoff * ((m : ℝ) - (N / 2 : ℕ)))

/-- The sum of l.45-50. -/
noncomputable def total (N : ℕ) (cutoff : ℝ) : ℝ := ∑ m ∈ Finset.range N, raw N cutoff m

/-- `firwin(N, cutoff)[m]`, DesignFIR.cpp l.39-55. -/
noncomputable def firwin (N : ℕ) (cutoff : ℝ) (m : ℕ) : ℝ := raw N cutoff m / total N cutoff

/-- C++ `round`: to nearest, halves away from zero. DesignFIR.cpp l.65. -/
noncomputable def cround (x : ℝ) : ℤ := if 0 ≤ x then ⌊x + 1 / 2⌋ else -⌊-x + 1 / 2⌋

/-- `firwin_int(N, cutoff, multiplier)[i]` (l.57-68), with `x i` for `multiplier * coeffs_double[i]`; the
`push_back(0)` of WIBFrameProcessor.hpp l.100 gives the entry behind the last. -/
noncomputable def tapsFrom (N : ℕ) (x : ℕ → ℝ) (i : ℕ) : ℤ := if i < N then cround (x i) else 0

/-- The taps in exact arithmetic, WIBFrameProcessor.hpp l.99-102. -/
noncomputable def taps (N : ℕ) (cutoff : ℝ) (multiplier : ℕ) : ℕ → ℤ :=
  tapsFrom N (fun i => multiplier * firwin N cutoff i)

end Verif.Fir
