/-
Specification: functions represented by Fourier coefficients.
-/
import Verif.Core.Res
import Mathlib.Analysis.SpecialFunctions.Complex.Circle
import Mathlib.Analysis.Calculus.IteratedDeriv.Defs

namespace Verif.Spec
open Finset Complex

/-- Signed integer frequency of entry `j` of `n` coefficients in FFT order:
`0, 1, …, ⌈n/2⌉-1, -⌊n/2⌋, …, -1`. -/
def freq (n j : ℕ) : ℤ := if 2 * j < n then (j : ℤ) else (j : ℤ) - n

/-- The function represented by `n` complex coefficients: `(1/n) ∑ⱼ cⱼ exp(i Kⱼ x)`
(the library normalises on the backward transform). -/
noncomputable def trigC (n : ℕ) (c : List ℂ) (x : ℝ) : ℂ :=
  (1 / n) * ∑ j ∈ range n, nth c j * exp (I * freq n j * x)

/-- The real function represented by the `n/2+1` coefficients of a real-to-complex base:
`(1/n) Re(c₀ + 2 ∑ cⱼ exp(i j x) [+ c_{n/2} exp(i (n/2) x) for even n])`. -/
noncomputable def trigR (n : ℕ) (c : List ℂ) (x : ℝ) : ℝ :=
  (1 / n) * ∑ j ∈ range (n / 2 + 1),
    (if j = 0 ∨ 2 * j = n then 1 else 2) * (nth c j * exp (I * j * x)).re

end Verif.Spec
