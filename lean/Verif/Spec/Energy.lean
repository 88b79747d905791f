/-
The energy of grid data and of coefficients, for property C108.
-/
import Verif.Spec.Space

namespace Verif.Spec
open Finset Res

/-- `forward` of the base runs on all grid data and preserves the energy: the weighted sum of the squared absolute values of
the grid data (weights `wp`) is the weighted sum of the squared absolute values of the coefficients (weights `ws`). -/
def KeepsEnergy {P S T A : Type} [NormedAddCommGroup P] [NormedAddCommGroup S] (b : Base P S T A) (wp ws : ℕ → ℝ) : Prop :=
  ∃ φ, Computes b.forwardSlice b.lenPhys b.lenSpec φ ∧ ∀ v, v.length = b.lenPhys →
    ∑ j ∈ range b.lenPhys, wp j * ‖nth v j‖ ^ 2 = ∑ k ∈ range b.lenSpec, ws k * ‖nth (φ v) k‖ ^ 2

/-- quadrature weights of the Chebyshev grid of `n` points, times `2/π (n-1)`: the end points count half -/
noncomputable def chebGridW (n j : ℕ) : ℝ := if j = 0 ∨ j + 1 = n then 1 / 2 else 1

/-- squared norms of the modes of `chebyshev(n)` for that weighting -/
noncomputable def chebModeW (n k : ℕ) : ℝ := (n - 1 : ℕ) / 2 * if k = 0 ∨ k + 1 = n then 2 else 1

/-- squared norms of the modes of `fourier_r2c(n)`: the mean and the Nyquist mode count once, all others
represent two frequencies -/
noncomputable def r2cModeW (n k : ℕ) : ℝ := (if k = 0 ∨ 2 * k = n then 1 else 2) / n

/-- squared norms of the modes of `fourier_c2c(n)` -/
noncomputable def c2cModeW (n _k : ℕ) : ℝ := 1 / n

end Verif.Spec
