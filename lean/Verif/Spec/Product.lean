/-
Moving coefficients to a base of another size and multiplying functions on the finer grid
("dealiasing"), for property C107.
-/
import Verif.Spec.Aliasing
import Verif.Spec.Fourier
import Verif.Spec.Cheb

namespace Verif.Spec

/-- The coefficients of the same Chebyshev series in a base of size `m`: zeros are appended, or the last
coefficients are cut off. -/
def resize {T : Type} [Zero T] (m : ℕ) (c : List T) : List T := (List.range m).map (nth c)

/-- The coefficients, in `fourier_c2c(m)`, of the function that has the coefficients `c` in
`fourier_c2c(n)`: every frequency keeps its coefficient, times `m / n` because the library divides by the
size on the way back. -/
noncomputable def refineC (n m : ℕ) (c : List ℂ) : List ℂ :=
  (List.range m).map fun j =>
    if -(n : ℤ) ≤ 2 * freq m j ∧ 2 * freq m j < n then (m / n : ℂ) * nth c (fourierAlias n (freq m j)) else 0

/-- The same for `fourier_r2c(n)` and `fourier_r2c(m)`, `n ≤ m`: if `n` is even its last coefficient stands
for both frequencies `±n/2` and is halved in a larger base. -/
noncomputable def refineR (n m : ℕ) (c : List ℂ) : List ℂ :=
  (List.range (m / 2 + 1)).map fun j =>
    (m / n : ℂ) * (if 2 * j = n ∧ n < m then 1 / 2 else 1) * nth c j

/-- multiplication point by point on a grid -/
def pointwise {T : Type} [Mul T] (u v : List T) : List T := List.zipWith (· * ·) u v

end Verif.Spec
