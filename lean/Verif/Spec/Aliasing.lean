/-
Specification: which of the basis functions of a base agrees on the grid with a given function of
higher frequency (aliasing).
-/
import Mathlib.Data.Int.ModEq
import Mathlib.Order.Lattice

namespace Verif.Spec

/-- The Chebyshev polynomial of degree less than `n` that agrees with `Tₖ` on the `n` points
`-cos(π j / (n - 1))`: the degree reflected at `0` and `n - 1`. -/
def chebAlias (n k : ℕ) : ℕ := min (k % (2 * (n - 1))) (2 * (n - 1) - k % (2 * (n - 1)))

/-- The position, among `n` coefficients in FFT order, of the exponential that agrees with
`exp(i K x)` on the `n` points `2 π j / n`. -/
def fourierAlias (n : ℕ) (K : ℤ) : ℕ := (K % n).toNat

/-- The cosine of frequency at most `n / 2` that agrees with `cos(k x)` on the `n` points `2 π j / n`. -/
def cosAlias (n k : ℕ) : ℕ := min (k % n) (n - k % n)

/-- The sign with which the sine of frequency `cosAlias n k` agrees with `sin(k x)` on the `n` points
`2 π j / n`; `0` if `sin(k x)` vanishes on the grid. -/
def sinSign (n k : ℕ) : ℤ :=
  if k % n = 0 ∨ 2 * (k % n) = n then 0 else if 2 * (k % n) < n then 1 else -1

end Verif.Spec
