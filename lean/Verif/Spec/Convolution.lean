/-
Convolutions of lists, for property C115.
-/
import Verif.Spec.Aliasing
import Verif.Spec.Product
import Verif.Spec.ByParts

namespace Verif.Spec
open Finset

/-- The circular convolution of two lists of `n` entries: `∑ₗ xₗ y_{j-l}`, indices modulo `n`. -/
def circConv {T : Type} [AddCommMonoid T] [Mul T] (n : ℕ) (x y : List T) : List T :=
  (List.range n).map fun j => ∑ l ∈ range n, nth x l * nth y ((j + n - l) % n)

/-- The circular correlation of two lists of `n` entries: `∑ₗ conj(xₗ) y_{l+j}`, indices modulo `n`. -/
def circCorr {T : Type} [AddCommMonoid T] [Mul T] (n : ℕ) (conj : T → T) (x y : List T) : List T :=
  (List.range n).map fun j => ∑ l ∈ range n, conj (nth x l) * nth y ((l + j) % n)

/-- All `n` Fourier coefficients of real data whose first `n / 2 + 1` coefficients are `X`. -/
noncomputable def fullSpectrum (n : ℕ) (X : List ℂ) : List ℂ :=
  (List.range n).map fun k => if k ≤ n / 2 then nth X k else (starRingEnd ℂ) (nth X (n - k))

/-- The product of two Chebyshev series with `n` coefficients on the grid of `n` points: `Tᵢ Tⱼ = (T_{i+j} + T_{|i-j|}) / 2`,
where degrees beyond the grid are reflected. -/
noncomputable def chebConv (n : ℕ) (X Y : List ℝ) : List ℝ :=
  (List.range n).map fun k => ∑ i ∈ range n, ∑ j ∈ range n,
    nth X i * nth Y j * (((if chebAlias n (i + j) = k then 1 else 0) + (if (i - j) + (j - i) = k then 1 else 0)) / 2)

end Verif.Spec
