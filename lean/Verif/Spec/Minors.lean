/-
Specification: leading principal minors, definiteness and diagonal dominance of a matrix.
-/
import Verif.Spec.Banded
import Mathlib.LinearAlgebra.Matrix.Determinant.Basic
import Mathlib.Analysis.Normed.Field.Basic

namespace Verif.Spec
open Finset

/-- The determinant of the leading `k × k` block of `A`. -/
def minor {K : Type} [Field K] (A : ℕ → ℕ → K) (k : ℕ) : K :=
  Matrix.det (Matrix.of fun i j : Fin k => A i j)

/-- The `n × n` matrix `A` has positive quadratic form: `∑ᵢ yᵢ (A y)ᵢ > 0` for every `y ≠ 0`. -/
def PositiveDefinite {K : Type} [Field K] [LinearOrder K] (n : ℕ) (A : ℕ → ℕ → K) : Prop :=
  ∀ y : ℕ → K, (∃ i < n, y i ≠ 0) → 0 < ∑ i ∈ range n, y i * ∑ j ∈ range n, A i j * y j

/-- Every row of the `n × n` matrix `A` is strictly dominated by its diagonal entry. -/
def RowDominant {K : Type} [NormedField K] (n : ℕ) (A : ℕ → ℕ → K) : Prop :=
  ∀ i < n, ∑ j ∈ (range n).erase i, ‖A i j‖ < ‖A i i‖

/-- Every column of the `n × n` matrix `A` is strictly dominated by its diagonal entry. -/
def ColDominant {K : Type} [NormedField K] (n : ℕ) (A : ℕ → ℕ → K) : Prop :=
  ∀ j < n, ∑ i ∈ (range n).erase j, ‖A i j‖ < ‖A j j‖

/-- Every row of the real `n × n` matrix `A` is dominated by its diagonal entry with the ratio `ρ`. -/
def DominantBy (ρ : ℝ) (n : ℕ) (A : ℕ → ℕ → ℝ) : Prop :=
  ∀ i < n, A i i ≠ 0 ∧ ∑ j ∈ (range n).erase i, |A i j| ≤ ρ * |A i i|

end Verif.Spec
