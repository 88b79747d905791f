/-
The Helmholtz system of examples/field.rs and the weighted integral in which the Chebyshev
polynomials are orthogonal, for property C102.
-/
import Verif.Spec.Mat
import Mathlib.Algebra.Polynomial.Eval.Defs
import Mathlib.MeasureTheory.Integral.IntervalIntegral.Basic
import Mathlib.Analysis.SpecialFunctions.Trigonometric.Basic

namespace Verif.Spec
open Real

/-- `v` solves `(β A - c B) v = I P f` with `A = I P S` and `B = I S`, the products that
`ingredients_for_hholtz` (examples/field.rs:121-130) forms from `stencil() = S` and
`laplacian_pinv() = (P, I)`. (That function itself panics when it stores `I P` back into `P`, C63; a
caller forms the products with `dot`.) -/
def SolvesHelmholtz (S P I : Mat ℝ) (β c : ℝ) (f v : List ℝ) : Prop :=
  ∀ i < I.rows, β * nth (mulVec (matMul (matMul I P) S) v) i - c * nth (mulVec (matMul I S) v) i
    = nth (mulVec (matMul I P) f) i

/-- `∫ p(x) / √(1 - x²) dx` over `[-1, 1]`, written with `x = cos θ`. -/
noncomputable def wInt (p : Polynomial ℝ) : ℝ := ∫ θ in (0 : ℝ)..π, p.eval (cos θ)

end Verif.Spec
