/-
Specification: functions represented by Chebyshev coefficients, boundary conditions.
-/
import Verif.Core.Res
import Verif.Model.Compo
import Mathlib.RingTheory.Polynomial.Chebyshev

namespace Verif.Spec
open Finset Polynomial
variable (K : Type) {T : Type} [Field K] [AddCommGroup T] [Module K T]

/-- The `k`-th derivative at `x` of the function `∑ᵢ Tᵢ(x) aᵢ` with coefficients `a` (scalars,
or vectors such as complex numbers over the reals). -/
noncomputable def chebDeriv (k : ℕ) (a : List T) (x : K) : T :=
  ∑ i ∈ range a.length, (derivative^[k] (Chebyshev.T K i)).eval x • nth a i

/-- Value at `x` of the function with coefficients `a`. -/
noncomputable def chebVal (a : List T) (x : K) : T :=
  ∑ i ∈ range a.length, (Chebyshev.T K i).eval x • nth a i

/-- The polynomial `∑ᵢ aᵢ Tᵢ`. -/
noncomputable def chebPoly (a : List K) : K[X] :=
  ∑ i ∈ range a.length, C (nth a i) * Chebyshev.T K i

/-- The boundary conditions of the five composite bases (compo.rs doc comments). -/
def SatisfiesBC : CKind → List T → Prop
  | .dirichlet, a => chebDeriv K 0 a 1 = 0 ∧ chebDeriv K 0 a (-1) = 0
  | .neumann, a => chebDeriv K 1 a 1 = 0 ∧ chebDeriv K 1 a (-1) = 0
  | .dirichletNeumann, a => chebDeriv K 0 a (-1) = 0 ∧ chebDeriv K 1 a 1 = 0
  | .biharmonicA, a => (chebDeriv K 0 a 1 = 0 ∧ chebDeriv K 0 a (-1) = 0) ∧
      chebDeriv K 1 a 1 = 0 ∧ chebDeriv K 1 a (-1) = 0
  | .biharmonicB, a => (chebDeriv K 0 a 1 = 0 ∧ chebDeriv K 0 a (-1) = 0) ∧
      chebDeriv K 2 a 1 = 0 ∧ chebDeriv K 2 a (-1) = 0

/-- For scalar coefficients these are the value and derivatives of the polynomial `∑ aᵢ Tᵢ`. -/
theorem chebDeriv_eq_eval (k : ℕ) (a : List K) (x : K) :
    chebDeriv K k a x = (derivative^[k] (chebPoly K a)).eval x := by
  unfold chebDeriv chebPoly
  rw [iterate_derivative_sum, eval_finset_sum]
  refine Finset.sum_congr rfl (fun i _ => ?_)
  rw [iterate_derivative_C_mul, eval_C_mul, smul_eq_mul, mul_comm]

theorem chebVal_eq_chebDeriv (a : List T) (x : K) : chebVal K a x = chebDeriv K 0 a x := rfl

end Verif.Spec
