/-
Specification: boundary conditions of a function on `[-1, 1]`.
-/
import Verif.Model.Compo
import Mathlib.Analysis.Calculus.IteratedDeriv.Defs

namespace Verif.Spec
open Verif

/-- The homogeneous boundary conditions of the five composite bases (compo.rs doc comments): a condition
`(d, x)` says that the `d`-th derivative vanishes at `x`. -/
def conditions : CKind → List (ℕ × ℝ)
  | .dirichlet => [(0, -1), (0, 1)]
  | .neumann => [(1, -1), (1, 1)]
  | .dirichletNeumann => [(0, -1), (1, 1)]
  | .biharmonicA => [(0, -1), (0, 1), (1, -1), (1, 1)]
  | .biharmonicB => [(0, -1), (0, 1), (2, -1), (2, 1)]

/-- Highest derivative in the boundary conditions. -/
def conditionOrder : CKind → ℕ
  | .dirichlet => 0
  | .neumann => 1
  | .dirichletNeumann => 1
  | .biharmonicA => 1
  | .biharmonicB => 2

/-- A function on `[-1, 1]` satisfies the boundary conditions of the base. -/
def FunctionBC (k : CKind) (f : ℝ → ℝ) : Prop :=
  ∀ c ∈ conditions k, iteratedDerivWithin c.1 f (Set.Icc (-1) 1) c.2 = 0

/-- The same for all real-to-real bases; the Chebyshev base has no boundary conditions. -/
def OptBC : Option CKind → (ℝ → ℝ) → Prop
  | none, _ => True
  | some k, f => FunctionBC k f

/-- Highest derivative in the boundary conditions of a real-to-real base. -/
def optOrder : Option CKind → ℕ
  | none => 0
  | some k => conditionOrder k

/-- Tail of the Chebyshev series `∑ aₖ Tₖ` with weight `k^(2 d)` (a bound of the `d`-th derivative of
`Tₖ`). -/
noncomputable def chebTail (a : ℕ → ℝ) (n d : ℕ) : ℝ := ∑' k : ℕ, |a (k + n)| * ((k + n : ℕ) : ℝ) ^ (2 * d)

end Verif.Spec
