/-
Implicit time stepping of the heat equation with the matrices of the bases, for property C106.
-/
import Verif.Spec.Tau
import Verif.Spec.Poisson2

namespace Verif.Spec
open Finset

/-- One implicit Euler step of length `dt` for `∂u/∂t = ν u'' + g`: the coefficients `v` of the current
function are expanded by `to_ortho` (multiplication by the stencil, C11), the source is added, and the
Helmholtz problem `u - dt ν u'' = f` is solved with the matrices of the base. -/
def EulerStep (S P I : Mat ℝ) (ν dt : ℝ) (g v v' : List ℝ) : Prop :=
  SolvesHelmholtz S P I 1 (dt * ν)
    ((List.range S.rows).map fun i => nth (mulVec S v) i + dt * nth g i) v'

/-- One implicit Euler step for `∂u/∂t = ν Δu + g` in two dimensions. -/
def EulerStep2 (S P I S' P' I' : Mat ℝ) (ν dt : ℝ) (G V V' : Mat ℝ) : Prop :=
  SolvesHelmholtz2 S P I S' P' I' 1 (dt * ν)
    ⟨S.rows, S'.rows, fun i j =>
      (∑ k ∈ range S.cols, ∑ l ∈ range S'.cols, S.get i k * S'.get j l * V.get k l) + dt * G.get i j⟩ V'

end Verif.Spec

namespace Verif.Spec
open Finset

/-- `V` solves the Helmholtz problem `β u - c Δu = f` of a Fourier × Chebyshev space,
`β E V A'ᵀ - c (E V B'ᵀ + L V A'ᵀ) = F (I P)ᵀ` with `A' = I P S`, `B' = I S`, and `E = stencil()`,
`L = laplacian()` of the Fourier base. (`SolvesModes` is `β = 0`, `c = -1`.) -/
def SolvesModesHelmholtz (E L S P I : Mat ℝ) (β c : ℝ) (F V : Mat ℂ) : Prop :=
  ∀ k < E.rows, ∀ i < I.rows,
    ∑ k' ∈ range E.cols, ∑ l ∈ range S.cols,
      ((β * (E.get k k' * (matMul (matMul I P) S).get i l) - c * (E.get k k' * (matMul I S).get i l
        + L.get k k' * (matMul (matMul I P) S).get i l) : ℝ) : ℂ) * V.get k' l
    = ∑ l ∈ range P.cols, ((matMul I P).get i l : ℂ) * F.get k l

/-- One implicit Euler step for `∂u/∂t = ν Δu + g` on a Fourier × Chebyshev space. -/
def EulerModes (E L S P I : Mat ℝ) (ν dt : ℝ) (G V V' : Mat ℂ) : Prop :=
  SolvesModesHelmholtz E L S P I 1 (dt * ν)
    ⟨E.rows, S.rows, fun k i => (∑ l ∈ range S.cols, (S.get i l : ℂ) * V.get k l) + dt * G.get k i⟩ V'

end Verif.Spec
