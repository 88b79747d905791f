/-
The two-dimensional Poisson and Helmholtz systems that are assembled from the matrices of the two
bases of a space, for property C104.
-/
import Verif.Spec.Space
import Verif.Spec.Mat

namespace Verif.Spec
open Finset

/-- `V` solves the two-dimensional system
`β A V A'ᵀ - c (A V B'ᵀ + B V A'ᵀ) = (I P) F (I' P')ᵀ`, where `A = I P S` and `B = I S` are the
products that `ingredients_for_poisson` (examples/field.rs:137-160) forms for the first axis from
`stencil() = S` and `laplacian_pinv() = (P, I)`, and the primed ones those of the second axis.
Poisson's equation `Δu = f` is `β = 0`, `c = -1`. -/
def SolvesHelmholtz2 (S P I S' P' I' : Mat ℝ) (β c : ℝ) (F V : Mat ℝ) : Prop :=
  ∀ i < I.rows, ∀ j < I'.rows,
    ∑ k ∈ range S.cols, ∑ l ∈ range S'.cols,
      (β * ((matMul (matMul I P) S).get i k * (matMul (matMul I' P') S').get j l)
        - c * ((matMul (matMul I P) S).get i k * (matMul I' S').get j l
          + (matMul I S).get i k * (matMul (matMul I' P') S').get j l)) * V.get k l
    = ∑ k ∈ range P.cols, ∑ l ∈ range P'.cols,
        (matMul I P).get i k * (matMul I' P').get j l * F.get k l

/-- the function with coefficients `V` in the product of the two bases -/
noncomputable def fn2 (S S' V : Mat ℝ) (x y : ℝ) : ℝ :=
  ∑ k ∈ range S.cols, ∑ l ∈ range S'.cols, V.get k l * (stencilFn S k x * stencilFn S' l y)

/-- the function `∑ F_kl T_k(x) T_l(y)`, `k < n`, `l < n'` -/
noncomputable def chebSum2 (n n' : ℕ) (F : ℕ → ℕ → ℝ) (x y : ℝ) : ℝ :=
  ∑ k ∈ range n, ∑ l ∈ range n', F k l * (chebFn k x * chebFn l y)

/-- the Laplacian of a function of two variables -/
noncomputable def laplacian2 (u : ℝ → ℝ → ℝ) (x y : ℝ) : ℝ :=
  iteratedDeriv 2 (fun s => u s y) x + iteratedDeriv 2 (fun t => u x t) y

/-- the coefficients in a two-dimensional array, as a matrix -/
def coeffMat (a : Arr ℝ) (r c : ℕ) : Mat ℝ := ⟨r, c, fun i j => at_ a [i, j]⟩

/-- The mean square of `T_i` with weight `1/√(1-x²)`. -/
noncomputable def chebWeight (i : ℕ) : ℝ := if i = 0 then 1 else 1 / 2

/-- `V` solves the system of a Fourier × Chebyshev space,
`E V B'ᵀ + L V A'ᵀ = F (I P)ᵀ` with `A' = I P S` and `B' = I S`: for the Fourier axis
`ingredients_for_poisson` returns `E = stencil()` and `L = laplacian()` and no preconditioner
(examples/field.rs:131). The coefficients are complex. -/
def SolvesModes (E L S P I : Mat ℝ) (F V : Mat ℂ) : Prop :=
  ∀ k < E.rows, ∀ i < I.rows,
    ∑ k' ∈ range E.cols, ∑ l ∈ range S.cols,
      ((E.get k k' * (matMul I S).get i l + L.get k k' * (matMul (matMul I P) S).get i l : ℝ) : ℂ)
        * V.get k' l
    = ∑ l ∈ range P.cols, ((matMul I P).get i l : ℂ) * F.get k l

end Verif.Spec
