/-
Specification: banded matrices and linear systems, independent of the solver model.
Vectors and diagonals are functions on indices; `n` is the size.
-/
import Mathlib.Algebra.BigOperators.Ring.Finset
import Mathlib.Algebra.Module.BigOperators
import Mathlib.Algebra.Field.Basic

namespace Verif.Spec
open Finset
variable {K T : Type} [Field K] [AddCommGroup T] [Module K T]

/-- `∑_{j<n} A i j * x j` -/
def matVec (n : ℕ) (A : ℕ → ℕ → K) (x : ℕ → T) (i : ℕ) : T := ∑ j ∈ range n, A i j • x j

/-- `x` solves the `n × n` system `A x = r`. -/
def Solves (n : ℕ) (A : ℕ → ℕ → K) (x r : ℕ → T) : Prop := ∀ i < n, matVec n A x i = r i

/-- Matrix with diagonals at offsets `-2, 0, 2`: `l j` sits at row `j+2`, column `j`;
`d i` at `(i,i)`; `u i` at row `i`, column `i+2`. -/
def triMat (l d u : ℕ → K) (i j : ℕ) : K :=
  (if j = i then d i else 0) + (if j + 2 = i then l j else 0) + (if j = i + 2 then u i else 0)

/-- Matrix with diagonals at offsets `-2s, -s, 0, s, 2s`. -/
def pentaMat (s : ℕ) (lo2 lo1 d up1 up2 : ℕ → K) (i j : ℕ) : K :=
  (if j = i then d i else 0) + (if j + s = i then lo1 j else 0)
    + (if j + 2 * s = i then lo2 j else 0)
    + (if j = i + s then up1 i else 0) + (if j = i + 2 * s then up2 i else 0)

end Verif.Spec
