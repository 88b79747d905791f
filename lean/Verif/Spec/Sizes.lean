/-
Specification: size tables of the composite bases.
-/
import Verif.Model.Compo

namespace Verif.CKind

/-- Number of boundary conditions, `len_phys - len_spec`. -/
def nbc : CKind → ℕ
  | dirichlet | neumann | dirichletNeumann => 2
  | biharmonicA | biharmonicB => 4

/-- Smallest size that can be constructed. -/
def minNew : CKind → ℕ
  | dirichlet | neumann | dirichletNeumann => 4
  | biharmonicA | biharmonicB => 8

/-- Smallest size on which the projection `from_ortho` runs. -/
def minSolve : CKind → ℕ
  | dirichlet | neumann => 5
  | dirichletNeumann => 6
  | biharmonicA | biharmonicB => 10

end Verif.CKind

namespace Verif

/-- Largest `n` for which the 64-bit integer formulas behind `diffmat(k)` are exact. -/
def dmatMax : Mode → ℕ → ℕ
  | _, 1 => 2 ^ 63
  | _, 2 => 2642246
  | .debug, 3 => 11
  | .release, 3 => 7132
  | _, 4 => 566
  | _, _ => 0

end Verif
