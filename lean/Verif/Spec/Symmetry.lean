/-
Specification: the symmetries of C89, on lists of grid values and on lists of coefficients.
-/
import Verif.Core.Res
import Mathlib.Analysis.SpecialFunctions.Complex.Circle

namespace Verif.Spec

/-- Change the sign of every odd-numbered entry: the coefficients of `x ↦ f (-x)`. -/
def alternate {T : Type} [AddCommGroup T] (c : List T) : List T :=
  (List.range c.length).map fun k => if k % 2 = 0 then nth c k else -nth c k

/-- Change the sign of every entry. -/
def negate {T : Type} [AddCommGroup T] (c : List T) : List T := c.map fun x => -x

/-- Reverse the orientation of a periodic grid, keeping its first point: entry `j` becomes entry
`n - j`, entry `0` stays. -/
def reflect {T : Type} [AddCommGroup T] (u : List T) : List T :=
  (List.range u.length).map fun j => nth u (if j = 0 then 0 else u.length - j)

/-- Multiply coefficient `k` by `exp (i k θ)`: the coefficients of `x ↦ f (x + θ)`. -/
noncomputable def turn (θ : ℝ) (c : List ℂ) : List ℂ :=
  (List.range c.length).map fun k : ℕ => Complex.exp (Complex.I * k * θ) * nth c k

end Verif.Spec
