/-
Specification: what it means for a slice operator to compute a (linear) function.
-/
import Verif.Core.Res

namespace Verif.Spec
open Res

section
variable {S T : Type}

/-- On an input slice of length `n` and an output slice of length `m`, the slice operator `f`
succeeds, and the new content of the output slice is `g input` (of length `m`), whatever the
output slice contained before. -/
def Computes (f : List S → List T → Res (List T)) (n m : ℕ) (g : List S → List T) : Prop :=
  ∀ x out, x.length = n → out.length = m → f x out = ok (g x) ∧ (g x).length = m

end

section
variable (R : Type) {S T : Type} [CommRing R] [AddCommGroup S] [Module R S] [AddCommGroup T]
  [Module R T]

/-- `α x + β y` for vectors of equal length -/
def linComb (α β : R) (x y : List T) : List T :=
  (List.range x.length).map (fun i => α • nth x i + β • nth y i)

/-- `g` is linear on vectors of length `n`. -/
def IsLinear (n : ℕ) (g : List S → List T) : Prop :=
  ∀ (α β : R) (x y : List S), x.length = n → y.length = n →
    g (linComb R α β x y) = linComb R α β (g x) (g y)

/-- The slice operator `f` computes a linear function from vectors of length `n` to vectors of
length `m`. -/
def LinOp (f : List S → List T → Res (List T)) (n m : ℕ) : Prop :=
  ∃ g, Computes f n m g ∧ IsLinear R n g

end

end Verif.Spec

namespace Verif.Spec
open Res

section
variable {S T : Type}

/-- The slice operator `f` runs on all slices of lengths `n` and `m`. -/
def RunsOn (f : List S → List T → Res (List T)) (n m : ℕ) : Prop :=
  ∀ x out, x.length = n → out.length = m → ∃ r, f x out = ok r ∧ r.length = m

/-- The slice operator `f` fails in the way `e` on all slices of lengths `n` and `m`. -/
def FailsOn (e : Err) (f : List S → List T → Res (List T)) (n m : ℕ) : Prop :=
  ∀ x out, x.length = n → out.length = m → f x out = err e

end

/-- The call returned or panicked: no out-of-bounds access, no division by zero. -/
def Safe {α : Type} (r : Res α) : Prop := (∃ x, r = ok x) ∨ r = err .panic

end Verif.Spec
