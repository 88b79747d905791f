/-
Specification: arithmetic with rounding.  The standard model of floating-point arithmetic: every
operation returns the exact result, rounded, with a relative error of at most `u` (for `f64` and no overflow
or underflow `u = 2⁻⁵³`).  Numbers are the reals; a division by zero ends the run.
-/
import Verif.Model.Spaces
import Mathlib.Data.Real.Basic
import Mathlib.Algebra.BigOperators.Intervals

namespace Verif.Spec
open Res

/-- A rounding of the real numbers with relative error at most `u`. -/
structure Rounding where
  /-- the rounded value -/
  fl : ℝ → ℝ
  /-- the unit roundoff -/
  u : ℝ
  err : ∀ x, |fl x - x| ≤ u * |x|

/-- `x` is a floating-point number: rounding leaves it alone. -/
def Rounding.IsFloat (R : Rounding) (x : ℝ) : Prop := R.fl x = x

/-- The rounding preserves order and sign, returns floating-point numbers, and `1` and `2` are such numbers:
rounding to nearest, as it is for `f64`. -/
structure Rounding.Nearest (R : Rounding) : Prop where
  mono : Monotone R.fl
  odd : ∀ x, R.fl (-x) = -R.fl x
  float : ∀ x, R.IsFloat (R.fl x)
  one : R.IsFloat 1
  two : R.IsFloat 2

/-- The error constant of `k` successive roundings, `γₖ = k u / (1 - k u)`. -/
noncomputable def Rounding.γ (R : Rounding) (k : ℕ) : ℝ := k * R.u / (1 - k * R.u)

/-- A number in the arithmetic with rounding `R`. -/
@[ext] structure Rnd (R : Rounding) where
  /-- its value -/
  val : ℝ

namespace Rnd
variable {R : Rounding}

noncomputable section

/-- a rounded result -/
def rnd (x : ℝ) : Rnd R := ⟨R.fl x⟩

instance : Zero (Rnd R) := ⟨⟨0⟩⟩
instance : One (Rnd R) := ⟨⟨1⟩⟩
instance : Neg (Rnd R) := ⟨fun a => ⟨-a.val⟩⟩
instance : Add (Rnd R) := ⟨fun a b => rnd (a.val + b.val)⟩
instance : Sub (Rnd R) := ⟨fun a b => rnd (a.val - b.val)⟩
instance : Mul (Rnd R) := ⟨fun a b => rnd (a.val * b.val)⟩
instance : Div (Rnd R) := ⟨fun a b => rnd (a.val / b.val)⟩
instance : NatCast (Rnd R) := ⟨fun k => rnd k⟩
instance : Pow (Rnd R) ℕ := ⟨fun a k => rnd (a.val ^ k)⟩

open Classical in
/-- A division by zero ends the run. -/
instance : DivBy (Rnd R) (Rnd R) := ⟨fun x a => if a.val = 0 then err .div0 else ok (rnd (x.val / a.val))⟩

end
end Rnd

/-- The values of a list of numbers. -/
def vals {R : Rounding} (l : List (Rnd R)) : List ℝ := l.map Rnd.val

/-- All entries have modulus at most `X`. -/
def Bounded (X : ℝ) (l : List ℝ) : Prop := ∀ x ∈ l, |x| ≤ X

/-- Vectors of equal length that differ by at most `ε` in every entry. -/
def Within (ε : ℝ) (x y : List ℝ) : Prop := x.length = y.length ∧ ∀ i < x.length, |nth x i - nth y i| ≤ ε

/-- The sum of the moduli of the entries left of the diagonal in row `i`. -/
def leftSum (A : ℕ → ℕ → ℝ) (i : ℕ) : ℝ := ∑ j ∈ Finset.range i, |A i j|

/-- The sum of the moduli of the entries right of the diagonal in row `i`. -/
def rightSum (n : ℕ) (A : ℕ → ℕ → ℝ) (i : ℕ) : ℝ := ∑ j ∈ Finset.Ico (i + 1) n, |A i j|

/-- The `n × n` matrix `A` is diagonally dominant by rows, the entry on the diagonal being larger than the sum of the
entries left of it. -/
def Dominant (n : ℕ) (A : ℕ → ℕ → ℝ) : Prop :=
  ∀ i < n, leftSum A i + rightSum n A i ≤ |A i i| ∧ leftSum A i < |A i i|

/-- The sum of the moduli of the entries. -/
def absSum (x : List ℝ) : ℝ := (x.map (|·|)).sum

/-- The cosine transform of vectors of length `n` has an error of at most `η` times the sum of the moduli of the
entries (the error of a DCT by FFT is of the order `u log n`). -/
def DctError (R : Rounding) [HasDct (Rnd R)] (n : ℕ) (η : ℝ) : Prop :=
  ∀ x : List (Rnd R), x.length = n → Within (η * absSum (vals x)) (vals (HasDct.dct x)) (dct1 (vals x))

end Verif.Spec
