/-
Specification: the mathematical functions of the standard library, in arithmetic with rounding.
-/
import Verif.Spec.Rounding
import Verif.Spec.Binary

namespace Verif.Spec

/-- The constant `π` is the nearest floating-point number, `ceil` is exact, and `sin` returns
floating-point numbers between `-1` and `1`, is odd, and has an absolute error of at most `σ`. -/
structure LibmError (R : Rounding) [Libm (Rnd R)] (σ : ℝ) : Prop where
  pi : (Libm.pi : Rnd R).val = R.fl Real.pi
  ceil : ∀ a : Rnd R, Libm.ceil a = ⌈a.val⌉₊
  sin_err : ∀ a : Rnd R, |(Libm.sin a).val - Real.sin a.val| ≤ σ
  sin_float : ∀ a : Rnd R, R.IsFloat (Libm.sin a).val
  sin_odd : ∀ a : Rnd R, (Libm.sin (-a)).val = -(Libm.sin a).val
  sin_le : ∀ a : Rnd R, |(Libm.sin a).val| ≤ 1

/-- A library that rounds correctly. -/
noncomputable def exactLibm (R : Rounding) : Libm (Rnd R) :=
  ⟨Rnd.rnd Real.pi, fun a => Rnd.rnd (Real.sin a.val), fun a => ⌈a.val⌉₊⟩

/-- `f64`: 53 binary digits (round half away from zero instead of to even; no overflow). -/
noncomputable abbrev f64 : Rounding := binary 52

/-- The integers up to `N` are floating-point numbers. -/
def Rounding.Integers (R : Rounding) (N : ℕ) : Prop := ∀ k ≤ N, R.IsFloat k

end Verif.Spec
