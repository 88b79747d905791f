/-
Specification: what 32-bit arithmetic makes of large numbers.
-/
import Verif.Core.Res

namespace Verif.Spec

/-- `x` is representable as an `i32`. -/
def InI32 (x : ℤ) : Prop := -2 ^ 31 ≤ x ∧ x < 2 ^ 31

/-- `z` is the `i32` with the same low 32 bits as `x`. -/
def IsI32Of (z x : ℤ) : Prop := InI32 z ∧ (2 ^ 32 : ℤ) ∣ z - x

/-- It is `x` itself exactly if `x` is an `i32`. -/
theorem IsI32Of.eq_iff {z x : ℤ} (h : IsI32Of z x) : z = x ↔ InI32 x := by
  unfold IsI32Of InI32 at *
  constructor
  · rintro rfl; exact h.1
  · intro h1; omega

end Verif.Spec
