/-
Specification for C92: which arrays the methods of a space accept.
-/
import Verif.Model.Spaces

namespace Verif.Spec
open Res

/-- On slices of lengths `n` and `m` the operator returns a slice of length `m`, or panics: it does not
leave its slices. -/
def ReturnsOrPanics {S T : Type} (f : List S → List T → Res (List T)) (n m : ℕ) : Prop :=
  ∀ x out, x.length = n → out.length = m → (∃ y, f x out = ok y ∧ y.length = m) ∨ f x out = err .panic

/-- The slice operators of a base do not leave their slices. -/
structure StaysInBounds {P S T A : Type} (b : Base P S T A) : Prop where
  forward : ReturnsOrPanics b.forwardSlice b.lenPhys b.lenSpec
  backward : ReturnsOrPanics b.backwardSlice b.lenSpec b.lenPhys
  toOrtho : ReturnsOrPanics b.toOrthoSlice b.lenSpec b.lenOrth
  fromOrtho : ReturnsOrPanics b.fromOrthoSlice b.lenOrth b.lenSpec

/-- `gradient(·, d)` of the base does not leave its slices. -/
def GradientInBounds {P S T A : Type} (b : Base P S T A) (d : ℕ) : Prop :=
  ReturnsOrPanics (fun v out => b.gradientSlice v out d) b.lenSpec b.lenOrth

/-- A method `array ↦ new array` (of fixed ranks) that takes arrays of shape `sh` to arrays of shape `sh'`:
every other array (another shape, or not in standard layout) is rejected with a panic, what it returns
has the shape `sh'`, and no call accesses memory out of bounds. -/
structure Accepts {S T : Type} (M : Arr S → Res (Arr T)) (sh sh' : List ℕ) : Prop where
  rejects : ∀ a, a.shape.length = sh.length → ¬ (a.std = true ∧ a.shape = sh) → M a = err .panic
  shape : ∀ a r, a.shape.length = sh.length → M a = ok r → r.shape = sh' ∧ r.std = true
  inBounds : ∀ a, a.shape.length = sh.length → M a ≠ err .ub

/-- The same for a method that stores its result in a second array. -/
structure AcceptsInto {S T : Type} (M : Arr S → Arr T → Res (Arr T)) (sh sh' : List ℕ) : Prop where
  rejects : ∀ a out, a.shape.length = sh.length → out.shape.length = sh'.length →
    ¬ ((a.std = true ∧ a.shape = sh) ∧ out.std = true ∧ out.shape = sh') → M a out = err .panic
  shape : ∀ a out r, a.shape.length = sh.length → out.shape.length = sh'.length →
    M a out = ok r → r.shape = sh' ∧ r.std = true
  inBounds : ∀ a out, a.shape.length = sh.length → out.shape.length = sh'.length → M a out ≠ err .ub

end Verif.Spec
