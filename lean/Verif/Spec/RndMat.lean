/-
Specification: two runs of the same method, one with rounding and one in exact arithmetic.
-/
import Verif.Spec.Rounding
import Verif.Core.Mat

namespace Verif.Spec
open Res

/-- The two runs end alike: both return, with related results, or both fail with the same error. -/
inductive Tracks {α β : Type} (P : α → β → Prop) : Res α → Res β → Prop
  | ok {a : α} {b : β} : P a b → Tracks P (ok a) (ok b)
  | err (e : Err) : Tracks P (err e) (err e)

/-- Matrices of the same shape, every entry of the first having a relative error of at most `ε`. -/
def EntrywiseNear {R : Rounding} (ε : ℝ) (M : Mat (Rnd R)) (N : Mat ℝ) : Prop :=
  M.rows = N.rows ∧ M.cols = N.cols ∧ ∀ i < M.rows, ∀ j < M.cols, |(M.get i j).val - N.get i j| ≤ ε * |N.get i j|

/-- Matrices of the same shape, every entry of the first being the correctly rounded entry of the second. -/
def CorrectlyRounded {R : Rounding} (M : Mat (Rnd R)) (N : Mat ℝ) : Prop :=
  M.rows = N.rows ∧ M.cols = N.cols ∧ ∀ i < M.rows, ∀ j < M.cols, (M.get i j).val = R.fl (N.get i j)

/-- Halving is exact: a binary arithmetic (without underflow). -/
def Rounding.Halves (R : Rounding) : Prop := ∀ x, R.fl (x / 2) = R.fl x / 2

end Verif.Spec
