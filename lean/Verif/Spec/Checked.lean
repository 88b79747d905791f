/-
Specification for C20: what adding bounds checks to a function does.
-/
import Verif.Core.Res

namespace Verif.Spec
open Res

/-- The result of the same run with bounds checks: it panics where the unchecked run accesses memory
out of bounds, and is the same otherwise. -/
def boundsChecked {α : Type} : Res α → Res α
  | err .ub => err .panic
  | r => r

/-- Dividing two numbers does not access memory out of bounds (it may return, or stop the run). -/
class DivNoUb (K T : Type) [DivBy K T] : Prop where
  ne_ub : ∀ (x : T) (a : K), divR x a ≠ err .ub

instance {K T : Type} [Field K] [DecidableEq K] [AddCommGroup T] [Module K T] : DivNoUb K T :=
  ⟨fun x a => by rw [divR_eq]; split <;> simp⟩

end Verif.Spec
