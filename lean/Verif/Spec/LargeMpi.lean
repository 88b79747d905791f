/-
Specification: ranks that never return from a collective operation.
-/
import Verif.Model.Mpi

namespace Verif.Spec
open Mpi Res

/-- Ranks `0, …, P-1` running the programs `ps`: in no execution does any rank return a value; a rank
that stops does so with a panic. -/
def NoneReturns {T α : Type} (P : ℕ) (ps : ℕ → Prog T α) : Prop :=
  ∀ n w, Steps P n (World.init ps) w → ∀ r < P, ∀ x, w.loc r = .idle (.ret x) → x = err .panic

end Verif.Spec
