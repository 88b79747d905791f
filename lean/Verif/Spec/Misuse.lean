/-
Specification: what a rank does when it is called with arguments that do not fit.
-/
import Verif.Spec.SpaceMpi
import Verif.Model.Mpi

namespace Verif.Spec
open Res Mpi

/-- The call panics on the calling rank before a message is sent or waited for. -/
def PanicsAtOnce {T α : Type} (p : Prog T α) : Prop := p = .ret (err .panic)

/-- In no execution of `N` ranks running `ps`, whatever the interleaving, does rank `r` return. -/
def NeverReturns {T α : Type} (N : ℕ) (ps : ℕ → Prog T α) (r : ℕ) : Prop :=
  ∀ n w, Steps N n (World.init ps) w → ∀ a, w.loc r ≠ .idle (.ret (ok a))

/-- Rank `r` panics before anything is sent to it or by it, whatever the others do: it is in this state at the start of
every execution and stays there, and no message of it is ever on the network. -/
def PanicsFirst {T α : Type} (N : ℕ) (ps : ℕ → Prog T α) (r : ℕ) : Prop :=
  ∀ n w, Steps N n (World.init ps) w → w.loc r = .idle (.ret (err .panic)) ∧ ∀ s, w.net r s = []

end Verif.Spec
