/-
Specification: executions in which ranks may stop at any moment (crash of the process or the node, panic in
the caller's own code).
-/
import Verif.Model.Mpi

namespace Verif.Spec
open Mpi Res

/-- The state of the ranks and the network, and the ranks that have stopped. -/
structure CrashWorld (T α : Type) where
  world : World T α
  dead : ℕ → Prop

/-- One step: of a rank that has not stopped (the others do not move), or a rank `r` stops, at any moment, in or
outside of an operation; of the messages it has sent and that have not arrived, the last ones may be lost. -/
inductive CrashStep {T α : Type} (P : ℕ) : CrashWorld T α → CrashWorld T α → Prop
  | step {c : CrashWorld T α} {w : World T α} (h : Step P c.world w) (hd : ∀ r, c.dead r → w.loc r = c.world.loc r) :
      CrashStep P c ⟨w, c.dead⟩
  | crash {c : CrashWorld T α} (r : ℕ) {net : ℕ → ℕ → List (CollKind × List T)} (hr : ∀ x, net r x <+: c.world.net r x)
      (hn : ∀ s x, s ≠ r → net s x = c.world.net s x) : CrashStep P c ⟨⟨c.world.loc, net⟩, fun s => s = r ∨ c.dead s⟩

/-- Any number of steps from the start. -/
inductive CrashReach {T α : Type} (P : ℕ) (ps : ℕ → Prog T α) : CrashWorld T α → Prop
  | init : CrashReach P ps ⟨World.init ps, fun _ => False⟩
  | step {c c' : CrashWorld T α} : CrashReach P ps c → CrashStep P c c' → CrashReach P ps c'

/-- Whatever ranks stop, and when: no rank fails, receives a message that does not fit, or returns anything else
than `a r`; ranks can only be left waiting if some rank has stopped. -/
def CrashSafe {T α : Type} (P : ℕ) (ps : ℕ → Prog T α) (a : ℕ → α) : Prop :=
  ∀ c, CrashReach P ps c → ¬ c.world.Failed P ∧
    (∀ r < P, ∀ x, c.world.loc r = .idle (.ret x) → x = ok (a r)) ∧
    ((∀ r, ¬ c.dead r) → c.world.Finished P ∨ ∃ c', CrashStep P c c' ∧ ∀ r, ¬ c'.dead r)

end Verif.Spec
