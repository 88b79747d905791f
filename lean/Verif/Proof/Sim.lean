/- Simulation between the bounds-checked and the unchecked solvers. -/
import Verif.Model.Tdma
import Verif.Model.Pdma2
import Verif.Spec.Checked

namespace Verif
open Res Spec

/-- `r` is `s` with bounds checks. -/
def Sim {α : Type} (r s : Res α) : Prop := r = boundsChecked s

section
variable {α β T : Type}

theorem Sim.ok (a : α) : Sim (ok a) (ok a) := rfl
theorem Sim.pure (a : α) : Sim (pure a) (pure a) := rfl

theorem Sim.assert (c : Prop) [Decidable c] : Sim (assertR c) (assertR c) := by
  unfold assertR; split <;> rfl

theorem Sim.usub (a b : ℕ) : Sim (a -! b) (a -! b) := by
  unfold Verif.usub; split <;> rfl

theorem Sim.div {K : Type} [DivBy K T] [DivNoUb K T] (x : T) (a : K) : Sim (divR x a) (divR x a) := by
  unfold Sim
  have := DivNoUb.ne_ub x a
  cases h : divR x a with
  | ok y => rfl
  | err e => cases e <;> first | rfl | exact absurd h this

theorem Sim.bind {r s : Res α} {f g : α → Res β} (h : Sim r s) (hf : ∀ a, Sim (f a) (g a)) :
    Sim (r >>= f) (s >>= g) := by
  unfold Sim at h
  subst h
  cases s with
  | ok a => exact hf a
  | err e => cases e <;> rfl

theorem Sim.rd (l : List T) (i : ℕ) : Sim (rdC l i) (rd l i) := by
  unfold Verif.rdC Verif.rd
  cases l[i]? <;> rfl

theorem Sim.wr (l : List T) (i : ℕ) (x : T) : Sim (wrC l i x) (wr l i x) := by
  unfold Verif.wrC Verif.wr
  split <;> rfl

theorem Sim.ite {c : Prop} [Decidable c] {r s r' s' : Res α} (h : Sim r r') (h' : Sim s s') :
    Sim (if c then r else s) (if c then r' else s') := by
  split <;> assumption

theorem Sim.forList {ι : Type} (is : List ι) {f g : ι → α → Res α}
    (h : ∀ i a, Sim (f i a) (g i a)) (a : α) : Sim (forList is f a) (forList is g a) := by
  induction is generalizing a with
  | nil => exact Sim.ok _
  | cons i is ih =>
    simp only [Verif.forList]
    exact Sim.bind (h i a) ih

theorem Sim.forRange {a b : ℕ} {f g : ℕ → α → Res α} (h : ∀ i a, Sim (f i a) (g i a)) (s : α) :
    Sim (forRange a b f s) (forRange a b g s) := Sim.forList _ h s

theorem Sim.forRev {a b : ℕ} {f g : ℕ → α → Res α} (h : ∀ i a, Sim (f i a) (g i a)) (s : α) :
    Sim (forRev a b f s) (forRev a b g s) := Sim.forList _ h s
end

/-- decompose a simulation goal structurally -/
macro "simstep" : tactic => `(tactic| with_reducible first
  | exact Sim.rd _ _
  | exact Sim.wr _ _ _
  | exact Sim.pure _
  | exact Sim.ok _
  | exact Sim.assert _
  | exact Sim.usub _ _
  | exact Sim.div _ _
  | refine Sim.bind ?_ (fun _ => ?_)
  | refine Sim.ite ?_ ?_
  | refine Sim.forRange (fun _ _ => ?_) _
  | refine Sim.forRev (fun _ _ => ?_) _)

variable {K T : Type} [Zero K] [Sub K] [Mul K] [DivBy K K] [Zero T] [Sub T] [SMul K T] [DivBy K T]
  [DivNoUb K K] [DivNoUb K T]

theorem sim_tdma (l2 d0 u2 : List K) (rhs : List T) :
    Sim (tdmaChecked l2 d0 u2 rhs) (tdma l2 d0 u2 rhs) := by
  unfold tdmaChecked tdma
  repeat' simstep

theorem sim_pdma (l2 l1 d0 u1 u2 : List K) (rhs : List T) :
    Sim (pdmaChecked l2 l1 d0 u1 u2 rhs) (pdma l2 l1 d0 u1 u2 rhs) := by
  unfold pdmaChecked pdma pdmaCheckedInit pdmaInit pdmaCheckedRow pdmaRow pdmaCheckedRowN2
    pdmaRowN2 pdmaCheckedRowN1 pdmaRowN1
  repeat' simstep

theorem sim_pdma2 (l4 l2 d0 u2 u4 : List K) (rhs : List T) :
    Sim (pdma2Checked l4 l2 d0 u2 u4 rhs) (pdma2 l4 l2 d0 u2 u4 rhs) := by
  unfold pdma2Checked pdma2 pdma2CheckedInit01 pdma2Init01 pdma2CheckedInit2 pdma2Init2
    pdma2CheckedInit3 pdma2Init3 pdma2CheckedRow pdma2Row pdma2CheckedRowN4 pdma2RowN4
    pdma2CheckedRowN3 pdma2RowN3 pdma2CheckedRowN2 pdma2RowN2 pdma2CheckedRowN1 pdma2RowN1
  repeat' simstep

end Verif
