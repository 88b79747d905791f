/-
Specification: a space distributed over the ranks `0, …, P-1`.
-/
import Verif.Spec.Mpi
import Verif.Model.SpaceMpi

namespace Verif.Spec
open Res

section
variable {P I S T A : Type}

/-- The coefficient vector of the orthogonal counterpart of a base is as long as its vector of grid
values or as its own coefficient vector. -/
def OrthFits (b : Base P S T A) : Prop := b.lenOrth = b.lenPhys ∨ b.lenOrth = b.lenSpec

/-- The size `n` can be distributed over `N` ranks: a point for every rank, not at the limit of
`usize`. -/
def Splits (N n : ℕ) : Prop := N ≤ n ∧ n + 1 < usizeW

/-- `sp r`, `r < N`, are the spaces made of `b0` and `b1` by the constructor on `N` ranks; every rank
gets a point; no pencil has `2^31` or more entries (counts in MPI are `i32`). -/
structure Distributed (o : Mode) (N : ℕ) (b0 : Base I S T A) (b1 : Base P I T A)
    (sp : ℕ → Space2Mpi P I S T A) : Prop where
  made : ∀ r < N, Space2Mpi.new o N r b0 b1 = ok (sp r)
  pos : 0 < N
  phys0 : Splits N b0.lenPhys
  spec0 : Splits N b0.lenSpec
  phys1 : Splits N b1.lenPhys
  spec1 : Splits N b1.lenSpec
  orth0 : OrthFits b0
  orth1 : OrthFits b1
  small : ∀ r < N, ∀ shape d, (sp r).getDecomp shape = ok d →
    d.getXPencilShape.prod < 2 ^ 31 ∧ d.getYPencilShape.prod < 2 ^ 31

end

section
variable {P I S T U A : Type} [Zero U]

/-- `p` is the part of the global array `a` the rank owns in the x-pencil layout. -/
def XPencil (sp : Space2Mpi P I S T A) (a p : Arr U) : Prop :=
  ∃ d, sp.getDecomp a.shape = ok d ∧ IsWindow a d.xPencil.st d.getXPencilShape p

/-- `p` is the part of the global array `a` the rank owns in the y-pencil layout. -/
def YPencil (sp : Space2Mpi P I S T A) (a p : Arr U) : Prop :=
  ∃ d, sp.getDecomp a.shape = ok d ∧ IsWindow a d.yPencil.st d.getYPencilShape p

/-- `p` is an array of the shape of the x-pencils of a global array of shape `shape`. -/
def XShaped (sp : Space2Mpi P I S T A) (shape : List ℕ) (p : Arr U) : Prop :=
  ∃ d, sp.getDecomp shape = ok d ∧ Good p d.getXPencilShape

/-- `p` is an array of the shape of the y-pencils of a global array of shape `shape`. -/
def YShaped (sp : Space2Mpi P I S T A) (shape : List ℕ) (p : Arr U) : Prop :=
  ∃ d, sp.getDecomp shape = ok d ∧ Good p d.getYPencilShape

end

end Verif.Spec
