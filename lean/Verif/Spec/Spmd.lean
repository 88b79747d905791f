/-
Specification of programs that use a distributed space: the same sequence of calls on global arrays,
in one process, where transposes, gather and scatter are copies.
-/
import Verif.Model.Spmd
import Verif.Spec.SpaceMpi

namespace Verif.Spec
open Res

/-- Global arrays: the ones that are distributed over the ranks, and the contents of the arrays `gp`,
`gs` of global shape on the root (`gp0`, `gs0`) and on the other ranks (`gp1`, `gs1`). -/
structure SerialState (P S : Type) where
  px : Arr P
  py : Arr P
  gp0 : Arr P
  gp1 : Arr P
  sx : Arr S
  sy : Arr S
  gs0 : Arr S
  gs1 : Arr S
  ox : Arr S

section
variable {P I S A : Type} [Zero P] [Zero I] [Zero S] [Mul A] [Powi A] [DivBy A S]

/-- One call, in one process. -/
def serialOp (sp : Space2 P I S S A) (s : SerialState P S) :
    SpmdOp P S A → Res (SerialState P S)
  | .transposeXYPhys => ok { s with py := s.px }
  | .transposeYXPhys => ok { s with px := s.py }
  | .transposeXYSpec => ok { s with sy := s.sx }
  | .transposeYXSpec => ok { s with sx := s.sy }
  | .forward => do let a ← sp.forward s.py; pure { s with sx := a }
  | .backward => do let a ← sp.backward s.sx; pure { s with py := a }
  | .toOrtho => do let a ← sp.toOrtho s.sx; pure { s with ox := a }
  | .fromOrtho => do let a ← sp.fromOrtho s.ox; pure { s with sx := a }
  | .gradient d0 d1 scale => do let a ← sp.gradient s.sx d0 d1 scale; pure { s with ox := a }
  | .gatherXPhys => ok { s with gp0 := s.px }
  | .gatherYPhys => ok { s with gp0 := s.py }
  | .gatherXSpec => ok { s with gs0 := s.sx }
  | .gatherYSpec => ok { s with gs0 := s.sy }
  | .allGatherXPhys => ok { s with gp0 := s.px, gp1 := s.px }
  | .allGatherYPhys => ok { s with gp0 := s.py, gp1 := s.py }
  | .allGatherXSpec => ok { s with gs0 := s.sx, gs1 := s.sx }
  | .allGatherYSpec => ok { s with gs0 := s.sy, gs1 := s.sy }
  | .scatterXPhys => ok { s with px := s.gp0 }
  | .scatterYPhys => ok { s with py := s.gp0 }
  | .scatterXSpec => ok { s with sx := s.gs0 }
  | .scatterYSpec => ok { s with sy := s.gs0 }
  | .mapPX f => ok { s with px := s.px.map f }
  | .mapPY f => ok { s with py := s.py.map f }
  | .mapSX f => ok { s with sx := s.sx.map f }
  | .mapSY f => ok { s with sy := s.sy.map f }
  | .mapOX f => ok { s with ox := s.ox.map f }

/-- A sequence of calls, in one process. -/
def serialOps (sp : Space2 P I S S A) : List (SpmdOp P S A) → SerialState P S →
    Res (SerialState P S)
  | [], s => ok s
  | op :: ops, s => do let s ← serialOp sp s op; serialOps sp ops s

/-- All arrays have the shapes of the space. -/
structure SerialState.Shaped (sp : Space2 P I S S A) (s : SerialState P S) : Prop where
  px : Good s.px sp.shapePhysical
  py : Good s.py sp.shapePhysical
  gp0 : Good s.gp0 sp.shapePhysical
  gp1 : Good s.gp1 sp.shapePhysical
  sx : Good s.sx sp.shapeSpectral
  sy : Good s.sy sp.shapeSpectral
  gs0 : Good s.gs0 sp.shapeSpectral
  gs1 : Good s.gs1 sp.shapeSpectral
  ox : Good s.ox sp.shapeSpectralOrtho

/-- The arrays of rank `r` are its parts of the global arrays. -/
structure Holds (sp : Space2Mpi P I S S A) (r : ℕ) (s : SerialState P S) (t : RankState P S) : Prop where
  px : XPencil sp s.px t.px
  py : YPencil sp s.py t.py
  gp : t.gp = if r = 0 then s.gp0 else s.gp1
  sx : XPencil sp s.sx t.sx
  sy : YPencil sp s.sy t.sy
  gs : t.gs = if r = 0 then s.gs0 else s.gs1
  ox : XPencil sp s.ox t.ox

/-- The gradients called for run on both bases. -/
def GradientsRun (b0 : Base I S S A) (b1 : Base P I S A) (ops : List (SpmdOp P S A)) : Prop :=
  ∀ d0 d1 scale, SpmdOp.gradient d0 d1 scale ∈ ops → RunsGradient b0 d0 ∧ RunsGradient b1 d1

/-- The division by the scale that the `gradient` of orders `d0`, `d1` makes returns for every number:
in exact arithmetic the powers of the scale exist and are not zero, in floating-point arithmetic always. -/
def ScaleDivides (S : Type) {A : Type} [Mul A] [Powi A] [DivBy A S] (d0 d1 : ℕ) (c0 c1 : A) : Prop :=
  ∃ p0 p1, powi c0 (toI32 d0) = ok p0 ∧ powi c1 (toI32 d1) = ok p1 ∧ ∀ x : S, ∃ y, divR x (p0 * p1) = ok y

end
end Verif.Spec
