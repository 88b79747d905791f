/-
Programs that use a distributed space: every rank runs the same sequence of calls of the methods of
`Space2Mpi` (src/space_mpi/space2.rs) on its own arrays, as in examples/space_mpi.rs:8-57.
-/
import Verif.Model.ExampleMpi

namespace Verif
open Res Mpi

/-- The arrays of one rank: parts of physical and spectral arrays in the two pencil layouts, a part of
an array of coefficients of the orthogonal space (x-pencil), and arrays of the global shapes. -/
structure RankState (P S : Type) where
  px : Arr P
  py : Arr P
  gp : Arr P
  sx : Arr S
  sy : Arr S
  gs : Arr S
  ox : Arr S

/-- A call, or a pointwise change of an array. -/
inductive SpmdOp (P S : Type) (A : Type := ℝ) where
  | transposeXYPhys | transposeYXPhys | transposeXYSpec | transposeYXSpec
  | forward | backward | toOrtho | fromOrtho
  | gradient (d0 d1 : ℕ) (scale : Option (A × A))
  | gatherXPhys | gatherYPhys | gatherXSpec | gatherYSpec
  | allGatherXPhys | allGatherYPhys | allGatherXSpec | allGatherYSpec
  | scatterXPhys | scatterYPhys | scatterXSpec | scatterYSpec
  | mapPX (f : P → P) | mapPY (f : P → P) | mapSX (f : S → S) | mapSY (f : S → S) | mapOX (f : S → S)

/-- `a.mapv_inplace(f)` (ndarray, external). -/
def Arr.map {T : Type} (f : T → T) (a : Arr T) : Arr T := { a with data := a.data.map f }

section
variable {P I S U A : Type} [Zero P] [Zero I] [Zero S] [Mul A] [Powi A] [DivBy A S]

/-- The call on one rank.  Rank 0 is the root of `gather` and `scatter`: it calls the method
`…_root` (examples/space_mpi.rs:22-30). -/
def SpmdOp.run (o : Mode) (cP : Codec P U) (cI : Codec I U) (cS : Codec S U)
    (sp : Space2Mpi P I S S A) : SpmdOp P S A → RankState P S → Prog U (RankState P S)
  | .transposeXYPhys, s => do
    let a ← (sp.transposeXToYPhys o s.px s.py).wire cP
    pure { s with py := a }
  | .transposeYXPhys, s => do
    let a ← (sp.transposeYToXPhys o s.py s.px).wire cP
    pure { s with px := a }
  | .transposeXYSpec, s => do
    let a ← (sp.transposeXToYSpec o s.sx s.sy).wire cS
    pure { s with sy := a }
  | .transposeYXSpec, s => do
    let a ← (sp.transposeYToXSpec o s.sy s.sx).wire cS
    pure { s with sx := a }
  | .forward, s => do
    let a ← (sp.forwardInplaceMpi o s.py s.sx).wire cI
    pure { s with sx := a }
  | .backward, s => do
    let a ← (sp.backwardInplaceMpi o s.sx s.py).wire cI
    pure { s with py := a }
  | .toOrtho, s => do
    let a ← (sp.toOrthoInplaceMpi o s.sx s.ox).wire cS
    pure { s with ox := a }
  | .fromOrtho, s => do
    let a ← (sp.fromOrthoInplaceMpi o s.ox s.sx).wire cS
    pure { s with sx := a }
  | .gradient d0 d1 scale, s => do
    let a ← (sp.gradientMpi o s.sx d0 d1 scale).wire cS
    pure { s with ox := a }
  | .gatherXPhys, s =>
    if sp.getNrank = 0 then do
      let a ← (sp.gatherFromXPencilPhysRoot o s.px s.gp).wire cP
      pure { s with gp := a }
    else do
      let _ ← (sp.gatherFromXPencilPhys o s.px).wire cP
      pure s
  | .gatherYPhys, s =>
    if sp.getNrank = 0 then do
      let a ← (sp.gatherFromYPencilPhysRoot o s.py s.gp).wire cP
      pure { s with gp := a }
    else do
      let _ ← (sp.gatherFromYPencilPhys o s.py).wire cP
      pure s
  | .gatherXSpec, s =>
    if sp.getNrank = 0 then do
      let a ← (sp.gatherFromXPencilSpecRoot o s.sx s.gs).wire cS
      pure { s with gs := a }
    else do
      let _ ← (sp.gatherFromXPencilSpec o s.sx).wire cS
      pure s
  | .gatherYSpec, s =>
    if sp.getNrank = 0 then do
      let a ← (sp.gatherFromYPencilSpecRoot o s.sy s.gs).wire cS
      pure { s with gs := a }
    else do
      let _ ← (sp.gatherFromYPencilSpec o s.sy).wire cS
      pure s
  | .allGatherXPhys, s => do
    let a ← (sp.allGatherFromXPencilPhys o s.px s.gp).wire cP
    pure { s with gp := a }
  | .allGatherYPhys, s => do
    let a ← (sp.allGatherFromYPencilPhys o s.py s.gp).wire cP
    pure { s with gp := a }
  | .allGatherXSpec, s => do
    let a ← (sp.allGatherFromXPencilSpec o s.sx s.gs).wire cS
    pure { s with gs := a }
  | .allGatherYSpec, s => do
    let a ← (sp.allGatherFromYPencilSpec o s.sy s.gs).wire cS
    pure { s with gs := a }
  | .scatterXPhys, s => do
    let a ← (if sp.getNrank = 0 then (sp.scatterToXPencilPhysRoot o s.gp s.px).wire cP
      else (sp.scatterToXPencilPhys o s.px).wire cP)
    pure { s with px := a }
  | .scatterYPhys, s => do
    let a ← (if sp.getNrank = 0 then (sp.scatterToYPencilPhysRoot o s.gp s.py).wire cP
      else (sp.scatterToYPencilPhys o s.py).wire cP)
    pure { s with py := a }
  | .scatterXSpec, s => do
    let a ← (if sp.getNrank = 0 then (sp.scatterToXPencilSpecRoot o s.gs s.sx).wire cS
      else (sp.scatterToXPencilSpec o s.sx).wire cS)
    pure { s with sx := a }
  | .scatterYSpec, s => do
    let a ← (if sp.getNrank = 0 then (sp.scatterToYPencilSpecRoot o s.gs s.sy).wire cS
      else (sp.scatterToYPencilSpec o s.sy).wire cS)
    pure { s with sy := a }
  | .mapPX f, s => pure { s with px := s.px.map f }
  | .mapPY f, s => pure { s with py := s.py.map f }
  | .mapSX f, s => pure { s with sx := s.sx.map f }
  | .mapSY f, s => pure { s with sy := s.sy.map f }
  | .mapOX f, s => pure { s with ox := s.ox.map f }

/-- A sequence of calls. -/
def SpmdOp.runs (o : Mode) (cP : Codec P U) (cI : Codec I U) (cS : Codec S U)
    (sp : Space2Mpi P I S S A) : List (SpmdOp P S A) → RankState P S → Prog U (RankState P S)
  | [], s => pure s
  | op :: ops, s => do
    let s ← op.run o cP cI cS sp s
    SpmdOp.runs o cP cI cS sp ops s

/-- A whole program on rank `nrank` of `nprocs`: construct the space, allocate the arrays with the
methods of the space, and make the calls. -/
def spmdMain (o : Mode) (cP : Codec P U) (cI : Codec I U) (cS : Codec S U)
    (nprocs nrank : ℕ) (base0 : Base I S S A) (base1 : Base P I S A) (ops : List (SpmdOp P S A)) :
    Prog U (RankState P S) := do
  let sp ← (Space2Mpi.new o nprocs nrank base0 base1 : Res (Space2Mpi P I S S A))
  let px ← (sp.ndarrayPhysicalXPen : Res _)
  let py ← (sp.ndarrayPhysicalYPen : Res _)
  let sx ← (sp.ndarraySpectralXPen : Res _)
  let sy ← (sp.ndarraySpectralYPen : Res _)
  let dcp ← (sp.getDecomp sp.space.shapeSpectralOrtho : Res _)
  SpmdOp.runs o cP cI cS sp ops
    ⟨px, py, sp.space.ndarrayPhysical, sx, sy, sp.space.ndarraySpectral, Arr.zeros dcp.getXPencilShape⟩

end
end Verif
