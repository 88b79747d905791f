/-
Model of src/space_mpi/space2.rs (`Space2Mpi`).  The methods of the serial traits,
space_mpi/space2.rs:71-460, are, up to the generic parameters, the same text as in src/space/space2.rs,
and are those of the field `space`.
The methods for spectral data work on the element type `S` of the coefficients; the methods
`to_ortho_mpi`, `from_ortho_mpi`, `gradient_mpi` are written for the parameter `T` of the bases
(`T = S` in the instances at the end of the source file).
-/
import Verif.Model.Spaces
import Verif.Model.Decomp

namespace Verif
open Res Mpi

/-- space_mpi/space2.rs:20-28 `Space2Mpi` on one rank (the MPI universe held by `decomp_handler` is
represented by the number of ranks and the own rank). -/
structure Space2Mpi (P I S T : Type) (A : Type := ℝ) where
  space : Space2 P I S T A
  decompHandler : DecompHandler
  nprocs : ℕ
  nrank : ℕ

namespace Space2Mpi
section
variable {P I S T A : Type} [Zero P] [Zero I] [Zero S] [Zero T]

/-- space_mpi/space2.rs:36-68 `new`, on rank `nrank` of `nprocs`. -/
def new (o : Mode) (nprocs nrank : ℕ) (base0 : Base I S T A) (base1 : Base P I T A) :
    Res (Space2Mpi P I S T A) := do
  let h := DecompHandler.new                                              -- 40
  let d ← Decomp2d.new o nprocs nrank [base0.lenPhys, base1.lenPhys]
  let h := h.insert d                                                     -- 41-44
  let h ← (if base0.lenSpec ≠ base0.lenPhys then do                       -- 45
      let d ← Decomp2d.new o nprocs nrank [base0.lenSpec, base1.lenPhys]
      pure (h.insert d)                                                   -- 46-49
    else pure h)
  let h ← (if base1.lenSpec ≠ base1.lenPhys then do                       -- 51
      let d ← Decomp2d.new o nprocs nrank [base0.lenPhys, base1.lenSpec]
      pure (h.insert d)                                                   -- 52-55
    else pure h)
  let h ← (if base0.lenSpec ≠ base0.lenPhys ∧ base1.lenSpec ≠ base1.lenPhys then do  -- 57
      let d ← Decomp2d.new o nprocs nrank [base0.lenSpec, base1.lenSpec]
      pure (h.insert d)                                                   -- 58-61
    else pure h)
  pure ⟨⟨base0, base1⟩, h, nprocs, nrank⟩                                 -- 63-67

variable (sp : Space2Mpi P I S T A)

/-- space_mpi/space2.rs:478-481 `get_nrank`. -/
def getNrank : ℕ := sp.nrank

/-- space_mpi/space2.rs:483-486 `get_nprocs`. -/
def getNprocs : ℕ := sp.nprocs

/-- space_mpi/space2.rs:489-491 `get_decomp_from_global_shape`. -/
def getDecomp (shape : List ℕ) : Res Decomp2d := sp.decompHandler.getDecomp shape

/-- space_mpi/space2.rs:493-496 `shape_physical_x_pen`. -/
def shapePhysicalXPen : Res (List ℕ) := do
  let dcp ← sp.getDecomp sp.space.shapePhysical
  pure dcp.xPencil.sz

/-- space_mpi/space2.rs:498-501 `shape_physical_y_pen`. -/
def shapePhysicalYPen : Res (List ℕ) := do
  let dcp ← sp.getDecomp sp.space.shapePhysical
  pure dcp.yPencil.sz

/-- space_mpi/space2.rs:503-506 `shape_spectral_x_pen`. -/
def shapeSpectralXPen : Res (List ℕ) := do
  let dcp ← sp.getDecomp sp.space.shapeSpectral
  pure dcp.xPencil.sz

/-- space_mpi/space2.rs:508-511 `shape_spectral_y_pen`. -/
def shapeSpectralYPen : Res (List ℕ) := do
  let dcp ← sp.getDecomp sp.space.shapeSpectral
  pure dcp.yPencil.sz

/-- space_mpi/space2.rs:513-516 `ndarray_physical_x_pen`. -/
def ndarrayPhysicalXPen : Res (Arr P) := do
  let shape ← sp.shapePhysicalXPen
  pure (Arr.zeros shape)

/-- space_mpi/space2.rs:518-521 `ndarray_physical_y_pen`. -/
def ndarrayPhysicalYPen : Res (Arr P) := do
  let shape ← sp.shapePhysicalYPen
  pure (Arr.zeros shape)

/-- space_mpi/space2.rs:523-526 `ndarray_spectral_x_pen`. -/
def ndarraySpectralXPen : Res (Arr S) := do
  let shape ← sp.shapeSpectralXPen
  pure (Arr.zeros shape)

/-- space_mpi/space2.rs:528-531 `ndarray_spectral_y_pen`. -/
def ndarraySpectralYPen : Res (Arr S) := do
  let shape ← sp.shapeSpectralYPen
  pure (Arr.zeros shape)

/-- the common part of `to_ortho_mpi` and `to_ortho_inplace_mpi` (space_mpi/space2.rs:541-549, 572-580). -/
def toOrthoWork (o : Mode) (input : Arr T) : Prog T (Arr T) := do
  let dcp ← (sp.getDecomp [sp.space.base0.lenOrth, sp.space.base1.lenSpec] : Res _)
  let bufferYpen := Arr.zeros dcp.yPencil.sz
  let u ← (sp.space.base0.toOrtho input 0 : Res _)
  let bufferYpen ← dcp.transposeXToY o u bufferYpen
  (sp.space.base1.toOrtho bufferYpen 1 : Res _)

/-- space_mpi/space2.rs:533-561 `to_ortho_mpi`. -/
def toOrthoMpi (o : Mode) (input : Arr T) : Prog T (Arr T) := do
  let work ← sp.toOrthoWork o input
  let dcp ← (sp.getDecomp [sp.space.base0.lenOrth, sp.space.base1.lenOrth] : Res _)
  let bufferXpen := Arr.zeros dcp.xPencil.sz
  dcp.transposeYToX o work bufferXpen

/-- space_mpi/space2.rs:563-590 `to_ortho_inplace_mpi`. -/
def toOrthoInplaceMpi (o : Mode) (input output : Arr T) : Prog T (Arr T) := do
  let work ← sp.toOrthoWork o input
  let dcp ← (sp.getDecomp [sp.space.base0.lenOrth, sp.space.base1.lenOrth] : Res _)
  dcp.transposeYToX o work output

/-- the common part of `from_ortho_mpi` and `from_ortho_inplace_mpi` (space_mpi/space2.rs:600-608, 631-639). -/
def fromOrthoWork (o : Mode) (input : Arr T) : Prog T (Arr T) := do
  let dcp ← (sp.getDecomp [sp.space.base0.lenSpec, sp.space.base1.lenOrth] : Res _)
  let bufferYpen := Arr.zeros dcp.yPencil.sz
  let u ← (sp.space.base0.fromOrtho input 0 : Res _)
  let bufferYpen ← dcp.transposeXToY o u bufferYpen
  (sp.space.base1.fromOrtho bufferYpen 1 : Res _)

/-- space_mpi/space2.rs:592-620 `from_ortho_mpi`. -/
def fromOrthoMpi (o : Mode) (input : Arr T) : Prog T (Arr T) := do
  let work ← sp.fromOrthoWork o input
  let dcp ← (sp.getDecomp [sp.space.base0.lenSpec, sp.space.base1.lenSpec] : Res _)
  let bufferXpen := Arr.zeros dcp.xPencil.sz
  dcp.transposeYToX o work bufferXpen

/-- space_mpi/space2.rs:622-649 `from_ortho_inplace_mpi`. -/
def fromOrthoInplaceMpi (o : Mode) (input output : Arr T) : Prog T (Arr T) := do
  let work ← sp.fromOrthoWork o input
  let dcp ← (sp.getDecomp [sp.space.base0.lenSpec, sp.space.base1.lenSpec] : Res _)
  dcp.transposeYToX o work output

/-- space_mpi/space2.rs:695-710 `forward_mpi`. -/
def forwardMpi (o : Mode) (input : Arr P) : Prog I (Arr S) := do
  let buffer ← (sp.space.base1.forward input 1 : Res _)                   -- 703
  let dcp ← (sp.getDecomp [sp.space.base0.lenPhys, sp.space.base1.lenSpec] : Res _)  -- 704-705
  let bufferXpen := Arr.zeros dcp.xPencil.sz                              -- 706
  let bufferXpen ← dcp.transposeYToX o buffer bufferXpen                  -- 708
  (sp.space.base0.forward bufferXpen 0 : Res _)                           -- 709

/-- space_mpi/space2.rs:712-728 `forward_inplace_mpi`. -/
def forwardInplaceMpi (o : Mode) (input : Arr P) (output : Arr S) : Prog I (Arr S) := do
  let buffer ← (sp.space.base1.forward input 1 : Res _)                   -- 721
  let dcp ← (sp.getDecomp [sp.space.base0.lenPhys, sp.space.base1.lenSpec] : Res _)  -- 722-723
  let bufferXpen := Arr.zeros dcp.xPencil.sz                              -- 724
  let bufferXpen ← dcp.transposeYToX o buffer bufferXpen                  -- 726
  (sp.space.base0.forwardInplace bufferXpen output 0 : Res _)             -- 727

/-- space_mpi/space2.rs:730-745 `backward_mpi`. -/
def backwardMpi (o : Mode) (input : Arr S) : Prog I (Arr P) := do
  let buffer ← (sp.space.base0.backward input 0 : Res _)                  -- 738
  let dcp ← (sp.getDecomp [sp.space.base0.lenPhys, sp.space.base1.lenSpec] : Res _)  -- 739-740
  let bufferYpen := Arr.zeros dcp.yPencil.sz                              -- 741
  let bufferYpen ← dcp.transposeXToY o buffer bufferYpen                  -- 743
  (sp.space.base1.backward bufferYpen 1 : Res _)                          -- 744

/-- space_mpi/space2.rs:747-763 `backward_inplace_mpi`. -/
def backwardInplaceMpi (o : Mode) (input : Arr S) (output : Arr P) : Prog I (Arr P) := do
  let buffer ← (sp.space.base0.backward input 0 : Res _)                  -- 756
  let dcp ← (sp.getDecomp [sp.space.base0.lenPhys, sp.space.base1.lenSpec] : Res _)  -- 757-758
  let bufferYpen := Arr.zeros dcp.yPencil.sz                              -- 759
  let bufferYpen ← dcp.transposeXToY o buffer bufferYpen                  -- 761
  (sp.space.base1.backwardInplace bufferYpen output 1 : Res _)            -- 762

/-- space_mpi/space2.rs:765-772 `gather_from_x_pencil_phys`. -/
def gatherFromXPencilPhys (o : Mode) (pencilData : Arr P) : Prog P Unit := do
  let dcp ← (sp.getDecomp sp.space.shapePhysical : Res _)
  dcp.gatherX o pencilData

/-- space_mpi/space2.rs:774-785 `gather_from_x_pencil_phys_root`. -/
def gatherFromXPencilPhysRoot (o : Mode) (pencilData globalData : Arr P) : Prog P (Arr P) := do
  let dcp ← (sp.getDecomp sp.space.shapePhysical : Res _)
  dcp.gatherXInplaceRoot o pencilData globalData

/-- space_mpi/space2.rs:787-794 `gather_from_y_pencil_phys`. -/
def gatherFromYPencilPhys (o : Mode) (pencilData : Arr P) : Prog P Unit := do
  let dcp ← (sp.getDecomp sp.space.shapePhysical : Res _)
  dcp.gatherY o pencilData

/-- space_mpi/space2.rs:796-807 `gather_from_y_pencil_phys_root`. -/
def gatherFromYPencilPhysRoot (o : Mode) (pencilData globalData : Arr P) : Prog P (Arr P) := do
  let dcp ← (sp.getDecomp sp.space.shapePhysical : Res _)
  dcp.gatherYInplaceRoot o pencilData globalData

/-- space_mpi/space2.rs:809-816 `gather_from_x_pencil_spec`. -/
def gatherFromXPencilSpec (o : Mode) (pencilData : Arr S) : Prog S Unit := do
  let dcp ← (sp.getDecomp sp.space.shapeSpectral : Res _)
  dcp.gatherX o pencilData

/-- space_mpi/space2.rs:818-829 `gather_from_x_pencil_spec_root`. -/
def gatherFromXPencilSpecRoot (o : Mode) (pencilData globalData : Arr S) : Prog S (Arr S) := do
  let dcp ← (sp.getDecomp sp.space.shapeSpectral : Res _)
  dcp.gatherXInplaceRoot o pencilData globalData

/-- space_mpi/space2.rs:831-838 `gather_from_y_pencil_spec`. -/
def gatherFromYPencilSpec (o : Mode) (pencilData : Arr S) : Prog S Unit := do
  let dcp ← (sp.getDecomp sp.space.shapeSpectral : Res _)
  dcp.gatherY o pencilData

/-- space_mpi/space2.rs:840-851 `gather_from_y_pencil_spec_root`. -/
def gatherFromYPencilSpecRoot (o : Mode) (pencilData globalData : Arr S) : Prog S (Arr S) := do
  let dcp ← (sp.getDecomp sp.space.shapeSpectral : Res _)
  dcp.gatherYInplaceRoot o pencilData globalData

/-- space_mpi/space2.rs:853-864 `all_gather_from_x_pencil_phys`. -/
def allGatherFromXPencilPhys (o : Mode) (pencilData globalData : Arr P) : Prog P (Arr P) := do
  let dcp ← (sp.getDecomp sp.space.shapePhysical : Res _)
  dcp.allGatherX o pencilData globalData

/-- space_mpi/space2.rs:866-877 `all_gather_from_y_pencil_phys`. -/
def allGatherFromYPencilPhys (o : Mode) (pencilData globalData : Arr P) : Prog P (Arr P) := do
  let dcp ← (sp.getDecomp sp.space.shapePhysical : Res _)
  dcp.allGatherY o pencilData globalData

/-- space_mpi/space2.rs:879-890 `all_gather_from_x_pencil_spec`. -/
def allGatherFromXPencilSpec (o : Mode) (pencilData globalData : Arr S) : Prog S (Arr S) := do
  let dcp ← (sp.getDecomp sp.space.shapeSpectral : Res _)
  dcp.allGatherX o pencilData globalData

/-- space_mpi/space2.rs:892-903 `all_gather_from_y_pencil_spec`. -/
def allGatherFromYPencilSpec (o : Mode) (pencilData globalData : Arr S) : Prog S (Arr S) := do
  let dcp ← (sp.getDecomp sp.space.shapeSpectral : Res _)
  dcp.allGatherY o pencilData globalData

/-- space_mpi/space2.rs:905-912 `scatter_to_x_pencil_phys`. -/
def scatterToXPencilPhys (o : Mode) (pencilData : Arr P) : Prog P (Arr P) := do
  let dcp ← (sp.getDecomp sp.space.shapePhysical : Res _)
  dcp.scatterXInplace o pencilData

/-- space_mpi/space2.rs:914-925 `scatter_to_x_pencil_phys_root`. -/
def scatterToXPencilPhysRoot (o : Mode) (globalData pencilData : Arr P) : Prog P (Arr P) := do
  let dcp ← (sp.getDecomp sp.space.shapePhysical : Res _)
  dcp.scatterXInplaceRoot o globalData pencilData

/-- space_mpi/space2.rs:927-934 `scatter_to_y_pencil_phys`. -/
def scatterToYPencilPhys (o : Mode) (pencilData : Arr P) : Prog P (Arr P) := do
  let dcp ← (sp.getDecomp sp.space.shapePhysical : Res _)
  dcp.scatterYInplace o pencilData

/-- space_mpi/space2.rs:936-947 `scatter_to_y_pencil_phys_root`. -/
def scatterToYPencilPhysRoot (o : Mode) (globalData pencilData : Arr P) : Prog P (Arr P) := do
  let dcp ← (sp.getDecomp sp.space.shapePhysical : Res _)
  dcp.scatterYInplaceRoot o globalData pencilData

/-- space_mpi/space2.rs:949-956 `scatter_to_x_pencil_spec`. -/
def scatterToXPencilSpec (o : Mode) (pencilData : Arr S) : Prog S (Arr S) := do
  let dcp ← (sp.getDecomp sp.space.shapeSpectral : Res _)
  dcp.scatterXInplace o pencilData

/-- space_mpi/space2.rs:958-969 `scatter_to_x_pencil_spec_root`. -/
def scatterToXPencilSpecRoot (o : Mode) (globalData pencilData : Arr S) : Prog S (Arr S) := do
  let dcp ← (sp.getDecomp sp.space.shapeSpectral : Res _)
  dcp.scatterXInplaceRoot o globalData pencilData

/-- space_mpi/space2.rs:971-978 `scatter_to_y_pencil_spec`. -/
def scatterToYPencilSpec (o : Mode) (pencilData : Arr S) : Prog S (Arr S) := do
  let dcp ← (sp.getDecomp sp.space.shapeSpectral : Res _)
  dcp.scatterYInplace o pencilData

/-- space_mpi/space2.rs:980-991 `scatter_to_y_pencil_spec_root`. -/
def scatterToYPencilSpecRoot (o : Mode) (globalData pencilData : Arr S) : Prog S (Arr S) := do
  let dcp ← (sp.getDecomp sp.space.shapeSpectral : Res _)
  dcp.scatterYInplaceRoot o globalData pencilData

/-- space_mpi/space2.rs:993-1004 `transpose_x_to_y_phys`. -/
def transposeXToYPhys (o : Mode) (xPencil yPencil : Arr P) : Prog P (Arr P) := do
  let dcp ← (sp.getDecomp sp.space.shapePhysical : Res _)
  dcp.transposeXToY o xPencil yPencil

/-- space_mpi/space2.rs:1006-1017 `transpose_y_to_x_phys`. -/
def transposeYToXPhys (o : Mode) (yPencil xPencil : Arr P) : Prog P (Arr P) := do
  let dcp ← (sp.getDecomp sp.space.shapePhysical : Res _)
  dcp.transposeYToX o yPencil xPencil

/-- space_mpi/space2.rs:1019-1030 `transpose_x_to_y_spec`. -/
def transposeXToYSpec (o : Mode) (xPencil yPencil : Arr S) : Prog S (Arr S) := do
  let dcp ← (sp.getDecomp sp.space.shapeSpectral : Res _)
  dcp.transposeXToY o xPencil yPencil

/-- space_mpi/space2.rs:1032-1043 `transpose_y_to_x_spec`. -/
def transposeYToXSpec (o : Mode) (yPencil xPencil : Arr S) : Prog S (Arr S) := do
  let dcp ← (sp.getDecomp sp.space.shapeSpectral : Res _)
  dcp.transposeYToX o yPencil xPencil

end

section
variable {P I S T A : Type} [Zero P] [Zero I] [Zero S] [Zero T] [Mul A] [Powi A] [DivBy A T]
  (sp : Space2Mpi P I S T A)

/-- space_mpi/space2.rs:651-693 `gradient_mpi`. -/
def gradientMpi (o : Mode) (input : Arr T) (d0 d1 : ℕ) (scale : Option (A × A)) :
    Prog T (Arr T) := do
  let dcp ← (sp.getDecomp [sp.space.base0.lenOrth, sp.space.base1.lenSpec] : Res _)  -- 662-665
  let bufferYpen := Arr.zeros dcp.yPencil.sz                              -- 666
  let u ← (sp.space.base0.gradient input d0 0 : Res _)                    -- 668
  let bufferYpen ← dcp.transposeXToY o u bufferYpen                       -- 667-670
  let work ← (sp.space.base1.gradient bufferYpen d1 1 : Res _)            -- 671
  let dcp ← (sp.getDecomp [sp.space.base0.lenOrth, sp.space.base1.lenOrth] : Res _)  -- 676-679
  let output := Arr.zeros dcp.xPencil.sz                                  -- 680
  let output ← dcp.transposeYToX o work output                            -- 681
  match scale with                                                        -- 684
  | none => pure output
  | some (c0, c1) => do
    let p0 ← (powi c0 (toI32 d0) : Res _)                                 -- 686
    let p1 ← (powi c1 (toI32 d1) : Res _)
    (divAll (p0 * p1) output : Res _)                                     -- 687-689

end
end Space2Mpi
end Verif
