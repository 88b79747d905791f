/-
Model of examples/space_mpi.rs and examples/space_complex_mpi.rs.  The two programs differ only in the
grid sizes and in the first base; the model is one program over the bases.  Messages of different
element types travel over the same network, as values of a common type `U`.
-/
import Verif.Model.SpaceMpi

namespace Verif
open Res Mpi

/-- Representation of elements of type `T` on the network (MPI datatypes). -/
structure Codec (T U : Type) where
  enc : T → U
  dec : U → T
  dec_enc : ∀ x, dec (enc x) = x

namespace Mpi
variable {T U α : Type}

/-- The part of a rank in a collective operation, as seen on the network. -/
def Coll.wire (c : Codec T U) (x : Coll T) : Coll U :=
  ⟨x.kind, fun r => (x.out r).map (List.map c.enc), x.slot, x.buf.map c.enc⟩

/-- A program that exchanges elements of type `T`, on the common network. -/
def Prog.wire (c : Codec T U) : Prog T α → Prog U α
  | .ret r => .ret r
  | .coll x k => .coll (x.wire c) (fun b => (k (b.map c.dec)).wire c)

end Mpi

/-- `for (i, v) in a.iter_mut().enumerate() { *v = i as f64; }`. -/
def Arr.enumerate {P : Type} (ofNat : ℕ → P) (a : Arr P) : Arr P :=
  { a with data := (List.range a.data.length).map ofNat }

section
variable {P I S U A : Type} [Zero P] [Zero I] [Zero S]

open Classical in
/-- examples/space_mpi.rs:8-57 `main` and examples/space_complex_mpi.rs:8-53 `main` on rank `nrank` of
`nprocs`; `ofNat` is the conversion `i as f64`.  The array `v_mpi` that is compared with the serial
result is returned. -/
noncomputable def exampleMpi (o : Mode) (cP : Codec P U) (cI : Codec I U) (cS : Codec S U)
    (ofNat : ℕ → P) (nprocs nrank : ℕ) (base0 : Base I S S A) (base1 : Base P I S A) :
    Prog U (Arr P) := do
  let space ← (Space2Mpi.new o nprocs nrank base0 base1 : Res (Space2Mpi P I S S A))
  let yPencil ← (space.ndarrayPhysicalYPen : Res (Arr P))
  let yPencil ← (if space.getNrank = 0 then
      let global := Arr.enumerate ofNat space.space.ndarrayPhysical
      (space.scatterToYPencilPhysRoot o global yPencil).wire cP
    else (space.scatterToYPencilPhys o yPencil).wire cP)
  let xPencil ← (space.ndarraySpectralXPen : Res (Arr S))
  let xPencil ← (space.forwardInplaceMpi o yPencil xPencil).wire cI
  let yPencil ← (space.backwardInplaceMpi o xPencil yPencil).wire cI
  let vMpi : Arr P := space.space.ndarrayPhysical
  let vMpi ← (space.allGatherFromYPencilPhys o yPencil vMpi).wire cP
  let v : Arr P := Arr.enumerate ofNat space.space.ndarrayPhysical
  let vhat : Arr S := space.space.ndarraySpectral
  let vhat ← (space.space.forwardInplace v vhat : Res (Arr S))
  let v ← (space.space.backwardInplace vhat v : Res (Arr P))
  let _ ← (assertR (v = vMpi) : Res Unit)
  let ortho ← (space.toOrthoMpi o xPencil).wire cS
  let _ ← (space.fromOrthoMpi o ortho).wire cS
  pure vMpi

end
end Verif
