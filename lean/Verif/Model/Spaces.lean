/-
Models of src/space/traits.rs, space1.rs, space2.rs and space3.rs.
The spaces are modelled over the `Base` dictionaries of their component bases; the element types
`P` (physical), `S` (spectral) and the intermediate ones are those of the instances at the end of
each source file.  The element type `T` of the coefficient operators (`to_ortho`, `from_ortho`,
`gradient`) is a generic parameter of the Rust methods.
-/
import Verif.Model.Bases

namespace Verif
open Res

/-- `d as i32` for a `usize` `d`: the low 32 bits, in two's complement. -/
def toI32 (d : ℕ) : ℤ := ((d + 2 ^ 31) % 2 ^ 32 : ℕ) - 2 ^ 31

/-- `x.powi(k)` of the number type. -/
class Powi (A : Type) where
  powi : A → ℤ → Res A

export Powi (powi)

/-- Exact arithmetic: `0` to a negative power is a division by zero. -/
noncomputable instance : Powi ℝ := ⟨fun x k => if x = 0 ∧ k < 0 then err .div0 else ok (x ^ k)⟩

/-- Apply a fallible operation to each element, in order. -/
def mapR {S T : Type} (f : S → Res T) : List S → Res (List T)
  | [] => ok []
  | x :: xs => do
    let y ← f x
    let ys ← mapR f xs
    pure (y :: ys)

/-- `for x in output.iter_mut() { *x /= sc; }` with `sc` a real number converted to `T`.  Simplification: the
quotient by a number stands for the quotient by that number converted to `T` (complex data: the same up to
rounding). -/
def divAll {A T : Type} [DivBy A T] (sc : A) (a : Arr T) : Res (Arr T) := do
  let data ← mapR (fun x => divR x sc) a.data
  pure { a with data := data }


/-- space1.rs `Space1`. -/
structure Space1 (P S T : Type) (A : Type := ℝ) where
  base0 : Base P S T A

/-- space1.rs:47-51 `new`. -/
def Space1.new {P S T A : Type} (base0 : Base P S T A) : Space1 P S T A := ⟨base0⟩

namespace Space1
section
variable {P S T A : Type} [Zero P] [Zero S] [Zero T] (sp : Space1 P S T A)

/-- space1.rs:60-62 `shape_physical`. -/
def shapePhysical : List ℕ := [sp.base0.lenPhys]

/-- space1.rs:64-66 `shape_spectral`. -/
def shapeSpectral : List ℕ := [sp.base0.lenSpec]

/-- space1.rs:68-70 `shape_spectral_ortho`. -/
def shapeSpectralOrtho : List ℕ := [sp.base0.lenOrth]

/-- space1.rs:72-74 `ndarray_from_shape` with space/traits.rs:304-306 `ndarray_physical`. -/
def ndarrayPhysical : Arr P := Arr.zeros sp.shapePhysical

/-- space1.rs:72-74 `ndarray_from_shape` with space/traits.rs:309-311 `ndarray_spectral`. -/
def ndarraySpectral : Arr S := Arr.zeros sp.shapeSpectral

/-- space1.rs:93-95 `coords_axis`. -/
def coordsAxis (_axis : ℕ) : Res (List A) := sp.base0.coords

/-- space1.rs:126-128 `stencil`. -/
def stencil (_axis : ℕ) : Res (Mat A) := sp.base0.stencil

/-- space1.rs:141-143 `stencil_inv`. -/
def stencilInv (_axis : ℕ) : Res (Mat A) := sp.base0.stencilInv

/-- space1.rs:161-163 `laplacian`. -/
def laplacian (o : Mode) (_axis : ℕ) : Res (Mat A) := sp.base0.laplacian o

/-- space1.rs:176-178 `laplacian_pinv`. -/
def laplacianPinv (o : Mode) (_axis : ℕ) : Res (Mat A × Mat A) := sp.base0.laplacianPinv o

/-- space1.rs:98-100 `base_kind`. -/
def baseKind (_axis : ℕ) : Res (BaseKind) := pure sp.base0.baseKind

/-- space1.rs:103-105 `transform_kind`. -/
def transformKind (_axis : ℕ) : Res (TransformKind) := pure sp.base0.transformKind

/-- space1.rs:84-86 `coords`. -/
def coords : Res (List (List A)) := do
  let c0 ← sp.coordsAxis 0
  pure [c0]

/-- space1.rs:266-275 `to_ortho_inplace`. -/
def toOrthoInplace (input : Arr T) (output : Arr T) : Res (Arr T) := do
  sp.base0.toOrthoInplace input output 0

/-- space/traits.rs:143-151 `to_ortho`. -/
def toOrtho (input : Arr T) : Res (Arr T) :=
  sp.toOrthoInplace input (Arr.zeros sp.shapeSpectralOrtho)

/-- space1.rs:283-292 `from_ortho_inplace`. -/
def fromOrthoInplace (input : Arr T) (output : Arr T) : Res (Arr T) := do
  sp.base0.fromOrthoInplace input output 0

/-- space/traits.rs:172-179 `from_ortho`. -/
def fromOrtho (input : Arr T) : Res (Arr T) :=
  sp.fromOrthoInplace input (Arr.zeros sp.shapeSpectral)

/-- space1.rs:300-309 `to_ortho_inplace_par`. -/
def toOrthoInplacePar (s0 : List ℕ) (input : Arr T) (output : Arr T) : Res (Arr T) := do
  sp.base0.toOrthoInplacePar s0 input output 0

/-- space/traits.rs:200-207 `to_ortho_par`. -/
def toOrthoPar (s0 : List ℕ) (input : Arr T) : Res (Arr T) :=
  sp.toOrthoInplacePar s0 input (Arr.zeros sp.shapeSpectralOrtho)

/-- space1.rs:317-326 `from_ortho_inplace_par`. -/
def fromOrthoInplacePar (s0 : List ℕ) (input : Arr T) (output : Arr T) : Res (Arr T) := do
  sp.base0.fromOrthoInplacePar s0 input output 0

/-- space/traits.rs:228-235 `from_ortho_par`. -/
def fromOrthoPar (s0 : List ℕ) (input : Arr T) : Res (Arr T) :=
  sp.fromOrthoInplacePar s0 input (Arr.zeros sp.shapeSpectral)

/-- space1.rs:344-353 `forward_inplace`. -/
def forwardInplace (input : Arr P) (output : Arr S) : Res (Arr S) := do
  sp.base0.forwardInplace input output 0

/-- space/traits.rs:319-329 `forward`. -/
def forward (input : Arr P) : Res (Arr S) :=
  sp.forwardInplace input (Arr.zeros sp.shapeSpectral)

/-- space1.rs:361-370 `backward_inplace`. -/
def backwardInplace (input : Arr S) (output : Arr P) : Res (Arr P) := do
  sp.base0.backwardInplace input output 0

/-- space/traits.rs:351-361 `backward`. -/
def backward (input : Arr S) : Res (Arr P) :=
  sp.backwardInplace input (Arr.zeros sp.shapePhysical)

/-- space1.rs:378-387 `forward_inplace_par`. -/
def forwardInplacePar (s0 : List ℕ) (input : Arr P) (output : Arr S) : Res (Arr S) := do
  sp.base0.forwardInplacePar s0 input output 0

/-- space/traits.rs:383-393 `forward_par`. -/
def forwardPar (s0 : List ℕ) (input : Arr P) : Res (Arr S) :=
  sp.forwardInplacePar s0 input (Arr.zeros sp.shapeSpectral)

/-- space1.rs:395-404 `backward_inplace_par`. -/
def backwardInplacePar (s0 : List ℕ) (input : Arr S) (output : Arr P) : Res (Arr P) := do
  sp.base0.backwardInplacePar s0 input output 0

/-- space/traits.rs:415-425 `backward_par`. -/
def backwardPar (s0 : List ℕ) (input : Arr S) : Res (Arr P) :=
  sp.backwardInplacePar s0 input (Arr.zeros sp.shapePhysical)

end

section
variable {P S T A : Type} [Zero P] [Zero S] [Zero T] [Mul A] [Powi A] [DivBy A T] (sp : Space1 P S T A)

/-- space1.rs:202-219 `gradient`. -/
def gradient (input : Arr T) (d0 : ℕ) (scale : Option (A)) :
    Res (Arr T) := do
  let output ← sp.base0.gradient input d0 0
  match scale with
  | none => pure output
  | some c0 => do
    let p0 ← powi c0 (toI32 d0)
    divAll (p0) output

/-- space1.rs:227-244 `gradient_par`. -/
def gradientPar (s0 : List ℕ) (input : Arr T) (d0 : ℕ) (scale : Option (A)) :
    Res (Arr T) := do
  let output ← sp.base0.gradientPar s0 input d0 0
  match scale with
  | none => pure output
  | some c0 => do
    let p0 ← powi c0 (toI32 d0)
    divAll (p0) output

end
end Space1

/-- space2.rs `Space2`. -/
structure Space2 (P I S T : Type) (A : Type := ℝ) where
  base0 : Base I S T A
  base1 : Base P I T A

/-- space2.rs:50-55 `new`. -/
def Space2.new {P I S T A : Type} (base0 : Base I S T A) (base1 : Base P I T A) : Space2 P I S T A := ⟨base0, base1⟩

namespace Space2
section
variable {P I S T A : Type} [Zero P] [Zero I] [Zero S] [Zero T] (sp : Space2 P I S T A)

/-- space2.rs:64-66 `shape_physical`. -/
def shapePhysical : List ℕ := [sp.base0.lenPhys, sp.base1.lenPhys]

/-- space2.rs:68-70 `shape_spectral`. -/
def shapeSpectral : List ℕ := [sp.base0.lenSpec, sp.base1.lenSpec]

/-- space2.rs:72-74 `shape_spectral_ortho`. -/
def shapeSpectralOrtho : List ℕ := [sp.base0.lenOrth, sp.base1.lenOrth]

/-- space2.rs:76-78 `ndarray_from_shape` with space/traits.rs:304-306 `ndarray_physical`. -/
def ndarrayPhysical : Arr P := Arr.zeros sp.shapePhysical

/-- space2.rs:76-78 `ndarray_from_shape` with space/traits.rs:309-311 `ndarray_spectral`. -/
def ndarraySpectral : Arr S := Arr.zeros sp.shapeSpectral

/-- space2.rs:97-103 `coords_axis`. -/
def coordsAxis (axis : ℕ) : Res (List A) := if axis = 0 then sp.base0.coords else sp.base1.coords

/-- space2.rs:141-147 `stencil`. -/
def stencil (axis : ℕ) : Res (Mat A) := if axis = 0 then sp.base0.stencil else sp.base1.stencil

/-- space2.rs:160-166 `stencil_inv`. -/
def stencilInv (axis : ℕ) : Res (Mat A) := if axis = 0 then sp.base0.stencilInv else sp.base1.stencilInv

/-- space2.rs:184-190 `laplacian`. -/
def laplacian (o : Mode) (axis : ℕ) : Res (Mat A) := if axis = 0 then sp.base0.laplacian o else sp.base1.laplacian o

/-- space2.rs:203-209 `laplacian_pinv`. -/
def laplacianPinv (o : Mode) (axis : ℕ) : Res (Mat A × Mat A) := if axis = 0 then sp.base0.laplacianPinv o else sp.base1.laplacianPinv o

/-- space2.rs:106-112 `base_kind`. -/
def baseKind (axis : ℕ) : Res (BaseKind) := if axis = 0 then pure sp.base0.baseKind else pure sp.base1.baseKind

/-- space2.rs:115-121 `transform_kind`. -/
def transformKind (axis : ℕ) : Res (TransformKind) := if axis = 0 then pure sp.base0.transformKind else pure sp.base1.transformKind

/-- space2.rs:88-90 `coords`. -/
def coords : Res (List (List A)) := do
  let c0 ← sp.coordsAxis 0
  let c1 ← sp.coordsAxis 1
  pure [c0, c1]

/-- space2.rs:299-309 `to_ortho_inplace`. -/
def toOrthoInplace (input : Arr T) (output : Arr T) : Res (Arr T) := do
  let buffer1 ← sp.base0.toOrtho input 0
  sp.base1.toOrthoInplace buffer1 output 1

/-- space/traits.rs:143-151 `to_ortho`. -/
def toOrtho (input : Arr T) : Res (Arr T) :=
  sp.toOrthoInplace input (Arr.zeros sp.shapeSpectralOrtho)

/-- space2.rs:317-327 `from_ortho_inplace`. -/
def fromOrthoInplace (input : Arr T) (output : Arr T) : Res (Arr T) := do
  let buffer1 ← sp.base0.fromOrtho input 0
  sp.base1.fromOrthoInplace buffer1 output 1

/-- space/traits.rs:172-179 `from_ortho`. -/
def fromOrtho (input : Arr T) : Res (Arr T) :=
  sp.fromOrthoInplace input (Arr.zeros sp.shapeSpectral)

/-- space2.rs:335-345 `to_ortho_inplace_par`. -/
def toOrthoInplacePar (s0 s1 : List ℕ) (input : Arr T) (output : Arr T) : Res (Arr T) := do
  let buffer1 ← sp.base0.toOrthoPar s0 input 0
  sp.base1.toOrthoInplacePar s1 buffer1 output 1

/-- space/traits.rs:200-207 `to_ortho_par`. -/
def toOrthoPar (s0 s1 : List ℕ) (input : Arr T) : Res (Arr T) :=
  sp.toOrthoInplacePar s0 s1 input (Arr.zeros sp.shapeSpectralOrtho)

/-- space2.rs:353-363 `from_ortho_inplace_par`. -/
def fromOrthoInplacePar (s0 s1 : List ℕ) (input : Arr T) (output : Arr T) : Res (Arr T) := do
  let buffer1 ← sp.base0.fromOrthoPar s0 input 0
  sp.base1.fromOrthoInplacePar s1 buffer1 output 1

/-- space/traits.rs:228-235 `from_ortho_par`. -/
def fromOrthoPar (s0 s1 : List ℕ) (input : Arr T) : Res (Arr T) :=
  sp.fromOrthoInplacePar s0 s1 input (Arr.zeros sp.shapeSpectral)

/-- space2.rs:381-391 `forward_inplace`. -/
def forwardInplace (input : Arr P) (output : Arr S) : Res (Arr S) := do
  let buffer1 ← sp.base1.forward input 1
  sp.base0.forwardInplace buffer1 output 0

/-- space/traits.rs:319-329 `forward`. -/
def forward (input : Arr P) : Res (Arr S) :=
  sp.forwardInplace input (Arr.zeros sp.shapeSpectral)

/-- space2.rs:399-409 `backward_inplace`. -/
def backwardInplace (input : Arr S) (output : Arr P) : Res (Arr P) := do
  let buffer1 ← sp.base0.backward input 0
  sp.base1.backwardInplace buffer1 output 1

/-- space/traits.rs:351-361 `backward`. -/
def backward (input : Arr S) : Res (Arr P) :=
  sp.backwardInplace input (Arr.zeros sp.shapePhysical)

/-- space2.rs:417-427 `forward_inplace_par`. -/
def forwardInplacePar (s0 s1 : List ℕ) (input : Arr P) (output : Arr S) : Res (Arr S) := do
  let buffer1 ← sp.base1.forwardPar s1 input 1
  sp.base0.forwardInplacePar s0 buffer1 output 0

/-- space/traits.rs:383-393 `forward_par`. -/
def forwardPar (s0 s1 : List ℕ) (input : Arr P) : Res (Arr S) :=
  sp.forwardInplacePar s0 s1 input (Arr.zeros sp.shapeSpectral)

/-- space2.rs:435-445 `backward_inplace_par`. -/
def backwardInplacePar (s0 s1 : List ℕ) (input : Arr S) (output : Arr P) : Res (Arr P) := do
  let buffer1 ← sp.base0.backwardPar s0 input 0
  sp.base1.backwardInplacePar s1 buffer1 output 1

/-- space/traits.rs:415-425 `backward_par`. -/
def backwardPar (s0 s1 : List ℕ) (input : Arr S) : Res (Arr P) :=
  sp.backwardInplacePar s0 s1 input (Arr.zeros sp.shapePhysical)

end

section
variable {P I S T A : Type} [Zero P] [Zero I] [Zero S] [Zero T] [Mul A] [Powi A] [DivBy A T] (sp : Space2 P I S T A)

/-- space2.rs:233-251 `gradient`. -/
def gradient (input : Arr T) (d0 d1 : ℕ) (scale : Option (A × A)) :
    Res (Arr T) := do
  let buffer1 ← sp.base0.gradient input d0 0
  let output ← sp.base1.gradient buffer1 d1 1
  match scale with
  | none => pure output
  | some (c0, c1) => do
    let p0 ← powi c0 (toI32 d0)
    let p1 ← powi c1 (toI32 d1)
    divAll (p0 * p1) output

/-- space2.rs:259-277 `gradient_par`. -/
def gradientPar (s0 s1 : List ℕ) (input : Arr T) (d0 d1 : ℕ) (scale : Option (A × A)) :
    Res (Arr T) := do
  let buffer1 ← sp.base0.gradientPar s0 input d0 0
  let output ← sp.base1.gradientPar s1 buffer1 d1 1
  match scale with
  | none => pure output
  | some (c0, c1) => do
    let p0 ← powi c0 (toI32 d0)
    let p1 ← powi c1 (toI32 d1)
    divAll (p0 * p1) output

end
end Space2

/-- space3.rs `Space3`. -/
structure Space3 (P I J S T : Type) (A : Type := ℝ) where
  base0 : Base J S T A
  base1 : Base I J T A
  base2 : Base P I T A

/-- space3.rs:55-61 `new`. -/
def Space3.new {P I J S T A : Type} (base0 : Base J S T A) (base1 : Base I J T A) (base2 : Base P I T A) : Space3 P I J S T A :=
  ⟨base0, base1, base2⟩

namespace Space3
section
variable {P I J S T A : Type} [Zero P] [Zero I] [Zero J] [Zero S] [Zero T] (sp : Space3 P I J S T A)

/-- space3.rs:70-76 `shape_physical`. -/
def shapePhysical : List ℕ := [sp.base0.lenPhys, sp.base1.lenPhys, sp.base2.lenPhys]

/-- space3.rs:78-84 `shape_spectral`. -/
def shapeSpectral : List ℕ := [sp.base0.lenSpec, sp.base1.lenSpec, sp.base2.lenSpec]

/-- space3.rs:86-92 `shape_spectral_ortho`. -/
def shapeSpectralOrtho : List ℕ := [sp.base0.lenOrth, sp.base1.lenOrth, sp.base2.lenOrth]

/-- space3.rs:94-96 `ndarray_from_shape` with space/traits.rs:304-306 `ndarray_physical`. -/
def ndarrayPhysical : Arr P := Arr.zeros sp.shapePhysical

/-- space3.rs:94-96 `ndarray_from_shape` with space/traits.rs:309-311 `ndarray_spectral`. -/
def ndarraySpectral : Arr S := Arr.zeros sp.shapeSpectral

/-- space3.rs:119-128 `coords_axis`. -/
def coordsAxis (axis : ℕ) : Res (List A) := do
  assertR (axis ≤ 2)
  (if axis = 0 then sp.base0.coords else if axis = 1 then sp.base1.coords else sp.base2.coords)

/-- space3.rs:172-181 `stencil`. -/
def stencil (axis : ℕ) : Res (Mat A) := do
  assertR (axis ≤ 2)
  (if axis = 0 then sp.base0.stencil else if axis = 1 then sp.base1.stencil else sp.base2.stencil)

/-- space3.rs:194-203 `stencil_inv`. -/
def stencilInv (axis : ℕ) : Res (Mat A) := do
  assertR (axis ≤ 2)
  (if axis = 0 then sp.base0.stencilInv else if axis = 1 then sp.base1.stencilInv else sp.base2.stencilInv)

/-- space3.rs:221-230 `laplacian`. -/
def laplacian (o : Mode) (axis : ℕ) : Res (Mat A) := do
  assertR (axis ≤ 2)
  (if axis = 0 then sp.base0.laplacian o else if axis = 1 then sp.base1.laplacian o else sp.base2.laplacian o)

/-- space3.rs:243-252 `laplacian_pinv`. -/
def laplacianPinv (o : Mode) (axis : ℕ) : Res (Mat A × Mat A) := do
  assertR (axis ≤ 2)
  (if axis = 0 then sp.base0.laplacianPinv o else if axis = 1 then sp.base1.laplacianPinv o else sp.base2.laplacianPinv o)

/-- space3.rs:131-140 `base_kind`. -/
def baseKind (axis : ℕ) : Res (BaseKind) := do
  assertR (axis ≤ 2)
  (if axis = 0 then pure sp.base0.baseKind else if axis = 1 then pure sp.base1.baseKind else pure sp.base2.baseKind)

/-- space3.rs:143-152 `transform_kind`. -/
def transformKind (axis : ℕ) : Res (TransformKind) := do
  assertR (axis ≤ 2)
  (if axis = 0 then pure sp.base0.transformKind else if axis = 1 then pure sp.base1.transformKind else pure sp.base2.transformKind)

/-- space3.rs:106-112 `coords`. -/
def coords : Res (List (List A)) := do
  let c0 ← sp.coordsAxis 0
  let c1 ← sp.coordsAxis 1
  let c2 ← sp.coordsAxis 2
  pure [c0, c1, c2]

/-- space3.rs:350-361 `to_ortho_inplace`. -/
def toOrthoInplace (input : Arr T) (output : Arr T) : Res (Arr T) := do
  let buffer1 ← sp.base0.toOrtho input 0
  let buffer2 ← sp.base1.toOrtho buffer1 1
  sp.base2.toOrthoInplace buffer2 output 2

/-- space/traits.rs:143-151 `to_ortho`. -/
def toOrtho (input : Arr T) : Res (Arr T) :=
  sp.toOrthoInplace input (Arr.zeros sp.shapeSpectralOrtho)

/-- space3.rs:369-380 `from_ortho_inplace`. -/
def fromOrthoInplace (input : Arr T) (output : Arr T) : Res (Arr T) := do
  let buffer1 ← sp.base0.fromOrtho input 0
  let buffer2 ← sp.base1.fromOrtho buffer1 1
  sp.base2.fromOrthoInplace buffer2 output 2

/-- space/traits.rs:172-179 `from_ortho`. -/
def fromOrtho (input : Arr T) : Res (Arr T) :=
  sp.fromOrthoInplace input (Arr.zeros sp.shapeSpectral)

/-- space3.rs:388-399 `to_ortho_inplace_par`. -/
def toOrthoInplacePar (s0 s1 s2 : List ℕ) (input : Arr T) (output : Arr T) : Res (Arr T) := do
  let buffer1 ← sp.base0.toOrthoPar s0 input 0
  let buffer2 ← sp.base1.toOrthoPar s1 buffer1 1
  sp.base2.toOrthoInplacePar s2 buffer2 output 2

/-- space/traits.rs:200-207 `to_ortho_par`. -/
def toOrthoPar (s0 s1 s2 : List ℕ) (input : Arr T) : Res (Arr T) :=
  sp.toOrthoInplacePar s0 s1 s2 input (Arr.zeros sp.shapeSpectralOrtho)

/-- space3.rs:407-418 `from_ortho_inplace_par`. -/
def fromOrthoInplacePar (s0 s1 s2 : List ℕ) (input : Arr T) (output : Arr T) : Res (Arr T) := do
  let buffer1 ← sp.base0.fromOrthoPar s0 input 0
  let buffer2 ← sp.base1.fromOrthoPar s1 buffer1 1
  sp.base2.fromOrthoInplacePar s2 buffer2 output 2

/-- space/traits.rs:228-235 `from_ortho_par`. -/
def fromOrthoPar (s0 s1 s2 : List ℕ) (input : Arr T) : Res (Arr T) :=
  sp.fromOrthoInplacePar s0 s1 s2 input (Arr.zeros sp.shapeSpectral)

/-- space3.rs:436-447 `forward_inplace`. -/
def forwardInplace (input : Arr P) (output : Arr S) : Res (Arr S) := do
  let buffer1 ← sp.base2.forward input 2
  let buffer2 ← sp.base1.forward buffer1 1
  sp.base0.forwardInplace buffer2 output 0

/-- space/traits.rs:319-329 `forward`. -/
def forward (input : Arr P) : Res (Arr S) :=
  sp.forwardInplace input (Arr.zeros sp.shapeSpectral)

/-- space3.rs:455-466 `backward_inplace`. -/
def backwardInplace (input : Arr S) (output : Arr P) : Res (Arr P) := do
  let buffer1 ← sp.base0.backward input 0
  let buffer2 ← sp.base1.backward buffer1 1
  sp.base2.backwardInplace buffer2 output 2

/-- space/traits.rs:351-361 `backward`. -/
def backward (input : Arr S) : Res (Arr P) :=
  sp.backwardInplace input (Arr.zeros sp.shapePhysical)

/-- space3.rs:474-485 `forward_inplace_par`. -/
def forwardInplacePar (s0 s1 s2 : List ℕ) (input : Arr P) (output : Arr S) : Res (Arr S) := do
  let buffer1 ← sp.base2.forwardPar s2 input 2
  let buffer2 ← sp.base1.forwardPar s1 buffer1 1
  sp.base0.forwardInplacePar s0 buffer2 output 0

/-- space/traits.rs:383-393 `forward_par`. -/
def forwardPar (s0 s1 s2 : List ℕ) (input : Arr P) : Res (Arr S) :=
  sp.forwardInplacePar s0 s1 s2 input (Arr.zeros sp.shapeSpectral)

/-- space3.rs:493-504 `backward_inplace_par`. -/
def backwardInplacePar (s0 s1 s2 : List ℕ) (input : Arr S) (output : Arr P) : Res (Arr P) := do
  let buffer1 ← sp.base0.backwardPar s0 input 0
  let buffer2 ← sp.base1.backwardPar s1 buffer1 1
  sp.base2.backwardInplacePar s2 buffer2 output 2

/-- space/traits.rs:415-425 `backward_par`. -/
def backwardPar (s0 s1 s2 : List ℕ) (input : Arr S) : Res (Arr P) :=
  sp.backwardInplacePar s0 s1 s2 input (Arr.zeros sp.shapePhysical)

end

section
variable {P I J S T A : Type} [Zero P] [Zero I] [Zero J] [Zero S] [Zero T] [Mul A] [Powi A] [DivBy A T] (sp : Space3 P I J S T A)

/-- space3.rs:276-298 `gradient`. The last axis is differentiated with `base1`, as in the source. -/
def gradient (input : Arr T) (d0 d1 d2 : ℕ) (scale : Option (A × A × A)) :
    Res (Arr T) := do
  let buffer1 ← sp.base0.gradient input d0 0
  let buffer2 ← sp.base1.gradient buffer1 d1 1
  let output ← sp.base1.gradient buffer2 d2 2             -- 287
  match scale with
  | none => pure output
  | some (c0, c1, c2) => do
    let p0 ← powi c0 (toI32 d0)
    let p1 ← powi c1 (toI32 d1)
    let p2 ← powi c2 (toI32 d2)
    divAll (p0 * p1 * p2) output

/-- space3.rs:306-328 `gradient_par`. The last axis is differentiated with `base1`, as in the source. -/
def gradientPar (s0 s1 s2 : List ℕ) (input : Arr T) (d0 d1 d2 : ℕ) (scale : Option (A × A × A)) :
    Res (Arr T) := do
  let buffer1 ← sp.base0.gradientPar s0 input d0 0
  let buffer2 ← sp.base1.gradientPar s1 buffer1 d1 1
  let output ← sp.base1.gradientPar s2 buffer2 d2 2             -- 317
  match scale with
  | none => pure output
  | some (c0, c1, c2) => do
    let p0 ← powi c0 (toI32 d0)
    let p1 ← powi c1 (toI32 d1)
    let p2 ← powi c2 (toI32 d2)
    divAll (p0 * p1 * p2) output

end
end Space3

end Verif
