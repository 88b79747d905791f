/-
Models of src/enums.rs, the dispatch macro of src/internal_macros.rs, the constructors of
src/lib.rs and the array methods of src/traits.rs.
-/
import Verif.Model.Axis
import Verif.Model.Compo
import Verif.Model.Fourier

namespace Verif
open Res

/-! ### trait methods on arrays -/

/-- enums.rs:53-70 `BaseKind`. -/
inductive BaseKind where
  | chebyshev
  | composite (k : CKind)
  | fourierR2c
  | fourierC2c
  deriving DecidableEq

/-- enums.rs:72-85 `Display for BaseKind` (the name of the first kind is spelled like this in the
source). -/
def BaseKind.display : BaseKind → String
  | .chebyshev => "Chebyhev"
  | .composite .dirichlet => "ChebDirichlet"
  | .composite .neumann => "ChebNeumann"
  | .composite .dirichletNeumann => "ChebDirichletNeumann"
  | .composite .biharmonicA => "ChebBiHarmonicA"
  | .composite .biharmonicB => "ChebBiHarmonicB"
  | .fourierR2c => "FourierR2c"
  | .fourierC2c => "FourierC2c"

/-- enums.rs:42-49 `TransformKind`. -/
inductive TransformKind where
  | r2r | r2c | c2c
  deriving DecidableEq

/-- traits.rs: the required methods of `BaseSize`, `BaseElements`, `BaseMatOpStencil`,
`BaseMatOpLaplacian`, `BaseTransform` (`P`, `S` are its associated types `Physical`, `Spectral`),
`BaseFromOrtho<T>` and `BaseGradient<T>` of one base.  `A` is the number type (`FloatNum`). -/
structure Base (P S T : Type) (A : Type := ℝ) where
  baseKind : BaseKind
  transformKind : TransformKind
  coords : Res (List A)
  stencil : Res (Mat A)
  stencilInv : Res (Mat A)
  laplacian : Mode → Res (Mat A)
  laplacianPinv : Mode → Res (Mat A × Mat A)
  lenPhys : ℕ
  lenSpec : ℕ
  lenOrth : ℕ
  forwardSlice : List P → List S → Res (List S)
  backwardSlice : List S → List P → Res (List P)
  toOrthoSlice : List T → List T → Res (List T)
  fromOrthoSlice : List T → List T → Res (List T)
  gradientSlice : List T → List T → ℕ → Res (List T)

namespace Base
variable {P S T A : Type} [Zero P] [Zero S] [Zero T] (b : Base P S T A)

/-- traits.rs:256-265 `forward_inplace`. -/
def forwardInplace (indata : Arr P) (outdata : Arr S) (axis : ℕ) : Res (Arr S) :=
  applyAlongAxis (serialOrder outdata axis) b.forwardSlice b.lenPhys b.lenSpec indata outdata axis

/-- traits.rs:280-289 `backward_inplace`. -/
def backwardInplace (indata : Arr S) (outdata : Arr P) (axis : ℕ) : Res (Arr P) :=
  applyAlongAxis (serialOrder outdata axis) b.backwardSlice b.lenSpec b.lenPhys indata outdata axis

/-- traits.rs:140-149 `to_ortho_inplace`. -/
def toOrthoInplace (indata outdata : Arr T) (axis : ℕ) : Res (Arr T) :=
  applyAlongAxis (serialOrder outdata axis) b.toOrthoSlice b.lenSpec b.lenOrth indata outdata axis

/-- traits.rs:162-171 `from_ortho_inplace`. -/
def fromOrthoInplace (indata outdata : Arr T) (axis : ℕ) : Res (Arr T) :=
  applyAlongAxis (serialOrder outdata axis) b.fromOrthoSlice b.lenOrth b.lenSpec indata outdata axis

/-- traits.rs:362-398 `gradient_inplace`. -/
def gradientInplace (indata outdata : Arr T) (nTimes axis : ℕ) : Res (Arr T) :=
  applyAlongAxis (serialOrder outdata axis) (fun x y => b.gradientSlice x y nTimes)
    b.lenSpec b.lenOrth indata outdata axis

/-- traits.rs:244-254 `forward`. -/
def forward (indata : Arr P) (axis : ℕ) : Res (Arr S) := do
  let outdata ← arrayResizedAxis S indata b.lenSpec axis
  b.forwardInplace indata outdata axis

/-- traits.rs:268-278 `backward`. -/
def backward (indata : Arr S) (axis : ℕ) : Res (Arr P) := do
  let outdata ← arrayResizedAxis P indata b.lenPhys axis
  b.backwardInplace indata outdata axis

/-- traits.rs:130-138 `to_ortho`. -/
def toOrtho (indata : Arr T) (axis : ℕ) : Res (Arr T) := do
  let outdata ← arrayResizedAxis T indata b.lenOrth axis
  b.toOrthoInplace indata outdata axis

/-- traits.rs:152-160 `from_ortho`. -/
def fromOrtho (indata : Arr T) (axis : ℕ) : Res (Arr T) := do
  let outdata ← arrayResizedAxis T indata b.lenSpec axis
  b.fromOrthoInplace indata outdata axis

/-- traits.rs:351-359 `gradient`. -/
def gradient (indata : Arr T) (nTimes axis : ℕ) : Res (Arr T) := do
  let outdata ← arrayResizedAxis T indata b.lenOrth axis
  b.gradientInplace indata outdata nTimes axis

/-! The parallel methods; `sched` is the interleaving chosen by rayon. -/

/-- traits.rs:305-314 `forward_inplace_par`. -/
def forwardInplacePar (sched : List ℕ) (indata : Arr P) (outdata : Arr S) (axis : ℕ) :
    Res (Arr S) :=
  parApplyAlongAxis sched b.forwardSlice b.lenPhys b.lenSpec indata outdata axis

/-- traits.rs:330-339 `backward_inplace_par`. -/
def backwardInplacePar (sched : List ℕ) (indata : Arr S) (outdata : Arr P) (axis : ℕ) :
    Res (Arr P) :=
  parApplyAlongAxis sched b.backwardSlice b.lenSpec b.lenPhys indata outdata axis

/-- traits.rs:186-195 `to_ortho_inplace_par`. -/
def toOrthoInplacePar (sched : List ℕ) (indata outdata : Arr T) (axis : ℕ) : Res (Arr T) :=
  parApplyAlongAxis sched b.toOrthoSlice b.lenSpec b.lenOrth indata outdata axis

/-- traits.rs:210-219 `from_ortho_inplace_par`. -/
def fromOrthoInplacePar (sched : List ℕ) (indata outdata : Arr T) (axis : ℕ) : Res (Arr T) :=
  parApplyAlongAxis sched b.fromOrthoSlice b.lenOrth b.lenSpec indata outdata axis

/-- traits.rs:419-458 `gradient_inplace_par`. -/
def gradientInplacePar (sched : List ℕ) (indata outdata : Arr T) (nTimes axis : ℕ) :
    Res (Arr T) :=
  parApplyAlongAxis sched (fun x y => b.gradientSlice x y nTimes)
    b.lenSpec b.lenOrth indata outdata axis

/-- traits.rs:292-303 `forward_par`. -/
def forwardPar (sched : List ℕ) (indata : Arr P) (axis : ℕ) : Res (Arr S) := do
  let outdata ← arrayResizedAxis S indata b.lenSpec axis
  b.forwardInplacePar sched indata outdata axis

/-- traits.rs:317-328 `backward_par`. -/
def backwardPar (sched : List ℕ) (indata : Arr S) (axis : ℕ) : Res (Arr P) := do
  let outdata ← arrayResizedAxis P indata b.lenPhys axis
  b.backwardInplacePar sched indata outdata axis

/-- traits.rs:174-184 `to_ortho_par`. -/
def toOrthoPar (sched : List ℕ) (indata : Arr T) (axis : ℕ) : Res (Arr T) := do
  let outdata ← arrayResizedAxis T indata b.lenOrth axis
  b.toOrthoInplacePar sched indata outdata axis

/-- traits.rs:198-208 `from_ortho_par`. -/
def fromOrthoPar (sched : List ℕ) (indata : Arr T) (axis : ℕ) : Res (Arr T) := do
  let outdata ← arrayResizedAxis T indata b.lenSpec axis
  b.fromOrthoInplacePar sched indata outdata axis

/-- traits.rs:401-416 `gradient_par`. -/
def gradientPar (sched : List ℕ) (indata : Arr T) (nTimes axis : ℕ) : Res (Arr T) := do
  let outdata ← arrayResizedAxis T indata b.lenOrth axis
  b.gradientInplacePar sched indata outdata nTimes axis

end Base

/-! ### the base enums -/

/-- enums.rs:14-19 `BaseR2r`. -/
inductive BaseR2r (A : Type := ℝ) where
  | chebyshev (b : Cheb)
  | chebyshevComposite (b : Compo A)

/-- enums.rs:23-26 `BaseR2c`; `C` is `Complex<A>`. -/
inductive BaseR2c (A : Type := ℝ) (C : Type := ℂ) where
  | fourierR2c (b : R2c)

/-- enums.rs:30-33 `BaseC2c`; `C` is `Complex<A>`. -/
inductive BaseC2c (A : Type := ℝ) (C : Type := ℂ) where
  | fourierC2c (b : C2c)

section
variable {A : Type} [Zero A] [One A] [Neg A] [Add A] [Sub A] [Mul A] [Div A] [NatCast A] [Pow A ℕ] [DivBy A A]
  [SMul A A] [Libm A]

/-- internal_macros.rs:9-180 for `BaseR2r` (enums.rs:35): dispatch to the variant.  The
element type `T` of the coefficient operators is real or complex.  Kinds: chebyshev/ortho.rs:272-279,
chebyshev/compo.rs:51-64. -/
def BaseR2r.toBase [HasDct A] (T : Type) [Zero T] [Add T] [Sub T] [SMul A T] [DivBy A T] :
    BaseR2r A → Base A A T A
  | .chebyshev b => {
      baseKind := .chebyshev, transformKind := .r2r
      coords := b.coords A, stencil := b.stencil A
      stencilInv := b.stencilInv A
      laplacian := fun o => b.laplacian A o
      laplacianPinv := fun o => b.laplacianPinv A o
      lenPhys := b.lenPhys, lenSpec := b.lenSpec, lenOrth := b.lenOrth
      forwardSlice := b.forwardSlice, backwardSlice := b.backwardSlice
      toOrthoSlice := b.toOrthoSlice, fromOrthoSlice := b.fromOrthoSlice
      gradientSlice := b.gradientSlice A }
  | .chebyshevComposite b => {
      baseKind := .composite b.baseKind, transformKind := .r2r
      coords := b.coords, stencil := b.stencilMat
      stencilInv := b.stencilInv
      laplacian := fun o => b.laplacian o
      laplacianPinv := fun o => b.laplacianPinv o
      lenPhys := b.lenPhys, lenSpec := b.lenSpec, lenOrth := b.lenOrth
      forwardSlice := b.forwardSlice, backwardSlice := b.backwardSlice
      toOrthoSlice := b.toOrthoSlice, fromOrthoSlice := b.fromOrthoSlice
      gradientSlice := b.gradientSlice }

variable {C : Type} [Cplx A C] [HasFft A C] [Zero C] [Mul C]

/-- internal_macros.rs:9-180 for `BaseR2c` (enums.rs:37).  Kinds: fourier/r2c.rs:88-95. -/
def BaseR2c.toBase : BaseR2c A C → Base A C C A
  | .fourierR2c b => {
      baseKind := .fourierR2c, transformKind := .r2c
      coords := b.coords A, stencil := b.stencil A
      stencilInv := b.stencilInv A
      laplacian := fun _ => b.laplacian C
      laplacianPinv := fun _ => b.laplacianPinv C
      lenPhys := b.lenPhys, lenSpec := b.lenSpec, lenOrth := b.lenOrth
      forwardSlice := b.forwardSlice, backwardSlice := b.backwardSlice
      toOrthoSlice := b.toOrthoSlice, fromOrthoSlice := b.fromOrthoSlice
      gradientSlice := b.gradientSlice }

/-- internal_macros.rs:9-180 for `BaseC2c` (enums.rs:39).  Kinds: fourier/c2c.rs:94-101. -/
def BaseC2c.toBase : BaseC2c A C → Base C C C A
  | .fourierC2c b => {
      baseKind := .fourierC2c, transformKind := .c2c
      coords := b.coords A, stencil := b.stencil A
      stencilInv := b.stencilInv A
      laplacian := fun _ => b.laplacian C
      laplacianPinv := fun _ => b.laplacianPinv C
      lenPhys := b.lenPhys, lenSpec := b.lenSpec, lenOrth := b.lenOrth
      forwardSlice := b.forwardSlice, backwardSlice := b.backwardSlice
      toOrthoSlice := b.toOrthoSlice, fromOrthoSlice := b.fromOrthoSlice
      gradientSlice := b.gradientSlice }

end

/-! ### constructors (lib.rs:219-347) -/

/-- lib.rs:219-221 `chebyshev`. -/
def chebyshev (n : ℕ) (A : Type := ℝ) : Res (BaseR2r A) := do pure (.chebyshev (← Cheb.new n))

/-- lib.rs:244-246 `cheb_dirichlet`, 269-271 `cheb_neumann`, 280-282 `cheb_dirichlet_neumann`,
290-292 `cheb_biharmonic_a`, 300-302 `cheb_biharmonic_b`. -/
def chebComposite (k : CKind) (n : ℕ) (A : Type := ℝ) [Zero A] [One A] [Neg A] [Add A] [Sub A] [Mul A] [Div A]
    [NatCast A] [Pow A ℕ] [DivBy A A] : Res (BaseR2r A) := do
  pure (.chebyshevComposite (← Compo.new k n))

/-- lib.rs:322-324 `fourier_c2c`. -/
def fourierC2c (n : ℕ) (A : Type := ℝ) (C : Type := ℂ) : Res (BaseC2c A C) := do
  pure (.fourierC2c (← C2c.new n))

/-- lib.rs:345-347 `fourier_r2c`. -/
def fourierR2c (n : ℕ) (A : Type := ℝ) (C : Type := ℂ) : Res (BaseR2c A C) := do
  pure (.fourierR2c (← R2c.new n))

end Verif
