/-
Model of src/chebyshev/compo.rs
-/
import Verif.Model.Stencils
import Verif.Model.Ortho

namespace Verif
open Res

/-- enums.rs `BaseKind`, the composite Chebyshev members. -/
inductive CKind where
  | dirichlet | neumann | dirichletNeumann | biharmonicA | biharmonicB
  deriving DecidableEq, Repr

/-- compo.rs:17-27 `ChebyshevComposite`. -/
structure Compo (K : Type) where
  n : ℕ
  m : ℕ
  ortho : Cheb
  stencil : Stencils K

namespace Compo
variable {K T : Type} [Zero K] [One K] [Neg K] [Add K] [Sub K] [Mul K] [Div K] [NatCast K] [Pow K ℕ]
  [DivBy K K] [Zero T] [Add T] [Sub T] [SMul K T] [DivBy K T]

/-- compo.rs:185-193, 207-215, 227-235, 246-254, 265-273: the five constructors.  `get_m(n)`
is `n - 2` resp. `n - 4` (stencils.rs:89-91, 165-167, 250-252, 329-331, 409-411). -/
def new : CKind → ℕ → Res (Compo K)
  | .dirichlet, n => do
    let s ← dirichletNew n
    pure ⟨n, ← n -! 2, ← Cheb.new n, .dirichlet s⟩
  | .neumann, n => do
    let s ← neumannNew n
    pure ⟨n, ← n -! 2, ← Cheb.new n, .neumann s⟩
  | .dirichletNeumann, n => do
    let s ← dirichletNeumannNew n
    pure ⟨n, ← n -! 2, ← Cheb.new n, .dirichletNeumann s⟩
  | .biharmonicA, n => do
    let s ← biharmonicANew n
    pure ⟨n, ← n -! 4, ← Cheb.new n, .biharmonicA s⟩
  | .biharmonicB, n => do
    let s ← biharmonicBNew n
    pure ⟨n, ← n -! 4, ← Cheb.new n, .biharmonicB s⟩

/-- compo.rs:51-59 `base_kind`. -/
def baseKind (b : Compo K) : CKind :=
  match b.stencil with
  | .dirichlet _ => .dirichlet
  | .neumann _ => .neumann
  | .dirichletNeumann _ => .dirichletNeumann
  | .biharmonicA _ => .biharmonicA
  | .biharmonicB _ => .biharmonicB

/-- compo.rs:31-43 sizes of physical, spectral and orthogonal space. -/
def lenPhys (b : Compo K) : ℕ := b.n
@[inherit_doc lenPhys] def lenSpec (b : Compo K) : ℕ := b.m
@[inherit_doc lenPhys] def lenOrth (b : Compo K) : ℕ := b.ortho.lenOrth

/-- compo.rs:67-69 `coords`. -/
def coords [Libm K] (b : Compo K) : Res (List K) := chebNodes b.lenPhys K

/-- compo.rs:79-81 `diffmat`. -/
def diffmat (o : Mode) (b : Compo K) (deriv : ℕ) : Res (Mat K) := b.ortho.diffmat K o deriv

/-- compo.rs:94-96 `diffmat_pinv`. -/
def diffmatPinv (o : Mode) (b : Compo K) (deriv : ℕ) : Res (Mat K × Mat K) :=
  b.ortho.diffmatPinv K o deriv

/-- compo.rs:104-106 `stencil` (the method). -/
def stencilMat (b : Compo K) : Res (Mat K) := b.stencil.toArray

/-- compo.rs:109-111 `stencil_inv`. -/
def stencilInv (b : Compo K) : Res (Mat K) := b.stencil.pinv

/-- compo.rs:119-121 `laplacian`. -/
def laplacian (o : Mode) (b : Compo K) : Res (Mat K) := b.diffmat o 2

/-- compo.rs:131-133 `laplacian_pinv`. -/
def laplacianPinv (o : Mode) (b : Compo K) : Res (Mat K × Mat K) := b.diffmatPinv o 2

/-- compo.rs:146-148 `to_ortho_slice`; returns the new content of `outdata`. -/
def toOrthoSlice (b : Compo K) (indata outdata : List T) : Res (List T) :=
  b.stencil.dot indata outdata

/-- compo.rs:151-153 `from_ortho_slice`. -/
def fromOrthoSlice (b : Compo K) (indata outdata : List T) : Res (List T) :=
  b.stencil.solve indata outdata

/-- compo.rs:165-169 `gradient_slice`. -/
def gradientSlice (b : Compo K) (indata outdata : List T) (nTimes : ℕ) : Res (List T) := do
  let scratch := List.replicate b.lenOrth (0 : T)
  let scratch ← b.toOrthoSlice indata scratch
  b.ortho.gradientSlice K scratch outdata nTimes

variable [SMul K K]

/-- compo.rs:281-285 `forward_slice`. -/
def forwardSlice [HasDct K] (b : Compo K) (indata outdata : List K) : Res (List K) := do
  let scratch := List.replicate b.lenOrth (0 : K)
  let scratch ← b.ortho.forwardSlice indata scratch
  b.fromOrthoSlice scratch outdata

/-- compo.rs:287-291 `backward_slice`. -/
def backwardSlice [HasDct K] (b : Compo K) (indata outdata : List K) : Res (List K) := do
  let scratch := List.replicate b.lenOrth (0 : K)
  let scratch ← b.toOrthoSlice indata scratch
  b.ortho.backwardSlice scratch outdata

end Compo
end Verif
