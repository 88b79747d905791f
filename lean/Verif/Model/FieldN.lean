/-
Model of examples/field.rs for every number of dimensions: `FieldBase<A, T1, T2, S, N>` is generic in
the space, of which it only uses the trait `BaseSpace`.  (`Field2` of Model/Field.lean is `N = 2`.)
-/
import Verif.Model.Field

namespace Verif
open Res

/-- space/traits.rs:7-445 `BaseSpace<A, N>` and its supertraits, as a record of the methods that
examples/field.rs calls, next to their serial versions.  The element type `T2` of the field is both the
type of the coefficients and of the operations on them.  Arrays `[_; N]` of derivatives and scales
are functions of the axis; the schedules of the parallel passes are given per axis. -/
structure BaseSpace (P S : Type) where
  dim : ℕ
  shapePhysical : List ℕ
  shapeSpectral : List ℕ
  shapeSpectralOrtho : List ℕ
  coords : Res (List (List ℝ))
  baseKind : ℕ → Res BaseKind
  stencil : ℕ → Res (Mat ℝ)
  laplacian : Mode → ℕ → Res (Mat ℝ)
  laplacianPinv : Mode → ℕ → Res (Mat ℝ × Mat ℝ)
  forward : Arr P → Res (Arr S)
  backward : Arr S → Res (Arr P)
  toOrtho : Arr S → Res (Arr S)
  fromOrtho : Arr S → Res (Arr S)
  gradient : Arr S → (ℕ → ℕ) → Option (ℕ → ℝ) → Res (Arr S)
  forwardInplacePar : (ℕ → List ℕ) → Arr P → Arr S → Res (Arr S)
  backwardInplacePar : (ℕ → List ℕ) → Arr S → Arr P → Res (Arr P)
  toOrthoPar : (ℕ → List ℕ) → Arr S → Res (Arr S)
  fromOrthoInplacePar : (ℕ → List ℕ) → Arr S → Arr S → Res (Arr S)
  gradientPar : (ℕ → List ℕ) → Arr S → (ℕ → ℕ) → Option (ℕ → ℝ) → Res (Arr S)

section
variable {P I J S : Type} [Zero P] [Zero I] [Zero J] [AddCommGroup S] [Module ℝ S]

/-- space1.rs:54-410: `impl BaseSpace<A, 1> for Space1`. -/
noncomputable def Space1.asTrait (sp : Space1 P S S) : BaseSpace P S where
  dim := 1
  shapePhysical := sp.shapePhysical
  shapeSpectral := sp.shapeSpectral
  shapeSpectralOrtho := sp.shapeSpectralOrtho
  coords := sp.coords
  baseKind := sp.baseKind
  stencil := sp.stencil
  laplacian := sp.laplacian
  laplacianPinv := sp.laplacianPinv
  forward := sp.forward
  backward := sp.backward
  toOrtho := sp.toOrtho
  fromOrtho := sp.fromOrtho
  gradient a d c := sp.gradient a (d 0) (c.map fun c => c 0)
  forwardInplacePar s := sp.forwardInplacePar (s 0)
  backwardInplacePar s := sp.backwardInplacePar (s 0)
  toOrthoPar s := sp.toOrthoPar (s 0)
  fromOrthoInplacePar s := sp.fromOrthoInplacePar (s 0)
  gradientPar s a d c := sp.gradientPar (s 0) a (d 0) (c.map fun c => c 0)

/-- space2.rs:58-452: `impl BaseSpace<A, 2> for Space2`. -/
noncomputable def Space2.asTrait (sp : Space2 P I S S) : BaseSpace P S where
  dim := 2
  shapePhysical := sp.shapePhysical
  shapeSpectral := sp.shapeSpectral
  shapeSpectralOrtho := sp.shapeSpectralOrtho
  coords := sp.coords
  baseKind := sp.baseKind
  stencil := sp.stencil
  laplacian := sp.laplacian
  laplacianPinv := sp.laplacianPinv
  forward := sp.forward
  backward := sp.backward
  toOrtho := sp.toOrtho
  fromOrtho := sp.fromOrtho
  gradient a d c := sp.gradient a (d 0) (d 1) (c.map fun c => (c 0, c 1))
  forwardInplacePar s := sp.forwardInplacePar (s 0) (s 1)
  backwardInplacePar s := sp.backwardInplacePar (s 0) (s 1)
  toOrthoPar s := sp.toOrthoPar (s 0) (s 1)
  fromOrthoInplacePar s := sp.fromOrthoInplacePar (s 0) (s 1)
  gradientPar s a d c := sp.gradientPar (s 0) (s 1) a (d 0) (d 1) (c.map fun c => (c 0, c 1))

/-- space3.rs:64-512: `impl BaseSpace<A, 3> for Space3`. -/
noncomputable def Space3.asTrait (sp : Space3 P I J S S) : BaseSpace P S where
  dim := 3
  shapePhysical := sp.shapePhysical
  shapeSpectral := sp.shapeSpectral
  shapeSpectralOrtho := sp.shapeSpectralOrtho
  coords := sp.coords
  baseKind := sp.baseKind
  stencil := sp.stencil
  laplacian := sp.laplacian
  laplacianPinv := sp.laplacianPinv
  forward := sp.forward
  backward := sp.backward
  toOrtho := sp.toOrtho
  fromOrtho := sp.fromOrtho
  gradient a d c := sp.gradient a (d 0) (d 1) (d 2) (c.map fun c => (c 0, c 1, c 2))
  forwardInplacePar s := sp.forwardInplacePar (s 0) (s 1) (s 2)
  backwardInplacePar s := sp.backwardInplacePar (s 0) (s 1) (s 2)
  toOrthoPar s := sp.toOrthoPar (s 0) (s 1) (s 2)
  fromOrthoInplacePar s := sp.fromOrthoInplacePar (s 0) (s 1) (s 2)
  gradientPar s a d c :=
    sp.gradientPar (s 0) (s 1) (s 2) a (d 0) (d 1) (d 2) (c.map fun c => (c 0, c 1, c 2))

end

/-- field.rs:7-23 `FieldBase`. -/
structure FieldN (P S : Type) where
  ndim : ℕ
  space : BaseSpace P S
  v : Arr P
  vhat : Arr S
  x : List (List ℝ)
  dx : List (List ℝ)

namespace FieldN
variable {P S : Type} [Zero P] [Zero S]

/-- field.rs:81-103 `get_dx`: `Vec::try_into::<[_; N]>()` panics unless there are `N` axes. -/
noncomputable def getDx (dim : ℕ) (xs : List (List ℝ)) : Res (List (List ℝ)) := do
  let dx ← mapR getDxAxis xs
  assertR (dx.length = dim)
  pure dx

/-- field.rs:37-46 `new`.  `coords()` is called twice. -/
noncomputable def new (sp : BaseSpace P S) : Res (FieldN P S) := do
  let x ← sp.coords
  let x' ← sp.coords
  let dx ← getDx sp.dim x'
  pure ⟨sp.dim, sp, Arr.zeros sp.shapePhysical, Arr.zeros sp.shapeSpectral, x, dx⟩

variable (f : FieldN P S)

/-- field.rs:49-51 `forward`; `s` are the schedules of the parallel passes, by axis. -/
def forward (s : ℕ → List ℕ) : Res (FieldN P S) := do
  let vhat ← f.space.forwardInplacePar s f.v f.vhat
  pure { f with vhat := vhat }

/-- field.rs:54-56 `backward`. -/
def backward (s : ℕ → List ℕ) : Res (FieldN P S) := do
  let v ← f.space.backwardInplacePar s f.vhat f.v
  pure { f with v := v }

/-- field.rs:59-61 `to_ortho`. -/
def toOrtho (s : ℕ → List ℕ) : Res (Arr S) := f.space.toOrthoPar s f.vhat

/-- field.rs:64-69 `from_ortho`. -/
def fromOrtho (s : ℕ → List ℕ) (input : Arr S) : Res (FieldN P S) := do
  let vhat ← f.space.fromOrthoInplacePar s input f.vhat
  pure { f with vhat := vhat }

/-- field.rs:73-75 `gradient`. -/
def gradient (s : ℕ → List ℕ) (deriv : ℕ → ℕ) (scale : Option (ℕ → ℝ)) : Res (Arr S) :=
  f.space.gradientPar s f.vhat deriv scale

/-- field.rs:107-134 `ingredients_for_hholtz`.  The wildcard arm is unreachable. -/
noncomputable def ingredientsForHholtz (o : Mode) (axis : ℕ) :
    Res (Mat ℝ × Mat ℝ × Option (Mat ℝ)) := do
  let kind ← f.space.baseKind axis
  let sten ← f.space.stencil axis
  let lap ← f.space.laplacian o axis
  match kind with
  | .chebyshev => do
    let (pinv, peye) ← f.space.laplacianPinv o axis
    let tmp ← peye.dot pinv
    let pinv ← pinv.assign tmp
    let stenSliced ← sten.dropCols 2
    pure (← pinv.dot stenSliced, ← peye.dot stenSliced, some pinv)
  | .composite _ => do
    let (pinv, peye) ← f.space.laplacianPinv o axis
    let tmp ← peye.dot pinv
    let pinv ← pinv.assign tmp
    pure (← pinv.dot sten, ← peye.dot sten, some pinv)
  | .fourierR2c => pure (sten, lap, none)
  | .fourierC2c => pure (sten, lap, none)

/-- field.rs:137-160 `ingredients_for_poisson`. -/
noncomputable def ingredientsForPoisson (o : Mode) (axis : ℕ) :
    Res (Mat ℝ × Mat ℝ × Option (Mat ℝ) × Bool) := do
  let (a, b, p) ← f.ingredientsForHholtz o axis
  let kind ← f.space.baseKind axis
  let isDiag := match kind with
    | .chebyshev => false
    | .composite _ => false
    | .fourierR2c => true
    | .fourierC2c => true
  pure (a, b, p, isDiag)

end FieldN

/-- What a user does with a field of any dimension: assign the public arrays, or call a method that
changes it (field.rs:49-69). -/
inductive FieldCall (P S : Type) where
  | setV (a : Arr P)
  | setVhat (a : Arr S)
  | forward (s : ℕ → List ℕ)
  | backward (s : ℕ → List ℕ)
  | fromOrtho (s : ℕ → List ℕ) (a : Arr S)

/-- One step of a history (field.rs:49-69). -/
def FieldCall.run {P S : Type} [Zero P] [Zero S] (f : FieldN P S) :
    FieldCall P S → Res (FieldN P S)
  | .setV a => ok { f with v := a }
  | .setVhat a => ok { f with vhat := a }
  | .forward s => f.forward s
  | .backward s => f.backward s
  | .fromOrtho s a => f.fromOrtho s a

/-- A history of a field (field.rs:49-69). -/
def FieldN.runs {P S : Type} [Zero P] [Zero S] (f : FieldN P S)
    (ops : List (FieldCall P S)) : Res (FieldN P S) :=
  forList ops (fun op f => op.run f) f

end Verif
