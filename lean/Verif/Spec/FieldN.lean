/-
Specification for fields of any dimension (C105): which spaces are meant, which calls are allowed,
and what a history of calls means.
-/
import Verif.Model.FieldN
import Verif.Spec.Space

namespace Verif.Spec
open Res

/-- The one-, two- and three-dimensional spaces over bases whose operations succeed on slices of the
right lengths. -/
inductive Running {P S : Type} [Zero P] [AddCommGroup S] [Module ℝ S] : BaseSpace P S → Prop
  | one (sp : Space1 P S S) : Runs sp.base0 → Running sp.asTrait
  | two {I : Type} [Zero I] (sp : Space2 P I S S) : Runs sp.base0 → Runs sp.base1 → Running sp.asTrait
  | three {I J : Type} [Zero I] [Zero J] (sp : Space3 P I J S S) :
      Runs sp.base0 → Runs sp.base1 → Runs sp.base2 → Running sp.asTrait

/-- Spaces of any dimension over bases with `backward(forward(x)) = x` (Chebyshev and Fourier bases). -/
inductive Restoring {P S : Type} [Zero P] [AddCommGroup S] [Module ℝ S] : BaseSpace P S → Prop
  | one (sp : Space1 P S S) : BwdFwd sp.base0 → Restoring sp.asTrait
  | two {I : Type} [Zero I] (sp : Space2 P I S S) : BwdFwd sp.base0 → BwdFwd sp.base1 →
      Restoring sp.asTrait
  | three {I J : Type} [Zero I] [Zero J] (sp : Space3 P I J S S) :
      BwdFwd sp.base0 → BwdFwd sp.base1 → BwdFwd sp.base2 → Restoring sp.asTrait

/-- Spaces of any dimension whose bases can be differentiated `d k` times along axis `k`.  In three
dimensions the code differentiates the last axis with the middle base (see C40). -/
inductive Differentiable {P S : Type} [Zero P] [AddCommGroup S] [Module ℝ S] (d : ℕ → ℕ) :
    BaseSpace P S → Prop
  | one (sp : Space1 P S S) : RunsGradient sp.base0 (d 0) → Differentiable d sp.asTrait
  | two {I : Type} [Zero I] (sp : Space2 P I S S) : RunsGradient sp.base0 (d 0) →
      RunsGradient sp.base1 (d 1) → Differentiable d sp.asTrait
  | three {I J : Type} [Zero I] [Zero J] (sp : Space3 P I J S S) :
      RunsGradient sp.base0 (d 0) → RunsGradient sp.base1 (d 1) → RunsGradient sp.base1 (d 2) →
      sp.base2.lenSpec = sp.base1.lenSpec → sp.base2.lenOrth = sp.base1.lenOrth →
      Differentiable d sp.asTrait

/-- The base `b` answers for an axis of a space. -/
structure AxisBase {P S Q R T : Type} (sp : BaseSpace P S) (axis : ℕ) (b : Base Q R T) : Prop where
  kind : sp.baseKind axis = ok b.baseKind
  stencil : sp.stencil axis = b.stencil
  laplacian : ∀ o, sp.laplacian o axis = b.laplacian o
  pinv : ∀ o, sp.laplacianPinv o axis = b.laplacianPinv o

/-- The shape of the intermediate array after the axes before `k` have length as in `a`, the others as
in `b`. -/
def mix (a b : List ℕ) (k : ℕ) : List ℕ := a.take k ++ b.drop k

variable {P S : Type}

/-- A call a user may make: arrays of the shapes of the space, schedules that let every lane task of
every pass finish.  `forward` works from the last axis to the first, the others from the first to the
last. -/
def Allowed (sp : BaseSpace P S) : FieldCall P S → Prop
  | .setV a => Good a sp.shapePhysical
  | .setVhat a => Good a sp.shapeSpectral
  | .forward s => ∀ k < sp.dim, FairSchedule (mix sp.shapePhysical sp.shapeSpectral k) k (s k)
  | .backward s => ∀ k < sp.dim, FairSchedule (mix sp.shapePhysical sp.shapeSpectral (k + 1)) k (s k)
  | .fromOrtho s a => Good a sp.shapeSpectralOrtho ∧
      ∀ k < sp.dim, FairSchedule (mix sp.shapeSpectral sp.shapeSpectralOrtho (k + 1)) k (s k)

/-- What a call does to the pair `(v, vhat)`: the serial operations of the space, no schedules. -/
def CallMeans (sp : BaseSpace P S) (s t : Arr P × Arr S) : FieldCall P S → Prop
  | .setV a => t = (a, s.2)
  | .setVhat a => t = (s.1, a)
  | .forward _ => t.1 = s.1 ∧ sp.forward s.1 = ok t.2
  | .backward _ => t.2 = s.2 ∧ sp.backward s.2 = ok t.1
  | .fromOrtho _ a => t.1 = s.1 ∧ sp.fromOrtho a = ok t.2

/-- A history of serial operations. -/
inductive CallsMean (sp : BaseSpace P S) : List (FieldCall P S) → Arr P × Arr S → Arr P × Arr S → Prop
  | nil (s) : CallsMean sp [] s s
  | cons {op ops s t u} : CallMeans sp s t op → CallsMean sp ops t u → CallsMean sp (op :: ops) s u

/-- The arrays of a field have the shapes of its space. -/
structure InShape (f : FieldN P S) : Prop where
  v : Good f.v f.space.shapePhysical
  vhat : Good f.vhat f.space.shapeSpectral

/-- The same call up to schedules. -/
def SameOp : FieldCall P S → FieldCall P S → Prop
  | .setV a, .setV b => a = b
  | .setVhat a, .setVhat b => a = b
  | .forward _, .forward _ => True
  | .backward _, .backward _ => True
  | .fromOrtho _ a, .fromOrtho _ b => a = b
  | _, _ => False

end Verif.Spec
