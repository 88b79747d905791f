/-
Model of examples/field.rs: the two-dimensional field (`Field2`), which couples a space with its
arrays, and the matrices for Helmholtz and Poisson solvers.  The element type `T2` of the example is
both the spectral type of the space and the type of the coefficient operators.
-/
import Verif.Model.Spaces

namespace Verif
open Res

/-- `Array2::dot` (ndarray): panics unless the inner dimensions agree. -/
noncomputable def Mat.dot (a b : Mat ℝ) : Res (Mat ℝ) :=
  if a.cols = b.rows then
    ok ⟨a.rows, b.cols, fun i j => ∑ k ∈ Finset.range a.cols, a.get i k * b.get k j⟩
  else err .panic

/-- `a.assign(&b)` (ndarray): `b` is broadcast to the shape of `a` (an axis of length one is
repeated, other lengths must agree), otherwise panic. -/
def Mat.assign {K : Type} (a b : Mat K) : Res (Mat K) :=
  if (b.rows = a.rows ∨ b.rows = 1) ∧ (b.cols = a.cols ∨ b.cols = 1) then
    ok ⟨a.rows, a.cols, fun i j =>
      b.get (if b.rows = a.rows then i else 0) (if b.cols = a.cols then j else 0)⟩
  else err .panic

/-- `m.slice(s![.., k..])`: panics if `k` exceeds the number of columns. -/
def Mat.dropCols {K : Type} (m : Mat K) (k : ℕ) : Res (Mat K) :=
  if k ≤ m.cols then ok ⟨m.rows, m.cols - k, fun i j => m.get i (j + k)⟩ else err .panic

/-- field.rs:84-98, the loop of `get_dx` for one axis.  `x[i]` panics out of range, `x.len() - 1`
is only evaluated inside the loop. -/
noncomputable def getDxAxis (x : List ℝ) : Res (List ℝ) :=
  forRange 0 x.length (fun i dx => do
    let left ← (if i = 0 then rdC x 0 else do
      let a ← rdC x i
      let b ← rdC x (← i -! 1)
      divR (a + b) ((1 : ℝ) + 1))
    let last ← x.length -! 1
    let right ← (if i = last then rdC x last else do
      let a ← rdC x (i + 1)
      let b ← rdC x i
      divR (a + b) ((1 : ℝ) + 1))
    wrC dx i (right - left)) (List.replicate x.length 0)

/-- field.rs:81-103 `get_dx`. -/
noncomputable def getDx (xs : List (List ℝ)) : Res (List (List ℝ)) := mapR getDxAxis xs

/-- field.rs:7-23 `FieldBase` with `N = 2`. -/
structure Field2 (P I S : Type) where
  ndim : ℕ
  space : Space2 P I S S
  v : Arr P
  vhat : Arr S
  x : List (List ℝ)
  dx : List (List ℝ)

namespace Field2
section
variable {P I S : Type} [Zero P] [Zero I] [Zero S]

/-- field.rs:37-46 `new`.  `coords()` is called twice. -/
noncomputable def new (sp : Space2 P I S S) : Res (Field2 P I S) := do
  let x ← sp.coords
  let x' ← sp.coords
  let dx ← getDx x'
  pure ⟨2, sp, Arr.zeros sp.shapePhysical, Arr.zeros sp.shapeSpectral, x, dx⟩

variable (f : Field2 P I S)

/-- field.rs:49-51 `forward`; `s0`, `s1` are the schedules of the parallel passes. -/
def forward (s0 s1 : List ℕ) : Res (Field2 P I S) := do
  let vhat ← f.space.forwardInplacePar s0 s1 f.v f.vhat
  pure { f with vhat := vhat }

/-- field.rs:54-56 `backward`. -/
def backward (s0 s1 : List ℕ) : Res (Field2 P I S) := do
  let v ← f.space.backwardInplacePar s0 s1 f.vhat f.v
  pure { f with v := v }

/-- field.rs:59-61 `to_ortho`. -/
def toOrtho (s0 s1 : List ℕ) : Res (Arr S) := f.space.toOrthoPar s0 s1 f.vhat

/-- field.rs:64-69 `from_ortho`. -/
def fromOrtho (s0 s1 : List ℕ) (input : Arr S) : Res (Field2 P I S) := do
  let vhat ← f.space.fromOrthoInplacePar s0 s1 input f.vhat
  pure { f with vhat := vhat }

/-- field.rs:107-134 `ingredients_for_hholtz`.  The wildcard arm is unreachable. -/
noncomputable def ingredientsForHholtz (o : Mode) (axis : ℕ) :
    Res (Mat ℝ × Mat ℝ × Option (Mat ℝ)) := do
  let kind ← f.space.baseKind axis
  let sten ← f.space.stencil axis
  let lap ← f.space.laplacian o axis
  match kind with
  | .chebyshev => do
    let (pinv, peye) ← f.space.laplacianPinv o axis
    let tmp ← peye.dot pinv
    let pinv ← pinv.assign tmp
    let stenSliced ← sten.dropCols 2
    pure (← pinv.dot stenSliced, ← peye.dot stenSliced, some pinv)
  | .composite _ => do
    let (pinv, peye) ← f.space.laplacianPinv o axis
    let tmp ← peye.dot pinv
    let pinv ← pinv.assign tmp
    pure (← pinv.dot sten, ← peye.dot sten, some pinv)
  | .fourierR2c => pure (sten, lap, none)
  | .fourierC2c => pure (sten, lap, none)

/-- field.rs:137-160 `ingredients_for_poisson`. -/
noncomputable def ingredientsForPoisson (o : Mode) (axis : ℕ) :
    Res (Mat ℝ × Mat ℝ × Option (Mat ℝ) × Bool) := do
  let (a, b, p) ← f.ingredientsForHholtz o axis
  let kind ← f.space.baseKind axis
  let isDiag := match kind with
    | .chebyshev => false
    | .composite _ => false
    | .fourierR2c => true
    | .fourierC2c => true
  pure (a, b, p, isDiag)

end

section
variable {P I S : Type} [Zero P] [Zero I] [AddCommGroup S] [Module ℝ S] (f : Field2 P I S)

/-- field.rs:73-75 `gradient`. -/
noncomputable def gradient (s0 s1 : List ℕ) (d0 d1 : ℕ) (scale : Option (ℝ × ℝ)) : Res (Arr S) :=
  f.space.gradientPar s0 s1 f.vhat d0 d1 scale

end
end Field2

/-- What a user does with a field: assign the public arrays, or call a method that changes it. -/
inductive FieldOp (P S : Type) where
  | setV (a : Arr P)
  | setVhat (a : Arr S)
  | forward (s0 s1 : List ℕ)
  | backward (s0 s1 : List ℕ)
  | fromOrtho (s0 s1 : List ℕ) (a : Arr S)

/-- One step of a history. -/
def FieldOp.run {P I S : Type} [Zero P] [Zero I] [Zero S] (f : Field2 P I S) :
    FieldOp P S → Res (Field2 P I S)
  | .setV a => ok { f with v := a }
  | .setVhat a => ok { f with vhat := a }
  | .forward s0 s1 => f.forward s0 s1
  | .backward s0 s1 => f.backward s0 s1
  | .fromOrtho s0 s1 a => f.fromOrtho s0 s1 a

/-- A history of a field. -/
def Field2.runs {P I S : Type} [Zero P] [Zero I] [Zero S] (f : Field2 P I S)
    (ops : List (FieldOp P S)) : Res (Field2 P I S) :=
  forList ops (fun op f => op.run f) f

end Verif
