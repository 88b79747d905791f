/-
Specification of the multidimensional operators and of the round-trip laws of a base.
-/
import Verif.Spec.Arr
import Verif.Spec.Ops
import Verif.Model.Bases
import Verif.Spec.Sizes
import Verif.Spec.Fourier
import Mathlib.RingTheory.Polynomial.Chebyshev
import Mathlib.Analysis.Calculus.IteratedDeriv.Defs
import Mathlib.Analysis.RCLike.Basic

namespace Verif.Spec
open Res

/-- `r` arises from `a` by replacing every one-dimensional lane along `axis` by the result (of
length `m`) of running the slice operator `f` on it, into whatever output slice; the extents of
the other axes are unchanged. -/
def Lanewise {S T : Type} [Zero S] [Zero T] (f : List S → List T → Res (List T)) (m : ℕ)
    (a : Arr S) (axis : ℕ) (r : Arr T) : Prop :=
  r.shape = a.shape.set axis m ∧ r.WF ∧ r.std = true ∧
  ∀ idx, InBounds r.shape idx → ∀ out, out.length = m →
    f (laneAt a axis idx) out = ok (laneAt r axis idx)

section
variable {P S T A : Type}

/-- `forward(backward(v)) = v` for every coefficient vector `v` (and both run, whatever the output
slices contain). -/
def FwdBwd (b : Base P S T A) : Prop :=
  ∃ φ β, Computes b.forwardSlice b.lenPhys b.lenSpec φ ∧
    Computes b.backwardSlice b.lenSpec b.lenPhys β ∧
    ∀ v, v.length = b.lenSpec → φ (β v) = v

/-- `backward(forward(x)) = x` for every vector `x` of grid values. -/
def BwdFwd (b : Base P S T A) : Prop :=
  ∃ φ β, Computes b.forwardSlice b.lenPhys b.lenSpec φ ∧
    Computes b.backwardSlice b.lenSpec b.lenPhys β ∧
    ∀ x, x.length = b.lenPhys → β (φ x) = x

/-- `from_ortho(to_ortho(v)) = v` for every coefficient vector `v`. -/
def FromTo (b : Base P S T A) : Prop :=
  ∃ φ τ, Computes b.fromOrthoSlice b.lenOrth b.lenSpec φ ∧
    Computes b.toOrthoSlice b.lenSpec b.lenOrth τ ∧
    ∀ v, v.length = b.lenSpec → φ (τ v) = v

end

/-- An array as the operators accept it: consistent, of the given shape, in standard layout. -/
def Good {T : Type} (a : Arr T) (sh : List ℕ) : Prop := a.WF ∧ a.std = true ∧ a.shape = sh

end Verif.Spec

namespace Verif.Spec
open Res

/-- The public constructors of real-to-real bases: `chebyshev(n)` for `none`, otherwise
`cheb_dirichlet(n)`, …, `cheb_biharmonic_b(n)`. -/
def newR2r (k : Option CKind) (n : ℕ) (A : Type := ℝ) [Zero A] [One A] [Neg A] [Add A] [Sub A] [Mul A]
    [Div A] [NatCast A] [Pow A ℕ] [DivBy A A] : Res (BaseR2r A) :=
  k.elim (chebyshev n A) (fun k => chebComposite k n A)

/-- Bases whose expansion `to_ortho` runs: all but the biharmonic ones. -/
def RunsMul : Option CKind → Prop
  | none => True
  | some k => k = .dirichlet ∨ k = .neumann ∨ k = .dirichletNeumann

/-- Bases and sizes on which the projection `from_ortho` runs. -/
def RunsSolve : Option CKind → ℕ → Prop
  | none, _ => True
  | some k, n => k.minSolve ≤ n

/-- Bases and sizes on which `gradient` runs. -/
def RunsGrad : Option CKind → ℕ → Prop
  | none, n => 3 ≤ n
  | some k, _ => RunsMul (some k)

end Verif.Spec

namespace Verif.Spec
open Res

section Methods
variable {S T : Type} [Zero S] [Zero T]

/-- An inplace method `(input, output, axis)` of a base. -/
abbrev Method (S T : Type) := Arr S → Arr T → ℕ → Res (Arr T)

/-- The arrays fit a method that maps lanes of length `l1` to lanes of length `l2`: both are in
standard layout, `axis` exists, the extents along `axis` are `l1` and `l2`, the others agree. -/
def Fits (l1 l2 : ℕ) (a : Arr S) (out : Arr T) (axis : ℕ) : Prop :=
  a.std = true ∧ out.std = true ∧ axis < a.shape.length ∧ axis < out.shape.length ∧
  a.shape.getD axis 0 = l1 ∧ out.shape.getD axis 0 = l2 ∧
  a.shape.eraseIdx axis = out.shape.eraseIdx axis

/-- The method runs the slice operator `f` on every lane of every fitting array. -/
def ActsLanewise (M : Method S T) (f : List S → List T → Res (List T)) (l1 l2 : ℕ) : Prop :=
  ∀ a out axis, out.WF → Fits l1 l2 a out axis → ∃ r, M a out axis = ok r ∧ Lanewise f l2 a axis r

/-- The result does not depend on what the output array contained. -/
def IgnoresOutput (M : Method S T) : Prop :=
  ∀ a out out' axis, out.WF → out'.WF → out.shape = out'.shape → out.std = out'.std →
    M a out axis = M a out' axis

/-- Whatever the schedule of the lane tasks, the parallel method (given as a function of the
schedule) returns exactly what the serial method returns. -/
def ScheduleIndependent (par : List ℕ → Method S T) (M : Method S T) : Prop :=
  ∀ a out axis sched, out.WF → FairSchedule out.shape axis sched →
    par sched a out axis = M a out axis

/-- The method panics on every pair of arrays that does not fit. -/
def Rejects (M : Method S T) (l1 l2 : ℕ) : Prop :=
  ∀ a out axis, ¬ Fits l1 l2 a out axis → M a out axis = err .panic

/-- Whatever the schedules and the content of the output, the method and its parallel variant replace every
lane of every fitting array by the result of the slice operator, and panic on arrays that do not fit. -/
structure Lanes (M : Method S T) (par : List ℕ → Method S T)
    (f : List S → List T → Res (List T)) (l1 l2 : ℕ) : Prop where
  lanewise : ActsLanewise M f l1 l2
  output : IgnoresOutput M
  schedule : ScheduleIndependent par M
  rejects : Rejects M l1 l2
  rejects_par : ∀ sched, Rejects (par sched) l1 l2

end Methods

end Verif.Spec

namespace Verif.Spec
open Res Finset

section Functions
variable {P S T R : Type}

/-- `gradient(·, d)` of base `b` returns the coefficients, with respect to the functions `e k`, of
the `d`-th derivative of the function with coefficients `v` with respect to the functions `φ i`. -/
def Differentiates [RCLike R] [AddCommGroup T] [Module R T] (b : Base P S T A) (d : ℕ)
    (e φ : ℕ → ℝ → R) : Prop :=
  ∃ g, Computes (fun v out => b.gradientSlice v out d) b.lenSpec b.lenOrth g ∧
    ∀ v, v.length = b.lenSpec → ∀ x : ℝ,
      ∑ k ∈ range b.lenOrth, e k x • nth (g v) k
        = ∑ i ∈ range b.lenSpec, iteratedDeriv d (φ i) x • nth v i

/-- `backward(v)` returns the values at the grid points `coords()` of the function
`x ↦ ∑ᵢ E i x vᵢ`. -/
def Evaluates [Zero S] [AddCommMonoid P] (b : Base P S T) (E : ℕ → ℝ → S → P) : Prop :=
  ∃ x β, b.coords = ok x ∧ x.length = b.lenPhys ∧
    Computes b.backwardSlice b.lenSpec b.lenPhys β ∧
    ∀ v, v.length = b.lenSpec → ∀ j < b.lenPhys,
      nth (β v) j = ∑ i ∈ range b.lenSpec, E i (nth x j) (nth v i)

end Functions

/-- The divisor of `gradient` for a one-dimensional space. -/
noncomputable def scale1 (d0 : ℕ) : Option ℝ → ℝ
  | none => 1
  | some c0 => c0 ^ d0

/-- The divisor of `gradient` for a two-dimensional space: `scale₀^d₀ · scale₁^d₁`. -/
noncomputable def scale2 (d0 d1 : ℕ) : Option (ℝ × ℝ) → ℝ
  | none => 1
  | some (c0, c1) => c0 ^ d0 * c1 ^ d1

/-- The divisor of `gradient` for a three-dimensional space. -/
noncomputable def scale3 (d0 d1 d2 : ℕ) : Option (ℝ × ℝ × ℝ) → ℝ
  | none => 1
  | some (c0, c1, c2) => c0 ^ d0 * c1 ^ d1 * c2 ^ d2

end Verif.Spec

namespace Verif.Spec
open Res

/-- `b` is one of the real-to-real bases made by the public constructors on which both `to_ortho`
and `from_ortho` run (Chebyshev, Dirichlet, Neumann, Dirichlet-Neumann of admissible size). -/
def IsR2r {T : Type} [AddCommGroup T] [Module ℝ T] (b : Base ℝ ℝ T) : Prop :=
  ∃ k n b0, newR2r k n = ok b0 ∧ RunsMul k ∧ RunsSolve k n ∧ b = b0.toBase T

/-- `b` is the base made by `chebyshev(n)`. -/
def IsCheb {T : Type} [AddCommGroup T] [Module ℝ T] (n : ℕ) (b : Base ℝ ℝ T) : Prop :=
  ∃ b0, chebyshev n = ok b0 ∧ b = b0.toBase T

/-- `b` is the base made by `fourier_r2c(n)`, `n ≥ 1`. -/
def IsR2c (n : ℕ) (b : Base ℝ ℂ ℂ) : Prop := 1 ≤ n ∧ ∃ b0, fourierR2c n = ok b0 ∧ b = b0.toBase

/-- `b` is the base made by `fourier_c2c(n)`, `n ≥ 1`. -/
def IsC2c (n : ℕ) (b : Base ℂ ℂ ℂ) : Prop := 1 ≤ n ∧ ∃ b0, fourierC2c n = ok b0 ∧ b = b0.toBase

end Verif.Spec

namespace Verif.Spec
open Res

/-- Along axis `ax`, the mean coefficient (entry 0) and, for even `n`, the Nyquist coefficient
(entry `n/2`) of every lane of `u` are real. -/
def RealModes (n ax : ℕ) (u : Arr ℂ) : Prop :=
  ∀ idx, InBounds u.shape idx →
    (at_ u (idx.set ax 0)).im = 0 ∧ (n % 2 = 0 → (at_ u (idx.set ax (n / 2))).im = 0)

end Verif.Spec

namespace Verif.Spec
open Finset

/-- Chebyshev polynomial `T_k` as a function. -/
noncomputable def chebFn (k : ℕ) (x : ℝ) : ℝ := (Polynomial.Chebyshev.T ℝ k).eval x

/-- The `i`-th function of a composite basis: `∑ₖ Sₖᵢ T_k`, with `S` the matrix `stencil()`. -/
noncomputable def stencilFn (S : Mat ℝ) (i : ℕ) (x : ℝ) : ℝ :=
  ∑ k ∈ range S.rows, S.get k i * chebFn k x

/-- `exp(i k x)` -/
noncomputable def expFn (k : ℕ) (x : ℝ) : ℂ := Complex.exp (Complex.I * k * x)

/-- Contribution at `x` of entry `k` with coefficient `c` of a real-to-complex Fourier series of
`n` points: `(1/n) w_k Re(c exp(i k x))`, `w_k = 1` for the mean and Nyquist entries, else 2. -/
noncomputable def r2cTerm (n : ℕ) (k : ℕ) (x : ℝ) (c : ℂ) : ℝ :=
  (1 / n) * ((if k = 0 ∨ 2 * k = n then 1 else 2) * (c * expFn k x).re)

/-- Contribution at `x` of entry `k` with coefficient `c` of a complex Fourier series of `n`
points in FFT order: `(1/n) c exp(i K_k x)`. -/
noncomputable def c2cTerm (n : ℕ) (k : ℕ) (x : ℝ) (c : ℂ) : ℂ :=
  (1 / n) * (c * Complex.exp (Complex.I * freq n k * x))

end Verif.Spec

namespace Verif.Spec
open Res Finset

/-- The slice operators of the base run on inputs of the right length (and their result does not
depend on the output slice). -/
structure Runs {P S T A : Type} (b : Base P S T A) : Prop where
  forward : ∃ g, Computes b.forwardSlice b.lenPhys b.lenSpec g
  backward : ∃ g, Computes b.backwardSlice b.lenSpec b.lenPhys g
  toOrtho : ∃ g, Computes b.toOrthoSlice b.lenSpec b.lenOrth g
  fromOrtho : ∃ g, Computes b.fromOrthoSlice b.lenOrth b.lenSpec g

/-- `gradient(·, d)` of the base runs. -/
def RunsGradient {P S T A : Type} (b : Base P S T A) (d : ℕ) : Prop :=
  ∃ g, Computes (fun v out => b.gradientSlice v out d) b.lenSpec b.lenOrth g

/-- Apply the operators `step i` along the axes `i` in the given order. -/
def inOrder {T : Type} (step : ℕ → Arr T → Res (Arr T)) : List ℕ → Arr T → Res (Arr T)
  | [], a => ok a
  | i :: is, a => step i a >>= inOrder step is

/-- `to_ortho(v) = S v` with `S` the matrix `stencil()`. -/
def ExpandsBy {P S' T : Type} [AddCommGroup T] [Module ℝ T] (b : Base P S' T) (S : Mat ℝ) : Prop :=
  b.stencil = ok S ∧ S.rows = b.lenOrth ∧ S.cols = b.lenSpec ∧
    ∃ g, Computes b.toOrthoSlice b.lenSpec b.lenOrth g ∧
      ∀ v, v.length = b.lenSpec → ∀ k < b.lenOrth,
        nth (g v) k = ∑ i ∈ range b.lenSpec, S.get k i • nth v i

/-- `r = from_ortho(a)` solves the normal equations `SᵀS r = Sᵀ a` of the matrix `stencil()`. -/
def ProjectsBy {P S' T : Type} [AddCommGroup T] [Module ℝ T] (b : Base P S' T) (S : Mat ℝ) : Prop :=
  b.stencil = ok S ∧ S.rows = b.lenOrth ∧ S.cols = b.lenSpec ∧
    ∃ g, Computes b.fromOrthoSlice b.lenOrth b.lenSpec g ∧
      ∀ a, a.length = b.lenOrth → ∀ k < b.lenSpec,
        ∑ i ∈ range b.lenSpec, (∑ l ∈ range b.lenOrth, S.get l k * S.get l i) • nth (g a) i
          = ∑ l ∈ range b.lenOrth, S.get l k • nth a l

end Verif.Spec
