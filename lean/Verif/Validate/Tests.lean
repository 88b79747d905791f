/-
Validation of the model (no theorems here): the repository's own unit tests and documentation examples, replayed on
the model with Lean's `Float` for `f64`.  Each `#eval` is silent when the test passes and is an error, failing the
build, when it does not.  The tests are copied from /repo/src with the same inputs, expected values and tolerances;
the Fourier and cosine transforms (external crates) are the sums of Spec/FloatArith.
This is testing, not proof: it guards against a mistake in transcribing the code into the model.
-/
import Verif.Spec.FloatArith
import Verif.Model.Spaces
import Verif.Model.Pdma2

namespace Verif.Validate
open Verif Spec Res

/-- a test of the model: passes when it returns, fails when the code panics or reads out of bounds -/
def run (name : String) (t : Res Bool) : IO Unit :=
  match t with
  | .ok true => pure ()
  | .ok false => throw (IO.userError s!"{name}: wrong values")
  | .err _ => throw (IO.userError s!"{name}: the model fails")

/-- utils.rs:14-30: `|a - b| < 1e-3` for all entries (both lists have the same length here) -/
def close (r e : List Float) (tol : Float := 1e-3) : Bool :=
  r.length == e.length && (r.zip e).all (fun p => Float.abs (p.1 - p.2) < tol)

/-- both parts of all entries are close -/
def closeC (r e : List FloatC) : Bool := close (r.map (·.re)) (e.map (·.re)) && close (r.map (·.im)) (e.map (·.im))

/-- `(0..n).map(|x| x as f64)` -/
def upTo (n : ℕ) : List Float := (List.range n).map Float.ofNat

def zeros (n : ℕ) : List Float := List.replicate n 0.0
def zerosC (n : ℕ) : List FloatC := List.replicate n 0

def dirichlet (n : ℕ) : Res (Compo Float) := Compo.new .dirichlet n

/-! ### chebyshev/compo.rs -/

/-- compo.rs:301-314 -/
def test_cheb_dirichlet_transform : Res Bool := do
  let ch ← dirichlet 6
  let v ← ch.forwardSlice (upTo ch.lenPhys) (zeros ch.lenSpec)
  let w ← ch.backwardSlice v (upTo ch.lenPhys)
  pure (close v [1.666666, 1.2610938576665822, 0.8333334, 0.7333334] &&
    close w [0.0, 0.166666, 2.0, 2.166666, 4.0, 0.0])

/-- compo.rs:316-343 -/
def test_cheb_dirichlet_neumann_transform : Res Bool := do
  let ch : Compo Float ← Compo.new .dirichletNeumann 6
  let v ← ch.forwardSlice (upTo ch.lenPhys) (zeros ch.lenSpec)
  let w ← ch.backwardSlice v (upTo ch.lenPhys)
  pure (close v [2.480497656739244, 0.12173047156497377, 0.37048237944528406, 0.12385458652875704] &&
    close w [0.0, 0.8809270232753428, 2.107806302104389, 2.846040171074075, 4.282240563110729, 4.570948448263369])

/-- compo.rs:345-359 -/
def test_cheb_biharmonic_a_transform : Res Bool := do
  let ch : Compo Float ← Compo.new .biharmonicA 14
  let v ← ch.forwardSlice (upTo 14) (zeros 10)
  pure (close v [4.56547619, 3.33647046, 4.23015873, 3.78717098, 3.62142857, 3.31016028, 2.43197279,
    2.21938133, 1.04034392, 0.9391508])

/-- compo.rs:361-375 -/
def test_cheb_biharmonic_b_transform : Res Bool := do
  let ch : Compo Float ← Compo.new .biharmonicB 14
  let v ← ch.forwardSlice (upTo 14) (zeros 10)
  pure (close v [5.08540138, 3.86188728, 3.9395884, 3.57256415, 3.16060956, 2.96883245, 2.14734963,
    2.0152583, 0.96481296, 0.89163043])

/-- compo.rs:377-415 -/
def test_cheb_dirichlet_to_ortho : Res Bool := do
  let c0 ← chebComposite .dirichlet 5 Float
  let a ← (c0.toBase Float).toOrthoInplace ⟨[3, 4], upTo 12, true⟩ ⟨[5, 4], zeros 20, true⟩ 0
  let c1 ← chebComposite .dirichlet 4 Float
  let b ← (c1.toBase Float).toOrthoInplace ⟨[5, 2], upTo 10, true⟩ a 1
  pure (a.shape == [5, 4] && close a.data [0, 1, 2, 3, 4, 5, 6, 7, 8, 8, 8, 8, -4, -5, -6, -7, -8, -9, -10, -11] &&
    b.shape == [5, 4] && close b.data [0, 1, 0, -1, 2, 3, -2, -3, 4, 5, -4, -5, 6, 7, -6, -7, 8, 9, -8, -9])

/-- compo.rs:417-429 -/
def test_chebdirichlet_differentiate : Res Bool := do
  let ch ← dirichlet 6
  let v ← ch.forwardSlice (upTo 6) (zeros ch.lenSpec)
  let d ← ch.gradientSlice v (zeros ch.lenOrth) 2
  pure (close d [-30.0, -100.66625258399796, -40.0, -58.6666, 0.0, 0.0])

/-- compo.rs:431-470 -/
def test_chebdirichlet_differentiate_2d : Res Bool := do
  let c0 ← chebComposite .dirichlet 8 Float
  let a ← (c0.toBase Float).gradient ⟨[6, 4], upTo 24, true⟩ 2 0
  let c1 ← chebComposite .dirichlet 6 Float
  let b ← (c1.toBase Float).gradient ⟨[6, 4], upTo 24, true⟩ 2 1
  pure (a.shape == [8, 4] && b.shape == [6, 6] &&
    close a.data [
      -1440.0, -1548.0, -1656.0, -1764.0,
      -5568.0, -5904.0, -6240.0, -6576.0,
      -2688.0, -2880.0, -3072.0, -3264.0,
      -4960.0, -5240.0, -5520.0, -5800.0,
      -1920.0, -2040.0, -2160.0, -2280.0,
      -3360.0, -3528.0, -3696.0, -3864.0,
      0.0, 0.0, 0.0, 0.0,
      0.0, 0.0, 0.0, 0.0] &&
    close b.data [
      -56.0, -312.0, -96.0, -240.0, 0.0, 0.0,
      -184.0, -792.0, -288.0, -560.0, 0.0, 0.0,
      -312.0, -1272.0, -480.0, -880.0, 0.0, 0.0,
      -440.0, -1752.0, -672.0, -1200.0, 0.0, 0.0,
      -568.0, -2232.0, -864.0, -1520.0, 0.0, 0.0,
      -696.0, -2712.0, -1056.0, -1840.0, 0.0, 0.0])

/-! ### chebyshev/linalg -/

/-- `c * (1..k+1)` -/
def times (c : Float) (k : ℕ) : List Float := (List.range k).map (fun x => c * Float.ofNat (x + 1))

/-- `A x`, with the diagonals of `A` given with their offsets below the main diagonal -/
def mulDiags (n : ℕ) (low up : List (ℕ × List Float)) (x : List Float) : List Float :=
  (List.range n).map (fun i =>
    sumTo 0.0 low.length (fun p => match low[p]? with
      | some (o, d) => if o ≤ i then nth d (i - o) * nth x (i - o) else 0.0
      | none => 0.0) +
    sumTo 0.0 up.length (fun p => match up[p]? with
      | some (o, d) => if i + o < n then nth d i * nth x (i + o) else 0.0
      | none => 0.0))

/-- tdma.rs:133-171 -/
def test_tdma : Res Bool := do
  let b := times 1.0 6
  let (l2, d0, u2) := (times 1.5 4, times 1.0 6, times (-0.5) 4)
  let x ← tdma l2 d0 u2 b
  let y ← tdmaChecked l2 d0 u2 b
  let A := mulDiags 6 [(0, d0), (2, l2)] [(2, u2)]
  pure (close (A x) b 1e-6 && close (A y) b 1e-6)

/-- pdma.rs:200-246 -/
def test_pdma : Res Bool := do
  let b := times 1.0 8
  let (l2, l1, d0, u1, u2) := (times 1.5 6, times (-2.5) 7, times 1.0 8, times 3.5 7, times (-0.5) 6)
  let x ← pdma l2 l1 d0 u1 u2 b
  let y ← pdmaChecked l2 l1 d0 u1 u2 b
  let A := mulDiags 8 [(0, d0), (1, l1), (2, l2)] [(1, u1), (2, u2)]
  pure (close (A x) b 1e-6 && close (A y) b 1e-6)

/-- pdma2.rs:275-321 -/
def test_pdma2 : Res Bool := do
  let b := times 1.0 8
  let (l4, l2, d0, u2, u4) := (times 1.5 4, times (-2.5) 6, times 1.0 8, times 3.5 6, times (-0.5) 4)
  let x ← pdma2 l4 l2 d0 u2 u4 b
  let y ← pdma2Checked l4 l2 d0 u2 u4 b
  let A := mulDiags 8 [(0, d0), (2, l2), (4, l4)] [(2, u2), (4, u4)]
  pure (close (A x) b 1e-6 && close (A y) b 1e-6)

/-! ### chebyshev/stencils.rs -/

/-- the matrix as an array of rows -/
def rows (m : Mat Float) : Array (Array Float) :=
  (Array.range m.rows).map (fun i => (Array.range m.cols).map (fun j => m.get i j))

/-- the matrix product -/
def dot (a b : Array (Array Float)) : Array (Array Float) :=
  a.map (fun r => (Array.range (b[0]!.size)).map (fun j =>
    (Array.range r.size).foldl (fun s k => s + r[k]! * (b[k]!)[j]!) 0.0))

/-- stencils.rs:472-482: the matrix is the identity up to `1e-6` -/
def isEye (a : Array (Array Float)) : Bool :=
  (List.range a.size).all (fun i => a[i]!.size == a.size && (List.range a.size).all (fun j =>
    Float.abs ((if i = j then 1.0 else 0.0) - (a[i]!)[j]!) < 1e-6))

/-- stencils.rs:465-523 -/
def test_stencil_pinv (s : Res (Stencils Float)) : Res Bool := do
  let s ← s
  pure (isEye (dot (rows (← s.pinv)) (rows (← s.toArray))))

/-! ### chebyshev/ortho.rs -/

/-- ortho.rs:481-488 -/
def test_chebyshev_transform_1 : Res Bool := do
  let ch ← Cheb.new 4
  let v ← ch.forwardSlice [1.0, 2.0, 3.0, 4.0] (zeros 4)
  pure (close v [2.5, 1.33333333, 0.0, 0.16666667])

/-- ortho.rs:490-505 -/
def test_chebyshev_pinv (o : Mode) : Res Bool := do
  let n := 27
  let ch ← Cheb.new n
  let (b2, _) ← ch.diffmatPinv Float o 2
  let (b4, _) ← ch.diffmatPinv Float o 4
  let b2 := rows b2
  let b4 := rows b4
  let sq := dot b2 b2
  pure ((List.range n).all (fun i => (List.range n).all (fun j =>
    Float.abs ((if i < 4 ∨ n - 4 ≤ j then 0.0 else (sq[i]!)[j]!) - (b4[i]!)[j]!) < 1e-6)))

/-- ortho.rs:385-396 (documentation) -/
def doc_chebyshev_gradient : Res Bool := do
  let ch ← Cheb.new 4
  let v ← ch.gradientSlice Float [1.0, 2.0, 3.0, 4.0] (zeros 4) 2
  pure (close v [12.0, 96.0, 0.0, 0.0])

/-! ### fourier (documentation) -/

/-- `x.powi(2)` -/
def sq (x : FloatC) : FloatC := x * x

/-- r2c.rs:203-215 -/
def doc_r2c_gradient : Res Bool := do
  let fo ← R2c.new 5
  let k : List FloatC := R2c.wavenumber 5 FloatC (A := Float)
  let v ← fo.gradientSlice (A := Float) k (zerosC 3) 1
  pure (closeC v (k.map sq))

/-- r2c.rs:262-278 -/
def doc_r2c_forward : Res Bool := do
  let fo ← R2c.new 4
  let v ← fo.forwardSlice (C := FloatC) [1.0, 2.0, 3.0, 4.0] (zerosC 3)
  pure (closeC v [⟨10, 0⟩, ⟨-2, 2⟩, ⟨-2, 0⟩])

/-- r2c.rs:293-309 -/
def doc_r2c_backward : Res Bool := do
  let fo ← R2c.new 4
  let v ← fo.backwardSlice (C := FloatC) [⟨10, 0⟩, ⟨-2, 2⟩, ⟨-2, 0⟩] (zeros 4)
  pure (close v [1.0, 2.0, 3.0, 4.0])

/-- c2c.rs:210-222.  The comparison there, utils.rs:32-50, passes an entry when the real parts OR the imaginary parts
are close; the derivative of the code is in fact wrong (C26), which that comparison hides. -/
def doc_c2c_gradient (strict : Bool) : Res Bool := do
  let fo ← C2c.new 5
  let k : List FloatC ← C2c.wavenumber 5 FloatC (A := Float)
  let v ← fo.gradientSlice (A := Float) k (zerosC 5) 1
  let e := k.map sq
  pure (if strict then closeC v e else
    (v.zip e).all (fun p => Float.abs (p.1.re - p.2.re) < 1e-3 || Float.abs (p.1.im - p.2.im) < 1e-3))

def c2cIn : List FloatC := [⟨1, 1⟩, ⟨2, 2⟩, ⟨3, 3⟩, ⟨4, 4⟩]
def c2cOut : List FloatC := [⟨10, 10⟩, ⟨-4, 0⟩, ⟨-2, -2⟩, ⟨0, -4⟩]

/-- c2c.rs:275-297 -/
def doc_c2c_forward : Res Bool := do
  let fo ← C2c.new 4
  pure (closeC (← fo.forwardSlice (A := Float) c2cIn (zerosC 4)) c2cOut)

/-- c2c.rs:311-333 -/
def doc_c2c_backward : Res Bool := do
  let fo ← C2c.new 4
  pure (closeC (← fo.backwardSlice (A := Float) c2cOut (zerosC 4)) c2cIn)

/-! ### lib.rs, utils.rs (documentation) -/

/-- lib.rs:47-78 -/
def doc_lib_gradient : Res Bool := do
  let fo ← fourierR2c 8 Float FloatC
  let x ← fo.toBase.coords
  let vhat ← fo.toBase.forward ⟨[x.length], x.map (fun x => Float.sin (2.0 * x)), true⟩ 0
  let dvhat ← fo.toBase.gradient vhat 2 0
  let dv ← fo.toBase.backward dvhat 0
  pure (close dv.data (x.map (fun x => -4.0 * Float.sin (2.0 * x))) 1e-5)

/-- lib.rs:105-132 -/
def doc_lib_ortho : Res Bool := do
  let ch ← chebyshev 8 Float
  let cd ← chebComposite .dirichlet 8 Float
  let x ← (ch.toBase Float).coords
  let v : Arr Float := ⟨[x.length], x.map (fun x => Float.cos (floatPi / 2.0 * x)), true⟩
  let a ← (ch.toBase Float).forward v 0
  let b ← (cd.toBase Float).forward v 0
  let c ← (cd.toBase Float).toOrtho b 0
  pure (close a.data c.data 1e-5)

/-- utils.rs:88-96 -/
def doc_resized : Res Bool := do
  let r ← arrayResizedAxis Float (Arr.zeros (T := Float) [5, 3]) 2 1
  pure (r.shape == [5, 2] && close r.data (zeros 10) 1e-300)

#eval run "dirichlet transform" test_cheb_dirichlet_transform
#eval run "dirichlet neumann transform" test_cheb_dirichlet_neumann_transform
#eval run "biharmonic a transform" test_cheb_biharmonic_a_transform
#eval run "biharmonic b transform" test_cheb_biharmonic_b_transform
#eval run "dirichlet to_ortho" test_cheb_dirichlet_to_ortho
#eval run "dirichlet differentiate" test_chebdirichlet_differentiate
#eval run "dirichlet differentiate 2d" test_chebdirichlet_differentiate_2d
#eval run "tdma" test_tdma
#eval run "pdma" test_pdma
#eval run "pdma2" test_pdma2
#eval run "pinv neumann" (test_stencil_pinv (do pure (.neumann (← neumannNew 42))))
#eval run "pinv dirichlet neumann" (test_stencil_pinv (do pure (.dirichletNeumann (← dirichletNeumannNew 57))))
#eval run "pinv biharmonic a" (test_stencil_pinv (do pure (.biharmonicA (← biharmonicANew 28))))
#eval run "chebyshev transform" test_chebyshev_transform_1
#eval run "chebyshev pinv" (test_chebyshev_pinv .debug)
#eval run "doc chebyshev gradient" doc_chebyshev_gradient
#eval run "doc r2c gradient" doc_r2c_gradient
#eval run "doc r2c forward" doc_r2c_forward
#eval run "doc r2c backward" doc_r2c_backward
#eval run "doc c2c gradient, as compared there" (doc_c2c_gradient false)
#eval run "doc c2c gradient is wrong" (do pure (!(← doc_c2c_gradient true)))
#eval run "doc c2c forward" doc_c2c_forward
#eval run "doc c2c backward" doc_c2c_backward
#eval run "doc lib gradient" doc_lib_gradient
#eval run "doc lib to_ortho" doc_lib_ortho
#eval run "doc array_resized_axis" doc_resized

end Verif.Validate
