/-
Model of src/chebyshev/ortho.rs
-/
import Verif.Core.Mat
import Verif.Core.Usize
import Mathlib.Analysis.SpecialFunctions.Trigonometric.Basic
import Mathlib.Algebra.Order.Floor.Ring
import Mathlib.Data.Real.Archimedean

namespace Verif
open Res

/-- `for (y, x) in ys.iter_mut().zip(xs.iter()) { *y = f(x) }`: overwrites the common prefix. -/
def zipSet {S T : Type} (f : S → T) : List S → List T → List T
  | x :: xs, _ :: ys => f x :: zipSet f xs ys
  | _, ys => ys

/-- ortho.rs:14-22 `Chebyshev` (the DCT plan is determined by `n`). -/
structure Cheb where
  n : ℕ
  m : ℕ
  deriving DecidableEq

/-- ortho.rs:39-47 `new`.  rustdct's `plan_dct1(n)` requires `n ≥ 2`: its naive
implementation asserts `len > 1`, its FFT implementation plans an FFT of length `2(n-1)`. -/
def Cheb.new (n : ℕ) : Res Cheb := do
  assertR (n > 1)
  pure ⟨n, n⟩

/-- ortho.rs:253-264 sizes of physical, spectral and orthogonal space. -/
def Cheb.lenPhys (b : Cheb) : ℕ := b.n
@[inherit_doc Cheb.lenPhys] def Cheb.lenSpec (b : Cheb) : ℕ := b.m
@[inherit_doc Cheb.lenPhys] def Cheb.lenOrth (b : Cheb) : ℕ := b.m

/-- The operations of the standard library the code uses on its number type: `π`, `sin` and
`ceil(..) as usize`. -/
class Libm (A : Type) where
  pi : A
  sin : A → A
  ceil : A → ℕ

/-- `Dct1::process_dct1` of the crate rustdct for the number type `A` (external). -/
class HasDct (A : Type) where
  dct : List A → List A

/-- Exact reals. -/
noncomputable instance : Libm ℝ := ⟨Real.pi, Real.sin, fun x => ⌈x⌉₊⟩

@[simp] theorem libm_pi : (Libm.pi : ℝ) = Real.pi := rfl
@[simp] theorem libm_sin (x : ℝ) : Libm.sin x = Real.sin x := rfl
@[simp] theorem libm_ceil (x : ℝ) : Libm.ceil x = ⌈x⌉₊ := rfl

/-- ortho.rs:65-79 `chebyshev_nodes_2nd_kind`, `nodes`.  (The source computes the argument of the sine
in `f64` for every number type `A`; here it is computed in `A`.) -/
def chebNodes (n : ℕ) (A : Type := ℝ) [One A] [Neg A] [Sub A] [Mul A] [NatCast A] [DivBy A A]
    [Libm A] : Res (List A) := do
  let m : A := ((← n -! 1 : ℕ) : A)                                    -- 66
  forRange 0 n (fun k acc => do                                        -- 67-72
    let arg ← divR (Libm.pi * (m - 2 * (k : A))) (2 * m)
    pure (acc ++ [-1 * Libm.sin arg])) []

/-- ortho.rs:282-284 `coords`. -/
def Cheb.coords (b : Cheb) (A : Type := ℝ) [One A] [Neg A] [Sub A] [Mul A] [NatCast A] [DivBy A A]
    [Libm A] : Res (List A) := chebNodes b.lenPhys A

/-- rustdct 0.7 `Dct1::process_dct1` (external): unnormalised DCT-I with halved end points,
`X_k = x_0/2 + (-1)^k x_N/2 + Σ_{0<i<N} x_i cos(π i k / N)`, `N = len-1`. -/
noncomputable def dct1 (x : List ℝ) : List ℝ :=
  let N := x.length - 1
  (List.range x.length).map (fun k : ℕ =>
    nth x 0 / 2 + (-1) ^ k * nth x N / 2
      + ((List.range' 1 (N - 1)).map (fun i : ℕ => nth x i * Real.cos (Real.pi * i * k / N))).sum)

/-- Exact reals. -/
noncomputable instance : HasDct ℝ := ⟨dct1⟩

@[simp] theorem dct_real (x : List ℝ) : HasDct.dct x = dct1 x := rfl

section Transform
variable {A : Type} [One A] [Neg A] [Add A] [Mul A] [Div A] [NatCast A] [DivBy A A] [HasDct A]

/-- ortho.rs:431-450 `forward_slice`; returns the new content of `outdata`.  (The constant `0.5` is
written `1 / 2`.) -/
def Cheb.forwardSlice (b : Cheb) (indata outdata : List A) : Res (List A) := do
  assertR (indata.length = b.lenPhys)                                  -- 433
  assertR (indata.length = outdata.length)                             -- 434
  let cor : A ← divR ((1 + 1) * (1 : A)) ((← b.n -! 1 : ℕ) : A)        -- 437
  let out := zipSet (fun x => x * cor) indata.reverse outdata          -- 440-442
  let out := HasDct.dct out                                            -- 444
  let out ← wrC out 0 ((← rdC out 0) * (1 / 2))                        -- 448
  wrC out (← b.n -! 1) ((← rdC out (← b.n -! 1)) * (1 / 2))            -- 449

/-- ortho.rs:452-473 `backward_slice`; returns the new content of `outdata`. -/
def Cheb.backwardSlice (b : Cheb) (indata outdata : List A) : Res (List A) := do
  assertR (indata.length = b.lenSpec)                                  -- 454
  assertR (indata.length = outdata.length)                             -- 455
  let out ← forRange 0 (min outdata.length indata.length) (fun i out => do  -- 461-467
    (if i % 2 = 0 then do wr out i (← rd indata i)
     else do wr out i ((← rd indata i) * -1))) outdata
  let out ← wrC out 0 ((← rdC out 0) * 2)                              -- 468
  let out ← wrC out (← b.m -! 1) ((← rdC out (← b.m -! 1)) * 2)        -- 469
  pure (HasDct.dct out)                                                -- 472

end Transform

section Gradient
variable (K : Type) {T : Type} [Mul K] [NatCast K] [Zero T] [Add T] [SMul K T] [DivBy K T]

/-- ortho.rs:407-421: one differentiation pass over `outdata`.  Simplification: the source converts the
numbers `2` and `2 (i+1)` to `T` and multiplies and divides in `T` (for complex data: by complex numbers with
zero imaginary part), the model uses the product and the quotient of a datum and a number.  The results are
the same except for the sign of a zero and after an overflow. -/
def chebGradPass (m : ℕ) (out : List T) : Res (List T) := do
  let out ← wr out 0 (← rd out 1)                                      -- 408
  let out ← forRange 1 (← m -! 1) (fun i out => do                     -- 409-412
    wr out i ((2 * ((i + 1 : ℕ) : K)) • (← rd out (i + 1)))) out
  let out ← wr out (← m -! 1) 0                                        -- 413
  let out ← forRev 1 (← m -! 2) (fun i out => do                       -- 415-418
    wr out i ((← rd out i) + (← rd out (i + 2)))) out
  wr out 0 ((← rd out 0) + (← divR (← rd out 2) (2 : K)))              -- 419-420

/-- ortho.rs:397-423 `gradient_slice`.  (The length of `indata` is not checked.) -/
def Cheb.gradientSlice (b : Cheb) (indata outdata : List T) (nTimes : ℕ) : Res (List T) := do
  assertR (outdata.length = b.m)                                       -- 398
  let out := zipSet id indata outdata                                  -- 400-402
  forRange 0 nTimes (fun _ out => chebGradPass K b.m out) out          -- 405-422

end Gradient

section Ortho
variable {T : Type}

/-- ortho.rs:359-363 `to_ortho_slice`. -/
def Cheb.toOrthoSlice (_ : Cheb) (indata outdata : List T) : Res (List T) :=
  pure (zipSet id indata outdata)

/-- ortho.rs:366-370 `from_ortho_slice`. -/
def Cheb.fromOrthoSlice (_ : Cheb) (indata outdata : List T) : Res (List T) :=
  pure (zipSet id indata outdata)

end Ortho

section Matrices
variable (K : Type) [Zero K] [One K] [Neg K] [Mul K] [Div K] [NatCast K] [DivBy K K]

/-- ortho.rs:88-97 `_dmat`, branch `deriv == 1`. -/
def dmat1 (o : Mode) (n : ℕ) : Res (Mat K) :=
  forRange 0 n (fun p d =>
    forRange (p + 1) n (fun q d =>
      (if (p + q) % 2 ≠ 0 then do
        d.wrC p q ((← o.mul q 2 : ℕ) : K)
      else pure d)) d) (Mat.zeros n n)

/-- ortho.rs:98-105 branch `deriv == 2`. -/
def dmat2 (o : Mode) (n : ℕ) : Res (Mat K) :=
  forRange 0 n (fun p d =>
    forRange (p + 2) n (fun q d =>
      (if (p + q) % 2 = 0 then do
        d.wrC p q ((← o.mul q (← o.sub (← o.mul q q) (← o.mul p p)) : ℕ) : K)
      else pure d)) d) (Mat.zeros n n)

/-- ortho.rs:113, the integer expression
`q * (q2 * (q2 - 2) - 2 * q2 * p2 + p2 * p2 - 2 * p2 + 1)`. -/
def dmat3Entry (o : Mode) (p2 q2 q : ℕ) : Res ℕ := do
  let t1 ← o.mul q2 (← o.sub q2 2)
  let t2 ← o.mul (← o.mul 2 q2) p2
  let s1 ← o.sub t1 t2
  let s2 ← o.add s1 (← o.mul p2 p2)
  let s3 ← o.sub s2 (← o.mul 2 p2)
  let s4 ← o.add s3 1
  o.mul q s4

/-- ortho.rs:106-116 branch `deriv == 3`. -/
def dmat3 (o : Mode) (n : ℕ) : Res (Mat K) :=
  forRange 0 n (fun p d => do
    let p2 ← o.mul p p
    forRange (p + 3) n (fun q d => do
      let q2 ← o.mul q q
      (if (p + q) % 2 ≠ 0 then do
        d.wrC p q (← divR ((← dmat3Entry o p2 q2 q : ℕ) : K) (4 : K))
      else pure d)) d) (Mat.zeros n n)

/-- ortho.rs:123-126, the integer expression `q * (q2 * (q2 - 4) * (q2 - 4) + 3 * q2 * p4
- p2 * p4 + 8 * p4 - 16 * p2 - 3 * q4 * p2)`. -/
def dmat4Entry (o : Mode) (p2 p4 q2 q4 q : ℕ) : Res ℕ := do
  let t1 ← o.mul (← o.mul q2 (← o.sub q2 4)) (← o.sub q2 4)
  let t2 ← o.mul (← o.mul 3 q2) p4
  let s1 ← o.add t1 t2
  let s2 ← o.sub s1 (← o.mul p2 p4)
  let s3 ← o.add s2 (← o.mul 8 p4)
  let s4 ← o.sub s3 (← o.mul 16 p2)
  let s5 ← o.sub s4 (← o.mul (← o.mul 3 q4) p2)
  o.mul q s5

/-- ortho.rs:117-130 branch `deriv == 4`. -/
def dmat4 (o : Mode) (n : ℕ) : Res (Mat K) :=
  forRange 0 n (fun p d => do
    let p2 ← o.mul p p
    let p4 ← o.mul (← o.mul (← o.mul p p) p) p
    forRange (p + 4) n (fun q d => do
      let q2 ← o.mul q q
      let q4 ← o.mul (← o.mul (← o.mul q q) q) q
      (if (p + q) % 2 = 0 then do
        d.wrC p q (← divR ((← dmat4Entry o p2 p4 q2 q4 q : ℕ) : K) (24 : K))
      else pure d)) d) (Mat.zeros n n)

/-- ortho.rs:88-138 `_dmat`.  `slice_mut(s![0, ..])` panics for `n = 0`. -/
def dmat (o : Mode) (n deriv : ℕ) : Res (Mat K) := do
  let d ← (if deriv = 1 then dmat1 K o n
    else if deriv = 2 then dmat2 K o n
    else if deriv = 3 then dmat3 K o n
    else if deriv = 4 then dmat4 K o n
    else err .panic)                                                   -- 131-133 todo!()
  assertR (0 < n)                                                      -- 134
  pure ⟨d.rows, d.cols, fun i j => if i = 0 then d.get i j * (1 / 2) else d.get i j⟩ -- 134-136

/-- ortho.rs:294-297 `diffmat`. -/
def Cheb.diffmat (o : Mode) (b : Cheb) (deriv : ℕ) : Res (Mat K) := do
  assertR (deriv > 0)
  dmat K o b.n deriv

/-- `for i in a..b { pinv[[i, col i]] = num / den i }` where the index expressions and the
integer denominator may underflow (used by `pinv` below). -/
def pinvDiag (a b : ℕ) (col : ℕ → Res ℕ) (num : K) (den : ℕ → Res K) (p : Mat K) : Res (Mat K) :=
  forRange a b (fun i p => do p.wrC i (← col i) (← divR num (← den i))) p

/-- ortho.rs:157-237 `_pinv`.  The integer denominators are machine products (`Mode.prod`,
multiplied from the left); subtractions panic on underflow (they cannot wrap inside the loops,
whose lower bounds exceed the subtrahend). -/
def pinv (o : Mode) (n deriv : ℕ) : Res (Mat K) := do
  let p : Mat K := Mat.zeros n n                                       -- 163
  (if deriv = 1 then do
    let p ← p.wrC 1 0 1                                                -- 165
    let p ← pinvDiag K 2 n (fun i => i -! 1) 1 (fun i => pure (2 * (i : K))) p            -- 166-168
    pinvDiag K 1 (← n -! 2) (fun i => pure (i + 1)) (-1) (fun i => pure (2 * (i : K))) p  -- 169-171
  else if deriv = 2 then do
    let p ← p.wrC 2 0 (1 / 4)                                          -- 173
    let p ← pinvDiag K 3 n (fun i => i -! 2) 1
      (fun i => do pure ((← o.prod [4, i, ← i -! 1] : ℕ) : K)) p       -- 174-176
    let p ← pinvDiag K 2 (← n -! 2) (fun i => pure i) (-1)
      (fun i => do pure ((← o.prod [2, ← o.sub (← o.mul i i) 1] : ℕ) : K)) p -- 177-179
    pinvDiag K 2 (← n -! 4) (fun i => pure (i + 2)) 1
      (fun i => do pure ((← o.prod [4, i, i + 1] : ℕ) : K)) p          -- 180-182
  else if deriv = 3 then do
    let p ← pinvDiag K 3 n (fun i => i -! 3) 1
      (fun i => do pure ((← o.prod [8, i, ← i -! 1, ← i -! 2] : ℕ) : K)) p -- 185-188
    let p ← p.wrC 3 0 ((← p.rdC 3 0) * 2)                              -- 189
    let p ← pinvDiag K 3 (← n -! 2) (fun i => i -! 1) (-3)
      (fun i => do pure ((← o.prod [8, i + 1, ← i -! 2, i] : ℕ) : K)) p -- 191-194
    let p ← pinvDiag K 3 (← n -! 4) (fun i => pure (i + 1)) 3
      (fun i => do pure ((← o.prod [8, ← i -! 1, i + 2, i] : ℕ) : K)) p -- 196-199
    pinvDiag K 3 (← n -! 6) (fun i => pure (i + 3)) (-1)
      (fun i => do pure ((← o.prod [8, i, i + 1, i + 2] : ℕ) : K)) p   -- 201-204
  else if deriv = 4 then do
    let p ← pinvDiag K 4 n (fun i => i -! 4) 1
      (fun i => do pure ((← o.prod [16, i, ← i -! 1, ← i -! 2, ← i -! 3] : ℕ) : K)) p -- 207-210
    let p ← p.wrC 4 0 ((← p.rdC 4 0) * 2)                              -- 211
    let p ← pinvDiag K 4 (← n -! 2) (fun i => i -! 2) (-1)
      (fun i => do pure ((← o.prod [4, ← i -! 3, ← i -! 1, i, i + 1] : ℕ) : K)) p     -- 213-216
    let p ← pinvDiag K 4 (← n -! 4) (fun i => pure i) 3
      (fun i => do pure ((← o.prod [8, ← i -! 2, ← i -! 1, i + 1, i + 2] : ℕ) : K)) p -- 218-221
    let p ← pinvDiag K 4 (← n -! 6) (fun i => pure (i + 2)) (-1)
      (fun i => do pure ((← o.prod [4, ← i -! 1, i, i + 1, i + 3] : ℕ) : K)) p        -- 223-226
    pinvDiag K 4 (← n -! 8) (fun i => pure (i + 4)) 1
      (fun i => do pure ((← o.prod [16, i, i + 1, i + 2, i + 3] : ℕ) : K)) p          -- 228-231
  else err .panic)                                                     -- 233 todo!()

/-- ortho.rs:244-247 `_pinv_eye`: `eye(n)` without its first `deriv` rows
(`slice(s![deriv.., ..])` panics when `deriv > n`). -/
def pinvEye (n deriv : ℕ) : Res (Mat K) := do
  assertR (deriv ≤ n)
  pure ⟨n - deriv, n, fun i j => (Mat.eye n).get (i + deriv) j⟩

/-- ortho.rs:310-313 `diffmat_pinv`. -/
def Cheb.diffmatPinv (o : Mode) (b : Cheb) (deriv : ℕ) : Res (Mat K × Mat K) := do
  assertR (deriv > 0)
  pure (← pinv K o b.n deriv, ← pinvEye K b.n deriv)

/-- ortho.rs:321-328 `stencil`, `stencil_inv`. -/
def Cheb.stencil (b : Cheb) : Res (Mat K) := pure (Mat.eye b.lenSpec)
@[inherit_doc Cheb.stencil] def Cheb.stencilInv (b : Cheb) : Res (Mat K) := pure (Mat.eye b.lenSpec)

/-- ortho.rs:336-338 `laplacian`. -/
def Cheb.laplacian (o : Mode) (b : Cheb) : Res (Mat K) := b.diffmat K o 2

/-- ortho.rs:348-350 `laplacian_pinv`. -/
def Cheb.laplacianPinv (o : Mode) (b : Cheb) : Res (Mat K × Mat K) := b.diffmatPinv K o 2

end Matrices
end Verif
