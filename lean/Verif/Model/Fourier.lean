/-
Models of src/fourier/c2c.rs and src/fourier/r2c.rs.  `A` is the number type, `C` is `Complex<A>`.
-/
import Verif.Model.Ortho
import Mathlib.Analysis.SpecialFunctions.Complex.Circle

namespace Verif
open Res Complex

/-- The rotation factor `exp(s 2π i k / n)` of a discrete Fourier transform (external crates). -/
noncomputable def twiddle (s : ℂ) (n j k : ℕ) : ℂ := Complex.exp (s * (2 * Real.pi * I * j * k / n))

/-- rustfft 6 `Fft::process` of a forward plan (external): `X_k = Σ_j x_j exp(-2π i j k/n)`. -/
noncomputable def fftFwd (x : List ℂ) : List ℂ :=
  (List.range x.length).map (fun k =>
    ((List.range x.length).map (fun j => nth x j * twiddle (-1) x.length j k)).sum)

/-- rustfft 6 `Fft::process` of an inverse plan (external, unnormalised). -/
noncomputable def fftInv (x : List ℂ) : List ℂ :=
  (List.range x.length).map (fun k =>
    ((List.range x.length).map (fun j => nth x j * twiddle 1 x.length j k)).sum)

/-- realfft 3 `RealToComplex::process` (external): the first `n/2+1` entries of the forward
transform. -/
noncomputable def rfftFwd (x : List ℝ) : List ℂ :=
  (List.range (x.length / 2 + 1)).map (fun k =>
    ((List.range x.length).map (fun j => ((nth x j : ℝ) : ℂ) * twiddle (-1) x.length j k)).sum)

/-- Hermitian extension of the `n/2+1` coefficients of a real signal to `n` coefficients. -/
noncomputable def hermExt (n : ℕ) (c : List ℂ) (k : ℕ) : ℂ :=
  if k ≤ n / 2 then nth c k else (starRingEnd ℂ) (nth c (n - k))

/-- realfft 3 `ComplexToReal::process` (external, unnormalised): fails when the mean (or, for
even `n`, the last coefficient) has a non-zero imaginary part; otherwise the (real) inverse
transform of the Hermitian extension. -/
noncomputable def rfftInv (n : ℕ) (c : List ℂ) : Res (List ℝ) := by
  classical exact do
  assertR (c.length = n / 2 + 1)
  assertR ((nth c 0).im = 0)
  assertR (n % 2 = 0 → (nth c (n / 2)).im = 0)
  pure ((List.range n).map (fun j =>
    (((List.range n).map (fun k => hermExt n c k * twiddle 1 n k j)).sum).re))

/-- `num_complex::Complex<A>` (external): a pair of numbers. -/
class Cplx (A : outParam Type) (C : Type) where
  pair : A → A → C
  re : C → A
  im : C → A

/-- The FFT plans of the crates rustfft and realfft for the number type `A` (external). -/
class HasFft (A : outParam Type) (C : Type) where
  fwd : List C → List C
  inv : List C → List C
  rfwd : List A → List C
  rinv : ℕ → List C → Res (List A)

/-- Exact complex numbers. -/
instance : Cplx ℝ ℂ := ⟨Complex.mk, Complex.re, Complex.im⟩

/-- Exact transforms. -/
noncomputable instance : HasFft ℝ ℂ := ⟨fftFwd, fftInv, rfftFwd, rfftInv⟩

@[simp] theorem cplx_pair (a b : ℝ) : (Cplx.pair a b : ℂ) = ⟨a, b⟩ := rfl
@[simp] theorem cplx_re (z : ℂ) : Cplx.re z = z.re := rfl
@[simp] theorem cplx_im (z : ℂ) : Cplx.im z = z.im := rfl
@[simp] theorem fft_fwd (x : List ℂ) : HasFft.fwd x = fftFwd x := rfl
@[simp] theorem fft_inv (x : List ℂ) : HasFft.inv x = fftInv x := rfl
@[simp] theorem fft_rfwd (x : List ℝ) : (HasFft.rfwd x : List ℂ) = rfftFwd x := rfl
@[simp] theorem fft_rinv (n : ℕ) (x : List ℂ) : HasFft.rinv n x = rfftInv n x := rfl

/-- c2c.rs:48-53 and r2c.rs:49-54 `nodes` (identical).  `ndarray::Array1::range(a, b, step)`
(external) has `ceil((b-a)/step)` entries `a + i*step`. -/
def fourierNodes (n : ℕ) (A : Type := ℝ) [Zero A] [Add A] [Sub A] [Mul A] [NatCast A] [DivBy A A]
    [Libm A] : Res (List A) := do
  let step ← divR (2 * Libm.pi : A) (n : A)
  let len ← divR (2 * Libm.pi - 0 : A) step
  pure ((List.range (Libm.ceil len)).map (fun i : ℕ => 0 + (i : A) * step))

/-- Writes `f i` to the `i`-th diagonal entry below `len` (`diag_mut().iter_mut()` loops). -/
def Mat.mapDiag {K : Type} (m : Mat K) (from_ len : ℕ) (f : ℕ → K → K) : Mat K :=
  ⟨m.rows, m.cols, fun i j => if i = j ∧ from_ ≤ i ∧ i < len then f i (m.get i j) else m.get i j⟩

/-- `pinv.slice_mut(s![1.., 1..]).diag_mut().iter_mut() { *p = 1 / *p }` followed by nothing
else: inverts the diagonal from index 1 on; fails when such an entry is zero. -/
def invDiag {K : Type} [One K] [DivBy K K] (m : Mat K) : Res (Mat K) := do
  assertR (1 ≤ m.rows)                               -- slicing `1..` of an empty axis panics
  forRange 1 m.rows (fun i p => do
    p.wrC i i (← divR (1 : K) (← p.rdC i i))) m

/-! ### c2c.rs -/

/-- c2c.rs:19-27 `FourierC2c` (the plans are determined by `n`). -/
structure C2c where
  n : ℕ
  m : ℕ
  deriving DecidableEq

namespace C2c

/-- c2c.rs:32-40 `new`. -/
def new (n : ℕ) : Res C2c := pure ⟨n, n⟩

/-- c2c.rs:74-87 sizes. -/
def lenPhys (b : C2c) : ℕ := b.n
@[inherit_doc lenPhys] def lenSpec (b : C2c) : ℕ := b.m
@[inherit_doc lenPhys] def lenOrth (b : C2c) : ℕ := b.m

/-- c2c.rs:104-106 `coords`. -/
def coords (b : C2c) (A : Type := ℝ) [Zero A] [Add A] [Sub A] [Mul A] [NatCast A] [DivBy A A]
    [Libm A] : Res (List A) := fourierNodes b.lenPhys A

/-- c2c.rs:61-71 `wavenumber`. -/
def wavenumber (n : ℕ) (C : Type := ℂ) {A : Type} [Cplx A C] [Zero C] [One A] [Neg A] [Mul A]
    [NatCast A] : Res (List C) := do
  let n2 := (← n -! 1) / 2 + 1                                            -- 62
  let k := List.replicate n (0 : C)                                       -- 63
  let k ← forRange 0 (min n2 n) (fun i k => do                            -- 64-66
    wrC k i (Cplx.pair (Cplx.re (← rdC k i)) (i : A))) k
  forRange 0 (min (n / 2) n) (fun i k => do                               -- 67-69
    let p ← (← n -! 1) -! i
    wrC k p (Cplx.pair (Cplx.re (← rdC k p)) (-1 * ((i + 1 : ℕ) : A)))) k

/-- c2c.rs:119-127 `diffmat` (`deriv` must fit an `i32`). -/
def diffmat (b : C2c) (deriv : ℕ) (C : Type := ℂ) {A : Type} [Cplx A C] [Zero A] [One A] [Neg A]
    [Mul A] [NatCast A] [Zero C] [Pow C ℕ] : Res (Mat C) := do
  assertR (deriv > 0)                                                     -- 120
  let mat : Mat C := Mat.zeros b.lenSpec b.lenSpec                        -- 121
  let w ← wavenumber b.lenPhys C                                          -- 122
  assertR (deriv < 2 ^ 31)                                                -- 124
  pure (mat.mapDiag 0 (min b.lenSpec w.length) (fun i _ => (nth w i) ^ deriv)) -- 123-125

/-- c2c.rs:140-150 `diffmat_pinv`. -/
def diffmatPinv (b : C2c) (deriv : ℕ) (C : Type := ℂ) {A : Type} [Cplx A C] [Zero A] [One A]
    [Neg A] [Mul A] [NatCast A] [Zero C] [One C] [Pow C ℕ] [DivBy C C] : Res (Mat C × Mat C) := do
  assertR (deriv > 0)                                                     -- 141
  assertR (1 ≤ b.m)                                                       -- 142-144
  let peye : Mat C := ⟨b.m - 1, b.m, fun i j => (Mat.eye b.m).get (i + 1) j⟩
  let pinv ← invDiag (← b.diffmat deriv C)                                  -- 145-148
  pure (pinv, peye)

/-- c2c.rs:158-165 `stencil`, `stencil_inv`. -/
def stencil (b : C2c) (A : Type := ℝ) [Zero A] [One A] : Res (Mat A) := pure (Mat.eye b.lenSpec)
@[inherit_doc stencil] def stencilInv (b : C2c) (A : Type := ℝ) [Zero A] [One A] : Res (Mat A) :=
  pure (Mat.eye b.lenSpec)

/-- c2c.rs:173-180 `laplacian`. -/
def laplacian (b : C2c) (C : Type := ℂ) {A : Type} [Cplx A C] [Zero A] [One A] [Neg A] [Mul A]
    [NatCast A] [Zero C] : Res (Mat A) := do
  let w ← wavenumber b.lenPhys C                                          -- 174
  let lap : Mat A := Mat.zeros b.m b.m                                    -- 175
  pure (lap.mapDiag 0 (min b.m w.length) (fun i _ => -(Cplx.im (nth w i)) * Cplx.im (nth w i))) -- 176-178

/-- c2c.rs:190-197 `laplacian_pinv`. -/
def laplacianPinv (b : C2c) (C : Type := ℂ) {A : Type} [Cplx A C] [Zero A] [One A] [Neg A] [Mul A]
    [NatCast A] [DivBy A A] [Zero C] : Res (Mat A × Mat A) := do
  let d ← invDiag (← b.laplacian C)                                         -- 191-194
  pure (d, ⟨b.m - 1, b.m, fun i j => (Mat.eye b.m).get (i + 1) j⟩)        -- 195-196

section
variable {A C : Type} [Cplx A C] [Zero A] [NatCast A] [Mul C]

/-- c2c.rs:236-243: one differentiation pass. -/
def gradPass (n : ℕ) (out : List C) : Res (List C) := do
  let n2 := (← n -! 1) / 2 + 1                                            -- 234
  let out ← forRange 0 (min n2 out.length) (fun k out => do               -- 236-239
    wrC out k ((← rdC out k) * Cplx.pair 0 (k : A))) out
  forRange 0 (min (n / 2) out.length) (fun k out => do                    -- 240-243
    let p ← (← out.length -! 1) -! k
    wrC out p ((← rdC out p) * Cplx.pair 0 (k : A))) out

/-- c2c.rs:226-245 `gradient_slice` (line 234 is evaluated even when `n_times = 0`). -/
def gradientSlice (b : C2c) (indata outdata : List C) (nTimes : ℕ) :
    Res (List C) := do
  assertR (outdata.length = indata.length)                                -- 227
  assertR (outdata.length = b.lenSpec)                                    -- 228
  let out := zipSet id indata outdata                                     -- 230-232
  let _ ← b.lenSpec -! 1                                                  -- 234
  forRange 0 nTimes (fun _ out => gradPass b.lenSpec out) out             -- 235-244

end

/-- c2c.rs:254-265 `to_ortho_slice`, `from_ortho_slice`. -/
def toOrthoSlice {T : Type} (_ : C2c) (indata outdata : List T) : Res (List T) :=
  pure (zipSet id indata outdata)
@[inherit_doc toOrthoSlice]
def fromOrthoSlice {T : Type} (_ : C2c) (indata outdata : List T) : Res (List T) :=
  pure (zipSet id indata outdata)

section
variable {A C : Type} [Cplx A C] [HasFft A C] [Zero A] [One A] [Mul A] [NatCast A] [DivBy A A] [Zero C]

/-- c2c.rs:298-307 `forward_slice`. -/
def forwardSlice (b : C2c) (indata outdata : List C) : Res (List C) := do
  assertR (indata.length = b.lenPhys)                                     -- 300
  assertR (outdata.length = b.lenSpec)                                    -- 301
  let out := zipSet id indata outdata                                     -- 303-305
  pure (HasFft.fwd out)                                                       -- 306

/-- c2c.rs:334-345 `backward_slice`. -/
def backwardSlice (b : C2c) (indata outdata : List C) : Res (List C) := do
  assertR (indata.length = b.lenSpec)                                     -- 336
  assertR (outdata.length = b.lenPhys)                                    -- 337
  let cor : A ← divR (1 : A) ((b.lenPhys : ℕ) : A)                        -- 339
  let out := zipSet (fun z : C => (Cplx.pair (cor * Cplx.re z) (cor * Cplx.im z) : C)) indata outdata -- 340-343
  pure (HasFft.inv out)                                                       -- 344

end
end C2c

/-! ### r2c.rs -/

/-- r2c.rs:20-28 `FourierR2c` (the plans are determined by `n`). -/
structure R2c where
  n : ℕ
  m : ℕ
  deriving DecidableEq

namespace R2c

/-- r2c.rs:33-41 `new`. -/
def new (n : ℕ) : Res R2c := pure ⟨n, n / 2 + 1⟩

/-- r2c.rs:68-81 sizes. -/
def lenPhys (b : R2c) : ℕ := b.n
@[inherit_doc lenPhys] def lenSpec (b : R2c) : ℕ := b.m
@[inherit_doc lenPhys] def lenOrth (b : R2c) : ℕ := b.m

/-- r2c.rs:98-100 `coords`. -/
def coords (b : R2c) (A : Type := ℝ) [Zero A] [Add A] [Sub A] [Mul A] [NatCast A] [DivBy A A]
    [Libm A] : Res (List A) := fourierNodes b.lenPhys A

/-- r2c.rs:61-65 `wavenumber`. -/
def wavenumber (n : ℕ) (C : Type := ℂ) {A : Type} [Cplx A C] [Zero A] [NatCast A] : List C :=
  (List.range (n / 2 + 1)).map (fun x : ℕ => (Cplx.pair 0 (x : A) : C))

/-- r2c.rs:113-121 `diffmat` (`deriv` must fit an `i32`). -/
def diffmat (b : R2c) (deriv : ℕ) (C : Type := ℂ) {A : Type} [Cplx A C] [Zero A] [One A] [Neg A]
    [Mul A] [NatCast A] [Zero C] [Pow C ℕ] : Res (Mat C) := do
  assertR (deriv > 0)                                                     -- 114
  let mat : Mat C := Mat.zeros b.lenSpec b.lenSpec                        -- 115
  let w := wavenumber b.lenPhys C                                         -- 116
  assertR (deriv < 2 ^ 31)                                                -- 118
  pure (mat.mapDiag 0 (min b.lenSpec w.length) (fun i _ => (nth w i) ^ deriv)) -- 117-119

/-- r2c.rs:134-144 `diffmat_pinv`. -/
def diffmatPinv (b : R2c) (deriv : ℕ) (C : Type := ℂ) {A : Type} [Cplx A C] [Zero A] [One A]
    [Neg A] [Mul A] [NatCast A] [Zero C] [One C] [Pow C ℕ] [DivBy C C] : Res (Mat C × Mat C) := do
  assertR (deriv > 0)                                                     -- 135
  assertR (1 ≤ b.m)                                                       -- 136-138
  let peye : Mat C := ⟨b.m - 1, b.m, fun i j => (Mat.eye b.m).get (i + 1) j⟩
  let pinv ← invDiag (← b.diffmat deriv C)                                  -- 139-142
  pure (pinv, peye)

/-- r2c.rs:151-158 `stencil`, `stencil_inv`. -/
def stencil (b : R2c) (A : Type := ℝ) [Zero A] [One A] : Res (Mat A) := pure (Mat.eye b.lenSpec)
@[inherit_doc stencil] def stencilInv (b : R2c) (A : Type := ℝ) [Zero A] [One A] : Res (Mat A) :=
  pure (Mat.eye b.lenSpec)

/-- r2c.rs:166-173 `laplacian`. -/
def laplacian (b : R2c) (C : Type := ℂ) {A : Type} [Cplx A C] [Zero A] [One A] [Neg A] [Mul A]
    [NatCast A] [Zero C] : Res (Mat A) := do
  let w := wavenumber b.lenPhys C                                         -- 167
  let lap : Mat A := Mat.zeros b.m b.m                                    -- 168
  pure (lap.mapDiag 0 (min b.m w.length) (fun i _ => -(Cplx.im (nth w i)) * Cplx.im (nth w i))) -- 169-171

/-- r2c.rs:183-190 `laplacian_pinv`. -/
def laplacianPinv (b : R2c) (C : Type := ℂ) {A : Type} [Cplx A C] [Zero A] [One A] [Neg A] [Mul A]
    [NatCast A] [DivBy A A] [Zero C] : Res (Mat A × Mat A) := do
  let d ← invDiag (← b.laplacian C)                                         -- 184-187
  pure (d, ⟨b.m - 1, b.m, fun i j => (Mat.eye b.m).get (i + 1) j⟩)        -- 188-189

section
variable {A C : Type} [Cplx A C] [Zero A] [NatCast A] [Mul C]

/-- r2c.rs:227-230: one differentiation pass. -/
def gradPass (out : List C) : Res (List C) :=
  forRange 0 out.length (fun k out => do
    wrC out k ((← rdC out k) * Cplx.pair 0 (k : A))) out

/-- r2c.rs:219-232 `gradient_slice`. -/
def gradientSlice (b : R2c) (indata outdata : List C) (nTimes : ℕ) :
    Res (List C) := do
  assertR (outdata.length = indata.length)                                -- 220
  assertR (outdata.length = b.lenSpec)                                    -- 221
  let out := zipSet id indata outdata                                     -- 223-225
  forRange 0 nTimes (fun _ out => gradPass out) out                       -- 226-231

end

/-- r2c.rs:241-252 `to_ortho_slice`, `from_ortho_slice`. -/
def toOrthoSlice {T : Type} (_ : R2c) (indata outdata : List T) : Res (List T) :=
  pure (zipSet id indata outdata)
@[inherit_doc toOrthoSlice]
def fromOrthoSlice {T : Type} (_ : R2c) (indata outdata : List T) : Res (List T) :=
  pure (zipSet id indata outdata)

section
variable {A C : Type} [Cplx A C] [HasFft A C] [Zero A] [One A] [Mul A] [NatCast A] [DivBy A A] [Zero C]

/-- r2c.rs:279-289 `forward_slice`. -/
def forwardSlice (b : R2c) (indata : List A) (outdata : List C) : Res (List C) := do
  assertR (indata.length = b.lenPhys)                                     -- 281
  assertR (outdata.length = b.lenSpec)                                    -- 282
  let inMut := zipSet id indata (List.replicate indata.length 0)          -- 284-287
  pure (HasFft.rfwd inMut)                                                    -- 288

/-- r2c.rs:310-328 `backward_slice`. -/
def backwardSlice (b : R2c) (indata : List C) (outdata : List A) : Res (List A) := do
  assertR (indata.length = b.lenSpec)                                     -- 312
  assertR (outdata.length = b.lenPhys)                                    -- 313
  let inMut := List.replicate indata.length (0 : C)                       -- 315
  let cor : A ← divR (1 : A) ((b.lenPhys : ℕ) : A)                        -- 316
  let inMut := zipSet (fun z : C => (Cplx.pair (cor * Cplx.re z) (cor * Cplx.im z) : C)) indata inMut -- 317-320
  let inMut ← wrC inMut 0 (Cplx.pair (Cplx.re (← rdC inMut 0)) 0)                         -- 322
  let inMut ← (if b.n % 2 = 0 then do                                     -- 324-326
      wrC inMut (← b.m -! 1) (Cplx.pair (Cplx.re (← rdC inMut (← b.m -! 1))) 0)
    else pure inMut)
  HasFft.rinv b.n inMut                                                      -- 327

end
end R2c
end Verif
