/-
Specification: complex numbers in arithmetic with rounding, Euclidean norms, and the accuracy of the external
Fourier transforms.
-/
import Verif.Spec.Rounding
import Mathlib.Analysis.SpecialFunctions.Pow.NNReal

namespace Verif.Spec
open Res

/-- A complex number in the arithmetic with rounding `R` (`num_complex::Complex`, external). -/
structure RndC (R : Rounding) where
  re : Rnd R
  im : Rnd R

namespace RndC
variable {R : Rounding}

noncomputable section

instance : Zero (RndC R) := ⟨⟨0, 0⟩⟩
/-- four products, a difference and a sum, all rounded -/
instance : Mul (RndC R) := ⟨fun a b => ⟨a.re * b.re - a.im * b.im, a.re * b.im + a.im * b.re⟩⟩
instance : Cplx (Rnd R) (RndC R) := ⟨RndC.mk, RndC.re, RndC.im⟩
/-- sums, differences, products with a real number and quotients by a real number act on the two parts -/
instance : Add (RndC R) := ⟨fun a b => ⟨a.re + b.re, a.im + b.im⟩⟩
instance : Sub (RndC R) := ⟨fun a b => ⟨a.re - b.re, a.im - b.im⟩⟩
instance : SMul (Rnd R) (RndC R) := ⟨fun k a => ⟨k • a.re, k • a.im⟩⟩
instance : DivBy (Rnd R) (RndC R) := ⟨fun a k => do
  let re ← divR a.re k
  let im ← divR a.im k
  ok ⟨re, im⟩⟩

/-- its value -/
def val (z : RndC R) : ℂ := ⟨z.re.val, z.im.val⟩

end
end RndC

/-- The values of a list of complex numbers. -/
noncomputable def valsC {R : Rounding} (l : List (RndC R)) : List ℂ := l.map RndC.val

/-- The Euclidean norm of `f 0, …, f (n-1)`. -/
noncomputable def norm2 {E : Type} [Norm E] (n : ℕ) (f : ℕ → E) : ℝ := √(∑ k ∈ Finset.range n, ‖f k‖ ^ 2)

/-- The Euclidean norm of the `n` coefficients of a real signal, of which `f 0, …, f (n/2)` are given: all but the
mean and, for even `n`, the last one count twice. -/
noncomputable def normH (n : ℕ) (f : ℕ → ℂ) : ℝ :=
  √(∑ k ∈ Finset.range (n / 2 + 1), (if k = 0 ∨ 2 * k = n then 1 else 2) * ‖f k‖ ^ 2)

/-- The Fourier transforms of length `n` have relative errors of at most `η` in the Euclidean norm (a multiple of
`u log n` for the fast Fourier transform). -/
structure FftError (R : Rounding) [HasFft (Rnd R) (RndC R)] (n : ℕ) (η : ℝ) : Prop where
  fwd : ∀ x : List (RndC R), x.length = n → (HasFft.fwd x).length = n ∧
    norm2 n (fun k => nth (valsC (HasFft.fwd x)) k - nth (fftFwd (valsC x)) k) ≤ η * norm2 n (nth (fftFwd (valsC x)))
  inv : ∀ x : List (RndC R), x.length = n → (HasFft.inv x).length = n ∧
    norm2 n (fun k => nth (valsC (HasFft.inv x)) k - nth (fftInv (valsC x)) k) ≤ η * norm2 n (nth (fftInv (valsC x)))
  rfwd : ∀ x : List (Rnd R), x.length = n → (HasFft.rfwd x : List (RndC R)).length = n / 2 + 1 ∧
    normH n (fun k => nth (valsC (R := R) (HasFft.rfwd x)) k - nth (rfftFwd (vals x)) k) ≤ η * normH n (nth (rfftFwd (vals x)))
  rinv : ∀ (x : List (RndC R)) (y : List ℝ), rfftInv n (valsC x) = ok y → ∃ v, HasFft.rinv n x = ok v ∧ v.length = n ∧
    norm2 n (fun j => nth (vals v) j - nth y j) ≤ η * norm2 n (nth y)

end Verif.Spec
