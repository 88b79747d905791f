/-
Specification: arithmetics in which the kernels run.  No algebraic law is assumed of the operations
(`+`, `-`, `*`, `/`, conversions, powers): floating-point arithmetic of any precision and rounding, with
infinities and NaNs, is covered.
-/
import Verif.Model.Spaces

namespace Verif.Spec
open Res

/-- Dividing never fails (IEEE 754: a division by zero gives an infinity or a NaN). -/
class TotalDiv (K T : Type) [DivBy K T] : Prop where
  div : ∀ (x : T) (a : K), ∃ y, divR x a = ok y

/-- The cosine transform works in place. -/
class DctInPlace (A : Type) [HasDct A] : Prop where
  length : ∀ l : List A, (HasDct.dct l).length = l.length

/-- The Fourier transforms return as many entries as documented; the complex-to-real transform returns
when the imaginary parts of the mean and (for even `n`) of the last coefficient are zero. -/
class FftSizes (A : Type) (C : Type) [Zero A] [Zero C] [Cplx A C] [HasFft A C] : Prop where
  fwd : ∀ l : List C, (HasFft.fwd l).length = l.length
  inv : ∀ l : List C, (HasFft.inv l).length = l.length
  rfwd : ∀ l : List A, (HasFft.rfwd l : List C).length = l.length / 2 + 1
  im_pair : ∀ a b : A, Cplx.im (Cplx.pair a b : C) = b
  rinv : ∀ (n : ℕ) (l : List C), l.length = n / 2 + 1 → Cplx.im (nth l 0) = 0 →
    (n % 2 = 0 → Cplx.im (nth l (n / 2)) = 0) → ∃ r, HasFft.rinv n l = ok r ∧ r.length = n

/-- A number type: the operations the code uses, division and integer powers always return, the cosine
transform works in place.  Nothing is assumed of the values. -/
class Arith (A : Type) extends Zero A, One A, Neg A, Add A, Sub A, Mul A, Div A, NatCast A, Pow A ℕ,
    DivBy A A, Libm A, HasDct A, Powi A where
  div_returns : ∀ x a : A, ∃ y, divR x a = ok y
  powi_returns : ∀ (x : A) (k : ℤ), ∃ y, powi x k = ok y
  dct_length : ∀ l : List A, (HasDct.dct l).length = l.length

/-- A type of entries of arrays, real or complex, over the number type `A`. -/
class ArithOn (A T : Type) extends Zero T, Add T, Sub T, SMul A T, DivBy A T where
  scale_returns : ∀ (x : T) (a : A), ∃ y, divR x a = ok y

/-- The complex numbers over the number type `A`, with their Fourier transforms. -/
class CArith (A : outParam Type) (C : Type) [Zero A] extends ArithOn A C, Mul C, Cplx A C, HasFft A C where
  fft_sizes : FftSizes A C

section
variable {A T C : Type}

instance [Arith A] : TotalDiv A A := ⟨Arith.div_returns⟩
instance [Arith A] : DctInPlace A := ⟨Arith.dct_length⟩
instance [Arith A] : ArithOn A A := { scale_returns := Arith.div_returns }
instance [ArithOn A T] : TotalDiv A T := ⟨ArithOn.scale_returns⟩
instance [Zero A] [h : CArith A C] : FftSizes A C := h.fft_sizes

end

end Verif.Spec
