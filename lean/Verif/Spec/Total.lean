/-
Specification for C97: the amplification of `forward`, `gradient` and `backward` in a row.
-/
import Verif.Spec.Scale

namespace Verif.Spec
noncomputable section

/-- On a Chebyshev axis: `forward` of the basis of kind `k`, `gradient` of order `d`, `backward` of `chebyshev(n)`. -/
def chebTotal (R : Rounding) (η : ℝ) (n d : ℕ) (k : Option CKind) : Amp × Amp × Amp :=
  (forwardAmp R η n k, gradientAmp R n d k, backwardAmp R η n none)

/-- The same beside a Fourier axis, where `gradient` acts on complex data. -/
def chebTotalC (R : Rounding) (η : ℝ) (n d : ℕ) (k : Option CKind) : Amp × Amp × Amp :=
  (forwardAmp R η n k, (gradientAmp R n d k).cplx, backwardAmp R η n none)

/-- On a Fourier axis. -/
def fourierTotal (R : Rounding) (η : ℝ) (n d : ℕ) : Amp × Amp × Amp :=
  (fourierForwardAmp η n, fourierGradientAmp R n d, fourierBackwardAmp R η)

/-- One axis: the three operators in a row. -/
def Amp.chain (t : Amp × Amp × Amp) : Amp := (t.1.andThen t.2.1).andThen t.2.2

/-- Two axes: each operator acts on one axis after the other; `c` is the scaling after `gradient`. -/
def Amp.chain2 (s t : Amp × Amp × Amp) (c : Amp) : Amp :=
  ((t.1.andThen s.1).andThen ((s.2.1.andThen t.2.1).andThen c)).andThen (s.2.2.andThen t.2.2)

/-- the bound: `err` times the size of the data, `gain` times their error -/
def Amp.bound (a : Amp) (X ε : ℝ) : ℝ := a.err * (X + ε) + a.gain * ε

end
end Verif.Spec
