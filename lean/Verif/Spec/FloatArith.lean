/-
Specification: Lean's `Float` (IEEE 754 binary64, the model of `f64`) as an arithmetic.  The transforms are
written out as the sums that define them, evaluated with rounding.
-/
import Verif.Spec.Arith

namespace Verif.Spec
open Res

/-- `∑ᵢ f i`, `i < n`, summed up from the left with rounding. -/
def sumTo {C : Type} [Add C] (zero : C) (n : ℕ) (f : ℕ → C) : C := (List.range n).foldl (fun s i => s + f i) zero

instance : Zero Float := ⟨0.0⟩
instance : One Float := ⟨1.0⟩
instance : NatCast Float := ⟨Float.ofNat⟩
instance : DivBy Float Float := ⟨fun x a => ok (x / a)⟩
instance : Pow Float ℕ := ⟨fun x k => Float.pow x (Float.ofNat k)⟩

/-- `π` as a floating-point number -/
def floatPi : Float := 3.14159265358979323846

instance : Libm Float := ⟨floatPi, Float.sin, fun x => x.ceil.toUInt64.toNat⟩

/-- The cosine transform of type 1, summed up directly. -/
instance : HasDct Float := ⟨fun l =>
  (List.range l.length).map (fun k => sumTo 0.0 l.length (fun j =>
    (if j = 0 ∨ j + 1 = l.length then 0.5 else 1.0) * nth l j *
      Float.cos (floatPi * Float.ofNat (j * k) / Float.ofNat (l.length - 1))))⟩

instance : Powi Float := ⟨fun x k => ok (Float.pow x (Float.ofInt k))⟩

noncomputable instance : Arith Float where
  div_returns x a := ⟨x / a, rfl⟩
  powi_returns x k := ⟨Float.pow x (Float.ofInt k), rfl⟩
  dct_length l := by simp [HasDct.dct]

/-- A complex number as a pair of floating-point numbers. -/
structure FloatC where
  re : Float
  im : Float

namespace FloatC

instance : Zero FloatC := ⟨⟨0.0, 0.0⟩⟩
instance : Add FloatC := ⟨fun a b => ⟨a.re + b.re, a.im + b.im⟩⟩
instance : Sub FloatC := ⟨fun a b => ⟨a.re - b.re, a.im - b.im⟩⟩
instance : Mul FloatC := ⟨fun a b => ⟨a.re * b.re - a.im * b.im, a.re * b.im + a.im * b.re⟩⟩
instance : SMul Float FloatC := ⟨fun c a => ⟨c * a.re, c * a.im⟩⟩
instance : DivBy Float FloatC := ⟨fun a c => ok ⟨a.re / c, a.im / c⟩⟩
instance : Cplx Float FloatC := ⟨FloatC.mk, FloatC.re, FloatC.im⟩

/-- `exp(i t)` -/
def expI (t : Float) : FloatC := ⟨Float.cos t, Float.sin t⟩

/-- The Fourier transform, summed up directly; `s = -1.0` forward, `s = 1.0` inverse. -/
def dftSum (s : Float) (l : List FloatC) : List FloatC :=
  (List.range l.length).map (fun k => sumTo 0 l.length (fun j =>
    nth l j * expI (s * 2.0 * floatPi * Float.ofNat (j * k) / Float.ofNat l.length)))

/-- Transforms of sequences of wrong length are rejected. -/
instance : HasFft Float FloatC where
  fwd := dftSum (-1.0)
  inv := dftSum 1.0
  rfwd l := (dftSum (-1.0) (l.map (fun x => ⟨x, 0.0⟩))).take (l.length / 2 + 1) ++
    List.replicate (l.length / 2 + 1 - l.length) 0
  rinv n l := do
    assertR (l.length = n / 2 + 1)
    pure ((List.range n).map (fun j => sumTo 0.0 (n / 2 + 1) (fun k =>
      (if k = 0 ∨ 2 * k = n then 1.0 else 2.0) *
        (nth l k * expI (2.0 * floatPi * Float.ofNat (j * k) / Float.ofNat n)).re)))

end FloatC

noncomputable instance : CArith Float FloatC where
  scale_returns x a := ⟨⟨x.re / a, x.im / a⟩, rfl⟩
  fft_sizes := {
    fwd := fun l => by simp [HasFft.fwd, FloatC.dftSum]
    inv := fun l => by simp [HasFft.inv, FloatC.dftSum]
    rfwd := fun l => by
      simp [HasFft.rfwd, FloatC.dftSum]
      omega
    im_pair := fun _ _ => rfl
    rinv := fun n l hl _ _ => ⟨_, by
      dsimp only [HasFft.rinv]
      rw [assertR, if_pos hl, bind_ok]; rfl, by simp⟩ }

end Verif.Spec
