/-
Specification for C96 and C97: the scaling of derivatives in arithmetic with rounding.
-/
import Verif.Spec.Accurate
import Verif.Model.Spaces

namespace Verif.Spec
open Res
noncomputable section

/-- `x.powi(d)` is the power up to `d` roundings, as by multiplication or by repeated squaring. -/
def PowiError (R : Rounding) [Powi (Rnd R)] : Prop :=
  ∀ (c : Rnd R) (d : ℕ), d < 2 ^ 31 → ∃ p θ, powi c (d : ℤ) = ok p ∧ p.val = c.val ^ d * θ ∧
    (1 - R.u) ^ d ≤ θ ∧ θ * (1 - R.u) ^ d ≤ 1

/-- Division of an element by a number is one rounding. -/
def DivError (R : Rounding) {T E : Type} [NormedAddCommGroup E] [NormedSpace ℝ E] [DivBy (Rnd R) T] (v : T → E) : Prop :=
  ∀ (x : T) (s : Rnd R), s.val ≠ 0 → ∃ y, divR x s = ok y ∧ ‖v y - s.val⁻¹ • v x‖ ≤ R.u * ‖s.val⁻¹ • v x‖

/-- the scales without rounding -/
def exact1 {R : Rounding} (s : Option (Rnd R)) : Option ℝ := s.map Rnd.val

def exact2 {R : Rounding} (s : Option (Rnd R × Rnd R)) : Option (ℝ × ℝ) := s.map (fun c => (c.1.val, c.2.val))

/-- division by `scale₀^d₀` -/
def scaleAmp1 (R : Rounding) (d0 : ℕ) : Option (Rnd R) → Amp
  | none => ⟨1, 0⟩
  | some c => ⟨|(c.val ^ d0)⁻¹|, R.γ (d0 + 1) * |(c.val ^ d0)⁻¹|⟩

/-- division by `scale₀^d₀ · scale₁^d₁` -/
def scaleAmp2 (R : Rounding) (d0 d1 : ℕ) : Option (Rnd R × Rnd R) → Amp
  | none => ⟨1, 0⟩
  | some (c0, c1) => ⟨|(c0.val ^ d0 * c1.val ^ d1)⁻¹|, R.γ (d0 + d1 + 2) * |(c0.val ^ d0 * c1.val ^ d1)⁻¹|⟩

end
end Verif.Spec
