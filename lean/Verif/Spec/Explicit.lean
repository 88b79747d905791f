/-
Time stepping of grid data with the library's derivatives, for property C114.
-/
import Verif.Spec.ByParts

namespace Verif.Spec
open Finset

/-- One explicit Euler step of length `dt` for `∂u/∂t = -(-1)^m ∂^{2m}u/∂x^{2m}` (diffusion for `m = 1`): differentiate the
grid data with the library and subtract. -/
def DiffusionStep {S A : Type} (b : Base ℝ S S A) (m : ℕ) (dt : ℝ) (x x' : List ℝ) : Prop :=
  ∃ w, GridDeriv b (2 * m) x w ∧ x'.length = x.length ∧ ∀ j < x.length, nth x' j = nth x j - (-1) ^ m * dt * nth w j

/-- One explicit Euler step for `∂u/∂t = -∂^d u/∂x^d` (advection for `d = 1`). -/
def EulerWaveStep {S A : Type} (b : Base ℝ S S A) (d : ℕ) (dt : ℝ) (x x' w : List ℝ) : Prop :=
  GridDeriv b d x w ∧ x'.length = x.length ∧ ∀ j < x.length, nth x' j = nth x j - dt * nth w j

/-- One leapfrog step for `∂u/∂t = -∂^d u/∂x^d`: from `x` and `x'` to `x''`. -/
def LeapfrogStep {S A : Type} (b : Base ℝ S S A) (d : ℕ) (dt : ℝ) (x x' x'' : List ℝ) : Prop :=
  ∃ w, GridDeriv b d x' w ∧ x''.length = x.length ∧ ∀ j < x.length, nth x'' j = nth x j - 2 * dt * nth w j

/-- One step of the implicit midpoint rule (Crank-Nicolson) for `∂u/∂t = -∂^d u/∂x^d`. -/
def CrankNicolsonStep {S A : Type} (b : Base ℝ S S A) (d : ℕ) (dt : ℝ) (x x' : List ℝ) : Prop :=
  ∃ w w', GridDeriv b d x w ∧ GridDeriv b d x' w' ∧ x'.length = x.length ∧
    ∀ j < x.length, nth x' j = nth x j - dt / 2 * (nth w j + nth w' j)

/-- the energy of grid data -/
def energy (x : List ℝ) : ℝ := ∑ j ∈ range x.length, nth x j ^ 2

end Verif.Spec
