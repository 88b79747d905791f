/-
Specification for C89 in more than one dimension: symmetries of bases.
-/
import Verif.Spec.Tensor

namespace Verif.Spec
open Res

/-- `forward` of the base turns data rearranged by `σ` into coefficients multiplied by `β`. -/
def Symmetric {P S T : Type} [Zero P] [Mul S] [Zero S] (b : Base P S T) (σ : ℕ → ℕ) (β : ℕ → S) : Prop :=
  (∀ j < b.lenPhys, σ j < b.lenPhys) ∧
    ∀ x x' X, x.length = b.lenPhys → x'.length = b.lenPhys → (∀ j < b.lenPhys, nth x' j = nth x (σ j)) →
      Returns b.forwardSlice b.lenSpec x X →
      ∃ X', Returns b.forwardSlice b.lenSpec x' X' ∧ ∀ k < b.lenSpec, nth X' k = β k * nth X k

/-- Symmetries of the two bases are symmetries of the space: data rearranged by `σ` along the first axis and by `τ`
along the second become coefficients multiplied by the factors of both. -/
def SymmetricSpace2 {P I S T : Type} [Zero P] [CommRing I] [CommRing S] [Algebra I S] [Zero T]
    (sp : Space2 P I S T) : Prop :=
  ∀ σ τ β γ, Symmetric sp.base0 σ β → Symmetric sp.base1 τ γ →
    ∀ a a', Good a sp.shapePhysical → Good a' sp.shapePhysical →
      (∀ i < sp.base0.lenPhys, ∀ j < sp.base1.lenPhys, at_ a' [i, j] = at_ a [σ i, τ j]) →
      ∃ v v', sp.forward a = ok v ∧ sp.forward a' = ok v' ∧ Good v sp.shapeSpectral ∧ Good v' sp.shapeSpectral ∧
        ∀ k < sp.base0.lenSpec, ∀ l < sp.base1.lenSpec, at_ v' [k, l] = γ l • (β k * at_ v [k, l])

/-- The same in three dimensions. -/
def SymmetricSpace3 {P I J S T : Type} [Zero P] [CommRing I] [CommRing J] [CommRing S] [Algebra I J] [Algebra J S]
    [Zero T] (sp : Space3 P I J S T) : Prop :=
  ∀ σ τ ρ β γ δ, Symmetric sp.base0 σ β → Symmetric sp.base1 τ γ → Symmetric sp.base2 ρ δ →
    ∀ a a', Good a sp.shapePhysical → Good a' sp.shapePhysical →
      (∀ i < sp.base0.lenPhys, ∀ j < sp.base1.lenPhys, ∀ k < sp.base2.lenPhys,
        at_ a' [i, j, k] = at_ a [σ i, τ j, ρ k]) →
      ∃ v v', sp.forward a = ok v ∧ sp.forward a' = ok v' ∧ Good v sp.shapeSpectral ∧ Good v' sp.shapeSpectral ∧
        ∀ k < sp.base0.lenSpec, ∀ l < sp.base1.lenSpec, ∀ m < sp.base2.lenSpec,
          at_ v' [k, l, m] = (δ m • γ l) • (β k * at_ v [k, l, m])

end Verif.Spec
