/-
Band-limited grid data, for property C113.
-/
import Verif.Spec.ByParts
import Verif.Spec.Product

namespace Verif.Spec
open Res

/-- The coefficients that `forward` computes of the grid data `x` vanish beyond the index `M`. -/
def BandLimited {P S T A : Type} [Zero S] (b : Base P S T A) (M : ℕ) (x : List P) : Prop :=
  ∃ X, Returns b.forwardSlice b.lenSpec x X ∧ ∀ k, M < k → nth X k = 0

end Verif.Spec
