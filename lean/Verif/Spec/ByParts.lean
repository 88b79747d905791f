/-
Differentiation of grid data, for property C112.
-/
import Verif.Spec.Tensor

namespace Verif.Spec
open Res

/-- `w` is the `d`-th derivative of the grid data `x` as the library computes it: `forward`, then `gradient` of order `d`,
then `backward`, whatever the output buffers hold. -/
def GridDeriv {P S A : Type} (b : Base P S S A) (d : ℕ) (x w : List P) : Prop :=
  ∃ v g, Returns b.forwardSlice b.lenSpec x v ∧ Returns (fun v out => b.gradientSlice v out d) b.lenOrth v g ∧
    Returns b.backwardSlice b.lenPhys g w

end Verif.Spec
