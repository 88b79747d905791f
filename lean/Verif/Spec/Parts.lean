/-
Specification for C95: maps of data that respect the operations of the coefficient operators (taking the
real part, taking the imaginary part, complex conjugation, …).
-/
import Verif.Model.Axis

namespace Verif.Spec
open Res

/-- Apply `h` to the result of a run, if there is one. -/
def onResult {α β : Type} (h : α → β) : Res α → Res β
  | ok a => ok (h a)
  | err e => err e

/-- Apply `h` to every element of an array. -/
def onArray {S T : Type} (h : S → T) (a : Arr S) : Arr T := ⟨a.shape, a.data.map h, a.std⟩

/-- `h` turns data of type `T` into data of type `T'` and respects `0`, `+`, `-`, the product with a number
and the division by a number (including whether the division returns). -/
structure Respects (K : Type) {T T' : Type} [Zero T] [Add T] [Sub T] [SMul K T] [DivBy K T]
    [Zero T'] [Add T'] [Sub T'] [SMul K T'] [DivBy K T'] (h : T → T') : Prop where
  zero : h 0 = 0
  add : ∀ x y, h (x + y) = h x + h y
  sub : ∀ x y, h (x - y) = h x - h y
  smul : ∀ (k : K) x, h (k • x) = k • h x
  div : ∀ x (k : K), divR (h x) k = onResult h (divR x k)

end Verif.Spec
