/-
Specification for C111: arrays and operations with two axes exchanged.
-/
import Verif.Spec.Tensor

namespace Verif.Spec
open Res

/-- `a'` is the transpose of the `n0 × n1` array `a`. -/
def Swapped {M : Type} [Zero M] (n0 n1 : ℕ) (a a' : Arr M) : Prop :=
  Good a [n0, n1] ∧ Good a' [n1, n0] ∧ ∀ i < n0, ∀ j < n1, at_ a' [j, i] = at_ a [i, j]

/-- `a'` is the `n0 × n1 × n2` array `a` with the first two axes exchanged. -/
def Swapped01 {M : Type} [Zero M] (n0 n1 n2 : ℕ) (a a' : Arr M) : Prop :=
  Good a [n0, n1, n2] ∧ Good a' [n1, n0, n2] ∧
    ∀ i < n0, ∀ j < n1, ∀ k < n2, at_ a' [j, i, k] = at_ a [i, j, k]

/-- `a'` is the `n0 × n1 × n2` array `a` with the last two axes exchanged. -/
def Swapped12 {M : Type} [Zero M] (n0 n1 n2 : ℕ) (a a' : Arr M) : Prop :=
  Good a [n0, n1, n2] ∧ Good a' [n0, n2, n1] ∧
    ∀ i < n0, ∀ j < n1, ∀ k < n2, at_ a' [i, k, j] = at_ a [i, j, k]

/-- `op` and `op'` return, and turn arrays related by `r` into arrays related by `s`. -/
def Relates {M : Type} (r s : Arr M → Arr M → Prop) (op op' : Arr M → Res (Arr M)) : Prop :=
  ∀ a a', r a a' → ∃ v v', op a = ok v ∧ op' a' = ok v' ∧ s v v'

/-- The operations of the space `sp'`, which has the two bases of `sp` in the other order, are those of `sp` with the
axes exchanged. -/
structure SameUpToSwap {K : Type} [CommRing K] [Algebra ℝ K] (sp sp' : Space2 K K K K) : Prop where
  forward : Relates (Swapped sp.base0.lenPhys sp.base1.lenPhys) (Swapped sp.base0.lenSpec sp.base1.lenSpec)
    sp.forward sp'.forward
  backward : Relates (Swapped sp.base0.lenSpec sp.base1.lenSpec) (Swapped sp.base0.lenPhys sp.base1.lenPhys)
    sp.backward sp'.backward
  toOrtho : Relates (Swapped sp.base0.lenSpec sp.base1.lenSpec) (Swapped sp.base0.lenOrth sp.base1.lenOrth)
    sp.toOrtho sp'.toOrtho
  fromOrtho : Relates (Swapped sp.base0.lenOrth sp.base1.lenOrth) (Swapped sp.base0.lenSpec sp.base1.lenSpec)
    sp.fromOrtho sp'.fromOrtho
  gradient : ∀ (d0 d1 : ℕ) (s : Option (ℝ × ℝ)), (s ≠ none → d0 < 2 ^ 31 ∧ d1 < 2 ^ 31) → scale2 d0 d1 s ≠ 0 →
    Relates (Swapped sp.base0.lenSpec sp.base1.lenSpec) (Swapped sp.base0.lenOrth sp.base1.lenOrth)
      (fun v => sp.gradient v d0 d1 s) (fun v => sp'.gradient v d1 d0 (s.map Prod.swap))

/-- The operations of the space `sp'` are those of `sp` with two axes exchanged; `r n0 n1 n2` relates arrays of shape
`n0 × n1 × n2` with arrays whose axes are exchanged. -/
structure SameUpTo {K : Type} [CommRing K] (r : ℕ → ℕ → ℕ → Arr K → Arr K → Prop) (sp sp' : Space3 K K K K K) :
    Prop where
  forward : Relates (r sp.base0.lenPhys sp.base1.lenPhys sp.base2.lenPhys)
    (r sp.base0.lenSpec sp.base1.lenSpec sp.base2.lenSpec) sp.forward sp'.forward
  backward : Relates (r sp.base0.lenSpec sp.base1.lenSpec sp.base2.lenSpec)
    (r sp.base0.lenPhys sp.base1.lenPhys sp.base2.lenPhys) sp.backward sp'.backward
  toOrtho : Relates (r sp.base0.lenSpec sp.base1.lenSpec sp.base2.lenSpec)
    (r sp.base0.lenOrth sp.base1.lenOrth sp.base2.lenOrth) sp.toOrtho sp'.toOrtho
  fromOrtho : Relates (r sp.base0.lenOrth sp.base1.lenOrth sp.base2.lenOrth)
    (r sp.base0.lenSpec sp.base1.lenSpec sp.base2.lenSpec) sp.fromOrtho sp'.fromOrtho

end Verif.Spec
