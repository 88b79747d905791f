/-
Specification for C109: a space and the space of its orthogonal bases.
-/
import Verif.Model.Spaces
import Verif.Spec.Space

namespace Verif.Spec
open Res

/-- `b` is one of the real-to-real bases made by the public constructors, with `n` points, on which `to_ortho`,
`from_ortho` and `gradient` run; `b'` is the base made by `chebyshev(n)`. -/
def OverCheb {T : Type} [AddCommGroup T] [Module ℝ T] (b b' : Base ℝ ℝ T) : Prop :=
  ∃ k n b0 b0', newR2r k n = ok b0 ∧ RunsMul k ∧ RunsSolve k n ∧ RunsGrad k n ∧ chebyshev n = ok b0' ∧
    b = b0.toBase T ∧ b' = b0'.toBase T

/-- The transforms of a one-dimensional space are those of the space `spo`, up to `from_ortho` and `to_ortho`. -/
structure Factors1 {P S : Type} [Zero P] [AddCommGroup S] (sp spo : Space1 P S S) : Prop where
  /-- `forward` is `forward` of `spo` followed by `from_ortho` -/
  forward : ∀ a, Good a sp.shapePhysical →
    ∃ w r, spo.forward a = ok w ∧ sp.fromOrtho w = ok r ∧ sp.forward a = ok r
  /-- `backward` is `to_ortho` followed by `backward` of `spo` -/
  backward : ∀ v, Good v sp.shapeSpectral →
    ∃ w r, sp.toOrtho v = ok w ∧ spo.backward w = ok r ∧ sp.backward v = ok r

@[inherit_doc Factors1]
structure Factors2 {P I S : Type} [Zero P] [Zero I] [AddCommGroup S] (sp spo : Space2 P I S S) : Prop where
  forward : ∀ a, Good a sp.shapePhysical →
    ∃ w r, spo.forward a = ok w ∧ sp.fromOrtho w = ok r ∧ sp.forward a = ok r
  backward : ∀ v, Good v sp.shapeSpectral →
    ∃ w r, sp.toOrtho v = ok w ∧ spo.backward w = ok r ∧ sp.backward v = ok r

@[inherit_doc Factors1]
structure Factors3 {P I J S : Type} [Zero P] [Zero I] [Zero J] [AddCommGroup S] (sp spo : Space3 P I J S S) :
    Prop where
  forward : ∀ a, Good a sp.shapePhysical →
    ∃ w r, spo.forward a = ok w ∧ sp.fromOrtho w = ok r ∧ sp.forward a = ok r
  backward : ∀ v, Good v sp.shapeSpectral →
    ∃ w r, sp.toOrtho v = ok w ∧ spo.backward w = ok r ∧ sp.backward v = ok r

/-- Derivatives in a one-dimensional space: they are those of `spo` after `to_ortho`, and a derivative of a
derivative is the derivative of the sum of the orders. -/
structure Derives1 {P S : Type} [Zero P] [AddCommGroup S] [Module ℝ S] (sp spo : Space1 P S S) : Prop where
  /-- `gradient` is `to_ortho` followed by `gradient` of `spo` -/
  expand : ∀ v d0 s, Good v sp.shapeSpectral → (s ≠ none → d0 < 2 ^ 31) → scale1 d0 s ≠ 0 →
    ∃ w r, sp.toOrtho v = ok w ∧ spo.gradient w d0 s = ok r ∧ sp.gradient v d0 s = ok r
  /-- `gradient` followed by `gradient` of `spo` is one `gradient` -/
  compose : ∀ v d0 e0 s, Good v sp.shapeSpectral → (s ≠ none → d0 + e0 < 2 ^ 31) → scale1 (d0 + e0) s ≠ 0 →
    ∃ w r, sp.gradient v d0 s = ok w ∧ spo.gradient w e0 s = ok r ∧ sp.gradient v (d0 + e0) s = ok r

@[inherit_doc Derives1]
structure Derives2 {P I S : Type} [Zero P] [Zero I] [AddCommGroup S] [Module ℝ S] (sp spo : Space2 P I S S) :
    Prop where
  expand : ∀ v d0 d1 s, Good v sp.shapeSpectral → (s ≠ none → d0 < 2 ^ 31 ∧ d1 < 2 ^ 31) → scale2 d0 d1 s ≠ 0 →
    ∃ w r, sp.toOrtho v = ok w ∧ spo.gradient w d0 d1 s = ok r ∧ sp.gradient v d0 d1 s = ok r
  compose : ∀ v d0 d1 e0 e1 s, Good v sp.shapeSpectral → (s ≠ none → d0 + e0 < 2 ^ 31 ∧ d1 + e1 < 2 ^ 31) →
    scale2 (d0 + e0) (d1 + e1) s ≠ 0 →
    ∃ w r, sp.gradient v d0 d1 s = ok w ∧ spo.gradient w e0 e1 s = ok r ∧
      sp.gradient v (d0 + e0) (d1 + e1) s = ok r

@[inherit_doc Derives1]
structure Derives3 {P I J S : Type} [Zero P] [Zero I] [Zero J] [AddCommGroup S] [Module ℝ S]
    (sp spo : Space3 P I J S S) : Prop where
  expand : ∀ v d0 d1 d2 s, Good v sp.shapeSpectral → (s ≠ none → d0 < 2 ^ 31 ∧ d1 < 2 ^ 31 ∧ d2 < 2 ^ 31) →
    scale3 d0 d1 d2 s ≠ 0 →
    ∃ w r, sp.toOrtho v = ok w ∧ spo.gradient w d0 d1 d2 s = ok r ∧ sp.gradient v d0 d1 d2 s = ok r
  compose : ∀ v d0 d1 d2 e0 e1 e2 s, Good v sp.shapeSpectral →
    (s ≠ none → d0 + e0 < 2 ^ 31 ∧ d1 + e1 < 2 ^ 31 ∧ d2 + e2 < 2 ^ 31) →
    scale3 (d0 + e0) (d1 + e1) (d2 + e2) s ≠ 0 →
    ∃ w r, sp.gradient v d0 d1 d2 s = ok w ∧ spo.gradient w e0 e1 e2 s = ok r ∧
      sp.gradient v (d0 + e0) (d1 + e1) (d2 + e2) s = ok r

end Verif.Spec
