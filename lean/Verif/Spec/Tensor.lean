/-
Specification for C110: sums of products.
-/
import Verif.Model.Spaces
import Verif.Spec.Space

namespace Verif.Spec
open Res Finset

/-- The operation `f` on slices returns `y` for the input `x`, whatever the output buffer of length `m` holds. -/
def Returns {S T : Type} (f : List S → List T → Res (List T)) (m : ℕ) (x : List S) (y : List T) : Prop :=
  ∀ out, out.length = m → f x out = ok y

/-- The array `a` has the shape `n0 × n1` and its elements are the sums over `r < N` of `t r i j`. -/
def SumOf2 {M : Type} [AddCommMonoid M] (a : Arr M) (n0 n1 N : ℕ) (t : ℕ → ℕ → ℕ → M) : Prop :=
  Good a [n0, n1] ∧ ∀ i < n0, ∀ j < n1, at_ a [i, j] = ∑ r ∈ range N, t r i j

/-- The array `a` has the shape `n0 × n1 × n2` and its elements are the sums over `r < N` of `t r i j k`. -/
def SumOf3 {M : Type} [AddCommMonoid M] (a : Arr M) (n0 n1 n2 N : ℕ) (t : ℕ → ℕ → ℕ → ℕ → M) : Prop :=
  Good a [n0, n1, n2] ∧ ∀ i < n0, ∀ j < n1, ∀ k < n2, at_ a [i, j, k] = ∑ r ∈ range N, t r i j k

section
variable {P I J S T : Type} (R : Type) [CommRing R] [AddCommGroup P] [Module R P] [CommRing I] [Algebra R I]
  [AddCommGroup S] [Module I S] [Zero T]

/-- `forward` of a two-dimensional space acts on sums of products factor by factor: if `a = ∑ᵣ xᵣ ⊗ yᵣ`, and
`forward` of the bases turns `xᵣ`, `yᵣ` into `Xᵣ`, `Yᵣ`, then `forward` of the space turns `a` into `∑ᵣ Xᵣ ⊗ Yᵣ`.
`R` are the numbers by which data on the grid can be multiplied, `I` the coefficients of the second base
(`algebraMap R I` is the inclusion: the identity, or real numbers as complex numbers). -/
def ForwardFactors2 (sp : Space2 P I S T) : Prop :=
  ∀ (N : ℕ) (x : ℕ → List R) (y : ℕ → List P) (X : ℕ → List S) (Y : ℕ → List I),
    (∀ r < N, (x r).length = sp.base0.lenPhys ∧ (y r).length = sp.base1.lenPhys ∧
      Returns sp.base0.forwardSlice sp.base0.lenSpec ((x r).map (algebraMap R I)) (X r) ∧
      Returns sp.base1.forwardSlice sp.base1.lenSpec (y r) (Y r)) →
    ∀ a, SumOf2 a sp.base0.lenPhys sp.base1.lenPhys N (fun r i j => nth (x r) i • nth (y r) j) →
      ∃ v, sp.forward a = ok v ∧
        SumOf2 v sp.base0.lenSpec sp.base1.lenSpec N fun r k l => nth (Y r) l • nth (X r) k

/-- `backward` of a two-dimensional space acts on sums of products factor by factor. -/
def BackwardFactors2 (sp : Space2 P I S T) : Prop :=
  ∀ (N : ℕ) (x : ℕ → List R) (y : ℕ → List P) (X : ℕ → List S) (Y : ℕ → List I),
    (∀ r < N, (X r).length = sp.base0.lenSpec ∧ (Y r).length = sp.base1.lenSpec ∧
      Returns sp.base0.backwardSlice sp.base0.lenPhys (X r) ((x r).map (algebraMap R I)) ∧
      Returns sp.base1.backwardSlice sp.base1.lenPhys (Y r) (y r)) →
    ∀ v, SumOf2 v sp.base0.lenSpec sp.base1.lenSpec N (fun r k l => nth (Y r) l • nth (X r) k) →
      ∃ a, sp.backward v = ok a ∧
        SumOf2 a sp.base0.lenPhys sp.base1.lenPhys N fun r i j => nth (x r) i • nth (y r) j

end

section
variable {P I J S T : Type} (R : Type) [CommRing R] [AddCommGroup P] [Module R P] [CommRing I] [Algebra R I]
  [CommRing J] [Algebra I J] [AddCommGroup S] [Module J S] [Zero T]

/-- `forward` of a three-dimensional space acts on sums of products factor by factor. -/
def ForwardFactors3 (sp : Space3 P I J S T) : Prop :=
  ∀ (N : ℕ) (x : ℕ → List R) (y : ℕ → List R) (z : ℕ → List P) (X : ℕ → List S) (Y : ℕ → List J) (Z : ℕ → List I),
    (∀ r < N, (x r).length = sp.base0.lenPhys ∧ (y r).length = sp.base1.lenPhys ∧
      (z r).length = sp.base2.lenPhys ∧
      Returns sp.base0.forwardSlice sp.base0.lenSpec ((x r).map fun t => algebraMap I J (algebraMap R I t)) (X r) ∧
      Returns sp.base1.forwardSlice sp.base1.lenSpec ((y r).map (algebraMap R I)) (Y r) ∧
      Returns sp.base2.forwardSlice sp.base2.lenSpec (z r) (Z r)) →
    ∀ a, SumOf3 a sp.base0.lenPhys sp.base1.lenPhys sp.base2.lenPhys N
        (fun r i j k => (nth (x r) i * nth (y r) j) • nth (z r) k) →
      ∃ v, sp.forward a = ok v ∧
        SumOf3 v sp.base0.lenSpec sp.base1.lenSpec sp.base2.lenSpec N fun r k l m =>
          (nth (Z r) m • nth (Y r) l) • nth (X r) k

/-- `backward` of a three-dimensional space acts on sums of products factor by factor. -/
def BackwardFactors3 (sp : Space3 P I J S T) : Prop :=
  ∀ (N : ℕ) (x : ℕ → List R) (y : ℕ → List R) (z : ℕ → List P) (X : ℕ → List S) (Y : ℕ → List J) (Z : ℕ → List I),
    (∀ r < N, (X r).length = sp.base0.lenSpec ∧ (Y r).length = sp.base1.lenSpec ∧
      (Z r).length = sp.base2.lenSpec ∧
      Returns sp.base0.backwardSlice sp.base0.lenPhys (X r) ((x r).map fun t => algebraMap I J (algebraMap R I t)) ∧
      Returns sp.base1.backwardSlice sp.base1.lenPhys (Y r) ((y r).map (algebraMap R I)) ∧
      Returns sp.base2.backwardSlice sp.base2.lenPhys (Z r) (z r)) →
    ∀ v, SumOf3 v sp.base0.lenSpec sp.base1.lenSpec sp.base2.lenSpec N (fun r k l m =>
          (nth (Z r) m • nth (Y r) l) • nth (X r) k) →
      ∃ a, sp.backward v = ok a ∧
        SumOf3 a sp.base0.lenPhys sp.base1.lenPhys sp.base2.lenPhys N
          fun r i j k => (nth (x r) i * nth (y r) j) • nth (z r) k

end

section
variable {P I J S : Type} [Zero P] [Zero I] [Zero J] [CommRing S] [Algebra ℝ S]

/-- `to_ortho`, `from_ortho` and `gradient` of a two-dimensional space act on sums of products factor by factor. -/
structure SpectralFactors2 (sp : Space2 P I S S) : Prop where
  toOrtho : ∀ (N : ℕ) (X Y X' Y' : ℕ → List S),
    (∀ r < N, (X r).length = sp.base0.lenSpec ∧ (Y r).length = sp.base1.lenSpec ∧
      Returns sp.base0.toOrthoSlice sp.base0.lenOrth (X r) (X' r) ∧
      Returns sp.base1.toOrthoSlice sp.base1.lenOrth (Y r) (Y' r)) →
    ∀ v, SumOf2 v sp.base0.lenSpec sp.base1.lenSpec N (fun r k l => nth (X r) k * nth (Y r) l) →
      ∃ w, sp.toOrtho v = ok w ∧
        SumOf2 w sp.base0.lenOrth sp.base1.lenOrth N fun r k l => nth (X' r) k * nth (Y' r) l
  fromOrtho : ∀ (N : ℕ) (X Y X' Y' : ℕ → List S),
    (∀ r < N, (X r).length = sp.base0.lenOrth ∧ (Y r).length = sp.base1.lenOrth ∧
      Returns sp.base0.fromOrthoSlice sp.base0.lenSpec (X r) (X' r) ∧
      Returns sp.base1.fromOrthoSlice sp.base1.lenSpec (Y r) (Y' r)) →
    ∀ v, SumOf2 v sp.base0.lenOrth sp.base1.lenOrth N (fun r k l => nth (X r) k * nth (Y r) l) →
      ∃ w, sp.fromOrtho v = ok w ∧
        SumOf2 w sp.base0.lenSpec sp.base1.lenSpec N fun r k l => nth (X' r) k * nth (Y' r) l
  gradient : ∀ (d0 d1 : ℕ) (s : Option (ℝ × ℝ)), (s ≠ none → d0 < 2 ^ 31 ∧ d1 < 2 ^ 31) → scale2 d0 d1 s ≠ 0 →
    ∀ (N : ℕ) (X Y X' Y' : ℕ → List S),
    (∀ r < N, (X r).length = sp.base0.lenSpec ∧ (Y r).length = sp.base1.lenSpec ∧
      Returns (fun v out => sp.base0.gradientSlice v out d0) sp.base0.lenOrth (X r) (X' r) ∧
      Returns (fun v out => sp.base1.gradientSlice v out d1) sp.base1.lenOrth (Y r) (Y' r)) →
    ∀ v, SumOf2 v sp.base0.lenSpec sp.base1.lenSpec N (fun r k l => nth (X r) k * nth (Y r) l) →
      ∃ w, sp.gradient v d0 d1 s = ok w ∧
        SumOf2 w sp.base0.lenOrth sp.base1.lenOrth N fun r k l =>
          (scale2 d0 d1 s)⁻¹ • (nth (X' r) k * nth (Y' r) l)

/-- `to_ortho` and `from_ortho` of a three-dimensional space act on sums of products factor by factor. -/
structure SpectralFactors3 (sp : Space3 P I J S S) : Prop where
  toOrtho : ∀ (N : ℕ) (X Y Z X' Y' Z' : ℕ → List S),
    (∀ r < N, (X r).length = sp.base0.lenSpec ∧ (Y r).length = sp.base1.lenSpec ∧ (Z r).length = sp.base2.lenSpec ∧
      Returns sp.base0.toOrthoSlice sp.base0.lenOrth (X r) (X' r) ∧
      Returns sp.base1.toOrthoSlice sp.base1.lenOrth (Y r) (Y' r) ∧
      Returns sp.base2.toOrthoSlice sp.base2.lenOrth (Z r) (Z' r)) →
    ∀ v, SumOf3 v sp.base0.lenSpec sp.base1.lenSpec sp.base2.lenSpec N
        (fun r k l m => nth (X r) k * nth (Y r) l * nth (Z r) m) →
      ∃ w, sp.toOrtho v = ok w ∧
        SumOf3 w sp.base0.lenOrth sp.base1.lenOrth sp.base2.lenOrth N fun r k l m =>
          nth (X' r) k * nth (Y' r) l * nth (Z' r) m
  fromOrtho : ∀ (N : ℕ) (X Y Z X' Y' Z' : ℕ → List S),
    (∀ r < N, (X r).length = sp.base0.lenOrth ∧ (Y r).length = sp.base1.lenOrth ∧ (Z r).length = sp.base2.lenOrth ∧
      Returns sp.base0.fromOrthoSlice sp.base0.lenSpec (X r) (X' r) ∧
      Returns sp.base1.fromOrthoSlice sp.base1.lenSpec (Y r) (Y' r) ∧
      Returns sp.base2.fromOrthoSlice sp.base2.lenSpec (Z r) (Z' r)) →
    ∀ v, SumOf3 v sp.base0.lenOrth sp.base1.lenOrth sp.base2.lenOrth N
        (fun r k l m => nth (X r) k * nth (Y r) l * nth (Z r) m) →
      ∃ w, sp.fromOrtho v = ok w ∧
        SumOf3 w sp.base0.lenSpec sp.base1.lenSpec sp.base2.lenSpec N fun r k l m =>
          nth (X' r) k * nth (Y' r) l * nth (Z' r) m

/-- `gradient` of a three-dimensional space acts on sums of products factor by factor (the derivative of the third
factor being that of the *second* base, see C40). -/
def GradientFactors3 (sp : Space3 P I J S S) : Prop :=
  ∀ (d0 d1 d2 : ℕ) (s : Option (ℝ × ℝ × ℝ)), (s ≠ none → d0 < 2 ^ 31 ∧ d1 < 2 ^ 31 ∧ d2 < 2 ^ 31) →
    scale3 d0 d1 d2 s ≠ 0 → ∀ (N : ℕ) (X Y Z X' Y' Z' : ℕ → List S),
    (∀ r < N, (X r).length = sp.base0.lenSpec ∧ (Y r).length = sp.base1.lenSpec ∧ (Z r).length = sp.base2.lenSpec ∧
      Returns (fun v out => sp.base0.gradientSlice v out d0) sp.base0.lenOrth (X r) (X' r) ∧
      Returns (fun v out => sp.base1.gradientSlice v out d1) sp.base1.lenOrth (Y r) (Y' r) ∧
      Returns (fun v out => sp.base1.gradientSlice v out d2) sp.base1.lenOrth (Z r) (Z' r)) →
    ∀ v, SumOf3 v sp.base0.lenSpec sp.base1.lenSpec sp.base2.lenSpec N
        (fun r k l m => nth (X r) k * nth (Y r) l * nth (Z r) m) →
      ∃ w, sp.gradient v d0 d1 d2 s = ok w ∧
        SumOf3 w sp.base0.lenOrth sp.base1.lenOrth sp.base1.lenOrth N fun r k l m =>
          (scale3 d0 d1 d2 s)⁻¹ • (nth (X' r) k * nth (Y' r) l * nth (Z' r) m)

end

/-- `b` is a real-to-real base made by one of the public constructors, with enough points for all its operations. -/
def IsFullR2r {T : Type} [AddCommGroup T] [Module ℝ T] (b : Base ℝ ℝ T) : Prop :=
  ∃ k n b0, newR2r k n = ok b0 ∧ RunsMul k ∧ RunsSolve k n ∧ RunsGrad k n ∧ b = b0.toBase T

end Verif.Spec
