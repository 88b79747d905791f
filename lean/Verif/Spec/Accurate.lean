/-
Specification for C96: operators in arithmetic with rounding that are accurate in the maximum norm, on vectors
and on arrays.
-/
import Verif.Spec.Space
import Verif.Spec.Parts
import Verif.Spec.RoundingC

namespace Verif.Spec
open Res

/-- All entries have norm at most `X`. -/
def MaxLe {E : Type} [Norm E] (X : ℝ) (l : List E) : Prop := ∀ x ∈ l, ‖x‖ ≤ X

/-- Lists of equal length whose entries differ by at most `δ`. -/
def MaxDist {E : Type} [NormedAddCommGroup E] (δ : ℝ) (x y : List E) : Prop :=
  x.length = y.length ∧ ∀ i < x.length, ‖nth x i - nth y i‖ ≤ δ

section
variable {D E D' E' : Type} [NormedAddCommGroup E] [NormedAddCommGroup E']

/-- The slice operator `f` (with rounding; `v` and `v'` give the values of the data) follows the exact operator
`fR` on vectors of length `n`: both return vectors of length `m` that do not depend on the old content of the
output slice, and on data that differ by at most `δ` from exact data bounded by `X`, the exact result is bounded
by `L X` and the computed one differs from it by at most `ε (X + δ) + L δ`: the amplified error of the data plus
`ε` times the size of the data. -/
def Accurate (v : D → E) (v' : D' → E') (f : List D → List D' → Res (List D'))
    (fR : List E → List E' → Res (List E')) (n m : ℕ) (L ε : ℝ) : Prop :=
  ∃ g gR, Computes f n m g ∧ Computes fR n m gR ∧
    ∀ x xR X δ, x.length = n → 0 ≤ X → 0 ≤ δ → MaxLe X xR → MaxDist δ (x.map v) xR →
      MaxLe (L * X) (gR xR) ∧ MaxDist (ε * (X + δ) + L * δ) ((g x).map v') (gR xR)

/-- The same for methods on arrays: from arrays of shape `sh` to arrays of shape `sh'`. -/
def AccurateOn (v : D → E) (v' : D' → E') (M : Arr D → Res (Arr D')) (MR : Arr E → Res (Arr E'))
    (sh sh' : List ℕ) (L ε : ℝ) : Prop :=
  ∀ a aR X δ, Good a sh → Good aR sh → 0 ≤ X → 0 ≤ δ → MaxLe X aR.data → MaxDist δ (a.data.map v) aR.data →
    ∃ r rR, M a = ok r ∧ MR aR = ok rR ∧ Good r sh' ∧ Good rR sh' ∧
      MaxLe (L * X) rR.data ∧ MaxDist (ε * (X + δ) + L * δ) (r.data.map v') rR.data

end

/-- How much an operator amplifies its data, and the size of its rounding errors relative to the data. -/
structure Amp where
  gain : ℝ
  err : ℝ

/-- neither is negative -/
def Amp.Nonneg (a : Amp) : Prop := 0 ≤ a.gain ∧ 0 ≤ a.err

/-- one operator after the other -/
def Amp.andThen (a b : Amp) : Amp := ⟨a.gain * b.gain, (a.gain + a.err) * (b.gain + b.err) - a.gain * b.gain⟩

/-- the same operator on complex data, which acts on the real and imaginary parts -/
noncomputable def Amp.cplx (a : Amp) : Amp := ⟨a.gain, √2 * a.err⟩

section
variable {P S T A P' S' T' A' : Type} [NormedAddCommGroup P'] [NormedAddCommGroup S'] [NormedAddCommGroup T']

/-- The two bases have the same sizes. -/
def SameSizes (b : Base P S T A) (bR : Base P' S' T' A') : Prop :=
  b.lenPhys = bR.lenPhys ∧ b.lenSpec = bR.lenSpec ∧ b.lenOrth = bR.lenOrth

/-- The operators of the basis `b` (with rounding) follow those of the exact basis `bR`. -/
def ForwardAcc (v : P → P') (w : S → S') (b : Base P S T A) (bR : Base P' S' T' A') (a : Amp) : Prop :=
  SameSizes b bR ∧ a.Nonneg ∧ Accurate v w b.forwardSlice bR.forwardSlice b.lenPhys b.lenSpec a.gain a.err

def BackwardAcc (w : S → S') (v : P → P') (b : Base P S T A) (bR : Base P' S' T' A') (a : Amp) : Prop :=
  SameSizes b bR ∧ a.Nonneg ∧ Accurate w v b.backwardSlice bR.backwardSlice b.lenSpec b.lenPhys a.gain a.err

def ToOrthoAcc (w : T → T') (b : Base P S T A) (bR : Base P' S' T' A') (a : Amp) : Prop :=
  SameSizes b bR ∧ a.Nonneg ∧ Accurate w w b.toOrthoSlice bR.toOrthoSlice b.lenSpec b.lenOrth a.gain a.err

def FromOrthoAcc (w : T → T') (b : Base P S T A) (bR : Base P' S' T' A') (a : Amp) : Prop :=
  SameSizes b bR ∧ a.Nonneg ∧ Accurate w w b.fromOrthoSlice bR.fromOrthoSlice b.lenOrth b.lenSpec a.gain a.err

def GradientAcc (w : T → T') (b : Base P S T A) (bR : Base P' S' T' A') (d : ℕ) (a : Amp) : Prop :=
  SameSizes b bR ∧ a.Nonneg ∧ Accurate w w (fun x out => b.gradientSlice x out d) (fun x out => bR.gradientSlice x out d)
    b.lenSpec b.lenOrth a.gain a.err

end

noncomputable section

/-- `to_ortho` of `chebyshev` (`none`), `cheb_dirichlet`, `cheb_neumann`, `cheb_dirichlet_neumann`. -/
def toAmp (R : Rounding) : Option CKind → Amp
  | none => ⟨1, 0⟩
  | some .dirichletNeumann => ⟨3, 3 * R.γ 16⟩
  | some _ => ⟨2, 2 * R.γ 5⟩

/-- `from_ortho`: the gain bounds the inverse of the normal equations of the stencil. -/
def fromAmp (R : Rounding) (n : ℕ) : Option CKind → Amp
  | none => ⟨1, 0⟩
  | some .dirichlet =>
    let L := ((n:ℝ) + 1) ^ 2 / 16
    ⟨L, L * (6 * R.γ 5 * L + 2 * R.γ 2)⟩
  | some .neumann =>
    let L := ((n:ℝ) - 1) ^ 2 / 2
    ⟨L, L * (6 * R.γ 13 * L + 2 * R.γ 5)⟩
  | some _ =>
    let L := (n:ℝ) ^ 3
    ⟨L, L * (27 * R.γ 36 * L + 3 * R.γ 16)⟩

/-- `forward`: a cosine transform with relative error `η`, then `from_ortho`. -/
def forwardAmp (R : Rounding) (η : ℝ) (n : ℕ) (k : Option CKind) : Amp :=
  Amp.andThen ⟨2 * n / ((n:ℝ) - 1), ((1 + η) * (1 + R.γ 8) - 1) * (2 * n / ((n:ℝ) - 1))⟩ (fromAmp R n k)

/-- `backward`: `to_ortho`, then a cosine transform with relative error `η`. -/
def backwardAmp (R : Rounding) (η : ℝ) (n : ℕ) (k : Option CKind) : Amp :=
  (toAmp R k).andThen ⟨n, ((1 + η) * (1 + R.γ 3) - 1) * (2 * n)⟩

/-- `gradient` of order `d`: `to_ortho`, then `d` derivatives. -/
def gradientAmp (R : Rounding) (n d : ℕ) (k : Option CKind) : Amp :=
  (toAmp R k).andThen ⟨((n:ℝ) ^ 2 / 2) ^ d, R.γ (d * (n / 2 + 6)) * ((n:ℝ) ^ 2 / 2) ^ d⟩

/-- `forward` of the Fourier bases with transforms of relative error `η`. -/
def fourierForwardAmp (η : ℝ) (n : ℕ) : Amp := ⟨n, η * n⟩

/-- `backward` of the Fourier bases. -/
def fourierBackwardAmp (R : Rounding) (η : ℝ) : Amp := ⟨1, (1 + η) * (1 + R.γ 2) - 1⟩

/-- `gradient` of order `d` of the Fourier bases. -/
def fourierGradientAmp (R : Rounding) (n d : ℕ) : Amp := ⟨((n:ℝ) / 2) ^ d, R.γ d * ((n:ℝ) / 2) ^ d⟩

/-- The rounding unit is small enough for the solver of the basis. -/
def SmallUnit (R : Rounding) (n : ℕ) : Option CKind → Prop
  | none => True
  | some .dirichlet => R.Nearest ∧ 5 * R.u < 1 ∧ 3 * ((n:ℝ) + 1) ^ 2 * R.γ 5 ≤ 8
  | some .neumann => R.Nearest ∧ 13 * R.u < 1 ∧ 3 * ((n:ℝ) - 1) ^ 2 * R.γ 13 ≤ 1
  | some _ => 36 * R.u < 1 ∧ 27 * (n:ℝ) ^ 3 * R.γ 36 ≤ 1

end
end Verif.Spec
