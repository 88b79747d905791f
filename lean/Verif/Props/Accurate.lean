/- C96: rounding errors of the transforms and coefficient operators on arrays, in the maximum norm. -/
import Verif.Proof.AccurateSpaces
import Verif.Proof.AccurateBases
import Verif.Proof.AccurateFourier
import Verif.Proof.AccurateParts
import Verif.Props.Parts
import Verif.Proof.BaseLaws

namespace Verif.Props
open Verif Res Spec

/-! ### Chebyshev-type bases -/

section
variable {R : Rounding} [HasDct (Rnd R)] [Libm (Rnd R)] {k : Option CKind} {n : ℕ} {η : ℝ}
  {T : Type} [Zero T] [Add T] [Sub T] [SMul (Rnd R) T] [DivBy (Rnd R) T]
  {T' : Type} [Zero T'] [Add T'] [Sub T'] [SMul ℝ T'] [DivBy ℝ T'] {b : BaseR2r (Rnd R)} {bR : BaseR2r ℝ}

omit [HasDct (Rnd R)] [Libm (Rnd R)] in
theorem compo_lens {A : Type} [Zero A] [One A] [Neg A] [Add A] [Sub A] [Mul A] [Div A] [NatCast A] [Pow A ℕ] [DivBy A A]
    {k : CKind} {n : ℕ} {c : Compo A} (hk : RunsMul (some k)) (hn : 4 ≤ n) (hc : Compo.new k n = ok c) :
    c.n = n ∧ c.m = n - 2 ∧ c.ortho = ⟨n, n⟩ ∧ c.lenOrth = n := by
  have key : c.n = n ∧ c.m = n - 2 ∧ c.ortho = ⟨n, n⟩ := by
    rcases hk with rfl | rfl | rfl
    · exact ⟨(Compo.dirichlet_form hn hc).1, (Compo.dirichlet_form hn hc).2.1, (Compo.dirichlet_form hn hc).2.2.1⟩
    · exact ⟨(Compo.neumann_form hn hc).1, (Compo.neumann_form hn hc).2.1, (Compo.neumann_form hn hc).2.2.1⟩
    · exact ⟨(Compo.mixed_form hn hc).1, (Compo.mixed_form hn hc).2.1, (Compo.mixed_form hn hc).2.2.1⟩
  refine ⟨key.1, key.2.1, key.2.2, ?_⟩
  unfold Compo.lenOrth; rw [key.2.2]; rfl

theorem r2r_same (hm : RunsMul k) (hs : RunsSolve k n) (hb : newR2r k n (Rnd R) = ok b) (hbR : newR2r k n = ok bR) :
    SameSizes (b.toBase T) (bR.toBase T') := by
  rcases k with _ | k
  · obtain ⟨-, rfl⟩ := chebyshev_inv hb
    obtain ⟨-, rfl⟩ := chebyshev_inv hbR
    exact ⟨rfl, rfl, rfl⟩
  · obtain ⟨c, hc, rfl⟩ := composite_inv hb
    obtain ⟨cR, hcR, rfl⟩ := composite_inv hbR
    have h4 : 4 ≤ n := le_trans (by cases k <;> decide) (show k.minSolve ≤ n from hs)
    obtain ⟨h1, h2, -, h3⟩ := compo_lens hm h4 hc
    obtain ⟨g1, g2, -, g3⟩ := compo_lens hm h4 hcR
    exact ⟨h1.trans g1.symm, h2.trans g2.symm, h3.trans g3.symm⟩

/-- C96: `to_ortho` of `chebyshev`, `cheb_dirichlet`, `cheb_neumann`, `cheb_dirichlet_neumann` on real data. -/
theorem C96_r2r_to_ortho (hm : RunsMul k) (hs : RunsSolve k n) (hu : SmallUnit R n k) (hb : newR2r k n (Rnd R) = ok b)
    (hbR : newR2r k n = ok bR) : ToOrthoAcc Rnd.val (b.toBase (Rnd R)) (bR.toBase ℝ) (toAmp R k) := by
  refine ⟨r2r_same hm hs hb hbR, toAmp_nonneg k hm hu, ?_⟩
  rcases k with _ | k
  · obtain ⟨-, rfl⟩ := chebyshev_inv hb
    obtain ⟨-, rfl⟩ := chebyshev_inv hbR
    exact zip_acc _ n
  · obtain ⟨c, hc, rfl⟩ := composite_inv hb
    obtain ⟨cR, hcR, rfl⟩ := composite_inv hbR
    have h4 : 4 ≤ n := le_trans (by cases k <;> decide) (show k.minSolve ≤ n from hs)
    obtain ⟨h1, h2, -, h3⟩ := compo_lens hm h4 hc
    have := compo_to_acc k hm hs hu hc hcR
    rw [← h2, ← h3] at this
    exact this

/-- C96: `from_ortho`. -/
theorem C96_r2r_from_ortho (hm : RunsMul k) (hs : RunsSolve k n) (hu : SmallUnit R n k) (hb : newR2r k n (Rnd R) = ok b)
    (hbR : newR2r k n = ok bR) : FromOrthoAcc Rnd.val (b.toBase (Rnd R)) (bR.toBase ℝ) (fromAmp R n k) := by
  refine ⟨r2r_same hm hs hb hbR, fromAmp_nonneg k hm hu, ?_⟩
  rcases k with _ | k
  · obtain ⟨-, rfl⟩ := chebyshev_inv hb
    obtain ⟨-, rfl⟩ := chebyshev_inv hbR
    exact zip_acc _ n
  · obtain ⟨c, hc, rfl⟩ := composite_inv hb
    obtain ⟨cR, hcR, rfl⟩ := composite_inv hbR
    have h4 : 4 ≤ n := le_trans (by cases k <;> decide) (show k.minSolve ≤ n from hs)
    obtain ⟨h1, h2, -, h3⟩ := compo_lens hm h4 hc
    have := compo_from_acc k hm hs hu hc hcR
    show Accurate _ _ (fun x out : List (Rnd R) => c.fromOrthoSlice x out) (fun x out : List ℝ => cR.fromOrthoSlice x out) c.lenOrth c.m _ _
    rw [h2, h3]
    exact this

/-- C96: `forward`. -/
theorem C96_r2r_forward (hm : RunsMul k) (hs : RunsSolve k n) (hu : SmallUnit R n k) (h0 : 0 ≤ η) (h8 : 8 * R.u < 1)
    (hD : DctError R n η) (hb : newR2r k n (Rnd R) = ok b) (hbR : newR2r k n = ok bR) :
    ForwardAcc Rnd.val Rnd.val (b.toBase T) (bR.toBase T') (forwardAmp R η n k) := by
  have g8 := R.γ_nonneg (k := 8) (by push_cast; exact h8)
  have hE : 0 ≤ (1 + η) * (1 + R.γ 8) - 1 := by nlinarith
  have hL : 2 ≤ n → 0 ≤ 2 * n / ((n:ℝ) - 1) := fun hn => by
    have hn' : (2:ℝ) ≤ n := by exact_mod_cast hn
    exact div_nonneg (by positivity) (by linarith)
  have hnn : 2 ≤ n → (forwardAmp R η n k).Nonneg := fun hn =>
    Amp.Nonneg.andThen ⟨hL hn, mul_nonneg hE (hL hn)⟩ (fromAmp_nonneg k hm hu)
  rcases k with _ | k
  · refine ⟨r2r_same hm hs hb hbR, ?_⟩
    obtain ⟨hn, rfl⟩ := chebyshev_inv hb
    obtain ⟨-, rfl⟩ := chebyshev_inv hbR
    refine ⟨hnn hn, ?_⟩
    have := cheb_forward_acc hn h0 h8 hD
    have e : forwardAmp R η n none = ⟨2 * n / ((n:ℝ) - 1), ((1 + η) * (1 + R.γ 8) - 1) * (2 * n / ((n:ℝ) - 1))⟩ := by
      simp only [forwardAmp, fromAmp, Amp.andThen, mul_one, add_zero, add_sub_cancel_left]
    rw [e]
    exact this
  · refine ⟨r2r_same hm hs hb hbR, ?_⟩
    obtain ⟨c, hc, rfl⟩ := composite_inv hb
    obtain ⟨cR, hcR, rfl⟩ := composite_inv hbR
    have h4 : 4 ≤ n := le_trans (by cases k <;> decide) (show k.minSolve ≤ n from hs)
    refine ⟨hnn (by omega), ?_⟩
    obtain ⟨h1, h2, ho, h3⟩ := compo_lens hm h4 hc
    obtain ⟨g1, g2, go, g3⟩ := compo_lens hm h4 hcR
    have := Spec.Accurate.scratch (hL (by omega)) (mul_nonneg hE (hL (by omega))) (cheb_forward_acc (by omega) h0 h8 hD)
      (compo_from_acc k hm hs hu hc hcR)
    show Accurate _ _ (fun x out : List (Rnd R) => c.forwardSlice x out) (fun x out : List ℝ => cR.forwardSlice x out) c.n c.m _ _
    unfold Compo.forwardSlice
    rw [h1, h2, h3, g3, ho, go]
    exact this

/-- C96: `backward`. -/
theorem C96_r2r_backward (hm : RunsMul k) (hs : RunsSolve k n) (hu : SmallUnit R n k) (h0 : 0 ≤ η) (h8 : 3 * R.u < 1)
    (hD : DctError R n η) (hb : newR2r k n (Rnd R) = ok b) (hbR : newR2r k n = ok bR) :
    BackwardAcc Rnd.val Rnd.val (b.toBase T) (bR.toBase T') (backwardAmp R η n k) := by
  have g8 := R.γ_nonneg (k := 3) (by push_cast; exact h8)
  have hE : 0 ≤ (1 + η) * (1 + R.γ 3) - 1 := by nlinarith
  obtain ⟨t1, t2⟩ := toAmp_nonneg k hm hu
  have hnn : (backwardAmp R η n k).Nonneg := Amp.Nonneg.andThen ⟨t1, t2⟩
    ⟨Nat.cast_nonneg n, mul_nonneg hE (mul_nonneg zero_le_two (Nat.cast_nonneg n))⟩
  refine ⟨r2r_same hm hs hb hbR, hnn, ?_⟩
  rcases k with _ | k
  · obtain ⟨hn, rfl⟩ := chebyshev_inv hb
    obtain ⟨-, rfl⟩ := chebyshev_inv hbR
    have := cheb_backward_acc hn h0 h8 hD
    have e : backwardAmp R η n none = ⟨n, ((1 + η) * (1 + R.γ 3) - 1) * (2 * n)⟩ := by
      simp only [backwardAmp, toAmp, Amp.andThen, one_mul, add_zero, add_sub_cancel_left]
    rw [e]
    exact this
  · obtain ⟨c, hc, rfl⟩ := composite_inv hb
    obtain ⟨cR, hcR, rfl⟩ := composite_inv hbR
    have h4 : 4 ≤ n := le_trans (by cases k <;> decide) (show k.minSolve ≤ n from hs)
    obtain ⟨h1, h2, ho, h3⟩ := compo_lens hm h4 hc
    obtain ⟨g1, g2, go, g3⟩ := compo_lens hm h4 hcR
    have := Spec.Accurate.scratch t1 t2 (compo_to_acc k hm hs hu hc hcR) (cheb_backward_acc (by omega) h0 h8 hD)
    show Accurate _ _ (fun x out : List (Rnd R) => c.backwardSlice x out) (fun x out : List ℝ => cR.backwardSlice x out) c.m c.n _ _
    unfold Compo.backwardSlice
    rw [h1, h2, h3, g3, ho, go]
    exact this

/-- C96: `gradient` on real data. -/
theorem C96_r2r_gradient (hm : RunsMul k) (hs : RunsSolve k n) (hg : RunsGrad k n) (hu : SmallUnit R n k) (d : ℕ) (h1 : R.u < 1)
    (hd : ((d * (n / 2 + 6) : ℕ) : ℝ) * R.u < 1) (hb : newR2r k n (Rnd R) = ok b) (hbR : newR2r k n = ok bR) :
    GradientAcc Rnd.val (b.toBase (Rnd R)) (bR.toBase ℝ) d (gradientAmp R n d k) := by
  have g := R.γ_nonneg hd
  obtain ⟨t1, t2⟩ := toAmp_nonneg k hm hu
  have hnn : (gradientAmp R n d k).Nonneg := Amp.Nonneg.andThen ⟨t1, t2⟩ (by
    constructor
    · show (0:ℝ) ≤ ((n:ℝ) ^ 2 / 2) ^ d; positivity
    · show 0 ≤ R.γ (d * (n / 2 + 6)) * ((n:ℝ) ^ 2 / 2) ^ d; positivity)
  refine ⟨r2r_same hm hs hb hbR, hnn, ?_⟩
  rcases k with _ | k
  · obtain ⟨hn, rfl⟩ := chebyshev_inv hb
    obtain ⟨-, rfl⟩ := chebyshev_inv hbR
    have := cheb_gradient_acc (R := R) hg d h1 hd
    have e : gradientAmp R n d none = ⟨((n:ℝ) ^ 2 / 2) ^ d, R.γ (d * (n / 2 + 6)) * ((n:ℝ) ^ 2 / 2) ^ d⟩ := by
      simp only [gradientAmp, toAmp, Amp.andThen, one_mul, add_zero, add_sub_cancel_left]
    rw [e]
    exact this
  · obtain ⟨c, hc, rfl⟩ := composite_inv hb
    obtain ⟨cR, hcR, rfl⟩ := composite_inv hbR
    have h4 : 4 ≤ n := le_trans (by cases k <;> decide) (show k.minSolve ≤ n from hs)
    obtain ⟨e1, e2, eo, e3⟩ := compo_lens hm h4 hc
    obtain ⟨g1, g2, go, g3⟩ := compo_lens hm h4 hcR
    have := Spec.Accurate.scratch t1 t2 (compo_to_acc k hm hs hu hc hcR) (cheb_gradient_acc (R := R) (by omega) d h1 hd)
    show Accurate _ _ (fun x out : List (Rnd R) => c.gradientSlice x out d) (fun x out : List ℝ => cR.gradientSlice x out d) c.m c.lenOrth _ _
    unfold Compo.gradientSlice
    rw [e2, e3, g3, eo, go]
    exact this

end

/-! ### Chebyshev-type bases on complex data -/

section
variable {R : Rounding} [HasDct (Rnd R)] [Libm (Rnd R)] {k : Option CKind} {n : ℕ} {b : BaseR2r (Rnd R)} {bR : BaseR2r ℝ}

private theorem rndC_re : Respects (Rnd R) (RndC.re (R := R)) := ⟨rfl, fun _ _ => rfl, fun _ _ => rfl, fun _ _ => rfl, fun x k => by
  show divR x.re k = onResult _ (do let re ← divR x.re k; let im ← divR x.im k; ok (⟨re, im⟩ : RndC R))
  by_cases h : k.val = 0
  · rw [show divR x.re k = err .div0 from if_pos h]; rfl
  · rw [show divR x.re k = ok _ from if_neg h, show divR x.im k = ok _ from if_neg h]; rfl⟩

private theorem rndC_im : Respects (Rnd R) (RndC.im (R := R)) := ⟨rfl, fun _ _ => rfl, fun _ _ => rfl, fun _ _ => rfl, fun x k => by
  show divR x.im k = onResult _ (do let re ← divR x.re k; let im ← divR x.im k; ok (⟨re, im⟩ : RndC R))
  by_cases h : k.val = 0
  · rw [show divR x.im k = err .div0 from if_pos h, show divR x.re k = err .div0 from if_pos h]; rfl
  · rw [show divR x.re k = ok _ from if_neg h, show divR x.im k = ok _ from if_neg h]; rfl⟩

/-- C96: `to_ortho` on complex data. -/
theorem C96_r2r_to_ortho_complex (hm : RunsMul k) (hs : RunsSolve k n) (hu : SmallUnit R n k) (hb : newR2r k n (Rnd R) = ok b)
    (hbR : newR2r k n = ok bR) : ToOrthoAcc RndC.val (b.toBase (RndC R)) (bR.toBase ℂ) (toAmp R k).cplx := by
  obtain ⟨-, h2, h3⟩ := C96_r2r_to_ortho hm hs hu hb hbR
  have hsz := r2r_same (T := RndC R) (T' := ℂ) hm hs hb hbR
  refine ⟨hsz, ⟨h2.1, mul_nonneg (Real.sqrt_nonneg _) h2.2⟩, ?_⟩
  have hlin := r2r_toOrtho_lin (R := ℝ) (T := ℂ) hbR hm
  rw [← hsz.2.1, ← hsz.2.2] at hlin
  have e1 : (b.toBase (RndC R)).lenSpec = (b.toBase (Rnd R)).lenSpec := by cases b <;> rfl
  have e2 : (b.toBase (RndC R)).lenOrth = (b.toBase (Rnd R)).lenOrth := by cases b <;> rfl
  rw [e1, e2] at hlin ⊢
  exact h3.complex (fun x y => (C95_slices rndC_re b x y 0).1) (fun x y => (C95_slices rndC_im b x y 0).1)
    (fun x y => (C95_slices C95_re bR x y 0).1) (fun x y => (C95_slices C95_im bR x y 0).1)
    (fun c x y => (C95_slices (C95_mul c) bR x y 0).1) hlin h2

/-- C96: `from_ortho` on complex data. -/
theorem C96_r2r_from_ortho_complex (hm : RunsMul k) (hs : RunsSolve k n) (hu : SmallUnit R n k) (hb : newR2r k n (Rnd R) = ok b)
    (hbR : newR2r k n = ok bR) : FromOrthoAcc RndC.val (b.toBase (RndC R)) (bR.toBase ℂ) (fromAmp R n k).cplx := by
  obtain ⟨-, h2, h3⟩ := C96_r2r_from_ortho hm hs hu hb hbR
  have hsz := r2r_same (T := RndC R) (T' := ℂ) hm hs hb hbR
  refine ⟨hsz, ⟨h2.1, mul_nonneg (Real.sqrt_nonneg _) h2.2⟩, ?_⟩
  have hlin := r2r_fromOrtho_lin (R := ℝ) (T := ℂ) hbR hs
  rw [← hsz.2.1, ← hsz.2.2] at hlin
  have e1 : (b.toBase (RndC R)).lenSpec = (b.toBase (Rnd R)).lenSpec := by cases b <;> rfl
  have e2 : (b.toBase (RndC R)).lenOrth = (b.toBase (Rnd R)).lenOrth := by cases b <;> rfl
  rw [e1, e2] at hlin ⊢
  exact h3.complex (fun x y => (C95_slices rndC_re b x y 0).2.1) (fun x y => (C95_slices rndC_im b x y 0).2.1)
    (fun x y => (C95_slices C95_re bR x y 0).2.1) (fun x y => (C95_slices C95_im bR x y 0).2.1)
    (fun c x y => (C95_slices (C95_mul c) bR x y 0).2.1) hlin h2

/-- C96: `gradient` on complex data.  The source converts its factors to complex numbers; products with them are products
part by part, and so is the quotient by two in a binary format, where doubling and halving are exact. -/
theorem C96_r2r_gradient_complex (hm : RunsMul k) (hs : RunsSolve k n) (hg : RunsGrad k n) (hu : SmallUnit R n k) (d : ℕ) (h1 : R.u < 1)
    (hd : ((d * (n / 2 + 6) : ℕ) : ℝ) * R.u < 1) (hb : newR2r k n (Rnd R) = ok b) (hbR : newR2r k n = ok bR) :
    GradientAcc RndC.val (b.toBase (RndC R)) (bR.toBase ℂ) d (gradientAmp R n d k).cplx := by
  obtain ⟨-, h2, h3⟩ := C96_r2r_gradient hm hs hg hu d h1 hd hb hbR
  have hsz := r2r_same (T := RndC R) (T' := ℂ) hm hs hb hbR
  refine ⟨hsz, ⟨h2.1, mul_nonneg (Real.sqrt_nonneg _) h2.2⟩, ?_⟩
  have hlin := r2r_gradient_lin (R := ℝ) (T := ℂ) hbR hg d
  rw [← hsz.2.1, ← hsz.2.2] at hlin
  have e1 : (b.toBase (RndC R)).lenSpec = (b.toBase (Rnd R)).lenSpec := by cases b <;> rfl
  have e2 : (b.toBase (RndC R)).lenOrth = (b.toBase (Rnd R)).lenOrth := by cases b <;> rfl
  rw [e1, e2] at hlin ⊢
  exact h3.complex (fun x y => (C95_slices rndC_re b x y d).2.2) (fun x y => (C95_slices rndC_im b x y d).2.2)
    (fun x y => (C95_slices C95_re bR x y d).2.2) (fun x y => (C95_slices C95_im bR x y d).2.2)
    (fun c x y => (C95_slices (C95_mul c) bR x y d).2.2) hlin h2

end

/-! ### Fourier bases -/

section
variable {R : Rounding} [HasFft (Rnd R) (RndC R)] [Libm (Rnd R)] {n : ℕ} {η : ℝ}

/-- C96: `fourier_c2c`. -/
theorem C96_fourier_c2c (hn : 1 ≤ n) (h0 : 0 ≤ η) (hF : FftError R n η) (hR : R.Nearest) (hN : R.Integers n) (h2 : 2 * R.u < 1)
    {b : BaseC2c (Rnd R) (RndC R)} {bR : BaseC2c ℝ ℂ} (hb : fourierC2c n (Rnd R) (RndC R) = ok b) (hbR : fourierC2c n = ok bR) :
    ForwardAcc RndC.val RndC.val b.toBase bR.toBase (fourierForwardAmp η n) ∧
    BackwardAcc RndC.val RndC.val b.toBase bR.toBase (fourierBackwardAmp R η) ∧
    ToOrthoAcc RndC.val b.toBase bR.toBase ⟨1, 0⟩ ∧ FromOrthoAcc RndC.val b.toBase bR.toBase ⟨1, 0⟩ ∧
    ∀ d : ℕ, d * R.u < 1 → GradientAcc RndC.val b.toBase bR.toBase d (fourierGradientAmp R n d) := by
  obtain rfl := c2c_inv hb
  obtain rfl := c2c_inv hbR
  have hg := R.γ_nonneg (k := 2) (by exact_mod_cast h2)
  have sz : SameSizes (BaseC2c.fourierC2c (A := Rnd R) (C := RndC R) ⟨n, n⟩).toBase (BaseC2c.fourierC2c (A := ℝ) (C := ℂ) ⟨n, n⟩).toBase :=
    ⟨rfl, rfl, rfl⟩
  refine ⟨⟨sz, ?_, c2c_forward_acc hn h0 hF⟩, ⟨sz, ⟨zero_le_one, ?_⟩, c2c_backward_acc hn h0 hF hN h2⟩,
    ⟨sz, ⟨zero_le_one, le_rfl⟩, zip_acc _ n⟩, ⟨sz, ⟨zero_le_one, le_rfl⟩, zip_acc _ n⟩, fun d hd => ⟨sz, ?_,
      c2c_gradient_acc hR hn hN hd (by linarith [R.u_nonneg])⟩⟩
  · constructor <;> simp only [fourierForwardAmp] <;> positivity
  · simp only [fourierBackwardAmp]; nlinarith
  · have := R.γ_nonneg hd
    constructor <;> simp only [fourierGradientAmp] <;> positivity

/-- C96: `fourier_r2c`. -/
theorem C96_fourier_r2c (hn : 1 ≤ n) (h0 : 0 ≤ η) (hF : FftError R n η) (hR : R.Nearest) (hN : R.Integers n) (h2 : 2 * R.u < 1)
    {b : BaseR2c (Rnd R) (RndC R)} {bR : BaseR2c ℝ ℂ} (hb : fourierR2c n (Rnd R) (RndC R) = ok b) (hbR : fourierR2c n = ok bR) :
    ForwardAcc Rnd.val RndC.val b.toBase bR.toBase (fourierForwardAmp η n) ∧
    BackwardAcc RndC.val Rnd.val b.toBase bR.toBase (fourierBackwardAmp R η) ∧
    ToOrthoAcc RndC.val b.toBase bR.toBase ⟨1, 0⟩ ∧ FromOrthoAcc RndC.val b.toBase bR.toBase ⟨1, 0⟩ ∧
    ∀ d : ℕ, d * R.u < 1 → GradientAcc RndC.val b.toBase bR.toBase d (fourierGradientAmp R n d) := by
  obtain rfl := r2c_inv hb
  obtain rfl := r2c_inv hbR
  have hg := R.γ_nonneg (k := 2) (by exact_mod_cast h2)
  have sz : SameSizes (BaseR2c.fourierR2c (A := Rnd R) (C := RndC R) ⟨n, n / 2 + 1⟩).toBase
    (BaseR2c.fourierR2c (A := ℝ) (C := ℂ) ⟨n, n / 2 + 1⟩).toBase := ⟨rfl, rfl, rfl⟩
  refine ⟨⟨sz, ?_, r2c_forward_acc hn h0 hF⟩, ⟨sz, ⟨zero_le_one, ?_⟩, r2c_backward_acc hn h0 hF hN h2⟩,
    ⟨sz, ⟨zero_le_one, le_rfl⟩, zip_acc _ (n / 2 + 1)⟩, ⟨sz, ⟨zero_le_one, le_rfl⟩, zip_acc _ (n / 2 + 1)⟩, fun d hd => ⟨sz, ?_,
      r2c_gradient_acc hR hN hd (by linarith [R.u_nonneg])⟩⟩
  · constructor <;> simp only [fourierForwardAmp] <;> positivity
  · simp only [fourierBackwardAmp]; nlinarith
  · have := R.γ_nonneg hd
    constructor <;> simp only [fourierGradientAmp] <;> positivity

end

/-! ### gradients without scaling -/

section
variable {P S T A P' S' T' A' : Type} [Zero P] [Zero S] [Zero T] [Mul A] [Powi A] [DivBy A T]
  [Zero P'] [Zero S'] [NormedAddCommGroup T'] [Mul A'] [Powi A'] [DivBy A' T'] {vT : T → T'}

omit [Zero P'] [Zero S'] in
private theorem grad1 (sp : Space1 P S T A) {d0 : ℕ} {g0 : List T → List T} (h0 : Computes (fun v out => sp.base0.gradientSlice v out d0) sp.base0.lenSpec sp.base0.lenOrth g0)
    {a : Arr T} (ha : Good a sp.shapeSpectral) : sp.gradient a d0 none = ok (mapAx g0 sp.base0.lenOrth 0 a) := by
  unfold Space1.gradient
  have e0 := alloc_good h0 ha (by decide : 0 < 1) rfl
  have k0 := good_mapAx g0 sp.base0.lenOrth 0 ha.2.2
  rw [show sp.base0.gradient _ d0 0 = _ from e0, bind_ok]
  rfl

omit [Zero P'] [Zero S'] in
private theorem gradPar1 (sp : Space1 P S T A) {d0 : ℕ} {g0 : List T → List T} (h0 : Computes (fun v out => sp.base0.gradientSlice v out d0) sp.base0.lenSpec sp.base0.lenOrth g0)
    {s0 : List ℕ} (hs0 : FairSchedule [sp.base0.lenOrth] 0 s0)
    {a : Arr T} (ha : Good a sp.shapeSpectral) : sp.gradientPar s0 a d0 none = ok (mapAx g0 sp.base0.lenOrth 0 a) := by
  unfold Space1.gradientPar
  have e0 := alloc_par_good h0 ha (by decide : 0 < 1) rfl hs0
  have k0 := good_mapAx g0 sp.base0.lenOrth 0 ha.2.2
  rw [show sp.base0.gradientPar s0 _ d0 0 = _ from e0, bind_ok]
  rfl

/-- C96: `gradient` of `Space1` without scaling follows the exact method, serial and parallel. -/
theorem C96_space1_gradient (sp : Space1 P S T A) (spR : Space1 P' S' T' A') {d0 : ℕ} {a0 : Amp}
    (h0 : GradientAcc vT sp.base0 spR.base0 d0 a0) (zT : vT 0 = 0) :
    AccurateOn vT vT (fun x => sp.gradient x d0 none) (fun x => spR.gradient x d0 none) sp.shapeSpectral sp.shapeSpectralOrtho a0.gain a0.err ∧
    ∀ s0, FairSchedule [sp.base0.lenOrth] 0 s0 →
      AccurateOn vT vT (fun x => sp.gradientPar s0 x d0 none) (fun x => spR.gradient x d0 none) sp.shapeSpectral sp.shapeSpectralOrtho a0.gain a0.err := by
  obtain ⟨⟨x0, y0, w0⟩, p0, k0⟩ := h0
  have hR : sp.shapeSpectral = spR.shapeSpectral := by simp only [Space1.shapeSpectral, y0]
  have key : ∀ g0, Computes (fun v out => spR.base0.gradientSlice v out d0) sp.base0.lenSpec sp.base0.lenOrth g0 → ∀ a, Good a sp.shapeSpectral →
      spR.gradient a d0 none = ok (mapAx g0 sp.base0.lenOrth 0 a) := by
    intro g0 c0 a ha
    rw [y0, w0] at c0
    rw [w0]
    exact grad1 spR c0 (hR ▸ ha)
  exact ⟨accurateOn_one k0 p0 zT zT rfl rfl (fun g0 c0 a ha => grad1 sp c0 ha) key,
    fun s0 hs0 => accurateOn_one k0 p0 zT zT rfl rfl (fun g0 c0 a ha => gradPar1 sp c0 hs0 ha) key⟩

end

section
variable {P I S T A P' I' S' T' A' : Type} [Zero P] [Zero I] [Zero S] [Zero T] [Mul A] [Powi A] [DivBy A T]
  [Zero P'] [Zero I'] [Zero S'] [NormedAddCommGroup T'] [Mul A'] [Powi A'] [DivBy A' T'] {vT : T → T'}

omit [Zero P'] [Zero I'] [Zero S'] in
private theorem grad2 (sp : Space2 P I S T A) {d0 d1 : ℕ} {g0 g1 : List T → List T} (h0 : Computes (fun v out => sp.base0.gradientSlice v out d0) sp.base0.lenSpec sp.base0.lenOrth g0) (h1 : Computes (fun v out => sp.base1.gradientSlice v out d1) sp.base1.lenSpec sp.base1.lenOrth g1)
    {a : Arr T} (ha : Good a sp.shapeSpectral) : sp.gradient a d0 d1 none = ok (mapAx g1 sp.base1.lenOrth 1 (mapAx g0 sp.base0.lenOrth 0 a)) := by
  unfold Space2.gradient
  have e0 := alloc_good h0 ha (by decide : 0 < 2) rfl
  have k0 := good_mapAx g0 sp.base0.lenOrth 0 ha.2.2
  rw [show sp.base0.gradient _ d0 0 = _ from e0, bind_ok]
  have e1 := alloc_good h1 k0 (by decide : 1 < 2) rfl
  have k1 := good_mapAx g1 sp.base1.lenOrth 1 k0.2.2
  rw [show sp.base1.gradient _ d1 1 = _ from e1, bind_ok]
  rfl

omit [Zero P'] [Zero I'] [Zero S'] in
private theorem gradPar2 (sp : Space2 P I S T A) {d0 d1 : ℕ} {g0 g1 : List T → List T} (h0 : Computes (fun v out => sp.base0.gradientSlice v out d0) sp.base0.lenSpec sp.base0.lenOrth g0) (h1 : Computes (fun v out => sp.base1.gradientSlice v out d1) sp.base1.lenSpec sp.base1.lenOrth g1)
    {s0 : List ℕ} {s1 : List ℕ} (hs0 : FairSchedule [sp.base0.lenOrth, sp.base1.lenSpec] 0 s0) (hs1 : FairSchedule [sp.base0.lenOrth, sp.base1.lenOrth] 1 s1)
    {a : Arr T} (ha : Good a sp.shapeSpectral) : sp.gradientPar s0 s1 a d0 d1 none = ok (mapAx g1 sp.base1.lenOrth 1 (mapAx g0 sp.base0.lenOrth 0 a)) := by
  unfold Space2.gradientPar
  have e0 := alloc_par_good h0 ha (by decide : 0 < 2) rfl hs0
  have k0 := good_mapAx g0 sp.base0.lenOrth 0 ha.2.2
  rw [show sp.base0.gradientPar s0 _ d0 0 = _ from e0, bind_ok]
  have e1 := alloc_par_good h1 k0 (by decide : 1 < 2) rfl hs1
  have k1 := good_mapAx g1 sp.base1.lenOrth 1 k0.2.2
  rw [show sp.base1.gradientPar s1 _ d1 1 = _ from e1, bind_ok]
  rfl

/-- C96: `gradient` of `Space2` without scaling follows the exact method, serial and parallel. -/
theorem C96_space2_gradient (sp : Space2 P I S T A) (spR : Space2 P' I' S' T' A') {d0 d1 : ℕ} {a0 a1 : Amp}
    (h0 : GradientAcc vT sp.base0 spR.base0 d0 a0) (h1 : GradientAcc vT sp.base1 spR.base1 d1 a1) (zT : vT 0 = 0) :
    AccurateOn vT vT (fun x => sp.gradient x d0 d1 none) (fun x => spR.gradient x d0 d1 none) sp.shapeSpectral sp.shapeSpectralOrtho (a0.andThen a1).gain (a0.andThen a1).err ∧
    ∀ s0 s1, FairSchedule [sp.base0.lenOrth, sp.base1.lenSpec] 0 s0 → FairSchedule [sp.base0.lenOrth, sp.base1.lenOrth] 1 s1 →
      AccurateOn vT vT (fun x => sp.gradientPar s0 s1 x d0 d1 none) (fun x => spR.gradient x d0 d1 none) sp.shapeSpectral sp.shapeSpectralOrtho (a0.andThen a1).gain (a0.andThen a1).err := by
  obtain ⟨⟨x0, y0, w0⟩, p0, k0⟩ := h0
  obtain ⟨⟨x1, y1, w1⟩, p1, k1⟩ := h1
  have hR : sp.shapeSpectral = spR.shapeSpectral := by simp only [Space2.shapeSpectral, y0, y1]
  have key : ∀ g0 g1, Computes (fun v out => spR.base0.gradientSlice v out d0) sp.base0.lenSpec sp.base0.lenOrth g0 → Computes (fun v out => spR.base1.gradientSlice v out d1) sp.base1.lenSpec sp.base1.lenOrth g1 → ∀ a, Good a sp.shapeSpectral →
      spR.gradient a d0 d1 none = ok (mapAx g1 sp.base1.lenOrth 1 (mapAx g0 sp.base0.lenOrth 0 a)) := by
    intro g0 g1 c0 c1 a ha
    rw [y0, w0] at c0; rw [y1, w1] at c1
    rw [w0, w1]
    exact grad2 spR c0 c1 (hR ▸ ha)
  exact ⟨accurateOn_two k0 k1 p0 p1 zT zT zT rfl rfl rfl (fun g0 g1 c0 c1 a ha => grad2 sp c0 c1 ha) key,
    fun s0 s1 hs0 hs1 => accurateOn_two k0 k1 p0 p1 zT zT zT rfl rfl rfl (fun g0 g1 c0 c1 a ha => gradPar2 sp c0 c1 hs0 hs1 ha) key⟩

end

/-! ### `Space1` -/

section
variable {P S T A P' S' T' A' : Type} [Zero P] [Zero S] [Zero T] [NormedAddCommGroup P'] [NormedAddCommGroup S'] [NormedAddCommGroup T']
  {vP : P → P'} {vS : S → S'} {vT : T → T'}

/-- C96: `forward` of `Space1` follows the exact method: serial, parallel under every schedule, and in place. -/
theorem C96_space1_forward (sp : Space1 P S T A) (spR : Space1 P' S' T' A') {a0 : Amp}
    (h0 : ForwardAcc vP vS sp.base0 spR.base0 a0) (zP : vP 0 = 0) (zS : vS 0 = 0) :
    AccurateOn vP vS (sp.forward) spR.forward sp.shapePhysical sp.shapeSpectral a0.gain a0.err ∧
    (∀ s0, FairSchedule [sp.base0.lenSpec] 0 s0 →
      AccurateOn vP vS (sp.forwardPar s0) spR.forward sp.shapePhysical sp.shapeSpectral a0.gain a0.err) ∧
    ∀ out, Good out sp.shapeSpectral →
      AccurateOn vP vS (fun x => sp.forwardInplace x out) spR.forward sp.shapePhysical sp.shapeSpectral a0.gain a0.err ∧
      ∀ s0, FairSchedule [sp.base0.lenSpec] 0 s0 →
        AccurateOn vP vS (fun x => sp.forwardInplacePar s0 x out) spR.forward sp.shapePhysical sp.shapeSpectral a0.gain a0.err := by
  obtain ⟨⟨x0, y0, w0⟩, p0, k0⟩ := h0
  have hR : sp.shapePhysical = spR.shapePhysical := by simp only [Space1.shapePhysical, x0, y0, w0]
  have key : ∀ g0, Computes spR.base0.forwardSlice sp.base0.lenPhys sp.base0.lenSpec g0 → ∀ a, Good a sp.shapePhysical →
      spR.forward a = ok (mapAx g0 sp.base0.lenSpec 0 a) := by
    intro g0 c0 a ha
    rw [x0, y0] at c0
    rw [y0]
    exact spR.forward_eq c0 (hR ▸ ha)
  refine ⟨accurateOn_one k0 p0 zP zS rfl rfl (fun g0 c0 a ha => sp.forward_eq c0 ha) key,
    fun s0 hs0 => accurateOn_one k0 p0 zP zS rfl rfl (fun g0 c0 a ha => sp.forwardPar_eq c0 ha hs0) key,
    fun out ho => ⟨accurateOn_one k0 p0 zP zS rfl rfl (fun g0 c0 a ha => sp.forwardInplace_eq c0 ha ho) key,
    fun s0 hs0 => accurateOn_one k0 p0 zP zS rfl rfl (fun g0 c0 a ha => sp.forwardInplacePar_eq c0 ha ho hs0) key⟩⟩

/-- C96: `backward` of `Space1` follows the exact method: serial, parallel under every schedule, and in place. -/
theorem C96_space1_backward (sp : Space1 P S T A) (spR : Space1 P' S' T' A') {a0 : Amp}
    (h0 : BackwardAcc vS vP sp.base0 spR.base0 a0) (zS : vS 0 = 0) (zP : vP 0 = 0) :
    AccurateOn vS vP (sp.backward) spR.backward sp.shapeSpectral sp.shapePhysical a0.gain a0.err ∧
    (∀ s0, FairSchedule [sp.base0.lenPhys] 0 s0 →
      AccurateOn vS vP (sp.backwardPar s0) spR.backward sp.shapeSpectral sp.shapePhysical a0.gain a0.err) ∧
    ∀ out, Good out sp.shapePhysical →
      AccurateOn vS vP (fun x => sp.backwardInplace x out) spR.backward sp.shapeSpectral sp.shapePhysical a0.gain a0.err ∧
      ∀ s0, FairSchedule [sp.base0.lenPhys] 0 s0 →
        AccurateOn vS vP (fun x => sp.backwardInplacePar s0 x out) spR.backward sp.shapeSpectral sp.shapePhysical a0.gain a0.err := by
  obtain ⟨⟨x0, y0, w0⟩, p0, k0⟩ := h0
  have hR : sp.shapeSpectral = spR.shapeSpectral := by simp only [Space1.shapeSpectral, x0, y0, w0]
  have key : ∀ g0, Computes spR.base0.backwardSlice sp.base0.lenSpec sp.base0.lenPhys g0 → ∀ a, Good a sp.shapeSpectral →
      spR.backward a = ok (mapAx g0 sp.base0.lenPhys 0 a) := by
    intro g0 c0 a ha
    rw [y0, x0] at c0
    rw [x0]
    exact spR.backward_eq c0 (hR ▸ ha)
  refine ⟨accurateOn_one k0 p0 zS zP rfl rfl (fun g0 c0 a ha => sp.backward_eq c0 ha) key,
    fun s0 hs0 => accurateOn_one k0 p0 zS zP rfl rfl (fun g0 c0 a ha => sp.backwardPar_eq c0 ha hs0) key,
    fun out ho => ⟨accurateOn_one k0 p0 zS zP rfl rfl (fun g0 c0 a ha => sp.backwardInplace_eq c0 ha ho) key,
    fun s0 hs0 => accurateOn_one k0 p0 zS zP rfl rfl (fun g0 c0 a ha => sp.backwardInplacePar_eq c0 ha ho hs0) key⟩⟩

/-- C96: `to_ortho` of `Space1` follows the exact method: serial, parallel under every schedule, and in place. -/
theorem C96_space1_to_ortho (sp : Space1 P S T A) (spR : Space1 P' S' T' A') {a0 : Amp}
    (h0 : ToOrthoAcc vT sp.base0 spR.base0 a0) (zT : vT 0 = 0) :
    AccurateOn vT vT (sp.toOrtho) spR.toOrtho sp.shapeSpectral sp.shapeSpectralOrtho a0.gain a0.err ∧
    (∀ s0, FairSchedule [sp.base0.lenOrth] 0 s0 →
      AccurateOn vT vT (sp.toOrthoPar s0) spR.toOrtho sp.shapeSpectral sp.shapeSpectralOrtho a0.gain a0.err) ∧
    ∀ out, Good out sp.shapeSpectralOrtho →
      AccurateOn vT vT (fun x => sp.toOrthoInplace x out) spR.toOrtho sp.shapeSpectral sp.shapeSpectralOrtho a0.gain a0.err ∧
      ∀ s0, FairSchedule [sp.base0.lenOrth] 0 s0 →
        AccurateOn vT vT (fun x => sp.toOrthoInplacePar s0 x out) spR.toOrtho sp.shapeSpectral sp.shapeSpectralOrtho a0.gain a0.err := by
  obtain ⟨⟨x0, y0, w0⟩, p0, k0⟩ := h0
  have hR : sp.shapeSpectral = spR.shapeSpectral := by simp only [Space1.shapeSpectral, x0, y0, w0]
  have key : ∀ g0, Computes spR.base0.toOrthoSlice sp.base0.lenSpec sp.base0.lenOrth g0 → ∀ a, Good a sp.shapeSpectral →
      spR.toOrtho a = ok (mapAx g0 sp.base0.lenOrth 0 a) := by
    intro g0 c0 a ha
    rw [y0, w0] at c0
    rw [w0]
    exact spR.toOrtho_eq c0 (hR ▸ ha)
  refine ⟨accurateOn_one k0 p0 zT zT rfl rfl (fun g0 c0 a ha => sp.toOrtho_eq c0 ha) key,
    fun s0 hs0 => accurateOn_one k0 p0 zT zT rfl rfl (fun g0 c0 a ha => sp.toOrthoPar_eq c0 ha hs0) key,
    fun out ho => ⟨accurateOn_one k0 p0 zT zT rfl rfl (fun g0 c0 a ha => sp.toOrthoInplace_eq c0 ha ho) key,
    fun s0 hs0 => accurateOn_one k0 p0 zT zT rfl rfl (fun g0 c0 a ha => sp.toOrthoInplacePar_eq c0 ha ho hs0) key⟩⟩

/-- C96: `from_ortho` of `Space1` follows the exact method: serial, parallel under every schedule, and in place. -/
theorem C96_space1_from_ortho (sp : Space1 P S T A) (spR : Space1 P' S' T' A') {a0 : Amp}
    (h0 : FromOrthoAcc vT sp.base0 spR.base0 a0) (zT : vT 0 = 0) :
    AccurateOn vT vT (sp.fromOrtho) spR.fromOrtho sp.shapeSpectralOrtho sp.shapeSpectral a0.gain a0.err ∧
    (∀ s0, FairSchedule [sp.base0.lenSpec] 0 s0 →
      AccurateOn vT vT (sp.fromOrthoPar s0) spR.fromOrtho sp.shapeSpectralOrtho sp.shapeSpectral a0.gain a0.err) ∧
    ∀ out, Good out sp.shapeSpectral →
      AccurateOn vT vT (fun x => sp.fromOrthoInplace x out) spR.fromOrtho sp.shapeSpectralOrtho sp.shapeSpectral a0.gain a0.err ∧
      ∀ s0, FairSchedule [sp.base0.lenSpec] 0 s0 →
        AccurateOn vT vT (fun x => sp.fromOrthoInplacePar s0 x out) spR.fromOrtho sp.shapeSpectralOrtho sp.shapeSpectral a0.gain a0.err := by
  obtain ⟨⟨x0, y0, w0⟩, p0, k0⟩ := h0
  have hR : sp.shapeSpectralOrtho = spR.shapeSpectralOrtho := by simp only [Space1.shapeSpectralOrtho, x0, y0, w0]
  have key : ∀ g0, Computes spR.base0.fromOrthoSlice sp.base0.lenOrth sp.base0.lenSpec g0 → ∀ a, Good a sp.shapeSpectralOrtho →
      spR.fromOrtho a = ok (mapAx g0 sp.base0.lenSpec 0 a) := by
    intro g0 c0 a ha
    rw [w0, y0] at c0
    rw [y0]
    exact spR.fromOrtho_eq c0 (hR ▸ ha)
  refine ⟨accurateOn_one k0 p0 zT zT rfl rfl (fun g0 c0 a ha => sp.fromOrtho_eq c0 ha) key,
    fun s0 hs0 => accurateOn_one k0 p0 zT zT rfl rfl (fun g0 c0 a ha => sp.fromOrthoPar_eq c0 ha hs0) key,
    fun out ho => ⟨accurateOn_one k0 p0 zT zT rfl rfl (fun g0 c0 a ha => sp.fromOrthoInplace_eq c0 ha ho) key,
    fun s0 hs0 => accurateOn_one k0 p0 zT zT rfl rfl (fun g0 c0 a ha => sp.fromOrthoInplacePar_eq c0 ha ho hs0) key⟩⟩

end

/-! ### `Space2` -/

section
variable {P I S T A P' I' S' T' A' : Type} [Zero P] [Zero I] [Zero S] [Zero T] [NormedAddCommGroup P'] [NormedAddCommGroup I'] [NormedAddCommGroup S'] [NormedAddCommGroup T']
  {vP : P → P'} {vI : I → I'} {vS : S → S'} {vT : T → T'}

/-- C96: `forward` of `Space2` follows the exact method: serial, parallel under every schedule, and in place. -/
theorem C96_space2_forward (sp : Space2 P I S T A) (spR : Space2 P' I' S' T' A') {a0 a1 : Amp}
    (h0 : ForwardAcc vI vS sp.base0 spR.base0 a0) (h1 : ForwardAcc vP vI sp.base1 spR.base1 a1) (zP : vP 0 = 0) (zI : vI 0 = 0) (zS : vS 0 = 0) :
    AccurateOn vP vS (sp.forward) spR.forward sp.shapePhysical sp.shapeSpectral (a1.andThen a0).gain (a1.andThen a0).err ∧
    (∀ s0 s1, FairSchedule [sp.base0.lenSpec, sp.base1.lenSpec] 0 s0 → FairSchedule [sp.base0.lenPhys, sp.base1.lenSpec] 1 s1 →
      AccurateOn vP vS (sp.forwardPar s0 s1) spR.forward sp.shapePhysical sp.shapeSpectral (a1.andThen a0).gain (a1.andThen a0).err) ∧
    ∀ out, Good out sp.shapeSpectral →
      AccurateOn vP vS (fun x => sp.forwardInplace x out) spR.forward sp.shapePhysical sp.shapeSpectral (a1.andThen a0).gain (a1.andThen a0).err ∧
      ∀ s0 s1, FairSchedule [sp.base0.lenSpec, sp.base1.lenSpec] 0 s0 → FairSchedule [sp.base0.lenPhys, sp.base1.lenSpec] 1 s1 →
        AccurateOn vP vS (fun x => sp.forwardInplacePar s0 s1 x out) spR.forward sp.shapePhysical sp.shapeSpectral (a1.andThen a0).gain (a1.andThen a0).err := by
  obtain ⟨⟨x0, y0, w0⟩, p0, k0⟩ := h0
  obtain ⟨⟨x1, y1, w1⟩, p1, k1⟩ := h1
  have hR : sp.shapePhysical = spR.shapePhysical := by simp only [Space2.shapePhysical, x0, y0, w0, x1, y1, w1]
  have key : ∀ g1 g0, Computes spR.base1.forwardSlice sp.base1.lenPhys sp.base1.lenSpec g1 → Computes spR.base0.forwardSlice sp.base0.lenPhys sp.base0.lenSpec g0 → ∀ a, Good a sp.shapePhysical →
      spR.forward a = ok (mapAx g0 sp.base0.lenSpec 0 (mapAx g1 sp.base1.lenSpec 1 a)) := by
    intro g1 g0 c1 c0 a ha
    rw [x0, y0] at c0; rw [x1, y1] at c1
    rw [y0, y1]
    exact spR.forward_eq c0 c1 (hR ▸ ha)
  refine ⟨accurateOn_two k1 k0 p1 p0 zP zI zS rfl rfl rfl (fun g1 g0 c1 c0 a ha => sp.forward_eq c0 c1 ha) key,
    fun s0 s1 hs0 hs1 => accurateOn_two k1 k0 p1 p0 zP zI zS rfl rfl rfl (fun g1 g0 c1 c0 a ha => sp.forwardPar_eq c0 c1 ha hs0 hs1) key,
    fun out ho => ⟨accurateOn_two k1 k0 p1 p0 zP zI zS rfl rfl rfl (fun g1 g0 c1 c0 a ha => sp.forwardInplace_eq c0 c1 ha ho) key,
    fun s0 s1 hs0 hs1 => accurateOn_two k1 k0 p1 p0 zP zI zS rfl rfl rfl (fun g1 g0 c1 c0 a ha => sp.forwardInplacePar_eq c0 c1 ha ho hs0 hs1) key⟩⟩

/-- C96: `backward` of `Space2` follows the exact method: serial, parallel under every schedule, and in place. -/
theorem C96_space2_backward (sp : Space2 P I S T A) (spR : Space2 P' I' S' T' A') {a0 a1 : Amp}
    (h0 : BackwardAcc vS vI sp.base0 spR.base0 a0) (h1 : BackwardAcc vI vP sp.base1 spR.base1 a1) (zS : vS 0 = 0) (zI : vI 0 = 0) (zP : vP 0 = 0) :
    AccurateOn vS vP (sp.backward) spR.backward sp.shapeSpectral sp.shapePhysical (a0.andThen a1).gain (a0.andThen a1).err ∧
    (∀ s0 s1, FairSchedule [sp.base0.lenPhys, sp.base1.lenSpec] 0 s0 → FairSchedule [sp.base0.lenPhys, sp.base1.lenPhys] 1 s1 →
      AccurateOn vS vP (sp.backwardPar s0 s1) spR.backward sp.shapeSpectral sp.shapePhysical (a0.andThen a1).gain (a0.andThen a1).err) ∧
    ∀ out, Good out sp.shapePhysical →
      AccurateOn vS vP (fun x => sp.backwardInplace x out) spR.backward sp.shapeSpectral sp.shapePhysical (a0.andThen a1).gain (a0.andThen a1).err ∧
      ∀ s0 s1, FairSchedule [sp.base0.lenPhys, sp.base1.lenSpec] 0 s0 → FairSchedule [sp.base0.lenPhys, sp.base1.lenPhys] 1 s1 →
        AccurateOn vS vP (fun x => sp.backwardInplacePar s0 s1 x out) spR.backward sp.shapeSpectral sp.shapePhysical (a0.andThen a1).gain (a0.andThen a1).err := by
  obtain ⟨⟨x0, y0, w0⟩, p0, k0⟩ := h0
  obtain ⟨⟨x1, y1, w1⟩, p1, k1⟩ := h1
  have hR : sp.shapeSpectral = spR.shapeSpectral := by simp only [Space2.shapeSpectral, x0, y0, w0, x1, y1, w1]
  have key : ∀ g0 g1, Computes spR.base0.backwardSlice sp.base0.lenSpec sp.base0.lenPhys g0 → Computes spR.base1.backwardSlice sp.base1.lenSpec sp.base1.lenPhys g1 → ∀ a, Good a sp.shapeSpectral →
      spR.backward a = ok (mapAx g1 sp.base1.lenPhys 1 (mapAx g0 sp.base0.lenPhys 0 a)) := by
    intro g0 g1 c0 c1 a ha
    rw [y0, x0] at c0; rw [y1, x1] at c1
    rw [x1, x0]
    exact spR.backward_eq c0 c1 (hR ▸ ha)
  refine ⟨accurateOn_two k0 k1 p0 p1 zS zI zP rfl rfl rfl (fun g0 g1 c0 c1 a ha => sp.backward_eq c0 c1 ha) key,
    fun s0 s1 hs0 hs1 => accurateOn_two k0 k1 p0 p1 zS zI zP rfl rfl rfl (fun g0 g1 c0 c1 a ha => sp.backwardPar_eq c0 c1 ha hs0 hs1) key,
    fun out ho => ⟨accurateOn_two k0 k1 p0 p1 zS zI zP rfl rfl rfl (fun g0 g1 c0 c1 a ha => sp.backwardInplace_eq c0 c1 ha ho) key,
    fun s0 s1 hs0 hs1 => accurateOn_two k0 k1 p0 p1 zS zI zP rfl rfl rfl (fun g0 g1 c0 c1 a ha => sp.backwardInplacePar_eq c0 c1 ha ho hs0 hs1) key⟩⟩

/-- C96: `to_ortho` of `Space2` follows the exact method: serial, parallel under every schedule, and in place. -/
theorem C96_space2_to_ortho (sp : Space2 P I S T A) (spR : Space2 P' I' S' T' A') {a0 a1 : Amp}
    (h0 : ToOrthoAcc vT sp.base0 spR.base0 a0) (h1 : ToOrthoAcc vT sp.base1 spR.base1 a1) (zT : vT 0 = 0) :
    AccurateOn vT vT (sp.toOrtho) spR.toOrtho sp.shapeSpectral sp.shapeSpectralOrtho (a0.andThen a1).gain (a0.andThen a1).err ∧
    (∀ s0 s1, FairSchedule [sp.base0.lenOrth, sp.base1.lenSpec] 0 s0 → FairSchedule [sp.base0.lenOrth, sp.base1.lenOrth] 1 s1 →
      AccurateOn vT vT (sp.toOrthoPar s0 s1) spR.toOrtho sp.shapeSpectral sp.shapeSpectralOrtho (a0.andThen a1).gain (a0.andThen a1).err) ∧
    ∀ out, Good out sp.shapeSpectralOrtho →
      AccurateOn vT vT (fun x => sp.toOrthoInplace x out) spR.toOrtho sp.shapeSpectral sp.shapeSpectralOrtho (a0.andThen a1).gain (a0.andThen a1).err ∧
      ∀ s0 s1, FairSchedule [sp.base0.lenOrth, sp.base1.lenSpec] 0 s0 → FairSchedule [sp.base0.lenOrth, sp.base1.lenOrth] 1 s1 →
        AccurateOn vT vT (fun x => sp.toOrthoInplacePar s0 s1 x out) spR.toOrtho sp.shapeSpectral sp.shapeSpectralOrtho (a0.andThen a1).gain (a0.andThen a1).err := by
  obtain ⟨⟨x0, y0, w0⟩, p0, k0⟩ := h0
  obtain ⟨⟨x1, y1, w1⟩, p1, k1⟩ := h1
  have hR : sp.shapeSpectral = spR.shapeSpectral := by simp only [Space2.shapeSpectral, x0, y0, w0, x1, y1, w1]
  have key : ∀ g0 g1, Computes spR.base0.toOrthoSlice sp.base0.lenSpec sp.base0.lenOrth g0 → Computes spR.base1.toOrthoSlice sp.base1.lenSpec sp.base1.lenOrth g1 → ∀ a, Good a sp.shapeSpectral →
      spR.toOrtho a = ok (mapAx g1 sp.base1.lenOrth 1 (mapAx g0 sp.base0.lenOrth 0 a)) := by
    intro g0 g1 c0 c1 a ha
    rw [y0, w0] at c0; rw [y1, w1] at c1
    rw [w1, w0]
    exact spR.toOrtho_eq c0 c1 (hR ▸ ha)
  refine ⟨accurateOn_two k0 k1 p0 p1 zT zT zT rfl rfl rfl (fun g0 g1 c0 c1 a ha => sp.toOrtho_eq c0 c1 ha) key,
    fun s0 s1 hs0 hs1 => accurateOn_two k0 k1 p0 p1 zT zT zT rfl rfl rfl (fun g0 g1 c0 c1 a ha => sp.toOrthoPar_eq c0 c1 ha hs0 hs1) key,
    fun out ho => ⟨accurateOn_two k0 k1 p0 p1 zT zT zT rfl rfl rfl (fun g0 g1 c0 c1 a ha => sp.toOrthoInplace_eq c0 c1 ha ho) key,
    fun s0 s1 hs0 hs1 => accurateOn_two k0 k1 p0 p1 zT zT zT rfl rfl rfl (fun g0 g1 c0 c1 a ha => sp.toOrthoInplacePar_eq c0 c1 ha ho hs0 hs1) key⟩⟩

/-- C96: `from_ortho` of `Space2` follows the exact method: serial, parallel under every schedule, and in place. -/
theorem C96_space2_from_ortho (sp : Space2 P I S T A) (spR : Space2 P' I' S' T' A') {a0 a1 : Amp}
    (h0 : FromOrthoAcc vT sp.base0 spR.base0 a0) (h1 : FromOrthoAcc vT sp.base1 spR.base1 a1) (zT : vT 0 = 0) :
    AccurateOn vT vT (sp.fromOrtho) spR.fromOrtho sp.shapeSpectralOrtho sp.shapeSpectral (a0.andThen a1).gain (a0.andThen a1).err ∧
    (∀ s0 s1, FairSchedule [sp.base0.lenSpec, sp.base1.lenOrth] 0 s0 → FairSchedule [sp.base0.lenSpec, sp.base1.lenSpec] 1 s1 →
      AccurateOn vT vT (sp.fromOrthoPar s0 s1) spR.fromOrtho sp.shapeSpectralOrtho sp.shapeSpectral (a0.andThen a1).gain (a0.andThen a1).err) ∧
    ∀ out, Good out sp.shapeSpectral →
      AccurateOn vT vT (fun x => sp.fromOrthoInplace x out) spR.fromOrtho sp.shapeSpectralOrtho sp.shapeSpectral (a0.andThen a1).gain (a0.andThen a1).err ∧
      ∀ s0 s1, FairSchedule [sp.base0.lenSpec, sp.base1.lenOrth] 0 s0 → FairSchedule [sp.base0.lenSpec, sp.base1.lenSpec] 1 s1 →
        AccurateOn vT vT (fun x => sp.fromOrthoInplacePar s0 s1 x out) spR.fromOrtho sp.shapeSpectralOrtho sp.shapeSpectral (a0.andThen a1).gain (a0.andThen a1).err := by
  obtain ⟨⟨x0, y0, w0⟩, p0, k0⟩ := h0
  obtain ⟨⟨x1, y1, w1⟩, p1, k1⟩ := h1
  have hR : sp.shapeSpectralOrtho = spR.shapeSpectralOrtho := by simp only [Space2.shapeSpectralOrtho, x0, y0, w0, x1, y1, w1]
  have key : ∀ g0 g1, Computes spR.base0.fromOrthoSlice sp.base0.lenOrth sp.base0.lenSpec g0 → Computes spR.base1.fromOrthoSlice sp.base1.lenOrth sp.base1.lenSpec g1 → ∀ a, Good a sp.shapeSpectralOrtho →
      spR.fromOrtho a = ok (mapAx g1 sp.base1.lenSpec 1 (mapAx g0 sp.base0.lenSpec 0 a)) := by
    intro g0 g1 c0 c1 a ha
    rw [w0, y0] at c0; rw [w1, y1] at c1
    rw [y1, y0]
    exact spR.fromOrtho_eq c0 c1 (hR ▸ ha)
  refine ⟨accurateOn_two k0 k1 p0 p1 zT zT zT rfl rfl rfl (fun g0 g1 c0 c1 a ha => sp.fromOrtho_eq c0 c1 ha) key,
    fun s0 s1 hs0 hs1 => accurateOn_two k0 k1 p0 p1 zT zT zT rfl rfl rfl (fun g0 g1 c0 c1 a ha => sp.fromOrthoPar_eq c0 c1 ha hs0 hs1) key,
    fun out ho => ⟨accurateOn_two k0 k1 p0 p1 zT zT zT rfl rfl rfl (fun g0 g1 c0 c1 a ha => sp.fromOrthoInplace_eq c0 c1 ha ho) key,
    fun s0 s1 hs0 hs1 => accurateOn_two k0 k1 p0 p1 zT zT zT rfl rfl rfl (fun g0 g1 c0 c1 a ha => sp.fromOrthoInplacePar_eq c0 c1 ha ho hs0 hs1) key⟩⟩

end

/-! ### `Space3` -/

section
variable {P I J S T A P' I' J' S' T' A' : Type} [Zero P] [Zero I] [Zero J] [Zero S] [Zero T] [NormedAddCommGroup P'] [NormedAddCommGroup I'] [NormedAddCommGroup J'] [NormedAddCommGroup S'] [NormedAddCommGroup T']
  {vP : P → P'} {vI : I → I'} {vJ : J → J'} {vS : S → S'} {vT : T → T'}

/-- C96: `forward` of `Space3` follows the exact method: serial, parallel under every schedule, and in place. -/
theorem C96_space3_forward (sp : Space3 P I J S T A) (spR : Space3 P' I' J' S' T' A') {a0 a1 a2 : Amp}
    (h0 : ForwardAcc vJ vS sp.base0 spR.base0 a0) (h1 : ForwardAcc vI vJ sp.base1 spR.base1 a1) (h2 : ForwardAcc vP vI sp.base2 spR.base2 a2) (zP : vP 0 = 0) (zI : vI 0 = 0) (zJ : vJ 0 = 0) (zS : vS 0 = 0) :
    AccurateOn vP vS (sp.forward) spR.forward sp.shapePhysical sp.shapeSpectral ((a2.andThen a1).andThen a0).gain ((a2.andThen a1).andThen a0).err ∧
    (∀ s0 s1 s2, FairSchedule [sp.base0.lenSpec, sp.base1.lenSpec, sp.base2.lenSpec] 0 s0 → FairSchedule [sp.base0.lenPhys, sp.base1.lenSpec, sp.base2.lenSpec] 1 s1 → FairSchedule [sp.base0.lenPhys, sp.base1.lenPhys, sp.base2.lenSpec] 2 s2 →
      AccurateOn vP vS (sp.forwardPar s0 s1 s2) spR.forward sp.shapePhysical sp.shapeSpectral ((a2.andThen a1).andThen a0).gain ((a2.andThen a1).andThen a0).err) ∧
    ∀ out, Good out sp.shapeSpectral →
      AccurateOn vP vS (fun x => sp.forwardInplace x out) spR.forward sp.shapePhysical sp.shapeSpectral ((a2.andThen a1).andThen a0).gain ((a2.andThen a1).andThen a0).err ∧
      ∀ s0 s1 s2, FairSchedule [sp.base0.lenSpec, sp.base1.lenSpec, sp.base2.lenSpec] 0 s0 → FairSchedule [sp.base0.lenPhys, sp.base1.lenSpec, sp.base2.lenSpec] 1 s1 → FairSchedule [sp.base0.lenPhys, sp.base1.lenPhys, sp.base2.lenSpec] 2 s2 →
        AccurateOn vP vS (fun x => sp.forwardInplacePar s0 s1 s2 x out) spR.forward sp.shapePhysical sp.shapeSpectral ((a2.andThen a1).andThen a0).gain ((a2.andThen a1).andThen a0).err := by
  obtain ⟨⟨x0, y0, w0⟩, p0, k0⟩ := h0
  obtain ⟨⟨x1, y1, w1⟩, p1, k1⟩ := h1
  obtain ⟨⟨x2, y2, w2⟩, p2, k2⟩ := h2
  have hR : sp.shapePhysical = spR.shapePhysical := by simp only [Space3.shapePhysical, x0, y0, w0, x1, y1, w1, x2, y2, w2]
  have key : ∀ g2 g1 g0, Computes spR.base2.forwardSlice sp.base2.lenPhys sp.base2.lenSpec g2 → Computes spR.base1.forwardSlice sp.base1.lenPhys sp.base1.lenSpec g1 → Computes spR.base0.forwardSlice sp.base0.lenPhys sp.base0.lenSpec g0 → ∀ a, Good a sp.shapePhysical →
      spR.forward a = ok (mapAx g0 sp.base0.lenSpec 0 (mapAx g1 sp.base1.lenSpec 1 (mapAx g2 sp.base2.lenSpec 2 a))) := by
    intro g2 g1 g0 c2 c1 c0 a ha
    rw [x0, y0] at c0; rw [x1, y1] at c1; rw [x2, y2] at c2
    rw [y0, y1, y2]
    exact spR.forward_eq c0 c1 c2 (hR ▸ ha)
  refine ⟨accurateOn_three k2 k1 k0 p2 p1 p0 zP zI zJ zS rfl rfl rfl rfl (fun g2 g1 g0 c2 c1 c0 a ha => sp.forward_eq c0 c1 c2 ha) key,
    fun s0 s1 s2 hs0 hs1 hs2 => accurateOn_three k2 k1 k0 p2 p1 p0 zP zI zJ zS rfl rfl rfl rfl (fun g2 g1 g0 c2 c1 c0 a ha => sp.forwardPar_eq c0 c1 c2 ha hs0 hs1 hs2) key,
    fun out ho => ⟨accurateOn_three k2 k1 k0 p2 p1 p0 zP zI zJ zS rfl rfl rfl rfl (fun g2 g1 g0 c2 c1 c0 a ha => sp.forwardInplace_eq c0 c1 c2 ha ho) key,
    fun s0 s1 s2 hs0 hs1 hs2 => accurateOn_three k2 k1 k0 p2 p1 p0 zP zI zJ zS rfl rfl rfl rfl (fun g2 g1 g0 c2 c1 c0 a ha => sp.forwardInplacePar_eq c0 c1 c2 ha ho hs0 hs1 hs2) key⟩⟩

/-- C96: `backward` of `Space3` follows the exact method: serial, parallel under every schedule, and in place. -/
theorem C96_space3_backward (sp : Space3 P I J S T A) (spR : Space3 P' I' J' S' T' A') {a0 a1 a2 : Amp}
    (h0 : BackwardAcc vS vJ sp.base0 spR.base0 a0) (h1 : BackwardAcc vJ vI sp.base1 spR.base1 a1) (h2 : BackwardAcc vI vP sp.base2 spR.base2 a2) (zS : vS 0 = 0) (zJ : vJ 0 = 0) (zI : vI 0 = 0) (zP : vP 0 = 0) :
    AccurateOn vS vP (sp.backward) spR.backward sp.shapeSpectral sp.shapePhysical ((a0.andThen a1).andThen a2).gain ((a0.andThen a1).andThen a2).err ∧
    (∀ s0 s1 s2, FairSchedule [sp.base0.lenPhys, sp.base1.lenSpec, sp.base2.lenSpec] 0 s0 → FairSchedule [sp.base0.lenPhys, sp.base1.lenPhys, sp.base2.lenSpec] 1 s1 → FairSchedule [sp.base0.lenPhys, sp.base1.lenPhys, sp.base2.lenPhys] 2 s2 →
      AccurateOn vS vP (sp.backwardPar s0 s1 s2) spR.backward sp.shapeSpectral sp.shapePhysical ((a0.andThen a1).andThen a2).gain ((a0.andThen a1).andThen a2).err) ∧
    ∀ out, Good out sp.shapePhysical →
      AccurateOn vS vP (fun x => sp.backwardInplace x out) spR.backward sp.shapeSpectral sp.shapePhysical ((a0.andThen a1).andThen a2).gain ((a0.andThen a1).andThen a2).err ∧
      ∀ s0 s1 s2, FairSchedule [sp.base0.lenPhys, sp.base1.lenSpec, sp.base2.lenSpec] 0 s0 → FairSchedule [sp.base0.lenPhys, sp.base1.lenPhys, sp.base2.lenSpec] 1 s1 → FairSchedule [sp.base0.lenPhys, sp.base1.lenPhys, sp.base2.lenPhys] 2 s2 →
        AccurateOn vS vP (fun x => sp.backwardInplacePar s0 s1 s2 x out) spR.backward sp.shapeSpectral sp.shapePhysical ((a0.andThen a1).andThen a2).gain ((a0.andThen a1).andThen a2).err := by
  obtain ⟨⟨x0, y0, w0⟩, p0, k0⟩ := h0
  obtain ⟨⟨x1, y1, w1⟩, p1, k1⟩ := h1
  obtain ⟨⟨x2, y2, w2⟩, p2, k2⟩ := h2
  have hR : sp.shapeSpectral = spR.shapeSpectral := by simp only [Space3.shapeSpectral, x0, y0, w0, x1, y1, w1, x2, y2, w2]
  have key : ∀ g0 g1 g2, Computes spR.base0.backwardSlice sp.base0.lenSpec sp.base0.lenPhys g0 → Computes spR.base1.backwardSlice sp.base1.lenSpec sp.base1.lenPhys g1 → Computes spR.base2.backwardSlice sp.base2.lenSpec sp.base2.lenPhys g2 → ∀ a, Good a sp.shapeSpectral →
      spR.backward a = ok (mapAx g2 sp.base2.lenPhys 2 (mapAx g1 sp.base1.lenPhys 1 (mapAx g0 sp.base0.lenPhys 0 a))) := by
    intro g0 g1 g2 c0 c1 c2 a ha
    rw [y0, x0] at c0; rw [y1, x1] at c1; rw [y2, x2] at c2
    rw [x2, x1, x0]
    exact spR.backward_eq c0 c1 c2 (hR ▸ ha)
  refine ⟨accurateOn_three k0 k1 k2 p0 p1 p2 zS zJ zI zP rfl rfl rfl rfl (fun g0 g1 g2 c0 c1 c2 a ha => sp.backward_eq c0 c1 c2 ha) key,
    fun s0 s1 s2 hs0 hs1 hs2 => accurateOn_three k0 k1 k2 p0 p1 p2 zS zJ zI zP rfl rfl rfl rfl (fun g0 g1 g2 c0 c1 c2 a ha => sp.backwardPar_eq c0 c1 c2 ha hs0 hs1 hs2) key,
    fun out ho => ⟨accurateOn_three k0 k1 k2 p0 p1 p2 zS zJ zI zP rfl rfl rfl rfl (fun g0 g1 g2 c0 c1 c2 a ha => sp.backwardInplace_eq c0 c1 c2 ha ho) key,
    fun s0 s1 s2 hs0 hs1 hs2 => accurateOn_three k0 k1 k2 p0 p1 p2 zS zJ zI zP rfl rfl rfl rfl (fun g0 g1 g2 c0 c1 c2 a ha => sp.backwardInplacePar_eq c0 c1 c2 ha ho hs0 hs1 hs2) key⟩⟩

/-- C96: `to_ortho` of `Space3` follows the exact method: serial, parallel under every schedule, and in place. -/
theorem C96_space3_to_ortho (sp : Space3 P I J S T A) (spR : Space3 P' I' J' S' T' A') {a0 a1 a2 : Amp}
    (h0 : ToOrthoAcc vT sp.base0 spR.base0 a0) (h1 : ToOrthoAcc vT sp.base1 spR.base1 a1) (h2 : ToOrthoAcc vT sp.base2 spR.base2 a2) (zT : vT 0 = 0) :
    AccurateOn vT vT (sp.toOrtho) spR.toOrtho sp.shapeSpectral sp.shapeSpectralOrtho ((a0.andThen a1).andThen a2).gain ((a0.andThen a1).andThen a2).err ∧
    (∀ s0 s1 s2, FairSchedule [sp.base0.lenOrth, sp.base1.lenSpec, sp.base2.lenSpec] 0 s0 → FairSchedule [sp.base0.lenOrth, sp.base1.lenOrth, sp.base2.lenSpec] 1 s1 → FairSchedule [sp.base0.lenOrth, sp.base1.lenOrth, sp.base2.lenOrth] 2 s2 →
      AccurateOn vT vT (sp.toOrthoPar s0 s1 s2) spR.toOrtho sp.shapeSpectral sp.shapeSpectralOrtho ((a0.andThen a1).andThen a2).gain ((a0.andThen a1).andThen a2).err) ∧
    ∀ out, Good out sp.shapeSpectralOrtho →
      AccurateOn vT vT (fun x => sp.toOrthoInplace x out) spR.toOrtho sp.shapeSpectral sp.shapeSpectralOrtho ((a0.andThen a1).andThen a2).gain ((a0.andThen a1).andThen a2).err ∧
      ∀ s0 s1 s2, FairSchedule [sp.base0.lenOrth, sp.base1.lenSpec, sp.base2.lenSpec] 0 s0 → FairSchedule [sp.base0.lenOrth, sp.base1.lenOrth, sp.base2.lenSpec] 1 s1 → FairSchedule [sp.base0.lenOrth, sp.base1.lenOrth, sp.base2.lenOrth] 2 s2 →
        AccurateOn vT vT (fun x => sp.toOrthoInplacePar s0 s1 s2 x out) spR.toOrtho sp.shapeSpectral sp.shapeSpectralOrtho ((a0.andThen a1).andThen a2).gain ((a0.andThen a1).andThen a2).err := by
  obtain ⟨⟨x0, y0, w0⟩, p0, k0⟩ := h0
  obtain ⟨⟨x1, y1, w1⟩, p1, k1⟩ := h1
  obtain ⟨⟨x2, y2, w2⟩, p2, k2⟩ := h2
  have hR : sp.shapeSpectral = spR.shapeSpectral := by simp only [Space3.shapeSpectral, x0, y0, w0, x1, y1, w1, x2, y2, w2]
  have key : ∀ g0 g1 g2, Computes spR.base0.toOrthoSlice sp.base0.lenSpec sp.base0.lenOrth g0 → Computes spR.base1.toOrthoSlice sp.base1.lenSpec sp.base1.lenOrth g1 → Computes spR.base2.toOrthoSlice sp.base2.lenSpec sp.base2.lenOrth g2 → ∀ a, Good a sp.shapeSpectral →
      spR.toOrtho a = ok (mapAx g2 sp.base2.lenOrth 2 (mapAx g1 sp.base1.lenOrth 1 (mapAx g0 sp.base0.lenOrth 0 a))) := by
    intro g0 g1 g2 c0 c1 c2 a ha
    rw [y0, w0] at c0; rw [y1, w1] at c1; rw [y2, w2] at c2
    rw [w2, w1, w0]
    exact spR.toOrtho_eq c0 c1 c2 (hR ▸ ha)
  refine ⟨accurateOn_three k0 k1 k2 p0 p1 p2 zT zT zT zT rfl rfl rfl rfl (fun g0 g1 g2 c0 c1 c2 a ha => sp.toOrtho_eq c0 c1 c2 ha) key,
    fun s0 s1 s2 hs0 hs1 hs2 => accurateOn_three k0 k1 k2 p0 p1 p2 zT zT zT zT rfl rfl rfl rfl (fun g0 g1 g2 c0 c1 c2 a ha => sp.toOrthoPar_eq c0 c1 c2 ha hs0 hs1 hs2) key,
    fun out ho => ⟨accurateOn_three k0 k1 k2 p0 p1 p2 zT zT zT zT rfl rfl rfl rfl (fun g0 g1 g2 c0 c1 c2 a ha => sp.toOrthoInplace_eq c0 c1 c2 ha ho) key,
    fun s0 s1 s2 hs0 hs1 hs2 => accurateOn_three k0 k1 k2 p0 p1 p2 zT zT zT zT rfl rfl rfl rfl (fun g0 g1 g2 c0 c1 c2 a ha => sp.toOrthoInplacePar_eq c0 c1 c2 ha ho hs0 hs1 hs2) key⟩⟩

/-- C96: `from_ortho` of `Space3` follows the exact method: serial, parallel under every schedule, and in place. -/
theorem C96_space3_from_ortho (sp : Space3 P I J S T A) (spR : Space3 P' I' J' S' T' A') {a0 a1 a2 : Amp}
    (h0 : FromOrthoAcc vT sp.base0 spR.base0 a0) (h1 : FromOrthoAcc vT sp.base1 spR.base1 a1) (h2 : FromOrthoAcc vT sp.base2 spR.base2 a2) (zT : vT 0 = 0) :
    AccurateOn vT vT (sp.fromOrtho) spR.fromOrtho sp.shapeSpectralOrtho sp.shapeSpectral ((a0.andThen a1).andThen a2).gain ((a0.andThen a1).andThen a2).err ∧
    (∀ s0 s1 s2, FairSchedule [sp.base0.lenSpec, sp.base1.lenOrth, sp.base2.lenOrth] 0 s0 → FairSchedule [sp.base0.lenSpec, sp.base1.lenSpec, sp.base2.lenOrth] 1 s1 → FairSchedule [sp.base0.lenSpec, sp.base1.lenSpec, sp.base2.lenSpec] 2 s2 →
      AccurateOn vT vT (sp.fromOrthoPar s0 s1 s2) spR.fromOrtho sp.shapeSpectralOrtho sp.shapeSpectral ((a0.andThen a1).andThen a2).gain ((a0.andThen a1).andThen a2).err) ∧
    ∀ out, Good out sp.shapeSpectral →
      AccurateOn vT vT (fun x => sp.fromOrthoInplace x out) spR.fromOrtho sp.shapeSpectralOrtho sp.shapeSpectral ((a0.andThen a1).andThen a2).gain ((a0.andThen a1).andThen a2).err ∧
      ∀ s0 s1 s2, FairSchedule [sp.base0.lenSpec, sp.base1.lenOrth, sp.base2.lenOrth] 0 s0 → FairSchedule [sp.base0.lenSpec, sp.base1.lenSpec, sp.base2.lenOrth] 1 s1 → FairSchedule [sp.base0.lenSpec, sp.base1.lenSpec, sp.base2.lenSpec] 2 s2 →
        AccurateOn vT vT (fun x => sp.fromOrthoInplacePar s0 s1 s2 x out) spR.fromOrtho sp.shapeSpectralOrtho sp.shapeSpectral ((a0.andThen a1).andThen a2).gain ((a0.andThen a1).andThen a2).err := by
  obtain ⟨⟨x0, y0, w0⟩, p0, k0⟩ := h0
  obtain ⟨⟨x1, y1, w1⟩, p1, k1⟩ := h1
  obtain ⟨⟨x2, y2, w2⟩, p2, k2⟩ := h2
  have hR : sp.shapeSpectralOrtho = spR.shapeSpectralOrtho := by simp only [Space3.shapeSpectralOrtho, x0, y0, w0, x1, y1, w1, x2, y2, w2]
  have key : ∀ g0 g1 g2, Computes spR.base0.fromOrthoSlice sp.base0.lenOrth sp.base0.lenSpec g0 → Computes spR.base1.fromOrthoSlice sp.base1.lenOrth sp.base1.lenSpec g1 → Computes spR.base2.fromOrthoSlice sp.base2.lenOrth sp.base2.lenSpec g2 → ∀ a, Good a sp.shapeSpectralOrtho →
      spR.fromOrtho a = ok (mapAx g2 sp.base2.lenSpec 2 (mapAx g1 sp.base1.lenSpec 1 (mapAx g0 sp.base0.lenSpec 0 a))) := by
    intro g0 g1 g2 c0 c1 c2 a ha
    rw [w0, y0] at c0; rw [w1, y1] at c1; rw [w2, y2] at c2
    rw [y2, y1, y0]
    exact spR.fromOrtho_eq c0 c1 c2 (hR ▸ ha)
  refine ⟨accurateOn_three k0 k1 k2 p0 p1 p2 zT zT zT zT rfl rfl rfl rfl (fun g0 g1 g2 c0 c1 c2 a ha => sp.fromOrtho_eq c0 c1 c2 ha) key,
    fun s0 s1 s2 hs0 hs1 hs2 => accurateOn_three k0 k1 k2 p0 p1 p2 zT zT zT zT rfl rfl rfl rfl (fun g0 g1 g2 c0 c1 c2 a ha => sp.fromOrthoPar_eq c0 c1 c2 ha hs0 hs1 hs2) key,
    fun out ho => ⟨accurateOn_three k0 k1 k2 p0 p1 p2 zT zT zT zT rfl rfl rfl rfl (fun g0 g1 g2 c0 c1 c2 a ha => sp.fromOrthoInplace_eq c0 c1 c2 ha ho) key,
    fun s0 s1 s2 hs0 hs1 hs2 => accurateOn_three k0 k1 k2 p0 p1 p2 zT zT zT zT rfl rfl rfl rfl (fun g0 g1 g2 c0 c1 c2 a ha => sp.fromOrthoInplacePar_eq c0 c1 c2 ha ho hs0 hs1 hs2) key⟩⟩

end

/-! ### a space in numbers with 53 binary digits -/

section
attribute [local instance] roundedDct roundedFft exactLibm

/-- `fourier_r2c(64)` × `cheb_dirichlet(33)`, values of modulus at most 1: the coefficients computed by `forward`, or by
`forward_par` under any schedule, are within `10⁻⁶` of the exact ones, and the values computed from exact coefficients of modulus
at most 1 within `10⁻¹²`. -/
example : ∃ (b0 : BaseR2c (Rnd (binary 52)) (RndC (binary 52))) (b1 : BaseR2r (Rnd (binary 52))) (c0 : BaseR2c ℝ ℂ) (c1 : BaseR2r ℝ),
    fourierR2c 64 (Rnd (binary 52)) (RndC (binary 52)) = ok b0 ∧ newR2r (some .dirichlet) 33 (Rnd (binary 52)) = ok b1 ∧
    fourierR2c 64 = ok c0 ∧ newR2r (some .dirichlet) 33 = ok c1 ∧
    (let sp : Space2 (Rnd (binary 52)) (Rnd (binary 52)) (RndC (binary 52)) (RndC (binary 52)) (Rnd (binary 52)) :=
        ⟨b0.toBase, b1.toBase (RndC (binary 52))⟩
     let spR : Space2 ℝ ℝ ℂ ℂ := ⟨c0.toBase, c1.toBase ℂ⟩
     (∀ a s0 s1, Good a [64, 33] → FairSchedule [33, 31] 0 s0 → FairSchedule [64, 31] 1 s1 → MaxLe 1 (a.data.map Rnd.val) →
        ∃ r r' rR, sp.forward a = ok r ∧ sp.forwardPar s0 s1 a = ok r' ∧ spR.forward (onArray Rnd.val a) = ok rR ∧
          MaxDist (1 / 10 ^ 6) (r.data.map RndC.val) rR.data ∧ MaxDist (1 / 10 ^ 6) (r'.data.map RndC.val) rR.data) ∧
     ∀ a, Good a [33, 31] → MaxLe 1 (a.data.map RndC.val) →
        ∃ r rR, sp.backward a = ok r ∧ spR.backward (onArray RndC.val a) = ok rR ∧
          MaxDist (1 / 10 ^ 12) (r.data.map Rnd.val) rR.data) := by
  have hN : (binary 52).Integers 64 := fun k hk => binary_integers 52 k (by omega)
  obtain ⟨c, hc⟩ := C72_new (R := binary 52) (by rw [u52']; norm_num) .dirichlet (.inl rfl) (n := 33) (by omega)
  obtain ⟨c1, hc1⟩ := newR2r_exists (some .dirichlet) 33 (by norm_num) (by rintro c ⟨⟩; decide)
  have hb1 : newR2r (some .dirichlet) 33 (Rnd (binary 52)) = ok (.chebyshevComposite c) := by
    show chebComposite .dirichlet 33 _ = _
    unfold chebComposite
    rw [hc]; rfl
  refine ⟨_, _, _, _, rfl, hb1, rfl, hc1, ?_⟩
  have hu : SmallUnit (binary 52) 33 (some .dirichlet) := ⟨binary_nearest 52, by rw [u52']; norm_num, by rw [gam52']; norm_num⟩
  have hs : RunsSolve (some .dirichlet) 33 := by show 5 ≤ 33; norm_num
  have hm : RunsMul (some .dirichlet) := Or.inl rfl
  obtain ⟨f0, g0, -⟩ := C96_fourier_r2c (R := binary 52) (n := 64) (η := (binary 52).u) (by norm_num) (binary 52).u_nonneg
    (roundedFft_error 64) (binary_nearest 52) hN (by rw [u52']; norm_num) rfl rfl
  have f1 := C96_r2r_forward (T := RndC (binary 52)) (T' := ℂ) hm hs hu (binary 52).u_nonneg (by rw [u52']; norm_num)
    (rounded_error (by norm_num)) hb1 hc1
  have g1 := C96_r2r_backward (T := RndC (binary 52)) (T' := ℂ) hm hs hu (binary 52).u_nonneg (by rw [u52']; norm_num)
    (rounded_error (by norm_num)) hb1 hc1
  obtain ⟨-, m1, -, -⟩ := compo_lens hm (by norm_num) hc
  have lp : (BaseR2r.toBase (RndC (binary 52)) (.chebyshevComposite c)).lenPhys = 33 := (compo_lens hm (by norm_num) hc).1
  have ls : (BaseR2r.toBase (RndC (binary 52)) (.chebyshevComposite c)).lenSpec = 31 := m1
  obtain ⟨F, FP, -⟩ := C96_space2_forward ⟨_, _⟩ ⟨_, _⟩ f0 f1 rfl rfl rfl
  obtain ⟨G, -⟩ := C96_space2_backward ⟨_, _⟩ ⟨_, _⟩ g0 g1 rfl rfl rfl
  refine ⟨fun a s0 s1 ha h0 h1 hX => ?_, fun a ha hX => ?_⟩
  · have hb : Good (onArray Rnd.val a) [64, 33] := ⟨by
      have := ha.1; unfold Arr.WF onArray at *; simpa using this, ha.2.1, ha.2.2⟩
    have ha' : Good a [64, (BaseR2r.toBase (RndC (binary 52)) (.chebyshevComposite c)).lenPhys] := by rw [lp]; exact ha
    have hb' : Good (onArray Rnd.val a) [64, (BaseR2r.toBase (RndC (binary 52)) (.chebyshevComposite c)).lenPhys] := by
      rw [lp]; exact hb
    obtain ⟨r, rR, e1, e2, -, -, -, d⟩ := F a (onArray Rnd.val a) 1 0 ha' hb' zero_le_one le_rfl hX MaxDist.refl
    obtain ⟨r', rR', e1', e2', -, -, -, d'⟩ := FP s0 s1 (ls.symm ▸ h0) (ls.symm ▸ h1) a (onArray Rnd.val a) 1 0
      ha' hb' zero_le_one le_rfl hX MaxDist.refl
    obtain rfl := Res.ok.inj (e2.symm.trans e2')
    refine ⟨r, r', rR, e1, e1', e2, d.mono ?_, d'.mono ?_⟩ <;>
    · simp only [Amp.andThen, forwardAmp, fromAmp, fourierForwardAmp, gam52', u52']
      norm_num
  · have hb : Good (onArray RndC.val a) [33, 31] := ⟨by
      have := ha.1; unfold Arr.WF onArray at *; simpa using this, ha.2.1, ha.2.2⟩
    have ha' : Good a [64 / 2 + 1, (BaseR2r.toBase (RndC (binary 52)) (.chebyshevComposite c)).lenSpec] := by rw [ls]; exact ha
    have hb' : Good (onArray RndC.val a) [64 / 2 + 1, (BaseR2r.toBase (RndC (binary 52)) (.chebyshevComposite c)).lenSpec] := by
      rw [ls]; exact hb
    obtain ⟨r, rR, e1, e2, -, -, -, d⟩ := G a (onArray RndC.val a) 1 0 ha' hb' zero_le_one le_rfl hX MaxDist.refl
    refine ⟨r, rR, e1, e2, d.mono ?_⟩
    simp only [Amp.andThen, backwardAmp, toAmp, fourierBackwardAmp, gam52', u52']
    norm_num

end

end Verif.Props
