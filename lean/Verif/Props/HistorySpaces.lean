/- C100: histories of round trips for the spaces of the library. -/
import Verif.Props.History
import Verif.Props.Total2
import Mathlib.Analysis.Complex.Exponential

namespace Verif.Props
open Verif Res Spec

/-- C100: as long as `k ε ≤ 1`, the bound of `k` round trips grows linearly: at most `2 k ε`. -/
theorem C100_growth {ε : ℝ} (h0 : 0 ≤ ε) {k : ℕ} (hk : k * ε ≤ 1) : (1 + ε) ^ k - 1 ≤ 2 * (k * ε) := by
  have h1 : (1 + ε) ^ k ≤ Real.exp (k * ε) := by
    rw [Real.exp_nat_mul]
    exact pow_le_pow_left₀ (by positivity) (by rw [add_comm]; exact Real.add_one_le_exp ε) k
  have h2 : 0 ≤ k * ε := by positivity
  have h3 := Real.abs_exp_sub_one_le (x := k * ε) (by rwa [abs_of_nonneg h2])
  rw [abs_of_nonneg h2] at h3
  linarith [le_abs_self (Real.exp (k * ε) - 1)]

theorem rnd_surj {R : Rounding} : Function.Surjective (Rnd.val (R := R)) := fun x => ⟨⟨x⟩, rfl⟩
theorem rndC_surj {R : Rounding} : Function.Surjective (RndC.val (R := R)) := fun x => ⟨⟨⟨x.re⟩, ⟨x.im⟩⟩, rfl⟩

theorem r2r_two_le {n : ℕ} {k : Option CKind} {b : BaseR2r ℝ} (hb : newR2r k n = ok b) (hs : RunsSolve k n) : 2 ≤ n := by
  rcases k with _ | k
  · exact (chebyshev_inv hb).1
  · exact le_trans (by cases k <;> decide) (show k.minSolve ≤ n from hs)

/-- the gain of a round trip is at least 1 -/
theorem gain_ge {R : Rounding} {η : ℝ} {n : ℕ} {k : Option CKind} (h2 : 2 ≤ n) (hs : RunsSolve k n) (hm : RunsMul k) :
    1 ≤ (forwardAmp R η n k).gain ∧ 1 ≤ (backwardAmp R η n k).gain := by
  have hn : (2:ℝ) ≤ n := by exact_mod_cast h2
  have q : 1 ≤ 2 * n / ((n:ℝ) - 1) := by rw [le_div_iff₀ (by linarith)]; linarith
  have hf : 1 ≤ (fromAmp R n k).gain := by
    rcases k with _ | k
    · exact le_rfl
    · have h5 : 5 ≤ n := by
        have : k.minSolve ≤ n := hs
        refine le_trans ?_ this
        cases k <;> decide
      have h5' : (5:ℝ) ≤ n := by exact_mod_cast h5
      cases k <;> simp only [fromAmp] <;> nlinarith [pow_le_pow_left₀ (by norm_num : (0:ℝ) ≤ 5) h5' 3]
  have ht : 1 ≤ (toAmp R k).gain := by
    rcases k with _ | k
    · exact le_rfl
    · cases k <;> simp only [toAmp] <;> norm_num
  constructor
  · simp only [forwardAmp, Amp.andThen]; nlinarith
  · simp only [backwardAmp, Amp.andThen]; nlinarith

section
variable {R : Rounding} [HasDct (Rnd R)] [Libm (Rnd R)] [HasFft (Rnd R) (RndC R)] {n0 n1 : ℕ} {η : ℝ}

/-- C100: `fourier_r2c(n0)` × `chebyshev(n1)`: the grid values after any history of `forward` and `backward`. -/
theorem C100_r2c_chebyshev (hn : 1 ≤ n0) (h0 : 0 ≤ η) (h8 : 8 * R.u < 1) (hR : R.Nearest) (hN : R.Integers n0)
    (hF : FftError R n0 η) (hD : DctError R n1 η) {b0 : BaseR2c (Rnd R) (RndC R)} {b1 : BaseR2r (Rnd R)}
    {c0 : BaseR2c ℝ ℂ} {c1 : BaseR2r ℝ}
    (e0 : fourierR2c n0 (Rnd R) (RndC R) = ok b0) (e1 : newR2r none n1 (Rnd R) = ok b1)
    (k0 : fourierR2c n0 = ok c0) (k1 : newR2r none n1 = ok c1) :
    let sp : Space2 (Rnd R) (Rnd R) (RndC R) (RndC R) (Rnd R) := ⟨b0.toBase, b1.toBase (RndC R)⟩
    ∀ hist : List (Arr (Rnd R) → Res (Arr (Rnd R))), (∀ f ∈ hist, Pair (Forward2 sp) (Backward2 sp) f) →
    ∀ x X, Good x sp.shapePhysical → 0 ≤ X → MaxLe X (x.data.map Rnd.val) →
      ∃ y, runAll hist x = ok y ∧ Good y sp.shapePhysical ∧
        MaxDist (((1 + (((forwardAmp R η n1 none).andThen (fourierForwardAmp η n0)).andThen
            ((fourierBackwardAmp R η).andThen (backwardAmp R η n1 none))).err) ^ hist.length - 1) * X)
          (y.data.map Rnd.val) (x.data.map Rnd.val) := by
  intro sp hist hh x X hx hX hb
  have hm : RunsMul none := trivial
  have hs : RunsSolve none n1 := trivial
  have hu : SmallUnit R n1 none := trivial
  have h2 : 2 * R.u < 1 := by linarith [R.u_nonneg]
  obtain ⟨f0, g0, -⟩ := C96_fourier_r2c hn h0 hF hR hN h2 e0 k0
  have f1 := C96_r2r_forward (T := RndC R) (T' := ℂ) hm hs hu h0 h8 hD e1 k1
  have g1 := C96_r2r_backward (T := RndC R) (T' := ℂ) hm hs hu h0 (by linarith [R.u_nonneg]) hD e1 k1
  exact C100_space2_values (sp := sp) (spR := ⟨c0.toBase, c1.toBase ℂ⟩) f0 f1 g0 g1 (r2c_laws hn k0).2.1 (cheb_bwdFwd k1)
    rfl rfl rfl hist hh hx hX hb

/-- C100: `fourier_r2c(n0)` × a basis with boundary conditions: after any history of `forward` and `backward` the grid
values are close to the exact projection of the data on the space. -/
theorem C100_r2c_r2r {k : Option CKind} (hm : RunsMul k) (hs : RunsSolve k n1) (hu : SmallUnit R n1 k) (hn : 1 ≤ n0) (h0 : 0 ≤ η)
    (h8 : 8 * R.u < 1) (hR : R.Nearest) (hN : R.Integers n0)
    (hF : FftError R n0 η) (hD : DctError R n1 η) {b0 : BaseR2c (Rnd R) (RndC R)} {b1 : BaseR2r (Rnd R)}
    {c0 : BaseR2c ℝ ℂ} {c1 : BaseR2r ℝ}
    (e0 : fourierR2c n0 (Rnd R) (RndC R) = ok b0) (e1 : newR2r k n1 (Rnd R) = ok b1)
    (k0 : fourierR2c n0 = ok c0) (k1 : newR2r k n1 = ok c1) :
    let sp : Space2 (Rnd R) (Rnd R) (RndC R) (RndC R) (Rnd R) := ⟨b0.toBase, b1.toBase (RndC R)⟩
    let spR : Space2 ℝ ℝ ℂ ℂ := ⟨c0.toBase, c1.toBase ℂ⟩
    let a : Amp := ((forwardAmp R η n1 k).andThen (fourierForwardAmp η n0)).andThen
            ((fourierBackwardAmp R η).andThen (backwardAmp R η n1 k))
    ∀ hist : List (Arr (Rnd R) → Res (Arr (Rnd R))), hist ≠ [] → (∀ f ∈ hist, Pair (Forward2 sp) (Backward2 sp) f) →
    ∀ x X, Good x sp.shapePhysical → 0 ≤ X → MaxLe X (x.data.map Rnd.val) →
      ∃ y v p, runAll hist x = ok y ∧ spR.forward (onArray Rnd.val x) = ok v ∧ spR.backward v = ok p ∧
        Good y sp.shapePhysical ∧ Good p sp.shapePhysical ∧
        MaxDist (((1 + a.gain * a.err) ^ hist.length - 1) * (a.gain * X)) (y.data.map Rnd.val) p.data := by
  intro sp spR a hist hne hh x X hx hX hb
  have h2 : 2 * R.u < 1 := by linarith [R.u_nonneg]
  obtain ⟨f0, g0, -⟩ := C96_fourier_r2c hn h0 hF hR hN h2 e0 k0
  have f1 := C96_r2r_forward (T := RndC R) (T' := ℂ) hm hs hu h0 h8 hD e1 k1
  have g1 := C96_r2r_backward (T := RndC R) (T' := ℂ) hm hs hu h0 (by linarith [R.u_nonneg]) hD e1 k1
  have lr := C31_r2c n0 hn c0 k0
  have hL : 1 ≤ a.gain := by
    obtain ⟨q1, q2⟩ := gain_ge (R := R) (η := η) (r2r_two_le k1 hs) hs hm
    have hn' : (1:ℝ) ≤ n0 := by exact_mod_cast hn
    show 1 ≤ ((forwardAmp R η n1 k).gain * n0) * (1 * (backwardAmp R η n1 k).gain)
    exact one_le_mul_of_one_le_of_one_le (one_le_mul_of_one_le_of_one_le q1 hn') (by linarith)
  exact C100_space2_projection (sp := sp) (spR := spR) f0 f1 g0 g1 ⟨.inr (r2c_laws hn k0).2.1, r2r_fwdBwd k1 hm hs⟩
    lr.1 lr.2.1 (C31_r2r_forward k n1 c1 k1 hs) (C31_r2r_backward k n1 c1 k1 hm) rfl rfl rfl rnd_surj rnd_surj rndC_surj hL
    hist hne hh hx hX hb

/-- C100: two real-to-real bases: the coefficients after any history of `backward` and `forward`. -/
theorem C100_r2r_r2r {k0 k1 : Option CKind} (hm0 : RunsMul k0) (hs0 : RunsSolve k0 n0) (hu0 : SmallUnit R n0 k0)
    (hm1 : RunsMul k1) (hs1 : RunsSolve k1 n1) (hu1 : SmallUnit R n1 k1) (h0 : 0 ≤ η) (h8 : 8 * R.u < 1)
    (hD0 : DctError R n0 η) (hD1 : DctError R n1 η) {b0 b1 : BaseR2r (Rnd R)} {c0 c1 : BaseR2r ℝ}
    (e0 : newR2r k0 n0 (Rnd R) = ok b0) (e1 : newR2r k1 n1 (Rnd R) = ok b1)
    (l0 : newR2r k0 n0 = ok c0) (l1 : newR2r k1 n1 = ok c1) :
    let sp : Space2 (Rnd R) (Rnd R) (Rnd R) (Rnd R) (Rnd R) := ⟨b0.toBase (Rnd R), b1.toBase (Rnd R)⟩
    ∀ hist : List (Arr (Rnd R) → Res (Arr (Rnd R))), (∀ f ∈ hist, Pair (Backward2 sp) (Forward2 sp) f) →
    ∀ x X, Good x sp.shapeSpectral → 0 ≤ X → MaxLe X (x.data.map Rnd.val) →
      ∃ y, runAll hist x = ok y ∧ Good y sp.shapeSpectral ∧
        MaxDist (((1 + (((backwardAmp R η n0 k0).andThen (backwardAmp R η n1 k1)).andThen
            ((forwardAmp R η n1 k1).andThen (forwardAmp R η n0 k0))).err) ^ hist.length - 1) * X)
          (y.data.map Rnd.val) (x.data.map Rnd.val) := by
  intro sp hist hh x X hx hX hb
  have h3 : 3 * R.u < 1 := by linarith [R.u_nonneg]
  exact C100_space2_coefficients (sp := sp) (spR := ⟨c0.toBase ℝ, c1.toBase ℝ⟩)
    (C96_r2r_forward (T := Rnd R) (T' := ℝ) hm0 hs0 hu0 h0 h8 hD0 e0 l0) (C96_r2r_forward (T := Rnd R) (T' := ℝ) hm1 hs1 hu1 h0 h8 hD1 e1 l1)
    (C96_r2r_backward (T := Rnd R) (T' := ℝ) hm0 hs0 hu0 h0 h3 hD0 e0 l0) (C96_r2r_backward (T := Rnd R) (T' := ℝ) hm1 hs1 hu1 h0 h3 hD1 e1 l1)
    (r2r_fwdBwd l0 hm0 hs0) (r2r_fwdBwd l1 hm1 hs1) rfl rfl rfl hist hh hx hX hb

end

section
attribute [local instance] roundedDct roundedFft exactLibm

/-- A history of up to a million round trips of `fourier_r2c(64)` × `chebyshev(33)` in numbers with 53 binary digits,
serial and parallel in any order, changes values of modulus at most 1 by less than `10⁻⁴`. -/
example : ∃ (b0 : BaseR2c (Rnd (binary 52)) (RndC (binary 52))) (b1 : BaseR2r (Rnd (binary 52))),
    fourierR2c 64 (Rnd (binary 52)) (RndC (binary 52)) = ok b0 ∧ newR2r none 33 (Rnd (binary 52)) = ok b1 ∧
    (let sp : Space2 (Rnd (binary 52)) (Rnd (binary 52)) (RndC (binary 52)) (RndC (binary 52)) (Rnd (binary 52)) :=
        ⟨b0.toBase, b1.toBase (RndC (binary 52))⟩
     ∀ hist : List (Arr (Rnd (binary 52)) → Res (Arr (Rnd (binary 52)))), hist.length ≤ 10 ^ 6 →
      (∀ f ∈ hist, Pair (Forward2 sp) (Backward2 sp) f) →
     ∀ x, Good x [64, 33] → MaxLe 1 (x.data.map Rnd.val) →
      ∃ y, runAll hist x = ok y ∧ MaxDist (1 / 10 ^ 4) (y.data.map Rnd.val) (x.data.map Rnd.val)) := by
  have hN : (binary 52).Integers 64 := fun k hk => binary_integers 52 k (by omega)
  obtain ⟨c1, hc1⟩ := newR2r_exists none 33 (by norm_num) (by rintro c ⟨⟩)
  refine ⟨_, .chebyshev ⟨33, 33⟩, rfl, rfl, fun hist hl hh x hx hX => ?_⟩
  obtain ⟨y, e, -, d⟩ := C100_r2c_chebyshev (R := binary 52) (n0 := 64) (n1 := 33) (η := (binary 52).u) (by norm_num) (binary 52).u_nonneg
    (by rw [u52']; norm_num) (binary_nearest 52) hN (roundedFft_error 64) (rounded_error (by norm_num)) rfl rfl rfl hc1
    hist hh x 1 hx zero_le_one hX
  refine ⟨y, e, d.mono ?_⟩
  have he : (((forwardAmp (binary 52) (binary 52).u 33 none).andThen (fourierForwardAmp (binary 52).u 64)).andThen
            ((fourierBackwardAmp (binary 52) (binary 52).u).andThen (backwardAmp (binary 52) (binary 52).u 33 none))).err ≤ 2 / 10 ^ 11 := by
    simp only [Amp.andThen, forwardAmp, fromAmp, backwardAmp, toAmp, fourierForwardAmp, fourierBackwardAmp, gam52', u52']
    norm_num
  have he0 : 0 ≤ (((forwardAmp (binary 52) (binary 52).u 33 none).andThen (fourierForwardAmp (binary 52).u 64)).andThen
            ((fourierBackwardAmp (binary 52) (binary 52).u).andThen (backwardAmp (binary 52) (binary 52).u 33 none))).err := by
    simp only [Amp.andThen, forwardAmp, fromAmp, backwardAmp, toAmp, fourierForwardAmp, fourierBackwardAmp, gam52', u52']
    norm_num
  generalize (((forwardAmp (binary 52) (binary 52).u 33 none).andThen (fourierForwardAmp (binary 52).u 64)).andThen
            ((fourierBackwardAmp (binary 52) (binary 52).u).andThen (backwardAmp (binary 52) (binary 52).u 33 none))).err = ε at *
  have hl' : (hist.length : ℝ) ≤ 10 ^ 6 := by exact_mod_cast hl
  have hk : hist.length * ε ≤ 10 ^ 6 * (2 / 10 ^ 11) := mul_le_mul hl' he he0 (by norm_num)
  have := C100_growth he0 (k := hist.length) (hk.trans (by norm_num))
  have h3 : 2 * (10 ^ 6 * (2 / 10 ^ 11)) ≤ (1 / 10 ^ 4 : ℝ) := by norm_num
  linarith

end
end Verif.Props
