/-
The coefficients of smooth functions decay: series of cosines, sines and Chebyshev polynomials with explicit decay for every
function with enough derivatives.
-/
import Mathlib.Analysis.Fourier.AddCircle
import Mathlib.Analysis.PSeries
import Mathlib.Analysis.Real.Pi.Bounds
import Mathlib.Analysis.Calculus.ContDiff.Basic
import Mathlib.Analysis.Calculus.IteratedDeriv.Lemmas
import Mathlib.Analysis.SpecialFunctions.Trigonometric.Deriv
import Mathlib.Analysis.SpecialFunctions.Trigonometric.Chebyshev.Basic

namespace Verif
open Finset Complex MeasureTheory

/-! ### tails of series -/

private theorem sum_inv_sq (m : ℕ) (hm : 1 ≤ m) (N : ℕ) :
    ∑ k ∈ range N, (1 : ℝ) / ((k + m : ℕ) : ℝ) ^ 2 ≤ 2 / m - 2 / ((N + m : ℕ) : ℝ) := by
  induction N with
  | zero => simp
  | succ N ih =>
    rw [Finset.sum_range_succ]
    have h1 : (1 : ℝ) ≤ ((N + m : ℕ) : ℝ) := by exact_mod_cast (by omega)
    have h2 : ((N + 1 + m : ℕ) : ℝ) = ((N + m : ℕ) : ℝ) + 1 := by push_cast; ring
    rw [h2]
    set z := ((N + m : ℕ) : ℝ)
    have h3 : 1 / z ^ 2 ≤ 2 / z - 2 / (z + 1) := by
      rw [div_sub_div _ _ (by positivity) (by positivity), div_le_div_iff₀ (by positivity) (by positivity)]
      nlinarith
    linarith

/-- The tail of a series whose terms decay like `k^e / k^p`, `p ≥ e + 2`. -/
theorem tail_le {t : ℕ → ℝ} {M : ℝ} {e p : ℕ} (hp : e + 2 ≤ p) (hM : 0 ≤ M) (h0 : ∀ k, 0 ≤ t k)
    (ht : ∀ k, 1 ≤ k → t k ≤ M * (k : ℝ) ^ e / (k : ℝ) ^ p) {m : ℕ} (hm : 1 ≤ m) :
    Summable t ∧ ∑' k, t (k + m) ≤ 2 * M * (m : ℝ) ^ (e + 1) / (m : ℝ) ^ p := by
  obtain ⟨q, rfl⟩ := Nat.exists_eq_add_of_le hp
  have key : ∀ m : ℕ, 1 ≤ m → ∀ k, t (k + m) ≤ M / (m : ℝ) ^ q * (1 / ((k + m : ℕ) : ℝ) ^ 2) := fun m hm k => by
    refine (ht (k + m) (by omega)).trans ?_
    have h1 : (1 : ℝ) ≤ m := by exact_mod_cast hm
    have h2 : (m : ℝ) ≤ ((k + m : ℕ) : ℝ) := by exact_mod_cast (by omega)
    set z := ((k + m : ℕ) : ℝ)
    have hz : 0 < z := by linarith
    have hmq : 0 < (m : ℝ) ^ q := by positivity
    have h3 : (m : ℝ) ^ q ≤ z ^ q := pow_le_pow_left₀ (by linarith) h2 q
    rw [pow_add, pow_add, div_mul_div_comm, mul_one, div_le_div_iff₀ (by positivity) (by positivity)]
    have h4 : 0 ≤ M * z ^ e * z ^ 2 := by positivity
    nlinarith [mul_le_mul_of_nonneg_left h3 h4]
  have bound : ∀ m : ℕ, 1 ≤ m → ∀ N, ∑ k ∈ range N, t (k + m) ≤ M / (m : ℝ) ^ q * (2 / m) := fun m hm N => by
    refine (Finset.sum_le_sum fun k _ => key m hm k).trans ?_
    rw [← Finset.mul_sum]
    have h1 : (1 : ℝ) ≤ m := by exact_mod_cast hm
    refine mul_le_mul_of_nonneg_left ((sum_inv_sq m hm N).trans ?_) (by positivity)
    have : 0 ≤ 2 / ((N + m : ℕ) : ℝ) := by positivity
    linarith
  have hm0 : (m : ℝ) ≠ 0 := by exact_mod_cast (by omega : m ≠ 0)
  refine ⟨(summable_nat_add_iff 1).mp (summable_of_sum_range_le (fun _ => h0 _) (bound 1 le_rfl)), ?_⟩
  refine (Real.tsum_le_of_sum_range_le (fun _ => h0 _) (bound m hm)).trans (le_of_eq ?_)
  rw [pow_add, pow_add, pow_add]
  field_simp

/-! ### Fourier coefficients -/

/-- the Fourier coefficients, up to the factor `2π` -/
private noncomputable def cf (f : ℝ → ℂ) (k : ℤ) : ℂ := ∫ x in (0 : ℝ)..2 * Real.pi, Complex.exp (-(I * k * x)) * f x

private theorem cf_parts (f : ℝ → ℂ) (hf : ContDiff ℝ 1 f) (hp : Function.Periodic f (2 * Real.pi)) (k : ℤ) (hk : k ≠ 0) :
    cf f k = 1 / (I * k) * cf (deriv f) k := by
  have hk' : (I * k : ℂ) ≠ 0 := mul_ne_zero I_ne_zero (Int.cast_ne_zero.mpr hk)
  have hu : ∀ x ∈ Set.uIcc (0 : ℝ) (2 * Real.pi), HasDerivAt (fun x : ℝ => -(1 / (I * k)) * Complex.exp (-(I * k * x)))
      (Complex.exp (-(I * k * x))) x := fun x _ => by
    have h1 : HasDerivAt (fun x : ℝ => -(I * k * (x : ℂ))) (-(I * k)) x := by
      simpa using ((Complex.ofRealCLM.hasDerivAt (x := x)).const_mul (I * k)).fun_neg
    refine (h1.cexp.const_mul (-(1 / (I * k)))).congr_deriv ?_
    field_simp
  have hv : ∀ x ∈ Set.uIcc (0 : ℝ) (2 * Real.pi), HasDerivAt f (deriv f x) x := fun x _ =>
    (hf.differentiable (by norm_num) x).hasDerivAt
  have hcd : Continuous (deriv f) := hf.continuous_deriv (by norm_num)
  have hce : Continuous fun x : ℝ => Complex.exp (-(I * k * x)) := by fun_prop
  have h := intervalIntegral.integral_mul_deriv_eq_deriv_mul hu hv (hce.intervalIntegrable _ _) (hcd.intervalIntegrable _ _)
  have e1 : Complex.exp (-(I * k * ((2 * Real.pi : ℝ) : ℂ))) = Complex.exp (-(I * k * ((0 : ℝ) : ℂ))) := by
    rw [Complex.exp_eq_exp_iff_exists_int]
    refine ⟨-k, ?_⟩
    push_cast; ring
  have e2 : f (2 * Real.pi) = f 0 := by simpa using hp 0
  rw [e1, e2, sub_self, zero_sub] at h
  unfold cf
  rw [← neg_eq_iff_eq_neg.mpr h, ← intervalIntegral.integral_const_mul, ← intervalIntegral.integral_neg]
  refine intervalIntegral.integral_congr fun x _ => ?_
  ring

private theorem periodic_deriv {f : ℝ → ℂ} {c : ℝ} (hp : Function.Periodic f c) : Function.Periodic (deriv f) c := fun x => by
  rw [← deriv_comp_add_const]
  congr 1
  exact funext hp

private theorem cf_le (f : ℝ → ℂ) {B : ℝ} (hB : ∀ x, ‖f x‖ ≤ B) (k : ℤ) : ‖cf f k‖ ≤ 2 * Real.pi * B := by
  have := intervalIntegral.norm_integral_le_of_norm_le_const (a := 0) (b := 2 * Real.pi) (C := B)
    (f := fun x : ℝ => Complex.exp (-(I * k * x)) * f x) fun x _ => by
      rw [norm_mul, show -(I * k * x) = ((-(k * x) : ℝ) : ℂ) * I by push_cast; ring, Complex.norm_exp_ofReal_mul_I, one_mul]
      exact hB x
  rw [sub_zero, abs_of_pos (by positivity)] at this
  unfold cf
  linarith

private theorem cf_decay (p : ℕ) : ∀ f : ℝ → ℂ, ContDiff ℝ p f → Function.Periodic f (2 * Real.pi) →
    ∀ B : ℝ, (∀ x, ‖iteratedDeriv p f x‖ ≤ B) → ∀ k : ℤ, k ≠ 0 → ‖cf f k‖ ≤ 2 * Real.pi * B / |(k : ℝ)| ^ p := by
  induction p with
  | zero =>
    intro f hf _ B hB k _
    simpa using cf_le f (by simpa using hB) k
  | succ p ih =>
    intro f hf hp B hB k hk
    have hM := ih (deriv f) ((contDiff_succ_iff_deriv.mp (by exact_mod_cast hf)).2.2) (periodic_deriv hp) B
      (fun x => by rw [← iteratedDeriv_succ']; exact hB x)
    rw [cf_parts f (hf.of_le (by exact_mod_cast (by omega : 1 ≤ p + 1))) hp k hk, norm_mul, norm_div, norm_one, norm_mul, norm_I, one_mul,
      Complex.norm_intCast]
    have : 0 < |(k : ℝ)| := abs_pos.mpr (Int.cast_ne_zero.mpr hk)
    have h1 := hM k hk
    calc 1 / |(k : ℝ)| * ‖cf (deriv f) k‖ ≤ 1 / |(k : ℝ)| * (2 * Real.pi * B / |(k : ℝ)| ^ p) :=
          mul_le_mul_of_nonneg_left h1 (by positivity)
      _ = 2 * Real.pi * B / |(k : ℝ)| ^ (p + 1) := by rw [pow_succ']; field_simp

private theorem periodic_bound {f : ℝ → ℝ} (hf : Continuous f) {c : ℝ} (hc : 0 < c) (hp : Function.Periodic f c) : ∃ B, ∀ x, |f x| ≤ B := by
  obtain ⟨C, hC⟩ := (isCompact_Icc (a := (0 : ℝ)) (b := c)).exists_bound_of_continuousOn hf.continuousOn
  refine ⟨C, fun x => ?_⟩
  obtain ⟨y, hy, e⟩ := hp.exists_mem_Ico₀ hc x
  rw [e]
  exact hC y ⟨hy.1, hy.2.le⟩

theorem periodic_iteratedDeriv {F : Type} [NormedAddCommGroup F] [NormedSpace ℝ F] {f : ℝ → F} {c : ℝ} (p : ℕ)
    (hp : Function.Periodic f c) : Function.Periodic (iteratedDeriv p f) c := fun x => by
  have := congrFun (iteratedDeriv_comp_add_const p f c) x
  rw [show (fun y => f (y + c)) = f from funext hp] at this
  exact this.symm

private theorem iteratedDeriv_coe (p : ℕ) : ∀ f : ℝ → ℝ, ContDiff ℝ p f → iteratedDeriv p (fun x => (f x : ℂ)) = fun x => ((iteratedDeriv p f x : ℝ) : ℂ) := by
  induction p with
  | zero => intro f _; funext x; simp
  | succ p ih =>
    intro f hf
    have h1 : ContDiff ℝ p (deriv f) := (contDiff_succ_iff_deriv.mp (by exact_mod_cast hf)).2.2
    have h2 : deriv (fun x => (f x : ℂ)) = fun x => ((deriv f x : ℝ) : ℂ) := funext fun x =>
      ((hf.differentiable (by exact_mod_cast (by omega : p + 1 ≠ 0)) x).hasDerivAt.ofReal_comp).deriv
    rw [iteratedDeriv_succ', h2, ih _ h1, iteratedDeriv_succ']

/-- The Fourier series of a smooth periodic function, with a bound of its coefficients. -/
theorem fourier_series_B (p : ℕ) (hp2 : 2 ≤ p) (f : ℝ → ℂ) (hf : ContDiff ℝ p f) (hp : Function.Periodic f (2 * Real.pi))
    (B : ℝ) (hB : ∀ x, ‖iteratedDeriv p f x‖ ≤ B) :
    ∃ a : ℤ → ℂ, (∀ k, k ≠ 0 → ‖a k‖ ≤ B / |(k : ℝ)| ^ p) ∧ Summable (fun k => ‖a k‖) ∧
      ∀ x : ℝ, HasSum (fun k : ℤ => a k * Complex.exp (I * k * x)) (f x) := by
  have hM := cf_decay p f hf hp B hB
  have : Fact (0 < 2 * Real.pi) := ⟨by positivity⟩
  let F : C(AddCircle (2 * Real.pi), ℂ) := ⟨hp.lift, continuous_quot_lift _ hf.continuous⟩
  have hc : ∀ k, fourierCoeff F k = (1 / (2 * Real.pi) : ℝ) * cf f k := fun k => by
    rw [fourierCoeff_eq_intervalIntegral F k 0, zero_add, Complex.real_smul]
    congr 1
    unfold cf
    refine intervalIntegral.integral_congr fun x _ => ?_
    rw [fourier_coe_apply, smul_eq_mul]
    congr 1
    · congr 1
      have := Real.pi_ne_zero
      push_cast
      field_simp
  have hb : ∀ k : ℤ, k ≠ 0 → ‖fourierCoeff F k‖ ≤ B / |(k : ℝ)| ^ p := fun k hk => by
    rw [hc, norm_mul, Complex.norm_real, Real.norm_eq_abs, abs_of_pos (by positivity)]
    have h1 := mul_le_mul_of_nonneg_left (hM k hk) (by positivity : 0 ≤ 1 / (2 * Real.pi))
    refine h1.trans (le_of_eq ?_)
    have := Real.pi_ne_zero
    field_simp
  have hs : Summable (fun k => ‖fourierCoeff F k‖) := by
    have h1 : Summable fun k : ℤ => B / |(k : ℝ)| ^ p := by
      have := (Real.summable_abs_int_rpow (b := (p : ℝ)) (by exact_mod_cast (by omega))).mul_left B
      refine this.congr fun k => ?_
      rw [Real.rpow_neg (abs_nonneg _), Real.rpow_natCast, div_eq_mul_inv]
    refine Summable.of_norm_bounded_eventually h1 ?_
    rw [Filter.eventually_cofinite]
    refine (Set.finite_singleton (0 : ℤ)).subset fun k hk => ?_
    by_contra h
    exact hk (by rw [norm_norm]; exact hb k h)
  refine ⟨fourierCoeff F, hb, hs, fun x => ?_⟩
  have h := has_pointwise_sum_fourier_series_of_summable hs.of_norm (x : AddCircle (2 * Real.pi))
  have e : (fun k : ℤ => fourierCoeff F k • fourier k (x : AddCircle (2 * Real.pi)))
      = fun k : ℤ => fourierCoeff F k * Complex.exp (I * k * x) := funext fun k => by
    rw [fourier_coe_apply, smul_eq_mul]
    congr 2
    have := Real.pi_ne_zero
    push_cast
    field_simp
  rw [e] at h
  exact h

/-- The Fourier series of a smooth periodic function. -/
theorem fourier_series (p : ℕ) (hp2 : 2 ≤ p) (f : ℝ → ℂ) (hf : ContDiff ℝ p f) (hp : Function.Periodic f (2 * Real.pi)) :
    ∃ (a : ℤ → ℂ) (M : ℝ), 0 ≤ M ∧ (∀ k, k ≠ 0 → ‖a k‖ ≤ M / |(k : ℝ)| ^ p) ∧ Summable (fun k => ‖a k‖) ∧
      ∀ x : ℝ, HasSum (fun k : ℤ => a k * Complex.exp (I * k * x)) (f x) := by
  obtain ⟨B, hB⟩ := periodic_bound (f := fun x => ‖iteratedDeriv p f x‖) (hf.continuous_iteratedDeriv p le_rfl).norm
    (by positivity : 0 < 2 * Real.pi) (fun x => by dsimp only; rw [periodic_iteratedDeriv p hp x])
  simp only [abs_norm] at hB
  obtain ⟨a, h⟩ := fourier_series_B p hp2 f hf hp B hB
  exact ⟨a, B, (norm_nonneg _).trans (hB 0), h⟩

/-- The real Fourier series of a smooth periodic function, with a bound of its coefficients. -/
theorem trig_series_B (p : ℕ) (hp2 : 2 ≤ p) (f : ℝ → ℝ) (hf : ContDiff ℝ p f) (hp : Function.Periodic f (2 * Real.pi))
    (M : ℝ) (hB : ∀ x, |iteratedDeriv p f x| ≤ M) :
    ∃ A B : ℕ → ℝ, (∀ k : ℕ, 1 ≤ k → |A k| + |B k| ≤ 4 * M / (k : ℝ) ^ p) ∧
      ∀ x, HasSum (fun k : ℕ => A k * Real.cos (k * x) + B k * Real.sin (k * x)) (f x) := by
  obtain ⟨a, hM, -, hsum⟩ := fourier_series_B p hp2 (fun x => (f x : ℂ)) (Complex.ofRealCLM.contDiff.comp hf)
    (fun x => by dsimp only; rw [hp x]) M (fun x => by
      rw [iteratedDeriv_coe p f hf, Complex.norm_real]; exact hB x)
  refine ⟨fun k => if k = 0 then (a 0).re else (a k).re + (a (-k)).re, fun k => -(a k).im + (a (-k)).im,
    fun k hk => ?_, fun x => ?_⟩
  · dsimp only
    rw [if_neg (by omega)]
    have h1 := hM k (by exact_mod_cast (by omega : k ≠ 0))
    have h2 := hM (-k) (by simpa using (by omega : k ≠ 0))
    rw [Int.cast_neg, abs_neg] at h2
    rw [Int.cast_natCast, Nat.abs_cast] at h1 h2
    have a1 := abs_add_le (a k).re (a (-k)).re
    have a2 := abs_add_le (-(a k).im) (a (-k)).im
    rw [abs_neg] at a2
    have b1 := Complex.abs_re_le_norm (a k)
    have b2 := Complex.abs_re_le_norm (a (-k))
    have b3 := Complex.abs_im_le_norm (a k)
    have b4 := Complex.abs_im_le_norm (a (-k))
    rw [mul_div_assoc]
    linarith
  · have h := Complex.hasSum_re (hsum x)
    rw [Complex.ofReal_re] at h
    have e : ∀ k : ℤ, (a k * Complex.exp (I * k * x)).re = (a k).re * Real.cos (k * x) - (a k).im * Real.sin (k * x) := fun k => by
      rw [show I * (k : ℂ) * x = ((k * x : ℝ) : ℂ) * I by push_cast; ring, Complex.mul_re, Complex.exp_ofReal_mul_I_re,
        Complex.exp_ofReal_mul_I_im]
    simp_rw [e] at h
    have h2 := h.nat_add_neg
    have h3 := h2.add (hasSum_ite_eq (0 : ℕ) (-(a 0).re))
    have e4 : f x + ((a 0).re * Real.cos ((0 : ℤ) * x) - (a 0).im * Real.sin ((0 : ℤ) * x)) + -(a 0).re = f x := by simp
    rw [e4] at h3
    have e5 : (fun k : ℕ => (a k).re * Real.cos (((k : ℤ) : ℝ) * x) - (a k).im * Real.sin (((k : ℤ) : ℝ) * x)
        + ((a (-(k : ℤ))).re * Real.cos (((-(k : ℤ) : ℤ) : ℝ) * x) - (a (-(k : ℤ))).im * Real.sin (((-(k : ℤ) : ℤ) : ℝ) * x))
        + if k = 0 then -(a 0).re else 0)
        = fun k : ℕ => (if k = 0 then (a 0).re else (a k).re + (a (-k)).re) * Real.cos (k * x)
          + (-(a k).im + (a (-k)).im) * Real.sin (k * x) := funext fun k => by
      by_cases hk : k = 0
      · subst hk; simp
      · rw [if_neg hk, if_neg hk]
        push_cast
        rw [neg_mul, Real.cos_neg, Real.sin_neg]
        ring
    rw [← e5]
    exact h3

/-- The real Fourier series of a smooth periodic function. -/
theorem trig_series (p : ℕ) (hp2 : 2 ≤ p) (f : ℝ → ℝ) (hf : ContDiff ℝ p f) (hp : Function.Periodic f (2 * Real.pi)) :
    ∃ (A B : ℕ → ℝ) (M : ℝ), 0 ≤ M ∧ (∀ k : ℕ, 1 ≤ k → |A k| + |B k| ≤ M / (k : ℝ) ^ p) ∧
      ∀ x, HasSum (fun k : ℕ => A k * Real.cos (k * x) + B k * Real.sin (k * x)) (f x) := by
  obtain ⟨M, hB⟩ := periodic_bound (hf.continuous_iteratedDeriv p le_rfl) (by positivity : 0 < 2 * Real.pi) (periodic_iteratedDeriv p hp)
  obtain ⟨A, B, h⟩ := trig_series_B p hp2 f hf hp M hB
  exact ⟨A, B, 4 * M, by have := (abs_nonneg _).trans (hB 0); positivity, h⟩

theorem contDiff_cos_comp {p : ℕ} {f : ℝ → ℝ} (hf : ContDiffOn ℝ p f (Set.Icc (-1) 1)) : ContDiff ℝ p fun θ => f (Real.cos θ) := by
  rw [← contDiffOn_univ]
  exact hf.comp Real.contDiff_cos.contDiffOn fun θ _ => ⟨Real.neg_one_le_cos θ, Real.cos_le_one θ⟩

/-- The Chebyshev series of a smooth function, with a bound of its coefficients. -/
theorem cheb_series_B (p : ℕ) (hp2 : 2 ≤ p) (f : ℝ → ℝ) (hf : ContDiffOn ℝ p f (Set.Icc (-1) 1)) (M : ℝ)
    (hB : ∀ θ, |iteratedDeriv p (fun θ => f (Real.cos θ)) θ| ≤ M) :
    ∃ a : ℕ → ℝ, (∀ k : ℕ, 1 ≤ k → |a k| ≤ 4 * M / (k : ℝ) ^ p) ∧
      ∀ x ∈ Set.Icc (-1 : ℝ) 1, HasSum (fun k : ℕ => a k * (Polynomial.Chebyshev.T ℝ k).eval x) (f x) := by
  have hg := contDiff_cos_comp hf
  obtain ⟨A, B, hM, hsum⟩ := trig_series_B p hp2 _ hg (fun x => by rw [Real.cos_add_two_pi]) M hB
  refine ⟨A, fun k hk => (le_add_of_nonneg_right (abs_nonneg _)).trans (hM k hk), fun x hx => ?_⟩
  have h1 := hsum (Real.arccos x)
  have h2 := hsum (-Real.arccos x)
  rw [Real.cos_neg] at h2
  have h3 := (h1.add h2).mul_left (1 / 2)
  rw [Real.cos_arccos hx.1 hx.2, show (1 : ℝ) / 2 * (f x + f x) = f x by ring] at h3
  have e : (fun k : ℕ => 1 / 2 * (A k * Real.cos (k * Real.arccos x) + B k * Real.sin (k * Real.arccos x)
      + (A k * Real.cos (k * -Real.arccos x) + B k * Real.sin (k * -Real.arccos x))))
      = fun k : ℕ => A k * (Polynomial.Chebyshev.T ℝ k).eval x := funext fun k => by
    have := Polynomial.Chebyshev.T_real_cos (Real.arccos x) k
    rw [Real.cos_arccos hx.1 hx.2] at this
    rw [this, mul_neg, Real.cos_neg, Real.sin_neg]
    push_cast
    ring
  rw [e] at h3
  exact h3

/-- The Chebyshev series of a smooth function. -/
theorem cheb_series (p : ℕ) (hp2 : 2 ≤ p) (f : ℝ → ℝ) (hf : ContDiffOn ℝ p f (Set.Icc (-1) 1)) :
    ∃ (a : ℕ → ℝ) (M : ℝ), 0 ≤ M ∧ (∀ k : ℕ, 1 ≤ k → |a k| ≤ M / (k : ℝ) ^ p) ∧
      ∀ x ∈ Set.Icc (-1 : ℝ) 1, HasSum (fun k : ℕ => a k * (Polynomial.Chebyshev.T ℝ k).eval x) (f x) := by
  obtain ⟨M, hB⟩ := periodic_bound ((contDiff_cos_comp hf).continuous_iteratedDeriv p le_rfl) (by positivity : 0 < 2 * Real.pi)
    (periodic_iteratedDeriv p fun x => by rw [Real.cos_add_two_pi])
  obtain ⟨a, h⟩ := cheb_series_B p hp2 f hf M hB
  exact ⟨a, 4 * M, by have := (abs_nonneg _).trans (hB 0); positivity, h⟩

end Verif
