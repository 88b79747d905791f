/- Derivatives of trigonometric series. -/
import Verif.Proof.Fourier2
import Verif.Spec.Fourier
import Mathlib.Analysis.Calculus.IteratedDeriv.Lemmas
import Mathlib.Analysis.SpecialFunctions.ExpDeriv
import Mathlib.Analysis.Complex.RealDeriv

namespace Verif
open Res Spec Finset Complex

theorem freq_eq (n j : ℕ) : c2cK n j = freq n j := by
  unfold c2cK freq
  by_cases h : 2 * j < n
  · rw [if_pos h, if_pos (by omega)]
  · rw [if_neg h, if_neg (by omega)]

theorem freq_ne {n j : ℕ} (h1 : 1 ≤ j) (h2 : j < n) : freq n j ≠ 0 := by
  rw [← freq_eq]; exact c2cK_ne n j h1 h2

theorem hasDerivAt_exp_lin (w : ℂ) (x : ℝ) :
    HasDerivAt (fun x : ℝ => exp (w * x)) (w * exp (w * x)) x := by
  have h1 : HasDerivAt (fun z : ℂ => exp (w * z)) (w * exp (w * x)) (x : ℂ) := by
    have := ((hasDerivAt_id (x : ℂ)).const_mul w).cexp
    simp only [id, mul_one] at this
    rw [mul_comm] at this
    exact this
  exact h1.comp_ofReal

/-- differentiating a finite exponential sum multiplies the coefficients -/
theorem iteratedDeriv_expsum (s : Finset ℕ) (w a : ℕ → ℂ) (m : ℕ) :
    iteratedDeriv m (fun x : ℝ => ∑ j ∈ s, a j * exp (w j * x))
      = fun x : ℝ => ∑ j ∈ s, (a j * w j ^ m) * exp (w j * x) := by
  induction m with
  | zero => simp
  | succ m ih =>
    rw [iteratedDeriv_succ, ih]
    funext x
    have h : HasDerivAt (fun x : ℝ => ∑ j ∈ s, (a j * w j ^ m) * exp (w j * x))
        (∑ j ∈ s, (a j * w j ^ m) * (w j * exp (w j * x))) x :=
      HasDerivAt.fun_sum (fun j _ => (hasDerivAt_exp_lin (w j) x).const_mul _)
    rw [h.deriv]
    exact Finset.sum_congr rfl (fun j _ => by ring)

theorem trigC_deriv (n : ℕ) (c g : List ℂ) (m : ℕ)
    (hg : ∀ j < n, nth g j = (I * freq n j) ^ m * nth c j) :
    iteratedDeriv m (trigC n c) = trigC n g := by
  have e : trigC n c = fun x : ℝ => ∑ j ∈ range n, ((1 / n) * nth c j) * exp (I * freq n j * x) := by
    funext x; unfold trigC; rw [Finset.mul_sum]
    exact Finset.sum_congr rfl (fun j _ => by ring)
  rw [e, iteratedDeriv_expsum]
  funext x
  unfold trigC
  rw [Finset.mul_sum]
  refine Finset.sum_congr rfl (fun j hj => ?_)
  rw [hg j (mem_range.mp hj)]; ring

theorem trigR_deriv (n : ℕ) (c g : List ℂ) (m : ℕ)
    (hg : ∀ j < n / 2 + 1, nth g j = nth c j * (I * j) ^ m) :
    iteratedDeriv m (trigR n c) = trigR n g := by
  induction m generalizing c g with
  | zero =>
    rw [iteratedDeriv_zero]
    funext x
    unfold trigR
    refine congrArg _ (Finset.sum_congr rfl (fun j hj => ?_))
    rw [hg j (mem_range.mp hj), pow_zero, mul_one]
  | succ m ih =>
    rw [iteratedDeriv_succ,
      ih c ((List.range (n / 2 + 1)).map (fun j => nth c j * (I * j) ^ m))
        (fun j hj => nth_map_range _ _ _ hj)]
    funext x
    have h : HasDerivAt (trigR n ((List.range (n / 2 + 1)).map (fun j => nth c j * (I * j) ^ m)))
        (trigR n g x) x := by
      unfold trigR
      refine HasDerivAt.const_mul _ (HasDerivAt.fun_sum (fun j hj => HasDerivAt.const_mul _ ?_))
      rw [mem_range] at hj
      rw [nth_map_range _ _ _ hj, hg j hj]
      have h1 := (hasDerivAt_exp_lin (I * j) x).const_mul (nth c j * (I * j) ^ m)
      have h2 := Complex.reCLM.hasFDerivAt.comp_hasDerivAt x h1
      have e : (nth c j * (I * (j : ℂ)) ^ (m + 1) * exp (I * j * x)).re
          = Complex.reCLM (nth c j * (I * j) ^ m * (I * j * exp (I * j * x))) := by
        rw [Complex.reCLM_apply]; congr 1; ring
      rw [e]
      exact h2
    exact h.deriv

end Verif
