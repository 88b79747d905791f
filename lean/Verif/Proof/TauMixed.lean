/-
Uniqueness of the Chebyshev tau equation with mixed boundary conditions: `u = 0` at the left end and
`u' = 0` at the right end.
-/
import Verif.Proof.TauDirichlet

namespace Verif
open Res Spec Finset Props Polynomial

/-- every derivative of a Chebyshev polynomial is nonnegative at the right end -/
theorem iterate_T_nonneg (m k : ℕ) : 0 ≤ (derivative^[k] (Chebyshev.T ℝ (m : ℤ))).eval 1 := by
  rw [Chebyshev.iterate_derivative_T_eval_one_eq_div]
  refine div_nonneg (Int.cast_nonneg ?_) (Nat.cast_nonneg _)
  by_cases h : m < k
  · rw [Finset.prod_eq_zero (i := m) (Finset.mem_range.mpr h) (by ring)]
  · refine Finset.prod_nonneg fun l hl => ?_
    have : (l : ℤ) ≤ m := by exact_mod_cast (by have := Finset.mem_range.mp hl; omega : l ≤ m)
    have h0 : (0 : ℤ) ≤ l := Int.natCast_nonneg l
    nlinarith

theorem iterate_comp_neg (p : ℝ[X]) (k : ℕ) (x : ℝ) :
    (derivative^[k] (p.comp (-X))).eval x = (-1) ^ k * (derivative^[k] p).eval (-x) := by
  induction k generalizing p with
  | zero => simp
  | succ k ih =>
    rw [Function.iterate_succ_apply, derivative_comp, derivative_neg, derivative_X,
      show (-1 : ℝ[X]) * (derivative p).comp (-X) = -((derivative p).comp (-X)) by ring,
      iterate_derivative_neg, eval_neg, ih, Function.iterate_succ_apply]
    ring

theorem iterate_T_neg (m k : ℕ) : (derivative^[k] (Chebyshev.T ℝ (m : ℤ))).eval (-1)
    = (-1) ^ (m + k) * (derivative^[k] (Chebyshev.T ℝ (m : ℤ))).eval 1 := by
  have hc : (Chebyshev.T ℝ (m : ℤ)).comp (-X) = C ((-1) ^ m) * Chebyshev.T ℝ (m : ℤ) := by
    refine Polynomial.funext fun x => ?_
    rw [eval_comp, eval_neg, eval_X, Chebyshev.T_eval_neg, eval_mul, eval_C]
    congr 1
    rw [Int.negOnePow_def]; simp
  have h := iterate_comp_neg (Chebyshev.T ℝ (m : ℤ)) k 1
  rw [hc, iterate_derivative_C_mul, eval_mul, eval_C] at h
  have e : ((-1 : ℝ) ^ k) * (-1) ^ k = 1 := by rw [← mul_pow]; simp
  rw [pow_add]
  linear_combination (-(-1 : ℝ) ^ k) * h - (derivative^[k] (Chebyshev.T ℝ (m : ℤ))).eval (-1) * e

/-- the polynomial that solves `u - r u'' = T m` -/
noncomputable def tauPart (r : ℝ) (m : ℕ) : ℝ[X] :=
  ∑ k ∈ range (m + 1), C (r ^ k) * derivative^[2 * k] (Chebyshev.T ℝ (m : ℤ))

theorem tauPart_eq (r : ℝ) (m : ℕ) :
    tauPart r m - C r * derivative (derivative (tauPart r m)) = Chebyshev.T ℝ (m : ℤ) := by
  have hd : derivative (derivative (tauPart r m))
      = ∑ k ∈ range (m + 1), C (r ^ k) * derivative^[2 * (k + 1)] (Chebyshev.T ℝ (m : ℤ)) := by
    unfold tauPart
    rw [derivative_sum, derivative_sum]
    refine Finset.sum_congr rfl fun k _ => ?_
    rw [derivative_C_mul, derivative_C_mul, show 2 * (k + 1) = 2 * k + 1 + 1 by ring,
      Function.iterate_succ_apply', Function.iterate_succ_apply']
  rw [hd, Finset.mul_sum]
  have e : ∀ k, C r * (C (r ^ k) * derivative^[2 * (k + 1)] (Chebyshev.T ℝ (m : ℤ)))
      = C (r ^ (k + 1)) * derivative^[2 * (k + 1)] (Chebyshev.T ℝ (m : ℤ)) := fun k => by
    rw [pow_succ, C_mul]; ring
  simp only [e]
  unfold tauPart
  rw [← Finset.sum_sub_distrib,
    Finset.sum_range_sub' (fun k => C (r ^ k) * derivative^[2 * k] (Chebyshev.T ℝ (m : ℤ)))]
  rw [iterate_derivative_eq_zero (p := Chebyshev.T ℝ (m : ℤ)) (x := 2 * (m + 1))
    (by rw [Chebyshev.natDegree_T]; simp; omega)]
  simp

theorem tauPart_one {r : ℝ} (hr : 0 ≤ r) (m : ℕ) : 0 < (tauPart r m).eval 1 := by
  unfold tauPart
  rw [eval_finset_sum, Finset.sum_range_succ']
  refine add_pos_of_nonneg_of_pos (Finset.sum_nonneg fun k _ => ?_) (by simp)
  rw [eval_mul, eval_C]
  exact mul_nonneg (pow_nonneg hr _) (iterate_T_nonneg _ _)

theorem tauPart_deriv {r : ℝ} (hr : 0 ≤ r) {m : ℕ} (hm : 1 ≤ m) :
    0 < (derivative (tauPart r m)).eval 1 := by
  unfold tauPart
  rw [derivative_sum, eval_finset_sum, Finset.sum_range_succ']
  refine add_pos_of_nonneg_of_pos (Finset.sum_nonneg fun k _ => ?_) ?_
  · rw [derivative_C_mul, eval_mul, eval_C, ← Function.iterate_succ_apply' derivative]
    exact mul_nonneg (pow_nonneg hr _) (iterate_T_nonneg _ _)
  · simp only [pow_zero, C_1, one_mul, mul_zero, Function.iterate_zero, id_eq]
    rw [Chebyshev.derivative_T_eval_one]
    have : (1 : ℝ) ≤ m := by exact_mod_cast hm
    push_cast
    positivity

theorem tauPart_neg (r : ℝ) (m : ℕ) : (tauPart r m).eval (-1) = (-1) ^ m * (tauPart r m).eval 1 := by
  unfold tauPart
  rw [eval_finset_sum, eval_finset_sum, Finset.mul_sum]
  refine Finset.sum_congr rfl fun k _ => ?_
  rw [eval_mul, eval_mul, iterate_T_neg, pow_add, pow_mul]
  simp
  ring

/-- `u = r u''` has no polynomial solution but zero -/
theorem helmholtz_zero {u : ℝ[X]} {r : ℝ} (h : u = C r * derivative (derivative u)) : u = 0 := by
  by_contra h0
  have h1 : (derivative u).degree < u.degree := degree_derivative_lt h0
  have h2 : (derivative (derivative u)).degree ≤ (derivative u).degree := degree_derivative_le
  have h3 : u.degree ≤ (derivative (derivative u)).degree := by
    calc u.degree = (C r * derivative (derivative u)).degree := by rw [← h]
      _ ≤ (C r).degree + (derivative (derivative u)).degree := degree_mul_le _ _
      _ ≤ 0 + (derivative (derivative u)).degree := by gcongr; exact degree_C_le
      _ = _ := zero_add _
  exact absurd (lt_of_le_of_lt (h3.trans h2) h1) (lt_irrefl _)

/-- the homogeneous tau equation with `u(-1) = 0` and `u'(1) = 0` has only the trivial solution -/
theorem tau_mixed_zero {n : ℕ} (hn : 4 ≤ n) {u : ℝ[X]} {β c τ₁ τ₂ : ℝ} (hβ : 0 ≤ β) (hc : 0 ≤ c)
    (hβc : 0 < β + c) (hu : u.degree < n) (h1 : u.eval (-1) = 0) (h2 : (derivative u).eval 1 = 0)
    (h : C β * u - C c * derivative (derivative u)
      = 0 + C τ₁ * Chebyshev.T ℝ (n - 2 : ℕ) + C τ₂ * Chebyshev.T ℝ (n - 1 : ℕ)) : u = 0 := by
  rcases hβ.eq_or_lt with rfl | hβ
  · have hc' : 0 < c := by linarith
    have ht := tau_test hn hu h
    rw [zero_mul, zero_mul, wInt_zero, zero_sub, neg_eq_zero] at ht
    have hdd := wInt_sq_zero ((mul_eq_zero.mp ht).resolve_left hc'.ne')
    have hd := eq_C_of_natDegree_eq_zero (natDegree_eq_zero_of_derivative_eq_zero hdd)
    rw [hd, eval_C] at h2
    rw [h2, C_0] at hd
    have hu' := eq_C_of_natDegree_eq_zero (natDegree_eq_zero_of_derivative_eq_zero hd)
    rw [hu', eval_C] at h1
    rw [hu', h1, C_0]
  · set r := c / β with hr
    have hr0 : 0 ≤ r := div_nonneg hc hβ.le
    have hβ0 : β ≠ 0 := hβ.ne'
    obtain ⟨p, rfl⟩ : ∃ p, n = p + 2 := ⟨n - 2, by omega⟩
    rw [show p + 2 - 2 = p by omega, show p + 2 - 1 = p + 1 by omega] at h
    set w := C (τ₁ / β) * tauPart r p + C (τ₂ / β) * tauPart r (p + 1) with hw
    have e : u - w = C r * derivative (derivative (u - w)) := by
      have e1 := tauPart_eq r p
      have e2 := tauPart_eq r (p + 1)
      have hb : C β⁻¹ * C β = (1 : ℝ[X]) := by rw [← C_mul, inv_mul_cancel₀ hβ0, C_1]
      have hrc : C r = C c * C β⁻¹ := by rw [hr, div_eq_mul_inv, C_mul]
      have d1 : C (τ₁ / β) = C τ₁ * C β⁻¹ := by rw [div_eq_mul_inv, C_mul]
      have d2 : C (τ₂ / β) = C τ₂ * C β⁻¹ := by rw [div_eq_mul_inv, C_mul]
      simp only [hw, derivative_sub, derivative_add, derivative_C_mul]
      rw [d1, d2]
      rw [hrc] at e1 e2 ⊢
      linear_combination C β⁻¹ * h - u * hb - C τ₁ * C β⁻¹ * e1 - C τ₂ * C β⁻¹ * e2
    have huw : u = w := sub_eq_zero.mp (helmholtz_zero e)
    have a := tauPart_one hr0 p
    have b := tauPart_one hr0 (p + 1)
    have a' := tauPart_deriv hr0 (m := p) (by omega)
    have b' := tauPart_deriv hr0 (m := p + 1) (by omega)
    rw [huw, hw] at h1 h2
    rw [eval_add, eval_mul, eval_mul, eval_C, eval_C, tauPart_neg, tauPart_neg] at h1
    rw [derivative_add, derivative_C_mul, derivative_C_mul, eval_add, eval_mul, eval_mul, eval_C, eval_C] at h2
    have hs : ((-1 : ℝ) ^ p) * (-1) ^ p = 1 := by rw [← mul_pow]; simp
    have h3 : τ₁ / β * (tauPart r p).eval 1 = τ₂ / β * (tauPart r (p + 1)).eval 1 := by
      rw [pow_succ] at h1
      linear_combination (-1 : ℝ) ^ p * h1 -
        (τ₁ / β * (tauPart r p).eval 1 - τ₂ / β * (tauPart r (p + 1)).eval 1) * hs
    have h4 : τ₁ / β * ((derivative (tauPart r p)).eval 1 * (tauPart r (p + 1)).eval 1
        + (tauPart r p).eval 1 * (derivative (tauPart r (p + 1))).eval 1) = 0 := by
      linear_combination (tauPart r (p + 1)).eval 1 * h2 + (derivative (tauPart r (p + 1))).eval 1 * h3
    have t1 : τ₁ / β = 0 := by
      rcases mul_eq_zero.mp h4 with h5 | h5
      · exact h5
      · exact absurd h5 (add_pos (mul_pos a' b) (mul_pos a b')).ne'
    have t2 : τ₂ / β = 0 := by
      rw [t1, zero_mul] at h3
      rcases mul_eq_zero.mp h3.symm with h5 | h5
      · exact h5
      · exact absurd h5 b.ne'
    rw [huw, hw, t1, t2]
    simp

end Verif
