/-
Chebyshev series: bounds for the Chebyshev polynomials and their derivatives on `[-1, 1]`, derivatives
of absolutely convergent series, and summation over classes of indices.
-/
import Verif.Spec.Cheb
import Mathlib.Analysis.SpecialFunctions.Trigonometric.Chebyshev.RootsExtrema
import Mathlib.Analysis.Calculus.SmoothSeries
import Mathlib.Analysis.Calculus.FDeriv.Extend
import Mathlib.Analysis.Calculus.IteratedDeriv.Lemmas
import Mathlib.Topology.Algebra.InfiniteSum.NatInt
import Mathlib.Topology.Algebra.Polynomial
import Mathlib.Analysis.Calculus.Deriv.Polynomial

namespace Verif
open Finset Polynomial

/-! ### `|Tₖ⁽ᵈ⁾| ≤ k^{2d}` on `[-1, 1]` -/

private noncomputable abbrev cone (k : ℕ) : Submodule ℕ ℝ[X] :=
  Submodule.span ℕ ((fun m : ℕ => Chebyshev.T ℝ m) '' Set.Icc 0 k)

private theorem cone_abs {k : ℕ} {P : ℝ[X]} (hP : P ∈ cone k) {x : ℝ} (hx : |x| ≤ 1) :
    |P.eval x| ≤ P.eval 1 := by
  induction hP using Submodule.span_induction with
  | mem p hp =>
    obtain ⟨m, -, rfl⟩ := hp
    simpa using Chebyshev.abs_eval_T_real_le_one m hx
  | zero => simp
  | add p q _ _ hp hq =>
    rw [eval_add, eval_add]
    exact (abs_add_le _ _).trans (add_le_add hp hq)
  | smul c p _ hp =>
    rw [nsmul_eq_mul, eval_mul, eval_mul, abs_mul]
    simp only [eval_natCast, Nat.abs_cast]
    exact mul_le_mul_of_nonneg_left hp (Nat.cast_nonneg _)

private theorem cone_deriv {k : ℕ} {P : ℝ[X]} (hP : P ∈ cone k) :
    derivative P ∈ cone k ∧ (derivative P).eval 1 ≤ k ^ 2 * P.eval 1 := by
  induction hP using Submodule.span_induction with
  | mem p hp =>
    obtain ⟨m, hm, rfl⟩ := hp
    refine ⟨Submodule.span_mono (Set.image_mono ?_) (Chebyshev.T_derivative_mem_span_T (R := ℝ) m), ?_⟩
    · intro i hi
      exact ⟨hi.1, (le_of_lt hi.2).trans hm.2⟩
    · have : (m : ℝ) ≤ k := by exact_mod_cast hm.2
      simp only [Chebyshev.derivative_T_eval_one, Chebyshev.T_eval_one, mul_one, Int.cast_natCast]
      exact pow_le_pow_left₀ (Nat.cast_nonneg _) this 2
  | zero => simp
  | add p q _ _ hp hq =>
    refine ⟨by rw [derivative_add]; exact Submodule.add_mem _ hp.1 hq.1, ?_⟩
    rw [derivative_add, eval_add, eval_add, mul_add]
    exact add_le_add hp.2 hq.2
  | smul c p _ hp =>
    refine ⟨by rw [derivative_smul]; exact Submodule.smul_mem _ _ hp.1, ?_⟩
    rw [derivative_smul, nsmul_eq_mul, nsmul_eq_mul, eval_mul, eval_mul]
    simp only [eval_natCast]
    have := mul_le_mul_of_nonneg_left hp.2 (Nat.cast_nonneg (α := ℝ) c)
    linarith

private theorem cone_iter (k d : ℕ) : derivative^[d] (Chebyshev.T ℝ k) ∈ cone k ∧
    (derivative^[d] (Chebyshev.T ℝ k)).eval 1 ≤ (k : ℝ) ^ (2 * d) := by
  induction d with
  | zero =>
    refine ⟨Submodule.subset_span ⟨k, by simp, rfl⟩, ?_⟩
    simp
  | succ d ih =>
    rw [Function.iterate_succ_apply']
    obtain ⟨h1, h2⟩ := cone_deriv ih.1
    refine ⟨h1, h2.trans ?_⟩
    rw [show 2 * (d + 1) = 2 + 2 * d by ring, pow_add]
    exact mul_le_mul_of_nonneg_left ih.2 (by positivity)

/-- The derivatives of the Chebyshev polynomials on `[-1, 1]`. -/
theorem abs_iterate_derivative_T_le (k d : ℕ) {x : ℝ} (hx : |x| ≤ 1) :
    |(derivative^[d] (Chebyshev.T ℝ k)).eval x| ≤ (k : ℝ) ^ (2 * d) :=
  (cone_abs (cone_iter k d).1 hx).trans (cone_iter k d).2

/-! ### Derivatives of the series -/

theorem summable_of_pow {a : ℕ → ℝ} {d e : ℕ} (h : Summable (fun k : ℕ => |a k| * (k : ℝ) ^ (2 * d)))
    (hed : e ≤ d) : Summable (fun k : ℕ => |a k| * (k : ℝ) ^ (2 * e)) := by
  refine (summable_nat_add_iff 1).mp (Summable.of_nonneg_of_le (fun k => by positivity) (fun k => ?_)
    ((summable_nat_add_iff 1).mpr h))
  refine mul_le_mul_of_nonneg_left (pow_le_pow_right₀ ?_ (by omega)) (abs_nonneg _)
  exact_mod_cast Nat.succ_le_succ (Nat.zero_le k)

/-- The sum of the `e`-th derivatives of the terms. -/
noncomputable def chebSeries (a : ℕ → ℝ) (e : ℕ) (x : ℝ) : ℝ :=
  ∑' k : ℕ, a k * (derivative^[e] (Chebyshev.T ℝ k)).eval x

theorem chebTerm_le (a : ℕ → ℝ) (e k : ℕ) {x : ℝ} (hx : |x| ≤ 1) :
    ‖a k * (derivative^[e] (Chebyshev.T ℝ k)).eval x‖ ≤ |a k| * (k : ℝ) ^ (2 * e) := by
  rw [Real.norm_eq_abs, abs_mul]
  exact mul_le_mul_of_nonneg_left (abs_iterate_derivative_T_le k e hx) (abs_nonneg _)

theorem chebSeries_hasSum {a : ℕ → ℝ} {e : ℕ} (h : Summable (fun k : ℕ => |a k| * (k : ℝ) ^ (2 * e)))
    {x : ℝ} (hx : |x| ≤ 1) :
    HasSum (fun k : ℕ => a k * (derivative^[e] (Chebyshev.T ℝ k)).eval x) (chebSeries a e x) :=
  (Summable.of_norm_bounded h (fun k => chebTerm_le a e k hx)).hasSum

private theorem mem_abs {x : ℝ} (hx : x ∈ Set.Icc (-1 : ℝ) 1) : |x| ≤ 1 := abs_le.mpr hx

theorem chebSeries_continuousOn {a : ℕ → ℝ} {e : ℕ}
    (h : Summable (fun k : ℕ => |a k| * (k : ℝ) ^ (2 * e))) :
    ContinuousOn (chebSeries a e) (Set.Icc (-1) 1) :=
  continuousOn_tsum (fun k => (continuous_const.mul (Polynomial.continuous _)).continuousOn) h
    (fun k _ hx => chebTerm_le a e k (mem_abs hx))

private theorem chebSeries_hasDerivAt {a : ℕ → ℝ} {e : ℕ}
    (h : Summable (fun k : ℕ => |a k| * (k : ℝ) ^ (2 * (e + 1)))) {x : ℝ} (hx : x ∈ Set.Ioo (-1 : ℝ) 1) :
    HasDerivAt (chebSeries a e) (chebSeries a (e + 1) x) x := by
  refine hasDerivAt_tsum_of_isPreconnected (t := Set.Ioo (-1 : ℝ) 1) h isOpen_Ioo
    isPreconnected_Ioo (fun k y _ => ?_) (fun k y hy => chebTerm_le a (e + 1) k
      (mem_abs (Set.Ioo_subset_Icc_self hy))) hx
    (chebSeries_hasSum (summable_of_pow h (by omega)) (mem_abs (Set.Ioo_subset_Icc_self hx))).summable hx
  rw [Function.iterate_succ_apply']
  exact (Polynomial.hasDerivAt _ _).const_mul _

/-- Termwise differentiation, up to the end points. -/
theorem chebSeries_hasDerivWithinAt {a : ℕ → ℝ} {e : ℕ}
    (h : Summable (fun k : ℕ => |a k| * (k : ℝ) ^ (2 * (e + 1)))) {x : ℝ} (hx : x ∈ Set.Icc (-1 : ℝ) 1) :
    HasDerivWithinAt (chebSeries a e) (chebSeries a (e + 1) x) (Set.Icc (-1) 1) x := by
  have h0 := chebSeries_continuousOn (summable_of_pow h (Nat.le_succ e))
  have h1 := chebSeries_continuousOn h
  have hd : DifferentiableOn ℝ (chebSeries a e) (Set.Ioo (-1) 1) := fun y hy =>
    (chebSeries_hasDerivAt h hy).differentiableAt.differentiableWithinAt
  have hde : ∀ y ∈ Set.Ioo (-1 : ℝ) 1, deriv (chebSeries a e) y = chebSeries a (e + 1) y := fun y hy =>
    (chebSeries_hasDerivAt h hy).deriv
  rcases eq_or_lt_of_le hx.1 with hx1 | hx1
  · subst hx1
    have hm : Set.Ioo (-1 : ℝ) 1 ∈ nhdsWithin (-1 : ℝ) (Set.Ioi (-1)) := Ioo_mem_nhdsGT (by norm_num)
    refine (hasDerivWithinAt_Ici_of_tendsto_deriv hd
      ((h0 (-1) (by simp)).mono Set.Ioo_subset_Icc_self) hm ?_).mono Set.Icc_subset_Ici_self
    refine Filter.Tendsto.congr' (Filter.eventuallyEq_of_mem hm (fun y hy => (hde y hy).symm)) ?_
    exact (h1 (-1) (by simp)).mono_left (nhdsWithin_le_of_mem
      (Filter.mem_of_superset hm Set.Ioo_subset_Icc_self))
  rcases eq_or_lt_of_le hx.2 with hx2 | hx2
  · subst hx2
    have hm : Set.Ioo (-1 : ℝ) 1 ∈ nhdsWithin (1 : ℝ) (Set.Iio 1) := Ioo_mem_nhdsLT (by norm_num)
    refine (hasDerivWithinAt_Iic_of_tendsto_deriv hd
      ((h0 1 (by simp)).mono Set.Ioo_subset_Icc_self) hm ?_).mono Set.Icc_subset_Iic_self
    refine Filter.Tendsto.congr' (Filter.eventuallyEq_of_mem hm (fun y hy => (hde y hy).symm)) ?_
    exact (h1 1 (by simp)).mono_left (nhdsWithin_le_of_mem
      (Filter.mem_of_superset hm Set.Ioo_subset_Icc_self))
  · exact (chebSeries_hasDerivAt h ⟨hx1, hx2⟩).hasDerivWithinAt

/-- The derivatives of an absolutely convergent Chebyshev series. -/
theorem iteratedDerivWithin_chebSeries {a : ℕ → ℝ} {d : ℕ}
    (h : Summable (fun k : ℕ => |a k| * (k : ℝ) ^ (2 * d))) {f : ℝ → ℝ}
    (hf : ∀ x ∈ Set.Icc (-1 : ℝ) 1, HasSum (fun k : ℕ => a k * (Chebyshev.T ℝ k).eval x) (f x)) :
    ∀ x ∈ Set.Icc (-1 : ℝ) 1, iteratedDerivWithin d f (Set.Icc (-1) 1) x = chebSeries a d x := by
  induction d with
  | zero =>
    intro x hx
    rw [iteratedDerivWithin_zero]
    exact (hf x hx).tsum_eq.symm
  | succ d ih =>
    intro x hx
    rw [iteratedDerivWithin_succ,
      derivWithin_congr (ih (summable_of_pow h (Nat.le_succ d))) (ih (summable_of_pow h (Nat.le_succ d)) x hx)]
    exact (chebSeries_hasDerivWithinAt h hx).derivWithin (uniqueDiffOn_Icc (by norm_num) x hx)

/-! ### Summation over classes -/

section
variable {ι : Type} {E : Type} [NormedAddCommGroup E] [NormedSpace ℝ E] [CompleteSpace E]

open Classical in
/-- Sum of the terms of class `j`. -/
noncomputable def classSum (cls : ι → ℕ) (a : ι → E) (j : ℕ) : E := ∑' k, if cls k = j then a k else 0

open Classical in
theorem classSum_hasSum {cls : ι → ℕ} {a : ι → E} (h : Summable (fun k => ‖a k‖)) (j : ℕ) :
    HasSum (fun k => if cls k = j then a k else 0) (classSum cls a j) := by
  refine Summable.hasSum (Summable.of_norm_bounded h (fun k => ?_))
  by_cases hk : cls k = j
  · rw [if_pos hk]
  · rw [if_neg hk, norm_zero]; exact norm_nonneg _

/-- A finite combination of the class sums is one series. -/
theorem classSum_combine {F : Type} [NormedAddCommGroup F] [NormedSpace ℝ F] {cls : ι → ℕ} {a : ι → E}
    (h : Summable (fun k => ‖a k‖)) {n : ℕ} (hc : ∀ k, cls k < n) (φ : ℕ → E →L[ℝ] F) :
    HasSum (fun k => φ (cls k) (a k)) (∑ j ∈ range n, φ j (classSum cls a j)) := by
  classical
  have := hasSum_sum (s := range n) (fun j _ => (φ j).hasSum (classSum_hasSum (cls := cls) h j))
  convert! this using 1
  funext k
  rw [Finset.sum_eq_single (cls k)]
  · simp
  · intro j _ hj
    simp [Ne.symm hj]
  · intro hk
    exact absurd (Finset.mem_range.mpr (hc k)) hk

end

end Verif
