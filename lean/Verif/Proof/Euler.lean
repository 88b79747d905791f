/-
Implicit Euler steps of a dissipative operator: the norm decreases and the error tends to zero.
-/
import Verif.Proof.Poisson2
import Verif.Spec.Euler
import Mathlib.Topology.Algebra.Module.FiniteDimension
import Mathlib.Analysis.Normed.Module.FiniteDimension

namespace Verif
open Res Spec Finset Props Polynomial Filter Topology

/-- a positive definite homogeneous function dominates the square of the norm -/
theorem definite_bound {X : Type} [NormedAddCommGroup X] [NormedSpace ℝ X] [FiniteDimensional ℝ X]
    (q : X → ℝ) (hq : Continuous q) (hh : ∀ (t : ℝ) x, q (t • x) = t ^ 2 * q x) (hp : ∀ x, x ≠ 0 → 0 < q x) :
    ∃ κ, 0 < κ ∧ ∀ x, κ * ‖x‖ ^ 2 ≤ q x := by
  have h0 : q 0 = 0 := by have := hh 0 0; simpa using this
  have : ProperSpace X := FiniteDimensional.proper ℝ X
  by_cases hne : (Metric.sphere (0 : X) 1).Nonempty
  · obtain ⟨y, hy, hmin⟩ := (isCompact_sphere (0 : X) 1).exists_isMinOn hne hq.continuousOn
    have hy1 : ‖y‖ = 1 := by simpa using hy
    refine ⟨q y, hp y (by rintro rfl; simp at hy1), fun x => ?_⟩
    by_cases hx : x = 0
    · subst hx; simp [h0]
    · have hx' : 0 < ‖x‖ := norm_pos_iff.mpr hx
      have hs : ‖x‖⁻¹ • x ∈ Metric.sphere (0 : X) 1 := by
        simp [norm_smul, hx'.ne']
      have := hmin hs
      change q y ≤ q (‖x‖⁻¹ • x) at this
      rw [hh] at this
      have e : q x = ‖x‖ ^ 2 * (‖x‖⁻¹ ^ 2 * q x) := by field_simp
      rw [e, mul_comm]
      exact mul_le_mul_of_nonneg_left this (sq_nonneg _)
  · refine ⟨1, one_pos, fun x => ?_⟩
    have hx : x = 0 := by
      by_contra hx
      exact hne ⟨‖x‖⁻¹ • x, by simp [norm_smul, (norm_pos_iff.mpr hx).ne']⟩
    subst hx; simp [h0]

/-- implicit Euler for a dissipative operator -/
theorem euler_decay {X ι : Type} [NormedAddCommGroup X] [NormedSpace ℝ X] [FiniteDimensional ℝ X]
    [Fintype ι] (N A : X →ₗ[ℝ] (ι → ℝ)) {w : ι → ℝ} (hw : ∀ i, 0 < w i)
    (h : ∀ x, ∑ i, w i * (N x i * A x i) ≤ 0 ∧ (∑ i, w i * (N x i * A x i) = 0 → x = 0))
    {τ : ℝ} (hτ : 0 < τ) (e : ℕ → X) (he : ∀ m, N (e (m + 1)) - τ • A (e (m + 1)) = N (e m)) :
    (∀ m, ∑ i, w i * N (e (m + 1)) i ^ 2 ≤ ∑ i, w i * N (e m) i ^ 2) ∧ Tendsto e atTop (𝓝 0) := by
  have hN : Continuous N := LinearMap.continuous_of_finiteDimensional N
  have hA : Continuous A := LinearMap.continuous_of_finiteDimensional A
  obtain ⟨κ, hκ, hb⟩ := definite_bound (X := X) (fun x => -∑ i, w i * (N x i * A x i))
    (by
      refine Continuous.neg (continuous_finset_sum _ fun i _ => continuous_const.mul ?_)
      exact ((continuous_apply i).comp hN).mul ((continuous_apply i).comp hA))
    (fun t x => by
      simp only [map_smul, Pi.smul_apply, smul_eq_mul]
      rw [mul_neg, Finset.mul_sum]
      congr 1
      exact Finset.sum_congr rfl fun i _ => by ring)
    (fun x hx => by
      have := h x
      rcases lt_or_eq_of_le this.1 with h1 | h1
      · linarith
      · exact absurd (this.2 h1) hx)
  set a : ℕ → ℝ := fun m => ∑ i, w i * N (e m) i ^ 2 with ha
  have key : ∀ m, a (m + 1) + 2 * τ * κ * ‖e (m + 1)‖ ^ 2 ≤ a m := by
    intro m
    have e1 : a m = a (m + 1) - 2 * τ * ∑ i, w i * (N (e (m + 1)) i * A (e (m + 1)) i)
        + ∑ i, w i * (τ * A (e (m + 1)) i) ^ 2 := by
      simp only [ha]
      rw [Finset.mul_sum, ← Finset.sum_sub_distrib, ← Finset.sum_add_distrib]
      refine Finset.sum_congr rfl fun i _ => ?_
      have := congrFun (he m) i
      rw [Pi.sub_apply, Pi.smul_apply, smul_eq_mul] at this
      rw [← this]; ring
    have e2 : 0 ≤ ∑ i, w i * (τ * A (e (m + 1)) i) ^ 2 :=
      Finset.sum_nonneg fun i _ => mul_nonneg (hw i).le (sq_nonneg _)
    have e3 := hb (e (m + 1))
    have e4 : 2 * τ * (κ * ‖e (m + 1)‖ ^ 2)
        ≤ 2 * τ * (-∑ i, w i * (N (e (m + 1)) i * A (e (m + 1)) i)) :=
      mul_le_mul_of_nonneg_left e3 (by positivity)
    rw [e1]; linarith
  have hanti : ∀ m, a (m + 1) ≤ a m := fun m => by
    have := key m
    have : 0 ≤ 2 * τ * κ * ‖e (m + 1)‖ ^ 2 := by positivity
    linarith
  refine ⟨hanti, ?_⟩
  have hlim : ∃ l, Tendsto a atTop (𝓝 l) :=
    ⟨_, tendsto_atTop_ciInf (antitone_nat_of_succ_le hanti) ⟨0, by
      rintro _ ⟨m, rfl⟩
      exact Finset.sum_nonneg fun i _ => mul_nonneg (hw i).le (sq_nonneg _)⟩⟩
  obtain ⟨l, hl⟩ := hlim
  have hd : Tendsto (fun m => (a m - a (m + 1)) / (2 * τ * κ)) atTop (𝓝 0) := by
    have := ((hl.sub (hl.comp (tendsto_add_atTop_nat 1))).div_const (2 * τ * κ))
    simpa using this
  have hsq : Tendsto (fun m => ‖e (m + 1)‖ ^ 2) atTop (𝓝 0) := by
    refine squeeze_zero (fun m => sq_nonneg _) (fun m => ?_) hd
    rw [le_div_iff₀ (by positivity)]
    have := key m
    linarith
  have hn : Tendsto (fun m => ‖e (m + 1)‖) atTop (𝓝 0) := by
    have := hsq.sqrt
    simpa [Real.sqrt_sq (norm_nonneg _)] using this
  exact (tendsto_add_atTop_iff_nat 1).mp (tendsto_zero_iff_norm_tendsto_zero.mpr hn)

/-- the system of one axis says that the coefficients of `β u - c u''` and of `f` agree below `n - 2` -/
theorem solves1_iff {p s : ℕ} {S P I : Mat ℝ} {Q : Matrix (Fin p) (Fin p) ℝ}
    {M : Matrix (Fin p) (Fin s) ℝ} (h : AxisTau p s S P I Q M) (β c : ℝ) (f v : List ℝ) :
    SolvesHelmholtz S P I β c f v ↔
      β • (toM S p s).mulVec (fun k => nth v k) - c • M.mulVec (fun k => nth v k)
        = fun i : Fin p => nth f i := by
  have hrow : ∀ (A : Mat ℝ) (hA : A.rows = p) (hc : A.cols = s) (i : Fin p),
      nth (mulVec A v) i = (toM A p s).mulVec (fun k => nth v k) i := by
    intro A hA hc i
    rw [nth_mulVec _ _ (by rw [hA]; exact i.2), hc, Finset.sum_range]
    rfl
  have hl : ∀ i : Fin p, β * nth (mulVec (matMul (matMul I P) S) v) i - c * nth (mulVec (matMul I S) v) i
      = Q.mulVec (β • (toM S p s).mulVec (fun k => nth v k) - c • M.mulVec (fun k => nth v k)) i := by
    intro i
    rw [hrow (matMul (matMul I P) S) h.irow h.scol, hrow (matMul I S) h.irow h.scol, h.a, h.b, Matrix.mulVec_sub, Matrix.mulVec_smul,
      Matrix.mulVec_smul, Matrix.mulVec_mulVec, Matrix.mulVec_mulVec]
    rfl
  have hr : ∀ i : Fin p, nth (mulVec (matMul I P) f) i = Q.mulVec (fun i : Fin p => nth f i) i := by
    intro i
    rw [nth_mulVec (matMul I P) _ (by rw [show (matMul I P).rows = I.rows from rfl, h.irow]; exact i.2),
      show (matMul I P).cols = P.cols from rfl, h.pcol, Finset.sum_range_succ, Finset.sum_range_succ,
      h.ip i p (by omega), h.ip i (p + 1) (by omega), dif_neg (by omega), dif_neg (by omega), zero_smul,
      zero_smul, add_zero, add_zero, Finset.sum_range]
    refine Finset.sum_congr rfl fun k _ => ?_
    rw [h.ip i k (by omega), dif_pos k.2]
    rfl
  have hinj : ∀ X Y : Fin p → ℝ, Q.mulVec X = Q.mulVec Y ↔ X = Y := fun X Y =>
    ⟨fun e => (Matrix.mulVec_injective_iff_isUnit.mpr h.unit) e, fun e => by rw [e]⟩
  rw [← hinj]
  unfold SolvesHelmholtz
  rw [h.irow]
  constructor
  · intro hs
    funext i
    rw [← hl, ← hr]
    exact hs i i.2
  · intro e i hi
    have := congrFun e ⟨i, hi⟩
    rw [← hl, ← hr] at this
    exact this

end Verif
