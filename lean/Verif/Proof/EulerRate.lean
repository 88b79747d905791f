/-
Ingredients of the convergence of implicit Euler: joint continuity of derivatives of smooth families, stability with a source, the
residual on the grid.
-/
import Verif.Proof.Euler
import Verif.Proof.Interp
import Verif.Props.ChebInner
import Mathlib.Analysis.Calculus.ContDiff.Operations
import Mathlib.Analysis.Calculus.MeanValue
import Mathlib.Analysis.Calculus.FDeriv.Prod

namespace Verif
open Res Spec Finset Props Polynomial

/-! ### smooth families of functions -/

variable {E : Type} [NormedAddCommGroup E] [NormedSpace ℝ E]

private theorem deriv_snd {H : E → ℝ → ℝ} (hH : Differentiable ℝ (Function.uncurry H)) (t : E) (x : ℝ) :
    HasDerivAt (H t) (fderiv ℝ (Function.uncurry H) (t, x) (0, 1)) x := by
  have h1 : HasDerivAt (fun y : ℝ => (t, y)) ((0 : E), (1 : ℝ)) x := (hasDerivAt_const x t).prodMk (hasDerivAt_id x)
  exact ((hH (t, x)).hasFDerivAt.comp_hasDerivAt x h1)

theorem contDiff_deriv_snd {p : ℕ} {H : E → ℝ → ℝ} (hH : ContDiff ℝ (p + 1 : ℕ) (Function.uncurry H)) :
    ContDiff ℝ p (Function.uncurry fun t => deriv (H t)) := by
  have h1 : Function.uncurry (fun t => deriv (H t)) = fun z : E × ℝ => fderiv ℝ (Function.uncurry H) z (0, 1) := funext fun z =>
    (deriv_snd (hH.differentiable (by exact_mod_cast (by omega : p + 1 ≠ 0))) z.1 z.2).deriv
  rw [h1]
  exact (hH.fderiv_right (by exact_mod_cast le_rfl)).clm_apply contDiff_const

/-- The derivatives of a smooth family of functions depend continuously on the parameter. -/
theorem continuous_iteratedDeriv_snd (d : ℕ) : ∀ {p : ℕ} {H : E → ℝ → ℝ}, ContDiff ℝ (p + d : ℕ) (Function.uncurry H) →
    ContDiff ℝ p (Function.uncurry fun t => iteratedDeriv d (H t)) := by
  induction d with
  | zero => intro p H h; simpa using h
  | succ d ih =>
    intro p H h
    have := ih (p := p) (contDiff_deriv_snd (p := p + d) (by rw [show p + d + 1 = p + (d + 1) by omega]; exact h))
    simpa only [← iteratedDeriv_succ'] using this

/-- and are bounded on compact sets. -/
theorem bound_iteratedDeriv_snd {p : ℕ} {H : ℝ → ℝ → ℝ} (hH : ContDiff ℝ p (Function.uncurry H)) (c T a b : ℝ) :
    ∃ B, 0 ≤ B ∧ ∀ t ∈ Set.Icc c T, ∀ x ∈ Set.Icc a b, |iteratedDeriv p (H t) x| ≤ B := by
  have hc := (continuous_iteratedDeriv_snd p (p := 0) (by rw [zero_add]; exact hH)).continuous
  obtain ⟨B, hB⟩ := ((isCompact_Icc (a := c) (b := T)).prod (isCompact_Icc (a := a) (b := b))).exists_bound_of_continuousOn
    hc.continuousOn
  refine ⟨|B|, abs_nonneg _, fun t ht x hx => (hB (t, x) ⟨ht, hx⟩).trans (le_abs_self _)⟩

/-- the same with any compact set of parameters -/
theorem bound_iteratedDeriv_param {p : ℕ} {H : E → ℝ → ℝ} (hH : ContDiff ℝ p (Function.uncurry H)) {C : Set E} (hC : IsCompact C) (a b : ℝ) :
    ∃ B, 0 ≤ B ∧ ∀ t ∈ C, ∀ x ∈ Set.Icc a b, |iteratedDeriv p (H t) x| ≤ B := by
  have hc := (continuous_iteratedDeriv_snd p (p := 0) (by rw [zero_add]; exact hH)).continuous
  obtain ⟨B, hB⟩ := (hC.prod (isCompact_Icc (a := a) (b := b))).exists_bound_of_continuousOn hc.continuousOn
  refine ⟨|B|, abs_nonneg _, fun t ht x hx => (hB (t, x) ⟨ht, hx⟩).trans (le_abs_self _)⟩

/-! ### stability with a source -/

/-- Implicit Euler for a dissipative operator: one step adds at most the size of its source. -/
theorem euler_source {X ι : Type} [AddCommGroup X] [Module ℝ X] [Fintype ι] (N A : X →ₗ[ℝ] (ι → ℝ)) {w : ι → ℝ} (hw : ∀ i, 0 ≤ w i)
    (h : ∀ x, ∑ i, w i * (N x i * A x i) ≤ 0) {τ : ℝ} (hτ : 0 ≤ τ) {x x' : X} {s : ι → ℝ}
    (e : N x' - τ • A x' = N x + s) :
    √(∑ i, w i * N x' i ^ 2) ≤ √(∑ i, w i * N x i ^ 2) + √(∑ i, w i * s i ^ 2) := by
  have cs : ∀ u v : ι → ℝ, ∑ i, w i * (u i * v i) ≤ √(∑ i, w i * u i ^ 2) * √(∑ i, w i * v i ^ 2) := fun u v => by
    have := Finset.sum_mul_sq_le_sq_mul_sq Finset.univ (fun i => √(w i) * u i) (fun i => √(w i) * v i)
    rw [← Real.sqrt_mul (Finset.sum_nonneg fun i _ => mul_nonneg (hw i) (sq_nonneg _))]
    refine Real.le_sqrt_of_sq_le ?_
    have e1 : ∀ u v : ι → ℝ, ∑ i, √(w i) * u i * (√(w i) * v i) = ∑ i, w i * (u i * v i) := fun u v =>
      Finset.sum_congr rfl fun i _ => by
        rw [show √(w i) * u i * (√(w i) * v i) = √(w i) * √(w i) * (u i * v i) by ring, Real.mul_self_sqrt (hw i)]
    have e2 : ∀ u : ι → ℝ, ∑ i, (√(w i) * u i) ^ 2 = ∑ i, w i * u i ^ 2 := fun u =>
      Finset.sum_congr rfl fun i _ => by rw [mul_pow, Real.sq_sqrt (hw i)]
    rwa [e1, e2, e2] at this
  set a := √(∑ i, w i * N x' i ^ 2) with ha
  have h1 : a ^ 2 = ∑ i, w i * N x' i ^ 2 := Real.sq_sqrt (Finset.sum_nonneg fun i _ => mul_nonneg (hw i) (sq_nonneg _))
  have h2 : ∑ i, w i * N x' i ^ 2 = ∑ i, w i * (N x' i * N x i) + ∑ i, w i * (N x' i * s i) + τ * ∑ i, w i * (N x' i * A x' i) := by
    rw [Finset.mul_sum, ← Finset.sum_add_distrib, ← Finset.sum_add_distrib]
    refine Finset.sum_congr rfl fun i _ => ?_
    have := congrFun e i
    simp only [Pi.sub_apply, Pi.add_apply, Pi.smul_apply, smul_eq_mul] at this
    linear_combination w i * N x' i * this
  have h3 := mul_nonpos_of_nonneg_of_nonpos hτ (h x')
  have h4 := cs (N x') (N x)
  have h5 := cs (N x') s
  rw [← ha] at h4 h5
  have h6 : 0 ≤ a := Real.sqrt_nonneg _
  rcases h6.eq_or_lt with h0 | h0
  · rw [← h0]; positivity
  · refine le_of_mul_le_mul_left ?_ h0
    nlinarith

/-! ### the residual on the grid -/

theorem gridWeight_nonneg (n j : ℕ) : 0 ≤ gridWeight n j := by unfold gridWeight; split <;> norm_num

theorem sum_gridWeight {n : ℕ} (hn : 2 ≤ n) : ∑ j ∈ range n, gridWeight n j = (n - 1 : ℕ) := by
  have := T_orth hn (k := 0) (l := 0) (by omega) (by omega)
  simpa [modeWeight] using this

/-- The resolved coefficients of a polynomial are bounded by its values at the grid points. -/
theorem resolved_grid (n : ℕ) (b : Cheb) (hb : Cheb.new n = ok b) (x r : List ℝ) (hx : b.coords = ok x) (hr : r.length = n) :
    (n - 1 : ℕ) * ∑ i ∈ range (n - 2), chebWeight i * nth r i ^ 2 ≤ ∑ j ∈ range n, gridWeight n j * (chebPoly ℝ r).eval (nth x j) ^ 2 := by
  obtain ⟨rfl, hn⟩ := cheb_of_new hb
  obtain ⟨v, hv, hf⟩ := C03_forward_backward n _ hb r (List.replicate n 0) (List.replicate n 0) (by rw [hr]; rfl)
    (by simp [Cheb.lenPhys]) (by simp [Cheb.lenSpec])
  obtain ⟨x', v', h1, h2, h3, h4⟩ := C02_backward_evaluates n _ hb r (List.replicate n 0) (by rw [hr]; rfl) (by simp [Cheb.lenPhys])
  obtain rfl := Res.ok.inj (hx.symm.trans h1)
  obtain rfl := Res.ok.inj (hv.symm.trans h2)
  obtain ⟨x', e, l, -⟩ := C01_coords n _ hb
  obtain rfl := Res.ok.inj (hx.symm.trans e)
  obtain ⟨a, ha, he⟩ := C90_energy n _ hb v (List.replicate n 0) (by rw [h3, l]; rfl) (by simp [Cheb.lenSpec])
  obtain rfl := Res.ok.inj (hf.symm.trans ha)
  have hmw : ∀ j, 0 ≤ modeWeight n j := fun j => by unfold modeWeight; split <;> norm_num
  have k1 : ∑ j ∈ range n, gridWeight n j * nth v j ^ 2 = ∑ j ∈ range n, gridWeight n j * (chebPoly ℝ r).eval (nth x j) ^ 2 :=
    Finset.sum_congr rfl fun j hj => by rw [h4 j (by have := Finset.mem_range.mp hj; omega)]
  have k2 : ∑ i ∈ range (n - 2), chebWeight i * nth r i ^ 2 ≤ 1 / 2 * ∑ k ∈ range n, modeWeight n k * nth r k ^ 2 := by
    rw [Finset.mul_sum]
    refine (Finset.sum_le_sum fun i hi => ?_).trans
      (Finset.sum_le_sum_of_subset_of_nonneg (Finset.range_mono (by omega : n - 2 ≤ n)) fun i _ _ => by
        have := hmw i; positivity)
    have hi' := Finset.mem_range.mp hi
    unfold chebWeight modeWeight
    by_cases h0 : i = 0
    · rw [if_pos h0, if_pos (Or.inl h0)]; linarith [sq_nonneg (nth r i)]
    · rw [if_neg h0, if_neg (by omega)]; linarith
  rw [← k1, he]
  refine (mul_le_mul_of_nonneg_left k2 (Nat.cast_nonneg _)).trans (le_of_eq ?_)
  ring

/-- The resolved coefficients of a polynomial that is small at the grid points are small. -/
theorem resolved_le (n : ℕ) (b : Cheb) (hb : Cheb.new n = ok b) (x r : List ℝ) (hx : b.coords = ok x) (hr : r.length = n) {M : ℝ}
    (hM : ∀ j < n, |(chebPoly ℝ r).eval (nth x j)| ≤ M) :
    ∑ i ∈ range (n - 2), chebWeight i * nth r i ^ 2 ≤ M ^ 2 := by
  have hn := (cheb_of_new hb).2
  have hN : (0 : ℝ) < (n - 1 : ℕ) := by exact_mod_cast (show 0 < n - 1 by omega)
  refine le_of_mul_le_mul_left ((resolved_grid n b hb x r hx hr).trans ?_) hN
  rw [← sum_gridWeight hn, Finset.sum_mul]
  refine Finset.sum_le_sum fun j hj => mul_le_mul_of_nonneg_left ?_ (gridWeight_nonneg n j)
  rw [← sq_abs]
  exact pow_le_pow_left₀ (abs_nonneg _) (hM j (Finset.mem_range.mp hj)) 2

/-! ### consistency of the time step -/

/-- A backward difference differs from the derivative by at most the step times the second derivative. -/
theorem backward_difference {φ : ℝ → ℝ} (hφ : ContDiff ℝ 2 φ) {t h B : ℝ} (hh : 0 < h)
    (hB : ∀ s ∈ Set.Icc t (t + h), |iteratedDeriv 2 φ s| ≤ B) : |(φ (t + h) - φ t) / h - deriv φ (t + h)| ≤ B * h := by
  have hd : Differentiable ℝ φ := hφ.differentiable (by norm_num)
  have hd2 : Differentiable ℝ (deriv φ) := (hφ.iterate_deriv' 1 1).differentiable (by norm_num)
  obtain ⟨ξ, hξ, e⟩ := exists_deriv_eq_slope φ (by linarith : t < t + h) hd.continuous.continuousOn hd.differentiableOn
  rw [show t + h - t = h by ring] at e
  rw [← e]
  have := (convex_Icc t (t + h)).norm_image_sub_le_of_norm_deriv_le (f := deriv φ) (C := B) (fun s _ => hd2 s) (fun s hs => by
    have := hB s hs
    rwa [iteratedDeriv_succ, iteratedDeriv_one] at this) (x := t + h) (y := ξ) ⟨by linarith, le_rfl⟩ ⟨hξ.1.le, hξ.2.le⟩
  rw [Real.norm_eq_abs, Real.norm_eq_abs] at this
  have h0 : 0 ≤ B := (abs_nonneg _).trans (hB t ⟨le_rfl, by linarith⟩)
  refine this.trans (mul_le_mul_of_nonneg_left ?_ h0)
  rw [abs_le]
  exact ⟨by linarith [hξ.1], by linarith [hξ.2]⟩

end Verif
