/-
Ingredients of the convergence of implicit Euler in two dimensions: stability with a source, bounds that are uniform in time.
-/
import Verif.Proof.EulerRate
import Verif.Proof.Rate2
import Verif.Props.Euler

namespace Verif
open Res Spec Finset Props Polynomial

/-- one step of the two-dimensional heat equation adds at most the size of its source -/
theorem euler2_source {p s p' s' : ℕ} {N M : Matrix (Fin p) (Fin s) ℝ} {N' M' : Matrix (Fin p') (Fin s') ℝ}
    {w : Fin p → ℝ} {w' : Fin p' → ℝ} (hw : ∀ i, 0 < w i) (hw' : ∀ i, 0 < w' i)
    (h : ∀ x, ∑ i, w i * (N.mulVec x i * M.mulVec x i) ≤ 0 ∧
      (∑ i, w i * (N.mulVec x i * M.mulVec x i) = 0 → x = 0))
    (h' : ∀ x, ∑ i, w' i * (N'.mulVec x i * M'.mulVec x i) ≤ 0 ∧
      (∑ i, w' i * (N'.mulVec x i * M'.mulVec x i) = 0 → x = 0)) {τ : ℝ} (hτ : 0 ≤ τ)
    {e e' : Matrix (Fin s) (Fin s') ℝ} {r : Matrix (Fin p) (Fin p') ℝ}
    (he : N * e' * N'.transpose - τ • (N * e' * M'.transpose + M * e' * N'.transpose) = N * e * N'.transpose + r) :
    √(∑ i, ∑ j, w i * w' j * (N * e' * N'.transpose) i j ^ 2)
      ≤ √(∑ i, ∑ j, w i * w' j * (N * e * N'.transpose) i j ^ 2) + √(∑ i, ∑ j, w i * w' j * r i j ^ 2) := by
  have hd := euler_source (kronLin N N') (kronLin N M' + kronLin M N') (w := fun ij => w ij.1 * w' ij.2)
    (fun ij => (mul_pos (hw _) (hw' _)).le) (fun X => by
      obtain ⟨E, h0, -, hE⟩ := kron_energy hw hw' h h' (Matrix.of X)
      have : ∑ ij : Fin p × Fin p', w ij.1 * w' ij.2 * (kronLin N N' X ij * (kronLin N M' + kronLin M N') X ij) = E := by
        rw [← hE, Fintype.sum_prod_type]
        rfl
      rw [this]
      exact h0) hτ (x := (e : Fin s → Fin s' → ℝ)) (x' := (e' : Fin s → Fin s' → ℝ)) (s := fun ij => r ij.1 ij.2) (by
      funext ij
      exact congrFun (congrFun he ij.1) ij.2)
  rw [Fintype.sum_prod_type, Fintype.sum_prod_type, Fintype.sum_prod_type] at hd
  exact hd

/-- bounds of the derivatives that control the interpolation error, uniform in time and in the other variable -/
theorem bounds3 {p : ℕ} {Y : ℝ → ℝ → ℝ → ℝ} (hY : ContDiff ℝ p fun z : ℝ × ℝ × ℝ => Y z.1 z.2.1 z.2.2) (T : ℝ) :
    ∃ M, 0 ≤ M ∧ ∀ t ∈ Set.Icc 0 T, (∀ y ∈ Set.Icc (-1 : ℝ) 1, ∀ θ, |iteratedDeriv p (fun θ => Y t (Real.cos θ) y) θ| ≤ M) ∧
      ∀ x ∈ Set.Icc (-1 : ℝ) 1, ∀ θ, |iteratedDeriv p (fun θ => Y t x (Real.cos θ)) θ| ≤ M := by
  have key : ∀ Z : ℝ × ℝ → ℝ → ℝ, ContDiff ℝ p (Function.uncurry Z) →
      ∃ M, 0 ≤ M ∧ ∀ z ∈ Set.Icc (0 : ℝ) T ×ˢ Set.Icc (-1 : ℝ) 1, ∀ θ, |iteratedDeriv p (fun θ => Z z (Real.cos θ)) θ| ≤ M := fun Z hZ => by
    have hH : ContDiff ℝ p (Function.uncurry fun t θ => Z t (Real.cos θ)) :=
      hZ.comp (contDiff_fst.prodMk (Real.contDiff_cos.comp contDiff_snd))
    obtain ⟨M, h0, hM⟩ := bound_iteratedDeriv_param hH ((isCompact_Icc (a := (0 : ℝ)) (b := T)).prod (isCompact_Icc (a := (-1 : ℝ)) (b := 1)))
      0 (2 * Real.pi)
    refine ⟨M, h0, fun t ht θ => ?_⟩
    have hper : Function.Periodic (fun θ => Z t (Real.cos θ)) (2 * Real.pi) := fun θ => by dsimp only; rw [Real.cos_add_two_pi]
    obtain ⟨y, hy, e⟩ := (periodic_iteratedDeriv p hper).exists_mem_Ico₀ (by positivity) θ
    rw [e]
    exact hM t ht y ⟨hy.1, hy.2.le⟩
  obtain ⟨M1, h1, k1⟩ := key (fun z x => Y z.1 x z.2)
    (hY.comp (contDiff_fst.fst.prodMk (contDiff_snd.prodMk contDiff_fst.snd)))
  obtain ⟨M2, h2, k2⟩ := key (fun z y => Y z.1 z.2 y)
    (hY.comp (contDiff_fst.fst.prodMk (contDiff_fst.snd.prodMk contDiff_snd)))
  exact ⟨max M1 M2, le_max_of_le_left h1, fun t ht => ⟨fun y hy θ => (k1 (t, y) ⟨ht, hy⟩ θ).trans (le_max_left _ _),
    fun x hx θ => (k2 (t, x) ⟨ht, hx⟩ θ).trans (le_max_right _ _)⟩⟩

/-- second derivatives in time are bounded on `[0, T] × [-1, 1]²` -/
theorem bound_time2 {p : ℕ} (hp : 2 ≤ p) {Y : ℝ → ℝ → ℝ → ℝ} (hY : ContDiff ℝ p fun z : ℝ × ℝ × ℝ => Y z.1 z.2.1 z.2.2) (T : ℝ) :
    ∃ B, 0 ≤ B ∧ ∀ x ∈ Set.Icc (-1 : ℝ) 1, ∀ y ∈ Set.Icc (-1 : ℝ) 1, ∀ t ∈ Set.Icc 0 T, |iteratedDeriv 2 (fun s => Y s x y) t| ≤ B := by
  obtain ⟨B, h0, hB⟩ := bound_iteratedDeriv_param (p := 2) (H := fun (z : ℝ × ℝ) s => Y s z.1 z.2)
    ((hY.of_le (by exact_mod_cast hp)).comp (contDiff_snd.prodMk (contDiff_fst.fst.prodMk contDiff_fst.snd)))
    ((isCompact_Icc (a := (-1 : ℝ)) (b := 1)).prod (isCompact_Icc (a := (-1 : ℝ)) (b := 1))) 0 T
  exact ⟨B, h0, fun x hx y hy t ht => hB (x, y) ⟨hx, hy⟩ t ht⟩

end Verif
