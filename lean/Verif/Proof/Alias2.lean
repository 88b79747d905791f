/-
Interpolation at the Chebyshev points by cardinal functions, and double series.
-/
import Verif.Proof.Alias
import Verif.Proof.FourSeries
import Mathlib.LinearAlgebra.Lagrange

namespace Verif
open Res Spec Finset Polynomial

/-! ### Cardinal functions of the Chebyshev points -/

/-- The points. -/
noncomputable def chebPoint (n j : ℕ) : ℝ := -Real.cos (Real.pi * j / (n - 1 : ℕ))

/-- The cardinal functions. -/
noncomputable def card (n p : ℕ) : ℝ[X] := Lagrange.basis (range n) (chebPoint n) p

theorem chebPoint_mem (n j : ℕ) : chebPoint n j ∈ Set.Icc (-1 : ℝ) 1 :=
  ⟨by unfold chebPoint; linarith [Real.cos_le_one (Real.pi * j / (n - 1 : ℕ))],
    by unfold chebPoint; linarith [Real.neg_one_le_cos (Real.pi * j / (n - 1 : ℕ))]⟩

theorem chebPoint_zero (n : ℕ) : chebPoint n 0 = -1 := by simp [chebPoint]

theorem chebPoint_last {n : ℕ} (hn : 2 ≤ n) : chebPoint n (n - 1) = 1 := by
  have : ((n - 1 : ℕ) : ℝ) ≠ 0 := by exact_mod_cast (show n - 1 ≠ 0 by omega)
  unfold chebPoint
  rw [mul_div_assoc, div_self this, mul_one, Real.cos_pi, neg_neg]

theorem chebPoint_inj {n : ℕ} (hn : 2 ≤ n) : Set.InjOn (chebPoint n) (range n : Finset ℕ) := by
  have hN : (0 : ℝ) < ((n - 1 : ℕ) : ℝ) := by exact_mod_cast (show 0 < n - 1 by omega)
  have hm : ∀ j ∈ (range n : Finset ℕ), Real.pi * j / (n - 1 : ℕ) ∈ Set.Icc 0 Real.pi := fun j hj => by
    have h1 : (j : ℝ) ≤ (n - 1 : ℕ) := by
      exact_mod_cast (show j ≤ n - 1 by have := mem_range.mp hj; omega)
    refine ⟨by positivity, ?_⟩
    rw [div_le_iff₀ hN]
    exact mul_le_mul_of_nonneg_left h1 Real.pi_pos.le
  intro i hi j hj h
  have h1 := Real.injOn_cos (hm i hi) (hm j hj) (neg_injective h)
  have h2 : (i : ℝ) = j := by
    field_simp at h1
    exact h1
  exact_mod_cast h2

theorem card_degree {n p : ℕ} (hn : 2 ≤ n) (hp : p < n) : (card n p).degree < n := by
  rw [card, Lagrange.degree_basis (chebPoint_inj hn) (mem_range.mpr hp), card_range]
  exact_mod_cast (show n - 1 < n by omega)

theorem card_eval_ne {n p q : ℕ} (hpq : p ≠ q) (hq : q < n) : (card n p).eval (chebPoint n q) = 0 :=
  Lagrange.eval_basis_of_ne hpq (mem_range.mpr hq)

theorem card_eval_self {n p : ℕ} (hn : 2 ≤ n) (hp : p < n) : (card n p).eval (chebPoint n p) = 1 :=
  Lagrange.eval_basis_self (chebPoint_inj hn) (mem_range.mpr hp)

/-- The interpolant of `Tₖ`. -/
theorem card_T {n : ℕ} (hn : 2 ≤ n) (k : ℕ) :
    ∑ p ∈ range n, C ((Chebyshev.T ℝ k).eval (chebPoint n p)) * card n p
      = Chebyshev.T ℝ (chebAlias n k : ℕ) := by
  have hd : (Chebyshev.T ℝ (chebAlias n k : ℕ)).degree < (range n).card := by
    rw [card_range, Chebyshev.degree_T]
    exact_mod_cast chebAlias_lt hn k
  rw [Lagrange.eq_interpolate_of_eval_eq (r := fun p => (Chebyshev.T ℝ k).eval (chebPoint n p))
    (chebPoint_inj hn) hd (fun i _ => T_chebAlias hn k i)]
  rfl

/-- … and of its derivatives. -/
theorem card_T_deriv {n : ℕ} (hn : 2 ≤ n) (k d : ℕ) (y : ℝ) :
    ∑ p ∈ range n, (Chebyshev.T ℝ k).eval (chebPoint n p) * (derivative^[d] (card n p)).eval y
      = (derivative^[d] (Chebyshev.T ℝ (chebAlias n k : ℕ))).eval y := by
  rw [← card_T hn k, iterate_derivative_sum, eval_finset_sum]
  refine Finset.sum_congr rfl (fun p _ => ?_)
  rw [iterate_derivative_C_mul, eval_mul, eval_C]

/-! ### Series -/

/-- Two series with the same terms outside of `S`. -/
theorem abs_sub_le_tail {ι : Type} (S : Set ι) {g h w : ι → ℝ} {s t : ℝ} (hg : HasSum g s) (hh : HasSum h t)
    (hS : ∀ p, p ∉ S → g p = h p) (h1 : ∀ p, |g p| ≤ w p) (h2 : ∀ p, |h p| ≤ w p) (hw : Summable w) :
    |s - t| ≤ 2 * ∑' p : S, w p := by
  rw [← (hg.sub hh).tsum_eq, tsum_subtype S w, ← tsum_mul_left, ← Real.norm_eq_abs]
  refine tsum_of_norm_bounded ((hw.indicator S).mul_left 2).hasSum (fun p => ?_)
  by_cases hp : p ∈ S
  · rw [Set.indicator_of_mem hp, Real.norm_eq_abs]
    exact (abs_sub _ _).trans (by linarith [h1 p, h2 p])
  · rw [hS p hp, Set.indicator_of_notMem hp]; simp

/-- Double series, summed by rows. -/
theorem hasSum_rows {g : ℕ × ℕ → ℝ} {s : ℝ} (h : HasSum g s) :
    HasSum (fun J => ∑' K, g (J, K)) s :=
  h.prod_fiberwise (fun J => (h.summable.prod_factor J).hasSum)

/-- Double series, summed by columns. -/
theorem hasSum_cols {g : ℕ × ℕ → ℝ} {s : ℝ} (h : HasSum g s) :
    HasSum (fun K => ∑' J, g (J, K)) s :=
  hasSum_rows (g := g ∘ Prod.swap) ((Equiv.prodComm ℕ ℕ).hasSum_iff.mpr h)

theorem summable_row {g : ℕ × ℕ → ℝ} (h : Summable g) (J : ℕ) : Summable (fun K => g (J, K)) :=
  h.prod_factor J

theorem summable_col {g : ℕ × ℕ → ℝ} (h : Summable g) (K : ℕ) : Summable (fun J => g (J, K)) :=
  summable_row (g := g ∘ Prod.swap) ((Equiv.prodComm ℕ ℕ).summable_iff.mpr h) K

/-- Absolute values of the row sums. -/
theorem summable_abs_rows {g w : ℕ × ℕ → ℝ} (h : Summable w) (hg : ∀ p, |g p| ≤ w p) :
    Summable (fun J => |∑' K, g (J, K)|) ∧ ∀ J, |∑' K, g (J, K)| ≤ ∑' K, w (J, K) := by
  have h1 : ∀ J, |∑' K, g (J, K)| ≤ ∑' K, w (J, K) := fun J => by
    rw [← Real.norm_eq_abs]
    exact tsum_of_norm_bounded (summable_row h J).hasSum (fun K => hg (J, K))
  exact ⟨Summable.of_nonneg_of_le (fun _ => abs_nonneg _) h1 (hasSum_rows h.hasSum).summable, h1⟩

/-! ### Termwise partial derivatives -/

/-- Termwise differentiation of a double series in one variable. -/
theorem cheb_cols_deriv {g : ℕ × ℕ → ℝ} {d : ℕ} (h0 : Summable (fun p => |g p|))
    (hg : Summable (fun p : ℕ × ℕ => |g p| * (p.2 : ℝ) ^ (2 * d))) {F : ℝ → ℝ}
    (hF : ∀ y ∈ Set.Icc (-1 : ℝ) 1, HasSum (fun p : ℕ × ℕ => g p * (Chebyshev.T ℝ p.2).eval y) (F y)) :
    ∀ y ∈ Set.Icc (-1 : ℝ) 1, HasSum (fun p : ℕ × ℕ => g p * (derivative^[d] (Chebyshev.T ℝ p.2)).eval y)
      (iteratedDerivWithin d F (Set.Icc (-1) 1) y) := by
  intro y hy
  have hsum : Summable (fun p : ℕ × ℕ => g p * (derivative^[d] (Chebyshev.T ℝ p.2)).eval y) :=
    Summable.of_norm_bounded hg (fun p => by
      rw [Real.norm_eq_abs, abs_mul]
      exact mul_le_mul_of_nonneg_left (abs_iterate_derivative_T_le p.2 d (abs_le.mpr hy)) (abs_nonneg _))
  have hb : Summable (fun K : ℕ => |∑' J, g (J, K)| * (K : ℝ) ^ (2 * d)) := by
    refine Summable.of_nonneg_of_le (fun K => by positivity) (fun K => ?_) (hasSum_cols hg.hasSum).summable
    show _ ≤ ∑' J, |g (J, K)| * (K : ℝ) ^ (2 * d)
    rw [tsum_mul_right]
    refine mul_le_mul_of_nonneg_right ?_ (by positivity)
    rw [← Real.norm_eq_abs]
    exact tsum_of_norm_bounded (summable_col h0 K).hasSum (fun J => le_rfl)
  have h1 := iteratedDerivWithin_chebSeries hb (f := F) (fun z hz => by
    have := hasSum_cols (hF z hz)
    simpa only [tsum_mul_right] using this) y hy
  have h2 := hasSum_cols hsum.hasSum
  simp only [tsum_mul_right] at h2
  rw [h1, show chebSeries (fun K => ∑' J, g (J, K)) d y
    = ∑' p : ℕ × ℕ, g p * (derivative^[d] (Chebyshev.T ℝ p.2)).eval y from h2.tsum_eq]
  exact hsum.hasSum

private theorem weight_le (u v e0 e1 d0 d1 : ℕ) (h0 : e0 ≤ d0) (h1 : e1 ≤ d1) (c : ℝ) :
    |c| * (u : ℝ) ^ e0 * (v : ℝ) ^ e1 ≤ |c| * ((u : ℝ) + 1) ^ d0 * ((v : ℝ) + 1) ^ d1 := by
  have hp : ∀ (w e d : ℕ), e ≤ d → (w : ℝ) ^ e ≤ ((w : ℝ) + 1) ^ d := fun w e d h =>
    (pow_le_pow_left₀ (Nat.cast_nonneg _) (by linarith) e).trans
      (pow_le_pow_right₀ (by have := Nat.cast_nonneg (α := ℝ) w; linarith) h)
  have := hp u e0 d0 h0
  have := hp v e1 d1 h1
  gcongr

theorem summable_weight {a : ℕ × ℕ → ℝ} {d0 d1 : ℕ}
    (hs : Summable (fun p : ℕ × ℕ => |a p| * ((p.1 : ℝ) + 1) ^ d0 * ((p.2 : ℝ) + 1) ^ d1))
    {e0 e1 : ℕ} (h0 : e0 ≤ d0) (h1 : e1 ≤ d1) :
    Summable (fun p : ℕ × ℕ => |a p| * (p.1 : ℝ) ^ e0 * (p.2 : ℝ) ^ e1) :=
  Summable.of_nonneg_of_le (fun p => by positivity) (fun p => weight_le _ _ _ _ _ _ h0 h1 _) hs

private theorem mul_T_le (c : ℝ) (k d : ℕ) {x : ℝ} (hx : x ∈ Set.Icc (-1 : ℝ) 1) :
    |c * (derivative^[d] (Chebyshev.T ℝ k)).eval x| ≤ |c| * (k : ℝ) ^ (2 * d) := by
  rw [abs_mul]
  exact mul_le_mul_of_nonneg_left (abs_iterate_derivative_T_le k d (abs_le.mpr hx)) (abs_nonneg _)

/-- The mixed derivatives of an absolutely convergent double Chebyshev series. -/
theorem mixed_cheb {a : ℕ × ℕ → ℝ} {d0 d1 : ℕ}
    (hs : Summable (fun p : ℕ × ℕ => |a p| * ((p.1 : ℝ) + 1) ^ (2 * d0) * ((p.2 : ℝ) + 1) ^ (2 * d1)))
    {f : ℝ → ℝ → ℝ} (hf : ∀ x ∈ Set.Icc (-1 : ℝ) 1, ∀ y ∈ Set.Icc (-1 : ℝ) 1, HasSum (fun p : ℕ × ℕ =>
      a p * (Chebyshev.T ℝ p.1).eval x * (Chebyshev.T ℝ p.2).eval y) (f x y))
    {x y : ℝ} (hx : x ∈ Set.Icc (-1 : ℝ) 1) (hy : y ∈ Set.Icc (-1 : ℝ) 1) :
    HasSum (fun p : ℕ × ℕ => a p * (derivative^[d0] (Chebyshev.T ℝ p.1)).eval x
        * (derivative^[d1] (Chebyshev.T ℝ p.2)).eval y)
      (iteratedDerivWithin d0 (fun x => iteratedDerivWithin d1 (f x) (Set.Icc (-1) 1) y)
        (Set.Icc (-1) 1) x) := by
  -- first in `y`
  have h1 : ∀ z ∈ Set.Icc (-1 : ℝ) 1, HasSum (fun p : ℕ × ℕ => a p * (Chebyshev.T ℝ p.1).eval z
      * (derivative^[d1] (Chebyshev.T ℝ p.2)).eval y) (iteratedDerivWithin d1 (f z) (Set.Icc (-1) 1) y) := by
    intro z hz
    have hle : ∀ p : ℕ × ℕ, |a p * (Chebyshev.T ℝ p.1).eval z| ≤ |a p| := fun p => by
      simpa using mul_T_le (a p) p.1 0 hz
    refine cheb_cols_deriv ?_ ?_ (hf z hz) y hy
    · exact Summable.of_nonneg_of_le (fun _ => abs_nonneg _) hle
        (by simpa using summable_weight hs (Nat.zero_le _) (Nat.zero_le _))
    · refine Summable.of_nonneg_of_le (fun _ => by positivity)
        (fun p => mul_le_mul_of_nonneg_right (hle p) (by positivity)) ?_
      simpa using summable_weight hs (Nat.zero_le _) le_rfl
  -- then in `x`
  have hle : ∀ p : ℕ × ℕ, |a p.swap * (derivative^[d1] (Chebyshev.T ℝ p.1)).eval y|
      ≤ |a p.swap| * (p.1 : ℝ) ^ (2 * d1) := fun p => mul_T_le _ _ _ hy
  have h2 := cheb_cols_deriv (d := d0) (F := fun x => iteratedDerivWithin d1 (f x) (Set.Icc (-1) 1) y)
    (g := fun p => a p.swap * (derivative^[d1] (Chebyshev.T ℝ p.1)).eval y) ?_ ?_ (fun z hz => ?_) x hx
  · rw [← (Equiv.prodComm ℕ ℕ).hasSum_iff]
    convert! h2 using 1
    funext p
    show a p.swap * (derivative^[d0] (Chebyshev.T ℝ p.2)).eval x
      * (derivative^[d1] (Chebyshev.T ℝ p.1)).eval y = _
    ring
  · refine Summable.of_nonneg_of_le (fun _ => abs_nonneg _) hle ?_
    rw [← (Equiv.prodComm ℕ ℕ).summable_iff]
    refine (summable_weight hs (Nat.zero_le _) le_rfl).congr (fun p => ?_)
    show _ = |a p| * (p.2 : ℝ) ^ (2 * d1)
    simp
  · refine Summable.of_nonneg_of_le (fun _ => by positivity)
        (fun p => mul_le_mul_of_nonneg_right (hle p) (by positivity)) ?_
    rw [← (Equiv.prodComm ℕ ℕ).summable_iff]
    refine (summable_weight hs le_rfl le_rfl).congr (fun p => ?_)
    show _ = |a p| * (p.2 : ℝ) ^ (2 * d1) * (p.1 : ℝ) ^ (2 * d0)
    ring
  · have := h1 z hz
    rw [← (Equiv.prodComm ℕ ℕ).hasSum_iff] at this
    convert! this using 1
    funext p
    show _ = a p.swap * (Chebyshev.T ℝ p.2).eval z * (derivative^[d1] (Chebyshev.T ℝ p.1)).eval y
    ring

/-- The trigonometric interpolant of a Fourier series: it is the series with every term replaced by its
alias, and vanishes if the series vanishes on the grid. -/
theorem four_interp (n : ℕ) (hn : 1 ≤ n) (A B : ℕ → ℝ) (hs : Summable (fun k => |A k| + |B k|)) :
    ∃ A' B' : ℕ → ℝ, (2 * (n / 2) = n → B' (n / 2) = 0) ∧
      (∀ d x, HasSum (fun k => tterm (A k) (sinSign n k * B k) (cosAlias n k) d x)
        (iteratedDeriv d (Props.trigPoly (n / 2) A' B') x)) ∧
      ((∀ j < n, Props.trigPoly (n / 2) A' B' (2 * Real.pi * j / n) = 0) →
        Props.trigPoly (n / 2) A' B' = fun _ => 0) := by
  have hsA : Summable (fun k => ‖A k‖) := Summable.of_nonneg_of_le (fun k => abs_nonneg _)
    (fun k => le_add_of_nonneg_right (abs_nonneg _)) hs
  have hsB : Summable (fun k => ‖(sinSign n k : ℝ) * B k‖) := Summable.of_nonneg_of_le
    (fun k => abs_nonneg _) (fun k => by
      rw [norm_mul]
      refine (mul_le_of_le_one_left (norm_nonneg _) (sinSign_abs n k)).trans ?_
      exact le_add_of_nonneg_left (abs_nonneg _)) hs
  set A' : ℕ → ℝ := classSum (cosAlias n) A with hA
  set B' : ℕ → ℝ := classSum (cosAlias n) (fun k => (sinSign n k : ℝ) * B k) with hB
  have hlt : ∀ k, cosAlias n k < n / 2 + 1 := fun k => Nat.lt_succ_of_le (cosAlias_le hn k)
  have hBz : ∀ m, (m = 0 ∨ 2 * m = n) → B' m = 0 := by
    classical
    intro m hm
    have : (fun k => if cosAlias n k = m then (sinSign n k : ℝ) * B k else 0) = fun _ => 0 := by
      funext k
      split
      · next h => rw [sinSign_eq_zero (by rw [h]; exact hm) hn]; simp
      · rfl
    rw [hB]
    have h1 := classSum_hasSum (cls := cosAlias n) hsB m
    refine h1.unique ?_
    convert! hasSum_zero (α := ℝ) (β := ℕ) using 1
  refine ⟨A', B', fun h => hBz _ (Or.inr h), fun d x => ?_, fun h => ?_⟩
  · have h1 := classSum_combine hsA hlt (fun j => tterm 1 0 j d x • ContinuousLinearMap.id ℝ ℝ)
    have h2 := classSum_combine hsB hlt (fun j => tterm 0 1 j d x • ContinuousLinearMap.id ℝ ℝ)
    simp only [ContinuousLinearMap.smul_apply, ContinuousLinearMap.id_apply, smul_eq_mul] at h1 h2
    rw [iteratedDeriv_trigPoly]
    convert! h1.add h2 using 1
    · funext k
      rw [tterm_lin]
    · rw [← Finset.sum_add_distrib]
      exact Finset.sum_congr rfl (fun m _ => by rw [tterm_lin])
  · set c : List ℂ := (List.range (n / 2 + 1)).map (fun m =>
      ⟨n / (if m = 0 ∨ 2 * m = n then 1 else 2) * A' m,
        -(n / (if m = 0 ∨ 2 * m = n then 1 else 2) * B' m)⟩) with hc
    have hcm : ∀ m ≤ n / 2, nth c m = ⟨n / (if m = 0 ∨ 2 * m = n then 1 else 2) * A' m,
        -(n / (if m = 0 ∨ 2 * m = n then 1 else 2) * B' m)⟩ := fun m hm =>
      nth_map_range _ _ _ (by omega)
    have hcl : c.length = n / 2 + 1 := by simp [hc]
    clear_value c
    have hp := trigR_eq_trigPoly n hn A' B' (hBz 0 (Or.inl rfl)) (fun h => hBz _ (Or.inr h)) c hcm
    obtain ⟨x, hx, hxl, hxj⟩ := Props.C23_r2c_coords n hn ⟨n, n / 2 + 1⟩ rfl
    have h1 := r2c_forward_of_grid hn (b := ⟨n, n / 2 + 1⟩) rfl hx (fun _ => 0) c (List.replicate (n / 2 + 1) 0)
      hcl (List.length_replicate ..) (by rw [hcm 0 (by omega)]; simp [hBz 0 (Or.inl rfl)])
      (fun h => by rw [hcm _ le_rfl]; simp [hBz (n / 2) (Or.inr (by omega))])
      (fun j hj => by rw [hp, hxj j hj]; exact h j hj)
    have hz : ∀ m, nth (List.replicate (n / 2 + 1) (0 : ℂ)) m = 0 := fun m => by
      simp [nth, List.getD_eq_getElem?_getD, List.getElem?_replicate]
      split <;> rfl
    have ht : trigR n (List.replicate (n / 2 + 1) 0) = fun _ => 0 := by
      funext x
      unfold trigR
      simp [hz]
    have h2 := r2c_forward_of_grid hn (b := ⟨n, n / 2 + 1⟩) rfl hx (fun _ => 0)
      (List.replicate (n / 2 + 1) 0) (List.replicate (n / 2 + 1) 0)
      (List.length_replicate ..) (List.length_replicate ..) (by rw [hz]; rfl) (fun _ => by rw [hz]; rfl)
      (fun j hj => by rw [ht])
    rw [← hp, Res.ok.inj (h1.symm.trans h2), ht]

/-- On the grid the aliased terms have the values of the terms. -/
theorem tterm_grid {n : ℕ} (hn : 1 ≤ n) (A B : ℝ) (k j : ℕ) :
    tterm A (sinSign n k * B) (cosAlias n k) 0 (2 * Real.pi * j / n)
      = A * Real.cos (k * (2 * Real.pi * j / n)) + B * Real.sin (k * (2 * Real.pi * j / n)) := by
  rw [tterm_zero, cos_cosAlias hn, ← sin_cosAlias hn k]
  ring

/-- The mixed derivatives of an absolutely convergent Fourier–Chebyshev series. -/
theorem mixed_four {A B : ℕ × ℕ → ℝ} {d0 d1 : ℕ}
    (hs : Summable (fun p : ℕ × ℕ => |(|A p| + |B p|)| * ((p.1 : ℝ) + 1) ^ d0 * ((p.2 : ℝ) + 1) ^ (2 * d1)))
    {f : ℝ → ℝ → ℝ} (hf : ∀ x, ∀ y ∈ Set.Icc (-1 : ℝ) 1, HasSum (fun p : ℕ × ℕ =>
      (A p * Real.cos (p.1 * x) + B p * Real.sin (p.1 * x)) * (Chebyshev.T ℝ p.2).eval y) (f x y))
    {x y : ℝ} (hy : y ∈ Set.Icc (-1 : ℝ) 1) :
    HasSum (fun p : ℕ × ℕ => tterm (A p) (B p) p.1 d0 x * (derivative^[d1] (Chebyshev.T ℝ p.2)).eval y)
      (iteratedDeriv d0 (fun x => iteratedDerivWithin d1 (f x) (Set.Icc (-1) 1) y) x) := by
  have hW := fun {e0 e1 : ℕ} (h0 : e0 ≤ d0) (h1 : e1 ≤ 2 * d1) =>
    summable_weight (a := fun p => |A p| + |B p|) hs h0 h1
  have habs : ∀ p, |(|A p| + |B p|)| = |A p| + |B p| := fun p => abs_of_nonneg (by positivity)
  simp only [habs] at hW
  have hT := fun k => abs_iterate_derivative_T_le k d1 (abs_le.mpr hy)
  have hle : ∀ z e p, |tterm (A p) (B p) p.1 e z| ≤ (|A p| + |B p|) * (p.1 : ℝ) ^ e := fun z e p => by
    rw [mul_comm]; exact tterm_abs _ _ _ _ _
  -- first in `y`
  have h1 : ∀ z, HasSum (fun p : ℕ × ℕ => tterm (A p) (B p) p.1 0 z
      * (derivative^[d1] (Chebyshev.T ℝ p.2)).eval y) (iteratedDerivWithin d1 (f z) (Set.Icc (-1) 1) y) := by
    intro z
    refine cheb_cols_deriv ?_ ?_ (fun t ht => by simpa only [tterm_zero] using hf z t ht) y hy
    · exact Summable.of_nonneg_of_le (fun _ => abs_nonneg _) (hle z 0)
        (by simpa using hW (Nat.zero_le _) (Nat.zero_le _))
    · refine Summable.of_nonneg_of_le (fun _ => by positivity)
        (fun p => mul_le_mul_of_nonneg_right (hle z 0 p) (by positivity)) ?_
      simpa using hW (Nat.zero_le _) le_rfl
  -- then in `x`
  have hA : ∀ p, |A p * (derivative^[d1] (Chebyshev.T ℝ p.2)).eval y| ≤ (|A p| + |B p|) * (p.2 : ℝ) ^ (2 * d1) :=
    fun p => by
      rw [abs_mul]
      exact mul_le_mul (le_add_of_nonneg_right (abs_nonneg _)) (hT _) (abs_nonneg _) (by positivity)
  have hB : ∀ p, |B p * (derivative^[d1] (Chebyshev.T ℝ p.2)).eval y| ≤ (|A p| + |B p|) * (p.2 : ℝ) ^ (2 * d1) :=
    fun p => by
      rw [abs_mul]
      exact mul_le_mul (le_add_of_nonneg_left (abs_nonneg _)) (hT _) (abs_nonneg _) (by positivity)
  have hS : Summable (fun p : ℕ × ℕ => (|A p| + |B p|) * (p.2 : ℝ) ^ (2 * d1)) := by
    simpa using hW (Nat.zero_le _) le_rfl
  have hrow : ∀ J d z, tterm (∑' K, A (J, K) * (derivative^[d1] (Chebyshev.T ℝ K)).eval y)
      (∑' K, B (J, K) * (derivative^[d1] (Chebyshev.T ℝ K)).eval y) J d z
      = ∑' K, tterm (A (J, K)) (B (J, K)) J d z * (derivative^[d1] (Chebyshev.T ℝ K)).eval y := by
    intro J d z
    have ha := (summable_row (Summable.of_norm_bounded hS hA) J).hasSum.mul_left (tterm 1 0 J d z)
    have hb := (summable_row (Summable.of_norm_bounded hS hB) J).hasSum.mul_left (tterm 0 1 J d z)
    rw [tterm_lin, ← (ha.add hb).tsum_eq]
    refine tsum_congr (fun K => ?_)
    rw [tterm_lin (A (J, K))]
    ring
  have hsum : Summable (fun p : ℕ × ℕ => tterm (A p) (B p) p.1 d0 x
      * (derivative^[d1] (Chebyshev.T ℝ p.2)).eval y) :=
    Summable.of_norm_bounded (hW le_rfl le_rfl) (fun p => by
      rw [Real.norm_eq_abs, abs_mul]
      exact mul_le_mul (hle _ _ _) (hT _) (abs_nonneg _) (by positivity))
  have hSr : Summable (fun J : ℕ => (J : ℝ) ^ d0 *
      (|∑' K, A (J, K) * (derivative^[d1] (Chebyshev.T ℝ K)).eval y|
        + |∑' K, B (J, K) * (derivative^[d1] (Chebyshev.T ℝ K)).eval y|)) := by
    have h := (hasSum_rows ((hW le_rfl (le_refl (2 * d1))).mul_left 2).hasSum).summable
    refine Summable.of_nonneg_of_le (fun J => by positivity) (fun J => ?_) h
    have h3 : ∑' K, 2 * ((|A (J, K)| + |B (J, K)|) * (J : ℝ) ^ d0 * (K : ℝ) ^ (2 * d1))
        = (J : ℝ) ^ d0 * ((∑' K, (|A (J, K)| + |B (J, K)|) * (K : ℝ) ^ (2 * d1))
          + ∑' K, (|A (J, K)| + |B (J, K)|) * (K : ℝ) ^ (2 * d1)) := by
      rw [← two_mul, ← mul_assoc, ← tsum_mul_left]
      exact tsum_congr (fun K => by ring)
    show _ ≤ ∑' K, 2 * ((|A (J, K)| + |B (J, K)|) * (J : ℝ) ^ d0 * (K : ℝ) ^ (2 * d1))
    rw [h3]
    exact mul_le_mul_of_nonneg_left (add_le_add ((summable_abs_rows hS hA).2 J)
      ((summable_abs_rows hS hB).2 J)) (by positivity)
  have h2 := iteratedDeriv_fourSeries hSr (f := fun x => iteratedDerivWithin d1 (f x) (Set.Icc (-1) 1) y)
    (fun z => by
      have := hasSum_rows (h1 z)
      convert! this using 1
      funext J
      rw [← hrow J 0 z, tterm_zero]) x
  simp only [hrow] at h2
  rw [h2.unique (hasSum_rows hsum.hasSum)]
  exact hsum.hasSum

end Verif
