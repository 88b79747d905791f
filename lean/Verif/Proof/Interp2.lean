/-
Interpolation in one of two variables: error, stability, and the two together.
-/
import Verif.Proof.Interp
import Verif.Props.Boundary2

namespace Verif
open Res Spec Finset Polynomial Props

/-- a polynomial of degree below `n` in terms of its values on the grid -/
theorem chebPoly_card {n : ℕ} (hn : 2 ≤ n) {c : List ℝ} (hc : c.length = n) {u : ℕ → ℝ}
    (h : ∀ j < n, (chebPoly ℝ c).eval (chebPoint n j) = u j) : chebPoly ℝ c = ∑ j ∈ range n, C (u j) * card n j := by
  have hd : (chebPoly ℝ c).degree < (range n).card := by
    have := chebPoly_degree c
    rwa [card_range, ← hc]
  rw [Lagrange.eq_interpolate_of_eval_eq (r := u) (chebPoint_inj hn) hd (fun i hi => h i (mem_range.mp hi))]
  rfl

theorem chebPoly_card_deriv {n : ℕ} (hn : 2 ≤ n) {c : List ℝ} (hc : c.length = n) {u : ℕ → ℝ}
    (h : ∀ j < n, (chebPoly ℝ c).eval (chebPoint n j) = u j) (d : ℕ) (y : ℝ) :
    ∑ j ∈ range n, u j * (derivative^[d] (card n j)).eval y = (derivative^[d] (chebPoly ℝ c)).eval y := by
  rw [chebPoly_card hn hc h, iterate_derivative_sum, eval_finset_sum]
  refine Finset.sum_congr rfl (fun p _ => ?_)
  rw [iterate_derivative_C_mul, eval_mul, eval_C]

/-- the interpolant of a smooth function, by its values -/
theorem card_interp {d p : ℕ} (hdp : 2 * d + 2 ≤ p) {f : ℝ → ℝ} (hf : ContDiff ℝ p f) {M : ℝ}
    (hB : ∀ θ, |iteratedDeriv p (fun θ => f (Real.cos θ)) θ| ≤ M) {n : ℕ} (hn : 3 ≤ n) {y : ℝ} (hy : y ∈ Set.Icc (-1 : ℝ) 1) :
    |∑ j ∈ range n, f (chebPoint n j) * (derivative^[d] (card n j)).eval y - iteratedDeriv d f y|
      ≤ 16 * M / (n : ℝ) ^ (p - 2 * d - 1) := by
  have hb : Cheb.new n = ok ⟨n, n⟩ := cheb_new_ok (by omega)
  obtain ⟨x, e, l, hxj, -⟩ := C01_coords n _ hb
  have hxj : ∀ j < n, nth x j = chebPoint n j := hxj
  obtain ⟨c, h1, h2, -⟩ := wp_total.mp (wp_forwardSlice ⟨n, n⟩ n rfl (by omega) (x.map f) (List.replicate n 0) (by simp [l]) (by simp))
  have h3 := (interp_rate_B d p hdp f hf.contDiffOn M hB n hn _ hb x _ c (by simp [Cheb.lenSpec]) e h1).2 y hy
  have h4 := (interp_grid f n _ hb x _ c (by simp [Cheb.lenSpec]) e h1).1
  rw [chebPoly_card_deriv (by omega) h2 (fun j hj => by rw [← hxj j hj, h4 j hj])]
  rwa [iteratedDerivWithin_eq_iteratedDeriv (uniqueDiffOn_Icc (by norm_num))
    ((hf.of_le (by exact_mod_cast (by omega : d ≤ p))).contDiffAt) hy] at h3

/-- the interpolant depends stably on the values -/
theorem card_stable (d : ℕ) {n : ℕ} (hn : 2 ≤ n) {u : ℕ → ℝ} {m : ℝ} (hu : ∀ j < n, |u j| ≤ m) {y : ℝ} (hy : y ∈ Set.Icc (-1 : ℝ) 1) :
    |∑ j ∈ range n, u j * (derivative^[d] (card n j)).eval y| ≤ 4 * (n : ℝ) ^ (2 * d + 1) * m := by
  have hb : Cheb.new n = ok ⟨n, n⟩ := cheb_new_ok hn
  have hv : ∀ j < n, nth ((List.range n).map u) j = u j := fun j hj => nth_map_range _ _ _ hj
  have hl : ((List.range n).map u).length = n := by simp
  set v := (List.range n).map u
  obtain ⟨x, e, l, hxj, -⟩ := C01_coords n _ hb
  have hxj : ∀ j < n, nth x j = chebPoint n j := hxj
  obtain ⟨c, hc, hc'⟩ := C03_backward_forward n _ hb v (List.replicate n 0) (List.replicate n 0) hl (by simp [Cheb.lenSpec]) (by simp [Cheb.lenPhys])
  obtain ⟨c', g1, g2, -⟩ := wp_total.mp (wp_forwardSlice ⟨n, n⟩ n rfl hn v (List.replicate n 0) hl (by simp))
  obtain rfl := Res.ok.inj (hc.symm.trans g1)
  obtain ⟨x', w, h1, h2, -, h4⟩ := C02_backward_evaluates n _ hb c (List.replicate n 0) g2 (by simp [Cheb.lenPhys])
  obtain rfl := Res.ok.inj (e.symm.trans h1)
  obtain rfl := Res.ok.inj (hc'.symm.trans h2)
  rw [chebPoly_card_deriv hn g2 (u := u) (fun j hj => by rw [← hxj j hj, ← h4 j (by omega), hv j hj])]
  have hk := cheb_forward_le hn hl (by simp) hc (M := m) (fun j hj => by rw [hv j hj]; exact hu j hj)
  have hm : 0 ≤ m := (abs_nonneg _).trans (hu 0 (by omega))
  rw [chebPoly, g2, iterate_derivative_sum, eval_finset_sum]
  refine (abs_sum_le_sum_abs _ _).trans ?_
  have : ∀ k ∈ range n, |(derivative^[d] (C (nth c k) * Chebyshev.T ℝ k)).eval y| ≤ 4 * (n : ℝ) ^ (2 * d) * m := fun k hkn => by
    have hkn := mem_range.mp hkn
    rw [iterate_derivative_C_mul, eval_mul, eval_C, abs_mul]
    have a1 := abs_iterate_derivative_T_le k d (abs_le.mpr hy)
    have a2 : (k : ℝ) ^ (2 * d) ≤ (n : ℝ) ^ (2 * d) := pow_le_pow_left₀ (by positivity) (by exact_mod_cast hkn.le) _
    calc _ ≤ (4 * m) * (n : ℝ) ^ (2 * d) := mul_le_mul (hk k hkn) (a1.trans a2) (abs_nonneg _) (by positivity)
      _ = _ := by ring
  refine (Finset.sum_le_sum this).trans (le_of_eq ?_)
  rw [Finset.sum_const, card_range, nsmul_eq_mul]
  ring

/-- the two together: the interpolant of approximate values -/
theorem card_approx {d p : ℕ} (hdp : 2 * d + 2 ≤ p) {f : ℝ → ℝ} (hf : ContDiff ℝ p f) {M : ℝ}
    (hB : ∀ θ, |iteratedDeriv p (fun θ => f (Real.cos θ)) θ| ≤ M) {n : ℕ} (hn : 3 ≤ n) {u : ℕ → ℝ} {E : ℝ}
    (hu : ∀ j < n, |u j - f (chebPoint n j)| ≤ E) {y : ℝ} (hy : y ∈ Set.Icc (-1 : ℝ) 1) :
    |∑ j ∈ range n, u j * (derivative^[d] (card n j)).eval y - iteratedDeriv d f y|
      ≤ 16 * M / (n : ℝ) ^ (p - 2 * d - 1) + 4 * (n : ℝ) ^ (2 * d + 1) * E := by
  have h1 := card_interp hdp hf hB hn hy
  have h2 := card_stable d (by omega : 2 ≤ n) hu hy
  have h3 : ∑ j ∈ range n, u j * (derivative^[d] (card n j)).eval y = ∑ j ∈ range n, f (chebPoint n j) * (derivative^[d] (card n j)).eval y
      + ∑ j ∈ range n, (u j - f (chebPoint n j)) * (derivative^[d] (card n j)).eval y := by
    rw [← Finset.sum_add_distrib]
    exact Finset.sum_congr rfl fun j _ => by ring
  rw [h3]
  refine le_trans (le_of_eq_of_le (congrArg _ (by ring)) (abs_add_le _ _)) (add_le_add h1 h2)

/-- the trigonometric interpolant of a smooth periodic function and its derivatives -/
theorem trig_interp {d p : ℕ} (hdp : d + 2 ≤ p) {f : ℝ → ℝ} (hf : ContDiff ℝ p f) (hper : Function.Periodic f (2 * Real.pi)) {M : ℝ}
    (hB : ∀ x, |iteratedDeriv p f x| ≤ M) {n : ℕ} (hn : 1 ≤ n) :
    ∃ A B : ℕ → ℝ, (2 * (n / 2) = n → B (n / 2) = 0) ∧
      (∀ j < n, trigPoly (n / 2) A B (2 * Real.pi * j / n) = f (2 * Real.pi * j / n)) ∧
      ((∀ j < n, f (2 * Real.pi * j / n) = 0) → trigPoly (n / 2) A B = fun _ => 0) ∧
      ∀ x, |iteratedDeriv d (trigPoly (n / 2) A B) x - iteratedDeriv d f x| ≤ 16 * M * 2 ^ (p - d - 1) / (n : ℝ) ^ (p - d - 1) := by
  have h0 : 0 ≤ M := (abs_nonneg _).trans (hB 0)
  obtain ⟨a, b, hM, hsum⟩ := trig_series_B p (by omega) f hf hper M hB
  obtain ⟨q, rfl⟩ := Nat.exists_eq_add_of_le hdp
  rw [show d + 2 + q - d - 1 = q + 1 by omega]
  have ht : ∀ k : ℕ, 1 ≤ k → (k : ℝ) ^ d * (|a k| + |b k|) ≤ 4 * M * (k : ℝ) ^ d / (k : ℝ) ^ (d + 2 + q) := fun k hk => by
    rw [mul_comm (4 * M), mul_div_assoc]
    exact mul_le_mul_of_nonneg_left (hM k hk) (by positivity)
  obtain ⟨hs, htail⟩ := tail_le (p := d + 2 + q) (m := (n + 1) / 2) (by omega) (by positivity : 0 ≤ 4 * M)
    (fun k => by positivity : ∀ k : ℕ, 0 ≤ (k : ℝ) ^ d * (|a k| + |b k|)) ht (by omega)
  have hs0 : Summable (fun k => |a k| + |b k|) := by
    simpa using summable_of_pow' (fun k => by positivity : ∀ k, 0 ≤ |a k| + |b k|) hs (Nat.zero_le d)
  obtain ⟨A, B, hBz, hD, hZ⟩ := four_interp n hn a b hs0
  have hgrid : ∀ j < n, trigPoly (n / 2) A B (2 * Real.pi * j / n) = f (2 * Real.pi * j / n) := fun j _ => by
    have h1 := hD 0 (2 * Real.pi * j / n)
    rw [iteratedDeriv_zero] at h1
    simp only [tterm_grid hn] at h1
    exact h1.unique (hsum _)
  refine ⟨A, B, hBz, hgrid, fun hf0 => hZ fun j hj => by rw [hgrid j hj, hf0 j hj], fun x => ?_⟩
  have h1 := abs_sub_le_tail {k : ℕ | n ≤ 2 * k} (w := fun k : ℕ => (k : ℝ) ^ d * (|a k| + |b k|)) (hD d x) (iteratedDeriv_fourSeries hs hsum x) (fun k hk => ?_)
    (fun k => ?_) (fun k => tterm_abs _ _ _ _ _) hs
  · refine h1.trans ?_
    let E : ℕ ≃ {k : ℕ // n ≤ 2 * k} := ⟨fun k => ⟨k + (n + 1) / 2, by omega⟩, fun k => k.1 - (n + 1) / 2, fun k => by simp,
      fun k => by have := k.2; ext; dsimp only; omega⟩
    change 2 * ∑' k : {k : ℕ // n ≤ 2 * k}, (k : ℝ) ^ d * (|a k| + |b k|) ≤ _
    rw [← E.tsum_eq]
    have h1 : (n : ℝ) / 2 ≤ ((n + 1) / 2 : ℕ) := by
      rw [div_le_iff₀ (by norm_num)]
      exact_mod_cast (by omega : n ≤ (n + 1) / 2 * 2)
    have hn' : (0 : ℝ) < n := by exact_mod_cast hn
    have hm : 1 ≤ (n + 1) / 2 := by omega
    set m := (n + 1) / 2
    have hm' : (0 : ℝ) < m := by exact_mod_cast hm
    have h2 : 2 * (4 * M) * (m : ℝ) ^ (d + 1) / (m : ℝ) ^ (d + 2 + q) = 8 * M / (m : ℝ) ^ (q + 1) := by
      rw [show d + 2 + q = d + 1 + (q + 1) by omega, pow_add (m : ℝ) (d + 1)]
      rw [mul_comm (2 * (4 * M)), mul_div_mul_left _ _ (by positivity)]
      ring
    rw [h2] at htail
    have h3 : 8 * M / (m : ℝ) ^ (q + 1) ≤ 8 * M / ((n : ℝ) / 2) ^ (q + 1) :=
      div_le_div_of_nonneg_left (by positivity) (by positivity) (pow_le_pow_left₀ (by positivity) h1 _)
    have h4 : 2 * (8 * M / ((n : ℝ) / 2) ^ (q + 1)) = 16 * M * 2 ^ (q + 1) / (n : ℝ) ^ (q + 1) := by
      rw [div_pow]; field_simp; ring
    rw [← h4]
    exact mul_le_mul_of_nonneg_left (htail.trans h3) (by norm_num)
  · have hk : ¬ n ≤ 2 * k := hk
    rw [cosAlias_of_lt (by omega)]
    by_cases hk0 : k = 0
    · subst hk0
      unfold tterm
      rcases Nat.eq_zero_or_pos d with h | h
      · subst h; simp
      · simp [zero_pow (show d ≠ 0 by omega)]
    · rw [sinSign_of_lt (by omega) hk0, Int.cast_one, one_mul]
  · refine (tterm_abs _ _ _ _ _).trans (mul_le_mul ?_ ?_ (by positivity) (by positivity))
    · exact pow_le_pow_left₀ (Nat.cast_nonneg _) (by exact_mod_cast cosAlias_le_self k) _
    · have : |(sinSign n k : ℝ) * b k| ≤ |b k| := by
        rw [abs_mul]; exact mul_le_of_le_one_left (abs_nonneg _) (sinSign_abs n k)
      linarith

end Verif
