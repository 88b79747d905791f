/-
Uniqueness and stability of the Chebyshev tau equations.
-/
import Verif.Proof.Tau
import Mathlib.Algebra.QuadraticDiscriminant

namespace Verif
open Res Spec Finset Props Polynomial

theorem degree_derivative2 {u : ℝ[X]} {n : ℕ} (hn : 2 ≤ n) (h : u.degree < n) :
    (derivative (derivative u)).degree < (n - 2 : ℕ) := by
  have step : ∀ {p : ℝ[X]} {m : ℕ}, p.degree < (m + 1 : ℕ) → (derivative p).degree < (m : ℕ) := by
    intro p m hp
    by_cases h0 : derivative p = 0
    · rw [h0, degree_zero]; exact WithBot.bot_lt_coe _
    have hp0 : p ≠ 0 := fun h => h0 (by rw [h, derivative_zero])
    rw [← natDegree_lt_iff_degree_lt hp0] at hp
    rw [← natDegree_lt_iff_degree_lt h0]
    have hd : p.natDegree ≠ 0 := fun h => h0 (derivative_of_natDegree_zero h)
    have := natDegree_derivative_lt hd
    omega
  obtain ⟨m, rfl⟩ : ∃ m, n = m + 2 := ⟨n - 2, by omega⟩
  exact step (step h)

/-- testing the tau equation with `u''` -/
theorem tau_test {n : ℕ} (hn : 4 ≤ n) {u f : ℝ[X]} {β c τ₁ τ₂ : ℝ} (hu : u.degree < n)
    (h : C β * u - C c * derivative (derivative u)
      = f + C τ₁ * Chebyshev.T ℝ (n - 2 : ℕ) + C τ₂ * Chebyshev.T ℝ (n - 1 : ℕ)) :
    β * wInt (u * derivative (derivative u)) - c * wInt (derivative (derivative u) ^ 2)
      = wInt (f * derivative (derivative u)) := by
  have hd := degree_derivative2 (by omega) hu
  have h1 := wInt_T_mul hd
  have h2 : wInt (Chebyshev.T ℝ (n - 1 : ℕ) * derivative (derivative u)) = 0 :=
    wInt_T_mul (lt_trans hd (by exact_mod_cast (by omega : n - 2 < n - 1)))
  have := congrArg (fun p => wInt (p * derivative (derivative u))) h
  rw [show (C β * u - C c * derivative (derivative u)) * derivative (derivative u)
      = C β * (u * derivative (derivative u)) - C c * (derivative (derivative u) ^ 2) by ring,
    show (f + C τ₁ * Chebyshev.T ℝ (n - 2 : ℕ) + C τ₂ * Chebyshev.T ℝ (n - 1 : ℕ))
        * derivative (derivative u)
      = f * derivative (derivative u) + C τ₁ * (Chebyshev.T ℝ (n - 2 : ℕ) * derivative (derivative u))
        + C τ₂ * (Chebyshev.T ℝ (n - 1 : ℕ) * derivative (derivative u)) by ring,
    wInt_sub, wInt_add, wInt_add, wInt_C_mul, wInt_C_mul, wInt_C_mul, wInt_C_mul, h1, h2] at this
  linarith

theorem dirichlet_negative {u : ℝ[X]} (h1 : u.eval 1 = 0) (h2 : u.eval (-1) = 0) :
    wInt (u * derivative (derivative u)) ≤ 0 ∧ (wInt (u * derivative (derivative u)) = 0 → u = 0) := by
  obtain ⟨q, rfl⟩ := factor_bc h1 h2
  have h3 := wInt_coercive_le q
  have h4 := wInt_sq_nonneg q
  refine ⟨by linarith, fun h => ?_⟩
  rw [h] at h3
  rw [wInt_sq_zero (by linarith : wInt (q ^ 2) = 0), mul_zero]

/-- the homogeneous tau equation with Dirichlet conditions has only the trivial solution -/
theorem tau_dirichlet_zero {n : ℕ} (hn : 4 ≤ n) {u : ℝ[X]} {β c τ₁ τ₂ : ℝ} (hβ : 0 ≤ β) (hc : 0 ≤ c)
    (hβc : 0 < β + c) (hu : u.degree < n) (h1 : u.eval 1 = 0) (h2 : u.eval (-1) = 0)
    (h : C β * u - C c * derivative (derivative u)
      = 0 + C τ₁ * Chebyshev.T ℝ (n - 2 : ℕ) + C τ₂ * Chebyshev.T ℝ (n - 1 : ℕ)) : u = 0 := by
  have ht := tau_test hn hu h
  rw [zero_mul, wInt_zero] at ht
  obtain ⟨hneg, hz⟩ := dirichlet_negative h1 h2
  have hpos := wInt_sq_nonneg (derivative (derivative u))
  rcases hβ.lt_or_eq with hb | hb
  · refine hz (le_antisymm hneg ?_)
    have : 0 ≤ β * wInt (u * derivative (derivative u)) := by
      have := mul_nonneg hc hpos; linarith
    exact (mul_nonneg_iff_of_pos_left hb).mp this
  · subst hb
    have hc' : 0 < c := by linarith
    have : wInt (derivative (derivative u) ^ 2) = 0 := by
      have : c * wInt (derivative (derivative u) ^ 2) = 0 := by linarith
      exact (mul_eq_zero.mp this).resolve_left hc'.ne'
    refine hz ?_
    rw [wInt_sq_zero this, mul_zero, wInt_zero]

/-- stability of the tau equation in the weighted norm -/
theorem tau_dirichlet_stable {n : ℕ} (hn : 4 ≤ n) {u f : ℝ[X]} {β c τ₁ τ₂ : ℝ} (hβ : 0 ≤ β) (hc : 0 ≤ c)
    (hu : u.degree < n) (h1 : u.eval 1 = 0) (h2 : u.eval (-1) = 0)
    (h : C β * u - C c * derivative (derivative u)
      = f + C τ₁ * Chebyshev.T ℝ (n - 2 : ℕ) + C τ₂ * Chebyshev.T ℝ (n - 1 : ℕ)) :
    c ^ 2 * wInt (derivative (derivative u) ^ 2) ≤ wInt (f ^ 2) := by
  have ht := tau_test hn hu h
  obtain ⟨hneg, -⟩ := dirichlet_negative h1 h2
  have hsq := wInt_sq_nonneg (f + C c * derivative (derivative u))
  rw [show (f + C c * derivative (derivative u)) ^ 2 = f ^ 2 + C (2 * c) * (f * derivative (derivative u))
      + C (c ^ 2) * derivative (derivative u) ^ 2 by simp only [C_mul, C_pow, map_ofNat]; ring,
    wInt_add, wInt_add, wInt_C_mul, wInt_C_mul] at hsq
  have := mul_nonneg hβ (neg_nonneg.mpr hneg)
  have h3 : 2 * c * wInt (f * derivative (derivative u)) ≤ 2 * c * (- (c * wInt (derivative (derivative u) ^ 2))) :=
    mul_le_mul_of_nonneg_left (by linarith) (by linarith)
  nlinarith

/-- the homogeneous tau equation with Neumann conditions has only the trivial solution -/
theorem tau_neumann_zero {n : ℕ} (hn : 4 ≤ n) {u : ℝ[X]} {β c τ₁ τ₂ : ℝ} (hβ : 0 < β) (hc : 0 ≤ c)
    (hu : u.degree < n) (h1 : (derivative u).eval 1 = 0) (h2 : (derivative u).eval (-1) = 0)
    (h : C β * u - C c * derivative (derivative u)
      = 0 + C τ₁ * Chebyshev.T ℝ (n - 2 : ℕ) + C τ₂ * Chebyshev.T ℝ (n - 1 : ℕ)) : u = 0 := by
  obtain ⟨p, hp⟩ := factor_bc h1 h2
  have hdu : (derivative u).degree < n := lt_of_le_of_lt degree_derivative_le hu
  have hdp : p.degree < (n - 3 : ℕ) := by
    by_cases hp0 : p = 0
    · rw [hp0, degree_zero]; exact WithBot.bot_lt_coe _
    have hu0 : u.natDegree ≠ 0 := fun h0 => by
      have := derivative_of_natDegree_zero h0
      rw [hp] at this
      rcases mul_eq_zero.mp this with h | h
      · have := congrArg (eval 0) h
        simp at this
      · exact hp0 h
    have h3 := natDegree_derivative_lt hu0
    have hune : u ≠ 0 := fun h => hu0 (by rw [h, natDegree_zero])
    rw [← natDegree_lt_iff_degree_lt hune] at hu
    have hX : (1 - X ^ 2 : ℝ[X]).natDegree = 2 := by
      have : (1 - X ^ 2 : ℝ[X]) = - (X ^ 2 - C 1) := by simp
      rw [this, natDegree_neg, natDegree_X_pow_sub_C]
    have hX0 : (1 - X ^ 2 : ℝ[X]) ≠ 0 := fun h => by rw [h, natDegree_zero] at hX; omega
    rw [hp, natDegree_mul hX0 hp0, hX] at h3
    rw [← natDegree_lt_iff_degree_lt hp0]
    omega
  have hder := congrArg derivative h
  simp only [derivative_sub, derivative_add, derivative_C_mul, derivative_zero, zero_add] at hder
  have e1 : wInt ((1 - X ^ 2) * (derivative (Chebyshev.T ℝ (n - 2 : ℕ)) * p)) = 0 := by
    have := wInt_dT_mul (m := n - 3) hdp
    rwa [show n - 3 + 1 = n - 2 by omega] at this
  have e2 : wInt ((1 - X ^ 2) * (derivative (Chebyshev.T ℝ (n - 1 : ℕ)) * p)) = 0 := by
    have := wInt_dT_mul (m := n - 2) (lt_trans hdp (by exact_mod_cast (by omega : n - 3 < n - 2)))
    rwa [show n - 2 + 1 = n - 1 by omega] at this
  have ht := congrArg (fun r => wInt ((1 - X ^ 2) * (r * p))) hder
  rw [show (1 - X ^ 2) * ((C β * derivative u - C c * derivative (derivative (derivative u))) * p)
      = C β * ((1 - X ^ 2) * p * derivative u)
        - C c * ((1 - X ^ 2) * p * derivative (derivative (derivative u))) by ring,
    show (1 - X ^ 2) * ((C τ₁ * derivative (Chebyshev.T ℝ (n - 2 : ℕ))
        + C τ₂ * derivative (Chebyshev.T ℝ (n - 1 : ℕ))) * p)
      = C τ₁ * ((1 - X ^ 2) * (derivative (Chebyshev.T ℝ (n - 2 : ℕ)) * p))
        + C τ₂ * ((1 - X ^ 2) * (derivative (Chebyshev.T ℝ (n - 1 : ℕ)) * p)) by ring,
    wInt_sub, wInt_add, wInt_C_mul, wInt_C_mul, wInt_C_mul, wInt_C_mul, e1, e2, hp,
    show (1 - X ^ 2) * p * ((1 - X ^ 2) * p) = ((1 - X ^ 2) * p) ^ 2 by ring] at ht
  have h3 := wInt_coercive_le p
  have h4 := wInt_sq_nonneg p
  have h5 := wInt_sq_nonneg ((1 - X ^ 2) * p)
  have h6 : β * wInt (((1 - X ^ 2) * p) ^ 2) ≤ 0 := by
    have := mul_nonneg hc (show 0 ≤ - wInt ((1 - X ^ 2) * p * derivative (derivative ((1 - X ^ 2) * p))) by linarith)
    linarith
  have h7 : wInt (((1 - X ^ 2) * p) ^ 2) = 0 :=
    le_antisymm (by by_contra hlt; push Not at hlt; have := mul_pos hβ hlt; linarith) h5
  have hd0 : derivative u = 0 := by rw [hp]; exact wInt_sq_zero h7
  have hconst := eq_C_of_derivative_eq_zero hd0
  rw [hd0, derivative_zero, mul_zero, sub_zero, zero_add] at h
  have e3 : wInt (Chebyshev.T ℝ (n - 2 : ℕ) * 1) = 0 := wInt_T_mul (by
    rw [degree_one]; exact_mod_cast (by omega : 0 < n - 2))
  have e4 : wInt (Chebyshev.T ℝ (n - 1 : ℕ) * 1) = 0 := wInt_T_mul (by
    rw [degree_one]; exact_mod_cast (by omega : 0 < n - 1))
  rw [mul_one] at e3 e4
  have h8 := congrArg wInt h
  rw [wInt_add, wInt_C_mul, wInt_C_mul, wInt_C_mul, e3, e4, mul_zero, mul_zero, add_zero] at h8
  have h9 := (mul_eq_zero.mp h8).resolve_left hβ.ne'
  rw [hconst] at h9 ⊢
  have : wInt (C (u.coeff 0)) = u.coeff 0 * Real.pi := by
    unfold wInt; simp [mul_comm]
  rw [this] at h9
  rw [(mul_eq_zero.mp h9).resolve_right Real.pi_pos.ne', C_0]

/-- Cauchy–Schwarz -/
theorem cauchy_schwarz {g h : ℝ → ℝ} (hg : Continuous g) (hh : Continuous h) :
    (∫ θ in (0 : ℝ)..Real.pi, g θ * h θ) ^ 2
      ≤ (∫ θ in (0 : ℝ)..Real.pi, g θ ^ 2) * ∫ θ in (0 : ℝ)..Real.pi, h θ ^ 2 := by
  have hd : ∀ t : ℝ, 0 ≤ (∫ θ in (0 : ℝ)..Real.pi, h θ ^ 2) * (t * t)
      + (2 * ∫ θ in (0 : ℝ)..Real.pi, g θ * h θ) * t + ∫ θ in (0 : ℝ)..Real.pi, g θ ^ 2 := by
    intro t
    have h0 : 0 ≤ ∫ θ in (0 : ℝ)..Real.pi, (g θ + t * h θ) ^ 2 :=
      intervalIntegral.integral_nonneg Real.pi_pos.le (fun θ _ => sq_nonneg _)
    have e : (fun θ => (g θ + t * h θ) ^ 2) = fun θ => g θ ^ 2 + (2 * t * (g θ * h θ) + t ^ 2 * h θ ^ 2) := by
      funext θ; ring
    rw [e, intervalIntegral.integral_add ((by fun_prop : Continuous _).intervalIntegrable _ _)
      ((by fun_prop : Continuous _).intervalIntegrable _ _),
      intervalIntegral.integral_add ((by fun_prop : Continuous _).intervalIntegrable _ _)
      ((by fun_prop : Continuous _).intervalIntegrable _ _),
      intervalIntegral.integral_const_mul, intervalIntegral.integral_const_mul] at h0
    linarith
  have := discrim_le_zero hd
  unfold discrim at this
  linarith

/-- pointwise values of a function vanishing at both ends are bounded by its second derivative -/
theorem dirichlet_sup {u : ℝ[X]} (h1 : u.eval 1 = 0) (h2 : u.eval (-1) = 0) {y : ℝ} (hy1 : -1 ≤ y)
    (hy2 : y ≤ 1) : 8 * u.eval y ^ 2 ≤ Real.pi * wInt (derivative (derivative u) ^ 2) := by
  set w := derivative (derivative u) with hw
  set k : ℝ → ℝ := fun θ => Real.sin θ * min ((1 + y) * (1 - Real.cos θ)) ((1 - y) * (1 + Real.cos θ)) with hk
  have hkc : Continuous k := by
    rw [hk]; fun_prop
  have hwc : Continuous (fun θ => w.eval (Real.cos θ)) := w.continuous.comp Real.continuous_cos
  set φ := Real.arccos y with hφ
  have hcφ : Real.cos φ = y := Real.cos_arccos hy1 hy2
  have hφ0 : 0 ≤ φ := Real.arccos_nonneg y
  have hφp : φ ≤ Real.pi := Real.arccos_le_pi y
  have hint : ∀ G : ℝ[X], ∀ a b : ℝ, ∫ θ in a..b, Real.sin θ * (derivative G).eval (Real.cos θ)
      = G.eval (Real.cos a) - G.eval (Real.cos b) := by
    intro G a b
    have hd : ∀ θ : ℝ, HasDerivAt (fun θ => - G.eval (Real.cos θ))
        (Real.sin θ * (derivative G).eval (Real.cos θ)) θ := fun θ => by
      have := ((G.hasDerivAt (Real.cos θ)).comp θ (Real.hasDerivAt_cos θ)).neg
      refine this.congr_deriv ?_
      ring
    have hcont : Continuous (fun θ => Real.sin θ * (derivative G).eval (Real.cos θ)) :=
      Real.continuous_sin.mul ((derivative G).continuous.comp Real.continuous_cos)
    rw [intervalIntegral.integral_eq_sub_of_hasDerivAt (fun θ _ => hd θ) (hcont.intervalIntegrable _ _)]
    ring
  have hB : ∫ θ in (0 : ℝ)..Real.pi, k θ * w.eval (Real.cos θ) = - 2 * u.eval y := by
    rw [← intervalIntegral.integral_add_adjacent_intervals (b := φ)
      (f := fun θ => k θ * w.eval (Real.cos θ))
      ((hkc.mul hwc).intervalIntegrable _ _) ((hkc.mul hwc).intervalIntegrable _ _)]
    have e1 : ∫ θ in (0 : ℝ)..φ, k θ * w.eval (Real.cos θ)
        = (1 + y) * (- ((1 - y) * (derivative u).eval y + u.eval y)) := by
      have hd : derivative ((1 - X) * derivative u + u) = (1 - X) * w := by
        simp only [derivative_add, derivative_mul, derivative_sub, derivative_one, derivative_X, zero_sub]
        rw [hw]; ring
      have := hint ((1 - X) * derivative u + u) 0 φ
      rw [hd, hcφ, Real.cos_zero] at this
      simp only [eval_add, eval_mul, eval_sub, eval_one, eval_X, sub_self, zero_mul, h1, add_zero, zero_sub] at this
      rw [← this, ← intervalIntegral.integral_const_mul]
      refine intervalIntegral.integral_congr (fun θ hθ => ?_)
      rw [Set.uIcc_of_le hφ0] at hθ
      have hc : y ≤ Real.cos θ := by
        rw [← hcφ]; exact Real.cos_le_cos_of_nonneg_of_le_pi hθ.1 hφp hθ.2
      simp only [hk]
      rw [min_eq_left (by nlinarith)]
      ring
    have e2 : ∫ θ in φ..Real.pi, k θ * w.eval (Real.cos θ)
        = (1 - y) * ((1 + y) * (derivative u).eval y - u.eval y) := by
      have hd : derivative ((1 + X) * derivative u - u) = (1 + X) * w := by
        simp only [derivative_add, derivative_mul, derivative_sub, derivative_one, derivative_X, zero_add]
        rw [hw]; ring
      have := hint ((1 + X) * derivative u - u) φ Real.pi
      rw [hd, hcφ, Real.cos_pi] at this
      simp only [eval_add, eval_mul, eval_sub, eval_one, eval_X, h2, add_neg_cancel, zero_mul, sub_zero] at this
      rw [← this, ← intervalIntegral.integral_const_mul]
      refine intervalIntegral.integral_congr (fun θ hθ => ?_)
      rw [Set.uIcc_of_le hφp] at hθ
      have hc : Real.cos θ ≤ y := by
        rw [← hcφ]; exact Real.cos_le_cos_of_nonneg_of_le_pi hφ0 hθ.2 hθ.1
      simp only [hk]
      rw [min_eq_right (by nlinarith)]
      ring
    rw [e1, e2]; ring
  have hcs := cauchy_schwarz hkc hwc
  rw [hB] at hcs
  have hk2 : ∫ θ in (0 : ℝ)..Real.pi, k θ ^ 2 ≤ Real.pi / 2 := by
    have hs : ∫ θ in (0 : ℝ)..Real.pi, Real.sin θ ^ 2 = Real.pi / 2 := by
      rw [integral_sin_sq]; simp
    rw [← hs]
    refine intervalIntegral.integral_mono_on Real.pi_pos.le ((hkc.pow 2).intervalIntegrable _ _)
      ((Real.continuous_sin.pow 2).intervalIntegrable _ _) (fun θ _ => ?_)
    have hc1 := Real.neg_one_le_cos θ
    have hc2 := Real.cos_le_one θ
    simp only [hk]
    rw [mul_pow]
    have hm0 : 0 ≤ min ((1 + y) * (1 - Real.cos θ)) ((1 - y) * (1 + Real.cos θ)) :=
      le_min (mul_nonneg (by linarith) (by linarith)) (mul_nonneg (by linarith) (by linarith))
    have hm1 : min ((1 + y) * (1 - Real.cos θ)) ((1 - y) * (1 + Real.cos θ)) ≤ 1 := by
      rcases le_total y (Real.cos θ) with h | h
      · exact (min_le_left _ _).trans (by nlinarith [sq_nonneg y])
      · exact (min_le_right _ _).trans (by nlinarith [sq_nonneg y])
    exact mul_le_of_le_one_right (sq_nonneg _) (pow_le_one₀ hm0 hm1)
  have hw2 : wInt (w ^ 2) = ∫ θ in (0 : ℝ)..Real.pi, w.eval (Real.cos θ) ^ 2 := by
    unfold wInt; simp only [eval_pow]
  rw [← hw2] at hcs
  have := mul_le_mul_of_nonneg_right hk2 (wInt_sq_nonneg w)
  nlinarith

theorem wInt_sq_le {f : ℝ[X]} {M : ℝ} (h : ∀ x, -1 ≤ x → x ≤ 1 → |f.eval x| ≤ M) :
    wInt (f ^ 2) ≤ Real.pi * M ^ 2 := by
  have : 0 ≤ wInt (C (M ^ 2) - f ^ 2) := wInt_nonneg (fun x h1 h2 => by
    simp only [eval_sub, eval_C, eval_pow]
    have := sq_le_sq' (by linarith [abs_nonneg (f.eval x), h x h1 h2, neg_abs_le (f.eval x)])
      ((le_abs_self _).trans (h x h1 h2))
    linarith)
  rw [wInt_sub] at this
  have e : wInt (C (M ^ 2)) = Real.pi * M ^ 2 := by unfold wInt; simp
  linarith

end Verif
