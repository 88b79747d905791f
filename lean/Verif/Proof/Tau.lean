/-
The Chebyshev tau form of the systems built from `stencil` and `laplacian_pinv`: orthogonality,
integration by parts and coercivity in the Chebyshev weight.
-/
import Verif.Spec.Tau
import Verif.Proof.Poisson
import Mathlib.Analysis.SpecialFunctions.Integrals.Basic
import Mathlib.Analysis.SpecialFunctions.Trigonometric.Chebyshev.Orthogonality
import Mathlib.Topology.Algebra.Polynomial

namespace Verif
open Res Spec Finset Props Polynomial

theorem wInt_int (p : ℝ[X]) : IntervalIntegrable (fun θ => p.eval (Real.cos θ)) MeasureTheory.volume 0 Real.pi :=
  (p.continuous.comp Real.continuous_cos).intervalIntegrable _ _

theorem wInt_add (p q : ℝ[X]) : wInt (p + q) = wInt p + wInt q := by
  unfold wInt
  simp only [eval_add]
  exact intervalIntegral.integral_add (wInt_int p) (wInt_int q)

theorem wInt_sub (p q : ℝ[X]) : wInt (p - q) = wInt p - wInt q := by
  unfold wInt
  simp only [eval_sub]
  exact intervalIntegral.integral_sub (wInt_int p) (wInt_int q)

theorem wInt_C_mul (c : ℝ) (p : ℝ[X]) : wInt (C c * p) = c * wInt p := by
  unfold wInt
  simp only [eval_mul, eval_C]
  exact intervalIntegral.integral_const_mul _ _

theorem wInt_zero : wInt 0 = 0 := by simp [wInt]

theorem wInt_neg (p : ℝ[X]) : wInt (-p) = - wInt p := by
  rw [← zero_sub, wInt_sub, wInt_zero, zero_sub]

theorem wInt_sum {ι : Type} (s : Finset ι) (f : ι → ℝ[X]) : wInt (∑ i ∈ s, f i) = ∑ i ∈ s, wInt (f i) := by
  classical
  induction s using Finset.induction_on with
  | empty => simp [wInt_zero]
  | insert a s ha ih => rw [Finset.sum_insert ha, Finset.sum_insert ha, wInt_add, ih]

theorem wInt_TT {m k : ℕ} (h : m ≠ k) : wInt (Chebyshev.T ℝ m * Chebyshev.T ℝ k) = 0 := by
  have := Chebyshev.integral_eval_T_real_mul_eval_T_real_measureT_of_ne h
  rw [Chebyshev.integral_measureT_eq_integral_cos] at this
  unfold wInt
  simp only [eval_mul]
  exact this

/-- `T_m` is orthogonal to polynomials of lower degree -/
theorem wInt_T_mul {m : ℕ} {R : ℝ[X]} (h : R.degree < m) : wInt (Chebyshev.T ℝ m * R) = 0 := by
  rcases Nat.lt_or_ge m 2 with h2 | h2
  · rcases m with _ | m
    · have : R = 0 := by
        rw [← degree_eq_bot]
        exact Nat.WithBot.lt_zero_iff.mp (by exact_mod_cast h)
      rw [this, mul_zero, wInt_zero]
    · obtain rfl : m = 0 := by omega
      have : R = C (R.coeff 0) := eq_C_of_degree_le_zero (by
        exact Nat.WithBot.lt_one_iff_le_zero.mp (by exact_mod_cast h))
      rw [this, mul_comm, wInt_C_mul]
      have := wInt_TT (m := 1) (k := 0) (by omega)
      simp only [Nat.cast_zero, Chebyshev.T_zero, mul_one] at this
      simp only [zero_add]
      rw [this, mul_zero]
  · obtain ⟨a, hal, rfl⟩ := cheb_coeffs h2 R h
    unfold chebPoly
    rw [Finset.mul_sum, wInt_sum]
    refine Finset.sum_eq_zero (fun i hi => ?_)
    have hi' := Finset.mem_range.mp hi
    rw [show Chebyshev.T ℝ m * (C (nth a i) * Chebyshev.T ℝ i)
      = C (nth a i) * (Chebyshev.T ℝ m * Chebyshev.T ℝ i) by ring, wInt_C_mul, wInt_TT (by omega), mul_zero]

/-- integration by parts -/
theorem wInt_parts (g : ℝ[X]) : wInt ((1 - X ^ 2) * derivative g) = wInt (X * g) := by
  have hd : ∀ θ : ℝ, HasDerivAt (fun θ => Real.sin θ * g.eval (Real.cos θ))
      ((X * g - (1 - X ^ 2) * derivative g).eval (Real.cos θ)) θ := fun θ => by
    have h1 := (Real.hasDerivAt_sin θ).mul ((g.hasDerivAt (Real.cos θ)).comp θ (Real.hasDerivAt_cos θ))
    refine h1.congr_deriv ?_
    simp only [eval_sub, eval_mul, eval_X, eval_one, eval_pow, Function.comp]
    have := Real.sin_sq θ
    rw [← this]; ring
  have := intervalIntegral.integral_eq_sub_of_hasDerivAt (a := 0) (b := Real.pi) (fun θ _ => hd θ)
    (wInt_int _)
  simp only [Real.sin_zero, Real.sin_pi, zero_mul, sub_self] at this
  have h2 : wInt (X * g - (1 - X ^ 2) * derivative g) = 0 := this
  rw [wInt_sub] at h2
  linarith

theorem wInt_nonneg {p : ℝ[X]} (h : ∀ x, -1 ≤ x → x ≤ 1 → 0 ≤ p.eval x) : 0 ≤ wInt p :=
  intervalIntegral.integral_nonneg Real.pi_pos.le
    (fun θ _ => h _ (Real.neg_one_le_cos θ) (Real.cos_le_one θ))

theorem wInt_sq_nonneg (p : ℝ[X]) : 0 ≤ wInt (p ^ 2) :=
  wInt_nonneg (fun x _ _ => by rw [eval_pow]; positivity)

theorem wInt_sq_zero {p : ℝ[X]} (h : wInt (p ^ 2) = 0) : p = 0 := by
  by_contra hp
  have hc : ∃ c ∈ Set.Icc (0 : ℝ) Real.pi, 0 < (p ^ 2).eval (Real.cos c) := by
    by_contra hno
    push Not at hno
    refine hp (eq_zero_of_infinite_isRoot p (Set.Infinite.mono ?_ (Set.Icc_infinite (show (-1 : ℝ) < 1 by norm_num))))
    intro x hx
    have := hno (Real.arccos x) ⟨Real.arccos_nonneg x, Real.arccos_le_pi x⟩
    rw [Real.cos_arccos hx.1 hx.2, eval_pow] at this
    show p.eval x = 0
    exact pow_eq_zero_iff (two_ne_zero) |>.mp (le_antisymm this (sq_nonneg _))
  have : 0 < wInt (p ^ 2) := by
    refine intervalIntegral.integral_pos Real.pi_pos
      (((p ^ 2).continuous.comp Real.continuous_cos).continuousOn) (fun θ _ => ?_) hc
    rw [eval_pow]; positivity
  linarith

/-- coercivity of the second derivative for functions vanishing at both ends -/
theorem wInt_coercive (q : ℝ[X]) :
    wInt ((1 - X ^ 2) * q * derivative (derivative ((1 - X ^ 2) * q)))
      = - (wInt (q ^ 2) / 2 + wInt ((1 - X ^ 2) * q ^ 2) + wInt (((1 - X ^ 2) * derivative q) ^ 2)) := by
  have e1 := wInt_parts (q * derivative ((1 - X ^ 2) * q))
  have e2 := wInt_parts (X * q ^ 2)
  have d1 : derivative ((1 - X ^ 2) * q) = (1 - X ^ 2) * derivative q - C 2 * (X * q) := by
    simp only [derivative_mul, derivative_sub, derivative_one, derivative_X_pow, zero_sub]
    simp; ring
  have d2 : derivative (X * q ^ 2) = q ^ 2 + C 2 * (X * q * derivative q) := by
    simp only [derivative_mul, derivative_X, one_mul, derivative_pow]
    simp; ring
  rw [derivative_mul] at e1
  have a1 : (1 - X ^ 2) * (derivative q * derivative ((1 - X ^ 2) * q) + q * derivative (derivative ((1 - X ^ 2) * q)))
      = (((1 - X ^ 2) * derivative q) ^ 2 - C 2 * (X * (1 - X ^ 2) * q * derivative q))
        + (1 - X ^ 2) * q * derivative (derivative ((1 - X ^ 2) * q)) := by
    rw [show derivative q * derivative ((1 - X ^ 2) * q)
      = derivative q * ((1 - X ^ 2) * derivative q - C 2 * (X * q)) by rw [d1]]
    ring
  have a2 : X * (q * derivative ((1 - X ^ 2) * q)) = X * (1 - X ^ 2) * q * derivative q
      - C 2 * (X ^ 2 * q ^ 2) := by rw [d1]; ring
  rw [a1, a2, wInt_add, wInt_sub, wInt_sub, wInt_C_mul, wInt_C_mul] at e1
  have a3 : (1 - X ^ 2) * derivative (X * q ^ 2) = (1 - X ^ 2) * q ^ 2
      + C 2 * (X * (1 - X ^ 2) * q * derivative q) := by rw [d2]; ring
  have a4 : X * (X * q ^ 2) = X ^ 2 * q ^ 2 := by ring
  rw [a3, a4, wInt_add, wInt_C_mul] at e2
  have a5 : wInt (X ^ 2 * q ^ 2) = wInt (q ^ 2) - wInt ((1 - X ^ 2) * q ^ 2) := by
    rw [← wInt_sub]; congr 1; ring
  linarith

theorem wInt_coercive_le (q : ℝ[X]) :
    wInt ((1 - X ^ 2) * q * derivative (derivative ((1 - X ^ 2) * q))) ≤ - (wInt (q ^ 2) / 2) := by
  rw [wInt_coercive]
  have h1 : 0 ≤ wInt ((1 - X ^ 2) * q ^ 2) := wInt_nonneg (fun x h1 h2 => by
    simp only [eval_mul, eval_sub, eval_one, eval_pow, eval_X]
    exact mul_nonneg (by nlinarith) (sq_nonneg _))
  have h2 := wInt_sq_nonneg ((1 - X ^ 2) * derivative q)
  linarith

/-- derivatives of `T_m` are orthogonal, in the weight `√(1 - x²)`, to polynomials of lower degree -/
theorem wInt_dT_mul {m : ℕ} {R : ℝ[X]} (h : R.degree < m) :
    wInt ((1 - X ^ 2) * (derivative (Chebyshev.T ℝ (m + 1 : ℕ)) * R)) = 0 := by
  have e := wInt_parts (Chebyshev.T ℝ (m + 1 : ℕ) * R)
  rw [derivative_mul, mul_add, wInt_add] at e
  have h1 : wInt (X * (Chebyshev.T ℝ (m + 1 : ℕ) * R)) = 0 := by
    rw [show X * (Chebyshev.T ℝ (m + 1 : ℕ) * R) = Chebyshev.T ℝ (m + 1 : ℕ) * (X * R) by ring]
    refine wInt_T_mul ?_
    by_cases h0 : R = 0
    · rw [h0, mul_zero, degree_zero]; exact WithBot.bot_lt_coe _
    rw [← natDegree_lt_iff_degree_lt h0] at h
    rw [← natDegree_lt_iff_degree_lt (mul_ne_zero X_ne_zero h0), natDegree_X_mul h0]; omega
  have h2 : wInt ((1 - X ^ 2) * (Chebyshev.T ℝ (m + 1 : ℕ) * derivative R)) = 0 := by
    rw [show (1 - X ^ 2) * (Chebyshev.T ℝ (m + 1 : ℕ) * derivative R)
      = Chebyshev.T ℝ (m + 1 : ℕ) * ((1 - X ^ 2) * derivative R) by ring]
    refine wInt_T_mul ?_
    by_cases h0 : derivative R = 0
    · rw [h0, mul_zero, degree_zero]; exact WithBot.bot_lt_coe _
    have hR : R ≠ 0 := fun h => h0 (by rw [h, derivative_zero])
    rw [← natDegree_lt_iff_degree_lt hR] at h
    have hd : R.natDegree ≠ 0 := fun h => h0 (derivative_of_natDegree_zero h)
    have h3 := natDegree_derivative_lt hd
    refine lt_of_le_of_lt degree_le_natDegree ?_
    have h4 : (1 - X ^ 2 : ℝ[X]).natDegree ≤ 2 := by compute_degree
    have h5 := natDegree_mul_le (p := (1 - X ^ 2 : ℝ[X])) (q := derivative R)
    exact_mod_cast (by omega : ((1 - X ^ 2) * derivative R).natDegree < m + 1)
  linarith

/-- polynomials that vanish at `-1` and `1` -/
theorem factor_bc {u : ℝ[X]} (h1 : u.eval 1 = 0) (h2 : u.eval (-1) = 0) :
    ∃ q, u = (1 - X ^ 2) * q := by
  obtain ⟨r, rfl⟩ := dvd_iff_isRoot.mpr (show u.IsRoot 1 from h1)
  have h3 : r.eval (-1) = 0 := by
    simp only [eval_mul, eval_sub, eval_X, eval_C] at h2
    rcases mul_eq_zero.mp h2 with h | h
    · norm_num at h
    · exact h
  obtain ⟨s, rfl⟩ := dvd_iff_isRoot.mpr (show r.IsRoot (-1) from h3)
  refine ⟨-s, ?_⟩
  simp only [map_one, map_neg]
  ring

/-- the last two columns of the pseudo-inverse vanish -/
theorem pinv_cut (o : Mode) {n : ℕ} (hn4 : 4 ≤ n) (hm : n ≤ 2642246) {P I : Mat ℝ}
    (h : (⟨n, n⟩ : Cheb).laplacianPinv ℝ o = ok (P, I)) :
    ∀ i < n, ∀ j < n, n - 2 ≤ j → P.get i j = 0 := by
  obtain ⟨P', hP, p1, p2, p3⟩ := wp_total.mp (wp_pinv (K := ℝ) o (k := 2) (by omega) (by omega) (by omega)
    (by simp only [pinvMax]; omega))
  have hPP : P = P' := by
    have h' : (⟨n, n⟩ : Cheb).diffmatPinv ℝ o 2 = ok (P, I) := h
    unfold Cheb.diffmatPinv assertR at h'
    rw [if_pos (by omega)] at h'
    simp only [bind_ok] at h'
    rw [hP] at h'
    simp only [bind_ok] at h'
    unfold pinvEye assertR at h'
    rw [if_pos (by omega)] at h'
    simp only [bind_ok] at h'
    exact (Prod.mk.inj (Res.ok.inj h')).1.symm
  intro i hi j hj hj2
  rw [hPP, p3 i hi j hj]
  unfold pTrue
  refine Finset.sum_eq_zero (fun s _ => ?_)
  rw [if_neg (by omega)]

/-- the preconditioned system says that all but the two highest coefficients of the residual vanish -/
theorem Lap2.tau {n : ℕ} {P I : Mat ℝ} (hL : Lap2 n P I) (hn : 4 ≤ n)
    (hcut : ∀ i < n, ∀ j < n, n - 2 ≤ j → P.get i j = 0) (β c : ℝ) {u f : List ℝ} (hu : u.length = n)
    (hf : f.length = n) :
    (∀ i < n - 2, β * nth (mulVec (matMul I P) u) i - c * nth (u.drop 2) i
        = nth (mulVec (matMul I P) f) i) ↔
      ∃ τ₁ τ₂ : ℝ, C β * chebPoly ℝ u - C c * derivative (derivative (chebPoly ℝ u))
        = chebPoly ℝ f + C τ₁ * Chebyshev.T ℝ (n - 2 : ℕ) + C τ₂ * Chebyshev.T ℝ (n - 1 : ℕ) := by
  obtain ⟨m, rfl⟩ : ∃ m, n = m + 2 := ⟨n - 2, by omega⟩
  simp only [Nat.add_sub_cancel, show m + 2 - 1 = m + 1 by omega] at *
  obtain ⟨g, hgl, hg⟩ := cheb_coeffs (n := m + 2) (by omega) (chebPoly ℝ u).derivative.derivative (by
    have h1 := chebPoly_degree u
    rw [hu] at h1
    exact lt_of_le_of_lt (le_trans (degree_derivative_le) degree_derivative_le) h1)
  have hk := hL.key u g hu hgl hg
  set r : List ℝ := (List.range (m + 2)).map (fun j => β * nth u j - c * nth g j - nth f j) with hr
  have hrn : ∀ j < m + 2, nth r j = β * nth u j - c * nth g j - nth f j := fun j hj => by
    rw [hr, nth_map_range _ _ _ hj]
  have hrl : r.length = m + 2 := by simp [hr]
  have hrp : chebPoly ℝ r = C β * chebPoly ℝ u - C c * derivative (derivative (chebPoly ℝ u))
      - chebPoly ℝ f := by
    rw [← hg]
    unfold chebPoly
    rw [hrl, hu, hgl, hf, Finset.mul_sum, Finset.mul_sum, ← Finset.sum_sub_distrib,
      ← Finset.sum_sub_distrib]
    refine Finset.sum_congr rfl (fun j hj => ?_)
    rw [hrn j (Finset.mem_range.mp hj)]
    simp only [C_sub, C_mul]
    ring
  set r' : List ℝ := (List.range (m + 2)).map (fun j => if j < m then nth r j else 0) with hr'
  have hrl' : r'.length = m + 2 := by simp [hr']
  have hrn' : ∀ j < m + 2, nth r' j = if j < m then nth r j else 0 := fun j hj => by
    rw [hr', nth_map_range _ _ _ hj]
  have hIP : (matMul I P).rows = m ∧ (matMul I P).cols = m + 2 := ⟨hL.irow, hL.pcol⟩
  have hzero : ∀ i < m, ∀ j < m + 2, m ≤ j → (matMul I P).get i j = 0 := fun i hi j hj hj2 => by
    show ∑ k ∈ range I.cols, I.get i k * P.get k j = 0
    rw [hL.icol]
    exact Finset.sum_eq_zero (fun k hk => by rw [hcut k (Finset.mem_range.mp hk) j hj hj2, mul_zero])
  have hlin : ∀ i < m, nth (mulVec (matMul I P) r') i
      = β * nth (mulVec (matMul I P) u) i - c * nth (u.drop 2) i - nth (mulVec (matMul I P) f) i := by
    intro i hi
    rw [← hk, nth_mulVec _ _ (by rw [hIP.1]; exact hi), nth_mulVec _ _ (by rw [hIP.1]; exact hi),
      nth_mulVec _ _ (by rw [hIP.1]; exact hi), nth_mulVec _ _ (by rw [hIP.1]; exact hi), hIP.2,
      Finset.mul_sum, Finset.mul_sum, ← Finset.sum_sub_distrib, ← Finset.sum_sub_distrib]
    refine Finset.sum_congr rfl (fun j hj => ?_)
    have hj' := Finset.mem_range.mp hj
    rw [hrn' j hj', hrn j hj']
    by_cases hjm : j < m
    · rw [if_pos hjm]; simp only [smul_eq_mul]; ring
    · rw [hzero i hi j hj' (by omega)]; simp
  have hz0 : ∀ i, nth (List.replicate (m + 2) (0 : ℝ)) i = 0 := fun i => by
    unfold nth; rw [List.getD_eq_getElem?_getD, List.getElem?_replicate]; split <;> rfl
  have hzp : chebPoly ℝ (List.replicate (m + 2) 0) = 0 := by
    unfold chebPoly
    exact Finset.sum_eq_zero (fun i hi => by rw [hz0]; simp)
  have hiff := hL.iff (by omega) (a := List.replicate (m + 2) 0) (f := r') (by simp) hrl'
    (by simp only [Nat.add_sub_cancel]; rw [hrn' m (by omega), if_neg (by omega)])
    (by rw [show m + 2 - 1 = m + 1 by omega, hrn' (m + 1) (by omega), if_neg (by omega)])
  rw [hzp, derivative_zero, derivative_zero] at hiff
  have hsys : (∀ i < m, β * nth (mulVec (matMul I P) u) i - c * nth (u.drop 2) i
        = nth (mulVec (matMul I P) f) i) ↔ chebPoly ℝ r' = 0 := by
    rw [eq_comm (a := chebPoly ℝ r'), hiff]
    constructor
    · intro h
      refine ext_nth (by simp [hIP.1]) (fun i hi => ?_)
      have hi' : i < m := by simpa using hi
      rw [hlin i hi', h i hi', sub_self, List.drop_replicate]
      unfold nth; rw [List.getD_eq_getElem?_getD, List.getElem?_replicate]; split <;> rfl
    · intro h i hi
      have := hlin i hi
      rw [← h] at this
      rw [List.drop_replicate] at this
      have h0 : nth (List.replicate (m + 2 - 2) (0 : ℝ)) i = 0 := by
        unfold nth; rw [List.getD_eq_getElem?_getD, List.getElem?_replicate]; split <;> rfl
      rw [h0] at this
      linarith
  have hsplit : chebPoly ℝ r = chebPoly ℝ r' + C (nth r m) * Chebyshev.T ℝ (m : ℕ)
      + C (nth r (m + 1)) * Chebyshev.T ℝ (m + 1 : ℕ) := by
    unfold chebPoly
    rw [hrl, hrl', Finset.sum_range_succ, Finset.sum_range_succ, Finset.sum_range_succ,
      Finset.sum_range_succ, hrn' m (by omega), hrn' (m + 1) (by omega), if_neg (by omega),
      if_neg (by omega)]
    simp only [C_0, zero_mul, add_zero]
    congr 2
    refine Finset.sum_congr rfl (fun j hj => ?_)
    have := Finset.mem_range.mp hj
    rw [hrn' j (by omega), if_pos this]
  rw [hsys]
  constructor
  · intro h
    refine ⟨nth r m, nth r (m + 1), ?_⟩
    rw [h, zero_add] at hsplit
    rw [hrp] at hsplit
    rw [add_assoc, ← hsplit]; ring
  · rintro ⟨τ₁, τ₂, h⟩
    set t : List ℝ := (List.range (m + 2)).map (fun j => if j < m then 0 else if j = m then τ₁ else τ₂) with ht
    have htn : ∀ j < m + 2, nth t j = if j < m then 0 else if j = m then τ₁ else τ₂ := fun j hj => by
      rw [ht, nth_map_range _ _ _ hj]
    have htp : chebPoly ℝ t = C τ₁ * Chebyshev.T ℝ (m : ℕ) + C τ₂ * Chebyshev.T ℝ (m + 1 : ℕ) := by
      unfold chebPoly
      rw [show t.length = m + 2 by simp [ht], Finset.sum_range_succ, Finset.sum_range_succ, htn m (by omega),
        htn (m + 1) (by omega), if_neg (by omega), if_pos rfl, if_neg (by omega), if_neg (by omega),
        Finset.sum_eq_zero (fun j hj => by
          have := Finset.mem_range.mp hj
          rw [htn j (by omega), if_pos this, C_0, zero_mul]), zero_add]
    have : r = t := chebPoly_ext (by simp [hrl, ht]) (by rw [hrp, htp, h]; ring)
    have hr0 : r' = List.replicate (m + 2) 0 := by
      refine ext_nth (by simp [hrl']) (fun i hi => ?_)
      rw [hrl'] at hi
      rw [hrn' i hi, hz0]
      by_cases him : i < m
      · rw [if_pos him, this, htn i hi, if_pos him]
      · rw [if_neg him]
    rw [hr0, hzp]

/-- an injective square system is solvable -/
theorem square_solvable {m : ℕ} (A : ℕ → ℕ → ℝ)
    (hinj : ∀ x : List ℝ, x.length = m → (∀ i < m, ∑ j ∈ range m, A i j * nth x j = 0) →
      x = List.replicate m 0) (y : ℕ → ℝ) :
    ∃ x : List ℝ, x.length = m ∧ ∀ i < m, ∑ j ∈ range m, A i j * nth x j = y i := by
  let M : Matrix (Fin m) (Fin m) ℝ := fun i j => A i j
  have hl : ∀ x : Fin m → ℝ, ∀ i : Fin m, M.mulVec x i = ∑ j ∈ range m, A i j * nth (List.ofFn x) j := by
    intro x i
    rw [Finset.sum_range]
    show ∑ j, M i j * x j = _
    refine Finset.sum_congr rfl (fun j _ => ?_)
    unfold nth
    rw [List.getD_eq_getElem?_getD, List.getElem?_ofFn]
    simp [M]
  have hM : Function.Injective M.mulVecLin := by
    rw [← LinearMap.ker_eq_bot, LinearMap.ker_eq_bot']
    intro x hx
    have h0 := hinj (List.ofFn x) (by simp) (fun i hi => by
      rw [← hl x ⟨i, hi⟩]; exact congrFun hx ⟨i, hi⟩)
    funext i
    have := congrArg (fun l => nth l i) h0
    unfold nth at this
    simpa [List.getD_eq_getElem?_getD, List.getElem?_ofFn, List.getElem?_replicate] using this
  obtain ⟨x, hx⟩ := LinearMap.injective_iff_surjective.mp hM (fun i => y i)
  refine ⟨List.ofFn x, by simp, fun i hi => ?_⟩
  rw [← hl x ⟨i, hi⟩]
  exact congrFun hx ⟨i, hi⟩

end Verif
