/-
The pseudo-inverse of the second derivative and the Poisson equation.
-/
import Verif.Props.Calculus

namespace Verif
open Res Spec Finset Props

theorem mulVec_matMul {T : Type} [AddCommGroup T] [Module ℝ T] (A B : Mat ℝ) (h : A.cols = B.rows)
    (v : List T) : mulVec (matMul A B) v = mulVec A (mulVec B v) := by
  refine ext_nth (by simp [matMul]) (fun i hi => ?_)
  have hi' : i < A.rows := by simpa [matMul] using hi
  rw [nth_mulVec _ _ (by exact hi'), nth_mulVec _ _ hi']
  have e : ∀ k ∈ range A.cols, A.get i k • nth (mulVec B v) k
      = ∑ j ∈ range B.cols, (A.get i k * B.get k j) • nth v j := fun k hk => by
    rw [nth_mulVec _ _ (by have := mem_range.mp hk; omega), Finset.smul_sum]
    exact Finset.sum_congr rfl (fun j _ => by rw [smul_smul])
  rw [Finset.sum_congr rfl e, Finset.sum_comm]
  exact Finset.sum_congr rfl (fun j _ => by rw [← Finset.sum_smul]; rfl)

theorem chebPoly_ext {a b : List ℝ} (hl : a.length = b.length) (h : chebPoly ℝ a = chebPoly ℝ b) :
    a = b :=
  chebVal_inj (K := ℝ) a b hl (fun x => by
    rw [chebVal_eq_chebDeriv, chebVal_eq_chebDeriv, chebDeriv_eq_eval, chebDeriv_eq_eval, h])

theorem cheb_coeffs {n : ℕ} (hn : 2 ≤ n) (p : Polynomial ℝ) (hp : p.degree < n) :
    ∃ a : List ℝ, a.length = n ∧ chebPoly ℝ a = p := by
  obtain ⟨x, a, -, -, hal, ha⟩ := cheb_forward_samples (cheb_new_ok hn) p hp (List.replicate n 0)
    (List.length_replicate ..)
  exact ⟨a, hal, ha⟩

/-- every polynomial has an antiderivative -/
theorem antideriv (p : Polynomial ℝ) (N : ℕ) (hp : p.degree < N) :
    ∃ F : Polynomial ℝ, F.degree < (N + 1 : ℕ) ∧ Polynomial.derivative F = p := by
  refine ⟨∑ i ∈ range N, Polynomial.C (p.coeff i / (i + 1)) * Polynomial.X ^ (i + 1), ?_, ?_⟩
  · refine lt_of_le_of_lt (Polynomial.degree_sum_le _ _) ?_
    rw [Finset.sup_lt_iff (by exact WithBot.bot_lt_coe _)]
    intro i hi
    refine lt_of_le_of_lt (Polynomial.degree_C_mul_X_pow_le _ _) ?_
    have := Finset.mem_range.mp hi
    exact_mod_cast (by omega : i + 1 < N + 1)
  · rw [Polynomial.derivative_sum]
    have e : ∀ i ∈ range N, Polynomial.derivative
        (Polynomial.C (p.coeff i / (i + 1)) * Polynomial.X ^ (i + 1))
        = Polynomial.C (p.coeff i) * Polynomial.X ^ i := fun i _ => by
      rw [Polynomial.derivative_C_mul_X_pow, Nat.add_sub_cancel]
      congr 2
      push_cast
      field_simp
    rw [Finset.sum_congr rfl e]
    by_cases h0 : p = 0
    · simp [h0]
    · exact (Polynomial.as_sum_range_C_mul_X_pow' p
        ((Polynomial.natDegree_lt_iff_degree_lt h0).mpr hp)).symm

theorem degree_of_top_zero {m : ℕ} {f : List ℝ} (hf : f.length = m + 2) (h1 : nth f m = 0)
    (h2 : nth f (m + 1) = 0) : (chebPoly ℝ f).degree < m := by
  have e : chebPoly ℝ f = chebPoly ℝ (f.take m) := by
    unfold chebPoly
    rw [hf, List.length_take, hf, min_eq_left (by omega), sum_range_succ, sum_range_succ, h1, h2]
    simp only [Polynomial.C_0, zero_mul, add_zero]
    refine Finset.sum_congr rfl (fun i hi => ?_)
    have hi' := mem_range.mp hi
    congr 2
    unfold nth
    rw [List.getD_eq_getElem?_getD, List.getD_eq_getElem?_getD, List.getElem?_take, if_pos hi']
  rw [e]
  have := chebPoly_degree (f.take m)
  rwa [List.length_take, hf, min_eq_left (by omega)] at this

/-- a function with vanishing second derivative is linear -/
theorem linear_of_deriv2 {q : Polynomial ℝ} (h : q.derivative.derivative = 0) :
    ∃ c d : ℝ, q = Polynomial.C d + Polynomial.C c * Polynomial.X := by
  have h1 := Polynomial.eq_C_of_derivative_eq_zero h
  set c := q.derivative.coeff 0
  have h2 : (q - Polynomial.C c * Polynomial.X).derivative = 0 := by
    rw [Polynomial.derivative_sub, Polynomial.derivative_C_mul, Polynomial.derivative_X, mul_one, ← h1,
      sub_self]
  have h3 := Polynomial.eq_C_of_derivative_eq_zero h2
  exact ⟨c, _, (sub_eq_iff_eq_add.mp h3)⟩

/-- second derivative matrix, pseudo-inverse and sliced identity of `chebyshev(n)` -/
structure Lap2 (n : ℕ) (P I : Mat ℝ) : Prop where
  prow : P.rows = n
  pcol : P.cols = n
  irow : I.rows = n - 2
  icol : I.cols = n
  drop : ∀ a : List ℝ, a.length = n → mulVec I a = a.drop 2
  key : ∀ a g : List ℝ, a.length = n → g.length = n →
    chebPoly ℝ g = Polynomial.derivative (Polynomial.derivative (chebPoly ℝ a)) →
    mulVec (matMul I P) g = a.drop 2

theorem mulVec_I {n : ℕ} {I : Mat ℝ} (hI : SameMat I (dropRows 2 (Mat.eye n))) (a : List ℝ)
    (ha : a.length = n) : mulVec I a = a.drop 2 := by
  obtain ⟨h1, h2, h3⟩ := hI
  have h1' : I.rows = n - 2 := h1
  have h2' : I.cols = n := h2
  refine ext_nth (by simp [h1', ha]) (fun i hi => ?_)
  have hi' : i < n - 2 := by simpa [h1'] using hi
  rw [nth_mulVec _ _ (by omega), h2', Finset.sum_eq_single (i + 2)]
  · rw [h3 i (by omega) (i + 2) (by omega)]
    show (if i + 2 = i + 2 then (1 : ℝ) else 0) • nth a (i + 2) = _
    rw [if_pos rfl, one_smul]
    unfold nth
    rw [List.getD_eq_getElem?_getD, List.getD_eq_getElem?_getD, List.getElem?_drop, Nat.add_comm]
  · intro j hj hne
    rw [h3 i (by omega) j (by have := mem_range.mp hj; omega)]
    show (if i + 2 = j then (1 : ℝ) else 0) • nth a j = _
    rw [if_neg (Ne.symm hne), zero_smul]
  · intro h; simp at h; omega

theorem lap2_of_new (o : Mode) {n : ℕ} (hn4 : 4 ≤ n) (hm : n ≤ 2642246) :
    ∃ P I, (⟨n, n⟩ : Cheb).laplacianPinv ℝ o = ok (P, I) ∧ Lap2 n P I := by
  have hb := cheb_new_ok (n := n) (by omega)
  obtain ⟨D, P, I, hD, hP, ⟨p1, p2⟩, hI, hPD⟩ := C08_pinv_identity (K := ℝ) o n ⟨n, n⟩ hb 2 (by omega)
    (by omega) (by simpa [dmatMax] using hm)
  refine ⟨P, I, hP, p1, p2, hI.1, hI.2.1, fun a ha => mulVec_I hI a ha, fun a g ha hg hga => ?_⟩
  obtain ⟨D', hD', hgr⟩ := C06_diffmat_is_gradient (K := ℝ) o n (by omega) ⟨n, n⟩ hb 2 (by omega)
    (by simpa [dmatMax] using hm) a (List.replicate n 0) ha (List.length_replicate ..)
  obtain rfl : D = D' := by rw [hD] at hD'; exact Res.ok.inj hD'
  obtain ⟨D'', hD'', d1, d2, -⟩ := C06_diffmat_columns (K := ℝ) o n ⟨n, n⟩ hb 2 (by omega)
    (by simpa [dmatMax] using hm)
  obtain rfl : D = D'' := by rw [hD] at hD''; exact Res.ok.inj hD''
  obtain ⟨g', hg', -, hgp⟩ := C04_gradient_polynomial (K := ℝ) n (by omega) ⟨n, n⟩ hb a
    (List.replicate n 0) ha (List.length_replicate ..) 2
  obtain rfl : g' = mulVec D a := by rw [hgr] at hg'; exact (Res.ok.inj hg').symm
  obtain rfl : g = mulVec D a := chebPoly_ext (by rw [hg, mulVec_length, d1])
    (by rw [hga, hgp]; rfl)
  rw [mulVec_matMul _ _ (by rw [p1]; exact hI.2.1), mulVec_I hI _ (by rw [mulVec_length, p1]),
    ← mulVec_matMul P D (by rw [p2, d1])]
  rw [← mulVec_I hI a ha]
  refine ext_nth (by
    rw [List.length_drop, mulVec_length, mulVec_length, hI.1]
    show P.rows - 2 = n - 2; omega) (fun i hi => ?_)
  have hi' : i < n - 2 := by
    rw [List.length_drop, mulVec_length] at hi
    have : i < P.rows - 2 := hi
    omega
  have hI1 : I.rows = n - 2 := hI.1
  have hI2 : I.cols = n := hI.2.1
  rw [nth_mulVec _ _ (by omega)]
  have e1 : nth ((mulVec (matMul P D) a).drop 2) i = nth (mulVec (matMul P D) a) (i + 2) := by
    unfold nth
    rw [List.getD_eq_getElem?_getD, List.getD_eq_getElem?_getD, List.getElem?_drop, Nat.add_comm]
  rw [e1, nth_mulVec _ _ (by show i + 2 < P.rows; omega)]
  show ∑ j ∈ range D.cols, _ = _
  rw [d2, hI2]
  refine Finset.sum_congr rfl (fun j hj => ?_)
  rw [← hPD.2.2 i (by show i < P.rows - 2; omega) j (by show j < D.cols; rw [d2]; exact mem_range.mp hj)]
  rfl

/-- functions that agree from the second entry on have the same second derivative -/
theorem deriv2_of_drop {n : ℕ} (hn : 2 ≤ n) {a b : List ℝ} (ha : a.length = n) (hb : b.length = n)
    (h : a.drop 2 = b.drop 2) : (chebPoly ℝ a).derivative.derivative
      = (chebPoly ℝ b).derivative.derivative := by
  obtain ⟨m, rfl⟩ : ∃ m, n = m + 2 := ⟨n - 2, by omega⟩
  have key : ∀ c : List ℝ, c.length = m + 2 → (chebPoly ℝ c).derivative.derivative
      = ∑ i ∈ range m, Polynomial.C (nth c (i + 2)) * (Polynomial.Chebyshev.T ℝ ((i + 2 : ℕ) : ℤ)).derivative.derivative := by
    intro c hc
    unfold chebPoly
    rw [hc, Finset.sum_range_succ', Finset.sum_range_succ', Polynomial.derivative_add,
      Polynomial.derivative_add, Polynomial.derivative_add, Polynomial.derivative_add,
      Polynomial.derivative_sum, Polynomial.derivative_sum]
    simp only [Polynomial.derivative_C_mul]
    have e1 : ((0 + 1 : ℕ) : ℤ) = 1 := by norm_num
    rw [e1, Nat.cast_zero, Polynomial.Chebyshev.T_zero, Polynomial.Chebyshev.T_one,
      Polynomial.derivative_X, Polynomial.derivative_one, Polynomial.derivative_zero, mul_zero, mul_zero,
      add_zero, add_zero]
  have hnth : ∀ i, nth a (i + 2) = nth b (i + 2) := fun i => by
    have e : ∀ c : List ℝ, nth c (i + 2) = nth (c.drop 2) i := fun c => by
      unfold nth
      rw [List.getD_eq_getElem?_getD, List.getD_eq_getElem?_getD, List.getElem?_drop, Nat.add_comm]
    rw [e a, e b, h]
  rw [key a ha, key b hb]
  exact Finset.sum_congr rfl (fun i _ => by rw [hnth i])

/-- `u'' = f` for a right hand side whose two highest coefficients vanish -/
theorem Lap2.iff {n : ℕ} {P I : Mat ℝ} (h : Lap2 n P I) (hn : 4 ≤ n) {a f : List ℝ}
    (ha : a.length = n) (hf : f.length = n) (h1 : nth f (n - 2) = 0) (h2 : nth f (n - 1) = 0) :
    (chebPoly ℝ a).derivative.derivative = chebPoly ℝ f ↔ a.drop 2 = mulVec (matMul I P) f := by
  refine ⟨fun e => (h.key a f ha hf e.symm).symm, fun e => ?_⟩
  obtain ⟨m, rfl⟩ : ∃ m, n = m + 2 := ⟨n - 2, by omega⟩
  obtain ⟨F, hF, hF'⟩ := antideriv (chebPoly ℝ f) m (degree_of_top_zero hf h1 h2)
  obtain ⟨G, hG, hG'⟩ := antideriv F (m + 1) hF
  obtain ⟨a', hal, ha'⟩ := cheb_coeffs (n := m + 2) (by omega) G hG
  have e' := h.key a' f hal hf (by rw [ha', hG', hF'])
  rw [deriv2_of_drop (by omega) ha hal (e.trans e'), ha', hG', hF']

end Verif
