/- Chebyshev gradient. -/
import Verif.Model.Ortho
import Verif.Spec.Cheb
import Mathlib.Tactic.Module
import Mathlib.Tactic.LinearCombination
import Mathlib.Tactic.FieldSimp
import Mathlib.LinearAlgebra.Dual.Lemmas
import Mathlib.Algebra.Polynomial.Roots

namespace Verif
open Res Spec Finset Polynomial
variable {K T : Type} [Field K] [DecidableEq K] [AddCommGroup T] [Module K T] {Q : Err → Prop}

/-! ### buffers -/

theorem zipSet_length {S T : Type} (f : S → T) (xs : List S) (ys : List T) :
    (zipSet f xs ys).length = ys.length := by
  induction xs generalizing ys with
  | nil => simp [zipSet]
  | cons x xs ih => cases ys <;> simp [zipSet, ih]

theorem zipSet_eq_map {S T : Type} (f : S → T) (xs : List S) (ys : List T)
    (h : xs.length = ys.length) : zipSet f xs ys = xs.map f := by
  induction xs generalizing ys with
  | nil => cases ys <;> simp_all [zipSet]
  | cons x xs ih => cases ys <;> simp_all [zipSet]

/-! ### one pass -/

/-- relation between the input and the output of one differentiation pass -/
structure GradRel (K : Type) [Field K] [Module K T] (m : ℕ) (a b : ℕ → T) : Prop where
  zero : ∀ i, m ≤ i + 1 → b i = 0
  recur : ∀ i, 1 ≤ i → b i = b (i + 2) + (2 * ((i : K) + 1)) • a (i + 1)
  head : (2 : K) • b 0 = b 2 + (2 : K) • a 1

theorem wp_gradPass (h2 : (2 : K) ≠ 0) {m : ℕ} (hm : 3 ≤ m) (a : List T) (ha : a.length = m) :
    wp Q (chebGradPass K m a) (fun b => b.length = m ∧ GradRel K m (nth a) (nth b)) := by
  unfold chebGradPass
  wprun
  refine wp_forRange (fun k x => x.length = m ∧ nth x 0 = nth a 1 ∧
      (∀ i, 1 ≤ i → i < k → nth x i = (2 * ((i : K) + 1)) • nth a (i + 1)) ∧
      (∀ i, k ≤ i → nth x i = nth a i))
    ⟨by simpa using ha, ?_, fun i h1 h2 => by omega, fun i hi => ?_⟩ ?_ ?_
  · rw [nth_set_self _ _ _ (by omega)]
  · rw [nth_set_ne _ _ _ _ (by omega)]
  · rintro i x h1 h3 ⟨hx, h0, hlo, hhi⟩
    wprun
    refine ⟨by simpa using hx, ?_, fun j hj1 hj2 => ?_, fun j hj => ?_⟩
    · rw [nth_set_ne _ _ _ _ (by omega), h0]
    · rcases Nat.lt_succ_iff_lt_or_eq.mp hj2 with h | rfl
      · rw [nth_set_ne _ _ _ _ (by omega), hlo j hj1 h]
      · rw [nth_set_self _ _ _ (by omega), hhi _ (by omega)]; push_cast; rfl
    · rw [nth_set_ne _ _ _ _ (by omega), hhi j (by omega)]
  · rintro x ⟨hx, h0, hlo, -⟩
    rw [show max 1 (m - 1) = m - 1 by omega] at hlo
    wprun
    set y := x.set (m - 1) 0 with hy
    have hyl : y.length = m := by simp [hy, hx]
    have y0 : nth y 0 = nth a 1 := by rw [hy, nth_set_ne _ _ _ _ (by omega), h0]
    have yi : ∀ i, 1 ≤ i → i < m - 1 → nth y i = (2 * ((i : K) + 1)) • nth a (i + 1) :=
      fun i h1 h2 => by rw [hy, nth_set_ne _ _ _ _ (by omega), hlo i h1 h2]
    have yl : ∀ i, m - 1 ≤ i → nth y i = 0 := fun i hi => by
      rcases Nat.eq_or_lt_of_le hi with rfl | h
      · rw [hy, nth_set_self _ _ _ (by omega)]
      · exact nth_of_le _ _ (by omega)
    clear_value y
    refine wp_forRev (fun k z => z.length = m ∧ nth z 0 = nth a 1 ∧
        (∀ i, 1 ≤ i → i < k → nth z i = nth y i) ∧ (∀ i, m - 1 ≤ i → nth z i = 0) ∧
        (∀ i, 1 ≤ i → k ≤ i → nth z i = nth z (i + 2) + (2 * ((i : K) + 1)) • nth a (i + 1)))
      ⟨hyl, y0, fun _ _ _ => rfl, yl, fun i h1 h2 => ?_⟩ ?_ ?_
    · rw [yl (i + 2) (by omega), zero_add]
      by_cases h : i < m - 1
      · exact yi i h1 h
      · rw [yl i (by omega), nth_of_le a (i + 1) (by omega), smul_zero]
    · rintro i z h1 h3 ⟨hz, z0, zlo, zl, zhi⟩
      wprun
      refine ⟨by simpa using hz, ?_, fun j hj1 hj2 => ?_, fun j hj => ?_, fun j hj1 hj2 => ?_⟩
      · rw [nth_set_ne _ _ _ _ (by omega), z0]
      · rw [nth_set_ne _ _ _ _ (by omega), zlo j hj1 (by omega)]
      · rw [nth_set_ne _ _ _ _ (by omega), zl j hj]
      · rcases Nat.eq_or_lt_of_le hj2 with rfl | h
        · rw [nth_set_self _ _ _ (by omega), nth_set_ne _ _ _ _ (by omega), zlo i h1 (by omega),
            yi i h1 (by omega)]
          abel
        · rw [nth_set_ne _ _ _ _ (by omega), nth_set_ne _ _ _ _ (by omega), zhi j hj1 (by omega)]
    · rintro z ⟨hz, z0, -, zl, zhi⟩
      wprun
      · refine ⟨by simpa using hz, fun i hi => ?_, fun i hi => ?_, ?_⟩
        · rw [nth_set_ne _ _ _ _ (by omega), zl i (by omega)]
        · rw [nth_set_ne _ _ _ _ (by omega), nth_set_ne _ _ _ _ (by omega)]
          exact zhi i hi (by omega)
        · rw [nth_set_self _ _ _ (by omega), nth_set_ne _ _ _ _ (by omega), z0, smul_add,
            smul_inv_smul₀ h2, add_comm]
      · exact fun h => absurd h h2

/-! ### the derivative identity -/

/-- summation by parts behind the recurrence -/
theorem grad_sum (h2 : (2 : K) ≠ 0) {m : ℕ} {a b : ℕ → T} (hab : GradRel K m a b)
    (f g u : ℕ → K) (hg0 : g 0 = 0) (hg : ∀ q : ℕ, g (q + 1) = ((q : K) + 1) * u q)
    (hu0 : u 0 = f 0) (hu1 : u 1 = 2 * f 1) (hu : ∀ i, 2 * f (i + 2) = u (i + 2) - u i)
    (ha : ∀ i, m ≤ i → a i = 0) :
    ∑ i ∈ range m, f i • b i = ∑ q ∈ range m, g q • a q := by
  have key : ∀ M, (2 : K) • ∑ i ∈ range (M + 3), f i • b i
      = (2 : K) • ∑ i ∈ range (M + 1), (((i : K) + 1) * u i) • a (i + 1)
        + u (M + 1) • b (M + 1) + u (M + 2) • b (M + 2) := by
    intro M
    induction M with
    | zero =>
      simp only [sum_range_succ, sum_range_zero, zero_add, Nat.cast_zero]
      have h1 := hab.head
      have e2 := hu 0
      simp only [zero_add] at e2
      linear_combination (norm := skip) u 0 • h1
      rw [hu1, ← hu0]
      rw [show u 2 = 2 * f 2 + u 0 by linear_combination -e2]
      module
    | succ M ih =>
      rw [sum_range_succ, smul_add, ih, sum_range_succ _ (M + 1), smul_add]
      have h1 := hab.recur (M + 1) (by omega)
      have e2 := hu (M + 1)
      push_cast at h1 ⊢
      linear_combination (norm := skip) u (M + 1) • h1
      rw [show M + 1 + 2 = M + 3 by omega] at e2 ⊢
      rw [show M + 1 + 1 = M + 2 by omega]
      rw [show u (M + 3) = 2 * f (M + 3) + u (M + 1) by linear_combination -e2]
      module
  have hs := key m
  rw [hab.zero (m + 1) (by omega), hab.zero (m + 2) (by omega), smul_zero, smul_zero, add_zero,
    add_zero] at hs
  have hs := smul_right_injective T h2 hs
  have l1 : ∑ i ∈ range (m + 3), f i • b i = ∑ i ∈ range m, f i • b i := by
    rw [sum_range_succ, sum_range_succ, sum_range_succ, hab.zero m (by omega),
      hab.zero (m + 1) (by omega), hab.zero (m + 2) (by omega)]
    simp
  have l2 : ∑ q ∈ range m, g q • a q = ∑ i ∈ range (m + 1), (((i : K) + 1) * u i) • a (i + 1) := by
    have : ∑ q ∈ range (m + 2), g q • a q = ∑ q ∈ range m, g q • a q := by
      rw [sum_range_succ, sum_range_succ, ha m le_rfl, ha (m + 1) (by omega)]
      simp
    rw [← this, sum_range_succ', hg0, zero_smul, add_zero]
    exact Finset.sum_congr rfl (fun i _ => by rw [hg])
  rw [l2, ← hs, l1]

theorem iter_T (k : ℕ) :
    derivative^[k + 1] (Chebyshev.T K ((0 : ℕ) : ℤ)) = 0 ∧
    (∀ q : ℕ, derivative^[k + 1] (Chebyshev.T K ((q + 1 : ℕ) : ℤ))
      = ((q : K[X]) + 1) * derivative^[k] (Chebyshev.U K (q : ℤ))) ∧
    derivative^[k] (Chebyshev.U K ((0 : ℕ) : ℤ)) = derivative^[k] (Chebyshev.T K ((0 : ℕ) : ℤ)) ∧
    derivative^[k] (Chebyshev.U K ((1 : ℕ) : ℤ)) = 2 * derivative^[k] (Chebyshev.T K ((1 : ℕ) : ℤ)) ∧
    (∀ i : ℕ, 2 * derivative^[k] (Chebyshev.T K ((i + 2 : ℕ) : ℤ))
      = derivative^[k] (Chebyshev.U K ((i + 2 : ℕ) : ℤ)) - derivative^[k] (Chebyshev.U K (i : ℤ))) := by
  have two : ∀ (c : ℕ) (p : K[X]), derivative^[k] ((c : K[X]) * p) = (c : K[X]) * derivative^[k] p := by
    intro c p
    rw [show ((c : K[X])) = C (c : K) by simp]
    exact iterate_derivative_C_mul ..
  refine ⟨?_, fun q => ?_, ?_, ?_, fun i => ?_⟩
  · rw [Function.iterate_succ_apply]; simp
  · rw [Function.iterate_succ_apply, Chebyshev.T_derivative_eq_U]
    have := two (q + 1) (Chebyshev.U K (q : ℤ))
    push_cast at this ⊢
    rw [← this]
    congr 2
    congr 1
    omega
  · simp
  · have := two 2 (Chebyshev.T K ((1 : ℕ) : ℤ))
    push_cast at this ⊢
    rw [← this]
    congr 1
    simp
  · have := two 2 (Chebyshev.T K ((i + 2 : ℕ) : ℤ))
    push_cast at this ⊢
    rw [← this, ← iterate_derivative_sub]
    congr 1
    exact Chebyshev.two_mul_T_eq_U_sub_U ..

/-- one pass differentiates, at every order -/
theorem grad_deriv (h2 : (2 : K) ≠ 0) {a b : List T} {m : ℕ} (ha : a.length = m)
    (hb : b.length = m) (hab : GradRel K m (nth a) (nth b)) (k : ℕ) (x : K) :
    chebDeriv K k b x = chebDeriv K (k + 1) a x := by
  unfold chebDeriv
  rw [ha, hb]
  obtain ⟨e1, e2, e3, e4, e5⟩ := iter_T (K := K) k
  refine grad_sum h2 hab (fun i => eval x (derivative^[k] (Chebyshev.T K (i : ℤ))))
    (fun i => eval x (derivative^[k + 1] (Chebyshev.T K (i : ℤ))))
    (fun i => eval x (derivative^[k] (Chebyshev.U K (i : ℤ)))) ?_ ?_ ?_ ?_ ?_ ?_
  · rw [e1, eval_zero]
  · intro q; rw [e2, eval_mul]; simp
  · rw [e3]
  · rw [e4, eval_mul]; simp
  · intro i
    have := congrArg (eval x) (e5 i)
    simpa using this
  · intro i hi; exact nth_of_le _ _ (by omega)

/-! ### support -/

theorem grad_support (h2 : (2 : K) ≠ 0) {m : ℕ} {a b : ℕ → T} (hab : GradRel K m a b) (s : ℕ)
    (ha : ∀ i, s ≤ i → a i = 0) : ∀ i, s ≤ i + 1 → b i = 0 := by
  have pos : ∀ d i, m ≤ i + d → 1 ≤ i → s ≤ i + 1 → b i = 0 := by
    intro d
    induction d using Nat.strong_induction_on with
    | _ d ih =>
      intro i h1 h3 h4
      by_cases hi : m ≤ i + 1
      · exact hab.zero i hi
      · rw [hab.recur i h3, ha (i + 1) h4, smul_zero, add_zero]
        by_cases hd : 2 ≤ d
        · exact ih (d - 2) (by omega) (i + 2) (by omega) (by omega) (by omega)
        · omega
  intro i hi
  rcases Nat.eq_zero_or_pos i with rfl | h
  · have := hab.head
    rw [pos m 2 (by omega) (by omega) (by omega), ha 1 (by omega), smul_zero, zero_add] at this
    exact (smul_eq_zero.mp this).resolve_left h2
  · exact pos m i (by omega) h hi

/-! ### iteration -/

theorem forRange_const_succ {σ : Type} (f : σ → Res σ) (k : ℕ) (s : σ) :
    forRange 0 (k + 1) (fun _ => f) s = (do let t ← forRange 0 k (fun _ => f) s; f t) := by
  unfold forRange
  simp only [Nat.sub_zero]
  have : ∀ (l : List ℕ) (n : ℕ) (s : σ), forList (l ++ [n]) (fun _ => f) s
      = (do let t ← forList l (fun _ => f) s; f t) := by
    intro l n
    induction l with
    | nil => intro s; simp [forList]; cases f s <;> rfl
    | cons x l ih =>
      intro s
      simp only [List.cons_append, forList]
      cases h : f s with
      | ok t => simpa using ih t
      | err e => rfl
  rw [List.range'_concat, this]

theorem forRange_const_add {σ : Type} (f : σ → Res σ) (i j : ℕ) (s : σ) :
    forRange 0 (i + j) (fun _ => f) s
      = (do let t ← forRange 0 i (fun _ => f) s; forRange 0 j (fun _ => f) t) := by
  induction j with
  | zero => simp [forRange, forList]; cases forList _ _ _ <;> rfl
  | succ j ih =>
    rw [← Nat.add_assoc, forRange_const_succ, ih]
    cases forRange 0 i (fun _ => f) s with
    | ok t => simp [forRange_const_succ]
    | err e => rfl

/-- `gradient_slice` -/
theorem wp_gradientSlice (h2 : (2 : K) ≠ 0) {n : ℕ} (b : Cheb) (hbm : b.m = n) (a out : List T)
    (ha : a.length = n) (ho : out.length = n) (k : ℕ) (hn : k = 0 ∨ 3 ≤ n) :
    wp Q (b.gradientSlice K a out k) (fun g => g.length = n ∧
      (∀ j x, chebDeriv K j g x = chebDeriv K (j + k) a x) ∧ (k = 0 → g = a) ∧
      ∀ i, n ≤ i + k → nth g i = 0) := by
  unfold Cheb.gradientSlice
  wprun
  rw [zipSet_eq_map _ _ _ (by omega), List.map_id, hbm]
  refine wp_forRange (fun k g => g.length = n ∧
      (∀ j x, chebDeriv K j g x = chebDeriv K (j + k) a x) ∧ (k = 0 → g = a) ∧
      ∀ i, n ≤ i + k → nth g i = 0)
    ⟨ha, fun j x => rfl, fun _ => rfl, fun i hi => nth_of_le _ _ (by omega)⟩ ?_ ?_
  · rintro l g - hl ⟨h1, h3, -, h4⟩
    refine wp_mono (wp_gradPass h2 (by omega) g h1) ?_
    rintro g' ⟨h5, h6⟩
    refine ⟨h5, fun j x => ?_, by simp, ?_⟩
    · rw [grad_deriv h2 h1 h5 h6, h3, show j + 1 + l = j + (l + 1) by omega]
    · intro i hi
      exact grad_support h2 h6 (n - l) (fun i hi => h4 i (by omega)) i (by omega)
  · rintro g h
    rw [show max 0 k = k by omega] at h
    exact h

/-! ### coefficients are determined by the function -/

theorem chebPoly_inj [CharZero K] (a : List K) (h : chebPoly K a = 0) :
    ∀ i < a.length, nth a i = 0 := by
  suffices H : ∀ n (c : ℕ → K), ∑ i ∈ range n, C (c i) * Chebyshev.T K (i : ℤ) = 0 →
      ∀ i < n, c i = 0 from H _ _ h
  intro n c
  induction n with
  | zero => simp
  | succ n ih =>
    intro hs
    rw [sum_range_succ] at hs
    have hn : c n = 0 := by
      have h1 := congrArg (fun p => coeff p n) hs
      simp only [coeff_add, finset_sum_coeff, coeff_C_mul, coeff_zero] at h1
      rw [Finset.sum_eq_zero, zero_add] at h1
      · have h3 : coeff (Chebyshev.T K (n : ℤ)) n ≠ 0 := by
          have := Chebyshev.leadingCoeff_T K (n : ℤ)
          rw [leadingCoeff, Chebyshev.natDegree_T] at this
          simp only [Int.natAbs_natCast] at this
          rw [this]
          exact pow_ne_zero _ two_ne_zero
        exact (mul_eq_zero.mp h1).resolve_right h3
      · intro i hi
        rw [coeff_eq_zero_of_natDegree_lt, mul_zero]
        rw [Chebyshev.natDegree_T]
        simpa using hi
    rw [hn] at hs
    simp only [C_0, zero_mul, add_zero] at hs
    intro i hi
    rcases Nat.lt_succ_iff_lt_or_eq.mp hi with h | rfl
    · exact ih hs i h
    · exact hn

theorem chebVal_inj [CharZero K] (a b : List T) (hl : a.length = b.length)
    (h : ∀ x : K, chebVal K a x = chebVal K b x) : a = b := by
  refine ext_nth hl (fun i hi => ?_)
  rw [← sub_eq_zero, ← Module.forall_dual_apply_eq_zero_iff K]
  intro φ
  have hz := chebPoly_inj (K := K) ((List.range a.length).map (fun i => φ (nth a i - nth b i))) ?_ i
    (by simpa using hi)
  · rwa [nth_map_range _ _ _ hi] at hz
  · haveI : Infinite K := Infinite.of_injective (Nat.cast : ℕ → K) Nat.cast_injective
    apply Polynomial.funext
    intro x
    have e := congrArg φ (h x)
    unfold chebVal at e
    rw [← hl, ← sub_eq_zero] at e
    rw [← map_sub, ← Finset.sum_sub_distrib, map_sum] at e
    unfold chebPoly
    rw [eval_zero, eval_finset_sum, ← e]
    simp only [List.length_map, List.length_range]
    refine Finset.sum_congr rfl (fun j hj => ?_)
    rw [nth_map_range _ _ _ (mem_range.mp hj), eval_C_mul, ← smul_sub, map_smul, smul_eq_mul,
      mul_comm]

end Verif
