/-
A polynomial that almost satisfies the boundary conditions of a base is close to one that satisfies them.
-/
import Verif.Spec.Boundary
import Verif.Spec.Cheb
import Verif.Proof.ChebSeries

namespace Verif
open Res Spec Finset Polynomial

/-- correction: four leading coefficients -/
def corr (e0 e1 e2 e3 : ℝ) (i : ℕ) : ℝ :=
  if i = 0 then e0 else if i = 1 then e1 else if i = 2 then e2 else if i = 3 then e3 else 0

theorem sum_corr {n : ℕ} (hn : 4 ≤ n) (e0 e1 e2 e3 : ℝ) (φ : ℕ → ℝ) (F : ℝ → ℝ → ℝ)
    (hF : ∀ x, F x 0 = 0) :
    ∑ i ∈ range n, F (φ i) (corr e0 e1 e2 e3 i)
      = F (φ 0) e0 + F (φ 1) e1 + F (φ 2) e2 + F (φ 3) e3 := by
  rw [← Finset.sum_subset (s₁ := range 4) (by intro i hi; simp at hi ⊢; omega) (fun i _ hi => by
    have : 4 ≤ i := by simpa using hi
    unfold corr
    rw [if_neg (by omega), if_neg (by omega), if_neg (by omega), if_neg (by omega), hF])]
  simp [Finset.sum_range_succ, corr]

theorem T3 : Chebyshev.T ℝ 3 = 4 * X ^ 3 - 3 * X := by
  have h := Chebyshev.T_add_two ℝ 1
  norm_num at h
  rw [h, Chebyshev.T_two]
  ring

theorem chebDeriv_corr {n : ℕ} (hn : 4 ≤ n) (c : List ℝ) (hc : c.length = n) (e0 e1 e2 e3 : ℝ) (d : ℕ)
    (x : ℝ) :
    chebDeriv ℝ d ((List.range n).map (fun i => nth c i - corr e0 e1 e2 e3 i)) x
      = chebDeriv ℝ d c x - ((derivative^[d] (1 : ℝ[X])).eval x * e0 + (derivative^[d] (X : ℝ[X])).eval x * e1
        + (derivative^[d] (2 * X ^ 2 - 1 : ℝ[X])).eval x * e2
        + (derivative^[d] (4 * X ^ 3 - 3 * X : ℝ[X])).eval x * e3) := by
  unfold chebDeriv
  rw [List.length_map, List.length_range, hc]
  have h := sum_corr hn e0 e1 e2 e3 (fun i => (derivative^[d] (Chebyshev.T ℝ i)).eval x) (· * ·)
    (fun x => mul_zero x)
  have h3 : Chebyshev.T ℝ ((3 : ℕ) : ℤ) = 4 * X ^ 3 - 3 * X := T3
  have h2 : Chebyshev.T ℝ ((2 : ℕ) : ℤ) = 2 * X ^ 2 - 1 := Chebyshev.T_two ℝ
  have h1 : Chebyshev.T ℝ ((1 : ℕ) : ℤ) = X := Chebyshev.T_one ℝ
  have h0 : Chebyshev.T ℝ ((0 : ℕ) : ℤ) = 1 := Chebyshev.T_zero ℝ
  simp only [h0, h1, h2, h3] at h
  rw [← h, ← Finset.sum_sub_distrib]
  refine Finset.sum_congr rfl (fun i hi => ?_)
  rw [nth_map_range _ _ _ (mem_range.mp hi), smul_eq_mul, smul_eq_mul]
  ring

/-- If the boundary functionals of `∑ cᵢ Tᵢ` are at most `ε`, changing the leading coefficients by at most
`3 ε` (in the Euclidean norm) makes them vanish. -/
theorem correct (k : CKind) {n : ℕ} (hn : 4 ≤ n) (c : List ℝ) (hc : c.length = n) (ε : ℝ)
    (h : ∀ p ∈ conditions k, |chebDeriv ℝ p.1 c p.2| ≤ ε) :
    ∃ c' : List ℝ, c'.length = n ∧ SatisfiesBC ℝ k c' ∧
      ∑ i ∈ range n, (nth c' i - nth c i) ^ 2 ≤ 9 * ε ^ 2 := by
  have key : ∀ e0 e1 e2 e3 : ℝ, e0 ^ 2 + e1 ^ 2 + e2 ^ 2 + e3 ^ 2 ≤ 9 * ε ^ 2 →
      SatisfiesBC ℝ k ((List.range n).map (fun i => nth c i - corr e0 e1 e2 e3 i)) →
      ∃ c' : List ℝ, c'.length = n ∧ SatisfiesBC ℝ k c' ∧
        ∑ i ∈ range n, (nth c' i - nth c i) ^ 2 ≤ 9 * ε ^ 2 := by
    intro e0 e1 e2 e3 he hb
    refine ⟨_, by simp, hb, ?_⟩
    have hs := sum_corr hn e0 e1 e2 e3 (fun _ => 0) (fun _ y => y ^ 2) (fun x => by simp)

    have hq : ∀ i ∈ range n, (nth ((List.range n).map (fun i => nth c i - corr e0 e1 e2 e3 i)) i - nth c i) ^ 2
        = (corr e0 e1 e2 e3 i) ^ 2 := fun i hi => by
      rw [nth_map_range _ _ _ (mem_range.mp hi)]
      ring
    rw [Finset.sum_congr rfl hq]
    refine le_trans (le_of_eq hs) ?_
    exact he
  have h0 : 0 ≤ ε := by
    cases k <;> exact (abs_nonneg _).trans (h _ (List.mem_cons_self ..))
  cases k with
  | dirichlet =>
    simp only [conditions, List.forall_mem_cons, List.forall_mem_nil, and_true] at h
    obtain ⟨a, b, -⟩ := h
    set A := chebDeriv ℝ 0 c (-1) with hA
    set B := chebDeriv ℝ 0 c 1 with hB
    obtain ⟨a1, a2⟩ := abs_le.mp a
    obtain ⟨b1, b2⟩ := abs_le.mp b
    refine key ((A + B) / 2) ((B - A) / 2) 0 0 ?_ ?_
    · nlinarith
    · refine ⟨?_, ?_⟩ <;> rw [chebDeriv_corr hn c hc] <;> simp [← hA, ← hB] <;> ring
  | neumann =>
    simp only [conditions, List.forall_mem_cons, List.forall_mem_nil, and_true] at h
    obtain ⟨a, b, -⟩ := h
    set A := chebDeriv ℝ 1 c (-1) with hA
    set B := chebDeriv ℝ 1 c 1 with hB
    obtain ⟨a1, a2⟩ := abs_le.mp a
    obtain ⟨b1, b2⟩ := abs_le.mp b
    refine key 0 ((A + B) / 2) ((B - A) / 8) 0 ?_ ?_
    · nlinarith
    · refine ⟨?_, ?_⟩ <;> rw [chebDeriv_corr hn c hc] <;> simp [← hA, ← hB] <;> ring
  | dirichletNeumann =>
    simp only [conditions, List.forall_mem_cons, List.forall_mem_nil, and_true] at h
    obtain ⟨a, b, -⟩ := h
    set A := chebDeriv ℝ 0 c (-1) with hA
    set B := chebDeriv ℝ 1 c 1 with hB
    obtain ⟨a1, a2⟩ := abs_le.mp a
    obtain ⟨b1, b2⟩ := abs_le.mp b
    refine key (A + B) B 0 0 ?_ ?_
    · nlinarith
    · refine ⟨?_, ?_⟩ <;> rw [chebDeriv_corr hn c hc] <;> simp [← hA, ← hB]
  | biharmonicA =>
    simp only [conditions, List.forall_mem_cons, List.forall_mem_nil, and_true] at h
    obtain ⟨a, b, p, q, -⟩ := h
    set A := chebDeriv ℝ 0 c (-1) with hA
    set B := chebDeriv ℝ 0 c 1 with hB
    set P := chebDeriv ℝ 1 c (-1) with hP
    set Q := chebDeriv ℝ 1 c 1 with hQ
    obtain ⟨a1, a2⟩ := abs_le.mp a
    obtain ⟨b1, b2⟩ := abs_le.mp b
    obtain ⟨p1, p2⟩ := abs_le.mp p
    obtain ⟨q1, q2⟩ := abs_le.mp q
    have sq : ∀ x : ℝ, |x| ≤ 5 / 4 * ε → x ^ 2 ≤ 25 / 16 * ε ^ 2 := fun x hx => by
      have := sq_le_sq' (by linarith [(abs_le.mp hx).1]) (abs_le.mp hx).2
      linarith [this, mul_pow (5 / 4) ε 2]
    refine key ((A + B) / 2 - (Q - P) / 8) ((B - A) / 2 - ((P + Q) / 2 - (B - A) / 2) / 8) ((Q - P) / 8)
      (((P + Q) / 2 - (B - A) / 2) / 8) ?_ ?_
    · have := sq ((A + B) / 2 - (Q - P) / 8) (abs_le.mpr ⟨by linarith, by linarith⟩)
      have := sq ((B - A) / 2 - ((P + Q) / 2 - (B - A) / 2) / 8) (abs_le.mpr ⟨by linarith, by linarith⟩)
      have := sq ((Q - P) / 8) (abs_le.mpr ⟨by linarith, by linarith⟩)
      have := sq (((P + Q) / 2 - (B - A) / 2) / 8) (abs_le.mpr ⟨by linarith, by linarith⟩)
      nlinarith [sq_nonneg ε]
    · refine ⟨⟨?_, ?_⟩, ?_, ?_⟩ <;> rw [chebDeriv_corr hn c hc] <;> simp [← hA, ← hB, ← hP, ← hQ] <;> ring
  | biharmonicB =>
    simp only [conditions, List.forall_mem_cons, List.forall_mem_nil, and_true] at h
    obtain ⟨a, b, p, q, -⟩ := h
    set A := chebDeriv ℝ 0 c (-1) with hA
    set B := chebDeriv ℝ 0 c 1 with hB
    set P := chebDeriv ℝ 2 c (-1) with hP
    set Q := chebDeriv ℝ 2 c 1 with hQ
    obtain ⟨a1, a2⟩ := abs_le.mp a
    obtain ⟨b1, b2⟩ := abs_le.mp b
    obtain ⟨p1, p2⟩ := abs_le.mp p
    obtain ⟨q1, q2⟩ := abs_le.mp q
    have sq : ∀ x : ℝ, |x| ≤ 5 / 4 * ε → x ^ 2 ≤ 25 / 16 * ε ^ 2 := fun x hx => by
      have := sq_le_sq' (by linarith [(abs_le.mp hx).1]) (abs_le.mp hx).2
      linarith [this, mul_pow (5 / 4) ε 2]
    refine key ((A + B) / 2 - (P + Q) / 8) ((B - A) / 2 - (Q - P) / 48) ((P + Q) / 8) ((Q - P) / 48) ?_ ?_
    · have := sq ((A + B) / 2 - (P + Q) / 8) (abs_le.mpr ⟨by linarith, by linarith⟩)
      have := sq ((B - A) / 2 - (Q - P) / 48) (abs_le.mpr ⟨by linarith, by linarith⟩)
      have := sq ((P + Q) / 8) (abs_le.mpr ⟨by linarith, by linarith⟩)
      have := sq ((Q - P) / 48) (abs_le.mpr ⟨by linarith, by linarith⟩)
      nlinarith [sq_nonneg ε]
    · refine ⟨⟨?_, ?_⟩, ?_, ?_⟩ <;> rw [chebDeriv_corr hn c hc] <;> simp [← hA, ← hB, ← hP, ← hQ] <;> ring

end Verif
