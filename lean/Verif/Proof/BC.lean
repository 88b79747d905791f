/- Boundary values of Chebyshev polynomials and of the composite basis functions. -/
import Verif.Proof.Compo
import Verif.Spec.Cheb
import Mathlib.Tactic.LinearCombination

namespace Verif
open Res Spec Finset Polynomial

section Values
variable (K : Type) [Field K]

/-- `T_n^{(k)}(x)` -/
noncomputable def tv (k : ℕ) (x : K) (n : ℕ) : K := (derivative^[k] (Chebyshev.T K (n : ℤ))).eval x

theorem tv_zero_one (n : ℕ) : tv K 0 1 n = 1 := by simp [tv]
theorem tv_zero_neg (n : ℕ) : tv K 0 (-1) n = (-1) ^ n := by
  simp only [tv, Function.iterate_zero, id_eq, Chebyshev.T_eval_neg_one]
  rw [Int.negOnePow_def]
  simp

theorem tv_one_one (n : ℕ) : tv K 1 1 n = (n : K) ^ 2 := by
  have := Chebyshev.one_sub_X_sq_mul_iterate_derivative_T_eval (R := K) n 0 1
  have h0 := tv_zero_one K n
  simp only [tv] at h0 ⊢
  simp at this h0 ⊢
  linear_combination -this
theorem tv_one_neg (n : ℕ) : tv K 1 (-1) n = -((-1) ^ n * (n : K) ^ 2) := by
  have := Chebyshev.one_sub_X_sq_mul_iterate_derivative_T_eval (R := K) n 0 (-1)
  have h0 := tv_zero_neg K n
  simp only [tv] at h0 ⊢
  simp only [Function.iterate_zero, id_eq, Function.iterate_one, zero_add] at this h0 ⊢
  rw [h0] at this
  push_cast at this
  linear_combination this
theorem tv_two_one (n : ℕ) : 3 * tv K 2 1 n = (n : K) ^ 2 * ((n : K) ^ 2 - 1) := by
  have := Chebyshev.one_sub_X_sq_mul_iterate_derivative_T_eval (R := K) n 1 1
  have h0 := tv_one_one K n
  simp only [tv] at h0 ⊢
  rw [h0] at this
  push_cast at this
  linear_combination -this
theorem tv_two_neg (n : ℕ) : 3 * tv K 2 (-1) n = (-1) ^ n * ((n : K) ^ 2 * ((n : K) ^ 2 - 1)) := by
  have := Chebyshev.one_sub_X_sq_mul_iterate_derivative_T_eval (R := K) n 1 (-1)
  have h0 := tv_one_neg K n
  simp only [tv] at h0 ⊢
  rw [h0] at this
  push_cast at this
  linear_combination this

end Values

variable {K T : Type} [Field K] [LinearOrder K] [IsStrictOrderedRing K] [AddCommGroup T]
  [Module K T]

/-- the boundary functionals of a kind: (derivative order, end point) -/
def CKind.bcs : CKind → List (ℕ × K)
  | .dirichlet => [(0, 1), (0, -1)]
  | .neumann => [(1, 1), (1, -1)]
  | .dirichletNeumann => [(0, -1), (1, 1)]
  | .biharmonicA => [(0, 1), (0, -1), (1, 1), (1, -1)]
  | .biharmonicB => [(0, 1), (0, -1), (2, 1), (2, -1)]

theorem satisfiesBC_iff (k : CKind) (a : List T) :
    SatisfiesBC K k a ↔ ∀ p ∈ (k.bcs : List (ℕ × K)), chebDeriv K p.1 a p.2 = 0 := by
  cases k <;> simp [SatisfiesBC, CKind.bcs, and_assoc]

/-- every basis function satisfies the boundary conditions -/
theorem basis_bc (k : CKind) (j : ℕ) : ∀ p ∈ (k.bcs : List (ℕ × K)),
    tv K p.1 p.2 j + k.lo K j * tv K p.1 p.2 (j + k.off) + k.hi K j * tv K p.1 p.2 (j + 2 * k.off)
      = 0 := by
  have c3 : (3 : K) ≠ 0 := by norm_num
  cases k
  · simp only [CKind.bcs, CKind.lo, CKind.hi, CKind.off, List.mem_cons, List.not_mem_nil, or_false,
      forall_eq_or_imp, forall_eq, tv_zero_one, tv_zero_neg]
    constructor <;> ring
  · have h2 : ((j : K) + 2) ≠ 0 := by positivity
    simp only [CKind.bcs, CKind.lo, CKind.hi, CKind.off, List.mem_cons, List.not_mem_nil, or_false,
      forall_eq_or_imp, forall_eq, tv_one_one, tv_one_neg]
    push_cast
    constructor <;> field_simp <;> ring
  · have h2 : ((j : K) + 1) ^ 2 + ((j : K) + 2) ^ 2 ≠ 0 := by positivity
    simp only [CKind.bcs, CKind.lo, CKind.hi, CKind.off, List.mem_cons, List.not_mem_nil, or_false,
      forall_eq_or_imp, forall_eq, tv_one_one, tv_zero_neg]
    push_cast
    constructor <;> field_simp <;> ring
  · have h2 : (j : K) + 3 ≠ 0 := by positivity
    simp only [CKind.bcs, CKind.lo, CKind.hi, CKind.off, List.mem_cons, List.not_mem_nil, or_false,
      forall_eq_or_imp, forall_eq, tv_one_one, tv_zero_neg, tv_zero_one, tv_one_neg]
    push_cast
    refine ⟨?_, ?_, ?_, ?_⟩ <;> field_simp <;> ring
  · have h2 : (j : K) + 3 ≠ 0 := by positivity
    have h3 : 19 + 2 * (j : K) * (6 + j) ≠ 0 := by positivity
    simp only [CKind.bcs, CKind.lo, CKind.hi, CKind.off, List.mem_cons, List.not_mem_nil, or_false,
      forall_eq_or_imp, forall_eq, tv_zero_neg, tv_zero_one]
    refine ⟨?_, ?_, ?_, ?_⟩
    · field_simp; ring
    · field_simp; ring
    · have e0 := tv_two_one K j
      have e1 := tv_two_one K (j + 2)
      have e2 := tv_two_one K (j + 2 * 2)
      apply mul_left_cancel₀ c3
      rw [mul_zero, mul_add, mul_add, e0, mul_left_comm 3 (_ / _) (tv K 2 _ (j + 2)), e1,
        mul_left_comm 3 (_ / _) (tv K 2 _ (j + 2 * 2)), e2]
      push_cast
      field_simp
      ring
    · have e0 := tv_two_neg K j
      have e1 := tv_two_neg K (j + 2)
      have e2 := tv_two_neg K (j + 2 * 2)
      apply mul_left_cancel₀ c3
      rw [mul_zero, mul_add, mul_add, e0, mul_left_comm 3 (_ / _) (tv K 2 _ (j + 2)), e1,
        mul_left_comm 3 (_ / _) (tv K 2 _ (j + 2 * 2)), e2]
      push_cast
      field_simp
      ring

theorem CKind.nbc_off (k : CKind) : 2 * k.off ≤ k.nbc ∨ (k.off ≤ k.nbc ∧ ∀ i, k.hi K i = 0) := by
  cases k <;> simp [CKind.off, CKind.nbc, CKind.hi]

/-- the represented function satisfies the boundary conditions -/
theorem range_bc (k : CKind) (m : ℕ) (v : ℕ → T) (a : List T) (ha : a.length = m + k.nbc)
    (h : ∀ i < m + k.nbc, nth a i = ∑ j ∈ range m, k.mat K i j • v j) : SatisfiesBC K k a := by
  rw [satisfiesBC_iff]
  intro p hp
  unfold chebDeriv
  rw [ha]
  have e1 : ∀ i ∈ range (m + k.nbc),
      eval p.2 (derivative^[p.1] (Chebyshev.T K (i : ℤ))) • nth a i
        = ∑ j ∈ range m, (k.mat K i j * tv K p.1 p.2 i) • v j := by
    intro i hi
    rw [h i (mem_range.mp hi), Finset.smul_sum]
    exact Finset.sum_congr rfl (fun j _ => by rw [smul_smul, mul_comm]; rfl)
  rw [Finset.sum_congr rfl e1, Finset.sum_comm]
  apply Finset.sum_eq_zero
  intro j hj
  rw [mem_range] at hj
  rw [← Finset.sum_smul]
  have e2 := stMat_tmul (T := K) k.off (m + k.nbc) (fun _ => 1) (k.lo K) (k.hi K)
    (fun i => tv K p.1 p.2 i) j
  simp only [smul_eq_mul] at e2
  have e3 : (if j + 2 * k.off < m + k.nbc then k.hi K j * tv K p.1 p.2 (j + 2 * k.off) else 0)
      = k.hi K j * tv K p.1 p.2 (j + 2 * k.off) := by
    split
    · rfl
    · rcases k.nbc_off (K := K) with h | ⟨_, h⟩
      · omega
      · rw [h, zero_mul]
  have hoff : k.off ≤ k.nbc := by cases k <;> simp [CKind.off, CKind.nbc]
  rw [e3, if_pos (by omega), if_pos (by omega), one_mul, basis_bc k j p hp] at e2
  unfold CKind.mat
  rw [e2, zero_smul]

/-- forward substitution: the first `m` coefficients can be matched -/
theorem exists_match (k : CKind) (a : ℕ → T) (m : ℕ) :
    ∃ v : ℕ → T, ∀ i < m, ∑ j ∈ range m, k.mat K i j • v j = a i := by
  have hoff : 1 ≤ k.off := by cases k <;> simp [CKind.off]
  have key : ∀ M, ∃ v : ℕ → T, ∀ i < M, v i
      + (if k.off ≤ i then k.lo K (i - k.off) • v (i - k.off) else 0)
      + (if 2 * k.off ≤ i then k.hi K (i - 2 * k.off) • v (i - 2 * k.off) else 0) = a i := by
    intro M
    induction M with
    | zero => exact ⟨fun _ => 0, by simp⟩
    | succ M ih =>
      obtain ⟨v, hv⟩ := ih
      set w : ℕ → T := fun j => if j = M then a M
        - (if k.off ≤ M then k.lo K (M - k.off) • v (M - k.off) else 0)
        - (if 2 * k.off ≤ M then k.hi K (M - 2 * k.off) • v (M - 2 * k.off) else 0) else v j with hw
      have w1 : ∀ j, j ≠ M → w j = v j := fun j hj => by rw [hw]; simp only [if_neg hj]
      have w2 : w M = a M - (if k.off ≤ M then k.lo K (M - k.off) • v (M - k.off) else 0)
        - (if 2 * k.off ≤ M then k.hi K (M - 2 * k.off) • v (M - 2 * k.off) else 0) := by
        rw [hw]; simp only [if_pos]
      clear_value w
      have w3 : ∀ i, i ≤ M → (if k.off ≤ i then k.lo K (i - k.off) • w (i - k.off) else 0)
          = if k.off ≤ i then k.lo K (i - k.off) • v (i - k.off) else 0 := by
        intro i hi
        split
        · rw [w1 _ (by omega)]
        · rfl
      have w4 : ∀ i, i ≤ M → (if 2 * k.off ≤ i then k.hi K (i - 2 * k.off) • w (i - 2 * k.off) else 0)
          = if 2 * k.off ≤ i then k.hi K (i - 2 * k.off) • v (i - 2 * k.off) else 0 := by
        intro i hi
        split
        · rw [w1 _ (by omega)]
        · rfl
      refine ⟨w, fun i hi => ?_⟩
      rw [w3 i (by omega), w4 i (by omega)]
      rcases Nat.lt_succ_iff_lt_or_eq.mp hi with h | rfl
      · rw [w1 i (by omega)]; exact hv i h
      · rw [w2]; abel
  obtain ⟨v, hv⟩ := key m
  refine ⟨v, fun i hi => ?_⟩
  unfold CKind.mat
  rw [stMat_mul, ← hv i hi, if_pos hi, one_smul]
  congr 1
  · congr 1
    exact if_congr (by omega) rfl rfl
  · exact if_congr (by omega) rfl rfl

theorem tail_sum (m c : ℕ) (f : ℕ → K) (r : ℕ → T) (h : ∀ i < m, r i = 0) :
    ∑ i ∈ range (m + c), f i • r i = ∑ i ∈ range c, f (m + i) • r (m + i) := by
  rw [Finset.sum_range_add, Finset.sum_eq_zero (s := range m), zero_add]
  intro i hi
  rw [h i (mem_range.mp hi), smul_zero]

theorem solve2 {α β γ δ : K} {x y : T} (h1 : α • x + β • y = 0) (h2 : γ • x + δ • y = 0)
    (hd : α * δ - β * γ ≠ 0) : x = 0 ∧ y = 0 := by
  constructor
  · have : (α * δ - β * γ) • x = 0 := by
      linear_combination (norm := module) δ • h1 - β • h2
    exact (smul_eq_zero.mp this).resolve_left hd
  · have : (α * δ - β * γ) • y = 0 := by
      linear_combination (norm := module) α • h2 - γ • h1
    exact (smul_eq_zero.mp this).resolve_left hd

theorem split4 {ε f0 f1 f2 f3 : K} {x0 x1 x2 x3 : T} (hε : ε ≠ 0)
    (h1 : f0 • x0 + f1 • x1 + f2 • x2 + f3 • x3 = 0)
    (h2 : ε • (f0 • x0 - f1 • x1 + f2 • x2 - f3 • x3) = 0) :
    f0 • x0 + f2 • x2 = 0 ∧ f1 • x1 + f3 • x3 = 0 := by
  have h3 := (smul_eq_zero.mp h2).resolve_left hε
  constructor
  · have : (2 : K) • (f0 • x0 + f2 • x2) = 0 := by
      linear_combination (norm := module) h1 + h3
    exact (smul_eq_zero.mp this).resolve_left (by norm_num)
  · have : (2 : K) • (f1 • x1 + f3 • x3) = 0 := by
      linear_combination (norm := module) h1 - h3
    exact (smul_eq_zero.mp this).resolve_left (by norm_num)

theorem fin4 (m : ℕ) (r : ℕ → T) (h0 : ∀ i < m, r i = 0) (c1 : r m = 0 ∧ r (m + 2) = 0)
    (c2 : r (m + 1) = 0 ∧ r (m + 3) = 0) : ∀ i < m + 4, r i = 0 := by
  intro i hi
  have : i < m ∨ i = m ∨ i = m + 1 ∨ i = m + 2 ∨ i = m + 3 := by omega
  rcases this with h | rfl | rfl | rfl | rfl
  · exact h0 i h
  · exact c1.1
  · exact c2.1
  · exact c1.2
  · exact c2.2

/-- coefficients supported on the last `nbc` entries and satisfying the boundary conditions
vanish -/
theorem tail_zero (k : CKind) (m : ℕ) (hm : 1 ≤ m) (r : ℕ → T) (h0 : ∀ i < m, r i = 0)
    (h : ∀ p ∈ (k.bcs : List (ℕ × K)), ∑ i ∈ range (m + k.nbc), tv K p.1 p.2 i • r i = 0) :
    ∀ i < m + k.nbc, r i = 0 := by
  have hm' : (1 : K) ≤ m := by exact_mod_cast hm
  have e1 : ((-1 : K) ^ m) ≠ 0 := pow_ne_zero _ (by norm_num)
  simp only [tail_sum m _ _ r h0] at h
  cases k <;> simp only [CKind.bcs, CKind.nbc, List.mem_cons, List.not_mem_nil, or_false,
    forall_eq_or_imp, forall_eq, sum_range_succ, sum_range_zero, zero_add, add_zero,
    tv_zero_one, tv_zero_neg, tv_one_one, tv_one_neg] at h ⊢
  · obtain ⟨h1, h2⟩ := h
    have := solve2 h1 h2 (by
      rw [pow_succ]; intro h; apply e1; linear_combination -h / 2)
    intro i hi
    have : i < m ∨ i = m ∨ i = m + 1 := by omega
    rcases this with h | rfl | rfl
    · exact h0 i h
    · tauto
    · tauto
  · obtain ⟨h1, h2⟩ := h
    have := solve2 h1 h2 (by
      rw [pow_succ]; push_cast
      have : (m : K) ^ 2 * ((m : K) + 1) ^ 2 * 2 * (-1) ^ m ≠ 0 :=
        mul_ne_zero (by positivity) e1
      intro h; apply this; linear_combination h)
    intro i hi
    have : i < m ∨ i = m ∨ i = m + 1 := by omega
    rcases this with h | rfl | rfl
    · exact h0 i h
    · tauto
    · tauto
  · obtain ⟨h1, h2⟩ := h
    have := solve2 h1 h2 (by
      rw [pow_succ]; push_cast
      have : ((m : K) ^ 2 + ((m : K) + 1) ^ 2) * (-1) ^ m ≠ 0 :=
        mul_ne_zero (by positivity) e1
      intro h; apply this; linear_combination h)
    intro i hi
    have : i < m ∨ i = m ∨ i = m + 1 := by omega
    rcases this with h | rfl | rfl
    · exact h0 i h
    · tauto
    · tauto
  · obtain ⟨h1, h2, h3, h4⟩ := h
    have b1 := split4 (K := K) (ε := (-1) ^ m) e1 h1 (by
      rw [← h2]; simp only [pow_succ]; push_cast; module)
    have b2 := split4 (K := K) (ε := -(-1) ^ m) (neg_ne_zero.mpr e1) h3 (by
      rw [← h4]; simp only [pow_succ]; push_cast; module)
    push_cast at b2
    have c1 := solve2 b1.1 b2.1 (by
      have : (0 : K) < 1 * ((m : K) + 2) ^ 2 - 1 * (m : K) ^ 2 := by nlinarith
      exact this.ne')
    have c2 := solve2 b1.2 b2.2 (by
      have : (0 : K) < 1 * ((m : K) + 3) ^ 2 - 1 * ((m : K) + 1) ^ 2 := by nlinarith
      exact this.ne')
    exact fin4 m r h0 c1 c2
  · obtain ⟨h1, h2, h3, h4⟩ := h
    have b1 := split4 (K := K) (ε := (-1) ^ m) e1 h1 (by
      rw [← h2]; simp only [pow_succ]; push_cast; module)
    have t1 : ∀ n : ℕ, tv K 2 1 n = (n : K) ^ 2 * ((n : K) ^ 2 - 1) / 3 := fun n => by
      rw [eq_div_iff (by norm_num), mul_comm, tv_two_one]
    have t2 : ∀ n : ℕ, tv K 2 (-1) n = (-1) ^ n * ((n : K) ^ 2 * ((n : K) ^ 2 - 1) / 3) :=
      fun n => by rw [mul_div_assoc', eq_div_iff (by norm_num), mul_comm, tv_two_neg]
    simp only [t1, t2] at h3 h4
    have b2 := split4 (K := K) (ε := (-1) ^ m) e1 h3 (by
      rw [← h4]; simp only [pow_succ]; push_cast; module)
    push_cast at b2
    have c1 := solve2 b1.1 b2.1 (by
      have : (0 : K) < 1 * (((m : K) + 2) ^ 2 * (((m : K) + 2) ^ 2 - 1) / 3)
          - 1 * ((m : K) ^ 2 * ((m : K) ^ 2 - 1) / 3) := by
        have : 1 * (((m : K) + 2) ^ 2 * (((m : K) + 2) ^ 2 - 1) / 3)
          - 1 * ((m : K) ^ 2 * ((m : K) ^ 2 - 1) / 3)
          = (8 * (m : K) ^ 3 + 24 * (m : K) ^ 2 + 28 * m + 12) / 3 := by ring
        rw [this]; positivity
      exact this.ne')
    have c2 := solve2 b1.2 b2.2 (by
      have : (0 : K) < 1 * (((m : K) + 3) ^ 2 * (((m : K) + 3) ^ 2 - 1) / 3)
          - 1 * (((m : K) + 1) ^ 2 * (((m : K) + 1) ^ 2 - 1) / 3) := by
        have : 1 * (((m : K) + 3) ^ 2 * (((m : K) + 3) ^ 2 - 1) / 3)
          - 1 * (((m : K) + 1) ^ 2 * (((m : K) + 1) ^ 2 - 1) / 3)
          = (8 * (m : K) ^ 3 + 48 * (m : K) ^ 2 + 100 * m + 72) / 3 := by ring
        rw [this]; positivity
      exact this.ne')
    exact fin4 m r h0 c1 c2

/-- Every coefficient vector satisfying the boundary conditions is in the range of the
stencil. -/
theorem bc_range (k : CKind) (m : ℕ) (hm : 1 ≤ m) (a : List T) (ha : a.length = m + k.nbc)
    (h : SatisfiesBC K k a) :
    ∃ v : ℕ → T, ∀ i < m + k.nbc, nth a i = ∑ j ∈ range m, k.mat K i j • v j := by
  obtain ⟨v, hv⟩ := exists_match (K := K) k (nth a) m
  refine ⟨v, fun i hi => ?_⟩
  set c : List T := (List.range (m + k.nbc)).map (fun i => ∑ j ∈ range m, k.mat K i j • v j) with hc
  have hci : ∀ i < m + k.nbc, nth c i = ∑ j ∈ range m, k.mat K i j • v j := fun i hi => by
    rw [hc]; exact nth_map_range _ _ _ hi
  have hcl : c.length = m + k.nbc := by simp [hc]
  have hcb := range_bc k m v c hcl hci
  rw [satisfiesBC_iff] at h hcb
  have := tail_zero (K := K) k m hm (fun i => nth a i - nth c i)
    (fun i hi => by rw [hci i (by omega), hv i hi, sub_self]) (fun p hp => by
      simp only [smul_sub, Finset.sum_sub_distrib]
      have h1 := h p hp
      have h2 := hcb p hp
      unfold chebDeriv at h1 h2
      rw [ha] at h1
      rw [hcl] at h2
      rw [show ∑ i ∈ range (m + k.nbc), tv K p.1 p.2 i • nth a i = 0 from h1,
        show ∑ i ∈ range (m + k.nbc), tv K p.1 p.2 i • nth c i = 0 from h2, sub_zero]) i hi
  rw [← hci i hi]
  exact sub_eq_zero.mp this

end Verif
