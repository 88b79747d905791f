/-
Property theorems C90: the Chebyshev transform and discrete inner products.
-/
import Verif.Props.Ortho

namespace Verif.Props
open Res Spec Finset

/-- C90 (weights of the grid): the two end points count half. -/
noncomputable def gridWeight (n j : ℕ) : ℝ := if j = 0 ∨ j + 1 = n then 1 / 2 else 1

/-- C90 (weights of the modes): the first and the last mode count twice. -/
noncomputable def modeWeight (n k : ℕ) : ℝ := if k = 0 ∨ k + 1 = n then 2 else 1

private theorem cw_grid {n j : ℕ} (hn : 2 ≤ n) : cw (n - 1) j = gridWeight n j := by
  unfold cw gridWeight
  have : (j = 0 ∨ j = n - 1) ↔ (j = 0 ∨ j + 1 = n) := by omega
  simp only [this]

private theorem cw_mode {n j : ℕ} (hn : 2 ≤ n) : 1 / cw (n - 1) j = modeWeight n j := by
  rw [cw_grid hn]
  unfold gridWeight modeWeight
  split <;> norm_num

theorem T_orth {n : ℕ} (hn : 2 ≤ n) {k l : ℕ} (hk : k < n) (hl : l < n) :
    ∑ j ∈ range n, gridWeight n j * ((Polynomial.Chebyshev.T ℝ k).eval (chebPt n j)
      * (Polynomial.Chebyshev.T ℝ l).eval (chebPt n j))
      = if k = l then (n - 1 : ℕ) / 2 * modeWeight n l else 0 := by
  have h := dct_orth (n - 1) k l (by omega) (by omega) (by omega)
  rw [show n - 1 + 1 = n by omega] at h
  calc _ = (-1) ^ (k + l) * ∑ i ∈ range n, cw (n - 1) i * (Real.cos (Real.pi * k * i / (n - 1 : ℕ))
        * Real.cos (Real.pi * i * l / (n - 1 : ℕ))) := by
        rw [Finset.mul_sum]
        refine Finset.sum_congr rfl (fun j hj => ?_)
        rw [chebPt_T, chebPt_T, cw_grid hn, pow_add,
          show Real.pi * l * j / ((n - 1 : ℕ) : ℝ) = Real.pi * j * l / ((n - 1 : ℕ) : ℝ) by ring]
        ring
    _ = _ := by
        rw [h]
        by_cases hkl : k = l
        · rw [if_pos hkl, if_pos hkl, hkl, Even.neg_one_pow ⟨l, rfl⟩, ← cw_mode hn]
          ring
        · rw [if_neg hkl, if_neg hkl, mul_zero]

/-- values of the represented function at the nodes -/
private theorem grid_values (n : ℕ) (b : Cheb) (hb : Cheb.new n = ok b) (u out : List ℝ)
    (hu : u.length = b.lenPhys) (ho : out.length = b.lenSpec) :
    ∃ a, b.forwardSlice u out = ok a ∧ a.length = n ∧ ∀ j < n, nth u j
      = ∑ k ∈ range n, nth a k * (Polynomial.Chebyshev.T ℝ k).eval (chebPt n j) := by
  obtain ⟨a, ha, ha'⟩ := C03_backward_forward n b hb u out (List.replicate b.lenPhys 0) hu ho (by simp)
  obtain ⟨rfl, hn⟩ := cheb_of_new hb
  have hal : a.length = n := by
    obtain ⟨a', h', hal, -⟩ := wp_total.mp (wp_forwardSlice ⟨n, n⟩ n rfl hn u out hu ho)
    obtain rfl := Res.ok.inj (ha.symm.trans h')
    exact hal
  refine ⟨a, ha, hal, fun j hj => ?_⟩
  obtain ⟨v, hv, y, rfl, hy, hyi⟩ := wp_total.mp
    (wp_backwardSlice ⟨n, n⟩ n rfl hn a (List.replicate n 0) hal (by simp))
  obtain rfl := Res.ok.inj (ha'.symm.trans hv)
  rw [backward_eval hn a y hal hy hyi j hj]
  unfold chebVal
  rw [hal]
  exact Finset.sum_congr rfl (fun k _ => by rw [smul_eq_mul, mul_comm])

/-- C90: the transform preserves the discrete inner product (weighted in both spaces). -/
theorem C90_inner (n : ℕ) (b : Cheb) (hb : Cheb.new n = ok b) (u v o o' : List ℝ)
    (hu : u.length = b.lenPhys) (hv : v.length = b.lenPhys) (ho : o.length = b.lenSpec)
    (ho' : o'.length = b.lenSpec) :
    ∃ a c, b.forwardSlice u o = ok a ∧ b.forwardSlice v o' = ok c ∧
      ∑ j ∈ range n, gridWeight n j * (nth u j * nth v j)
        = (n - 1 : ℕ) / 2 * ∑ k ∈ range n, modeWeight n k * (nth a k * nth c k) := by
  have hn := (cheb_of_new hb).2
  obtain ⟨a, ha, -, hua⟩ := grid_values n b hb u o hu ho
  obtain ⟨c, hc, -, hvc⟩ := grid_values n b hb v o' hv ho'
  refine ⟨a, c, ha, hc, ?_⟩
  calc _ = ∑ j ∈ range n, ∑ k ∈ range n, ∑ l ∈ range n, nth a k * nth c l * (gridWeight n j
        * ((Polynomial.Chebyshev.T ℝ k).eval (chebPt n j)
          * (Polynomial.Chebyshev.T ℝ l).eval (chebPt n j))) := by
        refine Finset.sum_congr rfl (fun j hj => ?_)
        rw [hua j (mem_range.1 hj), hvc j (mem_range.1 hj), Finset.sum_mul_sum, Finset.mul_sum]
        refine Finset.sum_congr rfl (fun k _ => ?_)
        rw [Finset.mul_sum]
        exact Finset.sum_congr rfl (fun l _ => by ring)
    _ = ∑ k ∈ range n, ∑ l ∈ range n, nth a k * nth c l
          * (if k = l then (n - 1 : ℕ) / 2 * modeWeight n l else 0) := by
        rw [Finset.sum_comm]
        refine Finset.sum_congr rfl (fun k hk => ?_)
        rw [Finset.sum_comm]
        refine Finset.sum_congr rfl (fun l hl => ?_)
        rw [← Finset.mul_sum, T_orth hn (mem_range.1 hk) (mem_range.1 hl)]
    _ = _ := by
        rw [Finset.mul_sum]
        refine Finset.sum_congr rfl (fun k hk => ?_)
        rw [Finset.sum_eq_single k (fun l _ hl => by rw [if_neg (Ne.symm hl), mul_zero])
          (fun h => absurd hk h), if_pos rfl]
        ring

/-- C90: discrete energy. -/
theorem C90_energy (n : ℕ) (b : Cheb) (hb : Cheb.new n = ok b) (u o : List ℝ)
    (hu : u.length = b.lenPhys) (ho : o.length = b.lenSpec) :
    ∃ a, b.forwardSlice u o = ok a ∧ ∑ j ∈ range n, gridWeight n j * nth u j ^ 2
        = (n - 1 : ℕ) / 2 * ∑ k ∈ range n, modeWeight n k * nth a k ^ 2 := by
  obtain ⟨a, c, ha, hc, h⟩ := C90_inner n b hb u u o o hu hu ho ho
  obtain rfl := Res.ok.inj (ha.symm.trans hc)
  exact ⟨a, ha, by simpa only [sq] using h⟩

/-- C90: every coefficient is the discrete inner product of the data with its Chebyshev polynomial on
the grid. -/
theorem C90_coefficients (n : ℕ) (b : Cheb) (hb : Cheb.new n = ok b) (u o : List ℝ)
    (hu : u.length = b.lenPhys) (ho : o.length = b.lenSpec) :
    ∃ x a, b.coords = ok x ∧ b.forwardSlice u o = ok a ∧ ∀ k < n, (n - 1 : ℕ) / 2 * modeWeight n k * nth a k
        = ∑ j ∈ range n, gridWeight n j * (nth u j * (Polynomial.Chebyshev.T ℝ k).eval (nth x j)) := by
  have hn := (cheb_of_new hb).2
  obtain ⟨a, ha, -, hua⟩ := grid_values n b hb u o hu ho
  obtain ⟨rfl, -⟩ := cheb_of_new hb
  obtain ⟨x, hx, rfl⟩ := wp_total.mp (wp_chebNodes (Q := fun _ => False) hn)
  refine ⟨_, a, hx, ha, fun l hl => ?_⟩
  symm
  calc _ = ∑ j ∈ range n, ∑ k ∈ range n, nth a k * (gridWeight n j
        * ((Polynomial.Chebyshev.T ℝ k).eval (chebPt n j)
          * (Polynomial.Chebyshev.T ℝ l).eval (chebPt n j))) := by
        refine Finset.sum_congr rfl (fun j hj => ?_)
        rw [nth_map_range _ _ _ (mem_range.1 hj), hua j (mem_range.1 hj), Finset.sum_mul, Finset.mul_sum]
        exact Finset.sum_congr rfl (fun l _ => by ring)
    _ = _ := by
        rw [Finset.sum_comm, Finset.sum_eq_single l]
        · rw [← Finset.mul_sum, T_orth hn hl hl, if_pos rfl]; ring
        · intro k hk hkl
          rw [← Finset.mul_sum, T_orth hn (mem_range.1 hk) hl, if_neg hkl, mul_zero]
        · exact fun h => absurd (mem_range.2 hl) h

/-- C90: data bounded by `M` have coefficients bounded by `2 M` (by `M` for the first and the last one). -/
theorem C90_bound (n : ℕ) (b : Cheb) (hb : Cheb.new n = ok b) (u o : List ℝ)
    (hu : u.length = b.lenPhys) (ho : o.length = b.lenSpec) (M : ℝ) (hM : ∀ j < n, |nth u j| ≤ M) :
    ∃ a, b.forwardSlice u o = ok a ∧ ∀ k < n, modeWeight n k * |nth a k| ≤ 2 * M := by
  have hn := (cheb_of_new hb).2
  obtain ⟨x, a, hx, ha, h⟩ := C90_coefficients n b hb u o hu ho
  refine ⟨a, ha, fun k hk => ?_⟩
  obtain ⟨rfl, -⟩ := cheb_of_new hb
  obtain ⟨x', hx', rfl⟩ := wp_total.mp (wp_chebNodes (Q := fun _ => False) hn)
  obtain rfl := Res.ok.inj (hx'.symm.trans hx)
  have hN : (0 : ℝ) < (n - 1 : ℕ) := by exact_mod_cast (show 0 < n - 1 by omega)
  have hmw : 0 ≤ modeWeight n k := by unfold modeWeight; split <;> norm_num
  have hgw : ∀ j, 0 ≤ gridWeight n j := fun j => by unfold gridWeight; split <;> norm_num
  have hsum : ∑ j ∈ range n, gridWeight n j = (n - 1 : ℕ) := by
    have := T_orth hn (k := 0) (l := 0) (by omega) (by omega)
    simpa [modeWeight] using this
  have h1 : |(n - 1 : ℕ) / 2 * modeWeight n k * nth a k| ≤ (n - 1 : ℕ) * M := by
    rw [h k hk, ← hsum, Finset.sum_mul]
    refine (Finset.abs_sum_le_sum_abs _ _).trans (Finset.sum_le_sum fun j hj => ?_)
    rw [abs_mul, abs_of_nonneg (hgw j), abs_mul]
    refine mul_le_mul_of_nonneg_left ?_ (hgw j)
    have hT : |(Polynomial.Chebyshev.T ℝ k).eval (nth ((List.range n).map (chebPt n)) j)| ≤ 1 := by
      rw [nth_map_range _ _ _ (mem_range.1 hj), chebPt_T, abs_mul, abs_pow, abs_neg, abs_one, one_pow, one_mul]
      exact Real.abs_cos_le_one _
    calc _ ≤ |nth u j| * 1 := mul_le_mul_of_nonneg_left hT (abs_nonneg _)
      _ ≤ M := by rw [mul_one]; exact hM j (mem_range.1 hj)
  rw [abs_mul, abs_mul, abs_of_nonneg hmw, abs_of_pos (by positivity)] at h1
  have := (mul_le_mul_iff_right₀ hN).1 (show (n - 1 : ℕ) * (modeWeight n k * |nth a k|)
    ≤ (n - 1 : ℕ) * (2 * M) by linarith)
  exact this

/-- The hypotheses are met: `u = 1 + T₂` on three points. -/
example : ∃ b : Cheb, Cheb.new 3 = ok b ∧ ∃ a, b.forwardSlice ([2, 0, 2] : List ℝ) [7, 8, 9] = ok a ∧
    ∀ k < 3, modeWeight 3 k * |nth a k| ≤ 4 := by
  refine ⟨⟨3, 3⟩, rfl, ?_⟩
  obtain ⟨a, ha, h⟩ := C90_bound 3 ⟨3, 3⟩ rfl [2, 0, 2] [7, 8, 9] rfl rfl 2 (by
    intro j hj
    interval_cases j <;> norm_num [nth])
  exact ⟨a, ha, fun k hk => (h k hk).trans (by norm_num)⟩

end Verif.Props
