/-
Two-dimensional ingredients of the convergence of the solvers: coercivity, the residual on the grid, the pointwise bound, and the
interpolant of a function of two variables.
-/
import Verif.Props.HeatRate

namespace Verif
open Res Spec Finset Props Polynomial

/-! ### coercivity -/

theorem wInt_chebPoly_sq (d : List ℝ) :
    wInt (chebPoly ℝ d ^ 2) = ∑ i ∈ range d.length, wInt (Chebyshev.T ℝ (i : ℤ) ^ 2) * nth d i ^ 2 := by
  have h1 : ∀ i ∈ range d.length, wInt (chebPoly ℝ d * Chebyshev.T ℝ (i : ℤ)) = nth d i * wInt (Chebyshev.T ℝ (i : ℤ) ^ 2) := by
    intro i hi
    unfold chebPoly
    rw [Finset.sum_mul, wInt_sum, Finset.sum_eq_single i]
    · rw [mul_assoc, wInt_C_mul, ← sq]
    · intro j _ hj
      rw [mul_assoc, wInt_C_mul, wInt_TT hj, mul_zero]
    · intro h; exact absurd hi h
  have h2 : chebPoly ℝ d ^ 2 = ∑ i ∈ range d.length, C (nth d i) * (chebPoly ℝ d * Chebyshev.T ℝ (i : ℤ)) := by
    rw [sq]
    conv_lhs => rw [mul_comm]; unfold chebPoly
    rw [Finset.sum_mul]
    refine Finset.sum_congr rfl fun i _ => ?_
    unfold chebPoly
    ring
  rw [h2, wInt_sum]
  refine Finset.sum_congr rfl fun i hi => ?_
  rw [wInt_C_mul, h1 i hi]
  ring

theorem wInt_mono {p q : ℝ[X]} (h : ∀ x, -1 ≤ x → x ≤ 1 → p.eval x ≤ q.eval x) : wInt p ≤ wInt q := by
  have := wInt_nonneg (p := q - p) fun x h1 h2 => by rw [eval_sub]; linarith [h x h1 h2]
  rw [wInt_sub] at this
  linarith

/-- The second derivative of an axis with Dirichlet conditions is coercive in the resolved coefficients. -/
theorem axis_coercive {o : Mode} {p : ℕ} {b : Compo ℝ} {S P I : Mat ℝ}
    (h : TauSetup o .dirichlet (p + 2) b S P I) {Q : Matrix (Fin p) (Fin p) ℝ}
    {M : Matrix (Fin p) (Fin b.lenSpec) ℝ} (ha : AxisTau p b.lenSpec S P I Q M) (x : Fin b.lenSpec → ℝ) :
    ∑ i : Fin p, wInt (Chebyshev.T ℝ ((i : ℕ) : ℤ) ^ 2) * ((toM S p b.lenSpec).mulVec x i * M.mulVec x i)
      ≤ -(1 / 2) * ∑ i : Fin p, wInt (Chebyshev.T ℝ ((i : ℕ) : ℤ) ^ 2) * ((toM S p b.lenSpec).mulVec x i) ^ 2 := by
  obtain ⟨he, hn⟩ := axis_pair h ha x
  rw [he]
  simp only [hn]
  set d := mulVec S (List.ofFn x) with hd
  have hdl : d.length = p + 2 := by rw [hd, mulVec_length, h.r1]
  obtain ⟨b1, b2⟩ := h.bc (List.ofFn x)
  have hfull : ∑ i : Fin p, wInt (Chebyshev.T ℝ ((i : ℕ) : ℤ) ^ 2) * nth d i ^ 2 ≤ wInt (chebPoly ℝ d ^ 2) := by
    rw [wInt_chebPoly_sq, hdl, Finset.sum_range_succ, Finset.sum_range_succ, Finset.sum_range]
    have k1 := mul_nonneg (wInt_TT_pos p).le (sq_nonneg (nth d p))
    have k2 := mul_nonneg (wInt_TT_pos (p + 1)).le (sq_nonneg (nth d (p + 1)))
    linarith
  obtain ⟨q, hq⟩ := factor_bc b1 b2
  have h3 := wInt_coercive_le q
  have h4 : wInt (((1 - X ^ 2) * q) ^ 2) ≤ wInt (q ^ 2) := wInt_mono fun t h1 h2 => by
    simp only [eval_mul, eval_sub, eval_one, eval_pow, eval_X]
    rw [mul_pow]
    refine mul_le_of_le_one_left (sq_nonneg _) ?_
    have : 0 ≤ 1 - t ^ 2 := by nlinarith
    exact pow_le_one₀ this (by nlinarith)
  rw [← hq] at h3 h4
  linarith

/-- testing the two-dimensional Laplacian with the function itself -/
theorem kron_coercive {p s p' s' : ℕ} {N M : Matrix (Fin p) (Fin s) ℝ} {N' M' : Matrix (Fin p') (Fin s') ℝ}
    {w : Fin p → ℝ} {w' : Fin p' → ℝ} (hw : ∀ i, 0 < w i) (hw' : ∀ i, 0 < w' i) {κ κ' : ℝ}
    (h : ∀ x, ∑ i, w i * (N.mulVec x i * M.mulVec x i) ≤ -κ * ∑ i, w i * N.mulVec x i ^ 2)
    (h' : ∀ x, ∑ i, w' i * (N'.mulVec x i * M'.mulVec x i) ≤ -κ' * ∑ i, w' i * N'.mulVec x i ^ 2)
    (V : Matrix (Fin s) (Fin s') ℝ) :
    ∑ i, ∑ j, w i * w' j * ((N * V * N'.transpose) i j * (N * V * M'.transpose + M * V * N'.transpose) i j)
      ≤ -(κ + κ') * ∑ i, ∑ j, w i * w' j * (N * V * N'.transpose) i j ^ 2 := by
  set x : Fin p' → Fin s → ℝ := fun j k => (V * N'.transpose) k j with hx
  set y : Fin p → Fin s' → ℝ := fun i l => (N * V) i l with hy
  have e1 : ∀ i j, (N * V * N'.transpose) i j = N.mulVec (x j) i := fun i j => by
    rw [Matrix.mul_assoc]; rfl
  have e2 : ∀ i j, (M * V * N'.transpose) i j = M.mulVec (x j) i := fun i j => by
    rw [Matrix.mul_assoc]; rfl
  have e3 : ∀ i j, (N * V * N'.transpose) i j = N'.mulVec (y i) j := fun i j => by
    rw [Matrix.mul_apply]; exact Finset.sum_congr rfl fun l _ => mul_comm _ _
  have e4 : ∀ i j, (N * V * M'.transpose) i j = M'.mulVec (y i) j := fun i j => by
    rw [Matrix.mul_apply]; exact Finset.sum_congr rfl fun l _ => mul_comm _ _
  have s1 : ∑ i, ∑ j, w i * w' j * ((N * V * N'.transpose) i j * (M * V * N'.transpose) i j)
      ≤ -κ * ∑ i, ∑ j, w i * w' j * (N * V * N'.transpose) i j ^ 2 := by
    rw [Finset.sum_comm, Finset.sum_comm (f := fun i j => w i * w' j * (N * V * N'.transpose) i j ^ 2), Finset.mul_sum]
    refine Finset.sum_le_sum fun j _ => ?_
    have := mul_le_mul_of_nonneg_left (h (x j)) (hw' j).le
    rw [Finset.mul_sum] at this
    refine (le_of_eq (Finset.sum_congr rfl fun i _ => ?_)).trans (this.trans (le_of_eq ?_))
    · rw [e1, e2]; ring
    · rw [mul_left_comm, Finset.mul_sum]
      congr 1
      exact Finset.sum_congr rfl fun i _ => by rw [e1]; ring
  have s2 : ∑ i, ∑ j, w i * w' j * ((N * V * N'.transpose) i j * (N * V * M'.transpose) i j)
      ≤ -κ' * ∑ i, ∑ j, w i * w' j * (N * V * N'.transpose) i j ^ 2 := by
    rw [Finset.mul_sum]
    refine Finset.sum_le_sum fun i _ => ?_
    have := mul_le_mul_of_nonneg_left (h' (y i)) (hw i).le
    rw [Finset.mul_sum] at this
    refine (le_of_eq (Finset.sum_congr rfl fun j _ => ?_)).trans (this.trans (le_of_eq ?_))
    · rw [e3, e4]; ring
    · rw [mul_left_comm, Finset.mul_sum]
      congr 1
      exact Finset.sum_congr rfl fun j _ => by rw [e3]; ring
  have s3 : ∑ i, ∑ j, w i * w' j * ((N * V * N'.transpose) i j * (N * V * M'.transpose + M * V * N'.transpose) i j)
      = ∑ i, ∑ j, w i * w' j * ((N * V * N'.transpose) i j * (N * V * M'.transpose) i j)
        + ∑ i, ∑ j, w i * w' j * ((N * V * N'.transpose) i j * (M * V * N'.transpose) i j) := by
    rw [← Finset.sum_add_distrib]
    refine Finset.sum_congr rfl fun i _ => ?_
    rw [← Finset.sum_add_distrib]
    refine Finset.sum_congr rfl fun j _ => ?_
    rw [Matrix.add_apply]; ring
  rw [s3]
  linarith

/-- the solution of a two-dimensional Helmholtz or Poisson problem is bounded by its right hand side -/
theorem kron_bound {p s p' s' : ℕ} {N M : Matrix (Fin p) (Fin s) ℝ} {N' M' : Matrix (Fin p') (Fin s') ℝ}
    {w : Fin p → ℝ} {w' : Fin p' → ℝ} (hw : ∀ i, 0 < w i) (hw' : ∀ i, 0 < w' i) {κ κ' : ℝ}
    (h : ∀ x, ∑ i, w i * (N.mulVec x i * M.mulVec x i) ≤ -κ * ∑ i, w i * N.mulVec x i ^ 2)
    (h' : ∀ x, ∑ i, w' i * (N'.mulVec x i * M'.mulVec x i) ≤ -κ' * ∑ i, w' i * N'.mulVec x i ^ 2) {β c : ℝ} (hc : 0 ≤ c)
    (hb : 0 ≤ β + c * (κ + κ')) {V : Matrix (Fin s) (Fin s') ℝ} {F : Matrix (Fin p) (Fin p') ℝ}
    (e : β • (N * V * N'.transpose) - c • (N * V * M'.transpose + M * V * N'.transpose) = F) :
    (β + c * (κ + κ')) * √(∑ i, ∑ j, w i * w' j * (N * V * N'.transpose) i j ^ 2) ≤ √(∑ i, ∑ j, w i * w' j * F i j ^ 2) := by
  have hk := kron_coercive hw hw' h h' V
  set U := N * V * N'.transpose with hU
  set A := ∑ i, ∑ j, w i * w' j * U i j ^ 2 with hA
  have hA0 : 0 ≤ A := Finset.sum_nonneg fun i _ => Finset.sum_nonneg fun j _ =>
    mul_nonneg (mul_nonneg (hw i).le (hw' j).le) (sq_nonneg _)
  set G := ∑ i, ∑ j, w i * w' j * F i j ^ 2 with hG
  have hF : ∀ i j, F i j = β * U i j - c * (N * V * M'.transpose + M * V * N'.transpose) i j := fun i j => by
    rw [← e]; rfl
  set B := ∑ i, ∑ j, w i * w' j * (U i j * F i j) with hB
  have h1 : (β + c * (κ + κ')) * A ≤ B := by
    have : B = β * A - c * ∑ i, ∑ j, w i * w' j * (U i j * (N * V * M'.transpose + M * V * N'.transpose) i j) := by
      rw [hB, hA, Finset.mul_sum, Finset.mul_sum, ← Finset.sum_sub_distrib]
      refine Finset.sum_congr rfl fun i _ => ?_
      rw [Finset.mul_sum, Finset.mul_sum, ← Finset.sum_sub_distrib]
      refine Finset.sum_congr rfl fun j _ => ?_
      rw [hF]; ring
    rw [this]
    have := mul_le_mul_of_nonneg_left hk hc
    linarith
  have h2 : B ≤ √A * √G := by
    rw [← Real.sqrt_mul hA0]
    refine Real.le_sqrt_of_sq_le ?_
    have cs := Finset.sum_mul_sq_le_sq_mul_sq (Finset.univ : Finset (Fin p × Fin p')) (fun z => √(w z.1 * w' z.2) * U z.1 z.2)
      (fun z => √(w z.1 * w' z.2) * F z.1 z.2)
    have q : ∀ z : Fin p × Fin p', √(w z.1 * w' z.2) * √(w z.1 * w' z.2) = w z.1 * w' z.2 := fun z =>
      Real.mul_self_sqrt (mul_pos (hw _) (hw' _)).le
    have e1 : ∀ X Y : Matrix (Fin p) (Fin p') ℝ, ∑ z : Fin p × Fin p', √(w z.1 * w' z.2) * X z.1 z.2 * (√(w z.1 * w' z.2) * Y z.1 z.2)
        = ∑ i, ∑ j, w i * w' j * (X i j * Y i j) := fun X Y => by
      rw [← Finset.univ_product_univ, Finset.sum_product]
      refine Finset.sum_congr rfl fun i _ => Finset.sum_congr rfl fun j _ => ?_
      have := q (i, j)
      dsimp only at this
      rw [show √(w i * w' j) * X i j * (√(w i * w' j) * Y i j) = √(w i * w' j) * √(w i * w' j) * (X i j * Y i j) by ring, this]
    have e2 : ∀ X : Matrix (Fin p) (Fin p') ℝ, ∑ z : Fin p × Fin p', (√(w z.1 * w' z.2) * X z.1 z.2) ^ 2
        = ∑ i, ∑ j, w i * w' j * X i j ^ 2 := fun X => by
      have := e1 X X
      simp only [← sq] at this
      exact this
    rwa [e1, e2, e2] at cs
  have hs : √A ^ 2 = A := Real.sq_sqrt hA0
  have h6 : 0 ≤ √A := Real.sqrt_nonneg _
  rcases h6.eq_or_lt with h0 | h0
  · rw [← h0, mul_zero]; positivity
  · refine le_of_mul_le_mul_left ?_ h0
    nlinarith

/-! ### functions of two variables -/

theorem eval_range (n : ℕ) (a : ℕ → ℝ) (x : ℝ) :
    (chebPoly ℝ ((List.range n).map a)).eval x = ∑ i ∈ range n, a i * chebFn i x := by
  unfold chebPoly chebFn
  rw [eval_finset_sum, List.length_map, List.length_range]
  refine Finset.sum_congr rfl fun i hi => ?_
  rw [eval_mul, eval_C, nth_map_range _ _ _ (Finset.mem_range.mp hi)]

/-- `chebSum2` as a polynomial in the first variable -/
theorem chebSum2_row (n n' : ℕ) (R : ℕ → ℕ → ℝ) (x y : ℝ) :
    chebSum2 n n' R x y = (chebPoly ℝ ((List.range n).map fun i => ∑ l ∈ range n', R i l * chebFn l y)).eval x := by
  rw [eval_range]
  unfold chebSum2
  refine Finset.sum_congr rfl fun i _ => ?_
  rw [Finset.sum_mul]
  exact Finset.sum_congr rfl fun l _ => by ring

theorem chebSum2_swap (n n' : ℕ) (R : ℕ → ℕ → ℝ) (x y : ℝ) : chebSum2 n n' R x y = chebSum2 n' n (fun l i => R i l) y x := by
  unfold chebSum2
  rw [Finset.sum_comm]
  exact Finset.sum_congr rfl fun i _ => Finset.sum_congr rfl fun l _ => by ring

theorem coeff_zero {n : ℕ} {a : ℕ → ℝ} (h : ∀ x, ∑ i ∈ range n, a i * chebFn i x = 0) : ∀ i < n, a i = 0 := by
  intro i hi
  have := chebPoly_ext (a := (List.range n).map a) (b := (List.range n).map fun _ => (0 : ℝ)) (by simp) (Polynomial.funext fun x => by
    rw [eval_range, eval_range, h]; simp)
  have := congrArg (fun l => nth l i) this
  rwa [nth_map_range _ _ _ hi, nth_map_range _ _ _ hi] at this

/-- The resolved coefficients of a function that is small at the grid points are small. -/
theorem resolved_le2 (n n' : ℕ) (b b' : Cheb) (hb : Cheb.new n = ok b) (hb' : Cheb.new n' = ok b') (x x' : List ℝ)
    (hx : b.coords = ok x) (hx' : b'.coords = ok x') (R : ℕ → ℕ → ℝ) {M : ℝ}
    (hM : ∀ i < n, ∀ j < n', |chebSum2 n n' R (nth x i) (nth x' j)| ≤ M) :
    ∑ i ∈ range (n - 2), ∑ l ∈ range (n' - 2), chebWeight i * chebWeight l * R i l ^ 2 ≤ M ^ 2 := by
  have hn := (cheb_of_new hb).2
  have hn' := (cheb_of_new hb').2
  have hN' : (0 : ℝ) < (n' - 1 : ℕ) := by exact_mod_cast (show 0 < n' - 1 by omega)
  have cw : ∀ i, 0 ≤ chebWeight i := fun i => by unfold chebWeight; split <;> norm_num
  have h1 : ∀ j < n', ∑ i ∈ range (n - 2), chebWeight i * (∑ l ∈ range n', R i l * chebFn l (nth x' j)) ^ 2 ≤ M ^ 2 := by
    intro j hj
    have := resolved_le n b hb x ((List.range n).map fun i => ∑ l ∈ range n', R i l * chebFn l (nth x' j)) hx (by simp) (M := M)
      fun i hi => by rw [← chebSum2_row]; exact hM i hi j hj
    refine le_trans (le_of_eq (Finset.sum_congr rfl fun i hi => ?_)) this
    rw [nth_map_range _ _ _ (by have := Finset.mem_range.mp hi; omega)]
  have h2 : ∀ i, (n' - 1 : ℕ) * ∑ l ∈ range (n' - 2), chebWeight l * R i l ^ 2
      ≤ ∑ j ∈ range n', gridWeight n' j * (∑ l ∈ range n', R i l * chebFn l (nth x' j)) ^ 2 := by
    intro i
    have := resolved_grid n' b' hb' x' ((List.range n').map fun l => R i l) hx' (by simp)
    simp only [eval_range] at this
    refine le_trans (le_of_eq ?_) this
    congr 1
    refine Finset.sum_congr rfl fun l hl => ?_
    rw [nth_map_range _ _ _ (by have := Finset.mem_range.mp hl; omega)]
  refine le_of_mul_le_mul_left ?_ hN'
  calc ((n' - 1 : ℕ) : ℝ) * ∑ i ∈ range (n - 2), ∑ l ∈ range (n' - 2), chebWeight i * chebWeight l * R i l ^ 2
      = ∑ i ∈ range (n - 2), chebWeight i * ((n' - 1 : ℕ) * ∑ l ∈ range (n' - 2), chebWeight l * R i l ^ 2) := by
        rw [Finset.mul_sum]
        refine Finset.sum_congr rfl fun i _ => ?_
        rw [Finset.mul_sum, Finset.mul_sum, Finset.mul_sum]
        exact Finset.sum_congr rfl fun l _ => by ring
    _ ≤ ∑ i ∈ range (n - 2), chebWeight i * ∑ j ∈ range n', gridWeight n' j * (∑ l ∈ range n', R i l * chebFn l (nth x' j)) ^ 2 :=
        Finset.sum_le_sum fun i _ => mul_le_mul_of_nonneg_left (h2 i) (cw i)
    _ = ∑ j ∈ range n', gridWeight n' j * ∑ i ∈ range (n - 2), chebWeight i * (∑ l ∈ range n', R i l * chebFn l (nth x' j)) ^ 2 := by
        simp only [Finset.mul_sum]
        rw [Finset.sum_comm]
        exact Finset.sum_congr rfl fun j _ => Finset.sum_congr rfl fun i _ => by ring
    _ ≤ ∑ j ∈ range n', gridWeight n' j * M ^ 2 := Finset.sum_le_sum fun j hj =>
        mul_le_mul_of_nonneg_left (h1 j (Finset.mem_range.mp hj)) (gridWeight_nonneg n' j)
    _ = ((n' - 1 : ℕ) : ℝ) * M ^ 2 := by rw [← Finset.sum_mul, sum_gridWeight hn']

/-- A function that vanishes on the boundary of the square is small if its resolved coefficients are. -/
theorem pointwise2 {p p' : ℕ} {U : ℕ → ℕ → ℝ} (hbc : ∀ t, chebSum2 (p + 2) (p' + 2) U 1 t = 0 ∧ chebSum2 (p + 2) (p' + 2) U (-1) t = 0 ∧
      chebSum2 (p + 2) (p' + 2) U t 1 = 0 ∧ chebSum2 (p + 2) (p' + 2) U t (-1) = 0) {x y : ℝ} (hx : x ∈ Set.Icc (-1 : ℝ) 1)
    (hy : y ∈ Set.Icc (-1 : ℝ) 1) :
    |chebSum2 (p + 2) (p' + 2) U x y| ≤ 9 * √((p + 2 : ℕ) : ℝ) * √((p' + 2 : ℕ) : ℝ)
      * √(∑ i ∈ range p, ∑ l ∈ range p', chebWeight i * chebWeight l * U i l ^ 2) := by
  have cw : ∀ i, 0 ≤ chebWeight i := fun i => by unfold chebWeight; split <;> norm_num
  set a : ℝ → ℕ → ℝ := fun y i => ∑ l ∈ range (p' + 2), U i l * chebFn l y with ha
  have hrow : ∀ x y, chebSum2 (p + 2) (p' + 2) U x y = (chebPoly ℝ ((List.range (p + 2)).map (a y))).eval x := chebSum2_row _ _ _
  have h1 := dirichlet_pointwise (p := p) (d := (List.range (p + 2)).map (a y)) (by simp) (by rw [← hrow]; exact (hbc y).1)
    (by rw [← hrow]; exact (hbc y).2.1) hx
  rw [← hrow] at h1
  refine h1.trans ?_
  have hz : ∀ σ : ℝ, (∀ t, chebSum2 (p + 2) (p' + 2) U t σ = 0) → ∀ i < p + 2, a σ i = 0 := fun σ hσ =>
    coeff_zero fun t => by rw [← eval_range, ← hrow]; exact hσ t
  have h2 : ∀ i < p, a y i ^ 2 ≤ 9 * ((p' + 2 : ℕ) : ℝ) * ∑ l ∈ range p', chebWeight l * U i l ^ 2 := by
    intro i hi
    have k := dirichlet_pointwise (p := p') (d := (List.range (p' + 2)).map fun l => U i l) (by simp)
      (by rw [eval_range]; exact hz 1 (fun t => (hbc t).2.2.1) i (by omega))
      (by rw [eval_range]; exact hz (-1) (fun t => (hbc t).2.2.2) i (by omega)) hy
    rw [eval_range] at k
    have k2 : ∑ l ∈ range p', chebWeight l * nth ((List.range (p' + 2)).map fun l => U i l) l ^ 2
        = ∑ l ∈ range p', chebWeight l * U i l ^ 2 := Finset.sum_congr rfl fun l hl => by
      rw [nth_map_range _ _ _ (by have := Finset.mem_range.mp hl; omega)]
    rw [k2] at k
    have k3 := pow_le_pow_left₀ (abs_nonneg _) k 2
    rw [sq_abs, mul_pow, mul_pow, Real.sq_sqrt (Nat.cast_nonneg _),
      Real.sq_sqrt (Finset.sum_nonneg fun l _ => mul_nonneg (cw l) (sq_nonneg _))] at k3
    refine k3.trans (le_of_eq (by norm_num))
  have h3 : ∑ i ∈ range p, chebWeight i * nth ((List.range (p + 2)).map (a y)) i ^ 2
      ≤ 9 * ((p' + 2 : ℕ) : ℝ) * ∑ i ∈ range p, ∑ l ∈ range p', chebWeight i * chebWeight l * U i l ^ 2 := by
    rw [Finset.mul_sum]
    refine Finset.sum_le_sum fun i hi => ?_
    have hi' := Finset.mem_range.mp hi
    rw [nth_map_range _ _ _ (by omega)]
    refine (mul_le_mul_of_nonneg_left (h2 i hi') (cw i)).trans (le_of_eq ?_)
    rw [Finset.mul_sum, Finset.mul_sum, Finset.mul_sum]
    exact Finset.sum_congr rfl fun l _ => by ring
  have h4 := Real.sqrt_le_sqrt h3
  rw [Real.sqrt_mul (by positivity), Real.sqrt_mul (by norm_num), show (9 : ℝ) = 3 ^ 2 by norm_num, Real.sqrt_sq (by norm_num)] at h4
  refine (mul_le_mul_of_nonneg_left h4 (by positivity)).trans (le_of_eq ?_)
  ring

/-! ### the interpolant -/

theorem cheb_unique (n : ℕ) (b : Cheb) (hb : Cheb.new n = ok b) (x : List ℝ) (hx : b.coords = ok x) {c d : List ℝ} (hc : c.length = n)
    (hd : d.length = n) (h : ∀ j < n, (chebPoly ℝ c).eval (nth x j) = (chebPoly ℝ d).eval (nth x j)) : c = d := by
  obtain ⟨rfl, hn⟩ := cheb_of_new hb
  have key : ∀ c : List ℝ, c.length = n → ∃ v, v.length = n ∧ (∀ j < n, nth v j = (chebPoly ℝ c).eval (nth x j)) ∧
      Cheb.forwardSlice ⟨n, n⟩ v (List.replicate n 0) = ok c := fun c hc => by
    obtain ⟨v, hv, hf⟩ := C03_forward_backward n _ hb c (List.replicate n 0) (List.replicate n 0) (by rw [hc]; rfl)
      (by simp [Cheb.lenPhys]) (by simp [Cheb.lenSpec])
    obtain ⟨x', v', h1, h2, h3, h4⟩ := C02_backward_evaluates n _ hb c (List.replicate n 0) (by rw [hc]; rfl) (by simp [Cheb.lenPhys])
    obtain rfl := Res.ok.inj (hx.symm.trans h1)
    obtain rfl := Res.ok.inj (hv.symm.trans h2)
    obtain ⟨x', e, l, -⟩ := C01_coords n _ hb
    obtain rfl := Res.ok.inj (hx.symm.trans e)
    exact ⟨v, by rw [h3, l], fun j hj => h4 j (by omega), hf⟩
  obtain ⟨v, vl, ve, vf⟩ := key c hc
  obtain ⟨w, wl, we, wf⟩ := key d hd
  obtain rfl : v = w := ext_nth (by rw [vl, wl]) fun j hj => by rw [ve j (by omega), we j (by omega), h j (by omega)]
  exact Res.ok.inj (vf.symm.trans wf)

theorem forward_of_values (n : ℕ) (b : Cheb) (hb : Cheb.new n = ok b) (x : List ℝ) (hx : b.coords = ok x) (f : ℝ → ℝ) {c out : List ℝ}
    (hc : c.length = n) (ho : out.length = b.lenSpec) (h : ∀ j < n, (chebPoly ℝ c).eval (nth x j) = f (nth x j)) :
    b.forwardSlice (x.map f) out = ok c := by
  obtain ⟨rfl, hn⟩ := cheb_of_new hb
  obtain ⟨x', e, l, -⟩ := C01_coords n _ hb
  obtain rfl := Res.ok.inj (hx.symm.trans e)
  obtain ⟨a, ha, hal, -⟩ := wp_total.mp (wp_forwardSlice ⟨n, n⟩ n rfl hn (x.map f) out (by simp [l]) ho)
  rw [ha, cheb_unique n _ hb x hx hal hc fun j hj => by rw [(interp_grid f n _ hb x out a ho hx ha).1 j hj, h j hj]]

theorem chebFn_sum_eval (n : ℕ) (a : ℕ → ℝ) : (fun s => ∑ i ∈ range n, a i * chebFn i s) = fun s => (chebPoly ℝ ((List.range n).map a)).eval s :=
  funext fun s => (eval_range n a s).symm

/-- The interpolant of a smooth function of one variable, in terms of its coefficients. -/
theorem interp_axis {p : ℕ} (hp : 6 ≤ p) (f : ℝ → ℝ) (hf : ContDiff ℝ p f) {M : ℝ}
    (hM : ∀ θ, |iteratedDeriv p (fun θ => f (Real.cos θ)) θ| ≤ M) (n : ℕ) (hn : 3 ≤ n) (b : Cheb) (hb : Cheb.new n = ok b) (x : List ℝ)
    (hx : b.coords = ok x) (a : ℕ → ℝ) (h : ∀ j < n, ∑ i ∈ range n, a i * chebFn i (nth x j) = f (nth x j)) :
    (∀ y ∈ Set.Icc (-1 : ℝ) 1, |∑ i ∈ range n, a i * chebFn i y - f y| ≤ 16 * M / (n : ℝ) ^ (p - 5)) ∧
    (∀ y ∈ Set.Icc (-1 : ℝ) 1, |iteratedDeriv 2 (fun s => ∑ i ∈ range n, a i * chebFn i s) y - iteratedDeriv 2 f y|
      ≤ 16 * M / (n : ℝ) ^ (p - 5)) ∧
    ∑ i ∈ range n, a i * chebFn i 1 = f 1 ∧ ∑ i ∈ range n, a i * chebFn i (-1) = f (-1) := by
  have hM0 : 0 ≤ M := (abs_nonneg _).trans (hM 0)
  have hn1 : (1 : ℝ) ≤ n := by exact_mod_cast (by omega : 1 ≤ n)
  set c := (List.range n).map a with hc
  have ho : (List.replicate b.lenSpec (0 : ℝ)).length = b.lenSpec := by simp
  have hfc := forward_of_values n b hb x hx f (c := c) (by simp [hc]) ho fun j hj => by rw [hc, eval_range, h j hj]
  have i0 := (interp_rate_B 0 p (by omega) f hf.contDiffOn M hM n hn b hb x _ c ho hx hfc).2
  have i2 := (interp_rate_B 2 p (by omega) f hf.contDiffOn M hM n hn b hb x _ c ho hx hfc).2
  obtain ⟨-, e1, e2⟩ := interp_grid f n b hb x _ c ho hx hfc
  refine ⟨fun y hy => ?_, fun y hy => ?_, ?_, ?_⟩
  · have := i0 y hy
    simp only [Function.iterate_zero, id_eq, iteratedDerivWithin_zero] at this
    rw [← eval_range]
    exact this.trans (div_le_div_of_nonneg_left (by positivity) (by positivity) (pow_le_pow_right₀ hn1 (by omega)))
  · have := i2 y hy
    rw [iteratedDerivWithin_eq_iteratedDeriv (uniqueDiffOn_Icc (by norm_num))
      (hf.contDiffAt.of_le (by exact_mod_cast (by omega : 2 ≤ p))) hy] at this
    rw [chebFn_sum_eval, iteratedDeriv_two_eval]
    exact this
  · rw [← eval_range]; exact e2
  · rw [← eval_range]; exact e1

theorem coords_mem {n : ℕ} {b : Cheb} (hb : Cheb.new n = ok b) {x : List ℝ} (hx : b.coords = ok x) : ∀ j < n, nth x j ∈ Set.Icc (-1 : ℝ) 1 := by
  intro j hj
  obtain ⟨x', e, -, hxj, -⟩ := C01_coords n _ hb
  obtain rfl := Res.ok.inj (hx.symm.trans e)
  rw [hxj j hj]
  exact ⟨by linarith [Real.cos_le_one (Real.pi * j / (n - 1 : ℕ))], by linarith [Real.neg_one_le_cos (Real.pi * j / (n - 1 : ℕ))]⟩

theorem chebSum2_fst (n n' : ℕ) (A : ℕ → ℕ → ℝ) (x y : ℝ) :
    chebSum2 n n' A x y = ∑ i ∈ range n, (∑ l ∈ range n', A i l * chebFn l y) * chebFn i x := by
  rw [chebSum2_row, eval_range]

theorem chebSum2_snd (n n' : ℕ) (A : ℕ → ℕ → ℝ) (x y : ℝ) :
    chebSum2 n n' A x y = ∑ l ∈ range n', (∑ i ∈ range n, A i l * chebFn i x) * chebFn l y := by
  rw [chebSum2_swap, chebSum2_fst]

/-- A polynomial of two variables whose values on one side of the square vanish at the grid points vanishes on the whole side. -/
theorem side_zero {n n' : ℕ} (b' : Cheb) (hb' : Cheb.new n' = ok b') (x' : List ℝ) (hx' : b'.coords = ok x') (A : ℕ → ℕ → ℝ) {σ : ℝ}
    (h : ∀ j < n', chebSum2 n n' A σ (nth x' j) = 0) (t : ℝ) : chebSum2 n n' A σ t = 0 := by
  have := cheb_unique n' b' hb' x' hx' (c := (List.range n').map fun l => ∑ i ∈ range n, A i l * chebFn i σ)
    (d := (List.range n').map fun _ => (0 : ℝ)) (by simp) (by simp) fun j hj => by
      rw [eval_range, eval_range, ← chebSum2_snd, h j hj]; simp
  rw [chebSum2_snd, ← eval_range, this, eval_range]
  simp

/-- The interpolant of a smooth function of two variables that vanishes on the boundary of the square. -/
theorem interp2 {p : ℕ} (hp : 6 ≤ p) (Y : ℝ → ℝ → ℝ) (hY : ContDiff ℝ p (Function.uncurry Y)) {M : ℝ}
    (hM : ∀ y ∈ Set.Icc (-1 : ℝ) 1, ∀ θ, |iteratedDeriv p (fun θ => Y (Real.cos θ) y) θ| ≤ M)
    (hM' : ∀ x ∈ Set.Icc (-1 : ℝ) 1, ∀ θ, |iteratedDeriv p (fun θ => Y x (Real.cos θ)) θ| ≤ M)
    (hbc : ∀ t ∈ Set.Icc (-1 : ℝ) 1, Y 1 t = 0 ∧ Y (-1) t = 0 ∧ Y t 1 = 0 ∧ Y t (-1) = 0)
    (n n' : ℕ) (hn : 3 ≤ n) (hn' : 3 ≤ n') (b b' : Cheb) (hb : Cheb.new n = ok b) (hb' : Cheb.new n' = ok b') (x x' : List ℝ)
    (hx : b.coords = ok x) (hx' : b'.coords = ok x') (A : ℕ → ℕ → ℝ)
    (hA : ∀ i < n, ∀ j < n', chebSum2 n n' A (nth x i) (nth x' j) = Y (nth x i) (nth x' j)) :
    (∀ i < n, ∀ j < n', |laplacian2 (chebSum2 n n' A) (nth x i) (nth x' j) - laplacian2 Y (nth x i) (nth x' j)|
      ≤ 16 * M * (1 / (n : ℝ) ^ (p - 5) + 1 / (n' : ℝ) ^ (p - 5))) ∧
    (∀ t, chebSum2 n n' A 1 t = 0 ∧ chebSum2 n n' A (-1) t = 0 ∧ chebSum2 n n' A t 1 = 0 ∧ chebSum2 n n' A t (-1) = 0) ∧
    ∀ s ∈ Set.Icc (-1 : ℝ) 1, ∀ t ∈ Set.Icc (-1 : ℝ) 1, |chebSum2 n n' A s t - Y s t|
      ≤ 48 * M * √(n' : ℝ) * (1 / (n : ℝ) ^ (p - 5) + 1 / (n' : ℝ) ^ (p - 5)) := by
  have h1 : ∀ y, ContDiff ℝ p fun s => Y s y := fun y => hY.comp (contDiff_id.prodMk contDiff_const)
  have h2 : ∀ x, ContDiff ℝ p (Y x) := fun x => hY.comp (contDiff_const.prodMk contDiff_id)
  have m1 := coords_mem hb hx
  have m2 := coords_mem hb' hx'
  have hM0 : 0 ≤ M := (abs_nonneg _).trans (hM 0 ⟨by norm_num, by norm_num⟩ 0)
  -- the axes
  have a1 : ∀ j < n', _ := fun j hj => interp_axis hp (fun s => Y s (nth x' j)) (h1 _) (hM _ (m2 j hj)) n hn b hb x hx
    (fun i => ∑ l ∈ range n', A i l * chebFn l (nth x' j)) fun i hi => by rw [← chebSum2_fst]; exact hA i hi j hj
  have a2 : ∀ i < n, _ := fun i hi => interp_axis hp (Y (nth x i)) (h2 _) (hM' _ (m1 i hi)) n' hn' b' hb' x' hx'
    (fun l => ∑ k ∈ range n, A k l * chebFn k (nth x i)) fun j hj => by rw [← chebSum2_snd]; exact hA i hi j hj
  simp only [← chebSum2_fst] at a1
  simp only [← chebSum2_snd] at a2
  have bc : ∀ t, chebSum2 n n' A 1 t = 0 ∧ chebSum2 n n' A (-1) t = 0 ∧ chebSum2 n n' A t 1 = 0 ∧ chebSum2 n n' A t (-1) = 0 := by
    intro t
    refine ⟨side_zero b' hb' x' hx' A (fun j hj => ?_) t, side_zero b' hb' x' hx' A (fun j hj => ?_) t, ?_, ?_⟩
    · rw [(a1 j hj).2.2.1]; exact (hbc _ (m2 j hj)).1
    · rw [(a1 j hj).2.2.2]; exact (hbc _ (m2 j hj)).2.1
    · rw [chebSum2_swap]
      refine side_zero b hb x hx (fun l i => A i l) (fun i hi => ?_) t
      rw [chebSum2_swap]
      rw [(a2 i hi).2.2.1]; exact (hbc _ (m1 i hi)).2.2.1
    · rw [chebSum2_swap]
      refine side_zero b hb x hx (fun l i => A i l) (fun i hi => ?_) t
      rw [chebSum2_swap]
      rw [(a2 i hi).2.2.2]; exact (hbc _ (m1 i hi)).2.2.2
  refine ⟨fun i hi j hj => ?_, bc, fun s hs t ht => ?_⟩
  · have k1 := (a1 j hj).2.1 _ (m1 i hi)
    have k2 := (a2 i hi).2.1 _ (m2 j hj)
    unfold laplacian2
    rw [add_sub_add_comm]
    refine (abs_add_le _ _).trans ?_
    rw [mul_add, mul_one_div, mul_one_div]
    exact add_le_add k1 k2
  · obtain ⟨r, rfl⟩ : ∃ r, n' = r + 2 := ⟨n' - 2, by omega⟩
    have hq := (cheb_of_new hb').1
    obtain ⟨c, hc, hcl, -⟩ := wp_total.mp (wp_forwardSlice b' (r + 2) (by rw [hq]) (by omega) (x'.map (Y s))
      (List.replicate b'.lenSpec 0) (by
        obtain ⟨x2, e, l, -⟩ := C01_coords _ _ hb'
        obtain rfl := Res.ok.inj (hx'.symm.trans e)
        simp [l]) (by simp [hq, Cheb.lenSpec]))
    obtain ⟨g0, g1, g2⟩ := interp_grid (Y s) (r + 2) b' hb' x' _ c (by simp) hx' hc
    have hcr : (List.range (r + 2)).map (fun l => nth c l) = c := ext_nth (by simp [hcl]) fun j hj => by
      rw [nth_map_range _ _ _ (by simpa using hj)]
    have hce : ∀ y, (chebPoly ℝ c).eval y = ∑ l ∈ range (r + 2), nth c l * chebFn l y := fun y => by rw [← eval_range, hcr]
    have ax := interp_axis hp (Y s) (h2 s) (hM' s hs) (r + 2) hn' b' hb' x' hx' (fun l => nth c l) fun j hj => by
      rw [← hce]; exact g0 j hj
    set d := (List.range (r + 2)).map fun l => ∑ k ∈ range n, A k l * chebFn k s - nth c l with hd
    have hde : ∀ y, (chebPoly ℝ d).eval y = chebSum2 n (r + 2) A s y - (chebPoly ℝ c).eval y := fun y => by
      rw [hd, eval_range, hce, chebSum2_snd, ← Finset.sum_sub_distrib]
      exact Finset.sum_congr rfl fun l _ => by ring
    have hres := resolved_le (r + 2) b' hb' x' d hx' (by simp [hd]) (M := 16 * M / (n : ℝ) ^ (p - 5)) fun j hj => by
      rw [hde, g0 j hj]
      exact (a1 j hj).1 s hs
    have hpt := dirichlet_pointwise (p := r) (d := d) (by simp [hd]) (by rw [hde, g2, (bc s).2.2.1, (hbc s hs).2.2.1, sub_zero])
      (by rw [hde, g1, (bc s).2.2.2, (hbc s hs).2.2.2, sub_zero]) ht
    rw [Nat.add_sub_cancel] at hres
    have hpt2 := hpt.trans (mul_le_mul_of_nonneg_left (Real.sqrt_le_sqrt hres) (by positivity))
    rw [Real.sqrt_sq (by positivity), hde] at hpt2
    have k3 := ax.1 t ht
    rw [← hce] at k3
    have hs1 : 1 ≤ √((r + 2 : ℕ) : ℝ) := Real.one_le_sqrt.mpr (by exact_mod_cast (by omega : 1 ≤ r + 2))
    rw [show chebSum2 n (r + 2) A s t - Y s t = (chebSum2 n (r + 2) A s t - (chebPoly ℝ c).eval t) + ((chebPoly ℝ c).eval t - Y s t) by ring]
    refine (abs_add_le _ _).trans ((add_le_add hpt2 k3).trans ?_)
    have e1 : 16 * M / (n : ℝ) ^ (p - 5) = 16 * M * (1 / (n : ℝ) ^ (p - 5)) := by ring
    have e2 : 16 * M / ((r + 2 : ℕ) : ℝ) ^ (p - 5) = 16 * M * (1 / ((r + 2 : ℕ) : ℝ) ^ (p - 5)) := by ring
    rw [e1, e2]
    set η := 1 / (n : ℝ) ^ (p - 5)
    have hη' : 0 ≤ 1 / ((r + 2 : ℕ) : ℝ) ^ (p - 5) := by positivity
    set η' := 1 / ((r + 2 : ℕ) : ℝ) ^ (p - 5)
    set R := √((r + 2 : ℕ) : ℝ)
    have : 0 ≤ M * η' := mul_nonneg hM0 hη'
    nlinarith

/-- A function of `n × n'` Chebyshev products that vanishes on the boundary of the square is one of the two Dirichlet bases. -/
theorem dirichlet_coeffs {o : Mode} {n n' : ℕ} {b b' : Compo ℝ} (hb : Compo.new .dirichlet n = ok b) (hb' : Compo.new .dirichlet n' = ok b')
    {S P I S' P' I' : Mat ℝ} (h : TauSetup o .dirichlet n b S P I) (h' : TauSetup o .dirichlet n' b' S' P' I') (A : ℕ → ℕ → ℝ)
    (bc : ∀ t, chebSum2 n n' A 1 t = 0 ∧ chebSum2 n n' A (-1) t = 0 ∧ chebSum2 n n' A t 1 = 0 ∧ chebSum2 n n' A t (-1) = 0) :
    ∃ W : Mat ℝ, W.rows = b.lenSpec ∧ W.cols = b'.lenSpec ∧ ∀ x y, fn2 S S' W x y = chebSum2 n n' A x y := by
  have ext : ∀ {n : ℕ} {b : Compo ℝ} {S P I : Mat ℝ}, Compo.new .dirichlet n = ok b → TauSetup o .dirichlet n b S P I → ∀ a : ℕ → ℝ,
      ∑ i ∈ range n, a i * chebFn i 1 = 0 → ∑ i ∈ range n, a i * chebFn i (-1) = 0 →
      ∃ w : List ℝ, w.length = b.lenSpec ∧ ∀ i < n, ∑ k ∈ range b.lenSpec, S.get i k * nth w k = a i := by
    intro n b S P I hb h a h1 h2
    obtain ⟨S', hS', -, hex⟩ := C17_boundary_conditions (K := ℝ) (T := ℝ) .dirichlet n b hb
    obtain rfl := Res.ok.inj (h.hS.symm.trans hS')
    obtain ⟨w, hwl, hwz⟩ := hex ((List.range n).map a) (by simp [h.ho]) (by
      show chebDeriv ℝ 0 _ 1 = 0 ∧ chebDeriv ℝ 0 _ (-1) = 0
      rw [chebDeriv_eq_eval, chebDeriv_eq_eval]
      exact ⟨(eval_range _ _ _).trans h1, (eval_range _ _ _).trans h2⟩)
    refine ⟨w, hwl, fun i hi => ?_⟩
    have := congrArg (fun l => nth l i) hwz
    rw [nth_map_range _ _ _ hi, nth_mulVec _ _ (by rw [h.r1]; exact hi), h.r2] at this
    exact this
  have z1 : ∀ σ : ℝ, (∀ t, chebSum2 n n' A t σ = 0) → ∀ k < n, ∑ l ∈ range n', A k l * chebFn l σ = 0 := fun σ hσ =>
    coeff_zero fun t => by rw [← chebSum2_fst]; exact hσ t
  have z2 : ∀ σ : ℝ, (∀ t, chebSum2 n n' A σ t = 0) → ∀ l < n', ∑ k ∈ range n, A k l * chebFn k σ = 0 := fun σ hσ =>
    coeff_zero fun t => by rw [← chebSum2_snd]; exact hσ t
  have hrow : ∀ k, ∃ w : List ℝ, k < n → w.length = b'.lenSpec ∧ ∀ l < n', ∑ m ∈ range b'.lenSpec, S'.get l m * nth w m = A k l := fun k => by
    by_cases hk : k < n
    · obtain ⟨w, hw⟩ := ext hb' h' (A k) (z1 1 (fun t => (bc t).2.2.1) k hk) (z1 (-1) (fun t => (bc t).2.2.2) k hk)
      exact ⟨w, fun _ => hw⟩
    · exact ⟨[], fun h => absurd h hk⟩
  choose B hB using hrow
  have zb : ∀ σ : ℝ, (∀ t, chebSum2 n n' A σ t = 0) → ∀ m < b'.lenSpec, ∑ k ∈ range n, nth (B k) m * chebFn k σ = 0 := by
    intro σ hσ m hm
    have := h'.inj ((List.range b'.lenSpec).map fun m => ∑ k ∈ range n, nth (B k) m * chebFn k σ) (List.replicate b'.lenSpec 0) (by simp)
      (by simp) (ext_nth (by rw [mulVec_length, mulVec_length]) fun l hl => by
        rw [mulVec_length] at hl
        rw [nth_mulVec _ _ hl, nth_mulVec _ _ hl, h'.r2, Finset.sum_eq_zero (f := fun k => S'.get l k • nth (List.replicate _ (0 : ℝ)) k)
          fun k _ => by rw [nth_rep0, smul_zero]]
        rw [h'.r1] at hl
        rw [← z2 σ hσ l hl]
        have e : ∀ m ∈ range b'.lenSpec, S'.get l m • nth ((List.range b'.lenSpec).map fun m => ∑ k ∈ range n, nth (B k) m * chebFn k σ) m
            = ∑ k ∈ range n, S'.get l m * nth (B k) m * chebFn k σ := fun m hm => by
          rw [nth_map_range _ _ _ (Finset.mem_range.mp hm), smul_eq_mul, Finset.mul_sum]
          exact Finset.sum_congr rfl fun k _ => by ring
        rw [Finset.sum_congr rfl e, Finset.sum_comm]
        refine Finset.sum_congr rfl fun k hk => ?_
        rw [← Finset.sum_mul, (hB k (Finset.mem_range.mp hk)).2 l hl])
    have := congrArg (fun l => nth l m) this
    rw [nth_map_range _ _ _ hm, nth_rep0] at this
    exact this
  have hcol : ∀ m, ∃ w : List ℝ, m < b'.lenSpec → w.length = b.lenSpec ∧ ∀ k < n, ∑ i ∈ range b.lenSpec, S.get k i * nth w i = nth (B k) m := fun m => by
    by_cases hm : m < b'.lenSpec
    · obtain ⟨w, hw⟩ := ext hb h (fun k => nth (B k) m) (zb 1 (fun t => (bc t).1) m hm) (zb (-1) (fun t => (bc t).2.1) m hm)
      exact ⟨w, fun _ => hw⟩
    · exact ⟨[], fun h => absurd h hm⟩
  choose w hw using hcol
  refine ⟨⟨b.lenSpec, b'.lenSpec, fun i m => nth (w m) i⟩, rfl, rfl, fun x y => ?_⟩
  have e1 : fn2 S S' ⟨b.lenSpec, b'.lenSpec, fun i m => nth (w m) i⟩ x y
      = ∑ m ∈ range b'.lenSpec, (∑ k ∈ range n, nth (B k) m * chebFn k x) * stencilFn S' m y := by
    unfold fn2
    rw [h.r2, h'.r2, Finset.sum_comm]
    refine Finset.sum_congr rfl fun m hm => ?_
    dsimp only
    unfold stencilFn
    rw [h.r1]
    simp only [← mul_assoc]
    rw [← Finset.sum_mul]
    congr 1
    rw [Finset.sum_congr rfl fun i _ => Finset.mul_sum _ _ _, Finset.sum_comm]
    refine Finset.sum_congr rfl fun k hk => ?_
    rw [← (hw m (Finset.mem_range.mp hm)).2 k (Finset.mem_range.mp hk), Finset.sum_mul]
    exact Finset.sum_congr rfl fun i _ => by ring
  rw [e1, chebSum2_fst]
  unfold stencilFn
  rw [h'.r1]
  simp only [Finset.mul_sum, Finset.sum_mul]
  rw [Finset.sum_comm]
  rw [Finset.sum_congr rfl fun l _ => Finset.sum_comm, Finset.sum_comm]
  refine Finset.sum_congr rfl fun k hk => Finset.sum_congr rfl fun l hl => ?_
  rw [← (hB k (Finset.mem_range.mp hk)).2 l (Finset.mem_range.mp hl), Finset.sum_mul, Finset.sum_mul]
  exact Finset.sum_congr rfl fun m _ => by ring

end Verif
