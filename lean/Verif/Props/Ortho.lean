/-
Property theorems for the orthogonal Chebyshev base: C01-C09.
Transforms and grid points over the exact reals; gradient over any field of characteristic zero
and any vector space of data; matrices over any field of characteristic zero, with 64-bit
`usize` arithmetic in both build modes.
-/
import Verif.Proof.ChebTrans
import Verif.Proof.Pinv
import Verif.Proof.Compo
import Mathlib.Algebra.Field.Rat
import Mathlib.Algebra.Order.Ring.Rat

namespace Verif.Props
open Res Spec Finset

theorem cheb_of_new {n : ℕ} {b : Cheb} (hb : Cheb.new n = ok b) : b = ⟨n, n⟩ ∧ 2 ≤ n := by
  unfold Cheb.new assertR at hb
  by_cases h : n > 1
  · rw [if_pos h] at hb
    simp only [bind_ok, pure_eq] at hb
    cases hb
    exact ⟨rfl, h⟩
  · rw [if_neg h] at hb
    simp at hb

/-! ### C01 -/

/-- C01: the grid points are `-cos(π j/(n-1))`; they run from -1 to 1, strictly increase and are
symmetric about 0. -/
theorem C01_coords (n : ℕ) (b : Cheb) (hb : Cheb.new n = ok b) :
    ∃ x, b.coords = ok x ∧ x.length = n ∧
      (∀ j < n, nth x j = -Real.cos (Real.pi * j / (n - 1 : ℕ))) ∧
      nth x 0 = -1 ∧ nth x (n - 1) = 1 ∧
      (∀ i j, i < j → j < n → nth x i < nth x j) ∧
      (∀ j < n, nth x (n - 1 - j) = -nth x j) := by
  obtain ⟨rfl, hn⟩ := cheb_of_new hb
  obtain ⟨x, hx, rfl⟩ := wp_total.mp (wp_chebNodes hn)
  have hN : (0 : ℝ) < (n - 1 : ℕ) := by exact_mod_cast (show 0 < n - 1 by omega)
  have hv : ∀ j < n, nth ((List.range n).map (chebPt n)) j
      = -Real.cos (Real.pi * j / (n - 1 : ℕ)) := fun j hj => nth_map_range _ _ _ hj
  refine ⟨_, hx, by simp, hv, ?_, ?_, ?_, ?_⟩
  · rw [hv 0 (by omega)]; simp
  · rw [hv _ (by omega), mul_div_assoc, div_self hN.ne', mul_one, Real.cos_pi, neg_neg]
  · intro i j hij hj
    rw [hv i (by omega), hv j hj, neg_lt_neg_iff]
    refine Real.cos_lt_cos_of_nonneg_of_le_pi (by positivity) ?_ ?_
    · rw [div_le_iff₀ hN]
      have : (j : ℝ) ≤ (n - 1 : ℕ) := by exact_mod_cast (show j ≤ n - 1 by omega)
      exact mul_le_mul_of_nonneg_left this Real.pi_pos.le
    · refine div_lt_div_of_pos_right ?_ hN
      exact mul_lt_mul_of_pos_left (by exact_mod_cast hij) Real.pi_pos
  · intro j hj
    rw [hv j hj, hv _ (by omega), Nat.cast_sub (show j ≤ n - 1 by omega)]
    rw [show Real.pi * (((n - 1 : ℕ) : ℝ) - j) / (n - 1 : ℕ)
      = Real.pi - Real.pi * j / (n - 1 : ℕ) by field_simp, Real.cos_pi_sub]

example : ∃ b, Cheb.new 5 = ok b := ⟨⟨5, 5⟩, rfl⟩

/-! ### C02 -/

/-- C02: `backward` evaluates `∑ aₖ Tₖ` at the grid points returned by `coords`. -/
theorem C02_backward_evaluates (n : ℕ) (b : Cheb) (hb : Cheb.new n = ok b) (a out : List ℝ)
    (ha : a.length = b.lenSpec) (ho : out.length = b.lenPhys) :
    ∃ x v, b.coords = ok x ∧ b.backwardSlice a out = ok v ∧ v.length = x.length ∧
      ∀ j < x.length, nth v j = (chebPoly ℝ a).eval (nth x j) := by
  obtain ⟨rfl, hn⟩ := cheb_of_new hb
  obtain ⟨x, hx, rfl⟩ := wp_total.mp (wp_chebNodes hn)
  obtain ⟨v, hv, y, rfl, hy, hyi⟩ := wp_total.mp (wp_backwardSlice ⟨n, n⟩ n rfl hn a out ha ho)
  refine ⟨_, _, hx, hv, by simp [dct1, hy], fun j hj => ?_⟩
  have hj' : j < n := by simpa using hj
  rw [backward_eval hn a y ha hy hyi j hj', nth_map_range _ _ _ hj', chebVal_eq_chebDeriv,
    chebDeriv_eq_eval]
  rfl

/-! ### C03 -/

/-- C03: `forward(backward(a)) = a`. -/
theorem C03_forward_backward (n : ℕ) (b : Cheb) (hb : Cheb.new n = ok b) (a out out' : List ℝ)
    (ha : a.length = b.lenSpec) (ho : out.length = b.lenPhys) (ho' : out'.length = b.lenSpec) :
    ∃ v, b.backwardSlice a out = ok v ∧ b.forwardSlice v out' = ok a := by
  obtain ⟨rfl, hn⟩ := cheb_of_new hb
  obtain ⟨v, hv, hvy⟩ := wp_total.mp (wp_backwardSlice ⟨n, n⟩ n rfl hn a out ha ho)
  obtain ⟨a', ha', rfl⟩ := wp_total.mp (wp_forward_backward ⟨n, n⟩ n rfl hn a v out' ha ho' hvy)
  exact ⟨v, hv, ha'⟩

/-- C03: `backward(forward(v)) = v`. -/
theorem C03_backward_forward (n : ℕ) (b : Cheb) (hb : Cheb.new n = ok b) (v out out' : List ℝ)
    (hv : v.length = b.lenPhys) (ho : out.length = b.lenSpec) (ho' : out'.length = b.lenPhys) :
    ∃ a, b.forwardSlice v out = ok a ∧ b.backwardSlice a out' = ok v := by
  obtain ⟨rfl, hn⟩ := cheb_of_new hb
  obtain ⟨a, ha, hal, hay⟩ := wp_total.mp (wp_forwardSlice ⟨n, n⟩ n rfl hn v out hv ho)
  obtain ⟨v', hv', rfl⟩ := wp_total.mp
    (wp_backward_forward ⟨n, n⟩ n rfl hn v a out' hv hal ho' hay)
  exact ⟨a, ha, hv'⟩

/-! ### C04, C05 -/

section Gradient
variable {K T : Type} [Field K] [DecidableEq K] [CharZero K] [AddCommGroup T] [Module K T]

/-- C04: `gradient(a, k)` returns coefficients of the `k`-th derivative of `∑ aⱼ Tⱼ`, and they
are the only list of that length which does. -/
theorem C04_gradient_is_derivative (n : ℕ) (hn : 3 ≤ n) (b : Cheb) (hb : Cheb.new n = ok b)
    (a out : List T) (ha : a.length = b.lenSpec) (ho : out.length = b.lenOrth) (k : ℕ) :
    ∃ g, b.gradientSlice K a out k = ok g ∧ g.length = b.lenOrth ∧
      (∀ x : K, chebVal K g x = chebDeriv K k a x) ∧
      ∀ g' : List T, g'.length = b.lenOrth →
        (∀ x : K, chebVal K g' x = chebDeriv K k a x) → g' = g := by
  obtain ⟨rfl, -⟩ := cheb_of_new hb
  obtain ⟨g, hg, hl, hd, -⟩ := wp_total.mp
    (wp_gradientSlice (K := K) two_ne_zero ⟨n, n⟩ rfl a out ha ho k (Or.inr hn))
  have h0 : ∀ x : K, chebVal K g x = chebDeriv K k a x := fun x => by
    rw [chebVal_eq_chebDeriv, hd 0 x, zero_add]
  exact ⟨g, hg, hl, h0, fun g' hl' h' => chebVal_inj (K := K) g' g (by rw [hl', hl]; rfl)
    (fun x => by rw [h' x, h0 x])⟩

/-- C04 for scalar data: the polynomial `∑ gⱼ Tⱼ` is the `k`-th derivative of `∑ aⱼ Tⱼ`. -/
theorem C04_gradient_polynomial (n : ℕ) (hn : 3 ≤ n) (b : Cheb) (hb : Cheb.new n = ok b)
    (a out : List K) (ha : a.length = b.lenSpec) (ho : out.length = b.lenOrth) (k : ℕ) :
    ∃ g, b.gradientSlice K a out k = ok g ∧ g.length = b.lenOrth ∧
      chebPoly K g = Polynomial.derivative^[k] (chebPoly K a) := by
  obtain ⟨g, hg, hl, h, -⟩ := C04_gradient_is_derivative (K := K) n hn b hb a out ha ho k
  haveI : Infinite K := Infinite.of_injective (Nat.cast : ℕ → K) Nat.cast_injective
  refine ⟨g, hg, hl, Polynomial.funext fun x => ?_⟩
  have := h x
  rw [chebVal_eq_chebDeriv, chebDeriv_eq_eval, chebDeriv_eq_eval] at this
  exact this

/-- C05: gradients compose. -/
theorem C05_gradient_composes (n : ℕ) (hn : 3 ≤ n) (b : Cheb) (hb : Cheb.new n = ok b)
    (a out out' out'' : List T) (ha : a.length = b.lenSpec) (ho : out.length = b.lenOrth)
    (ho' : out'.length = b.lenOrth) (ho'' : out''.length = b.lenOrth) (i j : ℕ) :
    ∃ g h, b.gradientSlice K a out i = ok g ∧ b.gradientSlice K g out' j = ok h ∧
      b.gradientSlice K a out'' (i + j) = ok h := by
  obtain ⟨rfl, -⟩ := cheb_of_new hb
  obtain ⟨g, hg, hgl, hgd, -⟩ := wp_total.mp
    (wp_gradientSlice (K := K) two_ne_zero ⟨n, n⟩ rfl a out ha ho i (Or.inr hn))
  obtain ⟨h, hh, hhl, hhd, -⟩ := wp_total.mp
    (wp_gradientSlice (K := K) two_ne_zero ⟨n, n⟩ rfl g out' hgl ho' j (Or.inr hn))
  obtain ⟨h', hh', hhl', hhd', -⟩ := wp_total.mp
    (wp_gradientSlice (K := K) two_ne_zero ⟨n, n⟩ rfl a out'' ha ho'' (i + j) (Or.inr hn))
  have : h' = h := chebVal_inj (K := K) h' h (by rw [hhl', hhl]) (fun x => by
    rw [chebVal_eq_chebDeriv, chebVal_eq_chebDeriv, hhd' 0 x, hhd 0 x, hgd (0 + j) x]
    congr 1; omega)
  exact ⟨g, h, hg, hh, by rw [hh', this]⟩

/-- C05: the gradient of order `≥ n` is zero. -/
theorem C05_gradient_annihilates (n : ℕ) (hn : 3 ≤ n) (b : Cheb) (hb : Cheb.new n = ok b)
    (a out : List T) (ha : a.length = b.lenSpec) (ho : out.length = b.lenOrth) (k : ℕ)
    (hk : n ≤ k) : b.gradientSlice K a out k = ok (List.replicate n 0) := by
  obtain ⟨rfl, -⟩ := cheb_of_new hb
  obtain ⟨g, hg, hgl, -, -, hz⟩ := wp_total.mp
    (wp_gradientSlice (K := K) two_ne_zero ⟨n, n⟩ rfl a out ha ho k (Or.inr hn))
  rw [hg]
  congr 1
  exact ext_nth (by simp [hgl]) (fun i hi => by rw [hz i (by show n ≤ i + k; omega), nth_replicate])

/-- C05: order 0 is the identity (every size). -/
theorem C05_gradient_order_zero (n : ℕ) (b : Cheb) (hb : Cheb.new n = ok b)
    (a out : List T) (ha : a.length = b.lenSpec) (ho : out.length = b.lenOrth) :
    b.gradientSlice K a out 0 = ok a := by
  obtain ⟨rfl, -⟩ := cheb_of_new hb
  obtain ⟨g, hg, -, -, h0, -⟩ := wp_total.mp
    (wp_gradientSlice (K := K) two_ne_zero ⟨n, n⟩ rfl a out ha ho 0 (Or.inl rfl))
  rw [hg, h0 rfl]

example : Cheb.gradientSlice ℚ ⟨4, 4⟩ [(1 : ℚ), 2, 3, 4] [0, 0, 0, 0] 1 = ok [14, 12, 24, 0] := by
  decide +kernel

end Gradient

/-! ### C06-C09 -/

section Matrices
variable {K : Type} [Field K] [DecidableEq K] [CharZero K]

private theorem dmat_ok (o : Mode) {n k : ℕ} (hn : 2 ≤ n) (hk : 1 ≤ k) (hk4 : k ≤ 4)
    (hm : n ≤ dmatMax o k) : ∃ D, Cheb.diffmat K o ⟨n, n⟩ k = ok D ∧ D.rows = n ∧ D.cols = n ∧
      ∀ i < n, ∀ j < n, D.get i j = hTrue K k i j := by
  refine wp_total.mp ?_
  unfold Cheb.diffmat
  simp only [wp_bind]
  refine wp_assert_i (by omega) ?_
  exact wp_dmat o hk hk4 (by omega) hm

private theorem col_eq {D : Mat K} {n k q : ℕ} (h1 : D.rows = n) (hq : q < n)
    (h : ∀ i < n, ∀ j < n, D.get i j = hTrue K k i j) : col D q = hCol K k q n := by
  unfold col hCol
  rw [h1]
  exact List.map_congr_left (fun i hi => h i (List.mem_range.mp hi) q hq)

/-- C06: column `q` of `diffmat(k)` holds the Chebyshev coefficients of `T_q^{(k)}`. -/
theorem C06_diffmat_columns (o : Mode) (n : ℕ) (b : Cheb) (hb : Cheb.new n = ok b) (k : ℕ)
    (hk : 1 ≤ k ∧ k ≤ 4) (hm : n ≤ dmatMax o k) :
    ∃ D, b.diffmat K o k = ok D ∧ D.rows = n ∧ D.cols = n ∧
      ∀ q < n, chebPoly K (col D q) = Polynomial.derivative^[k] (Polynomial.Chebyshev.T K q) := by
  obtain ⟨rfl, hn⟩ := cheb_of_new hb
  obtain ⟨D, hD, h1, h2, h3⟩ := dmat_ok (K := K) o hn hk.1 hk.2 hm
  haveI : Infinite K := Infinite.of_injective (Nat.cast : ℕ → K) Nat.cast_injective
  refine ⟨D, hD, h1, h2, fun q hq => Polynomial.funext fun x => ?_⟩
  have := hCol_deriv (K := K) k q n hk.2 hq 0 x
  rw [chebDeriv_eq_eval, zero_add] at this
  rw [col_eq h1 hq h3]
  exact this

/-- C06: `diffmat(k) · a = gradient(a, k)` (real or complex data). -/
theorem C06_diffmat_is_gradient {T : Type} [AddCommGroup T] [Module K T] (o : Mode) (n : ℕ)
    (hn3 : 3 ≤ n) (b : Cheb)
    (hb : Cheb.new n = ok b) (k : ℕ) (hk : 1 ≤ k ∧ k ≤ 4) (hm : n ≤ dmatMax o k) (a out : List T)
    (ha : a.length = b.lenSpec) (ho : out.length = b.lenOrth) :
    ∃ D, b.diffmat K o k = ok D ∧ b.gradientSlice K a out k = ok (mulVec D a) := by
  obtain ⟨g, hg, hl, -, huniq⟩ := C04_gradient_is_derivative (K := K) n hn3 b hb a out ha ho k
  obtain ⟨rfl, hn⟩ := cheb_of_new hb
  obtain ⟨D, hD, h1, h2, h3⟩ := dmat_ok (K := K) o hn hk.1 hk.2 hm
  refine ⟨D, hD, ?_⟩
  rw [hg]
  congr 1
  symm
  refine huniq _ (by simp [h1, Cheb.lenOrth]) (fun x => ?_)
  unfold chebVal chebDeriv
  have ha' : a.length = n := ha
  rw [mulVec_length, h1, ha']
  have e : ∀ i ∈ range n, (Polynomial.Chebyshev.T K (i : ℤ)).eval x • nth (mulVec D a) i
      = ∑ j ∈ range n, ((Polynomial.Chebyshev.T K (i : ℤ)).eval x * hTrue K k i j) • nth a j := by
    intro i hi
    rw [mem_range] at hi
    rw [nth_mulVec _ _ (by omega), h2, smul_sum]
    exact sum_congr rfl (fun j hj => by rw [smul_smul, h3 i hi j (mem_range.mp hj)])
  rw [sum_congr rfl e, sum_comm]
  refine sum_congr rfl (fun j hj => ?_)
  rw [mem_range] at hj
  rw [← sum_smul]
  congr 1
  have := hCol_deriv (K := K) k j n hk.2 hj 0 x
  rw [zero_add] at this
  rw [← this]
  unfold chebDeriv
  rw [show (hCol K k j n).length = n by simp [hCol]]
  refine sum_congr rfl (fun i _ => ?_)
  rw [nth_hCol _ _ _ _ hj, smul_eq_mul]
  rfl

omit [CharZero K] in
/-- C06: any other `deriv` panics, whatever the base. -/
theorem C06_other_deriv_panics (o : Mode) (b : Cheb) (k : ℕ) (hk : ¬ (1 ≤ k ∧ k ≤ 4)) :
    b.diffmat K o k = err .panic := by
  unfold Cheb.diffmat assertR
  rcases Nat.eq_zero_or_pos k with rfl | h
  · rfl
  · rw [if_pos h]
    simp only [bind_ok]
    unfold dmat
    rw [if_neg (by omega), if_neg (by omega), if_neg (by omega), if_neg (by omega)]
    rfl

/-- C07 is false: beyond the limits `dmatMax` (12 ≤ n for `deriv = 3`) debug builds panic. -/
theorem C07_debug_panics_beyond (n : ℕ) (b : Cheb) (hb : Cheb.new n = ok b) (k : ℕ)
    (hk : 2 ≤ k ∧ k ≤ 4) (hm : dmatMax .debug k < n) : b.diffmat K .debug k = err .panic := by
  obtain ⟨rfl, hn⟩ := cheb_of_new hb
  unfold Cheb.diffmat assertR
  rw [if_pos (by omega)]
  simp only [bind_ok]
  unfold dmat
  have : k = 2 ∨ k = 3 ∨ k = 4 := by omega
  rcases this with rfl | rfl | rfl
  · rw [if_neg (by omega), if_pos rfl, dmat2_debug_panics n (show _ ≤ n from hm)]; rfl
  · rw [if_neg (by omega), if_neg (by omega), if_pos rfl,
      dmat3_debug_panics n (show _ ≤ n from hm)]; rfl
  · rw [if_neg (by omega), if_neg (by omega), if_neg (by omega), if_pos rfl,
      dmat4_debug_panics n (show _ ≤ n from hm)]; rfl

private theorem wrong_col {D : Mat K} {n k p q : ℕ} (hk : k ≤ 4) (h1 : D.rows = n) (hq : q < n)
    (hp : p < n) (h : D.get p q ≠ hTrue K k p q) :
    chebPoly K (col D q) ≠ Polynomial.derivative^[k] (Polynomial.Chebyshev.T K q) := by
  intro e
  apply h
  have hc : col D q = hCol K k q n := by
    refine chebVal_inj (K := K) _ _ (by simp [col, hCol, h1]) (fun x => ?_)
    have := hCol_deriv (K := K) k q n hk hq 0 x
    rw [chebVal_eq_chebDeriv, chebVal_eq_chebDeriv, this, chebDeriv_eq_eval, e, zero_add]
    rfl
  have h2 := congrArg (fun l => nth l p) hc
  rw [nth_hCol _ _ _ _ hq] at h2
  rw [← h2]
  exact (nth_map_range (fun i => D.get i q) D.rows p (by omega)).symm

/-- C07 is false: beyond the limits `dmatMax` release builds return a matrix one of whose columns
is not the derivative. -/
theorem C07_release_wrong_beyond (n : ℕ) (b : Cheb) (hb : Cheb.new n = ok b) (k : ℕ)
    (hk : 2 ≤ k ∧ k ≤ 4) (hm : dmatMax .release k < n) (hw : n ≤ usizeW) :
    ∃ D, b.diffmat K .release k = ok D ∧ D.rows = n ∧ D.cols = n ∧
      ∃ q < n, chebPoly K (col D q) ≠ Polynomial.derivative^[k] (Polynomial.Chebyshev.T K q) := by
  obtain ⟨rfl, hn⟩ := cheb_of_new hb
  unfold Cheb.diffmat assertR
  rw [if_pos (by omega)]
  simp only [bind_ok]
  have : k = 2 ∨ k = 3 ∨ k = 4 := by omega
  rcases this with rfl | rfl | rfl
  · have hm' : 2642246 < n := by simpa [dmatMax] using hm
    obtain ⟨D, hD, h1, h2, h3⟩ := wp_total.mp (wp_dmat_of (k := 2) (show 0 < n by omega) rfl
      (wp_dmat2_release (K := K) n hw))
    refine ⟨D, hD, h1, h2, 2642246, hm', wrong_col (by omega) h1 hm' (show 0 < n by omega) ?_⟩
    rw [h3 0 (by omega) _ hm', if_pos rfl, if_pos (by omega)]
    unfold hTrue dTrue
    rw [if_pos (by omega), if_neg (by omega), if_pos (by omega)]
    simp only [zEnt, zDen]
    norm_num
  · have hm' : 7132 < n := by simpa [dmatMax] using hm
    obtain ⟨D, hD, h1, h2, h3⟩ := wp_total.mp (wp_dmat_of (k := 3) (show 0 < n by omega) rfl
      (wp_dmat3_release (K := K) n hw))
    refine ⟨D, hD, h1, h2, 7132, hm', wrong_col (by omega) h1 hm' (show 1 < n by omega) ?_⟩
    rw [h3 1 (by omega) _ hm', if_neg (by omega), if_pos (by omega)]
    unfold hTrue dTrue
    rw [if_neg (by omega), if_neg (by omega), if_pos (by omega)]
    simp only [zEnt, zDen]
    norm_num
  · have hm' : 566 < n := by simpa [dmatMax] using hm
    obtain ⟨D, hD, h1, h2, h3⟩ := wp_total.mp (wp_dmat_of (k := 4) (show 0 < n by omega) rfl
      (wp_dmat4_release (K := K) n hw))
    refine ⟨D, hD, h1, h2, 566, hm', wrong_col (by omega) h1 hm' (show 0 < n by omega) ?_⟩
    rw [h3 0 (by omega) _ hm', if_pos rfl, if_pos (by omega)]
    unfold hTrue dTrue
    rw [if_pos (by omega), if_neg (by omega), if_pos (by omega)]
    simp only [zEnt, zDen]
    norm_num

/-- C07, the part that holds: up to the debug limits both build modes return the same, exact
matrix. -/
theorem C07_no_overflow_partial (n : ℕ) (b : Cheb) (hb : Cheb.new n = ok b) (k : ℕ)
    (hk : 1 ≤ k ∧ k ≤ 4) (hm : n ≤ dmatMax .debug k) :
    ∃ D E, b.diffmat K .debug k = ok D ∧ b.diffmat K .release k = ok E ∧ SameMat D E := by
  obtain ⟨rfl, hn⟩ := cheb_of_new hb
  obtain ⟨D, hD, h1, h2, h3⟩ := dmat_ok (K := K) .debug hn hk.1 hk.2 hm
  have hm' : n ≤ dmatMax .release k := by
    have : k = 1 ∨ k = 2 ∨ k = 3 ∨ k = 4 := by omega
    rcases this with rfl | rfl | rfl | rfl <;> simp only [dmatMax] at * <;> omega
  obtain ⟨E, hE, e1, e2, e3⟩ := dmat_ok (K := K) .release hn hk.1 hk.2 hm'
  exact ⟨D, E, hD, hE, by rw [h1, e1], by rw [h2, e2], fun i hi j hj => by
    rw [h3 i (by omega) j (by omega), e3 i (by omega) j (by omega)]⟩

/-- C08: rows `k..` of `P · D_k` are the returned `I`, which is the identity without its first
`k` rows. -/
theorem C08_pinv_identity (o : Mode) (n : ℕ) (b : Cheb) (hb : Cheb.new n = ok b) (k : ℕ)
    (hk : 1 ≤ k ∧ k ≤ 4) (hn : 2 * k ≤ n) (hm : n ≤ dmatMax o k) :
    ∃ D P I, b.diffmat K o k = ok D ∧ b.diffmatPinv K o k = ok (P, I) ∧
      (P.rows = n ∧ P.cols = n) ∧
      SameMat I (dropRows k (Mat.eye n)) ∧ SameMat (dropRows k (matMul P D)) I := by
  obtain ⟨rfl, hn2⟩ := cheb_of_new hb
  obtain ⟨D, hD, h1, h2, h3⟩ := dmat_ok (K := K) o hn2 hk.1 hk.2 hm
  have hpm : n ≤ pinvMax k := by
    have : k = 1 ∨ k = 2 ∨ k = 3 ∨ k = 4 := by omega
    rcases this with rfl | rfl | rfl | rfl <;> cases o <;> simp only [dmatMax, pinvMax] at * <;> omega
  obtain ⟨P, hP, p1, p2, p3⟩ := wp_total.mp (wp_pinv (K := K) o hk.1 hk.2 hn hpm)
  refine ⟨D, P, ⟨n - k, n, fun i j => (Mat.eye n).get (i + k) j⟩, hD, ?_, ⟨p1, p2⟩,
    ⟨rfl, rfl, fun _ _ _ _ => rfl⟩, ?_, h2, ?_⟩
  · unfold Cheb.diffmatPinv assertR
    rw [if_pos (by omega)]
    simp only [bind_ok]
    rw [hP]
    simp only [bind_ok]
    unfold pinvEye assertR
    rw [if_pos (by omega)]
    rfl
  · show P.rows - k = n - k
    rw [p1]
  · intro i hi j hj
    replace hi : i < P.rows - k := hi
    replace hj : j < D.cols := hj
    show ∑ r ∈ range P.cols, P.get (i + k) r * D.get r j = if i + k = j then 1 else 0
    rw [← pTrue_mul (K := K) (n := n) hk.1 hk.2 (show k ≤ i + k by omega) (show j < n by omega), p2]
    refine sum_congr rfl (fun r hr => ?_)
    rw [mem_range] at hr
    rw [p3 _ (by omega) _ hr, h3 r hr j (by omega)]

/-- C08 on vectors: the pseudo-inverse recovers the coefficients from index `k` on from those of
the `k`-th derivative. -/
theorem C08_pinv_undoes_gradient {T : Type} [AddCommGroup T] [Module K T] (o : Mode) (n : ℕ)
    (hn3 : 3 ≤ n) (b : Cheb)
    (hb : Cheb.new n = ok b) (k : ℕ) (hk : 1 ≤ k ∧ k ≤ 4) (hn : 2 * k ≤ n)
    (hm : n ≤ dmatMax o k) (a out : List T) (ha : a.length = b.lenSpec)
    (ho : out.length = b.lenOrth) :
    ∃ P I g, b.diffmatPinv K o k = ok (P, I) ∧ b.gradientSlice K a out k = ok g ∧
      ∀ i, k ≤ i → i < n → nth (mulVec P g) i = nth a i := by
  obtain ⟨D, P, I, hD, hP, ⟨p1, p2⟩, ⟨i1, i2, i3⟩, ⟨j1, j2, j3⟩⟩ :=
    C08_pinv_identity (K := K) o n b hb k hk hn hm
  obtain ⟨D', hD', hg⟩ := C06_diffmat_is_gradient (K := K) o n hn3 b hb k hk hm a out ha ho
  obtain rfl : D = D' := by rw [hD] at hD'; exact Res.ok.inj hD'
  obtain ⟨D'', hD'', d1, d2, -⟩ := C06_diffmat_columns (K := K) o n b hb k hk hm
  obtain rfl : D = D'' := by rw [hD] at hD''; exact Res.ok.inj hD''
  refine ⟨P, I, mulVec D a, hP, hg, fun i hki hi => ?_⟩
  rw [nth_mulVec _ _ (by omega), p2]
  have e : ∀ r ∈ range n, P.get i r • nth (mulVec D a) r
      = ∑ j ∈ range n, (P.get i r * D.get r j) • nth a j := by
    intro r hr
    rw [mem_range] at hr
    rw [nth_mulVec _ _ (by omega), d2, smul_sum]
    exact sum_congr rfl (fun j _ => by rw [smul_smul])
  rw [sum_congr rfl e, sum_comm, sum_eq_single i]
  · rw [← sum_smul]
    have := j3 (i - k) (by show i - k < P.rows - k; omega) i (by show i < D.cols; omega)
    have h3 := i3 (i - k) (by rw [i1]; show i - k < n - k; omega) i (by rw [i2]; exact hi)
    rw [h3] at this
    have lhs : (dropRows k (matMul P D)).get (i - k) i = ∑ r ∈ range n, P.get i r * D.get r i := by
      show ∑ r ∈ range P.cols, P.get (i - k + k) r * D.get r i = _
      rw [p2, show i - k + k = i by omega]
    rw [lhs] at this
    rw [this]
    show (if i - k + k = i then (1 : K) else 0) • _ = _
    rw [if_pos (by omega), one_smul]
  · intro j hj hji
    rw [mem_range] at hj
    rw [← sum_smul]
    have := j3 (i - k) (by show i - k < P.rows - k; omega) j (by show j < D.cols; omega)
    have h3 := i3 (i - k) (by rw [i1]; show i - k < n - k; omega) j (by rw [i2]; exact hj)
    rw [h3] at this
    have lhs : (dropRows k (matMul P D)).get (i - k) j = ∑ r ∈ range n, P.get i r * D.get r j := by
      show ∑ r ∈ range P.cols, P.get (i - k + k) r * D.get r j = _
      rw [p2, show i - k + k = i by omega]
    rw [lhs] at this
    rw [this]
    show (if i - k + k = j then (1 : K) else 0) • _ = _
    rw [if_neg (by omega), zero_smul]
  · intro h
    exact absurd (mem_range.mpr hi) h

/-- C08: sizes below `2 k` and orders other than 1..4 panic. -/
theorem C08_small_sizes_panic (o : Mode) (n : ℕ) (b : Cheb) (hb : Cheb.new n = ok b) (k : ℕ)
    (hk : k = 0 ∨ 5 ≤ k ∨ n < 2 * k) : b.diffmatPinv K o k = err .panic := by
  obtain ⟨rfl, hn⟩ := cheb_of_new hb
  unfold Cheb.diffmatPinv assertR
  rcases Nat.eq_zero_or_pos k with rfl | h
  · rfl
  · rw [if_pos (by omega)]
    simp only [bind_ok]
    rw [pinv_small_panics o hn hk]
    rfl

/-- C09: the Laplacian is the second-derivative matrix, with its pseudo-inverse. -/
theorem C09_laplacian (o : Mode) (n : ℕ) (hn4 : 4 ≤ n) (hm : n ≤ 2642246) (b : Cheb)
    (hb : Cheb.new n = ok b) :
    ∃ L P I, b.laplacian K o = ok L ∧ b.laplacianPinv K o = ok (P, I) ∧
      (∀ q < n, chebPoly K (col L q)
        = Polynomial.derivative (Polynomial.derivative (Polynomial.Chebyshev.T K q))) ∧
      SameMat I (dropRows 2 (Mat.eye n)) ∧ SameMat (dropRows 2 (matMul P L)) I := by
  obtain ⟨D, P, I, hD, hP, -, h1, h2⟩ :=
    C08_pinv_identity (K := K) o n b hb 2 (by omega) (by omega) (by simpa [dmatMax] using hm)
  obtain ⟨D', hD', -, -, hc⟩ :=
    C06_diffmat_columns (K := K) o n b hb 2 (by omega) (by simpa [dmatMax] using hm)
  obtain rfl : D = D' := by rw [hD] at hD'; exact Res.ok.inj hD'
  exact ⟨D, P, I, hD, hP, hc, h1, h2⟩

end Matrices

/-- C09: the composite bases return the same Laplacian and pseudo-inverse (they act on the
orthogonal coefficients). -/
theorem C09_laplacian_composite {K : Type} [Field K] [LinearOrder K] [IsStrictOrderedRing K] (o : Mode) (n : ℕ)
    (hm : n ≤ 2642246) (kind : CKind)
    (b : Compo K) (hb : Compo.new kind n = ok b) :
    ∃ L P I, b.laplacian o = ok L ∧ b.laplacianPinv o = ok (P, I) ∧
      (∀ q < n, chebPoly K (col L q)
        = Polynomial.derivative (Polynomial.derivative (Polynomial.Chebyshev.T K q))) ∧
      SameMat I (dropRows 2 (Mat.eye n)) ∧ SameMat (dropRows 2 (matMul P L)) I := by
  have hw := Compo.wf_of_new hb
  have hn : 4 ≤ n := le_trans (by cases kind <;> decide) hw.le
  have hnew : Cheb.new n = ok ⟨n, n⟩ := by
    unfold Cheb.new assertR
    rw [if_pos (by omega)]; rfl
  obtain ⟨L, P, I, h1, h2, h3⟩ := C09_laplacian (K := K) o n hn hm ⟨n, n⟩ hnew
  refine ⟨L, P, I, ?_, ?_, h3⟩
  · rw [← h1, ← hw.ortho]; rfl
  · rw [← h2, ← hw.ortho]; rfl

end Verif.Props
