/-
Properties C79 (aliasing) and C80 (spectral accuracy).
-/
import Verif.Proof.Alias
import Verif.Proof.FourSeries

namespace Verif.Props
open Res Spec Finset Polynomial

/-! ### C79: aliasing -/

/-- C79: `forward` of the samples of `Tₖ`, for every degree `k`, is the unit vector of the degree to
which `k` is reflected. -/
theorem C79_chebyshev (n : ℕ) (b : Cheb) (hb : Cheb.new n = ok b) (k : ℕ) (out : List ℝ)
    (ho : out.length = b.lenSpec) :
    ∃ x, b.coords = ok x ∧ b.forwardSlice (x.map (Chebyshev.T ℝ k).eval) out
      = ok ((List.range n).map (fun j => if j = chebAlias n k then 1 else 0)) := by
  obtain ⟨x, hx, hxl, hxj, -⟩ := C01_coords n b hb
  refine ⟨x, hx, cheb_forward_of_grid hb hx _ _ out ?_ ho (fun j hj => ?_)⟩
  · obtain ⟨rfl, -⟩ := cheb_of_new hb
    simp [Cheb.lenSpec]
  · obtain ⟨-, hn⟩ := cheb_of_new hb
    rw [hxj j hj, ← T_chebAlias hn]
    unfold chebPoly
    rw [eval_finset_sum, List.length_map, List.length_range,
      Finset.sum_eq_single (chebAlias n k)]
    · rw [nth_map_range _ _ _ (chebAlias_lt hn k), if_pos rfl]; simp
    · intro i hi hik
      rw [nth_map_range _ _ _ (Finset.mem_range.mp hi), if_neg hik]; simp
    · intro h
      exact absurd (Finset.mem_range.mpr (chebAlias_lt hn k)) h

/-- Five points: `T₅` looks like `T₃`, `T₈` like `T₀`. -/
example : chebAlias 5 5 = 3 ∧ chebAlias 5 8 = 0 ∧ chebAlias 5 4 = 4 := by decide

/-- C79: `forward` of `fourier_c2c(n)` of the samples of `exp(i K x)`, for every integer `K`, is `n`
times the unit vector of the position of `K` modulo `n`. -/
theorem C79_fourier_c2c (n : ℕ) (hn : 1 ≤ n) (b : C2c) (hb : C2c.new n = ok b) (K : ℤ) (out : List ℂ)
    (ho : out.length = b.lenSpec) :
    ∃ x, b.coords = ok x ∧
      b.forwardSlice (x.map (fun t : ℝ => Complex.exp (Complex.I * K * t))) out
        = ok ((List.range n).map (fun j => if j = fourierAlias n K then (n : ℂ) else 0)) := by
  have hn' : (n : ℂ) ≠ 0 := by exact_mod_cast (by omega : n ≠ 0)
  obtain ⟨x, hx, hxl, hxj⟩ := C23_c2c_coords n hn b hb
  refine ⟨x, hx, c2c_forward_of_grid hn hb hx _ _ out ?_ ho (fun j hj => ?_)⟩
  · rw [c2c_of_new hb]; simp [C2c.lenSpec]
  · unfold trigC
    rw [Finset.sum_eq_single (fourierAlias n K)]
    · rw [nth_map_range _ _ _ (fourierAlias_lt hn K), if_pos rfl, hxj j hj, exp_fourierAlias hn]
      field_simp
    · intro i hi hik
      rw [nth_map_range _ _ _ (Finset.mem_range.mp hi), if_neg hik]; simp
    · intro h
      exact absurd (Finset.mem_range.mpr (fourierAlias_lt hn K)) h

/-- Six points: frequency `-1` is stored last, `7` looks like `1`, `-4` like `2`. -/
example : fourierAlias 6 (-1) = 5 ∧ fourierAlias 6 7 = 1 ∧ fourierAlias 6 (-4) = 2 := by decide

/-- C79: `forward` of `fourier_r2c(n)` of the samples of `A cos(k x) + B sin(k x)`, for every `k`, has
the single entry of the frequency reflected at `0` and `n / 2`; the sine changes its sign if it is
reflected an odd number of times, and is lost at frequency `0` and at `n / 2`. -/
theorem C79_fourier_r2c (n : ℕ) (hn : 1 ≤ n) (b : R2c) (hb : R2c.new n = ok b) (k : ℕ) (A B : ℝ)
    (out : List ℂ) (ho : out.length = b.lenSpec) :
    ∃ x c, b.coords = ok x ∧ c.length = n / 2 + 1 ∧
      b.forwardSlice (x.map (fun t => A * Real.cos (k * t) + B * Real.sin (k * t))) out = ok c ∧
      (∀ j ≤ n / 2, j ≠ cosAlias n k → nth c j = 0) ∧
      ((cosAlias n k = 0 ∨ 2 * cosAlias n k = n) → nth c (cosAlias n k) = ((n * A : ℝ) : ℂ)) ∧
      (¬(cosAlias n k = 0 ∨ 2 * cosAlias n k = n) →
        nth c (cosAlias n k) = ⟨n / 2 * A, -(n / 2 * (sinSign n k * B))⟩) := by
  obtain ⟨x, hx, hxl, hxj⟩ := C23_r2c_coords n hn b hb
  set A' : ℕ → ℝ := fun m => if m = cosAlias n k then A else 0 with hA
  set B' : ℕ → ℝ := fun m => if m = cosAlias n k then sinSign n k * B else 0 with hB
  set c : List ℂ := (List.range (n / 2 + 1)).map (fun m =>
    ⟨n / (if m = 0 ∨ 2 * m = n then 1 else 2) * A' m,
      -(n / (if m = 0 ∨ 2 * m = n then 1 else 2) * B' m)⟩) with hc
  have hcm : ∀ m ≤ n / 2, nth c m = ⟨n / (if m = 0 ∨ 2 * m = n then 1 else 2) * A' m,
      -(n / (if m = 0 ∨ 2 * m = n then 1 else 2) * B' m)⟩ := fun m hm =>
    nth_map_range _ _ _ (by omega)
  have hBz : ∀ m, (m = 0 ∨ 2 * m = n) → B' m = 0 := by
    intro m hm
    simp only [hB]
    split
    · next h => rw [sinSign_eq_zero (by rw [← h]; exact hm) hn]; simp
    · rfl
  have hcl : c.length = n / 2 + 1 := by simp [hc]
  clear_value c
  have hp := trigR_eq_trigPoly n hn A' B' (hBz 0 (Or.inl rfl)) (fun h => hBz _ (Or.inr h)) c hcm
  refine ⟨x, c, hx, hcl, r2c_forward_of_grid hn hb hx _ c out ?_ ho ?_ ?_ (fun j hj => ?_),
    fun j hj hjk => ?_, fun h => ?_, fun h => ?_⟩
  · rw [r2c_of_new hb]; exact hcl
  · rw [hcm 0 (by omega)]; simp [hBz 0 (Or.inl rfl)]
  · intro h
    rw [hcm _ le_rfl]; simp [hBz (n / 2) (Or.inr (by omega))]
  · have hk := mem_range.mpr (Nat.lt_succ_of_le (cosAlias_le hn k))
    rw [hp]
    unfold trigPoly
    rw [Finset.sum_eq_single (cosAlias n k)]
    · simp only [hA, hB, if_pos]
      rw [hxj j hj, cos_cosAlias hn, ← sin_cosAlias hn k]
      ring
    · intro i hi hik
      simp [hA, hB, hik]
    · intro h
      exact absurd hk h
  · rw [hcm j hj]
    simp only [hA, hB, if_neg hjk]
    apply Complex.ext <;> simp
  · rw [hcm _ (cosAlias_le hn k), hBz _ h, if_pos h]
    apply Complex.ext <;> simp [hA]
  · rw [hcm _ (cosAlias_le hn k), if_neg h]
    apply Complex.ext <;> simp [hA, hB]

/-- Eight points: `sin(5 x)` looks like `-sin(3 x)`, `sin(4 x)` vanishes, `cos(11 x)` looks like
`cos(3 x)`. -/
example : (cosAlias 8 5 = 3 ∧ sinSign 8 5 = -1) ∧ (cosAlias 8 4 = 4 ∧ sinSign 8 4 = 0) ∧
    (cosAlias 8 11 = 3 ∧ sinSign 8 11 = 1) := by decide

/-! ### C80: spectral accuracy -/

/-- C80: let `f` be the sum of an absolutely convergent Chebyshev series on `[-1, 1]` (with
`∑ |aₖ| k^{2d} < ∞`).  From the samples of `f` on the grid of `chebyshev(n)`, `forward` computes the
coefficients up to the tail of the series, and `gradient` of order `d` computes a polynomial that
approximates the `d`-th derivative of `f` everywhere on `[-1, 1]`, in particular on the grid after
`backward`, up to twice the tail of `∑ |aₖ| k^{2d}`. -/
theorem C80_chebyshev (n : ℕ) (hn : 3 ≤ n) (b : Cheb) (hb : Cheb.new n = ok b) (a : ℕ → ℝ) (d : ℕ)
    (hs : Summable (fun k : ℕ => |a k| * (k : ℝ) ^ (2 * d))) (f : ℝ → ℝ)
    (hf : ∀ x ∈ Set.Icc (-1 : ℝ) 1, HasSum (fun k : ℕ => a k * (Chebyshev.T ℝ k).eval x) (f x))
    (out out' out'' : List ℝ) (ho : out.length = b.lenSpec) (ho' : out'.length = b.lenOrth)
    (ho'' : out''.length = b.lenPhys) :
    ∃ x c g v, b.coords = ok x ∧ b.forwardSlice (x.map f) out = ok c ∧ c.length = n ∧
      b.gradientSlice ℝ c out' d = ok g ∧ b.backwardSlice g out'' = ok v ∧ v.length = n ∧
      (∀ j < n, |nth c j - a j| ≤ ∑' k, |a (k + n)|) ∧
      (∀ y ∈ Set.Icc (-1 : ℝ) 1,
        |(chebPoly ℝ g).eval y - iteratedDerivWithin d f (Set.Icc (-1) 1) y|
          ≤ 2 * ∑' k : ℕ, |a (k + n)| * ((k + n : ℕ) : ℝ) ^ (2 * d)) ∧
      ∀ j < n, |nth v j - iteratedDerivWithin d f (Set.Icc (-1) 1) (nth x j)|
          ≤ 2 * ∑' k : ℕ, |a (k + n)| * ((k + n : ℕ) : ℝ) ^ (2 * d) := by
  obtain ⟨x, hx, hxl, hxj, -⟩ := C01_coords n b hb
  have hn2 : 2 ≤ n := by omega
  have hb' := hb
  have hsp : b.lenSpec = n := by obtain ⟨rfl, -⟩ := cheb_of_new hb; rfl
  have hs0 : Summable (fun k : ℕ => ‖a k‖) := by
    simpa using summable_of_pow hs (Nat.zero_le d)
  have hst : ∀ {g : ℕ → ℝ}, Summable g → Summable (fun k => g (k + n)) := fun h =>
    (summable_nat_add_iff n).mpr h
  set c : List ℝ := (List.range n).map (classSum (chebAlias n) a) with hc
  have hcl : c.length = n := by simp [hc]
  have hcj : ∀ j < n, nth c j = classSum (chebAlias n) a j := fun j hj => nth_map_range _ _ _ hj
  -- combinations of the coefficients
  have hcomb : ∀ φ : ℕ → ℝ, HasSum (fun k => φ (chebAlias n k) * a k) (∑ j ∈ range n, φ j * nth c j) := by
    intro φ
    have := classSum_combine hs0 (chebAlias_lt hn2) (fun j => φ j • ContinuousLinearMap.id ℝ ℝ)
    simp only [ContinuousLinearMap.smul_apply, ContinuousLinearMap.id_apply, smul_eq_mul] at this
    rwa [Finset.sum_congr rfl (fun j hj => by rw [hcj j (Finset.mem_range.mp hj)])]
  -- difference to the series with the same functional
  have hdiff : ∀ (φ : ℕ → ℝ) (M : ℕ → ℝ) (s : ℝ), (∀ k, n ≤ k → |φ (chebAlias n k) - φ k| ≤ M k) →
      Summable (fun k => M k * |a k|) → HasSum (fun k => φ k * a k) s →
      |(∑ j ∈ range n, φ j * nth c j) - s| ≤ ∑' k, M (k + n) * |a (k + n)| := by
    intro φ M s hM hsM hφ
    have h1 := (hcomb φ).sub hφ
    have h2 : HasSum (fun k => φ (chebAlias n (k + n)) * a (k + n) - φ (k + n) * a (k + n))
        ((∑ j ∈ range n, φ j * nth c j) - s) := by
      rw [hasSum_nat_add_iff (f := fun k => φ (chebAlias n k) * a k - φ k * a k) n]
      have h0 : ∑ i ∈ range n, (φ (chebAlias n i) * a i - φ i * a i) = 0 :=
        Finset.sum_eq_zero (fun i hi => by
          rw [chebAlias_of_lt hn2 (Finset.mem_range.mp hi), sub_self])
      rw [h0, add_zero]
      exact h1
    rw [← h2.tsum_eq, ← Real.norm_eq_abs]
    refine tsum_of_norm_bounded (hst hsM).hasSum (fun k => ?_)
    rw [← sub_mul, Real.norm_eq_abs, abs_mul]
    exact mul_le_mul_of_nonneg_right (hM (k + n) (by omega)) (abs_nonneg _)
  have hgrid : ∀ j < n, nth x j ∈ Set.Icc (-1 : ℝ) 1 := fun j hj => by
    rw [hxj j hj]
    exact ⟨by linarith [Real.cos_le_one (Real.pi * j / (n - 1 : ℕ))],
      by linarith [Real.neg_one_le_cos (Real.pi * j / (n - 1 : ℕ))]⟩
  have hfwd : b.forwardSlice (x.map f) out = ok c := by
    refine cheb_forward_of_grid hb hx f c out (by rw [hcl, hsp]) ho (fun j hj => ?_)
    unfold chebPoly
    rw [eval_finset_sum, hcl]
    have h1 := hcomb (fun i => (Chebyshev.T ℝ i).eval (nth x j))
    have h2 := hf _ (hgrid j hj)
    have h3 : (fun k => (Chebyshev.T ℝ (chebAlias n k : ℕ)).eval (nth x j) * a k)
        = fun k : ℕ => a k * (Chebyshev.T ℝ k).eval (nth x j) := by
      funext k
      rw [hxj j hj, T_chebAlias hn2, mul_comm]
    rw [h3] at h1
    rw [← h1.unique h2]
    exact Finset.sum_congr rfl (fun i _ => by simp [mul_comm])
  obtain ⟨g, hg, hgl, hgp⟩ := C04_gradient_polynomial (K := ℝ) n hn b hb' c out' (by rw [hcl, hsp]) ho' d
  obtain ⟨x', v, hx', hv, hvl, he⟩ := C02_backward_evaluates n b hb' g out'' hgl ho''
  obtain rfl : x = x' := by rw [hx] at hx'; exact Res.ok.inj hx'
  have hmain : ∀ y ∈ Set.Icc (-1 : ℝ) 1,
        |(chebPoly ℝ g).eval y - iteratedDerivWithin d f (Set.Icc (-1) 1) y|
          ≤ 2 * ∑' k : ℕ, |a (k + n)| * ((k + n : ℕ) : ℝ) ^ (2 * d) := by
    intro y hy
    have hya : |y| ≤ 1 := abs_le.mpr hy
    rw [iteratedDerivWithin_chebSeries hs hf y hy, hgp, ← chebDeriv_eq_eval]
    unfold chebDeriv
    rw [hcl]
    simp only [smul_eq_mul]
    refine (hdiff (fun i => (derivative^[d] (Chebyshev.T ℝ i)).eval y)
      (fun k => 2 * (k : ℝ) ^ (2 * d)) _ (fun k _ => ?_) ?_ ?_).trans (le_of_eq ?_)
    · refine (abs_sub _ _).trans ?_
      have h1 := abs_iterate_derivative_T_le (chebAlias n k) d hya
      have h2 := abs_iterate_derivative_T_le k d hya
      have h3 : ((chebAlias n k : ℕ) : ℝ) ^ (2 * d) ≤ (k : ℝ) ^ (2 * d) :=
        pow_le_pow_left₀ (Nat.cast_nonneg _) (by exact_mod_cast chebAlias_le k) _
      linarith
    · refine (hs.mul_left 2).congr (fun k => by ring)
    · simpa [mul_comm] using chebSeries_hasSum hs hya
    · rw [← tsum_mul_left]
      exact tsum_congr (fun k => by ring)
  refine ⟨x, c, g, v, hx, hfwd, hcl, hg, hv, by omega, fun j hj => ?_, hmain, fun j hj => ?_⟩
  · have h := hdiff (fun i => if i = j then 1 else 0) (fun _ => 1) (a j) (fun k hk => ?_)
      (by simpa using hs0) ?_
    · simpa [Finset.sum_ite_eq, hj] using h
    · rw [if_neg (show ¬ k = j by omega), sub_zero]
      split <;> simp
    · have := hasSum_ite_eq j (a j)
      convert! this using 1
      funext k
      by_cases hk : k = j
      · subst hk; simp
      · simp [hk]
  · rw [he j (by omega)]
    exact hmain _ (hgrid j hj)

/-- C80, exponential convergence: if the coefficients decay like `M ρᵏ`, the interpolant of `f` on `n`
points is within `2 M ρⁿ / (1 - ρ)` of `f`, everywhere on `[-1, 1]`. -/
theorem C80_chebyshev_geometric (n : ℕ) (hn : 3 ≤ n) (b : Cheb) (hb : Cheb.new n = ok b) (a : ℕ → ℝ)
    (M ρ : ℝ) (h0 : 0 ≤ ρ) (h1 : ρ < 1) (ha : ∀ k, |a k| ≤ M * ρ ^ k) (f : ℝ → ℝ)
    (hf : ∀ x ∈ Set.Icc (-1 : ℝ) 1, HasSum (fun k : ℕ => a k * (Chebyshev.T ℝ k).eval x) (f x))
    (out : List ℝ) (ho : out.length = b.lenSpec) :
    ∃ x c, b.coords = ok x ∧ b.forwardSlice (x.map f) out = ok c ∧
      (∀ j < n, |nth c j - a j| ≤ M * ρ ^ n / (1 - ρ)) ∧
      ∀ y ∈ Set.Icc (-1 : ℝ) 1, |(chebPoly ℝ c).eval y - f y| ≤ 2 * (M * ρ ^ n / (1 - ρ)) := by
  have hg : Summable (fun k : ℕ => M * ρ ^ k) := (summable_geometric_of_lt_one h0 h1).mul_left M
  have hs : Summable (fun k : ℕ => |a k| * (k : ℝ) ^ (2 * 0)) := by
    simpa using Summable.of_nonneg_of_le (fun k => abs_nonneg _) ha hg
  have hsa : Summable (fun k : ℕ => |a k|) := by simpa using hs
  have hlen : b.lenSpec = b.lenOrth ∧ b.lenSpec = b.lenPhys := by
    obtain ⟨rfl, -⟩ := cheb_of_new hb; exact ⟨rfl, rfl⟩
  obtain ⟨x, c, g, v, hx, hc, hcl, hgr, -, -, h2, h3, -⟩ := C80_chebyshev n hn b hb a 0 hs f hf out out out
    ho (by rw [ho, hlen.1]) (by rw [ho, hlen.2])
  have hcg : (chebPoly ℝ g) = chebPoly ℝ c := by
    obtain ⟨g', hg', -, hp⟩ := C04_gradient_polynomial (K := ℝ) n hn b hb c out
      (by rw [hcl]; obtain ⟨rfl, -⟩ := cheb_of_new hb; rfl) (by rw [ho, hlen.1]) 0
    obtain rfl : g = g' := by rw [hgr] at hg'; exact Res.ok.inj hg'
    exact hp
  have ht : ∑' k, |a (k + n)| ≤ M * ρ ^ n / (1 - ρ) := by
    have hge : HasSum (fun k => M * ρ ^ (k + n)) (M * ρ ^ n / (1 - ρ)) := by
      have := (hasSum_geometric_of_lt_one h0 h1).mul_left (M * ρ ^ n)
      rw [← div_eq_mul_inv] at this
      convert! this using 2 with k
      ring
    rw [← hge.tsum_eq]
    exact Summable.tsum_le_tsum (fun k => ha (k + n)) ((summable_nat_add_iff n).mpr hsa) hge.summable
  refine ⟨x, c, hx, hc, fun j hj => (h2 j hj).trans ht, fun y hy => ?_⟩
  have h := h3 y hy
  rw [hcg, iteratedDerivWithin_zero] at h
  simp only [Nat.mul_zero, pow_zero, mul_one] at h
  linarith

/-- `(1 - x/2) / (5/4 - x)` is the sum of `2⁻ᵏ Tₖ`. -/
theorem cheb_generating (x : ℝ) (hx : x ∈ Set.Icc (-1 : ℝ) 1) :
    HasSum (fun k : ℕ => (1 / 2 : ℝ) ^ k * (Chebyshev.T ℝ k).eval x) ((1 - x / 2) / (5 / 4 - x)) := by
  set z : ℂ := (1 / 2 : ℝ) * Complex.exp (Real.arccos x * Complex.I) with hz
  have hcos : Real.cos (Real.arccos x) = x := Real.cos_arccos hx.1 hx.2
  have hnorm : ‖z‖ = 1 / 2 := by
    rw [hz, norm_mul, Complex.norm_exp_ofReal_mul_I, mul_one, Complex.norm_real, Real.norm_eq_abs]
    norm_num
  have h1 := Complex.hasSum_re (hasSum_geometric_of_norm_lt_one (show ‖z‖ < 1 by rw [hnorm]; norm_num))
  have hzr : z.re = x / 2 := by
    rw [hz, Complex.re_ofReal_mul, Complex.exp_ofReal_mul_I_re, hcos]; ring
  have hsq : z.re ^ 2 + z.im ^ 2 = 1 / 4 := by
    have := Complex.sq_norm z
    rw [hnorm, Complex.normSq_apply] at this
    linarith [this]
  convert! h1 using 1
  · funext k
    have h2 := Chebyshev.T_real_cos (Real.arccos x) (k : ℤ)
    rw [hcos] at h2
    rw [h2, hz, mul_pow, ← Complex.exp_nat_mul, ← Complex.ofReal_pow, Complex.re_ofReal_mul,
      show (k : ℂ) * (Real.arccos x * Complex.I) = ((k * Real.arccos x : ℝ) : ℂ) * Complex.I by
        push_cast; ring, Complex.exp_ofReal_mul_I_re]
    norm_num
  · rw [Complex.inv_re, Complex.normSq_apply]
    simp only [Complex.sub_re, Complex.one_re, Complex.sub_im, Complex.one_im]
    congr 1
    · rw [hzr]
    · rw [hzr] at hsq ⊢
      nlinarith [hsq]

/-- A rational function on 33 points: interpolated by the library to within `2⁻³¹`, everywhere. -/
example : ∃ b x c, Cheb.new 33 = ok b ∧ b.coords = ok x ∧
    b.forwardSlice (x.map (fun x => (1 - x / 2) / (5 / 4 - x))) (List.replicate 33 0) = ok c ∧
    ∀ y ∈ Set.Icc (-1 : ℝ) 1, |(chebPoly ℝ c).eval y - (1 - y / 2) / (5 / 4 - y)| ≤ (1 / 2) ^ 31 := by
  obtain ⟨b, hb⟩ : ∃ b, Cheb.new 33 = ok b := ⟨_, cheb_new_ok (by norm_num)⟩
  obtain ⟨x, c, hx, hc, -, h⟩ := C80_chebyshev_geometric 33 (by norm_num) b hb (fun k => (1 / 2 : ℝ) ^ k) 1
    (1 / 2) (by norm_num) (by norm_num) (fun k => by rw [one_mul, abs_of_nonneg (by positivity)])
    _ cheb_generating (List.replicate 33 0) (by rw [(cheb_of_new hb).1]; rfl)
  refine ⟨b, x, c, hb, hx, hc, fun y hy => (h y hy).trans (le_of_eq ?_)⟩
  norm_num

/-- C80: let `f` be the sum of an absolutely convergent Fourier series.  From the samples of `f` on the
grid of `fourier_c2c(n)`, `forward` computes `n` times the coefficients up to the tail of the series
outside of the band `-n ≤ 2 K < n`, and the result represents `f` everywhere up to twice this tail. -/
theorem C80_fourier_c2c (n : ℕ) (hn : 1 ≤ n) (b : C2c) (hb : C2c.new n = ok b) (a : ℤ → ℂ)
    (hs : Summable (fun K => ‖a K‖)) (f : ℝ → ℂ)
    (hf : ∀ x : ℝ, HasSum (fun K : ℤ => a K * Complex.exp (Complex.I * K * x)) (f x))
    (out : List ℂ) (ho : out.length = b.lenSpec) :
    ∃ x c, b.coords = ok x ∧ b.forwardSlice (x.map f) out = ok c ∧ c.length = n ∧
      (∀ j < n, ‖nth c j / n - a (freq n j)‖ ≤ ∑' K : {K : ℤ // ¬(-n ≤ 2 * K ∧ 2 * K < n)}, ‖a K‖) ∧
      ∀ y, ‖trigC n c y - f y‖ ≤ 2 * ∑' K : {K : ℤ // ¬(-n ≤ 2 * K ∧ 2 * K < n)}, ‖a K‖ := by
  classical
  have hn' : (n : ℂ) ≠ 0 := by exact_mod_cast (by omega : n ≠ 0)
  obtain ⟨x, hx, hxl, hxj⟩ := C23_c2c_coords n hn b hb
  set c : List ℂ := (List.range n).map (fun j => n * classSum (fourierAlias n) a j) with hc
  have hcl : c.length = n := by simp [hc]
  have hcj : ∀ j < n, nth c j = n * classSum (fourierAlias n) a j := fun j hj => nth_map_range _ _ _ hj
  clear_value c
  have hcomb : ∀ φ : ℕ → ℂ, HasSum (fun K => φ (fourierAlias n K) * a K)
      (∑ j ∈ range n, φ j * (nth c j / n)) := by
    intro φ
    have := classSum_combine hs (fourierAlias_lt hn)
      (fun j => (ContinuousLinearMap.mul ℝ ℂ (φ j)))
    simp only [ContinuousLinearMap.mul_apply'] at this
    rwa [Finset.sum_congr rfl (fun j hj => by
      rw [hcj j (Finset.mem_range.mp hj), mul_div_cancel_left₀ _ hn'])]
  set S : Set ℤ := {K | ¬(-n ≤ 2 * K ∧ 2 * K < n)} with hS
  have htail : ∀ (g : ℤ → ℂ) (s : ℂ) (M : ℝ), HasSum g s → (∀ K, K ∉ S → g K = 0) →
      (∀ K, ‖g K‖ ≤ M * ‖a K‖) → ‖s‖ ≤ M * ∑' K : S, ‖a K‖ := by
    intro g s M hg h0 h1
    rw [← hg.tsum_eq, tsum_subtype S (fun K => ‖a K‖), ← tsum_mul_left]
    refine tsum_of_norm_bounded ((hs.indicator S).mul_left M).hasSum (fun K => ?_)
    by_cases hK : K ∈ S
    · rw [Set.indicator_of_mem hK]; exact h1 K
    · rw [h0 K hK, Set.indicator_of_notMem hK]; simp
  have htrig : ∀ y : ℝ, HasSum (fun K => Complex.exp (Complex.I * freq n (fourierAlias n K) * y) * a K)
      (trigC n c y) := by
    intro y
    have := hcomb (fun j => Complex.exp (Complex.I * freq n j * y))
    convert! this using 1
    unfold trigC
    rw [Finset.mul_sum]
    exact Finset.sum_congr rfl (fun j _ => by field_simp)
  have hexp : ∀ (m : ℤ) (y : ℝ), ‖Complex.exp (Complex.I * m * y)‖ = 1 := by
    intro m y
    rw [show Complex.I * m * y = ((m * y : ℝ) : ℂ) * Complex.I by push_cast; ring]
    exact Complex.norm_exp_ofReal_mul_I _
  refine ⟨x, c, hx, c2c_forward_of_grid hn hb hx f c out (by rw [c2c_of_new hb]; exact hcl) ho
    (fun j hj => ?_), hcl, fun j hj => ?_, fun y => ?_⟩
  · refine (htrig _).unique ?_
    convert! hf (nth x j) using 2 with K
    rw [hxj j hj, exp_fourierAlias hn, mul_comm]
  · have h1 := hcomb (fun i => if i = j then 1 else 0)
    have h2 : HasSum (fun K => (if K = freq n j then 1 else 0) * a K) (a (freq n j)) := by
      have := hasSum_ite_eq (freq n j) (a (freq n j))
      convert! this using 1
      funext K
      by_cases hK : K = freq n j
      · subst hK; simp
      · simp [hK]
    have h3 := htail _ _ 1 (h1.sub h2) (fun K hK => ?_) (fun K => ?_)
    · simpa [Finset.sum_ite_eq, hj] using! h3
    · simp only [hS, Set.mem_setOf_eq, not_not] at hK
      have h4 := freq_fourierAlias_of hK.1 hK.2
      have h5 : (fourierAlias n K = j) ↔ K = freq n j := by
        constructor
        · rintro rfl; exact h4.symm
        · rintro rfl
          unfold fourierAlias freq
          split
          · rw [Int.emod_eq_of_lt (by omega) (by omega)]; omega
          · rw [← Int.add_emod_right, Int.emod_eq_of_lt (by omega) (by omega)]; omega
      by_cases h6 : K = freq n j
      · rw [if_pos h6, if_pos (h5.mpr h6)]; simp
      · rw [if_neg h6, if_neg (fun h => h6 (h5.mp h))]; simp
    · rw [← sub_mul, norm_mul]
      refine mul_le_mul_of_nonneg_right ?_ (norm_nonneg _)
      by_cases h6 : K = freq n j
      · have : fourierAlias n K = j := by
          rw [h6]
          unfold fourierAlias freq
          split
          · rw [Int.emod_eq_of_lt (by omega) (by omega)]; omega
          · rw [← Int.add_emod_right, Int.emod_eq_of_lt (by omega) (by omega)]; omega
        rw [if_pos h6, if_pos this]; simp
      · rw [if_neg h6]
        split <;> simp
  · refine htail _ _ 2 ((htrig y).sub (hf y)) (fun K hK => ?_) (fun K => ?_)
    · simp only [hS, Set.mem_setOf_eq, not_not] at hK
      rw [freq_fourierAlias_of hK.1 hK.2]; ring
    · rw [mul_comm (a K), ← sub_mul, norm_mul]
      refine mul_le_mul_of_nonneg_right ?_ (norm_nonneg _)
      refine (norm_sub_le _ _).trans ?_
      rw [hexp, hexp]; norm_num

/-- `exp(e^{ix})`, all of whose coefficients `1/K!` are non-zero, meets the hypotheses. -/
example : ∃ a : ℤ → ℂ, Summable (fun K => ‖a K‖) ∧ (∀ k : ℕ, a k ≠ 0) ∧
    ∀ x : ℝ, HasSum (fun K : ℤ => a K * Complex.exp (Complex.I * K * x))
      (Complex.exp (Complex.exp (Complex.I * x))) := by
  have hinj : Function.Injective (fun k : ℕ => (k : ℤ)) := Nat.cast_injective
  refine ⟨fun K => if 0 ≤ K then ((K.toNat.factorial : ℕ) : ℂ)⁻¹ else 0, ?_, fun k => ?_, fun x => ?_⟩
  · rw [← hinj.summable_iff]
    · have := Real.summable_pow_div_factorial 1
      refine this.congr (fun k => ?_)
      simp
    · intro K hK
      have : ¬ 0 ≤ K := fun h => hK ⟨K.toNat, by simp [h]⟩
      simp [this]
  · simp [Nat.factorial_ne_zero]
  · rw [← hinj.hasSum_iff]
    · have := NormedSpace.exp_series_hasSum_exp' (𝕂 := ℂ) (Complex.exp (Complex.I * x))
      rw [← Complex.exp_eq_exp_ℂ] at this
      convert! this using 1
      funext k
      simp only [Function.comp, Int.natCast_nonneg, if_true, Int.toNat_natCast, Int.cast_natCast,
        smul_eq_mul]
      rw [← Complex.exp_nat_mul]
      congr 2
      ring
    · intro K hK
      have : ¬ 0 ≤ K := fun h => hK ⟨K.toNat, by simp [h]⟩
      simp [this]

/-- C80: let `f` be the sum of an absolutely convergent real Fourier series (with
`∑ k^d (|Aₖ| + |Bₖ|) < ∞`).  From the samples of `f` on the grid of `fourier_r2c(n)`, `gradient` of
order `d` computes a trigonometric polynomial that approximates the `d`-th derivative of `f`
everywhere, in particular on the grid after `backward`, up to twice the tail of
`∑ k^d (|Aₖ| + |Bₖ|)` over `2 k ≥ n`. -/
theorem C80_fourier_r2c (n : ℕ) (hn : 1 ≤ n) (b : R2c) (hb : R2c.new n = ok b) (A B : ℕ → ℝ) (d : ℕ)
    (hd : d < 2 ^ 31) (hs : Summable (fun k : ℕ => (k : ℝ) ^ d * (|A k| + |B k|))) (f : ℝ → ℝ)
    (hf : ∀ x, HasSum (fun k : ℕ => A k * Real.cos (k * x) + B k * Real.sin (k * x)) (f x))
    (out out' : List ℂ) (out'' : List ℝ) (ho : out.length = b.lenSpec) (ho' : out'.length = b.lenOrth)
    (ho'' : out''.length = b.lenPhys) :
    ∃ x c g v, b.coords = ok x ∧ b.forwardSlice (x.map f) out = ok c ∧
      b.gradientSlice c out' d = ok g ∧ b.backwardSlice g out'' = ok v ∧ v.length = n ∧
      (∀ y, |trigR n g y - iteratedDeriv d f y|
        ≤ 2 * ∑' k : {k : ℕ // n ≤ 2 * k}, (k : ℝ) ^ d * (|A k| + |B k|)) ∧
      ∀ j < n, |nth v j - iteratedDeriv d f (nth x j)|
        ≤ 2 * ∑' k : {k : ℕ // n ≤ 2 * k}, (k : ℝ) ^ d * (|A k| + |B k|) := by
  classical
  have hn' : (n : ℝ) ≠ 0 := by exact_mod_cast (by omega : n ≠ 0)
  obtain ⟨x, hx, hxl, hxj⟩ := C23_r2c_coords n hn b hb
  have hpos : ∀ k, 0 ≤ |A k| + |B k| := fun k => by positivity
  have hs0 : Summable (fun k => |A k| + |B k|) := by
    simpa using summable_of_pow' hpos hs (Nat.zero_le d)
  have hsA : Summable (fun k => ‖A k‖) := Summable.of_nonneg_of_le (fun k => abs_nonneg _)
    (fun k => le_add_of_nonneg_right (abs_nonneg _)) hs0
  have hsB : Summable (fun k => ‖(sinSign n k : ℝ) * B k‖) := Summable.of_nonneg_of_le
    (fun k => abs_nonneg _) (fun k => by
      rw [norm_mul]
      refine (mul_le_of_le_one_left (norm_nonneg _) (sinSign_abs n k)).trans ?_
      exact le_add_of_nonneg_left (abs_nonneg _)) hs0
  set A' : ℕ → ℝ := classSum (cosAlias n) A with hA
  set B' : ℕ → ℝ := classSum (cosAlias n) (fun k => (sinSign n k : ℝ) * B k) with hB
  set c : List ℂ := (List.range (n / 2 + 1)).map (fun m =>
    ⟨n / (if m = 0 ∨ 2 * m = n then 1 else 2) * A' m,
      -(n / (if m = 0 ∨ 2 * m = n then 1 else 2) * B' m)⟩) with hc
  have hcm : ∀ m ≤ n / 2, nth c m = ⟨n / (if m = 0 ∨ 2 * m = n then 1 else 2) * A' m,
      -(n / (if m = 0 ∨ 2 * m = n then 1 else 2) * B' m)⟩ := fun m hm =>
    nth_map_range _ _ _ (by omega)
  have hcl : c.length = n / 2 + 1 := by simp [hc]
  clear_value c
  have hlt : ∀ k, cosAlias n k < n / 2 + 1 := fun k => Nat.lt_succ_of_le (cosAlias_le hn k)
  have hcomb : ∀ φ ψ : ℕ → ℝ, HasSum
      (fun k => φ (cosAlias n k) * A k + ψ (cosAlias n k) * (sinSign n k * B k))
      (∑ j ∈ range (n / 2 + 1), (φ j * A' j + ψ j * B' j)) := by
    intro φ ψ
    have h1 := classSum_combine hsA hlt (fun j => φ j • ContinuousLinearMap.id ℝ ℝ)
    have h2 := classSum_combine hsB hlt (fun j => ψ j • ContinuousLinearMap.id ℝ ℝ)
    simp only [ContinuousLinearMap.smul_apply, ContinuousLinearMap.id_apply, smul_eq_mul] at h1 h2
    rw [Finset.sum_add_distrib]
    exact h1.add h2
  have hBz : ∀ m, (m = 0 ∨ 2 * m = n) → B' m = 0 := by
    intro m hm
    have : (fun k => if cosAlias n k = m then (sinSign n k : ℝ) * B k else 0) = fun _ => 0 := by
      funext k
      split
      · next h => rw [sinSign_eq_zero (by rw [h]; exact hm) hn]; simp
      · rfl
    rw [hB]
    exact (classSum_hasSum hsB m).unique (this ▸ hasSum_zero)
  have hp := trigR_eq_trigPoly n hn A' B' (hBz 0 (Or.inl rfl)) (fun h => hBz _ (Or.inr h)) c hcm
  have hcs : c.length = b.lenSpec := by rw [r2c_of_new hb]; exact hcl
  have hfwd : b.forwardSlice (x.map f) out = ok c := by
    refine r2c_forward_of_grid hn hb hx f c out hcs ho ?_ ?_ (fun j hj => ?_)
    · rw [hcm 0 (by omega)]; simp [hBz 0 (Or.inl rfl)]
    · intro h
      rw [hcm _ le_rfl]; simp [hBz (n / 2) (Or.inr (by omega))]
    · rw [hp]
      unfold trigPoly
      have h1 := hcomb (fun m => Real.cos (m * nth x j)) (fun m => Real.sin (m * nth x j))
      have h2 := hf (nth x j)
      have h3 : (fun k : ℕ => A k * Real.cos (k * nth x j) + B k * Real.sin (k * nth x j))
          = fun k => Real.cos (cosAlias n k * nth x j) * A k
            + Real.sin (cosAlias n k * nth x j) * (sinSign n k * B k) := by
        funext k
        rw [hxj j hj, cos_cosAlias hn, ← sin_cosAlias hn k]
        ring
      rw [h3] at h2
      rw [← h1.unique h2]
      exact Finset.sum_congr rfl (fun m _ => by ring)
  obtain ⟨g, hg, hgl, -, -, hgd⟩ := C29_gradient n b hb c out' hcs (by rw [ho', r2c_of_new hb]; rfl) d hd
  obtain ⟨x', v, hx', hv, hvl, he⟩ := C28_backward_evaluates n hn b hb g out'' hgl ho''
  obtain rfl : x = x' := by rw [hx] at hx'; exact Res.ok.inj hx'
  have hmain : ∀ y, |trigR n g y - iteratedDeriv d f y|
        ≤ 2 * ∑' k : {k : ℕ // n ≤ 2 * k}, (k : ℝ) ^ d * (|A k| + |B k|) := by
    intro y
    have h1 : HasSum (fun k => tterm (A k) (sinSign n k * B k) (cosAlias n k) d y) (trigR n g y) := by
      rw [hgd, hp, iteratedDeriv_trigPoly]
      have := hcomb (fun m => tterm 1 0 m d y) (fun m => tterm 0 1 m d y)
      convert! this using 1
      · funext k
        rw [tterm_lin]
      · exact Finset.sum_congr rfl (fun m _ => by rw [tterm_lin])
    have h2 := h1.sub (iteratedDeriv_fourSeries hs hf y)
    rw [← h2.tsum_eq, ← Real.norm_eq_abs]
    have h3 := tsum_subtype {k : ℕ | n ≤ 2 * k} (fun k : ℕ => (k : ℝ) ^ d * (|A k| + |B k|))
    change _ ≤ 2 * ∑' k : {k : ℕ | n ≤ 2 * k}, (k : ℝ) ^ d * (|A k| + |B k|)
    rw [h3, ← tsum_mul_left]
    refine tsum_of_norm_bounded ((hs.indicator _).mul_left 2).hasSum (fun k => ?_)
    rw [Real.norm_eq_abs]
    by_cases hk : n ≤ 2 * k
    · rw [Set.indicator_of_mem (show k ∈ {k : ℕ | n ≤ 2 * k} from hk)]
      refine (abs_sub _ _).trans ?_
      have h4 := tterm_abs (A k) (sinSign n k * B k) (cosAlias n k) d y
      have h5 := tterm_abs (A k) (B k) k d y
      have h6 : ((cosAlias n k : ℕ) : ℝ) ^ d ≤ (k : ℝ) ^ d :=
        pow_le_pow_left₀ (Nat.cast_nonneg _) (by exact_mod_cast cosAlias_le_self k) _
      have h7 : |(sinSign n k : ℝ) * B k| ≤ |B k| := by
        rw [abs_mul]; exact mul_le_of_le_one_left (abs_nonneg _) (sinSign_abs n k)
      have h8 : ((cosAlias n k : ℕ) : ℝ) ^ d * (|A k| + |(sinSign n k : ℝ) * B k|)
          ≤ (k : ℝ) ^ d * (|A k| + |B k|) :=
        mul_le_mul h6 (by linarith) (by positivity) (by positivity)
      linarith
    · rw [Set.indicator_of_notMem (show k ∉ {k : ℕ | n ≤ 2 * k} from hk), mul_zero]
      rw [cosAlias_of_lt (by omega)]
      by_cases hk0 : k = 0
      · subst hk0
        have : tterm (A 0) (sinSign n 0 * B 0) 0 d y = tterm (A 0) (B 0) 0 d y := by
          unfold tterm
          rcases Nat.eq_zero_or_pos d with h | h
          · subst h; simp
          · simp [zero_pow (show d ≠ 0 by omega)]
        rw [this, sub_self, abs_zero]
      · rw [sinSign_of_lt (by omega) hk0, Int.cast_one, one_mul, sub_self, abs_zero]
  refine ⟨x, c, g, v, hx, hfwd, hg, hv, by omega, hmain, fun j hj => ?_⟩
  rw [he j (by omega)]
  exact hmain _

/-- `(1 - cos x / 2) / (5/4 - cos x)`, with coefficients `2⁻ᵏ`, meets the hypotheses for `d = 0`. -/
example (x : ℝ) : HasSum (fun k : ℕ => (1 / 2 : ℝ) ^ k * Real.cos (k * x) + 0 * Real.sin (k * x))
    ((1 - Real.cos x / 2) / (5 / 4 - Real.cos x)) := by
  convert! cheb_generating (Real.cos x) ⟨Real.neg_one_le_cos x, Real.cos_le_one x⟩ using 1
  funext k
  have := Chebyshev.T_real_cos x (k : ℤ)
  rw [this]
  norm_num

end Verif.Props
