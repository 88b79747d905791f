/-
Property C115: multiplication on the grid is convolution of the coefficients, and multiplication of coefficients is
convolution on the grid.
-/
import Verif.Spec.Convolution
import Verif.Proof.Product
import Verif.Props.Symmetry
import Verif.Props.Nonlinear

namespace Verif.Props
open Res Spec Finset Complex

/-! ### sums -/

private theorem twiddle_sub {n : ℕ} (hn : 1 ≤ n) (k p l : ℕ) (hp : p < n) :
    twiddle (-1) n ((k + n - p) % n) l = twiddle (-1) n k l * twiddle 1 n p l := by
  have h := twiddle_mod n hn (-1) (k + n - p) l
  push_cast at h
  have hn' : (n : ℂ) ≠ 0 := by exact_mod_cast (by omega : n ≠ 0)
  rw [h]
  unfold twiddle
  rw [← Complex.exp_add, Complex.exp_eq_exp_iff_exists_int]
  refine ⟨-(l : ℤ), ?_⟩
  have : ((k + n - p : ℕ) : ℂ) = k + n - p := by
    rw [Nat.cast_sub (by omega)]; push_cast; ring
  rw [this]
  push_cast
  field_simp
  ring

/-- products are convolutions of the coefficients -/
private theorem dft_product {n : ℕ} (hn : 1 ≤ n) (x y : ℕ → ℂ) (k : ℕ) :
    ∑ p ∈ range n, dft (-1) n x p * dft (-1) n y ((k + n - p) % n) = n * dft (-1) n (fun j => x j * y j) k := by
  have e : ∀ p ∈ range n, dft (-1) n x p * dft (-1) n y ((k + n - p) % n)
      = ∑ l ∈ range n, y l * twiddle (-1) n l k * (dft (-1) n x p * twiddle 1 n p l) := fun p hp => by
    rw [mem_range] at hp
    conv_lhs => rw [show dft (-1) n y ((k + n - p) % n) = ∑ l ∈ range n, y l * twiddle (-1) n l ((k + n - p) % n) from rfl]
    rw [Finset.mul_sum]
    refine Finset.sum_congr rfl fun l _ => ?_
    rw [twiddle_comm _ n l ((k + n - p) % n), twiddle_sub hn k p l hp, twiddle_comm (-1) n k l]
    ring
  rw [Finset.sum_congr rfl e, Finset.sum_comm]
  unfold dft
  rw [Finset.mul_sum]
  refine Finset.sum_congr rfl fun l hl => ?_
  rw [mem_range] at hl
  have h := dft_inv (-1) (Or.inr rfl) n hn x l hl
  push_cast at h
  rw [neg_neg] at h
  rw [← Finset.mul_sum]
  change y l * twiddle (-1) n l k * dft 1 n (dft (-1) n x) l = _
  rw [h]; ring

private theorem shift_factor {n : ℕ} (k s : ℕ) :
    Complex.exp (Complex.I * k * ((2 * Real.pi * s / n : ℝ) : ℂ)) = twiddle 1 n s k := by
  unfold twiddle
  congr 1
  push_cast; ring

/-- convolutions are products of the coefficients -/
private theorem dft_conv {n : ℕ} (hn : 1 ≤ n) (x y : ℕ → ℂ) (k : ℕ) :
    dft (-1) n (fun j => ∑ l ∈ range n, x l * y ((j + n - l) % n)) k = dft (-1) n x k * dft (-1) n y k := by
  conv_lhs => unfold dft
  conv_rhs => rw [show dft (-1) n x k = ∑ l ∈ range n, x l * twiddle (-1) n l k from rfl]
  simp_rw [Finset.sum_mul]
  rw [Finset.sum_comm]
  refine Finset.sum_congr rfl fun l hl => ?_
  rw [mem_range] at hl
  have h := dft_shift n (n - l) hn y k
  rw [shift_factor, twiddle_comm] at h
  have h2 : twiddle 1 n k (n - l) = twiddle (-1) n k l := by
    have hn' : (n : ℂ) ≠ 0 := by exact_mod_cast (by omega : n ≠ 0)
    unfold twiddle
    rw [Complex.exp_eq_exp_iff_exists_int]
    refine ⟨k, ?_⟩
    rw [Nat.cast_sub hl.le]
    push_cast
    field_simp
    ring
  rw [h2, twiddle_comm (-1) n k l] at h
  rw [mul_assoc, ← h]
  unfold dft
  rw [Finset.mul_sum]
  refine Finset.sum_congr rfl fun j _ => ?_
  rw [show j + n - l = j + (n - l) by omega]; ring

/-- correlations -/
private theorem dft_corr {n : ℕ} (hn : 1 ≤ n) (x y : ℕ → ℂ) (k : ℕ) :
    dft (-1) n (fun j => ∑ l ∈ range n, (starRingEnd ℂ) (x l) * y ((l + j) % n)) k
      = (starRingEnd ℂ) (dft (-1) n x k) * dft (-1) n y k := by
  conv_lhs => unfold dft
  conv_rhs => rw [show dft (-1) n x k = ∑ l ∈ range n, x l * twiddle (-1) n l k from rfl]
  rw [map_sum]
  simp_rw [Finset.sum_mul]
  rw [Finset.sum_comm]
  refine Finset.sum_congr rfl fun l _ => ?_
  have h := dft_shift n l hn y k
  have h2 := conj_twiddle n l k (-1)
  push_cast at h2
  rw [neg_neg] at h2
  rw [shift_factor] at h
  rw [map_mul, h2, mul_assoc, ← h]
  unfold dft
  rw [Finset.mul_sum]
  refine Finset.sum_congr rfl fun j _ => ?_
  rw [add_comm l j]; ring

private theorem circConv_len {T : Type} [AddCommMonoid T] [Mul T] (n : ℕ) (x y : List T) : (circConv n x y).length = n := by
  simp [circConv]

private theorem circCorr_len {T : Type} [AddCommMonoid T] [Mul T] (n : ℕ) (c : T → T) (x y : List T) :
    (circCorr n c x y).length = n := by
  simp [circCorr]

/-! ### fourier_c2c -/

private theorem c2c_fwd {n : ℕ} {b : Base ℂ ℂ ℂ} (hb : IsC2c n b) {x : List ℂ} (hx : x.length = n) :
    1 ≤ n ∧ b.lenSpec = n ∧ b.lenPhys = n ∧ Returns b.forwardSlice b.lenSpec x (fftFwd x) ∧
      ∀ X, Returns b.forwardSlice b.lenSpec x X → X = fftFwd x := by
  obtain ⟨hn, b0, hb, rfl⟩ := hb
  obtain rfl := c2c_inv hb
  exact ⟨hn, rfl, rfl, fun out ho => wp_c2c_forward n x out hx ho, fun X hX =>
    Res.ok.inj ((hX (List.replicate n 0) (List.length_replicate ..)).symm.trans
      (wp_c2c_forward n x _ hx (List.length_replicate ..)))⟩

/-- C115, `fourier_c2c`: the coefficients of a product of grid data are the circular convolution of the coefficients of the factors,
divided by the number of points. -/
theorem C115_c2c_product (n : ℕ) (b : Base ℂ ℂ ℂ) (hb : IsC2c n b) (x y X Y : List ℂ) (hx : x.length = n)
    (hy : y.length = n) (hX : Returns b.forwardSlice b.lenSpec x X) (hY : Returns b.forwardSlice b.lenSpec y Y) :
    Returns b.forwardSlice b.lenSpec (pointwise x y) ((circConv n X Y).map (· / n)) := by
  obtain ⟨hn, -, -, -, uX⟩ := c2c_fwd hb hx
  obtain ⟨-, -, -, -, uY⟩ := c2c_fwd hb hy
  have hn' : (n : ℂ) ≠ 0 := by exact_mod_cast (by omega : n ≠ 0)
  have hp : (pointwise x y).length = n := by rw [pointwise_length _ _ (by rw [hx, hy]), hx]
  obtain ⟨-, -, -, R, -⟩ := c2c_fwd hb hp
  obtain rfl := uX X hX
  obtain rfl := uY Y hY
  have e : (circConv n (fftFwd x) (fftFwd y)).map (· / (n : ℂ)) = fftFwd (pointwise x y) := by
    refine ext_nth (by rw [List.length_map, circConv_len, length_fftFwd, hp]) fun k hk => ?_
    rw [List.length_map, circConv_len] at hk
    rw [nth_map _ _ _ (by rw [circConv_len]; exact hk), nth_fftFwd _ (by rw [hp]; exact hk), hp]
    unfold circConv
    rw [nth_map_range _ _ _ hk, div_eq_iff hn', mul_comm]
    have h := dft_product hn (nth x) (nth y) k
    rw [dft_congr k (y := nth (pointwise x y)) fun j _ => (nth_pointwise _ _ (by rw [hx, hy]) j).symm] at h
    rw [← h]
    refine Finset.sum_congr rfl fun p hp => ?_
    rw [mem_range] at hp
    rw [nth_fftFwd _ (by rw [hx]; exact hp), nth_fftFwd _ (by rw [hy]; exact Nat.mod_lt _ hn), hx, hy]
  rw [e]
  exact R

/-- C115, `fourier_c2c`: multiplying the coefficients (filtering) convolves the grid data: `forward` of the circular convolution gives
the products of the coefficients, and `backward` of the products gives the circular convolution. -/
theorem C115_c2c_filter (n : ℕ) (b : Base ℂ ℂ ℂ) (hb : IsC2c n b) (x y X Y : List ℂ) (hx : x.length = n)
    (hy : y.length = n) (hX : Returns b.forwardSlice b.lenSpec x X) (hY : Returns b.forwardSlice b.lenSpec y Y) :
    Returns b.forwardSlice b.lenSpec (circConv n x y) (pointwise X Y) ∧
    Returns b.backwardSlice b.lenPhys (pointwise X Y) (circConv n x y) := by
  obtain ⟨hn, -, -, -, uX⟩ := c2c_fwd hb hx
  obtain ⟨-, -, -, -, uY⟩ := c2c_fwd hb hy
  have hp := circConv_len n x y
  obtain ⟨-, -, -, R, -⟩ := c2c_fwd hb hp
  obtain rfl := uX X hX
  obtain rfl := uY Y hY
  have hl : (fftFwd x).length = (fftFwd y).length := by rw [length_fftFwd, length_fftFwd, hx, hy]
  have e : fftFwd (circConv n x y) = pointwise (fftFwd x) (fftFwd y) := by
    refine ext_nth (by rw [length_fftFwd, hp, pointwise_length _ _ hl, length_fftFwd, hx]) fun k hk => ?_
    rw [length_fftFwd, hp] at hk
    rw [nth_pointwise _ _ hl, nth_fftFwd _ (by rw [hp]; exact hk), nth_fftFwd _ (by rw [hx]; exact hk),
      nth_fftFwd _ (by rw [hy]; exact hk), hx, hy, hp, ← dft_conv hn]
    exact dft_congr k fun j hj => nth_map_range _ _ _ hj
  rw [← e]
  refine ⟨R, ?_⟩
  obtain ⟨-, b0, hb, rfl⟩ := hb
  obtain rfl := c2c_inv hb
  intro out ho
  obtain ⟨c, hc, -, hc'⟩ := C24_backward_forward n hn ⟨n, n⟩ rfl (circConv n x y) (List.replicate n 0) out hp
    (List.length_replicate ..) ho
  obtain rfl := Res.ok.inj (hc.symm.trans (wp_c2c_forward n _ _ hp (List.length_replicate ..)))
  exact hc'

/-- C115, `fourier_c2c`: correlations. -/
theorem C115_c2c_correlation (n : ℕ) (b : Base ℂ ℂ ℂ) (hb : IsC2c n b) (x y X Y : List ℂ) (hx : x.length = n)
    (hy : y.length = n) (hX : Returns b.forwardSlice b.lenSpec x X) (hY : Returns b.forwardSlice b.lenSpec y Y) :
    Returns b.forwardSlice b.lenSpec (circCorr n (starRingEnd ℂ) x y) (pointwise (X.map (starRingEnd ℂ)) Y) := by
  obtain ⟨hn, -, -, -, uX⟩ := c2c_fwd hb hx
  obtain ⟨-, -, -, -, uY⟩ := c2c_fwd hb hy
  have hp := circCorr_len n (starRingEnd ℂ) x y
  obtain ⟨-, -, -, R, -⟩ := c2c_fwd hb hp
  obtain rfl := uX X hX
  obtain rfl := uY Y hY
  have hl : ((fftFwd x).map (starRingEnd ℂ)).length = (fftFwd y).length := by
    rw [List.length_map, length_fftFwd, length_fftFwd, hx, hy]
  have e : fftFwd (circCorr n (starRingEnd ℂ) x y) = pointwise ((fftFwd x).map (starRingEnd ℂ)) (fftFwd y) := by
    refine ext_nth (by rw [length_fftFwd, hp, pointwise_length _ _ hl, List.length_map, length_fftFwd, hx]) fun k hk => ?_
    rw [length_fftFwd, hp] at hk
    rw [nth_pointwise _ _ hl, nth_map _ _ _ (by rw [length_fftFwd, hx]; exact hk), nth_fftFwd _ (by rw [hp]; exact hk),
      nth_fftFwd _ (by rw [hx]; exact hk), nth_fftFwd _ (by rw [hy]; exact hk), hx, hy, hp, ← dft_corr hn]
    exact dft_congr k fun j hj => nth_map_range _ _ _ hj
  rw [← e]
  exact R

/-! ### fourier_r2c -/

private theorem r2c_fwd {n : ℕ} {b : Base ℝ ℂ ℂ} (hb : IsR2c n b) {x : List ℝ} (hx : x.length = n) :
    1 ≤ n ∧ b.lenSpec = n / 2 + 1 ∧ b.lenPhys = n ∧ Returns b.forwardSlice b.lenSpec x (rfftFwd x) ∧
      ∀ X, Returns b.forwardSlice b.lenSpec x X → X = rfftFwd x := by
  obtain ⟨hn, b0, hb, rfl⟩ := hb
  obtain rfl := r2c_inv hb
  exact ⟨hn, rfl, rfl, fun out ho => r2c_forward_eq n x out hx ho, fun X hX =>
    Res.ok.inj ((hX (List.replicate (n / 2 + 1) 0) (List.length_replicate ..)).symm.trans
      (r2c_forward_eq n x _ hx (List.length_replicate ..)))⟩

private theorem full_eq {n : ℕ} (hn : 1 ≤ n) {x : List ℝ} (hx : x.length = n) {k : ℕ} (hk : k < n) :
    nth (fullSpectrum n (rfftFwd x)) k = dft (-1) n (fun j => ((nth x j : ℝ) : ℂ)) k := by
  unfold fullSpectrum
  rw [nth_map_range _ _ _ hk]
  split_ifs with h
  · rw [nth_rfftFwd x (by rw [hx]; omega), hx]
  · rw [nth_rfftFwd x (by rw [hx]; omega), hx]
    unfold dft
    rw [map_sum]
    refine Finset.sum_congr rfl fun j _ => ?_
    have h1 := conj_twiddle n j (n - k) (-1)
    push_cast at h1
    rw [map_mul, Complex.conj_ofReal, h1, neg_neg]
    congr 1
    have hn' : (n : ℂ) ≠ 0 := by exact_mod_cast (by omega : n ≠ 0)
    unfold twiddle
    rw [Complex.exp_eq_exp_iff_exists_int]
    refine ⟨j, ?_⟩
    rw [Nat.cast_sub hk.le]
    push_cast
    field_simp
    ring

/-- C115, `fourier_r2c`: the coefficients of a product of real grid data are the circular convolution of the spectra of the factors
(with the conjugate halves the library does not store), divided by the number of points. -/
theorem C115_r2c_product (n : ℕ) (b : Base ℝ ℂ ℂ) (hb : IsR2c n b) (x y : List ℝ) (X Y Z : List ℂ) (hx : x.length = n)
    (hy : y.length = n) (hX : Returns b.forwardSlice b.lenSpec x X) (hY : Returns b.forwardSlice b.lenSpec y Y)
    (hZ : Returns b.forwardSlice b.lenSpec (pointwise x y) Z) :
    Z.length = n / 2 + 1 ∧ ∀ k ≤ n / 2, nth Z k = nth (circConv n (fullSpectrum n X) (fullSpectrum n Y)) k / n := by
  obtain ⟨hn, -, -, -, uX⟩ := r2c_fwd hb hx
  obtain ⟨-, -, -, -, uY⟩ := r2c_fwd hb hy
  have hn' : (n : ℂ) ≠ 0 := by exact_mod_cast (by omega : n ≠ 0)
  have hp : (pointwise x y).length = n := by rw [pointwise_length _ _ (by rw [hx, hy]), hx]
  obtain ⟨-, -, -, -, uZ⟩ := r2c_fwd hb hp
  obtain rfl := uX X hX
  obtain rfl := uY Y hY
  obtain rfl := uZ Z hZ
  refine ⟨by rw [length_rfftFwd, hp], fun k hk => ?_⟩
  have hk' : k < n := by omega
  rw [nth_rfftFwd _ (by rw [hp]; omega), hp, eq_div_iff hn', mul_comm]
  unfold circConv
  rw [nth_map_range _ _ _ hk']
  have h := dft_product hn (fun j => ((nth x j : ℝ) : ℂ)) (fun j => ((nth y j : ℝ) : ℂ)) k
  rw [dft_congr k (y := fun j => ((nth (pointwise x y) j : ℝ) : ℂ)) fun j _ => by
    rw [nth_pointwise _ _ (by rw [hx, hy]) j]; push_cast; rfl] at h
  rw [← h]
  refine Finset.sum_congr rfl fun p hp => ?_
  rw [mem_range] at hp
  rw [full_eq hn hx hp, full_eq hn hy (Nat.mod_lt _ hn)]

/-- C115, `fourier_r2c`: multiplying the coefficients (filtering) convolves the grid data. -/
theorem C115_r2c_filter (n : ℕ) (b : Base ℝ ℂ ℂ) (hb : IsR2c n b) (x y : List ℝ) (X Y : List ℂ) (hx : x.length = n)
    (hy : y.length = n) (hX : Returns b.forwardSlice b.lenSpec x X) (hY : Returns b.forwardSlice b.lenSpec y Y) :
    Returns b.forwardSlice b.lenSpec (circConv n x y) (pointwise X Y) ∧
    Returns b.backwardSlice b.lenPhys (pointwise X Y) (circConv n x y) := by
  obtain ⟨hn, -, -, -, uX⟩ := r2c_fwd hb hx
  obtain ⟨-, -, -, -, uY⟩ := r2c_fwd hb hy
  have hp := circConv_len n x y
  obtain ⟨-, -, -, R, -⟩ := r2c_fwd hb hp
  obtain rfl := uX X hX
  obtain rfl := uY Y hY
  have hl : (rfftFwd x).length = (rfftFwd y).length := by rw [length_rfftFwd, length_rfftFwd, hx, hy]
  have e : rfftFwd (circConv n x y) = pointwise (rfftFwd x) (rfftFwd y) := by
    refine ext_nth (by rw [length_rfftFwd, hp, pointwise_length _ _ hl, length_rfftFwd, hx]) fun k hk => ?_
    rw [length_rfftFwd, hp] at hk
    rw [nth_pointwise _ _ hl, nth_rfftFwd _ (by rw [hp]; exact hk), nth_rfftFwd _ (by rw [hx]; exact hk),
      nth_rfftFwd _ (by rw [hy]; exact hk), hx, hy, hp, ← dft_conv hn]
    refine dft_congr k fun j hj => ?_
    unfold circConv
    rw [nth_map_range _ _ _ hj]
    push_cast; rfl
  rw [← e]
  refine ⟨R, ?_⟩
  obtain ⟨-, b0, hb, rfl⟩ := hb
  obtain rfl := r2c_inv hb
  intro out ho
  obtain ⟨c, hc, -, hc'⟩ := C28_backward_forward n hn ⟨n, n / 2 + 1⟩ rfl (circConv n x y) out (List.replicate (n / 2 + 1) 0) hp
    (List.length_replicate ..) ho
  obtain rfl := Res.ok.inj (hc.symm.trans (r2c_forward_eq n _ _ hp (List.length_replicate ..)))
  exact hc'

/-- C115, `fourier_r2c`: the power spectrum is the transform of the autocorrelation, and generally the products with the conjugate coefficients
are the transform of the correlation. -/
theorem C115_r2c_correlation (n : ℕ) (b : Base ℝ ℂ ℂ) (hb : IsR2c n b) (x y : List ℝ) (X Y : List ℂ) (hx : x.length = n)
    (hy : y.length = n) (hX : Returns b.forwardSlice b.lenSpec x X) (hY : Returns b.forwardSlice b.lenSpec y Y) :
    Returns b.forwardSlice b.lenSpec (circCorr n id x y) (pointwise (X.map (starRingEnd ℂ)) Y) := by
  obtain ⟨hn, -, -, -, uX⟩ := r2c_fwd hb hx
  obtain ⟨-, -, -, -, uY⟩ := r2c_fwd hb hy
  have hp := circCorr_len n id x y
  obtain ⟨-, -, -, R, -⟩ := r2c_fwd hb hp
  obtain rfl := uX X hX
  obtain rfl := uY Y hY
  have hl : ((rfftFwd x).map (starRingEnd ℂ)).length = (rfftFwd y).length := by
    rw [List.length_map, length_rfftFwd, length_rfftFwd, hx, hy]
  have e : rfftFwd (circCorr n id x y) = pointwise ((rfftFwd x).map (starRingEnd ℂ)) (rfftFwd y) := by
    refine ext_nth (by rw [length_rfftFwd, hp, pointwise_length _ _ hl, List.length_map, length_rfftFwd, hx]) fun k hk => ?_
    rw [length_rfftFwd, hp] at hk
    rw [nth_pointwise _ _ hl, nth_map _ _ _ (by rw [length_rfftFwd, hx]; exact hk), nth_rfftFwd _ (by rw [hp]; exact hk),
      nth_rfftFwd _ (by rw [hx]; exact hk), nth_rfftFwd _ (by rw [hy]; exact hk), hx, hy, hp, ← dft_corr hn]
    refine dft_congr k fun j hj => ?_
    unfold circCorr
    rw [nth_map_range _ _ _ hj]
    push_cast
    refine Finset.sum_congr rfl fun l _ => ?_
    rw [Complex.conj_ofReal]; rfl
  rw [← e]
  exact R

/-! ### chebyshev -/

/-- C115, `chebyshev`: the coefficients of a product of grid data: the products of the coefficients go, halved, to the sum and to the
difference of the degrees, and sums beyond the grid are reflected. -/
theorem C115_cheb_product (n : ℕ) (b : Base ℝ ℝ ℝ) (hb : IsCheb n b) (x y X Y : List ℝ) (hx : x.length = n)
    (hy : y.length = n) (hX : Returns b.forwardSlice b.lenSpec x X) (hY : Returns b.forwardSlice b.lenSpec y Y) :
    Returns b.forwardSlice b.lenSpec (pointwise x y) (chebConv n X Y) := by
  obtain ⟨b0, hb0, rfl⟩ := hb
  obtain ⟨hn, rfl⟩ := chebyshev_inv (show newR2r none n = ok b0 from hb0)
  have hl : (List.replicate n (0 : ℝ)).length = n := List.length_replicate ..
  have hc := cheb_new_ok hn
  obtain ⟨t, ht, htl, htj, -⟩ := C01_coords n _ hc
  have key : ∀ (u U : List ℝ), u.length = n → Returns (Cheb.forwardSlice ⟨n, n⟩) n u U →
      U.length = n ∧ u = t.map (chebPoly ℝ U).eval := fun u U hu hU => by
    obtain ⟨a, ha, ha'⟩ := C03_backward_forward n _ hc u (List.replicate n 0) (List.replicate n 0) hu hl hl
    obtain rfl := Res.ok.inj (ha.symm.trans (hU _ hl))
    have hal : a.length = n := by
      obtain ⟨a', ha', hl', -⟩ := wp_total.mp (wp_forwardSlice ⟨n, n⟩ n rfl hn u (List.replicate n 0) hu hl)
      rw [Res.ok.inj (ha.symm.trans ha')]; exact hl'
    obtain ⟨t', v, ht', hv, hvl, he⟩ := C02_backward_evaluates n _ hc a (List.replicate n 0) hal hl
    obtain rfl := Res.ok.inj (ht.symm.trans ht')
    obtain rfl := Res.ok.inj (ha'.symm.trans hv)
    exact ⟨hal, ext_nth (by rw [List.length_map, hvl]) fun j hj => by
      rw [hvl] at hj
      rw [he j hj, nth_map _ _ _ hj]⟩
  obtain ⟨lX, eX⟩ := key x X hx hX
  obtain ⟨lY, eY⟩ := key y Y hy hY
  have e : pointwise x y = t.map fun s => (chebPoly ℝ X).eval s * (chebPoly ℝ Y).eval s := by
    refine ext_nth (by rw [pointwise_length _ _ (by rw [hx, hy]), hx, List.length_map, htl]) fun j hj => ?_
    rw [pointwise_length _ _ (by rw [hx, hy]), hx] at hj
    rw [nth_pointwise _ _ (by rw [hx, hy]), eX, eY, nth_map _ _ _ (by omega), nth_map _ _ _ (by omega), nth_map _ _ _ (by omega)]
  intro out ho
  rw [e]
  refine cheb_forward_of_grid hc ht _ _ out (by simp [chebConv, Cheb.lenSpec]) ho fun q hq => ?_
  have hal : ∀ k, (Polynomial.Chebyshev.T ℝ (chebAlias n k : ℕ)).eval (nth t q) = (Polynomial.Chebyshev.T ℝ k).eval (nth t q) :=
    fun k => by rw [htj q hq]; exact T_chebAlias hn k q
  set s := nth t q
  have lC : (chebConv n X Y).length = n := by simp [chebConv]
  unfold chebPoly
  rw [lC, lX, lY, Polynomial.eval_finset_sum, Polynomial.eval_finset_sum, Polynomial.eval_finset_sum, Finset.sum_mul_sum]
  have e1 : ∀ k ∈ range n, (Polynomial.C (nth (chebConv n X Y) k) * Polynomial.Chebyshev.T ℝ k).eval s
      = ∑ i ∈ range n, ∑ j ∈ range n, nth X i * nth Y j / 2 * ((if chebAlias n (i + j) = k then (Polynomial.Chebyshev.T ℝ k).eval s else 0)
        + (if (i - j) + (j - i) = k then (Polynomial.Chebyshev.T ℝ k).eval s else 0)) := fun k hk => by
    rw [mem_range] at hk
    unfold chebConv
    rw [nth_map_range _ _ _ hk, Polynomial.eval_mul, Polynomial.eval_C, Finset.sum_mul]
    refine Finset.sum_congr rfl fun i _ => ?_
    rw [Finset.sum_mul]
    refine Finset.sum_congr rfl fun j _ => ?_
    split_ifs <;> ring
  rw [Finset.sum_congr rfl e1, Finset.sum_comm]
  refine Finset.sum_congr rfl fun i hi => ?_
  rw [Finset.sum_comm]
  refine Finset.sum_congr rfl fun j hj => ?_
  rw [mem_range] at hi hj
  rw [← Finset.mul_sum, Finset.sum_add_distrib, Finset.sum_ite_eq, Finset.sum_ite_eq,
    if_pos (mem_range.mpr (chebAlias_lt hn _)), if_pos (mem_range.mpr (by omega)), hal]
  have h1 := congrArg (Polynomial.eval s) (Polynomial.Chebyshev.T_mul_T ℝ (i : ℤ) (j : ℤ))
  simp only [Polynomial.eval_mul, Polynomial.eval_add, Polynomial.eval_ofNat] at h1
  have h2 : Polynomial.Chebyshev.T ℝ (((i - j) + (j - i) : ℕ) : ℤ) = Polynomial.Chebyshev.T ℝ ((i : ℤ) - j) := by
    rcases le_total i j with h | h
    · rw [show (((i - j) + (j - i) : ℕ) : ℤ) = -((i : ℤ) - j) by omega, Polynomial.Chebyshev.T_neg]
    · rw [show (((i - j) + (j - i) : ℕ) : ℤ) = (i : ℤ) - j by omega]
  rw [h2, Polynomial.eval_mul, Polynomial.eval_mul, Polynomial.eval_C, Polynomial.eval_C]
  push_cast
  linear_combination (-(nth X i * nth Y j / 2)) * h1

/-- C115 applies: bases of 4 and 5 points and their transforms of any data. -/
example : (∃ b, IsC2c 4 b ∧ ∃ X, Returns b.forwardSlice b.lenSpec [1, I, 0, 2] X) ∧
    (∃ b, IsR2c 5 b ∧ ∃ X, Returns b.forwardSlice b.lenSpec [1, 0, 2, 0, 3] X) ∧
    chebAlias 3 (2 + 1) = 1 ∧ ∃ b : Base ℝ ℝ ℝ, IsCheb 3 b ∧ ∃ X, Returns b.forwardSlice b.lenSpec [1, 0, 2] X := by
  obtain ⟨b, hb, -⟩ := isC2c_exists (n := 4) (by norm_num)
  obtain ⟨b', hb', -⟩ := isR2c_exists (n := 5) (by norm_num)
  obtain ⟨b'', hb'', hr, h1, h2, -⟩ := isCheb_exists (T := ℝ) (n := 3) (by norm_num)
  obtain ⟨φ, cφ, -⟩ := hr.fwdLin
  exact ⟨⟨b, hb, _, (c2c_fwd hb rfl).2.2.2.1⟩, ⟨b', hb', _, (r2c_fwd hb' rfl).2.2.2.1⟩, rfl, b'', hb'', φ [1, 0, 2],
    fun out ho => (cφ _ out (by rw [h1]; rfl) ho).1⟩

end Verif.Props
