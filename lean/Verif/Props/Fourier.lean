/-
Property theorems for the Fourier bases: C23-C30.  Exact complex arithmetic; the external FFT
plans are modelled by the discrete Fourier transform.
-/
import Verif.Proof.FourierDeriv
import Mathlib.Tactic.NormNum

namespace Verif.Props
open Res Spec Finset Complex

theorem c2c_of_new {n : ℕ} {b : C2c} (hb : C2c.new n = ok b) : b = ⟨n, n⟩ := by
  unfold C2c.new at hb; cases hb; rfl
theorem r2c_of_new {n : ℕ} {b : R2c} (hb : R2c.new n = ok b) : b = ⟨n, n / 2 + 1⟩ := by
  unfold R2c.new at hb; cases hb; rfl

example : ∃ b, C2c.new 6 = ok b ∧ b.lenPhys = 6 ∧ b.lenSpec = 6 := ⟨⟨6, 6⟩, rfl, rfl, rfl⟩
example : ∃ b, R2c.new 6 = ok b ∧ b.lenPhys = 6 ∧ b.lenSpec = 4 := ⟨⟨6, 4⟩, rfl, rfl, rfl⟩

/-! ### C23 -/

/-- C23: the grid of the complex base is `2πj/n`, `j < n`. -/
theorem C23_c2c_coords (n : ℕ) (hn : 1 ≤ n) (b : C2c) (hb : C2c.new n = ok b) :
    ∃ x, b.coords = ok x ∧ x.length = n ∧ ∀ j < n, nth x j = 2 * Real.pi * j / n := by
  obtain rfl := c2c_of_new hb
  exact ⟨_, fourierNodes_eq n hn, by simp, fun j hj => nth_map_range _ _ _ hj⟩

/-- C23: the grid of the real-to-complex base is `2πj/n`, `j < n`. -/
theorem C23_r2c_coords (n : ℕ) (hn : 1 ≤ n) (b : R2c) (hb : R2c.new n = ok b) :
    ∃ x, b.coords = ok x ∧ x.length = n ∧ ∀ j < n, nth x j = 2 * Real.pi * j / n := by
  obtain rfl := r2c_of_new hb
  exact ⟨_, fourierNodes_eq n hn, by simp, fun j hj => nth_map_range _ _ _ hj⟩

/-- C23: entry `j` of the complex wavenumber table is `i` times the signed frequency of `j`. -/
theorem C23_c2c_wavenumber (n : ℕ) (hn : 1 ≤ n) :
    ∃ w, C2c.wavenumber n = ok w ∧ w.length = n ∧ ∀ j < n, nth w j = I * freq n j := by
  refine ⟨_, c2c_wavenumber_eq n hn, by simp, fun j hj => ?_⟩
  rw [nth_map_range _ _ _ hj, freq_eq]

/-- C23: entry `j` of the real-to-complex wavenumber table is `i j`, `j ≤ n/2`. -/
theorem C23_r2c_wavenumber (n : ℕ) :
    (R2c.wavenumber n).length = n / 2 + 1 ∧ ∀ j ≤ n / 2, nth (R2c.wavenumber n) j = I * j := by
  rw [r2c_wavenumber_eq]
  refine ⟨by simp, fun j hj => ?_⟩
  rw [nth_map_range _ _ _ (by omega)]

/-- the signed frequencies for n = 6 (documentation of `wavenumber`) and n = 5 -/
example : (List.range 6).map (freq 6) = [0, 1, 2, -3, -2, -1] ∧
    (List.range 5).map (freq 5) = [0, 1, 2, -2, -1] := by decide

/-- C23: with size 0 the complex table underflows. -/
theorem C23_c2c_wavenumber_zero : C2c.wavenumber 0 = err .panic := by
  unfold C2c.wavenumber usub; simp

/-! ### C24, C25 -/

/-- C24: `forward(backward(c)) = c`. -/
theorem C24_forward_backward (n : ℕ) (hn : 1 ≤ n) (b : C2c) (hb : C2c.new n = ok b)
    (c out out' : List ℂ) (hc : c.length = b.lenSpec) (ho : out.length = b.lenPhys)
    (ho' : out'.length = b.lenSpec) :
    ∃ v, b.backwardSlice c out = ok v ∧ v.length = b.lenPhys ∧ b.forwardSlice v out' = ok c := by
  obtain rfl := c2c_of_new hb
  have hn' : (n : ℂ) ≠ 0 := by exact_mod_cast (by omega : n ≠ 0)
  change c.length = n at hc
  refine ⟨_, wp_c2c_backward n hn c out hc ho, by simpa [C2c.lenPhys] using hc, ?_⟩
  rw [wp_c2c_forward n _ out' (by simpa using hc) ho', fftFwd_fftInv _ (by simp; omega),
    List.map_map, List.length_map, hc]
  congr 1
  conv_rhs => rw [← List.map_id c]
  refine List.map_congr_left (fun z _ => ?_)
  simp [hn']

/-- C24: `backward(forward(v)) = v`. -/
theorem C24_backward_forward (n : ℕ) (hn : 1 ≤ n) (b : C2c) (hb : C2c.new n = ok b)
    (v out out' : List ℂ) (hv : v.length = b.lenPhys) (ho : out.length = b.lenSpec)
    (ho' : out'.length = b.lenPhys) :
    ∃ c, b.forwardSlice v out = ok c ∧ c.length = b.lenSpec ∧ b.backwardSlice c out' = ok v := by
  obtain rfl := c2c_of_new hb
  have hn' : (n : ℂ) ≠ 0 := by exact_mod_cast (by omega : n ≠ 0)
  change v.length = n at hv
  refine ⟨_, wp_c2c_forward n v out hv ho, by simpa [C2c.lenSpec] using hv, ?_⟩
  rw [wp_c2c_backward n hn _ out' (by simpa using hv) ho', fftInv_smul,
    fftInv_fftFwd _ (by omega), List.map_map, hv]
  congr 1
  conv_rhs => rw [← List.map_id v]
  refine List.map_congr_left (fun z _ => ?_)
  simp [hn']

/-- C25: `backward(c)` samples `(1/n) ∑ cₖ exp(i Kₖ x)` at the grid points. -/
theorem C25_backward_evaluates (n : ℕ) (hn : 1 ≤ n) (b : C2c) (hb : C2c.new n = ok b)
    (c out : List ℂ) (hc : c.length = b.lenSpec) (ho : out.length = b.lenPhys) :
    ∃ x v, b.coords = ok x ∧ b.backwardSlice c out = ok v ∧ v.length = x.length ∧
      ∀ j < x.length, nth v j = trigC n c (nth x j) := by
  obtain rfl := c2c_of_new hb
  have hn' : (n : ℂ) ≠ 0 := by exact_mod_cast (by omega : n ≠ 0)
  change c.length = n at hc
  refine ⟨_, _, fourierNodes_eq n hn, wp_c2c_backward n hn c out hc ho, by simpa using hc,
    fun j hj => ?_⟩
  have hj' : j < n := by simpa using hj
  rw [fftInv_smul, nth_map _ _ _ (by simpa [hc] using hj'), nth_fftInv _ (by omega), hc]
  rw [nth_map_range _ _ _ hj']
  unfold trigC dft
  rw [one_div]
  congr 1
  refine Finset.sum_congr rfl (fun k hk => ?_)
  congr 1
  unfold twiddle freq
  rw [Complex.exp_eq_exp_iff_exists_int]
  by_cases h : 2 * k < n
  · refine ⟨0, ?_⟩
    rw [if_pos h]; push_cast; field_simp; ring
  · refine ⟨j, ?_⟩
    rw [if_neg h]; push_cast; field_simp; ring

/-- C25 in terms of the library's own wavenumber table `w`: entry `j` of `backward(c)` is
`(1/n) ∑ₖ cₖ exp(wₖ xⱼ)`. -/
theorem C25_backward_wavenumbers (n : ℕ) (hn : 1 ≤ n) (b : C2c) (hb : C2c.new n = ok b)
    (c out : List ℂ) (hc : c.length = b.lenSpec) (ho : out.length = b.lenPhys) :
    ∃ x w v, b.coords = ok x ∧ C2c.wavenumber n = ok w ∧ b.backwardSlice c out = ok v ∧
      v.length = n ∧ ∀ j < n, nth v j
        = (1 / n) * ∑ k ∈ range n, nth c k * exp (nth w k * ((nth x j : ℝ) : ℂ)) := by
  obtain ⟨x, v, hx, hv, hl, he⟩ := C25_backward_evaluates n hn b hb c out hc ho
  obtain ⟨x', hx', hl', -⟩ := C23_c2c_coords n hn b hb
  obtain rfl : x = x' := by rw [hx] at hx'; simpa using hx'
  obtain ⟨w, hw, -, hwj⟩ := C23_c2c_wavenumber n hn
  refine ⟨x, w, v, hx, hw, hv, by omega, fun j hj => ?_⟩
  rw [he j (by omega)]
  unfold trigC
  refine congrArg _ (Finset.sum_congr rfl (fun k hk => ?_))
  rw [hwj k (mem_range.mp hk)]

/-! ### C27 (before C26, which compares with it) -/

/-- C27: `diffmat(k)` is the diagonal matrix of the `(iK)^k`. -/
theorem C27_diffmat (n : ℕ) (hn : 1 ≤ n) (b : C2c) (hb : C2c.new n = ok b) (k : ℕ) (hk : 1 ≤ k)
    (hk2 : k < 2 ^ 31) :
    ∃ D, b.diffmat k = ok D ∧ D.rows = b.lenSpec ∧ D.cols = b.lenSpec ∧
      ∀ i < n, ∀ j < n, D.get i j = if i = j then (I * freq n i) ^ k else 0 := by
  obtain rfl := c2c_of_new hb
  obtain ⟨D, hD, h1, h2, h3⟩ := c2c_diffmat_eq n hn k hk hk2
  exact ⟨D, hD, h1, h2, fun i hi j hj => by rw [h3 i hi j hj, ← freq_eq]⟩

/-- C27: `diffmat(k)·c` are the coefficients of the `k`-th derivative. -/
theorem C27_diffmat_derivative (n : ℕ) (hn : 1 ≤ n) (b : C2c) (hb : C2c.new n = ok b) (k : ℕ)
    (hk : 1 ≤ k) (hk2 : k < 2 ^ 31) (c : List ℂ) (_hc : c.length = b.lenSpec) :
    ∃ D, b.diffmat k = ok D ∧ trigC n (mulVec D c) = iteratedDeriv k (trigC n c) := by
  obtain rfl := c2c_of_new hb
  obtain ⟨D, hD, hdiag⟩ := c2c_diffmat_eq n hn k hk hk2
  refine ⟨D, hD, (trigC_deriv n c _ k (fun j hj => ?_)).symm⟩
  rw [mulVec_diag hdiag, nth_map_range _ _ _ hj, freq_eq, smul_eq_mul]

/-- C27: order zero, and orders that do not fit an `i32`, are rejected. -/
theorem C27_diffmat_rejects (n : ℕ) (hn : 1 ≤ n) (b : C2c) (hb : C2c.new n = ok b) (k : ℕ)
    (hk : k = 0 ∨ 2 ^ 31 ≤ k) : b.diffmat k = err .panic := by
  obtain rfl := c2c_of_new hb
  unfold C2c.diffmat assertR C2c.lenPhys
  dsimp only
  rcases hk with rfl | hk
  · rfl
  · rw [if_pos (show k > 0 by omega), c2c_wavenumber_eq n hn, if_neg (show ¬ k < 2 ^ 31 by omega)]
    rfl

/-- rows `1..` of `P·D`, entry `(0,0)` zero -/
theorem pinv_diag {K : Type} [Field K] {m : ℕ} (hm : 1 ≤ m) {d : ℕ → K}
    (hd0 : d 0 = 0) (hd : ∀ i, 1 ≤ i → i < m → d i ≠ 0) {P D : Mat K}
    (hP : IsDiag m (fun i => if i = 0 then d 0 else (d i)⁻¹) P) (hD : IsDiag m d D) :
    (matMul P D).rows = m ∧ (matMul P D).cols = m ∧
    (∀ j < m, (matMul P D).get 0 j = 0) ∧
    SameMat (dropRows 1 (matMul P D)) (dropRows 1 (Mat.eye m)) := by
  obtain ⟨h1, h2, h3⟩ := matMul_diag hP hD
  refine ⟨h1, h2, fun j hj => ?_, ?_, h2, fun i hi j hj => ?_⟩
  · rw [h3 0 (by omega) j hj]; simp [hd0]
  · show (matMul P D).rows - 1 = m - 1
    rw [h1]
  · have hi' : i < m - 1 := by rw [← h1]; exact hi
    have hj' : j < m := by rw [← h2]; exact hj
    show (matMul P D).get (i + 1) j = if i + 1 = j then 1 else 0
    rw [h3 (i + 1) (by omega) j hj']
    by_cases h : i + 1 = j
    · rw [if_pos h, if_pos h]
      show (if i + 1 = 0 then d 0 else (d (i + 1))⁻¹) * d (i + 1) = 1
      rw [if_neg (Nat.succ_ne_zero i), inv_mul_cancel₀ (hd _ (by omega) (by omega))]
    · rw [if_neg h, if_neg h]

/-- C27: `diffmat_pinv(k)` returns `(P, J)` with `J` rows `1..` of the identity, rows `1..` of
`P·diffmat(k)` equal to `J` and row 0 of the product zero. -/
theorem C27_diffmat_pinv (n : ℕ) (hn : 1 ≤ n) (b : C2c) (hb : C2c.new n = ok b) (k : ℕ)
    (hk : 1 ≤ k) (hk2 : k < 2 ^ 31) :
    ∃ D P J, b.diffmat k = ok D ∧ b.diffmatPinv k = ok (P, J) ∧
      P.rows = n ∧ P.cols = n ∧ SameMat J (dropRows 1 (Mat.eye n)) ∧
      SameMat (dropRows 1 (matMul P D)) J ∧ ∀ j < n, (matMul P D).get 0 j = 0 := by
  obtain rfl := c2c_of_new hb
  obtain ⟨D, hD, hdiag⟩ := c2c_diffmat_eq n hn k hk hk2
  have hne : ∀ i, 1 ≤ i → i < n → (I * (c2cK n i : ℂ)) ^ k ≠ 0 := fun i h1 h2 =>
    pow_ne_zero _ (mul_ne_zero I_ne_zero (by exact_mod_cast c2cK_ne n i h1 h2))
  have h00 : (I * (c2cK n 0 : ℂ)) ^ k = 0 := by
    unfold c2cK; rw [if_pos (by omega)]; simp; omega
  have hp : ∃ r, C2c.diffmatPinv ⟨n, n⟩ k = ok r ∧
      (IsDiag n (fun i => if i = 0 then (I * (c2cK n 0 : ℂ)) ^ k
        else ((I * (c2cK n i : ℂ)) ^ k)⁻¹) r.1 ∧
        r.2 = ⟨n - 1, n, fun i j => (Mat.eye n).get (i + 1) j⟩) := by
    apply wp_total.mp
    unfold C2c.diffmatPinv
    dsimp only
    refine wp_bind_i (wp_assert_i hk ?_)
    refine wp_bind_i (wp_assert_i hn ?_)
    rw [hD]
    refine wp_bind_i (wp_ok_i ?_)
    refine wp_bind_i (wp_mono (wp_invDiag hn hdiag hne) (fun P hP => ?_))
    exact ⟨hP, rfl⟩
  obtain ⟨⟨P, J⟩, hPJ, hP, hJ⟩ := hp
  simp only at hP hJ
  obtain ⟨h1, h2, h3, h4⟩ := pinv_diag (d := fun i => (I * (c2cK n i : ℂ)) ^ k) hn h00 hne hP hdiag
  subst hJ
  exact ⟨D, P, _, hD, hPJ, hP.1, hP.2.1, ⟨rfl, rfl, fun _ _ _ _ => rfl⟩, h4, h3⟩

/-- C27: `laplacian()` is the real diagonal matrix of `-K²`, and equals `diffmat(2)`. -/
theorem C27_laplacian (n : ℕ) (hn : 1 ≤ n) (b : C2c) (hb : C2c.new n = ok b) :
    ∃ L D, b.laplacian = ok L ∧ b.diffmat 2 = ok D ∧ L.rows = b.lenSpec ∧ L.cols = b.lenSpec ∧
      (∀ i < n, ∀ j < n, L.get i j = if i = j then -((freq n i : ℝ) ^ 2) else 0) ∧
      SameMat (L.map (fun r : ℝ => (r : ℂ))) D := by
  obtain rfl := c2c_of_new hb
  obtain ⟨L, hL, h1, h2, h3⟩ := c2c_laplacian_eq n hn
  obtain ⟨D, hD, g1, g2, g3⟩ := c2c_diffmat_eq n hn 2 (by norm_num) (by norm_num)
  refine ⟨L, D, hL, hD, h1, h2, fun i hi j hj => by rw [h3 i hi j hj, ← freq_eq],
    h1.trans g1.symm, h2.trans g2.symm, fun i hi j hj => ?_⟩
  have hi' : i < n := by rw [← h1]; exact hi
  have hj' : j < n := by rw [← h2]; exact hj
  show ((L.get i j : ℝ) : ℂ) = D.get i j
  rw [h3 i hi' j hj', g3 i hi' j hj']
  split
  · dsimp only; rw [mul_pow, I_sq]; push_cast; ring
  · simp

/-- C27: `laplacian_pinv()` returns `(P, J)` with `J` rows `1..` of the identity, rows `1..` of
`P·laplacian()` equal to `J` and row 0 of the product zero. -/
theorem C27_laplacian_pinv (n : ℕ) (hn : 1 ≤ n) (b : C2c) (hb : C2c.new n = ok b) :
    ∃ L P J, b.laplacian = ok L ∧ b.laplacianPinv = ok (P, J) ∧
      P.rows = n ∧ P.cols = n ∧ SameMat J (dropRows 1 (Mat.eye n)) ∧
      SameMat (dropRows 1 (matMul P L)) J ∧ ∀ j < n, (matMul P L).get 0 j = 0 := by
  obtain rfl := c2c_of_new hb
  obtain ⟨L, hL, hdiag⟩ := c2c_laplacian_eq n hn
  have hne : ∀ i, 1 ≤ i → i < n → -((c2cK n i : ℝ) ^ 2) ≠ 0 := fun i h1 h2 =>
    neg_ne_zero.mpr (pow_ne_zero _ (by exact_mod_cast c2cK_ne n i h1 h2))
  have h00 : -((c2cK n 0 : ℝ) ^ 2) = 0 := by
    unfold c2cK; rw [if_pos (by omega)]; simp
  have hp : ∃ r, C2c.laplacianPinv ⟨n, n⟩ = ok r ∧
      (IsDiag n (fun i => if i = 0 then -((c2cK n 0 : ℝ) ^ 2)
        else (-((c2cK n i : ℝ) ^ 2))⁻¹) r.1 ∧
        r.2 = ⟨n - 1, n, fun i j => (Mat.eye n).get (i + 1) j⟩) := by
    apply wp_total.mp
    unfold C2c.laplacianPinv
    dsimp only
    rw [hL]
    refine wp_bind_i (wp_ok_i ?_)
    refine wp_bind_i (wp_mono (wp_invDiag hn hdiag hne) (fun P hP => ?_))
    exact ⟨hP, rfl⟩
  obtain ⟨⟨P, J⟩, hPJ, hP, hJ⟩ := hp
  simp only at hP hJ
  obtain ⟨h1, h2, h3, h4⟩ := pinv_diag (d := fun i => -((c2cK n i : ℝ) ^ 2)) hn h00 hne hP hdiag
  subst hJ
  exact ⟨L, P, _, hL, hPJ, hP.1, hP.2.1, ⟨rfl, rfl, fun _ _ _ _ => rfl⟩, h4, h3⟩

/-! ### C26 -/

/-- C26 is false of the code for every `n ≥ 2`: the first derivative of the highest negative
mode comes out as zero. -/
theorem C26_gradient_refuted (n : ℕ) (hn : 2 ≤ n) (b : C2c) (hb : C2c.new n = ok b)
    (out : List ℂ) (ho : out.length = b.lenSpec) :
    ∃ c g D, c.length = b.lenSpec ∧ b.gradientSlice c out 1 = ok g ∧ b.diffmat 1 = ok D ∧
      g ≠ mulVec D c ∧ trigC n g ≠ iteratedDeriv 1 (trigC n c) := by
  obtain rfl := c2c_of_new hb
  have hn' : (n : ℂ) ≠ 0 := by exact_mod_cast (by omega : n ≠ 0)
  obtain ⟨D, hD, hdiag⟩ := c2c_diffmat_eq n (by omega) 1 le_rfl (by norm_num)
  set c : List ℂ := (List.range n).map (fun j => if j = n - 1 then 1 else 0) with hc
  have hcl : c.length = n := by simp [hc]
  have hcj : ∀ j < n, nth c j = if j = n - 1 then 1 else 0 := fun j hj => by
    rw [hc, nth_map_range _ _ _ hj]
  have hgz : ∀ j < n, nth c j * (I * (c2cCodeK n j : ℂ)) ^ 1 = 0 := by
    intro j hj
    rw [hcj j hj]
    by_cases h : j = n - 1
    · unfold c2cCodeK
      rw [if_neg (show ¬ j < (n + 1) / 2 by omega), show n - 1 - j = 0 by omega]; simp
    · rw [if_neg h, zero_mul]
  set g := (List.range n).map (fun j => nth c j * (I * (c2cCodeK n j : ℂ)) ^ 1) with hg
  have hgj : ∀ j, nth g j = 0 := fun j => by
    by_cases h : j < n
    · rw [hg, nth_map_range _ _ _ h, hgz j h]
    · exact nth_of_le _ _ (by rw [hg, List.length_map, List.length_range]; omega)
  have hm : nth (mulVec D c) (n - 1) = -I := by
    rw [mulVec_diag hdiag, nth_map_range _ _ _ (by omega), hcj _ (by omega), if_pos rfl]
    unfold c2cK
    rw [if_neg (show ¬ n - 1 < (n + 1) / 2 by omega), Nat.cast_sub (show 1 ≤ n by omega)]
    simp
  refine ⟨c, g, D, hcl, c2c_gradient_eq n (by omega) c out 1 hcl ho, hD, ?_, ?_⟩
  · intro h
    rw [← h, hgj] at hm
    exact I_ne_zero (neg_eq_zero.mp hm.symm)
  · intro h
    rw [trigC_deriv n c (mulVec D c) 1 (fun j hj => by
      rw [mulVec_diag hdiag, nth_map_range _ _ _ hj, freq_eq, smul_eq_mul])] at h
    have h0 := congrFun h 0
    unfold trigC at h0
    simp only [hgj, zero_mul, Finset.sum_const_zero, mul_zero, Complex.ofReal_zero, Complex.exp_zero,
      mul_one] at h0
    have hs : ∑ j ∈ range n, nth (mulVec D c) j = -I := by
      rw [Finset.sum_eq_single_of_mem (n - 1) (mem_range.mpr (by omega)), hm]
      intro j hj hne
      rw [mem_range] at hj
      rw [mulVec_diag hdiag, nth_map_range _ _ _ hj, hcj j hj, if_neg hne, smul_zero]
    rw [hs] at h0
    have := h0.symm
    simp [hn'] at this

/-- C26, what the code does compute: coefficient `j` is multiplied by `(i j)^k` for
`2j < n`, which is right, and by `(i (n-1-j))^k` for the negative frequencies, which is not.
Missing for the full property: the factor of the negative frequencies should be `(i (j-n))^k`. -/
theorem C26_gradient_partial (n : ℕ) (hn : 1 ≤ n) (b : C2c) (hb : C2c.new n = ok b)
    (c out : List ℂ) (hc : c.length = b.lenSpec) (ho : out.length = b.lenSpec) (k : ℕ) :
    ∃ g, b.gradientSlice c out k = ok g ∧ g.length = b.lenSpec ∧
      (∀ j, 2 * j < n → nth g j = (I * freq n j) ^ k * nth c j) ∧
      (∀ j < n, n ≤ 2 * j → nth g j = (I * ((n : ℂ) - 1 - j)) ^ k * nth c j) := by
  obtain rfl := c2c_of_new hb
  refine ⟨_, c2c_gradient_eq n hn c out k hc ho, by simp [C2c.lenSpec], fun j hj => ?_,
    fun j hj hj2 => ?_⟩
  · rw [nth_map_range _ _ _ (by omega)]
    unfold c2cCodeK freq
    rw [if_pos (by omega), if_pos hj]; push_cast; ring
  · rw [nth_map_range _ _ _ hj]
    unfold c2cCodeK
    rw [if_neg (by omega), Nat.cast_sub (by omega), Nat.cast_sub hn]; push_cast; ring

/-- C26 holds for inputs without negative frequencies: the gradient then is `diffmat(k)·c`. -/
theorem C26_gradient_nonneg_partial (n : ℕ) (hn : 1 ≤ n) (b : C2c) (hb : C2c.new n = ok b)
    (c out : List ℂ) (hc : c.length = b.lenSpec) (ho : out.length = b.lenSpec) (k : ℕ)
    (hk : 1 ≤ k) (hk2 : k < 2 ^ 31) (hpos : ∀ j < n, n ≤ 2 * j → nth c j = 0) :
    ∃ g D, b.gradientSlice c out k = ok g ∧ b.diffmat k = ok D ∧ g = mulVec D c ∧
      trigC n g = iteratedDeriv k (trigC n c) := by
  obtain ⟨g, hg, hl, h1, h2⟩ := C26_gradient_partial n hn b hb c out hc ho k
  obtain rfl := c2c_of_new hb
  obtain ⟨D, hD, hdiag⟩ := c2c_diffmat_eq n hn k hk hk2
  have hgj : ∀ j < n, nth g j = (I * freq n j) ^ k * nth c j := fun j hj => by
    by_cases h : 2 * j < n
    · exact h1 j h
    · rw [h2 j hj (by omega), hpos j hj (by omega), mul_zero, mul_zero]
  refine ⟨g, D, hg, hD, ?_, (trigC_deriv n c g k hgj).symm⟩
  change g.length = n at hl
  rw [mulVec_diag hdiag]
  refine ext_nth (by simpa using hl) (fun j hj => ?_)
  rw [nth_map_range _ _ _ (by omega), hgj j (by omega), freq_eq, smul_eq_mul]

/-- the non-negative-frequency hypothesis is met by every multiple of `e^{ix}` -/
example : ∀ j < 5, 5 ≤ 2 * j → nth ([0, 1, 0, 0, 0] : List ℂ) j = 0 := by
  intro j hj h
  interval_cases j <;> simp_all [nth]

/-! ### C28 -/

/-- C28: `backward(forward(v)) = v` for every real `v`. -/
theorem C28_backward_forward (n : ℕ) (hn : 1 ≤ n) (b : R2c) (hb : R2c.new n = ok b)
    (v out' : List ℝ) (out : List ℂ) (hv : v.length = b.lenPhys) (ho : out.length = b.lenSpec)
    (ho' : out'.length = b.lenPhys) :
    ∃ c, b.forwardSlice v out = ok c ∧ c.length = b.lenSpec ∧ b.backwardSlice c out' = ok v := by
  obtain rfl := r2c_of_new hb
  change v.length = n at hv
  have hl : (rfftFwd v).length = n / 2 + 1 := by simp [hv]
  refine ⟨_, r2c_forward_eq n v out hv ho, hl, ?_⟩
  rw [r2c_backward_eq n hn _ out' hl ho', r2c_bwd_fwd n hn v hv]

/-- C28: `forward(backward(c)) = c` when the mean (and, for even `n`, the Nyquist coefficient)
is real. -/
theorem C28_forward_backward (n : ℕ) (hn : 1 ≤ n) (b : R2c) (hb : R2c.new n = ok b)
    (c out' : List ℂ) (out : List ℝ) (hc : c.length = b.lenSpec) (ho : out.length = b.lenPhys)
    (ho' : out'.length = b.lenSpec) (h0 : (nth c 0).im = 0)
    (hN : n % 2 = 0 → (nth c (n / 2)).im = 0) :
    ∃ v, b.backwardSlice c out = ok v ∧ v.length = b.lenPhys ∧ b.forwardSlice v out' = ok c := by
  obtain rfl := r2c_of_new hb
  change c.length = n / 2 + 1 at hc
  refine ⟨_, r2c_backward_eq n hn c out hc ho, by simp [R2c.lenPhys], ?_⟩
  rw [r2c_forward_eq n _ out' (by simp) ho', r2c_fwd_bwd n hn c hc h0 hN]

/-- C28: `backward` ignores the imaginary parts of the mean and (even `n`) Nyquist entries. -/
theorem C28_backward_ignores_im (n : ℕ) (hn : 1 ≤ n) (b : R2c) (hb : R2c.new n = ok b)
    (c c' : List ℂ) (out : List ℝ) (hc : c.length = b.lenSpec) (hc' : c'.length = b.lenSpec)
    (ho : out.length = b.lenPhys)
    (hsame : ∀ k < b.lenSpec, (nth c k).re = (nth c' k).re ∧
      (k ≠ 0 → 2 * k ≠ n → (nth c k).im = (nth c' k).im)) :
    ∃ v, b.backwardSlice c out = ok v ∧ b.backwardSlice c' out = ok v := by
  obtain rfl := r2c_of_new hb
  refine ⟨_, r2c_backward_eq n hn c out hc ho, ?_⟩
  rw [r2c_backward_eq n hn c' out hc' ho]
  have hp : ∀ k < n / 2 + 1, r2cPrep n c' k = r2cPrep n c k := by
    intro k hk
    unfold r2cPrep
    by_cases h : k = 0 ∨ 2 * k = n
    · rw [if_pos h, if_pos h, (hsame k hk).1]
    · rw [if_neg h, if_neg h]
      congr 1
      exact Complex.ext (hsame k hk).1.symm
        ((hsame k hk).2 (fun h' => h (Or.inl h')) (fun h' => h (Or.inr h'))).symm
  congr 1
  refine List.map_congr_left (fun j _ => ?_)
  rw [dft_congr j (fun k hk => ?_)]
  unfold r2cHerm
  by_cases h : k ≤ n / 2
  · rw [if_pos h, if_pos h, hp k (by omega)]
  · rw [if_neg h, if_neg h, hp _ (by omega)]

/-- C28: `backward(c)` samples the trigonometric series with coefficients `c` at the grid
points (every `c`). -/
theorem C28_backward_evaluates (n : ℕ) (hn : 1 ≤ n) (b : R2c) (hb : R2c.new n = ok b)
    (c : List ℂ) (out : List ℝ) (hc : c.length = b.lenSpec) (ho : out.length = b.lenPhys) :
    ∃ x v, b.coords = ok x ∧ b.backwardSlice c out = ok v ∧ v.length = x.length ∧
      ∀ j < x.length, nth v j = trigR n c (nth x j) := by
  obtain rfl := r2c_of_new hb
  have hn' : (n : ℂ) ≠ 0 := by exact_mod_cast (by omega : n ≠ 0)
  refine ⟨_, _, fourierNodes_eq n hn, r2c_backward_eq n hn c out hc ho, by simp,
    fun j hj => ?_⟩
  have hj' : j < n := by simpa using hj
  rw [nth_map_range _ _ _ hj', nth_map_range _ _ _ hj', r2c_eval n hn]
  unfold trigR
  refine congrArg _ (Finset.sum_congr rfl (fun k hk => ?_))
  have : twiddle 1 n k j = exp (I * k * ((2 * Real.pi * j / n : ℝ) : ℂ)) := by
    unfold twiddle; congr 1; push_cast; field_simp
  rw [this]

example : (nth ([3, 1 + 2 * I, 5] : List ℂ) 0).im = 0 ∧ (4 % 2 = 0 →
    (nth ([3, 1 + 2 * I, 5] : List ℂ) (4 / 2)).im = 0) := by
  constructor
  · simp
  · intro _; simp [nth]

/-! ### C29 -/

/-- C29: `gradient(c,k)` multiplies coefficient `j` by `(ij)^k`; the result is `diffmat(k)·c`
(for `k ≥ 1`), and represents the `k`-th derivative of the function represented by `c`. -/
theorem C29_gradient (n : ℕ) (b : R2c) (hb : R2c.new n = ok b) (c out : List ℂ)
    (hc : c.length = b.lenSpec) (ho : out.length = b.lenSpec) (k : ℕ) (hk2 : k < 2 ^ 31) :
    ∃ g, b.gradientSlice c out k = ok g ∧ g.length = b.lenSpec ∧
      (∀ j < b.lenSpec, nth g j = (I * j) ^ k * nth c j) ∧
      (1 ≤ k → ∃ D, b.diffmat k = ok D ∧ mulVec D c = g) ∧
      trigR n g = iteratedDeriv k (trigR n c) := by
  obtain rfl := r2c_of_new hb
  have hgj : ∀ j < n / 2 + 1, nth ((List.range (n / 2 + 1)).map
      (fun j : ℕ => nth c j * (I * (j : ℂ)) ^ k)) j = nth c j * (I * j) ^ k :=
    fun j hj => nth_map_range _ _ _ hj
  refine ⟨_, r2c_gradient_eq _ c out k hc ho, by simp [R2c.lenSpec], fun j hj => ?_,
    fun hk => ?_, (trigR_deriv n c _ k (fun j hj => hgj j hj)).symm⟩
  · exact (hgj j hj).trans (mul_comm _ _)
  · obtain ⟨D, hD, hdiag⟩ := r2c_diffmat_eq n k hk hk2
    refine ⟨D, hD, ?_⟩
    rw [mulVec_diag hdiag]
    refine List.map_congr_left (fun j _ => ?_)
    rw [smul_eq_mul, mul_comm]

/-- C29: gradients compose. -/
theorem C29_gradient_composes (n : ℕ) (b : R2c) (hb : R2c.new n = ok b) (c out out' : List ℂ)
    (hc : c.length = b.lenSpec) (ho : out.length = b.lenSpec) (ho' : out'.length = b.lenSpec)
    (i j : ℕ) :
    ∃ g h, b.gradientSlice c out i = ok g ∧ b.gradientSlice g out' j = ok h ∧
      b.gradientSlice c out (i + j) = ok h := by
  obtain rfl := r2c_of_new hb
  refine ⟨_, _, r2c_gradient_eq _ c out i hc ho,
    r2c_gradient_eq _ _ out' j (by simp) ho', ?_⟩
  rw [r2c_gradient_eq _ c out (i + j) hc ho]
  congr 1
  refine List.map_congr_left (fun q hq => ?_)
  have hq' : q < n / 2 + 1 := by simpa using hq
  rw [nth_map_range _ _ _ hq', pow_add, mul_assoc]

/-- C29: sampling the gradient with `backward` gives the values of the derivative. -/
theorem C29_gradient_sampled (n : ℕ) (hn : 1 ≤ n) (b : R2c) (hb : R2c.new n = ok b)
    (c out : List ℂ) (out' : List ℝ) (hc : c.length = b.lenSpec) (ho : out.length = b.lenSpec)
    (ho' : out'.length = b.lenPhys) (k : ℕ) (hk2 : k < 2 ^ 31) :
    ∃ g x v, b.gradientSlice c out k = ok g ∧ b.coords = ok x ∧ b.backwardSlice g out' = ok v ∧
      v.length = x.length ∧ ∀ j < x.length, nth v j = iteratedDeriv k (trigR n c) (nth x j) := by
  obtain ⟨g, hg, hl, -, -, hd⟩ := C29_gradient n b hb c out hc ho k hk2
  obtain ⟨x, v, hx, hv, hvl, hvj⟩ := C28_backward_evaluates n hn b hb g out' hl ho'
  exact ⟨g, x, v, hg, hx, hv, hvl, fun j hj => by rw [hvj j hj, hd]⟩

/-! ### C30 -/

/-- C30: `diffmat(k)` is the diagonal matrix of the `(ij)^k`. -/
theorem C30_diffmat (n : ℕ) (b : R2c) (hb : R2c.new n = ok b) (k : ℕ) (hk : 1 ≤ k)
    (hk2 : k < 2 ^ 31) :
    ∃ D, b.diffmat k = ok D ∧ D.rows = b.lenSpec ∧ D.cols = b.lenSpec ∧
      ∀ i < b.lenSpec, ∀ j < b.lenSpec, D.get i j = if i = j then (I * i) ^ k else 0 := by
  obtain rfl := r2c_of_new hb
  obtain ⟨D, hD, h1, h2, h3⟩ := r2c_diffmat_eq n k hk hk2
  exact ⟨D, hD, h1, h2, h3⟩

/-- C30: order zero, and orders that do not fit an `i32`, are rejected. -/
theorem C30_diffmat_rejects (n : ℕ) (b : R2c) (_hb : R2c.new n = ok b) (k : ℕ)
    (hk : k = 0 ∨ 2 ^ 31 ≤ k) : b.diffmat k = err .panic := by
  unfold R2c.diffmat assertR
  rcases hk with rfl | hk
  · rfl
  · rw [if_pos (show k > 0 by omega), if_neg (show ¬ k < 2 ^ 31 by omega)]
    rfl

/-- C30: `diffmat_pinv(k)` (see `C27_diffmat_pinv`). -/
theorem C30_diffmat_pinv (n : ℕ) (b : R2c) (hb : R2c.new n = ok b) (k : ℕ) (hk : 1 ≤ k)
    (hk2 : k < 2 ^ 31) :
    ∃ D P J, b.diffmat k = ok D ∧ b.diffmatPinv k = ok (P, J) ∧
      P.rows = b.lenSpec ∧ P.cols = b.lenSpec ∧ SameMat J (dropRows 1 (Mat.eye b.lenSpec)) ∧
      SameMat (dropRows 1 (matMul P D)) J ∧ ∀ j < b.lenSpec, (matMul P D).get 0 j = 0 := by
  obtain rfl := r2c_of_new hb
  have hm : 1 ≤ n / 2 + 1 := by omega
  obtain ⟨D, hD, hdiag⟩ := r2c_diffmat_eq n k hk hk2
  have hne : ∀ i : ℕ, 1 ≤ i → i < n / 2 + 1 → (I * (i : ℂ)) ^ k ≠ 0 := fun i h1 h2 =>
    pow_ne_zero _ (mul_ne_zero I_ne_zero (by exact_mod_cast (by omega : i ≠ 0)))
  have h00 : (I * ((0 : ℕ) : ℂ)) ^ k = 0 := by simp; omega
  have hp : ∃ r, R2c.diffmatPinv ⟨n, n / 2 + 1⟩ k = ok r ∧
      (IsDiag (n / 2 + 1) (fun i : ℕ => if i = 0 then (I * ((0 : ℕ) : ℂ)) ^ k
        else ((I * (i : ℂ)) ^ k)⁻¹) r.1 ∧
        r.2 = ⟨n / 2 + 1 - 1, n / 2 + 1, fun i j => (Mat.eye (n / 2 + 1)).get (i + 1) j⟩) := by
    apply wp_total.mp
    unfold R2c.diffmatPinv
    dsimp only
    refine wp_bind_i (wp_assert_i hk ?_)
    refine wp_bind_i (wp_assert_i hm ?_)
    rw [hD]
    refine wp_bind_i (wp_ok_i ?_)
    refine wp_bind_i (wp_mono (wp_invDiag hm hdiag hne) (fun P hP => ?_))
    exact ⟨hP, rfl⟩
  obtain ⟨⟨P, J⟩, hPJ, hP, hJ⟩ := hp
  simp only at hP hJ
  obtain ⟨h1, h2, h3, h4⟩ := pinv_diag (d := fun i : ℕ => (I * (i : ℂ)) ^ k) hm h00 hne hP hdiag
  subst hJ
  exact ⟨D, P, _, hD, hPJ, hP.1, hP.2.1, ⟨rfl, rfl, fun _ _ _ _ => rfl⟩, h4, h3⟩

/-- C30: `laplacian()` is the real diagonal matrix of `-j²`, and equals `diffmat(2)`. -/
theorem C30_laplacian (n : ℕ) (b : R2c) (hb : R2c.new n = ok b) :
    ∃ L D, b.laplacian = ok L ∧ b.diffmat 2 = ok D ∧ L.rows = b.lenSpec ∧ L.cols = b.lenSpec ∧
      (∀ i < b.lenSpec, ∀ j < b.lenSpec, L.get i j = if i = j then -((i : ℝ) ^ 2) else 0) ∧
      SameMat (L.map (fun r : ℝ => (r : ℂ))) D := by
  obtain rfl := r2c_of_new hb
  obtain ⟨L, hL, h1, h2, h3⟩ := r2c_laplacian_eq n
  obtain ⟨D, hD, g1, g2, g3⟩ := r2c_diffmat_eq n 2 (by norm_num) (by norm_num)
  refine ⟨L, D, hL, hD, h1, h2, h3, h1.trans g1.symm, h2.trans g2.symm, fun i hi j hj => ?_⟩
  have hi' : i < n / 2 + 1 := by rw [← h1]; exact hi
  have hj' : j < n / 2 + 1 := by rw [← h2]; exact hj
  show ((L.get i j : ℝ) : ℂ) = D.get i j
  rw [h3 i hi' j hj', g3 i hi' j hj']
  split
  · dsimp only; rw [mul_pow, I_sq]; push_cast; ring
  · simp

/-- C30: `laplacian_pinv()` (see `C27_laplacian_pinv`). -/
theorem C30_laplacian_pinv (n : ℕ) (b : R2c) (hb : R2c.new n = ok b) :
    ∃ L P J, b.laplacian = ok L ∧ b.laplacianPinv = ok (P, J) ∧
      P.rows = b.lenSpec ∧ P.cols = b.lenSpec ∧ SameMat J (dropRows 1 (Mat.eye b.lenSpec)) ∧
      SameMat (dropRows 1 (matMul P L)) J ∧ ∀ j < b.lenSpec, (matMul P L).get 0 j = 0 := by
  obtain rfl := r2c_of_new hb
  have hm : 1 ≤ n / 2 + 1 := by omega
  obtain ⟨L, hL, hdiag⟩ := r2c_laplacian_eq n
  have hne : ∀ i : ℕ, 1 ≤ i → i < n / 2 + 1 → -((i : ℝ) ^ 2) ≠ 0 := fun i h1 h2 =>
    neg_ne_zero.mpr (pow_ne_zero _ (by exact_mod_cast (by omega : i ≠ 0)))
  have h00 : -(((0 : ℕ) : ℝ) ^ 2) = 0 := by simp
  have hp : ∃ r, R2c.laplacianPinv ⟨n, n / 2 + 1⟩ = ok r ∧
      (IsDiag (n / 2 + 1) (fun i : ℕ => if i = 0 then -(((0 : ℕ) : ℝ) ^ 2)
        else (-((i : ℝ) ^ 2))⁻¹) r.1 ∧
        r.2 = ⟨n / 2 + 1 - 1, n / 2 + 1, fun i j => (Mat.eye (n / 2 + 1)).get (i + 1) j⟩) := by
    apply wp_total.mp
    unfold R2c.laplacianPinv
    dsimp only
    rw [hL]
    refine wp_bind_i (wp_ok_i ?_)
    refine wp_bind_i (wp_mono (wp_invDiag hm hdiag hne) (fun P hP => ?_))
    exact ⟨hP, rfl⟩
  obtain ⟨⟨P, J⟩, hPJ, hP, hJ⟩ := hp
  simp only at hP hJ
  obtain ⟨h1, h2, h3, h4⟩ := pinv_diag (d := fun i : ℕ => -((i : ℝ) ^ 2)) hm h00 hne hP hdiag
  subst hJ
  exact ⟨L, P, _, hL, hPJ, hP.1, hP.2.1, ⟨rfl, rfl, fun _ _ _ _ => rfl⟩, h4, h3⟩

end Verif.Props
