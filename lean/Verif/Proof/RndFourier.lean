/- Rounding errors of the Fourier bases. -/
import Verif.Spec.RoundingC
import Verif.Spec.Libm
import Verif.Proof.Rounding
import Verif.Proof.Fourier2
import Verif.Proof.AnySizes
import Mathlib.Analysis.InnerProductSpace.PiL2

namespace Verif
open Res Spec Finset

/-! ### Euclidean norms -/

namespace Spec

section norm2
variable {E : Type} [NormedAddCommGroup E]

theorem norm2_nonneg (n : ℕ) (f : ℕ → E) : 0 ≤ norm2 n f := Real.sqrt_nonneg _

theorem norm2_sq (n : ℕ) (f : ℕ → E) : norm2 n f ^ 2 = ∑ k ∈ range n, ‖f k‖ ^ 2 :=
  Real.sq_sqrt (Finset.sum_nonneg fun _ _ => by positivity)

theorem norm2_congr {n : ℕ} {f g : ℕ → E} (h : ∀ k < n, f k = g k) : norm2 n f = norm2 n g := by
  unfold norm2
  congr 1
  exact Finset.sum_congr rfl fun k hk => by rw [h k (mem_range.1 hk)]

theorem norm2_le {n : ℕ} {E' : Type} [NormedAddCommGroup E'] {f : ℕ → E} {g : ℕ → E'} {c : ℝ} (hc : 0 ≤ c)
    (h : ∀ k < n, ‖f k‖ ≤ c * ‖g k‖) : norm2 n f ≤ c * norm2 n g := by
  refine abs_le_of_sq_le_sq' ?_ (mul_nonneg hc (norm2_nonneg _ _)) |>.2
  rw [mul_pow, norm2_sq, norm2_sq, Finset.mul_sum]
  refine Finset.sum_le_sum fun k hk => ?_
  rw [← mul_pow]
  exact pow_le_pow_left₀ (norm_nonneg _) (h k (mem_range.1 hk)) 2

theorem norm2_add (n : ℕ) (f g : ℕ → E) : norm2 n (fun k => f k + g k) ≤ norm2 n f + norm2 n g := by
  have e : ∀ h : ℕ → E, norm2 n h = ‖(WithLp.toLp 2 (fun i : Fin n => ‖h i‖) : EuclideanSpace ℝ (Fin n))‖ := by
    intro h
    rw [EuclideanSpace.norm_eq, norm2, Finset.sum_range]
    simp
  rw [e f, e g]
  refine le_trans ?_ (norm_add_le _ _)
  rw [EuclideanSpace.norm_eq, norm2, Finset.sum_range]
  refine Real.sqrt_le_sqrt (Finset.sum_le_sum fun i _ => ?_)
  refine pow_le_pow_left₀ (norm_nonneg _) ?_ 2
  show ‖f i + g i‖ ≤ ‖‖f i‖ + ‖g i‖‖
  rw [Real.norm_of_nonneg (by positivity)]
  exact norm_add_le _ _

theorem norm2_tri (n : ℕ) (f g h : ℕ → E) :
    norm2 n (fun k => f k - h k) ≤ norm2 n (fun k => f k - g k) + norm2 n (fun k => g k - h k) := by
  refine le_trans (le_of_eq (norm2_congr fun k _ => ?_)) (norm2_add n _ _)
  abel

theorem norm2_le_add (n : ℕ) (f g : ℕ → E) : norm2 n f ≤ norm2 n g + norm2 n (fun k => f k - g k) := by
  refine le_trans (le_of_eq (norm2_congr fun k _ => ?_)) (norm2_add n _ _)
  abel

end norm2

/-- the half spectrum norm is a Euclidean norm of weighted entries -/
theorem normH_eq (n : ℕ) (f : ℕ → ℂ) :
    normH n f = norm2 (n / 2 + 1) (fun k => ((√(if k = 0 ∨ 2 * k = n then 1 else 2) : ℝ) : ℂ) * f k) := by
  unfold normH norm2
  congr 1
  refine Finset.sum_congr rfl fun k _ => ?_
  have h : (0 : ℝ) ≤ if k = 0 ∨ 2 * k = n then 1 else 2 := by split <;> norm_num
  rw [norm_mul, mul_pow, Complex.norm_real, Real.norm_of_nonneg (Real.sqrt_nonneg _), Real.sq_sqrt h]

theorem normH_nonneg (n : ℕ) (f : ℕ → ℂ) : 0 ≤ normH n f := Real.sqrt_nonneg _

theorem normH_sq (n : ℕ) (f : ℕ → ℂ) :
    normH n f ^ 2 = ∑ k ∈ range (n / 2 + 1), (if k = 0 ∨ 2 * k = n then 1 else 2) * ‖f k‖ ^ 2 :=
  Real.sq_sqrt (Finset.sum_nonneg fun k _ => mul_nonneg (by split <;> norm_num) (by positivity))

theorem normH_congr {n : ℕ} {f g : ℕ → ℂ} (h : ∀ k < n / 2 + 1, f k = g k) : normH n f = normH n g := by
  rw [normH_eq, normH_eq]
  exact norm2_congr fun k hk => by rw [h k hk]

theorem normH_le {n : ℕ} {f g : ℕ → ℂ} {c : ℝ} (hc : 0 ≤ c) (h : ∀ k < n / 2 + 1, ‖f k‖ ≤ c * ‖g k‖) :
    normH n f ≤ c * normH n g := by
  rw [normH_eq, normH_eq]
  refine norm2_le hc fun k hk => ?_
  rw [norm_mul, norm_mul, mul_left_comm]
  exact mul_le_mul_of_nonneg_left (h k hk) (norm_nonneg _)

theorem normH_tri (n : ℕ) (f g h : ℕ → ℂ) :
    normH n (fun k => f k - h k) ≤ normH n (fun k => f k - g k) + normH n (fun k => g k - h k) := by
  simp only [normH_eq, mul_sub]
  exact norm2_tri _ _ _ _

theorem normH_le_add (n : ℕ) (f g : ℕ → ℂ) : normH n f ≤ normH n g + normH n (fun k => f k - g k) := by
  simp only [normH_eq, mul_sub]
  exact norm2_le_add _ _ _

end Spec

/-! ### Parseval -/

theorem dft_conj (n : ℕ) (x : ℕ → ℂ) (k : ℕ) :
    dft 1 n x k = (starRingEnd ℂ) (dft (-1) n (fun j => (starRingEnd ℂ) (x j)) k) := by
  unfold dft
  rw [map_sum]
  refine Finset.sum_congr rfl (fun j _ => ?_)
  have := conj_twiddle n j k (-1)
  push_cast at this
  rw [map_mul, Complex.conj_conj, this, neg_neg]

theorem dft_energy (n : ℕ) (hn : 1 ≤ n) (x : ℕ → ℂ) : norm2 n (dft (-1) n x) = √n * norm2 n x := by
  have hc : ∀ k, (starRingEnd ℂ) (dft (-1) n x k) = ∑ j ∈ range n, (starRingEnd ℂ) (x j) * twiddle 1 n j k := by
    intro k
    unfold dft
    rw [map_sum]
    refine Finset.sum_congr rfl (fun j _ => ?_)
    have := conj_twiddle n j k (-1)
    push_cast at this
    rw [map_mul, this, neg_neg]
  have h1 : ∑ k ∈ range n, dft (-1) n x k * (starRingEnd ℂ) (dft (-1) n x k)
      = n * ∑ j ∈ range n, x j * (starRingEnd ℂ) (x j) := by
    simp_rw [hc, Finset.mul_sum]
    rw [Finset.sum_comm]
    refine Finset.sum_congr rfl (fun j hj => ?_)
    have hi := dft_inv (-1) (.inr rfl) n hn x j (mem_range.1 hj)
    unfold dft at hi ⊢
    push_cast at hi
    rw [neg_neg] at hi
    calc _ = (starRingEnd ℂ) (x j) * ∑ k ∈ range n, (∑ i ∈ range n, x i * twiddle (-1) n i k) * twiddle 1 n k j := by
          rw [Finset.mul_sum]
          refine Finset.sum_congr rfl (fun k _ => ?_)
          rw [twiddle_comm 1 n j k]; ring
      _ = _ := by rw [hi]; ring
  simp_rw [Complex.mul_conj'] at h1
  have h2 : ∑ k ∈ range n, ‖dft (-1) n x k‖ ^ 2 = n * ∑ j ∈ range n, ‖x j‖ ^ 2 := by exact_mod_cast h1
  unfold norm2
  rw [h2, Real.sqrt_mul (by positivity)]

theorem dft_energy' (n : ℕ) (hn : 1 ≤ n) (x : ℕ → ℂ) : norm2 n (dft 1 n x) = √n * norm2 n x := by
  have h := dft_energy n hn (fun j => (starRingEnd ℂ) (x j))
  unfold norm2 at h ⊢
  simp only [Complex.norm_conj] at h
  rw [← h]
  simp only [dft_conj, Complex.norm_conj]

theorem fftFwd_norm {n : ℕ} (hn : 1 ≤ n) (x : List ℂ) (hx : x.length = n) :
    norm2 n (nth (fftFwd x)) = √n * norm2 n (nth x) := by
  rw [← dft_energy n hn]
  exact norm2_congr fun k hk => by rw [nth_fftFwd _ (by omega), hx]

theorem fftInv_norm {n : ℕ} (hn : 1 ≤ n) (x : List ℂ) (hx : x.length = n) :
    norm2 n (nth (fftInv x)) = √n * norm2 n (nth x) := by
  rw [← dft_energy' n hn]
  exact norm2_congr fun k hk => by rw [nth_fftInv _ (by omega), hx]

theorem dft_sub (s : ℂ) (n : ℕ) (x y : ℕ → ℂ) (k : ℕ) : dft s n (fun j => x j - y j) k = dft s n x k - dft s n y k := by
  unfold dft
  rw [← Finset.sum_sub_distrib]
  exact Finset.sum_congr rfl fun j _ => by ring

theorem fftInv_sub {n : ℕ} (hn : 1 ≤ n) (x y : List ℂ) (hx : x.length = n) (hy : y.length = n) :
    norm2 n (fun k => nth (fftInv x) k - nth (fftInv y) k) = √n * norm2 n (fun k => nth x k - nth y k) := by
  rw [← dft_energy' n hn]
  exact norm2_congr fun k hk => by rw [nth_fftInv _ (by omega), nth_fftInv _ (by omega), hx, hy, dft_sub]

theorem fftFwd_sub {n : ℕ} (hn : 1 ≤ n) (x y : List ℂ) (hx : x.length = n) (hy : y.length = n) :
    norm2 n (fun k => nth (fftFwd x) k - nth (fftFwd y) k) = √n * norm2 n (fun k => nth x k - nth y k) := by
  rw [← dft_energy n hn]
  exact norm2_congr fun k hk => by rw [nth_fftFwd _ (by omega), nth_fftFwd _ (by omega), hx, hy, dft_sub]

/-- half a spectrum completed -/
noncomputable def hermF (n : ℕ) (h : ℕ → ℂ) (k : ℕ) : ℂ := if k ≤ n / 2 then h k else (starRingEnd ℂ) (h (n - k))

theorem hermF_herm {n : ℕ} (hn : 1 ≤ n) {h : ℕ → ℂ} (hr : ∀ k, k = 0 ∨ 2 * k = n → (h k).im = 0) : Herm n (hermF n h) := by
  refine ⟨?_, fun k h1 h2 => ?_⟩ <;> unfold hermF
  · rw [if_pos (by omega)]; exact Complex.conj_eq_iff_im.mpr (hr 0 (Or.inl rfl))
  · by_cases hk : k ≤ n / 2
    · rw [if_pos hk]
      by_cases h' : n - k ≤ n / 2
      · rw [if_pos h', show n - k = k by omega]; exact Complex.conj_eq_iff_im.mpr (hr k (by omega))
      · rw [if_neg h', Complex.conj_conj, show n - (n - k) = k by omega]
    · rw [if_neg hk, if_pos (by omega)]

theorem herm_norm {n : ℕ} (hn : 1 ≤ n) {f : ℕ → ℂ} (hf : Herm n f) : norm2 n f = normH n f := by
  unfold norm2 normH
  rw [fold_sum n hn _ (fun k h1 h2 => by rw [← hf.2 k h1 h2, Complex.norm_conj])]

theorem hermF_norm {n : ℕ} (hn : 1 ≤ n) {h : ℕ → ℂ} (hr : ∀ k, k = 0 ∨ 2 * k = n → (h k).im = 0) :
    norm2 n (fun j => (dft 1 n (hermF n h) j).re) = √n * normH n h := by
  have hH := hermF_herm hn hr
  have e : normH n h = normH n (hermF n h) := normH_congr fun k hk => by unfold hermF; rw [if_pos (by omega)]
  rw [e, ← herm_norm hn hH, ← dft_energy' n hn]
  unfold norm2
  congr 1
  refine Finset.sum_congr rfl fun j _ => ?_
  have := Complex.conj_eq_iff_re.mp (herm_real hn hH j)
  rw [← this, Complex.norm_real]

theorem hermF_sub {n : ℕ} (g h : ℕ → ℂ) (k : ℕ) : hermF n (fun j => g j - h j) k = hermF n g k - hermF n h k := by
  unfold hermF
  split
  · rfl
  · rw [map_sub]

theorem rfftFwd_norm {n : ℕ} (hn : 1 ≤ n) (x : List ℝ) (hx : x.length = n) :
    normH n (nth (rfftFwd x)) = √n * norm2 n (nth x) := by
  have hH := real_herm hn (fun j => nth x j)
  have e : normH n (nth (rfftFwd x)) = normH n (dft (-1) n (fun j => ((nth x j : ℝ) : ℂ))) :=
    normH_congr fun k hk => by rw [nth_rfftFwd _ (by omega), hx]
  rw [e, ← herm_norm hn hH, dft_energy n hn]
  congr 1
  unfold norm2
  simp only [Complex.norm_real]

theorem rfftFwd_sub {n : ℕ} (hn : 1 ≤ n) (x y : List ℝ) (hx : x.length = n) (hy : y.length = n) :
    normH n (fun k => nth (rfftFwd x) k - nth (rfftFwd y) k) = √n * norm2 n (fun k => nth x k - nth y k) := by
  have h := rfftFwd_norm hn ((List.range n).map fun k => nth x k - nth y k) (by simp)
  rw [norm2_congr (g := fun k => nth x k - nth y k) (fun k hk => nth_map_range _ _ _ hk)] at h
  rw [← h]
  refine normH_congr fun k hk => ?_
  rw [nth_rfftFwd _ (by omega), nth_rfftFwd _ (by omega), nth_rfftFwd _ (by simpa using hk), hx, hy, ← dft_sub]
  simp only [List.length_map, List.length_range]
  refine dft_congr k fun j hj => ?_
  rw [nth_map_range _ _ _ hj]
  push_cast; rfl

/-! ### the exact transforms are isometries up to a factor -/

theorem c2c_fwd_sub {n : ℕ} (hn : 1 ≤ n) {x y out out' X Y : List ℂ} (hx : x.length = n) (hy : y.length = n)
    (ho : out.length = n) (ho' : out'.length = n) (eX : C2c.forwardSlice ⟨n, n⟩ x out = ok X)
    (eY : C2c.forwardSlice ⟨n, n⟩ y out' = ok Y) :
    norm2 n (fun k => nth X k - nth Y k) = √n * norm2 n (fun k => nth x k - nth y k) := by
  obtain rfl := Res.ok.inj ((wp_c2c_forward n _ _ hx ho).symm.trans eX)
  obtain rfl := Res.ok.inj ((wp_c2c_forward n _ _ hy ho').symm.trans eY)
  exact fftFwd_sub hn _ _ hx hy

theorem c2c_fwd_norm {n : ℕ} (hn : 1 ≤ n) {x out X : List ℂ} (hx : x.length = n) (ho : out.length = n)
    (eX : C2c.forwardSlice ⟨n, n⟩ x out = ok X) : norm2 n (nth X) = √n * norm2 n (nth x) := by
  obtain rfl := Res.ok.inj ((wp_c2c_forward n _ _ hx ho).symm.trans eX)
  exact fftFwd_norm hn _ hx

private theorem sqrt_inv {n : ℕ} (hn : 1 ≤ n) (a : ℝ) : √(n : ℝ) * (√(n : ℝ) * ((n : ℝ)⁻¹ * a)) = a := by
  have h : (n : ℝ) ≠ 0 := by exact_mod_cast (by omega : n ≠ 0)
  rw [← mul_assoc, Real.mul_self_sqrt (by positivity), mul_inv_cancel_left₀ h]

theorem norm2_scale (n m : ℕ) (f : ℕ → ℂ) : norm2 m (fun k => (n : ℂ)⁻¹ * f k) = (n : ℝ)⁻¹ * norm2 m f := by
  unfold norm2
  have : ∀ k, ‖(n : ℂ)⁻¹ * f k‖ ^ 2 = ((n : ℝ)⁻¹) ^ 2 * ‖f k‖ ^ 2 := fun k => by
    rw [norm_mul, norm_inv, Complex.norm_natCast, mul_pow]
  simp only [this]
  rw [← Finset.mul_sum, Real.sqrt_mul (by positivity), Real.sqrt_sq (by positivity)]

theorem c2c_bwd_sub {n : ℕ} (hn : 1 ≤ n) {x y out out' X Y : List ℂ} (hx : x.length = n) (hy : y.length = n)
    (ho : out.length = n) (ho' : out'.length = n) (eX : C2c.backwardSlice ⟨n, n⟩ x out = ok X)
    (eY : C2c.backwardSlice ⟨n, n⟩ y out' = ok Y) :
    √n * norm2 n (fun k => nth X k - nth Y k) = norm2 n (fun k => nth x k - nth y k) := by
  obtain rfl := Res.ok.inj ((wp_c2c_backward n hn _ _ hx ho).symm.trans eX)
  obtain rfl := Res.ok.inj ((wp_c2c_backward n hn _ _ hy ho').symm.trans eY)
  rw [fftInv_sub hn _ _ (by simpa using hx) (by simpa using hy)]
  rw [norm2_congr (g := fun k => (n : ℂ)⁻¹ * (nth x k - nth y k)) (fun k hk => by
    rw [nth_map _ _ _ (by omega), nth_map _ _ _ (by omega), mul_sub]), norm2_scale, sqrt_inv hn]

theorem c2c_bwd_norm {n : ℕ} (hn : 1 ≤ n) {x out X : List ℂ} (hx : x.length = n) (ho : out.length = n)
    (eX : C2c.backwardSlice ⟨n, n⟩ x out = ok X) : √n * norm2 n (nth X) = norm2 n (nth x) := by
  obtain rfl := Res.ok.inj ((wp_c2c_backward n hn _ _ hx ho).symm.trans eX)
  rw [fftInv_norm hn _ (by simpa using hx)]
  rw [norm2_congr (g := fun k => (n : ℂ)⁻¹ * nth x k) (fun k hk => by
    rw [nth_map _ _ _ (by omega)]), norm2_scale, sqrt_inv hn]

theorem r2c_fwd_sub {n : ℕ} (hn : 1 ≤ n) {x y : List ℝ} {out out' X Y : List ℂ} (hx : x.length = n) (hy : y.length = n)
    (ho : out.length = n / 2 + 1) (ho' : out'.length = n / 2 + 1) (eX : R2c.forwardSlice ⟨n, n / 2 + 1⟩ x out = ok X)
    (eY : R2c.forwardSlice ⟨n, n / 2 + 1⟩ y out' = ok Y) :
    normH n (fun k => nth X k - nth Y k) = √n * norm2 n (fun k => nth x k - nth y k) := by
  obtain rfl := Res.ok.inj ((r2c_forward_eq n _ _ hx ho).symm.trans eX)
  obtain rfl := Res.ok.inj ((r2c_forward_eq n _ _ hy ho').symm.trans eY)
  exact rfftFwd_sub hn _ _ hx hy

theorem r2c_fwd_norm {n : ℕ} (hn : 1 ≤ n) {x : List ℝ} {out X : List ℂ} (hx : x.length = n)
    (ho : out.length = n / 2 + 1) (eX : R2c.forwardSlice ⟨n, n / 2 + 1⟩ x out = ok X) :
    normH n (nth X) = √n * norm2 n (nth x) := by
  obtain rfl := Res.ok.inj ((r2c_forward_eq n _ _ hx ho).symm.trans eX)
  exact rfftFwd_norm hn _ hx

private theorem prep_norm {n : ℕ} (f : ℕ → ℂ) :
    normH n (fun k => if k = 0 ∨ 2 * k = n then (((n : ℝ)⁻¹ * (f k).re : ℝ) : ℂ) else (n : ℂ)⁻¹ * f k)
      ≤ (n : ℝ)⁻¹ * normH n f := by
  refine normH_le (by positivity) fun k _ => ?_
  split
  · rw [Complex.norm_real, norm_mul, norm_inv, Real.norm_natCast]
    exact mul_le_mul_of_nonneg_left (Complex.abs_re_le_norm _) (by positivity)
  · rw [norm_mul, norm_inv, Complex.norm_natCast]

theorem r2c_bwd_norm {n : ℕ} (hn : 1 ≤ n) {x : List ℂ} {out X : List ℝ} (hx : x.length = n / 2 + 1)
    (ho : out.length = n) (eX : R2c.backwardSlice ⟨n, n / 2 + 1⟩ x out = ok X) : √n * norm2 n (nth X) ≤ normH n (nth x) := by
  obtain rfl := Res.ok.inj ((r2c_backward_eq n hn _ _ hx ho).symm.trans eX)
  have e : norm2 n (nth ((List.range n).map fun j => (dft 1 n (r2cHerm n x) j).re))
      = norm2 n (fun j => (dft 1 n (hermF n (r2cPrep n x)) j).re) := norm2_congr fun j hj => by
    have ej : ∀ {f : ℕ → ℝ}, nth ((List.range n).map f) j = f j := nth_map_range _ _ _ hj
    rw [ej]; rfl
  rw [e, hermF_norm hn (fun k hk => by rw [r2cPrep, if_pos hk]; exact Complex.ofReal_im _)]
  refine (mul_le_mul_of_nonneg_left (mul_le_mul_of_nonneg_left (prep_norm (nth x)) (Real.sqrt_nonneg _))
    (Real.sqrt_nonneg _)).trans (le_of_eq (sqrt_inv hn _))

theorem r2c_bwd_sub {n : ℕ} (hn : 1 ≤ n) {x y : List ℂ} {out out' X Y : List ℝ} (hx : x.length = n / 2 + 1)
    (hy : y.length = n / 2 + 1) (ho : out.length = n) (ho' : out'.length = n)
    (eX : R2c.backwardSlice ⟨n, n / 2 + 1⟩ x out = ok X) (eY : R2c.backwardSlice ⟨n, n / 2 + 1⟩ y out' = ok Y) :
    √n * norm2 n (fun k => nth X k - nth Y k) ≤ normH n (fun k => nth x k - nth y k) := by
  obtain rfl := Res.ok.inj ((r2c_backward_eq n hn _ _ hx ho).symm.trans eX)
  obtain rfl := Res.ok.inj ((r2c_backward_eq n hn _ _ hy ho').symm.trans eY)
  have e : norm2 n (fun j => nth ((List.range n).map fun j => (dft 1 n (r2cHerm n x) j).re) j
        - nth ((List.range n).map fun j => (dft 1 n (r2cHerm n y) j).re) j)
      = norm2 n (fun j => (dft 1 n (hermF n (fun k => r2cPrep n x k - r2cPrep n y k)) j).re) := norm2_congr fun j hj => by
    have ej : ∀ {f : ℕ → ℝ}, nth ((List.range n).map f) j = f j := nth_map_range _ _ _ hj
    rw [ej, ej, ← Complex.sub_re, ← dft_sub]
    exact congrArg Complex.re (dft_congr j fun k _ => (hermF_sub _ _ k).symm)
  rw [e, hermF_norm hn (fun k hk => by
    rw [r2cPrep, r2cPrep, if_pos hk, if_pos hk, ← Complex.ofReal_sub]; exact Complex.ofReal_im _)]
  have e2 : (fun k => r2cPrep n x k - r2cPrep n y k) = fun k => if k = 0 ∨ 2 * k = n then
      (((n : ℝ)⁻¹ * (nth x k - nth y k).re : ℝ) : ℂ) else (n : ℂ)⁻¹ * (nth x k - nth y k) := by
    funext k
    rw [r2cPrep, r2cPrep]
    split
    · rw [Complex.sub_re, mul_sub, Complex.ofReal_sub]
    · rw [mul_sub]
  rw [e2]
  exact (mul_le_mul_of_nonneg_left (mul_le_mul_of_nonneg_left (prep_norm (fun k => nth x k - nth y k)) (Real.sqrt_nonneg _))
    (Real.sqrt_nonneg _)).trans (le_of_eq (sqrt_inv hn _))

/-! ### closed forms in any arithmetic -/

section forms
variable {Q : Err → Prop} {A C : Type} [Cplx A C] [Zero A] [NatCast A] [Mul C] [Zero C]

theorem c2c_gradPass_any (n : ℕ) (hn : 1 ≤ n) (x : List C) (hx : x.length = n) :
    wp Q (C2c.gradPass (A := A) n x) (fun y => y.length = n ∧
      ∀ j < n, nth y j = nth x j * Cplx.pair 0 (c2cCodeK n j : A)) := by
  unfold C2c.gradPass
  wprun
  rw [show min ((n - 1) / 2 + 1) x.length = (n + 1) / 2 by omega]
  refine wp_forRange (fun i k => k.length = n ∧ (∀ j < i, nth k j = nth x j * Cplx.pair 0 (j : A)) ∧
      ∀ j, i ≤ j → nth k j = nth x j) ⟨hx, fun _ h => by omega, fun j _ => rfl⟩ ?_ ?_
  · rintro i k - hi ⟨hl, h1, h2⟩
    wprun
    refine ⟨by simpa using hl, fun j hj => ?_, fun j hj => ?_⟩
    · rcases Nat.lt_succ_iff_lt_or_eq.mp hj with h | rfl
      · rw [nth_set_ne _ _ _ _ (by omega), h1 j h]
      · rw [nth_set_self _ _ _ (by omega), h2 j le_rfl]
    · rw [nth_set_ne _ _ _ _ (by omega), h2 j (by omega)]
  · rintro k ⟨hl, h1, h2⟩
    rw [show max 0 ((n + 1) / 2) = (n + 1) / 2 by omega] at h1 h2
    rw [show min (n / 2) k.length = n / 2 by omega]
    refine wp_forRange (fun i k => k.length = n ∧
        (∀ j < (n + 1) / 2, nth k j = nth x j * Cplx.pair 0 (j : A)) ∧
        (∀ j, (n + 1) / 2 ≤ j → j < n - i → nth k j = nth x j) ∧
        (∀ j, n - i ≤ j → j < n → nth k j = nth x j * Cplx.pair 0 ((n - 1 - j : ℕ) : A)))
      ⟨hl, h1, fun j h _ => h2 j h, fun j h h' => by omega⟩ ?_ ?_
    · rintro i k - hi ⟨hl, h1, h2, h3⟩
      wprun
      refine ⟨by simpa using hl, fun j hj => ?_, fun j hj hj' => ?_, fun j hj hj' => ?_⟩
      · rw [nth_set_ne _ _ _ _ (by omega), h1 j hj]
      · rw [nth_set_ne _ _ _ _ (by omega), h2 j hj (by omega)]
      · by_cases h : j = n - 1 - i
        · subst h
          rw [hl, nth_set_self _ _ _ (by omega), h2 _ (by omega) (by omega),
            show n - 1 - (n - 1 - i) = i by omega]
        · rw [nth_set_ne _ _ _ _ (by omega), h3 j (by omega) hj']
    · rintro k ⟨hl, h1, -, h3⟩
      rw [show max 0 (n / 2) = n / 2 by omega] at h3
      refine ⟨hl, fun j hj => ?_⟩
      unfold c2cCodeK
      split
      · next h => rw [h1 j h]
      · next h => rw [h3 j (by omega) (by omega)]

theorem r2c_gradPass_any (m : ℕ) (x : List C) (hx : x.length = m) :
    wp Q (R2c.gradPass (A := A) x) (fun y => y.length = m ∧
      ∀ j < m, nth y j = nth x j * Cplx.pair 0 (j : A)) := by
  unfold R2c.gradPass
  refine wp_forRange (fun i k => k.length = m ∧ (∀ j < i, nth k j = nth x j * Cplx.pair 0 (j : A)) ∧
      ∀ j, i ≤ j → nth k j = nth x j) ⟨hx, fun _ h => by omega, fun j _ => rfl⟩ ?_ ?_
  · rintro i k - hi ⟨hl, h1, h2⟩
    wprun
    refine ⟨by simpa using hl, fun j hj => ?_, fun j hj => ?_⟩
    · rcases Nat.lt_succ_iff_lt_or_eq.mp hj with h | rfl
      · rw [nth_set_ne _ _ _ _ (by omega), h1 j h]
      · rw [nth_set_self _ _ _ (by omega), h2 j le_rfl]
    · rw [nth_set_ne _ _ _ _ (by omega), h2 j (by omega)]
  · rintro k ⟨hl, h1, -⟩
    exact ⟨hl, fun j hj => h1 j (by omega)⟩

/-- repeated multiplication -/
theorem wp_iterate_any (pass : List C → Res (List C)) (n : ℕ) (w : ℕ → C)
    (hpass : ∀ x, x.length = n → wp Q (pass x) (fun y => y.length = n ∧
      ∀ j < n, nth y j = nth x j * w j)) (k : ℕ) (x : List C) (hx : x.length = n) :
    wp Q (forRange 0 k (fun _ out => pass out) x) (fun y => y.length = n ∧
      ∀ j < n, nth y j = (fun z => z * w j)^[k] (nth x j)) := by
  refine wp_forRange (fun i y => y.length = n ∧ ∀ j < n, nth y j = (fun z => z * w j)^[i] (nth x j))
    ⟨hx, fun j _ => by simp⟩ ?_ ?_
  · rintro i y - - ⟨hl, hy⟩
    refine wp_mono (hpass y hl) ?_
    rintro z ⟨hz, hz'⟩
    refine ⟨hz, fun j hj => ?_⟩
    rw [hz' j hj, hy j hj, Function.iterate_succ_apply']
  · rintro y h
    simpa using h

theorem c2c_gradient_form (n : ℕ) (hn : 1 ≤ n) (x out : List C) (k : ℕ) (hx : x.length = n)
    (ho : out.length = n) :
    ∃ y, C2c.gradientSlice (A := A) ⟨n, n⟩ x out k = ok y ∧ y.length = n ∧
      ∀ j < n, nth y j = (fun z => z * Cplx.pair 0 (c2cCodeK n j : A))^[k] (nth x j) := by
  apply wp_total.mp
  unfold C2c.gradientSlice C2c.lenSpec
  dsimp only
  wprun
  rw [zipSet_eq_map _ _ _ (by omega), List.map_id]
  exact wp_iterate_any _ n _ (fun y hy => c2c_gradPass_any n hn y hy) k x hx

theorem r2c_gradient_form (b : R2c) (x out : List C) (k : ℕ) (hx : x.length = b.m) (ho : out.length = b.m) :
    ∃ y, R2c.gradientSlice (A := A) b x out k = ok y ∧ y.length = b.m ∧
      ∀ j < b.m, nth y j = (fun z => z * Cplx.pair 0 (j : A))^[k] (nth x j) := by
  apply wp_total.mp
  unfold R2c.gradientSlice R2c.lenSpec
  wprun
  rw [zipSet_eq_map _ _ _ (by omega), List.map_id]
  exact wp_iterate_any _ b.m (fun j => Cplx.pair 0 (j : A)) (fun y hy => r2c_gradPass_any b.m y hy) k x hx

end forms

/-! ### rounding -/

namespace Spec
variable {R : Rounding}

/-- `x` is `z` after `k` roundings of each part -/
def CloseC (R : Rounding) (k : ℕ) (x z : ℂ) : Prop :=
  ∃ θ φ, Fac R.u k θ ∧ Fac R.u k φ ∧ x.re = θ * z.re ∧ x.im = φ * z.im

theorem CloseC.refl (z : ℂ) : CloseC R 0 z z := ⟨1, 1, Fac.one, Fac.one, by simp, by simp⟩

theorem CloseC.re_im {k : ℕ} {x z : ℂ} (hk : k * R.u < 1) (h : CloseC R k x z) :
    |x.re - z.re| ≤ R.γ k * |z.re| ∧ |x.im - z.im| ≤ R.γ k * |z.im| := by
  obtain ⟨θ, φ, h1, h2, e1, e2⟩ := h
  rw [e1, e2, ← sub_one_mul, ← sub_one_mul, abs_mul, abs_mul]
  exact ⟨mul_le_mul_of_nonneg_right (R.fac_dist h1 hk) (abs_nonneg _),
    mul_le_mul_of_nonneg_right (R.fac_dist h2 hk) (abs_nonneg _)⟩

theorem norm_le_of_re_im {x z : ℂ} {c : ℝ} (hc : 0 ≤ c) (h1 : |x.re| ≤ c * |z.re|) (h2 : |x.im| ≤ c * |z.im|) :
    ‖x‖ ≤ c * ‖z‖ := by
  refine abs_le_of_sq_le_sq' ?_ (mul_nonneg hc (norm_nonneg _)) |>.2
  rw [mul_pow, Complex.sq_norm, Complex.sq_norm, Complex.normSq_apply, Complex.normSq_apply]
  have a1 := pow_le_pow_left₀ (abs_nonneg _) h1 2
  have a2 := pow_le_pow_left₀ (abs_nonneg _) h2 2
  rw [mul_pow, sq_abs, sq_abs] at a1 a2
  nlinarith

theorem CloseC.norm {k : ℕ} {x z : ℂ} (hk : k * R.u < 1) (h : CloseC R k x z) : ‖x - z‖ ≤ R.γ k * ‖z‖ :=
  norm_le_of_re_im (R.γ_nonneg hk) (by simpa using (h.re_im hk).1) (by simpa using (h.re_im hk).2)

theorem valsC_length (l : List (RndC R)) : (valsC l).length = l.length := List.length_map _

theorem nth_valsC (l : List (RndC R)) (i : ℕ) : nth (valsC l) i = (nth l i).val := by
  by_cases h : i < l.length
  · exact nth_map _ _ _ h
  · rw [nth_of_le _ _ (by rw [valsC_length]; omega), nth_of_le _ _ (by omega)]
    rfl

/-- one factor `i j` -/
theorem CloseC.mul_I (hR : R.Nearest) (hu : R.u < 1) {k j : ℕ} (hj : R.IsFloat (j : ℝ)) {x : RndC R} {z : ℂ}
    (h : CloseC R k x.val z) : CloseC R (k + 1) (x * Cplx.pair 0 (j : Rnd R)).val (z * (Complex.I * (j : ℂ))) := by
  obtain ⟨θ, φ, h1, h2, e1, e2⟩ := h
  have z0 : R.fl 0 = 0 := R.fl_zero
  obtain ⟨α, f1, ha⟩ := R.fl_fac hu (x.im.val * j)
  obtain ⟨β, f2, hb⟩ := R.fl_fac hu (x.re.val * j)
  refine ⟨φ * α, θ * β, h2.mul hu f1, h1.mul hu f2, ?_, ?_⟩
  · show R.fl (R.fl (x.re.val * 0) - R.fl (x.im.val * R.fl (j : ℝ))) = _
    rw [show R.fl (j : ℝ) = j from hj, mul_zero, z0, zero_sub, hR.odd, show ∀ y, R.fl (R.fl y) = R.fl y from hR.float, ha,
      show x.im.val = φ * z.im from e2]
    simp; ring
  · show R.fl (R.fl (x.re.val * R.fl (j : ℝ)) + R.fl (x.im.val * 0)) = _
    rw [show R.fl (j : ℝ) = j from hj, mul_zero, z0, add_zero, show ∀ y, R.fl (R.fl y) = R.fl y from hR.float, hb,
      show x.re.val = θ * z.re from e1]
    simp; ring

theorem CloseC.iterate (hR : R.Nearest) (hu : R.u < 1) {j : ℕ} (hj : R.IsFloat (j : ℝ)) (x : RndC R) (k : ℕ) :
    CloseC R k ((fun z => z * Cplx.pair 0 (j : Rnd R))^[k] x).val (x.val * (Complex.I * (j : ℂ)) ^ k) := by
  induction k with
  | zero => simpa using CloseC.refl _
  | succ k ih =>
    rw [Function.iterate_succ_apply', pow_succ, ← mul_assoc]
    exact ih.mul_I hR hu hj

/-- the correction factor `1/n` -/
theorem cor_ok (hu : R.u < 1) {n : ℕ} (hn : 1 ≤ n) (hN : R.IsFloat (n : ℝ)) :
    ∃ (cor : Rnd R) (θ : ℝ), divR (1 : Rnd R) (n : Rnd R) = ok cor ∧ Fac R.u 1 θ ∧ cor.val = (n : ℝ)⁻¹ * θ := by
  have hn0 : (n : ℝ) ≠ 0 := by exact_mod_cast (by omega : n ≠ 0)
  obtain ⟨θ, f, h⟩ := R.fl_fac hu (1 / n)
  refine ⟨_, θ, Rnd.div_ok (by rw [Rnd.val_cast, show R.fl (n : ℝ) = n from hN]; exact hn0), f, ?_⟩
  show R.fl (1 / R.fl (n : ℝ)) = _
  rw [show R.fl (n : ℝ) = n from hN, h, one_div]

theorem CloseC.scale (hu : R.u < 1) {n : ℕ} {cor : Rnd R} {θ : ℝ} (f : Fac R.u 1 θ) (h : cor.val = (n : ℝ)⁻¹ * θ)
    (z : RndC R) :
    CloseC R 2 (Cplx.pair (cor * Cplx.re z) (cor * Cplx.im z) : RndC R).val ((n : ℂ)⁻¹ * z.val) := by
  obtain ⟨α, f1, ha⟩ := R.fl_fac hu (cor.val * z.re.val)
  obtain ⟨β, f2, hb⟩ := R.fl_fac hu (cor.val * z.im.val)
  have hre : ((n : ℂ)⁻¹ * z.val).re = (n : ℝ)⁻¹ * z.re.val := by
    rw [show (n : ℂ)⁻¹ = (((n : ℝ)⁻¹ : ℝ) : ℂ) by simp, Complex.re_ofReal_mul]; rfl
  have him : ((n : ℂ)⁻¹ * z.val).im = (n : ℝ)⁻¹ * z.im.val := by
    rw [show (n : ℂ)⁻¹ = (((n : ℝ)⁻¹ : ℝ) : ℂ) by simp, Complex.im_ofReal_mul]; rfl
  refine ⟨θ * α, θ * β, f.mul hu f1, f.mul hu f2, ?_, ?_⟩
  · rw [hre]
    show R.fl (cor.val * z.re.val) = _
    rw [ha, h]; ring
  · rw [him]
    show R.fl (cor.val * z.im.val) = _
    rw [hb, h]; ring

end Spec

section transforms
variable {R : Rounding} [HasFft (Rnd R) (RndC R)]

theorem c2c_forward_rnd {n : ℕ} (x out : List (RndC R)) (hx : x.length = n) (ho : out.length = n) :
    C2c.forwardSlice (A := Rnd R) ⟨n, n⟩ x out = ok (HasFft.fwd x) := by
  refine eq_of_wp ?_
  unfold C2c.forwardSlice
  refine wp_bind_i (wp_assert_i hx ?_)
  refine wp_bind_i (wp_assert_i ho ?_)
  dsimp only
  rw [zipSet_eq_map _ _ _ (by omega), List.map_id]
  exact rfl

theorem c2c_backward_rnd {n : ℕ} {cor : Rnd R} (hc : divR (1 : Rnd R) (n : Rnd R) = ok cor) (x out : List (RndC R))
    (hx : x.length = n) (ho : out.length = n) :
    C2c.backwardSlice (A := Rnd R) ⟨n, n⟩ x out = ok (HasFft.inv (x.map fun z : RndC R =>
      (Cplx.pair (cor * Cplx.re z) (cor * Cplx.im z) : RndC R))) := by
  refine eq_of_wp ?_
  unfold C2c.backwardSlice
  refine wp_bind_i (wp_assert_i hx ?_)
  refine wp_bind_i (wp_assert_i ho ?_)
  show wp _ (divR (1 : Rnd R) (n : Rnd R) >>= _) _
  rw [hc, bind_ok]
  dsimp only
  rw [zipSet_eq_map _ _ _ (by omega)]
  exact rfl

theorem r2c_forward_rnd {n : ℕ} (x : List (Rnd R)) (out : List (RndC R)) (hx : x.length = n) (ho : out.length = n / 2 + 1) :
    R2c.forwardSlice (A := Rnd R) ⟨n, n / 2 + 1⟩ x out = ok (HasFft.rfwd x) := by
  refine eq_of_wp ?_
  unfold R2c.forwardSlice
  refine wp_bind_i (wp_assert_i hx ?_)
  refine wp_bind_i (wp_assert_i ho ?_)
  dsimp only
  rw [zipSet_eq_map _ _ _ (by simp), List.map_id]
  exact rfl

private theorem rdC_ok' {T : Type} [Zero T] {l : List T} {i : ℕ} (h : i < l.length) : rdC l i = ok (nth l i) := by
  unfold rdC
  rw [List.getElem?_eq_getElem h, nth_eq_getElem _ _ h]

private theorem wrC_ok' {T : Type} {l : List T} {i : ℕ} {x : T} (h : i < l.length) : wrC l i x = ok (l.set i x) := if_pos h

theorem r2c_backward_rnd {n : ℕ} {cor : Rnd R} (hc : divR (1 : Rnd R) (n : Rnd R) = ok cor) (x : List (RndC R))
    (out : List (Rnd R)) (hx : x.length = n / 2 + 1) (ho : out.length = n) :
    ∃ y : List (RndC R), R2c.backwardSlice (A := Rnd R) ⟨n, n / 2 + 1⟩ x out = HasFft.rinv n y ∧ y.length = n / 2 + 1 ∧
      ∀ k < n / 2 + 1, nth y k = if k = 0 ∨ 2 * k = n then ⟨cor * (nth x k).re, 0⟩
        else ⟨cor * (nth x k).re, cor * (nth x k).im⟩ := by
  set w := x.map (fun z : RndC R => (Cplx.pair (cor * Cplx.re z) (cor * Cplx.im z) : RndC R)) with hw
  have hwl : w.length = n / 2 + 1 := by simp [hw, hx]
  have hwk : ∀ k < n / 2 + 1, nth w k = ⟨cor * (nth x k).re, cor * (nth x k).im⟩ := fun k hk => by
    rw [hw, nth_map _ _ _ (by omega)]; rfl
  clear_value w
  let w1 := w.set 0 (Cplx.pair (Cplx.re (nth w 0)) 0 : RndC R)
  let w2 := if n % 2 = 0 then w1.set (n / 2) (Cplx.pair (Cplx.re (nth w1 (n / 2))) 0 : RndC R) else w1
  have h1 : w1.length = n / 2 + 1 := by simp [w1, hwl]
  have hk1 : ∀ k < n / 2 + 1, nth w1 k = if k = 0 then ⟨cor * (nth x k).re, 0⟩ else nth w k := by
    intro k hk
    simp only [w1]
    rw [nth_set]
    by_cases h0 : k = 0
    · subst h0
      rw [if_pos ⟨rfl, by omega⟩, if_pos rfl, hwk 0 hk]; rfl
    · rw [if_neg (by omega), if_neg h0]
  refine ⟨w2, ?_, by simp only [w2]; split <;> simp [h1], fun k hk => ?_⟩
  · unfold R2c.backwardSlice
    rw [show (assertR (x.length = (⟨n, n / 2 + 1⟩ : R2c).lenSpec)) = ok () from if_pos hx, bind_ok,
      show (assertR (out.length = (⟨n, n / 2 + 1⟩ : R2c).lenPhys)) = ok () from if_pos ho, bind_ok]
    dsimp only
    rw [show divR (1 : Rnd R) (((⟨n, n / 2 + 1⟩ : R2c).lenPhys : ℕ) : Rnd R) = ok cor from hc, bind_ok,
      zipSet_eq_map _ _ _ (by simp), ← hw]
    rw [rdC_ok' (by omega), bind_ok, wrC_ok' (by omega), bind_ok]
    have e2 : ((n / 2 + 1) -! 1) = ok (n / 2) := if_pos (by omega)
    by_cases he : n % 2 = 0
    · have hr : rdC w1 (n / 2) = ok (nth w1 (n / 2)) := rdC_ok' (by omega)
      have hq : wrC w1 (n / 2) (Cplx.pair (Cplx.re (nth w1 (n / 2))) 0 : RndC R) = ok w2 := by
        simp only [w2, if_pos he]; exact wrC_ok' (by omega)
      rw [if_pos he, e2, bind_ok, bind_ok]
      rw [show rdC (w.set 0 _) (n / 2) = _ from hr, bind_ok]
      exact congrArg (· >>= HasFft.rinv n) hq
    · rw [if_neg he]
      simp only [w2, if_neg he]
      rfl
  · simp only [w2]
    by_cases he : n % 2 = 0
    · rw [if_pos he, nth_set]
      by_cases hk2 : 2 * k = n
      · rw [if_pos ⟨by omega, by omega⟩, if_pos (Or.inr hk2), hk1 _ (by omega)]
        have : n / 2 = k := by omega
        rw [this]
        by_cases h0 : k = 0
        · rw [if_pos h0]; rfl
        · rw [if_neg h0, hwk k hk]; rfl
      · rw [if_neg (by omega), hk1 k hk]
        by_cases h0 : k = 0
        · rw [if_pos h0, if_pos (Or.inl h0)]
        · rw [if_neg h0, if_neg (by omega), hwk k hk]
    · rw [if_neg he, hk1 k hk]
      by_cases h0 : k = 0
      · rw [if_pos h0, if_pos (Or.inl h0)]
      · rw [if_neg h0, if_neg (by omega), hwk k hk]

end transforms

end Verif
