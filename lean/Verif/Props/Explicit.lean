/-
Property C114: time stepping on the periodic grid with the library's derivatives.
-/
import Verif.Spec.Explicit
import Verif.Props.ByParts

namespace Verif.Props
open Res Spec Finset Complex Filter

private theorem nyq_real {n : ℕ} (hn : 1 ≤ n) {x : List ℝ} (hx : x.length = n) :
    (nth (rfftFwd x) 0).im = 0 ∧ (n % 2 = 0 → (nth (rfftFwd x) (n / 2)).im = 0) := by
  refine ⟨?_, fun he => ?_⟩
  · rw [nth_rfftFwd x (by omega), hx]
    unfold dft
    rw [Complex.im_sum]
    refine Finset.sum_eq_zero fun j _ => ?_
    rw [twiddle_comm, twiddle_zero, mul_one, ofReal_im]
  · rw [nth_rfftFwd x (by omega), hx]
    unfold dft
    rw [Complex.im_sum]
    refine Finset.sum_eq_zero fun j _ => ?_
    have := twiddle_nyquist n j hn he (-1)
    push_cast at this
    rw [twiddle_comm, im_ofReal_mul, Complex.conj_eq_iff_im.mp this, mul_zero]

/-- coefficients of derivatives of even order -/
private theorem even_coeffs {n : ℕ} {b : Base ℝ ℂ ℂ} (hb : IsR2c n b) (m : ℕ) {x w : List ℝ} (hx : x.length = n)
    (hw : GridDeriv b (2 * m) x w) :
    w.length = n ∧ ∀ k < n / 2 + 1, nth (rfftFwd w) k = (-1) ^ m * (k : ℂ) ^ (2 * m) * nth (rfftFwd x) k := by
  obtain ⟨w', hw', hl, hu⟩ := C112_exists n b hb (2 * m) x hx
  obtain rfl := hu w hw
  refine ⟨hl, ?_⟩
  obtain ⟨hn, b0, hb, rfl⟩ := hb
  obtain rfl := r2c_inv hb
  obtain ⟨v, g, h1, h2, h3⟩ := hw
  have hlr : (List.replicate (n / 2 + 1) (0 : ℂ)).length = n / 2 + 1 := List.length_replicate ..
  obtain rfl := Res.ok.inj ((h1 _ hlr).symm.trans (r2c_forward_eq n x _ hx hlr))
  obtain rfl := Res.ok.inj ((h2 _ hlr).symm.trans (r2c_gradient_eq ⟨n, n / 2 + 1⟩ _ _ _ (by simp [hx]) hlr))
  have hval : ∀ k < n / 2 + 1, nth ((List.range (n / 2 + 1)).map fun j => nth (rfftFwd x) j * (I * (j : ℂ)) ^ (2 * m)) k
      = (-1) ^ m * (k : ℂ) ^ (2 * m) * nth (rfftFwd x) k := fun k hk => by
    rw [nth_map_range _ _ _ hk, mul_pow, pow_mul I, I_sq]; ring
  have him : ∀ k : ℕ, (nth (rfftFwd x) k).im = 0 → ((-1) ^ m * (k : ℂ) ^ (2 * m) * nth (rfftFwd x) k).im = 0 := fun k h => by
    rw [show (-1 : ℂ) ^ m * (k : ℂ) ^ (2 * m) = (((-1 : ℝ) ^ m * (k : ℝ) ^ (2 * m) : ℝ) : ℂ) by push_cast; rfl,
      im_ofReal_mul, h, mul_zero]
  obtain ⟨r0, rN⟩ := nyq_real hn hx
  obtain ⟨v, hv, hvl, hvf⟩ := C28_forward_backward n hn ⟨n, n / 2 + 1⟩ rfl
    ((List.range (n / 2 + 1)).map fun j => nth (rfftFwd x) j * (I * (j : ℂ)) ^ (2 * m)) (List.replicate (n / 2 + 1) 0)
    (List.replicate n 0) (by simp [R2c.lenSpec]) (List.length_replicate ..) hlr
    (by rw [hval 0 (by omega)]; exact him 0 r0)
    (fun he => by rw [hval (n / 2) (by omega)]; exact him (n / 2) (rN he))
  obtain rfl := Res.ok.inj ((h3 _ (List.length_replicate ..)).symm.trans hv)
  have e := Res.ok.inj ((r2c_forward_eq n w _ hl hlr).symm.trans hvf)
  intro k hk
  rw [e, hval k hk]

/-- one step, mode by mode -/
private theorem step_modes {n : ℕ} {b : Base ℝ ℂ ℂ} (hb : IsR2c n b) (m : ℕ) (dt : ℝ) {x x' : List ℝ} (hx : x.length = n)
    (h : DiffusionStep b m dt x x') : x'.length = n ∧
      ∀ k < n / 2 + 1, nth (rfftFwd x') k = ((1 - dt * (k : ℝ) ^ (2 * m) : ℝ) : ℂ) * nth (rfftFwd x) k := by
  obtain ⟨w, hw, hl, hj⟩ := h
  obtain ⟨wl, hwk⟩ := even_coeffs hb m hx hw
  refine ⟨hl.trans hx, fun k hk => ?_⟩
  have hl' := hl.trans hx
  have e1 := hwk k hk
  rw [nth_rfftFwd w (by rw [wl]; exact hk), wl] at e1
  have e2 : dft (-1) n (fun j => ((nth x' j : ℝ) : ℂ)) k = dft (-1) n (fun j => ((nth x j : ℝ) : ℂ)) k
      - (-1) ^ m * dt * dft (-1) n (fun j => ((nth w j : ℝ) : ℂ)) k := by
    rw [← dft_smul]
    unfold dft
    rw [← Finset.sum_sub_distrib]
    refine Finset.sum_congr rfl fun j hj' => ?_
    rw [mem_range] at hj'
    dsimp only
    rw [hj j (by omega)]
    push_cast; ring
  rw [nth_rfftFwd x' (by rw [hl']; exact hk), hl', e2, e1, nth_rfftFwd x (by rw [hx]; exact hk), hx]
  have : ((-1 : ℂ) ^ m) * (-1) ^ m = 1 := by rw [← mul_pow]; simp
  push_cast
  linear_combination (-(dt * (k : ℂ) ^ (2 * m) * dft (-1) n (fun j => ((nth x j : ℝ) : ℂ)) k)) * this

/-- C114: time stepping never fails: every grid data start a history. -/
theorem C114_runs (n : ℕ) (b : Base ℝ ℂ ℂ) (hb : IsR2c n b) (m : ℕ) (dt : ℝ) (x₀ : List ℝ) (hx : x₀.length = n) :
    ∃ x : ℕ → List ℝ, x 0 = x₀ ∧ (∀ i, (x i).length = n) ∧ ∀ i, DiffusionStep b m dt (x i) (x (i + 1)) := by
  have h : ∀ x : {x : List ℝ // x.length = n}, ∃ x' : {x : List ℝ // x.length = n}, DiffusionStep b m dt x x' := by
    rintro ⟨x, hx⟩
    obtain ⟨w, hw, hl, -⟩ := C112_exists n b hb (2 * m) x hx
    exact ⟨⟨(List.range n).map fun j => nth x j - (-1) ^ m * dt * nth w j, by simp⟩, w, hw, by simp [hx],
      fun j hj => nth_map_range _ _ _ (hx ▸ hj)⟩
  choose f hf using h
  refine ⟨fun i => (f^[i] ⟨x₀, hx⟩).1, rfl, fun i => (f^[i] ⟨x₀, hx⟩).2, fun i => ?_⟩
  dsimp only
  rw [Function.iterate_succ_apply']
  exact hf _

section
variable (n : ℕ) (b : Base ℝ ℂ ℂ) (hb : IsR2c n b) (m : ℕ) (dt : ℝ) (x : ℕ → List ℝ) (h0 : (x 0).length = n)
  (hx : ∀ i, DiffusionStep b m dt (x i) (x (i + 1)))
include hb h0 hx

private theorem hist_len (i : ℕ) : (x i).length = n := by
  induction i with
  | zero => exact h0
  | succ i ih => exact (step_modes hb m dt ih (hx i)).1

/-- C114: after any number of steps the coefficient of the mode `k` has been multiplied with `1 - dt k^(2m)` that many times. -/
theorem C114_modes (i : ℕ) (X X0 : List ℂ) (hX : Returns b.forwardSlice b.lenSpec (x i) X)
    (hX0 : Returns b.forwardSlice b.lenSpec (x 0) X0) :
    ∀ k ≤ n / 2, nth X k = ((1 - dt * (k : ℝ) ^ (2 * m) : ℝ) : ℂ) ^ i * nth X0 k := by
  have key : ∀ i k, k < n / 2 + 1 → nth (rfftFwd (x i)) k
      = ((1 - dt * (k : ℝ) ^ (2 * m) : ℝ) : ℂ) ^ i * nth (rfftFwd (x 0)) k := by
    intro i k hk
    induction i with
    | zero => simp
    | succ i ih =>
      rw [(step_modes hb m dt (hist_len n b hb m dt x h0 hx i) (hx i)).2 k hk, ih]; ring
  have hl := hist_len n b hb m dt x h0 hx
  obtain ⟨hn, b0, hb, rfl⟩ := hb
  obtain rfl := r2c_inv hb
  have hlr : (List.replicate (n / 2 + 1) (0 : ℂ)).length = n / 2 + 1 := List.length_replicate ..
  obtain rfl := Res.ok.inj ((hX _ hlr).symm.trans (r2c_forward_eq n (x i) _ (hl i) hlr))
  obtain rfl := Res.ok.inj ((hX0 _ hlr).symm.trans (r2c_forward_eq n (x 0) _ h0 hlr))
  exact fun k hk => key i k (by omega)

private theorem hist_norm (i k : ℕ) (hk : k < n / 2 + 1) : ‖nth (rfftFwd (x i)) k‖ ^ 2
    = ((1 - dt * (k : ℝ) ^ (2 * m)) ^ 2) ^ i * ‖nth (rfftFwd (x 0)) k‖ ^ 2 := by
  have hl := hist_len n b hb m dt x h0 hx
  have h := C114_modes n b hb m dt x h0 hx i (rfftFwd (x i)) (rfftFwd (x 0)) (by
    obtain ⟨hn, b0, hb, rfl⟩ := hb
    obtain rfl := r2c_inv hb
    exact fun out ho => r2c_forward_eq n (x i) _ (hl i) ho) (by
    obtain ⟨hn, b0, hb, rfl⟩ := hb
    obtain rfl := r2c_inv hb
    exact fun out ho => r2c_forward_eq n (x 0) _ h0 ho) k (by omega)
  rw [h, norm_mul, norm_pow, Complex.norm_real, Real.norm_eq_abs, mul_pow, ← pow_mul, mul_comm i 2, pow_mul, sq_abs]

/-- C114: diffusion conserves the mean. -/
theorem C114_mean (hm : 1 ≤ m) (i : ℕ) : ∑ j ∈ range n, nth (x i) j = ∑ j ∈ range n, nth (x 0) j := by
  induction i with
  | zero => rfl
  | succ i ih =>
    obtain ⟨w, hw, hl, hj⟩ := hx i
    have hli := hist_len n b hb m dt x h0 hx i
    have e : ∀ j ∈ range n, nth (x (i + 1)) j = nth (x i) j - (-1) ^ m * dt * nth w j := fun j h =>
      hj j (by rw [hli]; exact mem_range.mp h)
    rw [Finset.sum_congr rfl e, Finset.sum_sub_distrib, ← Finset.mul_sum,
      C112_mean n b hb (2 * m) (by omega) (x i) w hli hw, ih]
    ring

/-- C114: explicit diffusion is stable for ever if `dt ⌊n/2⌋^(2m) ≤ 2`: the energy never grows. -/
theorem C114_stable (hdt : 0 ≤ dt) (hst : dt * ((n / 2 : ℕ) : ℝ) ^ (2 * m) ≤ 2) : Antitone fun i => energy (x i) := by
  have hl := hist_len n b hb m dt x h0 hx
  refine antitone_nat_of_succ_le fun i => ?_
  unfold energy
  rw [hl, hl, r2c_energy_eq hb.1 (hl _), r2c_energy_eq hb.1 (hl _)]
  refine Finset.sum_le_sum fun k hk => ?_
  rw [mem_range] at hk
  have hw : 0 ≤ r2cModeW n k := by unfold r2cModeW; split <;> positivity
  refine mul_le_mul_of_nonneg_left ?_ hw
  rw [hist_norm n b hb m dt x h0 hx i k hk, hist_norm n b hb m dt x h0 hx (i + 1) k hk]
  refine mul_le_mul_of_nonneg_right ?_ (sq_nonneg _)
  refine pow_le_pow_of_le_one (sq_nonneg _) ?_ (Nat.le_succ i)
  have h1 : (k : ℝ) ^ (2 * m) ≤ ((n / 2 : ℕ) : ℝ) ^ (2 * m) :=
    pow_le_pow_left₀ (Nat.cast_nonneg _) (Nat.cast_le.mpr (by omega)) _
  have h2 : 0 ≤ dt * (k : ℝ) ^ (2 * m) := by positivity
  have h3 := mul_le_mul_of_nonneg_left h1 hdt
  nlinarith

/-- C114: below the limit the data converge to their mean. -/
theorem C114_converges (hm : 1 ≤ m) (hdt : 0 < dt) (hst : dt * ((n / 2 : ℕ) : ℝ) ^ (2 * m) < 2) (j : ℕ) (hj : j < n) :
    Tendsto (fun i => nth (x i) j) atTop (nhds ((∑ l ∈ range n, nth (x 0) l) / n)) := by
  have hl := hist_len n b hb m dt x h0 hx
  have hd : Tendsto (fun i => ∑ k ∈ range (n / 2), r2cModeW n (k + 1) * ‖nth (rfftFwd (x i)) (k + 1)‖ ^ 2) atTop (nhds 0) := by
    rw [show (0 : ℝ) = ∑ k ∈ range (n / 2), r2cModeW n (k + 1) * (0 * ‖nth (rfftFwd (x 0)) (k + 1)‖ ^ 2) by simp]
    refine tendsto_finset_sum _ fun k hk => ?_
    rw [mem_range] at hk
    rw [show (fun i => r2cModeW n (k + 1) * ‖nth (rfftFwd (x i)) (k + 1)‖ ^ 2) = fun i => r2cModeW n (k + 1)
      * (((1 - dt * ((k + 1 : ℕ) : ℝ) ^ (2 * m)) ^ 2) ^ i * ‖nth (rfftFwd (x 0)) (k + 1)‖ ^ 2) from
      funext fun i => by rw [hist_norm n b hb m dt x h0 hx i (k + 1) (by omega)]]
    refine Tendsto.const_mul _ (Tendsto.mul_const _ (tendsto_pow_atTop_nhds_zero_of_abs_lt_one ?_))
    have h1 : ((k + 1 : ℕ) : ℝ) ^ (2 * m) ≤ ((n / 2 : ℕ) : ℝ) ^ (2 * m) :=
      pow_le_pow_left₀ (Nat.cast_nonneg _) (Nat.cast_le.mpr (by omega)) _
    have h2 : 0 < dt * ((k + 1 : ℕ) : ℝ) ^ (2 * m) := by positivity
    have h3 := mul_le_mul_of_nonneg_left h1 hdt.le
    rw [abs_of_nonneg (sq_nonneg _)]
    nlinarith
  have hs : Tendsto (fun i => |nth (x i) j - (∑ l ∈ range n, nth (x 0) l) / n|) atTop (nhds 0) := by
    have h2 := (hd.sqrt)
    rw [Real.sqrt_zero] at h2
    refine squeeze_zero (fun _ => abs_nonneg _) (fun i => ?_) h2
    rw [← r2c_energy_dev hb.1 (hl i), C114_mean n b hb m dt x h0 hx hm i]
    refine Real.le_sqrt_of_sq_le ?_
    rw [sq_abs]
    exact Finset.single_le_sum (f := fun j => (nth (x i) j - (∑ l ∈ range n, nth (x 0) l) / n) ^ 2)
      (fun _ _ => sq_nonneg _) (mem_range.mpr hj)
  have := tendsto_zero_iff_abs_tendsto_zero _ |>.mpr hs
  simpa using this.add_const ((∑ l ∈ range n, nth (x 0) l) / n)

/-- C114: beyond the limit the energy grows beyond all bounds, unless the highest mode is missing exactly. -/
theorem C114_unstable (hst : 2 < dt * ((n / 2 : ℕ) : ℝ) ^ (2 * m)) (X0 : List ℂ)
    (hX0 : Returns b.forwardSlice b.lenSpec (x 0) X0) (h : nth X0 (n / 2) ≠ 0) :
    Tendsto (fun i => energy (x i)) atTop atTop := by
  have hl := hist_len n b hb m dt x h0 hx
  obtain rfl : X0 = rfftFwd (x 0) := by
    obtain ⟨hn, b0, hb, rfl⟩ := hb
    obtain rfl := r2c_inv hb
    have hlr : (List.replicate (n / 2 + 1) (0 : ℂ)).length = n / 2 + 1 := List.length_replicate ..
    exact Res.ok.inj ((hX0 _ hlr).symm.trans (r2c_forward_eq n (x 0) _ h0 hlr))
  have hn : (0 : ℝ) < n := by exact_mod_cast hb.1
  have hw : ∀ k, 0 < r2cModeW n k := fun k => by unfold r2cModeW; split <;> positivity
  set q := (1 - dt * ((n / 2 : ℕ) : ℝ) ^ (2 * m)) ^ 2 with hq
  have hq1 : 1 < q := by rw [hq]; nlinarith
  have ht : Tendsto (fun i => r2cModeW n (n / 2) * (q ^ i * ‖nth (rfftFwd (x 0)) (n / 2)‖ ^ 2)) atTop atTop := by
    refine Tendsto.const_mul_atTop (hw _) (Tendsto.atTop_mul_const ?_ (tendsto_pow_atTop_atTop_of_one_lt hq1))
    exact pow_pos (norm_pos_iff.mpr h) 2
  refine tendsto_atTop_mono (fun i => ?_) ht
  unfold energy
  rw [hl, r2c_energy_eq hb.1 (hl i), ← hist_norm n b hb m dt x h0 hx i (n / 2) (by omega)]
  exact Finset.single_le_sum (f := fun k => r2cModeW n k * ‖nth (rfftFwd (x i)) k‖ ^ 2)
    (fun k _ => mul_nonneg (hw k).le (sq_nonneg _)) (mem_range.mpr (by omega))

end

/-- C114: explicit Euler is unstable for waves at every step length: the energy grows by `dt²` times that of the derivative. -/
theorem C114_euler_waves (n : ℕ) (b : Base ℝ ℂ ℂ) (hb : IsR2c n b) (d : ℕ) (hd : Odd d) (dt : ℝ) (x x' w : List ℝ)
    (hx : x.length = n) (h : EulerWaveStep b d dt x x' w) :
    energy x' = energy x + dt ^ 2 * ∑ j ∈ range n, nth w j ^ 2 := by
  obtain ⟨hw, hl, hj⟩ := h
  have h1 := C112_odd n b hb d hd x w hx hw
  unfold energy
  rw [hl, hx]
  have e : ∀ j ∈ range n, nth x' j ^ 2 = nth x j ^ 2 - 2 * dt * (nth x j * nth w j) + dt ^ 2 * nth w j ^ 2 := fun j h => by
    rw [hj j (by rw [hx]; exact mem_range.mp h)]; ring
  rw [Finset.sum_congr rfl e, Finset.sum_add_distrib, Finset.sum_sub_distrib, ← Finset.mul_sum, ← Finset.mul_sum, h1]
  ring

/-- C114: leapfrog conserves the inner product of consecutive data, for ever. -/
theorem C114_leapfrog (n : ℕ) (b : Base ℝ ℂ ℂ) (hb : IsR2c n b) (d : ℕ) (hd : Odd d) (dt : ℝ) (x : ℕ → List ℝ)
    (h0 : (x 0).length = n) (h1 : (x 1).length = n) (h : ∀ i, LeapfrogStep b d dt (x i) (x (i + 1)) (x (i + 2))) (i : ℕ) :
    ∑ j ∈ range n, nth (x (i + 1)) j * nth (x i) j = ∑ j ∈ range n, nth (x 1) j * nth (x 0) j := by
  have hl : ∀ i, (x i).length = n ∧ (x (i + 1)).length = n := fun i => by
    induction i with
    | zero => exact ⟨h0, h1⟩
    | succ i ih =>
      obtain ⟨w, -, hl, -⟩ := h i
      exact ⟨ih.2, hl.trans ih.1⟩
  induction i with
  | zero => rfl
  | succ i ih =>
    obtain ⟨w, hw, -, hj⟩ := h i
    have h2 := C112_odd n b hb d hd (x (i + 1)) w (hl i).2 hw
    rw [← ih]
    have e : ∀ j ∈ range n, nth (x (i + 2)) j * nth (x (i + 1)) j
        = nth (x (i + 1)) j * nth (x i) j - 2 * dt * (nth (x (i + 1)) j * nth w j) := fun j hj' => by
      rw [hj j (by rw [(hl i).1]; exact mem_range.mp hj')]; ring
    rw [Finset.sum_congr rfl e, Finset.sum_sub_distrib, ← Finset.mul_sum, h2]
    ring

/-- C114: the implicit midpoint rule conserves the energy exactly, at every step length. -/
theorem C114_crank_nicolson (n : ℕ) (b : Base ℝ ℂ ℂ) (hb : IsR2c n b) (d : ℕ) (hd : Odd d) (dt : ℝ) (x : ℕ → List ℝ)
    (h0 : (x 0).length = n) (h : ∀ i, CrankNicolsonStep b d dt (x i) (x (i + 1))) (i : ℕ) :
    energy (x i) = energy (x 0) := by
  have hl : ∀ i, (x i).length = n := fun i => by
    induction i with
    | zero => exact h0
    | succ i ih => obtain ⟨w, w', -, -, hl, -⟩ := h i; exact hl.trans ih
  induction i with
  | zero => rfl
  | succ i ih =>
    rw [← ih]
    obtain ⟨w, w', hw, hw', -, hj⟩ := h i
    have a1 := C112_odd n b hb d hd _ w (hl i) hw
    have a2 := C112_odd n b hb d hd _ w' (hl (i + 1)) hw'
    have a3 := C112_by_parts n b hb d (x i) (x (i + 1)) w w' (hl i) (hl (i + 1)) hw hw'
    rw [hd.neg_one_pow] at a3
    unfold energy
    rw [hl, hl]
    have e : ∀ j ∈ range n, nth (x (i + 1)) j ^ 2 = nth (x i) j ^ 2 - dt / 2 * (nth (x i) j * nth w j + nth (x (i + 1)) j * nth w' j
        + nth (x (i + 1)) j * nth w j + nth (x i) j * nth w' j) := fun j hj' => by
      have := hj j (by rw [hl]; exact mem_range.mp hj')
      linear_combination (nth (x (i + 1)) j + nth (x i) j) * this
    rw [Finset.sum_congr rfl e, Finset.sum_sub_distrib, ← Finset.mul_sum, Finset.sum_add_distrib, Finset.sum_add_distrib,
      Finset.sum_add_distrib, a1, a2, a3]
    ring

/-- Differentiating the grid data is a linear function. -/
private theorem gridDeriv_lin {n : ℕ} {b : Base ℝ ℂ ℂ} (hb : IsR2c n b) (d : ℕ) :
    ∃ D : (Fin n → ℝ) →ₗ[ℝ] (Fin n → ℝ), ∀ v, GridDeriv b d (List.ofFn v) (List.ofFn (D v)) := by
  obtain ⟨φ, cφ, lφ⟩ := hb.fwdLin
  obtain ⟨γ, cγ, lγ⟩ := hb.gradLin d
  obtain ⟨β, cβ, lβ⟩ := hb.bwdLin
  have lp : b.lenPhys = n ∧ b.lenSpec = n / 2 + 1 ∧ b.lenOrth = n / 2 + 1 := by
    obtain ⟨-, b0, hb, e⟩ := hb
    obtain rfl := r2c_inv hb
    rw [e]; exact ⟨rfl, rfl, rfl⟩
  rw [lp.1, lp.2.1] at cφ cβ
  rw [lp.2.1, lp.2.2] at cγ
  rw [lp.1] at lφ
  rw [lp.2.1] at lγ lβ
  have lo : ∀ v : Fin n → ℝ, (List.ofFn v).length = n := fun v => List.length_ofFn ..
  have hφ : ∀ v : Fin n → ℝ, (φ (List.ofFn v)).length = n / 2 + 1 := fun v => (cφ _ (List.replicate (n / 2 + 1) 0) (lo v) (by simp)).2
  have hγ : ∀ v : Fin n → ℝ, (γ (φ (List.ofFn v))).length = n / 2 + 1 := fun v => (cγ _ (List.replicate (n / 2 + 1) 0) (hφ v) (by simp)).2
  have hβ : ∀ v : Fin n → ℝ, (β (γ (φ (List.ofFn v)))).length = n := fun v => (cβ _ (List.replicate n 0) (hγ v) (by simp)).2
  have hlin : ∀ (a c : ℝ) (v u : Fin n → ℝ), List.ofFn (a • v + c • u) = linComb ℝ a c (List.ofFn v) (List.ofFn u) :=
    fun a c v u => ext_nth (by simp) fun i hi => by
      rw [List.length_ofFn] at hi
      rw [nth_linComb _ _ _ _ (by rw [lo]; exact hi)]
      simp [nth, hi]
  have key : ∀ (a c : ℝ) (v u : Fin n → ℝ), β (γ (φ (List.ofFn (a • v + c • u))))
      = linComb ℝ a c (β (γ (φ (List.ofFn v)))) (β (γ (φ (List.ofFn u)))) := fun a c v u => by
    rw [hlin, lφ a c _ _ (lo v) (lo u)]
    have e : linComb ℝ a c (φ (List.ofFn v)) (φ (List.ofFn u)) = linComb ℂ (a : ℂ) (c : ℂ) (φ (List.ofFn v)) (φ (List.ofFn u)) := by
      unfold linComb; simp
    rw [e, lγ _ _ _ _ (hφ v) (hφ u)]
    have e : linComb ℂ (a : ℂ) (c : ℂ) (γ (φ (List.ofFn v))) (γ (φ (List.ofFn u))) = linComb ℝ a c (γ (φ (List.ofFn v))) (γ (φ (List.ofFn u))) := by
      unfold linComb; simp
    rw [e, lβ _ _ _ _ (hγ v) (hγ u)]
  refine ⟨{ toFun := fun v i => nth (β (γ (φ (List.ofFn v)))) i, map_add' := fun v u => ?_, map_smul' := fun a v => ?_ }, fun v => ?_⟩
  · funext i
    have := key 1 1 v u
    rw [one_smul, one_smul] at this
    rw [this, nth_linComb _ _ _ _ (by rw [hβ]; exact i.2)]
    simp
  · funext i
    have := key a 0 v v
    rw [zero_smul, add_zero] at this
    rw [this, nth_linComb _ _ _ _ (by rw [hβ]; exact i.2)]
    simp
  · have e : List.ofFn (fun i : Fin n => nth (β (γ (φ (List.ofFn v)))) i) = β (γ (φ (List.ofFn v))) :=
      ext_nth (by rw [hβ]; simp) fun i hi => by
        rw [List.length_ofFn] at hi
        simp [nth, hi]
    refine ⟨φ (List.ofFn v), γ (φ (List.ofFn v)), fun o ho => ?_, fun o ho => ?_, fun o ho => ?_⟩
    · exact (cφ _ _ (lo v) (by rw [ho, lp.2.1])).1
    · exact (cγ _ _ (hφ v) (by rw [ho, lp.2.2])).1
    · dsimp only [LinearMap.coe_mk, AddHom.coe_mk]
      rw [e]
      exact (cβ _ _ (hγ v) (by rw [ho, lp.1])).1

/-- C114: the leapfrog scheme and the implicit midpoint rule run for ever from all grid data: the equations of the implicit
step have a solution at every step length. -/
theorem C114_waves_run (n : ℕ) (b : Base ℝ ℂ ℂ) (hb : IsR2c n b) (d : ℕ) (dt : ℝ) (x₀ x₁ : List ℝ)
    (hx₀ : x₀.length = n) (hx₁ : x₁.length = n) :
    (∃ x : ℕ → List ℝ, x 0 = x₀ ∧ x 1 = x₁ ∧ ∀ i, LeapfrogStep b d dt (x i) (x (i + 1)) (x (i + 2))) ∧
    (Odd d → ∃ x : ℕ → List ℝ, x 0 = x₀ ∧ ∀ i, CrankNicolsonStep b d dt (x i) (x (i + 1))) := by
  refine ⟨?_, fun hd => ?_⟩
  · have h : ∀ x : {x : List ℝ // x.length = n} × {x : List ℝ // x.length = n}, ∃ x'' : {x : List ℝ // x.length = n},
        LeapfrogStep b d dt x.1 x.2 x'' := by
      rintro ⟨⟨x, hx⟩, x', hx'⟩
      obtain ⟨w, hw, hl, -⟩ := C112_exists n b hb d x' hx'
      exact ⟨⟨(List.range n).map fun j => nth x j - 2 * dt * nth w j, by simp⟩, w, hw, by simp [hx],
        fun j hj => nth_map_range _ _ _ (hx ▸ hj)⟩
    choose f hf using h
    let g : {x : List ℝ // x.length = n} × {x : List ℝ // x.length = n} → _ := fun x => (x.2, f x)
    refine ⟨fun i => (g^[i] (⟨x₀, hx₀⟩, ⟨x₁, hx₁⟩)).1.1, rfl, rfl, fun i => ?_⟩
    dsimp only
    rw [show g^[i + 2] (⟨x₀, hx₀⟩, ⟨x₁, hx₁⟩) = g (g (g^[i] (⟨x₀, hx₀⟩, ⟨x₁, hx₁⟩))) by
      rw [Function.iterate_succ_apply', Function.iterate_succ_apply'], Function.iterate_succ_apply']
    exact hf _
  · obtain ⟨D, hD⟩ := gridDeriv_lin hb d
    have hinj : Function.Injective (LinearMap.id + (dt / 2) • D : (Fin n → ℝ) →ₗ[ℝ] (Fin n → ℝ)) := by
      rw [← LinearMap.ker_eq_bot, LinearMap.ker_eq_bot']
      intro v hv
      have h1 := C112_odd n b hb d hd _ _ (List.length_ofFn (f := v)) (hD v)
      have hsum : ∑ i : Fin n, v i * D v i = 0 := by
        rw [← h1, ← Fin.sum_univ_eq_sum_range (fun j => nth (List.ofFn v) j * nth (List.ofFn (D v)) j)]
        refine Finset.sum_congr rfl fun i _ => ?_
        simp [nth]
      have h2 : ∀ i, v i = -(dt / 2) * D v i := fun i => by
        have := congrFun hv i
        simp only [LinearMap.add_apply, LinearMap.id_apply, LinearMap.smul_apply, Pi.add_apply, Pi.smul_apply, smul_eq_mul,
          Pi.zero_apply] at this
        linarith
      have h3 : ∑ i : Fin n, v i ^ 2 = 0 := by
        rw [show ∑ i : Fin n, v i ^ 2 = -(dt / 2) * ∑ i : Fin n, v i * D v i by
          rw [Finset.mul_sum]
          refine Finset.sum_congr rfl fun i _ => ?_
          rw [sq]; nth_rw 2 [h2 i]; ring, hsum, mul_zero]
      funext i
      exact pow_eq_zero_iff (two_ne_zero) |>.mp ((Finset.sum_eq_zero_iff_of_nonneg fun i _ => sq_nonneg (v i)).mp h3 i (mem_univ _))
    have hsur := LinearMap.injective_iff_surjective.mp hinj
    have h : ∀ v : Fin n → ℝ, ∃ u : Fin n → ℝ, CrankNicolsonStep b d dt (List.ofFn v) (List.ofFn u) := fun v => by
      obtain ⟨u, hu⟩ := hsur (v - (dt / 2) • D v)
      refine ⟨u, _, _, hD v, hD u, by simp, fun j hj => ?_⟩
      rw [List.length_ofFn] at hj
      have := congrFun hu ⟨j, hj⟩
      simp only [LinearMap.add_apply, LinearMap.id_apply, LinearMap.smul_apply, Pi.add_apply, Pi.smul_apply, smul_eq_mul,
          Pi.sub_apply] at this
      simp only [nth, List.getD_eq_getElem?_getD, List.getElem?_ofFn, hj, dite_true, Option.getD_some]
      linarith
    choose f hf using h
    refine ⟨fun i => List.ofFn (f^[i] fun j => nth x₀ j), ?_, fun i => ?_⟩
    · exact ext_nth (by simp [hx₀]) fun i hi => by
        rw [List.length_ofFn] at hi
        simp [nth, hi]
    · dsimp only
      rw [Function.iterate_succ_apply']
      exact hf _

/-- C114 applies: the time stepping on 8 points. -/
example : ∃ b, IsR2c 8 b ∧ (1 / 8 : ℝ) * ((8 / 2 : ℕ) : ℝ) ^ (2 * 1) ≤ 2 ∧
    ∃ x : ℕ → List ℝ, x 0 = [1, 0, 0, 2, 0, 0, 0, 3] ∧ ∀ i, DiffusionStep b 1 (1 / 8) (x i) (x (i + 1)) :=
  have ⟨b, hb, _⟩ := isR2c_exists (n := 8) (by norm_num)
  ⟨b, hb, by norm_num, (C114_runs 8 b hb 1 (1 / 8) _ rfl).imp fun _ h => ⟨h.1, h.2.2⟩⟩

end Verif.Props
