/- The operators of the Fourier bases are accurate in the maximum norm (for C96). -/
import Verif.Proof.AccurateOps
import Verif.Props.RoundingFourier

namespace Verif.Props
open Verif Res Spec Finset
variable {R : Rounding}

theorem norm2_le_max {E : Type} [NormedAddCommGroup E] {n : ℕ} {f : ℕ → E} {X : ℝ} (hX : 0 ≤ X) (h : ∀ k < n, ‖f k‖ ≤ X) :
    norm2 n f ≤ √n * X := by
  refine abs_le_of_sq_le_sq' ?_ (by positivity) |>.2
  rw [norm2_sq, mul_pow, Real.sq_sqrt (Nat.cast_nonneg n)]
  calc _ ≤ ∑ _k ∈ range n, X ^ 2 := Finset.sum_le_sum fun k hk => by
        have := h k (mem_range.mp hk)
        have := norm_nonneg (f k)
        nlinarith
    _ = n * X ^ 2 := by simp

theorem le_norm2 {E : Type} [NormedAddCommGroup E] {n k : ℕ} {f : ℕ → E} (hk : k < n) : ‖f k‖ ≤ norm2 n f := by
  refine abs_le_of_sq_le_sq' ?_ (norm2_nonneg _ _) |>.2
  rw [norm2_sq]
  exact Finset.single_le_sum (f := fun k => ‖f k‖ ^ 2) (fun i _ => by positivity) (mem_range.mpr hk)

theorem normH_le_max {n : ℕ} (hn : 1 ≤ n) {f : ℕ → ℂ} {X : ℝ} (hX : 0 ≤ X) (h : ∀ k < n / 2 + 1, ‖f k‖ ≤ X) :
    normH n f ≤ √n * X := by
  refine abs_le_of_sq_le_sq' ?_ (by positivity) |>.2
  rw [normH_sq, mul_pow, Real.sq_sqrt (Nat.cast_nonneg n)]
  have e := fold_sum n hn (fun _ => X ^ 2) (fun _ _ _ => rfl)
  rw [Finset.sum_const, card_range, nsmul_eq_mul] at e
  rw [e]
  refine Finset.sum_le_sum fun k hk => mul_le_mul_of_nonneg_left ?_ (by split <;> norm_num)
  have := h k (mem_range.mp hk)
  have := norm_nonneg (f k)
  nlinarith

theorem le_normH {n k : ℕ} {f : ℕ → ℂ} (hk : k < n / 2 + 1) : ‖f k‖ ≤ normH n f := by
  refine abs_le_of_sq_le_sq' ?_ (normH_nonneg _ _) |>.2
  rw [normH_sq]
  refine le_trans ?_ (Finset.single_le_sum (f := fun k => (if k = 0 ∨ 2 * k = n then (1:ℝ) else 2) * ‖f k‖ ^ 2)
    (fun i _ => mul_nonneg (by split <;> norm_num) (by positivity)) (mem_range.mpr hk))
  split
  · rw [one_mul]
  · nlinarith [sq_nonneg ‖f k‖]

theorem linOp_real {f : List ℂ → List ℂ → Res (List ℂ)} {n m : ℕ} (h : LinOp ℂ f n m) : LinOp ℝ f n m := by
  obtain ⟨g, hg, hl⟩ := h
  refine ⟨g, hg, fun α β x y hx hy => ?_⟩
  have e : ∀ x y : List ℂ, linComb ℝ α β x y = linComb ℂ (α:ℂ) (β:ℂ) x y := fun x y => by
    unfold linComb
    simp only [Complex.real_smul, smul_eq_mul]
  rw [e, e, hl _ _ _ _ hx hy]

theorem max_nth {E : Type} [NormedAddCommGroup E] {X : ℝ} {l : List E} (h : MaxLe X l) : ∀ k < l.length, ‖nth l k‖ ≤ X := by
  intro k hk
  rw [nth_eq_getElem _ _ hk]
  exact h _ (List.getElem_mem _)

section
variable [HasFft (Rnd R) (RndC R)] {n : ℕ} {η : ℝ}

theorem c2c_forward_acc (hn : 1 ≤ n) (h0 : 0 ≤ η) (hF : FftError R n η) :
    Accurate RndC.val RndC.val (C2c.forwardSlice (A := Rnd R) (C := RndC R) ⟨n, n⟩) (C2c.forwardSlice (A := ℝ) (C := ℂ) ⟨n, n⟩) n n
      (fourierForwardAmp η n).gain (fourierForwardAmp η n).err := by
  have hs : √(n:ℝ) * √n = n := Real.mul_self_sqrt (Nat.cast_nonneg n)
  refine Spec.Accurate.of ?_ (linOp_real (c2c_forward_lin n)) (by simp only [fourierForwardAmp]; positivity)
    (by simp only [fourierForwardAmp]; positivity) (fun x out outR hx ho hoR => ?_) (fun x out r hx ho e X hX hb => ?_)
  · intro x out out' hx ho ho'
    rw [c2c_forward_rnd x out hx ho, c2c_forward_rnd x out' hx ho']
  · obtain ⟨c, cR, e1, e2, l1, l2, h⟩ := C84_c2c_forward hF ⟨n, n⟩ rfl x out outR hx ho hoR
    refine ⟨c, cR, e1, e2, fun X hX hb => ⟨by rw [List.length_map, l1, l2], fun i hi => ?_⟩⟩
    rw [List.length_map, l1] at hi
    have hN := norm2_le_max (n := n) hX (fun k hk => max_nth hb k (by rw [List.length_map, hx]; exact hk))
    have hE := c2c_fwd_norm hn (by rw [valsC_length, hx]) hoR e2
    refine (le_norm2 (f := fun k => nth (valsC c) k - nth cR k) hi).trans (h.trans ?_)
    show _ ≤ η * n * X
    rw [hE, mul_assoc]
    refine mul_le_mul_of_nonneg_left ?_ h0
    calc √(n:ℝ) * norm2 n (nth (valsC x)) ≤ √n * (√n * X) := mul_le_mul_of_nonneg_left hN (Real.sqrt_nonneg _)
      _ = n * X := by rw [← mul_assoc, hs]
  · have hl : r.length = n := by
      obtain rfl := Res.ok.inj ((wp_c2c_forward n _ _ hx ho).symm.trans e)
      rw [length_fftFwd, hx]
    refine Spec.MaxLe.of fun k hk => ?_
    have hN := norm2_le_max (n := n) hX (fun k hk => max_nth hb k (by rw [hx]; exact hk))
    refine (le_norm2 (f := nth r) (by omega : k < n)).trans ?_
    rw [c2c_fwd_norm hn hx ho e]
    calc √(n:ℝ) * norm2 n (nth x) ≤ √n * (√n * X) := mul_le_mul_of_nonneg_left hN (Real.sqrt_nonneg _)
      _ = n * X := by rw [← mul_assoc, hs]

theorem c2c_backward_acc (hn : 1 ≤ n) (h0 : 0 ≤ η) (hF : FftError R n η) (hN : R.Integers n) (h2 : 2 * R.u < 1) :
    Accurate RndC.val RndC.val (C2c.backwardSlice (A := Rnd R) (C := RndC R) ⟨n, n⟩) (C2c.backwardSlice (A := ℝ) (C := ℂ) ⟨n, n⟩) n n
      (fourierBackwardAmp R η).gain (fourierBackwardAmp R η).err := by
  have hu : R.u < 1 := by linarith [R.u_nonneg]
  have hg := R.γ_nonneg (k := 2) (by exact_mod_cast h2)
  have hE : 0 ≤ (1 + η) * (1 + R.γ 2) - 1 := by nlinarith
  have hp : 0 < √(n:ℝ) := Real.sqrt_pos.mpr (by exact_mod_cast hn)
  refine Spec.Accurate.of ?_ (linOp_real (c2c_backward_lin n hn)) zero_le_one hE (fun x out outR hx ho hoR => ?_)
    (fun x out r hx ho e X hX hb => ?_)
  · intro x out out' hx ho ho'
    obtain ⟨cor, θ, hcor, f, hcv⟩ := cor_ok hu hn (hN n le_rfl)
    rw [c2c_backward_rnd hcor x out hx ho, c2c_backward_rnd hcor x out' hx ho']
  · obtain ⟨c, cR, e1, e2, l1, l2, h⟩ := C84_c2c_backward h0 hF hn hN h2 ⟨n, n⟩ rfl x out outR hx ho hoR
    refine ⟨c, cR, e1, e2, fun X hX hb => ⟨by rw [List.length_map, l1, l2], fun i hi => ?_⟩⟩
    rw [List.length_map, l1] at hi
    have hN := norm2_le_max (n := n) hX (fun k hk => max_nth hb k (by rw [List.length_map, hx]; exact hk))
    have hE' := c2c_bwd_norm hn (by rw [valsC_length, hx]) hoR e2
    refine (le_norm2 (f := fun k => nth (valsC c) k - nth cR k) hi).trans (h.trans ?_)
    refine mul_le_mul_of_nonneg_left ?_ hE
    refine le_of_mul_le_mul_left ?_ hp
    rw [hE']
    exact hN
  · have hl : r.length = n := by
      obtain rfl := Res.ok.inj ((wp_c2c_backward n hn _ _ hx ho).symm.trans e)
      rw [length_fftInv, List.length_map, hx]
    refine Spec.MaxLe.of fun k hk => ?_
    have hN := norm2_le_max (n := n) hX (fun k hk => max_nth hb k (by rw [hx]; exact hk))
    refine (le_norm2 (f := nth r) (by omega : k < n)).trans ?_
    refine le_of_mul_le_mul_left ?_ hp
    rw [c2c_bwd_norm hn hx ho e]
    show _ ≤ √(n:ℝ) * (1 * X)
    rw [one_mul]
    exact hN

theorem r2c_forward_acc (hn : 1 ≤ n) (h0 : 0 ≤ η) (hF : FftError R n η) :
    Accurate Rnd.val RndC.val (R2c.forwardSlice (A := Rnd R) (C := RndC R) ⟨n, n / 2 + 1⟩)
      (R2c.forwardSlice (A := ℝ) (C := ℂ) ⟨n, n / 2 + 1⟩) n (n / 2 + 1)
      (fourierForwardAmp η n).gain (fourierForwardAmp η n).err := by
  have hs : √(n:ℝ) * √n = n := Real.mul_self_sqrt (Nat.cast_nonneg n)
  refine Spec.Accurate.of ?_ (r2c_forward_lin n) (by simp only [fourierForwardAmp]; positivity)
    (by simp only [fourierForwardAmp]; positivity) (fun x out outR hx ho hoR => ?_) (fun x out r hx ho e X hX hb => ?_)
  · intro x out out' hx ho ho'
    rw [r2c_forward_rnd x out hx ho, r2c_forward_rnd x out' hx ho']
  · obtain ⟨c, cR, e1, e2, l1, l2, h⟩ := C84_r2c_forward hF ⟨n, n / 2 + 1⟩ rfl x out outR hx ho hoR
    refine ⟨c, cR, e1, e2, fun X hX hb => ⟨by rw [List.length_map, l1, l2], fun i hi => ?_⟩⟩
    rw [List.length_map, l1] at hi
    have hN := norm2_le_max (n := n) hX (fun k hk => max_nth hb k (by rw [List.length_map, hx]; exact hk))
    have hE := r2c_fwd_norm hn (by rw [vals_length, hx]) hoR e2
    refine (le_normH (f := fun k => nth (valsC c) k - nth cR k) hi).trans (h.trans ?_)
    show _ ≤ η * n * X
    rw [hE, mul_assoc]
    refine mul_le_mul_of_nonneg_left ?_ h0
    calc √(n:ℝ) * norm2 n (nth (vals x)) ≤ √n * (√n * X) := mul_le_mul_of_nonneg_left hN (Real.sqrt_nonneg _)
      _ = n * X := by rw [← mul_assoc, hs]
  · have hl : r.length = n / 2 + 1 := by
      obtain rfl := Res.ok.inj ((r2c_forward_eq n _ _ hx ho).symm.trans e)
      rw [length_rfftFwd, hx]
    refine Spec.MaxLe.of fun k hk => ?_
    have hN := norm2_le_max (n := n) hX (fun k hk => max_nth hb k (by rw [hx]; exact hk))
    refine (le_normH (f := nth r) (by omega : k < n / 2 + 1)).trans ?_
    rw [r2c_fwd_norm hn hx ho e]
    calc √(n:ℝ) * norm2 n (nth x) ≤ √n * (√n * X) := mul_le_mul_of_nonneg_left hN (Real.sqrt_nonneg _)
      _ = n * X := by rw [← mul_assoc, hs]

theorem r2c_backward_acc (hn : 1 ≤ n) (h0 : 0 ≤ η) (hF : FftError R n η) (hN : R.Integers n) (h2 : 2 * R.u < 1) :
    Accurate RndC.val Rnd.val (R2c.backwardSlice (A := Rnd R) (C := RndC R) ⟨n, n / 2 + 1⟩)
      (R2c.backwardSlice (A := ℝ) (C := ℂ) ⟨n, n / 2 + 1⟩) (n / 2 + 1) n
      (fourierBackwardAmp R η).gain (fourierBackwardAmp R η).err := by
  have hu : R.u < 1 := by linarith [R.u_nonneg]
  have hg := R.γ_nonneg (k := 2) (by exact_mod_cast h2)
  have hE : 0 ≤ (1 + η) * (1 + R.γ 2) - 1 := by nlinarith
  have hp : 0 < √(n:ℝ) := Real.sqrt_pos.mpr (by exact_mod_cast hn)
  refine Spec.Accurate.of ?_ (r2c_backward_lin n hn) zero_le_one hE (fun x out outR hx ho hoR => ?_)
    (fun x out r hx ho e X hX hb => ?_)
  · intro x out out' hx ho ho'
    obtain ⟨cor, θ, hcor, f, hcv⟩ := cor_ok hu hn (hN n le_rfl)
    obtain ⟨y, e, l, h⟩ := r2c_backward_rnd hcor x out hx ho
    obtain ⟨y', e', l', h'⟩ := r2c_backward_rnd hcor x out' hx ho'
    rw [e, e']
    congr 1
    exact ext_nth (l.trans l'.symm) fun k hk => by rw [h k (by omega), h' k (by omega)]
  · obtain ⟨c, cR, e1, e2, l1, l2, h⟩ := C84_r2c_backward h0 hF hn hN h2 ⟨n, n / 2 + 1⟩ rfl x out outR hx ho hoR
    refine ⟨c, cR, e1, e2, fun X hX hb => ⟨by rw [List.length_map, l1, l2], fun i hi => ?_⟩⟩
    rw [List.length_map, l1] at hi
    have hN := normH_le_max hn hX (fun k hk => max_nth hb k (by rw [List.length_map, hx]; exact hk))
    have hE' := r2c_bwd_norm hn (by rw [valsC_length, hx]) hoR e2
    refine (le_norm2 (f := fun k => nth (vals c) k - nth cR k) hi).trans (h.trans ?_)
    refine mul_le_mul_of_nonneg_left ?_ hE
    refine le_of_mul_le_mul_left ?_ hp
    exact hE'.trans hN
  · have hl : r.length = n := by
      obtain rfl := Res.ok.inj ((r2c_backward_eq n hn _ _ hx ho).symm.trans e)
      simp
    refine Spec.MaxLe.of fun k hk => ?_
    have hN := normH_le_max hn hX (fun k hk => max_nth hb k (by rw [hx]; exact hk))
    refine (le_norm2 (f := nth r) (by omega : k < n)).trans ?_
    refine le_of_mul_le_mul_left ?_ hp
    show _ ≤ √(n:ℝ) * (1 * X)
    rw [one_mul]
    exact (r2c_bwd_norm hn hx ho e).trans hN

end

/-! ### derivatives -/

theorem norm_of_parts {z w : ℂ} {c : ℝ} (hc : 0 ≤ c) (h1 : |z.re - w.re| ≤ c * |w.re|) (h2 : |z.im - w.im| ≤ c * |w.im|) :
    ‖z - w‖ ≤ c * ‖w‖ := by
  refine abs_le_of_sq_le_sq' ?_ (by positivity) |>.2
  rw [mul_pow, Complex.sq_norm, Complex.sq_norm, Complex.normSq_apply, Complex.normSq_apply, Complex.sub_re, Complex.sub_im]
  have e1 := mul_self_le_mul_self (abs_nonneg _) h1
  have e2 := mul_self_le_mul_self (abs_nonneg _) h2
  rw [abs_mul_abs_self] at e1 e2
  have e3 := abs_mul_abs_self w.re
  have e4 := abs_mul_abs_self w.im
  nlinarith

theorem gain_pow {n d j : ℕ} (hj : (j:ℝ) ≤ n / 2) (z : ℂ) : ‖z * (Complex.I * (j:ℂ)) ^ d‖ ≤ ((n:ℝ) / 2) ^ d * ‖z‖ := by
  rw [norm_mul, norm_pow, norm_mul, Complex.norm_I, one_mul, Complex.norm_natCast, mul_comm]
  exact mul_le_mul_of_nonneg_right (pow_le_pow_left₀ (Nat.cast_nonneg j) hj d) (norm_nonneg _)

theorem c2c_gradient_acc (hR : R.Nearest) {n : ℕ} (hn : 1 ≤ n) (hN : R.Integers n) {d : ℕ} (hd : d * R.u < 1) (hu : R.u < 1) :
    Accurate RndC.val RndC.val (fun x out => C2c.gradientSlice (A := Rnd R) (C := RndC R) ⟨n, n⟩ x out d)
      (fun x out => C2c.gradientSlice (A := ℝ) (C := ℂ) ⟨n, n⟩ x out d) n n
      (fourierGradientAmp R n d).gain (fourierGradientAmp R n d).err := by
  have hg := R.γ_nonneg hd
  have hK : ∀ k, k < n → ((c2cCodeK n k : ℕ):ℝ) ≤ n / 2 := fun k hk => by
    rw [le_div_iff₀ two_pos]
    have : c2cCodeK n k * 2 ≤ n := by unfold c2cCodeK; split <;> omega
    exact_mod_cast this
  refine Spec.Accurate.of ?_ (linOp_real (c2c_gradient_lin n hn d)) (by simp only [fourierGradientAmp]; positivity)
    (by simp only [fourierGradientAmp]; positivity) (fun x out outR hx ho hoR => ?_) (fun x out r hx ho e X hX hb => ?_)
  · intro x out out' hx ho ho'
    obtain ⟨y, e, l, h⟩ := c2c_gradient_form (A := Rnd R) n hn x out d hx ho
    obtain ⟨y', e', l', h'⟩ := c2c_gradient_form (A := Rnd R) n hn x out' d hx ho'
    refine e.trans (Eq.trans ?_ e'.symm)
    congr 1
    exact ext_nth (l.trans l'.symm) fun k hk => by rw [h k (by omega), h' k (by omega)]
  · obtain ⟨g, gR, e1, e2, l, h⟩ := C83_c2c_gradient hR hn hN hd hu ⟨n, n⟩ rfl x out outR hx ho hoR
    refine ⟨g, gR, e1, e2, fun X hX hb => ⟨by rw [List.length_map, l], fun i hi => ?_⟩⟩
    rw [List.length_map] at hi
    have hxl : (valsC x).length = n := by rw [valsC_length, hx]
    obtain rfl := Res.ok.inj (e2.symm.trans (c2c_gradient_eq n hn (valsC x) outR d hxl hoR))
    have hi' : i < n := by rw [l] at hi; simpa using hi
    obtain ⟨h1, h2⟩ := h i hi
    rw [nth_mapv rfl]
    refine (norm_of_parts hg h1 h2).trans ?_
    have ek : ∀ {f : ℕ → ℂ}, nth ((List.range n).map f) i = f i := nth_map_range _ _ _ hi'
    rw [ek]
    show _ ≤ R.γ d * ((n:ℝ) / 2) ^ d * X
    rw [mul_assoc]
    refine mul_le_mul_of_nonneg_left ((gain_pow (hK i hi') _).trans ?_) hg
    exact mul_le_mul_of_nonneg_left (max_nth hb i (by rw [List.length_map, hx]; exact hi')) (by positivity)
  · obtain rfl := Res.ok.inj (e.symm.trans (c2c_gradient_eq n hn x out d hx ho))
    refine Spec.MaxLe.of fun i hi => ?_
    have hi' : i < n := by simpa using hi
    have ek : ∀ {f : ℕ → ℂ}, nth ((List.range n).map f) i = f i := nth_map_range _ _ _ hi'
    rw [ek]
    refine (gain_pow (hK i hi') _).trans ?_
    exact mul_le_mul_of_nonneg_left (max_nth hb i (by rw [hx]; exact hi')) (by positivity)

theorem r2c_gradient_acc (hR : R.Nearest) {n : ℕ} (hN : R.Integers n) {d : ℕ} (hd : d * R.u < 1) (hu : R.u < 1) :
    Accurate RndC.val RndC.val (fun x out => R2c.gradientSlice (A := Rnd R) (C := RndC R) ⟨n, n / 2 + 1⟩ x out d)
      (fun x out => R2c.gradientSlice (A := ℝ) (C := ℂ) ⟨n, n / 2 + 1⟩ x out d) (n / 2 + 1) (n / 2 + 1)
      (fourierGradientAmp R n d).gain (fourierGradientAmp R n d).err := by
  have hg := R.γ_nonneg hd
  have hK : ∀ k, k < n / 2 + 1 → ((k : ℕ):ℝ) ≤ n / 2 := fun k hk => by
    rw [le_div_iff₀ two_pos]
    have : k * 2 ≤ n := by omega
    exact_mod_cast this
  refine Spec.Accurate.of ?_ (linOp_real (r2c_gradient_lin ⟨n, n / 2 + 1⟩ d)) (by simp only [fourierGradientAmp]; positivity)
    (by simp only [fourierGradientAmp]; positivity) (fun x out outR hx ho hoR => ?_) (fun x out r hx ho e X hX hb => ?_)
  · intro x out out' hx ho ho'
    obtain ⟨y, e, l, h⟩ := r2c_gradient_form (A := Rnd R) ⟨n, n / 2 + 1⟩ x out d hx ho
    obtain ⟨y', e', l', h'⟩ := r2c_gradient_form (A := Rnd R) ⟨n, n / 2 + 1⟩ x out' d hx ho'
    refine e.trans (Eq.trans ?_ e'.symm)
    congr 1
    exact ext_nth (l.trans l'.symm) fun k hk => by rw [h k (by rw [l] at hk; exact hk), h' k (by rw [l] at hk; exact hk)]
  · obtain ⟨g, e1, l, h⟩ := C83_r2c_gradient hR hN hd hu ⟨n, n / 2 + 1⟩ rfl x out hx ho
    have hxl : (valsC x).length = n / 2 + 1 := by rw [valsC_length, hx]
    refine ⟨g, _, e1, r2c_gradient_eq ⟨n, n / 2 + 1⟩ (valsC x) outR d hxl hoR, fun X hX hb => ⟨?_, fun i hi => ?_⟩⟩
    · rw [List.length_map, l, List.length_map, List.length_range]; rfl
    rw [List.length_map] at hi
    have hi' : i < n / 2 + 1 := by rw [l] at hi; exact hi
    obtain ⟨h1, h2⟩ := h i hi
    have ek : ∀ {f : ℕ → ℂ}, nth ((List.range (n / 2 + 1)).map f) i = f i := nth_map_range _ _ _ hi'
    rw [nth_mapv rfl]
    rw [mul_comm] at h1 h2
    refine le_trans (le_of_eq ?_) ((norm_of_parts hg h1 h2).trans ?_)
    · rw [ek, nth_valsC]
    show _ ≤ R.γ d * ((n:ℝ) / 2) ^ d * X
    rw [mul_assoc]
    refine mul_le_mul_of_nonneg_left ((gain_pow (hK i hi') _).trans ?_) hg
    refine mul_le_mul_of_nonneg_left ?_ (by positivity)
    have := max_nth hb i (by rw [List.length_map, hx]; exact hi')
    rwa [nth_mapv rfl] at this
  · obtain rfl := Res.ok.inj (e.symm.trans (r2c_gradient_eq ⟨n, n / 2 + 1⟩ x out d hx ho))
    refine Spec.MaxLe.of fun i hi => ?_
    have hi' : i < n / 2 + 1 := by simpa using hi
    have ek : ∀ {f : ℕ → ℂ}, nth ((List.range (n / 2 + 1)).map f) i = f i := nth_map_range _ _ _ hi'
    rw [ek]
    refine (gain_pow (hK i hi') _).trans ?_
    exact mul_le_mul_of_nonneg_left (max_nth hb i (by rw [hx]; exact hi')) (by positivity)

end Verif.Props
