/- Discrete Fourier transform algebra. -/
import Verif.Model.Fourier
import Verif.Proof.ChebGrad
import Mathlib.Analysis.SpecialFunctions.Complex.Log
import Mathlib.Algebra.Field.GeomSum

namespace Verif
open Res Spec Finset Complex

theorem list_sum_range {M : Type} [AddCommMonoid M] (n : ℕ) (f : ℕ → M) :
    ((List.range n).map f).sum = ∑ i ∈ range n, f i := by
  induction n with
  | zero => simp
  | succ n ih => rw [List.range_succ, List.map_append, List.sum_append, ih, sum_range_succ]; simp

/-- `Σ_{k<n} exp(2πi d k/n)` is `n` when `n ∣ d` and `0` otherwise. -/
theorem exp_sum (n : ℕ) (hn : 1 ≤ n) (d : ℤ) :
    ∑ k ∈ range n, exp (2 * Real.pi * I * d * k / n) = if (n : ℤ) ∣ d then (n : ℂ) else 0 := by
  have hn' : (n : ℂ) ≠ 0 := by exact_mod_cast (by omega : n ≠ 0)
  have hpi : (2 * Real.pi * I : ℂ) ≠ 0 := by
    simp [Real.pi_ne_zero]
  have e : ∀ k : ℕ, exp (2 * Real.pi * I * d * k / n) = exp (2 * Real.pi * I * d / n) ^ k := by
    intro k; rw [← Complex.exp_nat_mul]; congr 1; ring
  simp_rw [e]
  split
  · next h =>
    obtain ⟨m, rfl⟩ := h
    have : exp (2 * Real.pi * I * ((n * m : ℤ) : ℂ) / n) = 1 := by
      rw [Complex.exp_eq_one_iff]; exact ⟨m, by push_cast; field_simp⟩
    rw [this]; simp
  · next h =>
    have h1 : exp (2 * Real.pi * I * d / n) - 1 ≠ 0 := by
      intro hz
      rw [sub_eq_zero, Complex.exp_eq_one_iff] at hz
      obtain ⟨m, hm⟩ := hz
      apply h
      refine ⟨m, ?_⟩
      have : (d : ℂ) = n * m := by
        field_simp at hm
        have h2 : (2 * Real.pi * I : ℂ) * d = (2 * Real.pi * I) * (n * m) := by
          linear_combination (2 * Real.pi * I : ℂ) * hm
        exact mul_left_cancel₀ hpi h2
      exact_mod_cast this
    have h2 := geom_sum_mul (exp (2 * Real.pi * I * d / n)) n
    rw [← Complex.exp_nat_mul, show (n : ℂ) * (2 * Real.pi * I * d / n) = d * (2 * Real.pi * I) by
      field_simp, Complex.exp_int_mul_two_pi_mul_I, sub_self] at h2
    exact (mul_eq_zero.mp h2).resolve_right h1

/-- the transform as a sum over functions -/
noncomputable def dft (s : ℂ) (n : ℕ) (x : ℕ → ℂ) (k : ℕ) : ℂ :=
  ∑ j ∈ range n, x j * twiddle s n j k

theorem twiddle_comm (s : ℂ) (n j k : ℕ) : twiddle s n j k = twiddle s n k j := by
  unfold twiddle; congr 1; ring

theorem dft_congr {s : ℂ} {n : ℕ} {x y : ℕ → ℂ} (k : ℕ) (h : ∀ j < n, x j = y j) :
    dft s n x k = dft s n y k :=
  Finset.sum_congr rfl (fun j hj => by rw [h j (mem_range.mp hj)])

theorem dft_smul (s : ℂ) (n : ℕ) (a : ℂ) (x : ℕ → ℂ) (k : ℕ) :
    dft s n (fun j => a * x j) k = a * dft s n x k := by
  unfold dft; rw [Finset.mul_sum]; exact Finset.sum_congr rfl (fun j _ => by ring)

theorem dft_inv (s : ℤ) (hs : s = 1 ∨ s = -1) (n : ℕ) (hn : 1 ≤ n) (x : ℕ → ℂ) (j : ℕ)
    (hj : j < n) : dft (-s) n (dft s n x) j = n * x j := by
  unfold dft
  simp_rw [Finset.sum_mul]
  rw [Finset.sum_comm]
  have e : ∀ l ∈ range n, ∑ k ∈ range n, x l * twiddle s n l k * twiddle (-s) n k j
      = if l = j then n * x l else 0 := by
    intro l hl
    rw [mem_range] at hl
    have : ∀ k : ℕ, x l * twiddle s n l k * twiddle (-s) n k j
        = x l * exp (2 * Real.pi * I * ((s * ((l : ℤ) - j) : ℤ) : ℂ) * k / n) := by
      intro k
      unfold twiddle
      rw [mul_assoc, ← Complex.exp_add]
      congr 2; push_cast; ring
    simp_rw [this]
    rw [← Finset.mul_sum, exp_sum n hn]
    by_cases h : l = j
    · subst h; simp [mul_comm]
    · rw [if_neg h, if_neg, mul_zero]
      intro hd
      have hd' : (n : ℤ) ∣ (l : ℤ) - j := by
        rcases hs with rfl | rfl
        · simpa using hd
        · rw [neg_one_mul, dvd_neg] at hd; exact hd
      obtain ⟨c, hc⟩ := hd'
      have : (l : ℤ) - j = 0 := by
        rcases lt_trichotomy c 0 with hc' | hc' | hc'
        · nlinarith
        · rw [hc, hc', mul_zero]
        · nlinarith
      omega
  rw [Finset.sum_congr rfl e]
  simp [hj]

theorem nth_fftFwd (x : List ℂ) {k : ℕ} (hk : k < x.length) :
    nth (fftFwd x) k = dft (-1) x.length (nth x) k := by
  unfold fftFwd
  rw [nth_map_range _ _ _ hk, list_sum_range]; rfl

theorem nth_fftInv (x : List ℂ) {k : ℕ} (hk : k < x.length) :
    nth (fftInv x) k = dft 1 x.length (nth x) k := by
  unfold fftInv
  rw [nth_map_range _ _ _ hk, list_sum_range]; rfl

@[simp] theorem length_fftFwd (x : List ℂ) : (fftFwd x).length = x.length := by simp [fftFwd]
@[simp] theorem length_fftInv (x : List ℂ) : (fftInv x).length = x.length := by simp [fftInv]

theorem fftFwd_fftInv (x : List ℂ) (hx : 1 ≤ x.length) :
    fftFwd (fftInv x) = x.map (fun z => (x.length : ℂ) * z) := by
  refine ext_nth (by simp) (fun k hk => ?_)
  simp only [length_fftFwd, length_fftInv] at hk
  rw [nth_fftFwd _ (by simpa using hk), length_fftInv,
    dft_congr k (fun j hj => nth_fftInv x hj), nth_map _ _ _ hk]
  have := dft_inv 1 (Or.inl rfl) x.length hx (nth x) k hk
  push_cast at this
  exact this

theorem fftInv_fftFwd (x : List ℂ) (hx : 1 ≤ x.length) :
    fftInv (fftFwd x) = x.map (fun z => (x.length : ℂ) * z) := by
  refine ext_nth (by simp) (fun k hk => ?_)
  simp only [length_fftFwd, length_fftInv] at hk
  rw [nth_fftInv _ (by simpa using hk), length_fftFwd,
    dft_congr k (fun j hj => nth_fftFwd x hj), nth_map _ _ _ hk]
  have := dft_inv (-1) (Or.inr rfl) x.length hx (nth x) k hk
  push_cast at this
  rw [neg_neg] at this
  exact this

theorem scale_eq (a : ℝ) (z : ℂ) : (⟨a * z.re, a * z.im⟩ : ℂ) = (a : ℂ) * z := by
  apply Complex.ext <;> simp

theorem fftInv_smul (a : ℂ) (x : List ℂ) :
    fftInv (x.map (fun z => a * z)) = (fftInv x).map (fun z => a * z) := by
  refine ext_nth (by simp) (fun k hk => ?_)
  simp only [length_fftInv, List.length_map] at hk
  rw [nth_fftInv _ (by simpa using hk), nth_map _ _ _ (by simpa using hk), nth_fftInv _ hk,
    ← dft_smul, List.length_map]
  exact dft_congr k (fun j hj => nth_map _ _ _ hj)

theorem fftFwd_smul (a : ℂ) (x : List ℂ) :
    fftFwd (x.map (fun z => a * z)) = (fftFwd x).map (fun z => a * z) := by
  refine ext_nth (by simp) (fun k hk => ?_)
  simp only [length_fftFwd, List.length_map] at hk
  rw [nth_fftFwd _ (by simpa using hk), nth_map _ _ _ (by simpa using hk), nth_fftFwd _ hk,
    ← dft_smul, List.length_map]
  exact dft_congr k (fun j hj => nth_map _ _ _ hj)

/-! ### slices -/

variable {Q : Err → Prop}

theorem wp_c2c_forward (n : ℕ) (x out : List ℂ) (hx : x.length = n) (ho : out.length = n) :
    C2c.forwardSlice ⟨n, n⟩ x out = ok (fftFwd x) := by
  suffices h : wp (fun _ => False) (C2c.forwardSlice ⟨n, n⟩ x out) (fun r => r = fftFwd x) by
    obtain ⟨a, h1, rfl⟩ := wp_total.mp h; exact h1
  unfold C2c.forwardSlice C2c.lenPhys C2c.lenSpec
  dsimp only
  wprun
  rw [zipSet_eq_map _ _ _ (by omega)]; simp

theorem wp_c2c_backward (n : ℕ) (hn : 1 ≤ n) (x out : List ℂ) (hx : x.length = n)
    (ho : out.length = n) :
    C2c.backwardSlice ⟨n, n⟩ x out = ok (fftInv (x.map (fun z => ((n : ℂ)⁻¹) * z))) := by
  suffices h : wp (fun _ => False) (C2c.backwardSlice ⟨n, n⟩ x out)
      (fun r => r = fftInv (x.map (fun z => ((n : ℂ)⁻¹) * z))) by
    obtain ⟨a, h1, rfl⟩ := wp_total.mp h; exact h1
  unfold C2c.backwardSlice C2c.lenPhys C2c.lenSpec
  dsimp only
  wprun
  · rw [zipSet_eq_map _ _ _ (by omega)]
    congr 1
    refine List.map_congr_left (fun z _ => ?_)
    rw [cplx_pair, cplx_re, cplx_im, scale_eq]; simp
  · intro h
    exact absurd (by exact_mod_cast h : n = 0) (by omega)

/-! ### nodes -/

theorem fourierNodes_eq (n : ℕ) (hn : 1 ≤ n) :
    fourierNodes n = ok ((List.range n).map (fun j : ℕ => 2 * Real.pi * j / n)) := by
  suffices h : wp (fun _ => False) (fourierNodes n)
      (fun r => r = (List.range n).map (fun j : ℕ => 2 * Real.pi * j / n)) by
    obtain ⟨a, h1, rfl⟩ := wp_total.mp h; exact h1
  have hn' : (n : ℝ) ≠ 0 := by exact_mod_cast (by omega : n ≠ 0)
  have hp : (Real.pi : ℝ) ≠ 0 := Real.pi_ne_zero
  unfold fourierNodes
  simp only [libm_pi, libm_ceil]
  wprun
  · have : ((n : ℝ)⁻¹ • (2 * Real.pi))⁻¹ • (2 * Real.pi - 0) = (n : ℝ) := by
      simp only [smul_eq_mul, sub_zero]; field_simp
    rw [this, Nat.ceil_natCast]
    refine List.map_congr_left (fun j _ => ?_)
    simp only [smul_eq_mul]; field_simp; ring
  · intro h
    simp only [smul_eq_mul, mul_eq_zero, inv_eq_zero] at h
    rcases h with h | h | h
    · exact hn' h
    · norm_num at h
    · exact hp h
  · intro h; exact hn' h

/-! ### wavenumbers -/

/-- signed frequency of entry `j` -/
def c2cK (n j : ℕ) : ℤ := if j < (n + 1) / 2 then (j : ℤ) else (j : ℤ) - n

theorem c2cK_ne (n j : ℕ) (h1 : 1 ≤ j) (h2 : j < n) : c2cK n j ≠ 0 := by
  unfold c2cK; split <;> omega

theorem c2c_wavenumber_eq (n : ℕ) (hn : 1 ≤ n) :
    C2c.wavenumber n = ok ((List.range n).map (fun j => I * (c2cK n j : ℂ))) := by
  suffices h : wp (fun _ => False) (C2c.wavenumber n)
      (fun r => r = (List.range n).map (fun j => I * (c2cK n j : ℂ))) by
    obtain ⟨a, h1, rfl⟩ := wp_total.mp h; exact h1
  unfold C2c.wavenumber
  wprun
  rw [show min ((n - 1) / 2 + 1) n = (n + 1) / 2 by omega, show min (n / 2) n = n / 2 by omega]
  refine wp_forRange (fun i k => k.length = n ∧ (∀ j < i, nth k j = I * (j : ℂ)) ∧
      ∀ j, i ≤ j → nth k j = 0) ⟨by simp, fun _ h => by omega, fun j _ => by simp⟩ ?_ ?_
  · rintro i k - hi ⟨hl, h1, h2⟩
    wprun
    refine ⟨by simpa using hl, fun j hj => ?_, fun j hj => ?_⟩
    · rcases Nat.lt_succ_iff_lt_or_eq.mp hj with h | rfl
      · rw [nth_set_ne _ _ _ _ (by omega), h1 j h]
      · rw [nth_set_self _ _ _ (by omega), h2 j le_rfl]
        apply Complex.ext <;> simp
    · rw [nth_set_ne _ _ _ _ (by omega), h2 j (by omega)]
  · rintro k ⟨hl, h1, h2⟩
    rw [show max 0 ((n + 1) / 2) = (n + 1) / 2 by omega] at h1 h2
    refine wp_forRange (fun i k => k.length = n ∧ (∀ j < (n + 1) / 2, nth k j = I * (j : ℂ)) ∧
        (∀ j, (n + 1) / 2 ≤ j → j < n - i → nth k j = 0) ∧
        (∀ j, n - i ≤ j → j < n → nth k j = I * ((j : ℂ) - n)))
      ⟨hl, h1, fun j h _ => h2 j h, fun j h h' => by omega⟩ ?_ ?_
    · rintro i k - hi ⟨hl, h1, h2, h3⟩
      wprun
      refine ⟨by simpa using hl, fun j hj => ?_, fun j hj hj' => ?_, fun j hj hj' => ?_⟩
      · rw [nth_set_ne _ _ _ _ (by omega), h1 j hj]
      · rw [nth_set_ne _ _ _ _ (by omega), h2 j hj (by omega)]
      · by_cases h : j = n - 1 - i
        · subst h
          rw [nth_set_self _ _ _ (by omega), h2 _ (by omega) (by omega)]
          have : ((n - 1 - i : ℕ) : ℂ) = n - 1 - i := by
            rw [Nat.cast_sub (by omega), Nat.cast_sub hn]; simp
          rw [this]
          apply Complex.ext
          · simp
          · simp; ring
        · rw [nth_set_ne _ _ _ _ (by omega), h3 j (by omega) hj']
    · rintro k ⟨hl, h1, -, h3⟩
      rw [show max 0 (n / 2) = n / 2 by omega] at h3
      refine ext_nth (by simpa using hl) (fun j hj => ?_)
      rw [nth_map_range _ _ _ (by omega)]
      unfold c2cK
      split
      · next h => rw [h1 j h]; simp
      · next h => rw [h3 j (by omega) (by omega)]; push_cast; rfl

end Verif
