/-
Fourier series: termwise derivatives, and aliasing on the grid `2 π j / n`.
-/
import Verif.Spec.Aliasing
import Verif.Props.Calculus
import Verif.Proof.ChebSeries
import Mathlib.Analysis.SpecialFunctions.Trigonometric.Deriv

namespace Verif
open Res Spec Finset

/-! ### Derivatives -/

/-- A chain of derivatives. -/
theorem iteratedDeriv_of_chain {F : ℕ → ℝ → ℝ} {D : ℕ}
    (h : ∀ d < D, ∀ x, HasDerivAt (F d) (F (d + 1) x) x) : iteratedDeriv D (F 0) = F D := by
  induction D with
  | zero => rw [iteratedDeriv_zero]
  | succ D ih =>
    rw [iteratedDeriv_succ, ih (fun d hd => h d (by omega))]
    exact funext (fun x => (h D (by omega) x).deriv)

/-- The `d`-th derivative of `A cos(k x) + B sin(k x)`. -/
noncomputable def tterm (A B : ℝ) (k d : ℕ) (x : ℝ) : ℝ :=
  (k : ℝ) ^ d * (A * Real.cos (k * x + d * (Real.pi / 2)) + B * Real.sin (k * x + d * (Real.pi / 2)))

theorem tterm_zero (A B : ℝ) (k : ℕ) (x : ℝ) :
    tterm A B k 0 x = A * Real.cos (k * x) + B * Real.sin (k * x) := by simp [tterm]

theorem tterm_deriv (A B : ℝ) (k d : ℕ) (x : ℝ) :
    HasDerivAt (tterm A B k d) (tterm A B k (d + 1) x) x := by
  have h1 : HasDerivAt (fun y : ℝ => (k : ℝ) * y + d * (Real.pi / 2)) k x := by
    simpa using ((hasDerivAt_id x).const_mul (k : ℝ)).add_const (d * (Real.pi / 2))
  have h2 := (((h1.cos).const_mul A).add ((h1.sin).const_mul B)).const_mul ((k : ℝ) ^ d)
  refine h2.congr_deriv ?_
  unfold tterm
  push_cast
  rw [show (k : ℝ) * x + (d + 1) * (Real.pi / 2) = (k * x + d * (Real.pi / 2)) + Real.pi / 2 by ring,
    Real.cos_add_pi_div_two, Real.sin_add_pi_div_two]
  ring

theorem tterm_abs (A B : ℝ) (k d : ℕ) (x : ℝ) :
    |tterm A B k d x| ≤ (k : ℝ) ^ d * (|A| + |B|) := by
  unfold tterm
  rw [abs_mul, abs_of_nonneg (show (0 : ℝ) ≤ (k : ℝ) ^ d by positivity)]
  refine mul_le_mul_of_nonneg_left ((abs_add_le _ _).trans (add_le_add ?_ ?_)) (by positivity)
  · rw [abs_mul]
    exact mul_le_of_le_one_right (abs_nonneg _) (Real.abs_cos_le_one _)
  · rw [abs_mul]
    exact mul_le_of_le_one_right (abs_nonneg _) (Real.abs_sin_le_one _)

theorem tterm_lin (A B : ℝ) (k d : ℕ) (x : ℝ) :
    tterm A B k d x = tterm 1 0 k d x * A + tterm 0 1 k d x * B := by
  unfold tterm; ring

theorem summable_of_pow' {a : ℕ → ℝ} (ha : ∀ k, 0 ≤ a k) {d e : ℕ}
    (h : Summable (fun k : ℕ => (k : ℝ) ^ d * a k)) (hed : e ≤ d) :
    Summable (fun k : ℕ => (k : ℝ) ^ e * a k) := by
  refine (summable_nat_add_iff 1).mp (Summable.of_nonneg_of_le (fun k => ?_) (fun k => ?_)
    ((summable_nat_add_iff 1).mpr h))
  · exact mul_nonneg (by positivity) (ha _)
  · refine mul_le_mul_of_nonneg_right (pow_le_pow_right₀ ?_ hed) (ha _)
    exact_mod_cast Nat.succ_le_succ (Nat.zero_le k)

/-- The derivatives of an absolutely convergent Fourier series. -/
theorem iteratedDeriv_fourSeries {A B : ℕ → ℝ} {d : ℕ}
    (h : Summable (fun k : ℕ => (k : ℝ) ^ d * (|A k| + |B k|))) {f : ℝ → ℝ}
    (hf : ∀ x, HasSum (fun k : ℕ => A k * Real.cos (k * x) + B k * Real.sin (k * x)) (f x)) (x : ℝ) :
    HasSum (fun k => tterm (A k) (B k) k d x) (iteratedDeriv d f x) := by
  have hpos : ∀ k, 0 ≤ |A k| + |B k| := fun k => by positivity
  have hsum : ∀ e ≤ d, ∀ y, Summable (fun k => tterm (A k) (B k) k e y) := fun e he y =>
    Summable.of_norm_bounded (summable_of_pow' hpos h he) (fun k => tterm_abs _ _ _ _ _)
  have hF := iteratedDeriv_of_chain (F := fun e y => ∑' k, tterm (A k) (B k) k e y) (D := d)
    (fun e he y => hasDerivAt_tsum (summable_of_pow' hpos h (show e + 1 ≤ d by omega))
      (fun k y => tterm_deriv _ _ _ _ _) (fun k y => tterm_abs _ _ _ _ _) (hsum e (by omega) 0) y)
  have hf0 : f = fun y => ∑' k, tterm (A k) (B k) k 0 y := funext (fun y => by
    simp only [tterm_zero]; exact (hf y).tsum_eq.symm)
  rw [hf0, hF]
  exact (hsum d le_rfl x).hasSum

/-- The derivatives of a trigonometric polynomial. -/
theorem iteratedDeriv_trigPoly (M : ℕ) (A B : ℕ → ℝ) (d : ℕ) :
    iteratedDeriv d (Props.trigPoly M A B)
      = fun x => ∑ m ∈ range (M + 1), tterm (A m) (B m) m d x := by
  have hF := iteratedDeriv_of_chain (F := fun e y => ∑ m ∈ range (M + 1), tterm (A m) (B m) m e y) (D := d)
    (fun e he y => HasDerivAt.fun_sum (fun m _ => tterm_deriv _ _ _ _ _))
  rw [← hF]
  congr 1
  funext x
  simp only [tterm_zero]
  rfl

/-! ### Aliasing -/

theorem cosAlias_le {n : ℕ} (hn : 1 ≤ n) (k : ℕ) : cosAlias n k ≤ n / 2 := by
  unfold cosAlias
  have := Nat.mod_lt k hn
  omega

theorem cosAlias_of_lt {n k : ℕ} (hk : 2 * k < n) : cosAlias n k = k := by
  unfold cosAlias
  rw [Nat.mod_eq_of_lt (by omega)]
  omega

theorem cosAlias_le_self {n : ℕ} (k : ℕ) : cosAlias n k ≤ k := by
  unfold cosAlias
  exact (min_le_left _ _).trans (Nat.mod_le _ _)

theorem sinSign_of_lt {n k : ℕ} (hk : 2 * k < n) (h0 : k ≠ 0) : sinSign n k = 1 := by
  unfold sinSign
  rw [Nat.mod_eq_of_lt (by omega), if_neg (by omega), if_pos hk]

theorem sinSign_abs (n k : ℕ) : |((sinSign n k : ℤ) : ℝ)| ≤ 1 := by
  unfold sinSign
  split
  · simp
  · split <;> simp

theorem sinSign_eq_zero {n : ℕ} {k : ℕ}
    (h : cosAlias n k = 0 ∨ 2 * cosAlias n k = n) (hn : 1 ≤ n) : sinSign n k = 0 := by
  have := Nat.mod_lt k hn
  unfold sinSign
  unfold cosAlias at h
  rw [if_pos (by omega)]

private theorem mod_grid {n : ℕ} (hn : 1 ≤ n) (k j : ℕ) :
    (k : ℝ) * (2 * Real.pi * j / n)
      = (k % n : ℕ) * (2 * Real.pi * j / n) + (((k / n * j : ℕ) : ℕ) : ℝ) * (2 * Real.pi) := by
  have hn' : (n : ℝ) ≠ 0 := by exact_mod_cast (by omega : n ≠ 0)
  have hk : (k : ℝ) = n * ((k / n : ℕ) : ℝ) + ((k % n : ℕ) : ℝ) := by
    exact_mod_cast (Nat.div_add_mod k n).symm
  rw [hk]
  have h1 : (n * (k / n) + k % n) % n = k % n := by rw [Nat.div_add_mod]
  push_cast
  field_simp
  ring

theorem cos_cosAlias {n : ℕ} (hn : 1 ≤ n) (k j : ℕ) :
    Real.cos (cosAlias n k * (2 * Real.pi * j / n)) = Real.cos (k * (2 * Real.pi * j / n)) := by
  have hn' : (n : ℝ) ≠ 0 := by exact_mod_cast (by omega : n ≠ 0)
  rw [mod_grid hn k j, Real.cos_add_nat_mul_two_pi]
  unfold cosAlias
  have hr := Nat.mod_lt k hn
  rcases le_total (k % n) (n - k % n) with h | h
  · rw [min_eq_left h]
  · rw [min_eq_right h, Nat.cast_sub hr.le,
      show ((n : ℝ) - (k % n : ℕ)) * (2 * Real.pi * j / n)
        = j * (2 * Real.pi) - (k % n : ℕ) * (2 * Real.pi * j / n) by field_simp]
    exact Real.cos_nat_mul_two_pi_sub _ _

theorem sin_cosAlias {n : ℕ} (hn : 1 ≤ n) (k j : ℕ) :
    sinSign n k * Real.sin (cosAlias n k * (2 * Real.pi * j / n))
      = Real.sin (k * (2 * Real.pi * j / n)) := by
  have hn' : (n : ℝ) ≠ 0 := by exact_mod_cast (by omega : n ≠ 0)
  rw [mod_grid hn k j, Real.sin_add_nat_mul_two_pi]
  have hr := Nat.mod_lt k hn
  unfold sinSign
  by_cases h0 : k % n = 0 ∨ 2 * (k % n) = n
  · rw [if_pos h0]
    rcases h0 with h0 | h0
    · simp [h0]
    · have h1 : ((k % n : ℕ) : ℝ) = n / 2 := by
        have : (2 * (k % n : ℕ) : ℝ) = n := by exact_mod_cast h0
        linarith
      rw [h1, show (n : ℝ) / 2 * (2 * Real.pi * j / n) = j * Real.pi by field_simp, Real.sin_nat_mul_pi]
      simp
  · rw [if_neg h0]
    unfold cosAlias
    by_cases h : 2 * (k % n) < n
    · rw [if_pos h, min_eq_left (by omega)]
      simp
    · rw [if_neg h, min_eq_right (by omega), Nat.cast_sub hr.le,
      show ((n : ℝ) - (k % n : ℕ)) * (2 * Real.pi * j / n)
        = j * (2 * Real.pi) - (k % n : ℕ) * (2 * Real.pi * j / n) by field_simp,
        Real.sin_nat_mul_two_pi_sub]
      simp

/-- Trigonometric polynomials and coefficients, up to and including the Nyquist frequency. -/
theorem trigR_eq_trigPoly (n : ℕ) (hn : 1 ≤ n) (A B : ℕ → ℝ) (h0 : B 0 = 0) (hN : 2 * (n / 2) = n → B (n / 2) = 0)
    (c : List ℂ) (hc : ∀ m ≤ n / 2, nth c m
      = ⟨n / (if m = 0 ∨ 2 * m = n then 1 else 2) * A m,
          -(n / (if m = 0 ∨ 2 * m = n then 1 else 2) * B m)⟩) :
    trigR n c = Props.trigPoly (n / 2) A B := by
  have hn' : (n : ℝ) ≠ 0 := by exact_mod_cast (by omega : n ≠ 0)
  funext x
  unfold trigR Props.trigPoly
  rw [Finset.mul_sum]
  refine Finset.sum_congr rfl (fun m hm => ?_)
  have hm' : m ≤ n / 2 := by have := mem_range.mp hm; omega
  have he : (Complex.exp (Complex.I * m * x)) = ⟨Real.cos (m * x), Real.sin (m * x)⟩ := by
    rw [show Complex.I * m * x = ((m * x : ℝ) : ℂ) * Complex.I by push_cast; ring]
    exact Complex.ext (Complex.exp_ofReal_mul_I_re _) (Complex.exp_ofReal_mul_I_im _)
  rw [he, Complex.mul_re, hc m hm']
  split
  · field_simp
    ring
  · field_simp
    ring

/-- Interpolation of a function that agrees on the grid with the trigonometric polynomial of
coefficients `c`. -/
theorem r2c_forward_of_grid {n : ℕ} (hn : 1 ≤ n) {b : R2c} (hb : R2c.new n = ok b) {x : List ℝ}
    (hx : b.coords = ok x) (f : ℝ → ℝ) (c out : List ℂ) (hc : c.length = b.lenSpec)
    (ho : out.length = b.lenSpec) (h0 : (nth c 0).im = 0) (hN : n % 2 = 0 → (nth c (n / 2)).im = 0)
    (h : ∀ j < n, trigR n c (nth x j) = f (nth x j)) :
    b.forwardSlice (x.map f) out = ok c := by
  obtain ⟨x2, hx2, hx2l, -⟩ := Props.C23_r2c_coords n hn b hb
  obtain rfl : x = x2 := by rw [hx] at hx2; exact Res.ok.inj hx2
  have hlp : x.length = b.lenPhys := by rw [Props.r2c_of_new hb]; exact hx2l
  obtain ⟨v, hv, -, hvf⟩ := Props.C28_forward_backward n hn b hb c out x hc hlp ho h0 hN
  obtain ⟨x', v', hx', hv', hl', he'⟩ := Props.C28_backward_evaluates n hn b hb c x hc hlp
  obtain rfl : x = x' := by rw [hx] at hx'; exact Res.ok.inj hx'
  obtain rfl : v = v' := by rw [hv] at hv'; exact Res.ok.inj hv'
  have : v = x.map f := ext_nth (by simpa using hl') (fun j hj => by
    rw [he' j (by omega), nth_map _ _ _ (by omega), h j (by omega)])
  rw [← this]
  exact hvf

/-! ### Complex series -/

theorem fourierAlias_lt {n : ℕ} (hn : 1 ≤ n) (K : ℤ) : fourierAlias n K < n := by
  unfold fourierAlias
  have h1 := Int.emod_nonneg K (show (n : ℤ) ≠ 0 by omega)
  have h2 := Int.emod_lt_of_pos K (show (0 : ℤ) < n by omega)
  omega

theorem freq_fourierAlias {n : ℕ} (hn : 1 ≤ n) (K : ℤ) : ∃ q : ℤ, freq n (fourierAlias n K) = K + n * q := by
  have h1 := Int.emod_nonneg K (show (n : ℤ) ≠ 0 by omega)
  have h2 := Int.mul_ediv_add_emod K n
  have h3 : ((fourierAlias n K : ℕ) : ℤ) = K % n := by unfold fourierAlias; omega
  unfold freq
  rw [h3]
  split
  · exact ⟨-(K / n), by linarith⟩
  · exact ⟨-(K / n) - 1, by linarith⟩

theorem freq_fourierAlias_of {n : ℕ} {K : ℤ} (h1 : -n ≤ 2 * K) (h2 : 2 * K < n) :
    freq n (fourierAlias n K) = K := by
  have hn : 1 ≤ n := by omega
  have h3 := Int.emod_nonneg K (show (n : ℤ) ≠ 0 by omega)
  have h4 := Int.emod_lt_of_pos K (show (0 : ℤ) < n by omega)
  unfold freq fourierAlias
  rcases le_or_gt 0 K with hK | hK
  · rw [Int.emod_eq_of_lt hK (by omega)]
    split <;> omega
  · have : K % n = K + n := by
      rw [← Int.add_emod_right, Int.emod_eq_of_lt (by omega) (by omega)]
    rw [this]
    split <;> omega

theorem exp_fourierAlias {n : ℕ} (hn : 1 ≤ n) (K : ℤ) (j : ℕ) :
    Complex.exp (Complex.I * freq n (fourierAlias n K) * ((2 * Real.pi * j / n : ℝ) : ℂ))
      = Complex.exp (Complex.I * K * ((2 * Real.pi * j / n : ℝ) : ℂ)) := by
  have hn' : (n : ℂ) ≠ 0 := by exact_mod_cast (by omega : n ≠ 0)
  obtain ⟨q, hq⟩ := freq_fourierAlias hn K
  rw [hq, Complex.exp_eq_exp_iff_exists_int]
  refine ⟨q * j, ?_⟩
  push_cast
  field_simp

theorem c2c_forward_of_grid {n : ℕ} (hn : 1 ≤ n) {b : C2c} (hb : C2c.new n = ok b) {x : List ℝ}
    (hx : b.coords = ok x) (f : ℝ → ℂ) (c out : List ℂ) (hc : c.length = b.lenSpec)
    (ho : out.length = b.lenSpec) (h : ∀ j < n, trigC n c (nth x j) = f (nth x j)) :
    b.forwardSlice (x.map f) out = ok c := by
  obtain ⟨x2, hx2, hx2l, -⟩ := Props.C23_c2c_coords n hn b hb
  obtain rfl : x = x2 := by rw [hx] at hx2; exact Res.ok.inj hx2
  have hlp : out.length = b.lenPhys := by rw [ho, Props.c2c_of_new hb]; rfl
  obtain ⟨v, hv, -, hvf⟩ := Props.C24_forward_backward n hn b hb c out out hc hlp ho
  obtain ⟨x', v', hx', hv', hl', he'⟩ := Props.C25_backward_evaluates n hn b hb c out hc hlp
  obtain rfl : x = x' := by rw [hx] at hx'; exact Res.ok.inj hx'
  obtain rfl : v = v' := by rw [hv] at hv'; exact Res.ok.inj hv'
  have : v = x.map f := ext_nth (by simpa using hl') (fun j hj => by
    rw [he' j (by omega), nth_map _ _ _ (by omega), h j (by omega)])
  rw [← this]
  exact hvf

end Verif
