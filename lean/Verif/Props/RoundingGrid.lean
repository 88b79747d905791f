/-
Property C81: the grids in arithmetic with rounding.
-/
import Verif.Proof.RndGrid

namespace Verif.Props
open Res Spec

variable (R : Rounding) (hR : R.Nearest) [Libm (Rnd R)] (σ : ℝ) (hL : LibmError R σ)
include hR hL

/-- C81: in arithmetic with rounding the grid of `chebyshev(n)` has `n` points in `[-1, 1]`, is
symmetric about zero without any error, and its points differ from `-cos(π j/(n-1))` by at most
`γ₃ π/2 + σ`, where `σ` is the error of the library's sine. -/
theorem C81_chebyshev (n : ℕ) (hN : R.Integers (2 * n)) (h3 : 3 * R.u < 1) (b : Cheb)
    (hb : Cheb.new n = ok b) :
    ∃ x, b.coords (Rnd R) = ok x ∧ x.length = b.lenPhys ∧
      (∀ j < n, |(nth x j).val - -Real.cos (Real.pi * j / (n - 1 : ℕ))| ≤ R.γ 3 * (Real.pi / 2) + σ) ∧
      (∀ j < n, |(nth x j).val| ≤ 1) ∧ ∀ j < n, (nth x (n - 1 - j)).val = -(nth x j).val := by
  obtain ⟨rfl, h2⟩ := cheb_of_new hb
  obtain ⟨x, hx, hl, h⟩ := chebNodes_near hR hL h2 hN h3
  simp only [sub_neg_eq_add]
  exact ⟨x, hx, hl, h⟩

/-- C81: the grid of `fourier_c2c(n)` has `n` or `n + 1` points, which differ from `2πj/n` by at most
`γ₄ 2πj/n`. -/
theorem C81_fourier_c2c (n : ℕ) (hn : 1 ≤ n) (hN : R.Integers (n + 1)) (h2 : R.γ 2 * n < 1)
    (h4 : 4 * R.u < 1) (b : C2c) (hb : C2c.new n = ok b) :
    ∃ x, b.coords (Rnd R) = ok x ∧ b.lenPhys ≤ x.length ∧ x.length ≤ b.lenPhys + 1 ∧
      ∀ j < x.length, |(nth x j).val - 2 * Real.pi * j / n| ≤ R.γ 4 * (2 * Real.pi * j / n) := by
  obtain rfl := c2c_of_new hb
  exact fourierNodes_near hR hL hn hN h2 h4

/-- C81: the grid of `fourier_r2c(n)` has `n` or `n + 1` points, which differ from `2πj/n` by at most
`γ₄ 2πj/n`. -/
theorem C81_fourier_r2c (n : ℕ) (hn : 1 ≤ n) (hN : R.Integers (n + 1)) (h2 : R.γ 2 * n < 1)
    (h4 : 4 * R.u < 1) (b : R2c) (hb : R2c.new n = ok b) :
    ∃ x, b.coords (Rnd R) = ok x ∧ b.lenPhys ≤ x.length ∧ x.length ≤ b.lenPhys + 1 ∧
      ∀ j < x.length, |(nth x j).val - 2 * Real.pi * j / n| ≤ R.γ 4 * (2 * Real.pi * j / n) := by
  obtain rfl := r2c_of_new hb
  exact fourierNodes_near hR hL hn hN h2 h4

omit [Libm (Rnd R)] hR hL in
/-- C81: with any number of binary digits, if `n` is a power of two the Fourier grids have exactly `n`
points. -/
theorem C81_fourier_powers (q t : ℕ) [Libm (Rnd (binary q))] (hL : LibmError (binary q) σ) (b : R2c)
    (hb : R2c.new (2 ^ t) = ok b) (c : C2c) (hc : C2c.new (2 ^ t) = ok c) :
    (∃ x, b.coords (Rnd (binary q)) = ok x ∧ x.length = b.lenPhys) ∧
      ∃ x, c.coords (Rnd (binary q)) = ok x ∧ x.length = c.lenPhys := by
  obtain rfl := r2c_of_new hb
  obtain rfl := c2c_of_new hc
  exact ⟨fourierNodes_pow q t hL, fourierNodes_pow q t hL⟩

omit [Libm (Rnd R)] hR hL in
/-- C81: in `f64` the grid of the Fourier bases of the sizes `61 · 2ᵗ` has one point more than the base:
`2π/(2π/n)` is rounded to a number greater than `n`. -/
theorem C81_fourier_extra_point [Libm (Rnd f64)] (hL : LibmError f64 σ) (t : ℕ) (ht : t ≤ 47) (b : R2c)
    (hb : R2c.new (61 * 2 ^ t) = ok b) (c : C2c) (hc : C2c.new (61 * 2 ^ t) = ok c) :
    (∃ x, b.coords (Rnd f64) = ok x ∧ b.lenPhys = 61 * 2 ^ t ∧ x.length = 61 * 2 ^ t + 1) ∧
      ∃ x, c.coords (Rnd f64) = ok x ∧ c.lenPhys = 61 * 2 ^ t ∧ x.length = 61 * 2 ^ t + 1 := by
  obtain rfl := r2c_of_new hb
  obtain rfl := c2c_of_new hc
  obtain ⟨x, hx, hl⟩ := fourierNodes_61 hL ht
  exact ⟨⟨x, hx, rfl, hl⟩, x, hx, rfl, hl⟩

omit [Libm (Rnd R)] hR hL in
/-- C81: for these sizes the first example of the documentation, sampling a function on the grid and
transforming the samples, panics. -/
theorem C81_fourier_samples_panic [Libm (Rnd f64)] (hL : LibmError f64 σ) (t : ℕ) (ht : t ≤ 47) {C : Type}
    [Cplx (Rnd f64) C] [HasFft (Rnd f64) C] [Zero C] (b : R2c)
    (hb : R2c.new (61 * 2 ^ t) = ok b) (c : C2c) (hc : C2c.new (61 * 2 ^ t) = ok c) :
    (∃ x, b.coords (Rnd f64) = ok x ∧
      ∀ (f : Rnd f64 → Rnd f64) (out : List C), b.forwardSlice (x.map f) out = err .panic) ∧
      ∃ x, c.coords (Rnd f64) = ok x ∧
        ∀ (f : Rnd f64 → C) (out : List C), c.forwardSlice (A := Rnd f64) (x.map f) out = err .panic := by
  obtain ⟨⟨x, hx, h1, h2⟩, y, hy, h3, h4⟩ := C81_fourier_extra_point σ hL t ht b hb c hc
  refine ⟨⟨x, hx, fun f out => ?_⟩, y, hy, fun f out => ?_⟩
  · unfold R2c.forwardSlice
    rw [assertR, if_neg (by rw [List.length_map, h2, h1]; omega)]; rfl
  · unfold C2c.forwardSlice
    rw [assertR, if_neg (by rw [List.length_map, h4, h3]; omega)]; rfl

omit [Libm (Rnd R)] hL in
/-- The hypotheses: a correctly rounded library, and `f64` with up to `2⁴⁸` points. -/
example : @LibmError R (exactLibm R) R.u := exactLibm_error hR

omit R hR [Libm (Rnd R)] σ hL in
example (n : ℕ) (hn : n ≤ 2 ^ 48) : f64.Nearest ∧ f64.Integers (2 * n) ∧ 4 * f64.u < 1 ∧ f64.γ 2 * n < 1 := by
  refine ⟨binary_nearest 52, fun k hk => binary_integers 52 k (by omega), ?_, ?_⟩
  · show 4 * (2⁻¹ : ℝ) ^ 53 < 1; norm_num
  · have h : (n : ℝ) ≤ 2 ^ 48 := by exact_mod_cast hn
    show ((2 : ℕ) * (2⁻¹ : ℝ) ^ 53) / (1 - (2 : ℕ) * (2⁻¹ : ℝ) ^ 53) * n < 1
    refine lt_of_le_of_lt (mul_le_mul_of_nonneg_left h (by norm_num)) (by norm_num)

end Verif.Props
