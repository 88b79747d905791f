/-
The algebra of real trigonometric polynomials.
-/
import Verif.Proof.FourSeries
import Verif.Proof.Fourier

namespace Verif
open Finset Real

/-- the trigonometric polynomials of degree at most `M` -/
noncomputable def TS (M : ℕ) : Submodule ℝ (ℝ → ℝ) where
  carrier := {f | ∃ A B, f = Props.trigPoly M A B}
  add_mem' := by
    rintro _ _ ⟨A, B, rfl⟩ ⟨A', B', rfl⟩
    refine ⟨fun m => A m + A' m, fun m => B m + B' m, funext fun x => ?_⟩
    simp only [Pi.add_apply, Props.trigPoly]
    rw [← Finset.sum_add_distrib]
    exact Finset.sum_congr rfl fun m _ => by ring
  zero_mem' := ⟨fun _ => 0, fun _ => 0, funext fun x => by simp [Props.trigPoly]⟩
  smul_mem' := by
    rintro c _ ⟨A, B, rfl⟩
    refine ⟨fun m => c * A m, fun m => c * B m, funext fun x => ?_⟩
    simp only [Pi.smul_apply, smul_eq_mul, Props.trigPoly]
    rw [Finset.mul_sum]
    exact Finset.sum_congr rfl fun m _ => by ring

theorem mem_TS {M : ℕ} {f : ℝ → ℝ} : f ∈ TS M ↔ ∃ A B, f = Props.trigPoly M A B := Iff.rfl

theorem cos_mem_nat {M m : ℕ} (h : m ≤ M) : (fun x : ℝ => Real.cos (m * x)) ∈ TS M := by
  refine ⟨fun i => if i = m then 1 else 0, fun _ => 0, funext fun x => ?_⟩
  unfold Props.trigPoly
  rw [Finset.sum_eq_single_of_mem m (mem_range.mpr (by omega)) (fun i _ hi => by simp [hi])]
  simp

theorem sin_mem_nat {M m : ℕ} (h : m ≤ M) : (fun x : ℝ => Real.sin (m * x)) ∈ TS M := by
  refine ⟨fun _ => 0, fun i => if i = m then 1 else 0, funext fun x => ?_⟩
  unfold Props.trigPoly
  rw [Finset.sum_eq_single_of_mem m (mem_range.mpr (by omega)) (fun i _ hi => by simp [hi])]
  simp

theorem cos_mem {M : ℕ} {m : ℤ} (h : m.natAbs ≤ M) : (fun x : ℝ => Real.cos (m * x)) ∈ TS M := by
  obtain ⟨a, rfl | rfl⟩ := m.eq_nat_or_neg
  · exact_mod_cast cos_mem_nat (by simpa using h)
  · have := cos_mem_nat (M := M) (m := a) (by simpa using h)
    convert this using 2
    push_cast
    rw [neg_mul, Real.cos_neg]

theorem sin_mem {M : ℕ} {m : ℤ} (h : m.natAbs ≤ M) : (fun x : ℝ => Real.sin (m * x)) ∈ TS M := by
  obtain ⟨a, rfl | rfl⟩ := m.eq_nat_or_neg
  · exact_mod_cast sin_mem_nat (by simpa using h)
  · have := (TS M).neg_mem (sin_mem_nat (M := M) (m := a) (by simpa using h))
    convert this using 1
    funext x
    push_cast
    rw [neg_mul, Real.sin_neg]; rfl

private theorem term_mul {M N m k : ℕ} (hm : m ≤ M) (hk : k ≤ N) (a b c d : ℝ) :
    (fun x : ℝ => (a * Real.cos (m * x) + b * Real.sin (m * x)) * (c * Real.cos (k * x) + d * Real.sin (k * x)))
      ∈ TS (M + N) := by
  have h1 := cos_mem (M := M + N) (m := (m : ℤ) - k) (by omega)
  have h2 := cos_mem (M := M + N) (m := (m : ℤ) + k) (by omega)
  have h3 := sin_mem (M := M + N) (m := (m : ℤ) - k) (by omega)
  have h4 := sin_mem (M := M + N) (m := (m : ℤ) + k) (by omega)
  have := (TS (M + N)).add_mem ((TS (M + N)).add_mem ((TS (M + N)).smul_mem ((a * c + b * d) / 2) h1)
    ((TS (M + N)).smul_mem ((a * c - b * d) / 2) h2)) ((TS (M + N)).add_mem
    ((TS (M + N)).smul_mem ((b * c - a * d) / 2) h3) ((TS (M + N)).smul_mem ((b * c + a * d) / 2) h4))
  convert this using 1
  funext x
  simp only [Pi.add_apply, Pi.smul_apply, smul_eq_mul]
  push_cast
  rw [sub_mul, add_mul (m : ℝ), Real.cos_sub, Real.cos_add, Real.sin_sub, Real.sin_add]
  ring

theorem TS_mul {M N : ℕ} {f g : ℝ → ℝ} (hf : f ∈ TS M) (hg : g ∈ TS N) : (fun x => f x * g x) ∈ TS (M + N) := by
  obtain ⟨A, B, rfl⟩ := hf
  obtain ⟨A', B', rfl⟩ := hg
  have e : (fun x => Props.trigPoly M A B x * Props.trigPoly N A' B' x)
      = ∑ m ∈ range (M + 1), ∑ k ∈ range (N + 1), fun x : ℝ =>
        (A m * Real.cos (m * x) + B m * Real.sin (m * x)) * (A' k * Real.cos (k * x) + B' k * Real.sin (k * x)) := by
    funext x
    simp only [Finset.sum_apply]
    unfold Props.trigPoly
    rw [Finset.sum_mul_sum]
  rw [e]
  refine (TS (M + N)).sum_mem fun m hm => (TS (M + N)).sum_mem fun k hk => ?_
  rw [mem_range] at hm hk
  exact term_mul (by omega) (by omega) _ _ _ _

theorem TS_pow {M : ℕ} {f : ℝ → ℝ} (hf : f ∈ TS M) (p : ℕ) : (fun x => f x ^ p) ∈ TS (p * M) := by
  induction p with
  | zero =>
    have := cos_mem_nat (M := 0) (m := 0) le_rfl
    simpa using this
  | succ p ih =>
    have := TS_mul ih hf
    rw [show p * M + M = (p + 1) * M by ring] at this
    simpa [pow_succ] using this

theorem TS_smooth {M : ℕ} {f : ℝ → ℝ} (hf : f ∈ TS M) : ContDiff ℝ ⊤ f := by
  obtain ⟨A, B, rfl⟩ := hf
  unfold Props.trigPoly
  fun_prop

/-- the derivative of a trigonometric polynomial has mean zero on every grid with more points than its degree -/
theorem TS_sum_deriv {K n : ℕ} (hn : 1 ≤ n) (hK : K < n) {g : ℝ → ℝ} (hg : g ∈ TS K) :
    ∑ j ∈ range n, deriv g (2 * Real.pi * j / n) = 0 := by
  obtain ⟨A, B, rfl⟩ := hg
  rw [← iteratedDeriv_one, iteratedDeriv_trigPoly, Finset.sum_comm]
  refine Finset.sum_eq_zero fun m hm => ?_
  rw [mem_range] at hm
  rcases Nat.eq_zero_or_pos m with rfl | h0
  · simp [tterm]
  have e := exp_sum n hn (m : ℤ)
  rw [if_neg (by rw [Int.natCast_dvd_natCast]; exact fun h => absurd (Nat.le_of_dvd h0 h) (by omega))] at e
  have e2 : ∀ j : ℕ, Complex.exp (2 * Real.pi * Complex.I * ((m : ℤ) : ℂ) * j / n)
      = ⟨Real.cos (m * (2 * Real.pi * j / n)), Real.sin (m * (2 * Real.pi * j / n))⟩ := fun j => by
    rw [show 2 * Real.pi * Complex.I * ((m : ℤ) : ℂ) * j / n = ((m * (2 * Real.pi * j / n) : ℝ) : ℂ) * Complex.I by
      push_cast; ring]
    exact Complex.ext (Complex.exp_ofReal_mul_I_re _) (Complex.exp_ofReal_mul_I_im _)
  simp_rw [e2] at e
  have hc : ∑ j ∈ range n, Real.cos (m * (2 * Real.pi * j / n)) = 0 := by
    have := congrArg Complex.re e; rwa [Complex.re_sum] at this
  have hs : ∑ j ∈ range n, Real.sin (m * (2 * Real.pi * j / n)) = 0 := by
    have := congrArg Complex.im e; rwa [Complex.im_sum] at this
  have : ∀ j ∈ range n, tterm (A m) (B m) m 1 (2 * Real.pi * j / n)
      = (m * B m) * Real.cos (m * (2 * Real.pi * j / n)) - (m * A m) * Real.sin (m * (2 * Real.pi * j / n)) := fun j _ => by
    unfold tterm
    rw [Nat.cast_one, one_mul, Real.cos_add_pi_div_two, Real.sin_add_pi_div_two]
    ring
  rw [Finset.sum_congr rfl this, Finset.sum_sub_distrib, ← Finset.mul_sum, ← Finset.mul_sum, hc, hs]
  ring

end Verif
