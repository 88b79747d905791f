/- Rounding errors: factors `θ` gathered by successive roundings. -/
import Verif.Spec.Rounding
import Mathlib.Algebra.Order.Ring.Pow
import Mathlib.Tactic.Linarith
import Mathlib.Tactic.Positivity
import Mathlib.Tactic.FieldSimp
import Mathlib.Tactic.Ring

namespace Verif.Spec
open Res

/-- `θ` is a product of `k` factors `1 + δ` or `(1 + δ)⁻¹` with `|δ| ≤ u` (bounds on it). -/
structure Fac (u : ℝ) (k : ℕ) (θ : ℝ) : Prop where
  lo : (1 - u) ^ k ≤ θ
  hi : θ * (1 - u) ^ k ≤ 1

namespace Fac
variable {u : ℝ} {j k : ℕ} {θ φ : ℝ}

theorem pos (hu : u < 1) (h : Fac u k θ) : 0 < θ := lt_of_lt_of_le (pow_pos (by linarith) k) h.lo

theorem one : Fac u 0 1 := ⟨by simp, by simp⟩

theorem mul (hu : u < 1) (h : Fac u j θ) (h' : Fac u k φ) : Fac u (j + k) (θ * φ) := by
  have p1 : 0 < (1 - u) ^ j := pow_pos (by linarith) j
  have p2 : 0 < (1 - u) ^ k := pow_pos (by linarith) k
  refine ⟨?_, ?_⟩
  · rw [pow_add]; exact mul_le_mul h.lo h'.lo p2.le (h.pos hu).le
  · calc θ * φ * (1 - u) ^ (j + k) = (θ * (1 - u) ^ j) * (φ * (1 - u) ^ k) := by rw [pow_add]; ring
      _ ≤ 1 * 1 := mul_le_mul h.hi h'.hi (mul_nonneg (h'.pos hu).le p2.le) zero_le_one
      _ = 1 := one_mul 1

theorem inv (hu : u < 1) (h : Fac u k θ) : Fac u k θ⁻¹ := by
  have p := h.pos hu
  refine ⟨?_, ?_⟩
  · rw [le_inv_comm₀ (pow_pos (by linarith) k) p, ← one_div, le_div_iff₀ (pow_pos (by linarith) k)]
    exact h.hi
  · rw [inv_mul_le_iff₀ p, mul_one]; exact h.lo

theorem mono (h0 : 0 ≤ u) (hu : u < 1) (h : Fac u k θ) (hk : k ≤ j) : Fac u j θ := by
  have e : (1 - u) ^ j ≤ (1 - u) ^ k := pow_le_pow_of_le_one (by linarith) (by linarith) hk
  refine ⟨e.trans h.lo, (mul_le_mul_of_nonneg_left e (h.pos hu).le).trans h.hi⟩

theorem of_err (hu : u < 1) {δ : ℝ} (h : |δ| ≤ u) : Fac u 1 (1 + δ) := by
  obtain ⟨h1, h2⟩ := abs_le.mp h
  refine ⟨by rw [pow_one]; linarith, ?_⟩
  rw [pow_one]
  nlinarith [sq_nonneg u, mul_nonneg (sub_nonneg.mpr h2) (by linarith : (0:ℝ) ≤ 1 - u)]

/-- The distance of a factor to `1`. -/
theorem dist (h0 : 0 ≤ u) (h : Fac u k θ) (hk : k * u < 1) : |θ - 1| ≤ k * u / (1 - k * u) := by
  have hk0 : (0:ℝ) ≤ k * u := mul_nonneg (Nat.cast_nonneg k) h0
  rcases Nat.eq_zero_or_pos k with rfl | hkp
  · have : θ = 1 := le_antisymm (by simpa using h.hi) (by simpa using h.lo)
    simp [this]
  have hu : u < 1 := lt_of_le_of_lt (by
    have : (1:ℝ) ≤ k := by exact_mod_cast hkp
    nlinarith) hk
  have b : 1 - k * u ≤ (1 - u) ^ k := by
    have := one_add_mul_le_pow (a := -u) (by linarith) k
    have e : 1 + -u = 1 - u := by ring
    rw [e] at this
    linarith
  have hd : 0 < 1 - k * u := by linarith
  have p := h.pos hu
  rw [le_div_iff₀ hd]
  rcases abs_cases (θ - 1) with ⟨e, _⟩ | ⟨e, _⟩ <;> rw [e]
  · have : θ * (1 - k * u) ≤ 1 := (mul_le_mul_of_nonneg_left b p.le).trans h.hi
    linarith
  · have : 1 - θ ≤ k * u := by linarith [h.lo]
    nlinarith

end Fac

namespace Rounding
variable (R : Rounding)

theorem u_nonneg : 0 ≤ R.u := by
  have := (abs_nonneg _).trans (R.err 1)
  simpa using this

theorem fl_zero : R.fl 0 = 0 := by
  have := R.err 0
  simp only [abs_zero, mul_zero, sub_zero] at this
  exact abs_eq_zero.mp (le_antisymm this (abs_nonneg _))

theorem fl_fac (hu : R.u < 1) (x : ℝ) : ∃ θ, Fac R.u 1 θ ∧ R.fl x = x * θ := by
  by_cases hx : x = 0
  · refine ⟨1, Fac.one.mono R.u_nonneg hu (by omega), ?_⟩
    rw [hx, R.fl_zero, zero_mul]
  · refine ⟨1 + (R.fl x - x) / x, Fac.of_err hu ?_, by field_simp; ring⟩
    rw [abs_div, div_le_iff₀ (abs_pos.mpr hx)]
    exact R.err x

theorem fl_ne_zero (hu : R.u < 1) {x : ℝ} (hx : x ≠ 0) : R.fl x ≠ 0 := by
  obtain ⟨θ, h, e⟩ := R.fl_fac hu x
  rw [e]
  exact mul_ne_zero hx (h.pos hu).ne'

theorem abs_fl_le (x : ℝ) : |R.fl x| ≤ (1 + R.u) * |x| := by
  have := R.err x
  have h := abs_add_le (R.fl x - x) x
  rw [sub_add_cancel] at h
  linarith

theorem γ_nonneg {k : ℕ} (hk : k * R.u < 1) : 0 ≤ R.γ k :=
  div_nonneg (mul_nonneg (Nat.cast_nonneg k) R.u_nonneg) (by linarith)

theorem γ_mono {j k : ℕ} (hjk : j ≤ k) (hk : k * R.u < 1) : R.γ j ≤ R.γ k := by
  have h : (j:ℝ) * R.u ≤ k * R.u := mul_le_mul_of_nonneg_right (by exact_mod_cast hjk) R.u_nonneg
  exact div_le_div₀ (mul_nonneg (Nat.cast_nonneg k) R.u_nonneg) h (by linarith) (by linarith)

/-- `γⱼ + γₖ + γⱼ γₖ ≤ γⱼ₊ₖ` -/
theorem γ_add {j k : ℕ} (hk : ((j + k : ℕ) : ℝ) * R.u < 1) : R.γ j + R.γ k + R.γ j * R.γ k ≤ R.γ (j + k) := by
  have h0 := R.u_nonneg
  have hj0 : (0:ℝ) ≤ j * R.u := mul_nonneg (Nat.cast_nonneg j) h0
  have hk0 : (0:ℝ) ≤ k * R.u := mul_nonneg (Nat.cast_nonneg k) h0
  push_cast at hk
  rw [add_mul] at hk
  have h1 : (0:ℝ) < 1 - j * R.u := by linarith
  have h2 : (0:ℝ) < 1 - k * R.u := by linarith
  have h3 : (0:ℝ) < 1 - (j + k) * R.u := by linarith
  have e1 : 1 + R.γ j = 1 / (1 - j * R.u) := by rw [γ]; field_simp; ring
  have e2 : 1 + R.γ k = 1 / (1 - k * R.u) := by rw [γ]; field_simp; ring
  have e3 : 1 + R.γ (j + k) = 1 / (1 - (j + k) * R.u) := by rw [γ]; push_cast; field_simp; ring
  have h4 : (1 + R.γ j) * (1 + R.γ k) ≤ 1 + R.γ (j + k) := by
    rw [e1, e2, e3, div_mul_div_comm, one_mul]
    refine one_div_le_one_div_of_le h3 ?_
    nlinarith [mul_nonneg hj0 hk0]
  linarith [h4]

theorem fac_dist {k : ℕ} {θ : ℝ} (h : Fac R.u k θ) (hk : k * R.u < 1) : |θ - 1| ≤ R.γ k := h.dist R.u_nonneg hk

/-- The distance of two factors. -/
theorem fac_sub {j k : ℕ} {θ φ : ℝ} (h : Fac R.u j θ) (h' : Fac R.u k φ) (hk : ((j + k : ℕ) : ℝ) * R.u < 1) :
    |θ - φ| ≤ R.γ (j + k) := by
  have h0 := R.u_nonneg
  have hj : (j:ℝ) * R.u < 1 := lt_of_le_of_lt (mul_le_mul_of_nonneg_right (by simp) h0) hk
  have hk' : (k:ℝ) * R.u < 1 := lt_of_le_of_lt (mul_le_mul_of_nonneg_right (by simp) h0) hk
  have e : θ - φ = (θ - 1) - (φ - 1) := by ring
  rw [e]
  refine (abs_sub _ _).trans ?_
  have := R.γ_add hk
  have := mul_nonneg (R.γ_nonneg hj) (R.γ_nonneg hk')
  linarith [R.fac_dist h hj, R.fac_dist h' hk']

end Rounding

namespace Rnd
variable {R : Rounding} (a b : Rnd R)

@[simp] theorem val_zero : (0 : Rnd R).val = 0 := rfl
@[simp] theorem val_one : (1 : Rnd R).val = 1 := rfl
@[simp] theorem val_neg : (-a).val = -a.val := rfl
@[simp] theorem val_add : (a + b).val = R.fl (a.val + b.val) := rfl
@[simp] theorem val_sub : (a - b).val = R.fl (a.val - b.val) := rfl
@[simp] theorem val_mul : (a * b).val = R.fl (a.val * b.val) := rfl
@[simp] theorem val_smul : (a • b).val = R.fl (a.val * b.val) := rfl
@[simp] theorem val_div : (a / b).val = R.fl (a.val / b.val) := rfl
@[simp] theorem val_cast (k : ℕ) : (k : Rnd R).val = R.fl k := rfl
@[simp] theorem val_pow (k : ℕ) : (a ^ k).val = R.fl (a.val ^ k) := rfl

theorem div_ok {x a : Rnd R} (h : a.val ≠ 0) : divR x a = ok ⟨R.fl (x.val / a.val)⟩ := if_neg h

theorem div_eq {x a y : Rnd R} (h : divR x a = ok y) : a.val ≠ 0 ∧ y.val = R.fl (x.val / a.val) := by
  by_cases ha : a.val = 0
  · exact absurd ((if_pos ha : divR x a = _).symm.trans h) (by simp)
  · exact ⟨ha, congrArg Rnd.val (Res.ok.inj ((div_ok ha).symm.trans h)).symm⟩

theorem nth_vals (l : List (Rnd R)) (i : ℕ) : nth (vals l) i = (nth l i).val := by
  by_cases h : i < l.length
  · exact nth_map Rnd.val l i h
  · rw [nth_of_le _ _ (by simpa [vals] using h), nth_of_le _ _ (by simpa using h)]; rfl

end Rnd
end Verif.Spec
