/-
Specification: rounding to the nearest number with `q + 1` binary digits (`q = 52` for `f64`), exponents unbounded.
An instance of the roundings the theorems about rounding errors quantify over.
-/
import Verif.Spec.Rounding
import Mathlib.Data.Int.Log
import Mathlib.Tactic.Linarith
import Mathlib.Tactic.Positivity
import Mathlib.Tactic.FieldSimp
import Mathlib.Tactic.Ring

namespace Verif.Spec

noncomputable section

/-- The spacing of the numbers with `q + 1` binary digits near `x > 0`. -/
def ulp (q : ℕ) (x : ℝ) : ℝ := 2 ^ (Int.log 2 x - q)

/-- The nearest number with `q + 1` binary digits, for `x ≥ 0`. -/
def nearPos (q : ℕ) (x : ℝ) : ℝ := ulp q x * ⌊x / ulp q x + 1 / 2⌋

/-- The nearest number with `q + 1` binary digits. -/
def near (q : ℕ) (x : ℝ) : ℝ := if 0 ≤ x then nearPos q x else -nearPos q (-x)

variable {q : ℕ} {x y : ℝ}

theorem ulp_pos : 0 < ulp q x := zpow_pos (by norm_num) _

theorem two_log : (2:ℝ) ^ Int.log 2 x = ulp q x * 2 ^ q := by
  rw [ulp, zpow_sub₀ (by norm_num), zpow_natCast]; field_simp

theorem two_log_succ : (2:ℝ) ^ (Int.log 2 x + 1) = ulp q x * 2 ^ (q + 1) := by
  rw [zpow_add_one₀ (by norm_num), two_log (q := q), pow_succ]; ring

theorem log_le (hx : 0 < x) : ulp q x * 2 ^ q ≤ x := by
  rw [← two_log]
  exact_mod_cast Int.zpow_log_le_self (b := 2) (by norm_num) hx

theorem lt_log (hx : 0 < x) : x < ulp q x * 2 ^ (q + 1) := by
  rw [← two_log_succ]
  exact_mod_cast Int.lt_zpow_succ_log_self (b := 2) (by norm_num) x

theorem nearPos_ge (hx : 0 < x) : ulp q x * 2 ^ q ≤ nearPos q x := by
  unfold nearPos
  refine mul_le_mul_of_nonneg_left ?_ ulp_pos.le
  have : (2 ^ q : ℤ) ≤ ⌊x / ulp q x + 1 / 2⌋ := by
    rw [Int.le_floor]
    push_cast
    have : (2:ℝ) ^ q ≤ x / ulp q x := by rw [le_div_iff₀ ulp_pos, mul_comm]; exact log_le hx
    linarith
  exact_mod_cast this

theorem nearPos_le (hx : 0 < x) : nearPos q x ≤ ulp q x * 2 ^ (q + 1) := by
  unfold nearPos
  refine mul_le_mul_of_nonneg_left ?_ ulp_pos.le
  have : ⌊x / ulp q x + 1 / 2⌋ ≤ (2 ^ (q + 1) : ℤ) := by
    rw [← Int.lt_add_one_iff, Int.floor_lt]
    push_cast
    have : x / ulp q x < 2 ^ (q + 1) := by rw [div_lt_iff₀ ulp_pos, mul_comm]; exact lt_log hx
    linarith
  exact_mod_cast this

theorem nearPos_zero : nearPos q 0 = 0 := by
  have : ⌊(1 / 2 : ℝ)⌋ = 0 := by rw [Int.floor_eq_iff]; norm_num
  rw [nearPos, zero_div, zero_add, this]; simp

theorem nearPos_mono (hx : 0 ≤ x) (hxy : x ≤ y) : nearPos q x ≤ nearPos q y := by
  rcases hx.eq_or_lt with rfl | hx
  · rw [nearPos_zero]
    rcases hxy.eq_or_lt with rfl | hy
    · rw [nearPos_zero]
    · exact le_trans (mul_nonneg ulp_pos.le (by positivity)) (nearPos_ge hy)
  have hy : 0 < y := lt_of_lt_of_le hx hxy
  have hl : Int.log 2 x ≤ Int.log 2 y := Int.log_mono_right hx hxy
  rcases hl.eq_or_lt with e | e
  · have : ulp q x = ulp q y := by rw [ulp, ulp, e]
    unfold nearPos
    rw [this]
    refine mul_le_mul_of_nonneg_left ?_ ulp_pos.le
    have : ⌊x / ulp q y + 1 / 2⌋ ≤ ⌊y / ulp q y + 1 / 2⌋ :=
      Int.floor_le_floor (by have := div_le_div_of_nonneg_right hxy (ulp_pos (q := q) (x := y)).le; linarith)
    exact_mod_cast this
  · refine (nearPos_le hx).trans (le_trans ?_ (nearPos_ge hy))
    rw [← two_log_succ, ← two_log]
    exact zpow_le_zpow_right₀ (by norm_num) (by omega)

theorem nearPos_err (hx : 0 ≤ x) : |nearPos q x - x| ≤ (2⁻¹ : ℝ) ^ (q + 1) * x := by
  rcases hx.eq_or_lt with rfl | hx
  · simp [nearPos_zero]
  have h1 := Int.floor_le (x / ulp q x + 1 / 2)
  have h2 := Int.lt_floor_add_one (x / ulp q x + 1 / 2)
  have hu := ulp_pos (q := q) (x := x)
  have e : nearPos q x - x = ulp q x * (⌊x / ulp q x + 1 / 2⌋ - x / ulp q x) := by
    unfold nearPos; field_simp
  rw [e, abs_mul, abs_of_pos hu]
  have h3 : |(⌊x / ulp q x + 1 / 2⌋ : ℝ) - x / ulp q x| ≤ 1 / 2 := by rw [abs_le]; constructor <;> linarith
  have h4 : ulp q x * (1 / 2) ≤ (2⁻¹ : ℝ) ^ (q + 1) * x := by
    have := mul_le_mul_of_nonneg_left (log_le (q := q) hx) (by positivity : (0:ℝ) ≤ (2⁻¹) ^ (q + 1))
    refine le_trans (le_of_eq ?_) this
    rw [pow_succ, inv_pow]; field_simp
  exact (mul_le_mul_of_nonneg_left h3 hu.le).trans h4

theorem nearPos_of_multiple {k : ℤ} (h : x = ulp q x * k) : nearPos q x = x := by
  have hk : x / ulp q x = k := by rw [div_eq_iff ulp_pos.ne']; linarith
  have : ⌊(k : ℝ) + 1 / 2⌋ = k := by rw [Int.floor_eq_iff]; constructor <;> linarith
  rw [nearPos, hk, this]; exact h.symm

theorem nearPos_zpow (t : ℤ) : nearPos q (2 ^ t) = 2 ^ t := by
  refine nearPos_of_multiple (k := 2 ^ q) ?_
  have : Int.log 2 ((2:ℝ) ^ t) = t := by exact_mod_cast Int.log_zpow (R := ℝ) (b := 2) (by norm_num) t
  push_cast
  rw [← two_log, this]

theorem nearPos_idem (hx : 0 ≤ x) : nearPos q (nearPos q x) = nearPos q x := by
  rcases hx.eq_or_lt with rfl | hx
  · rw [nearPos_zero, nearPos_zero]
  rcases (nearPos_le (q := q) hx).eq_or_lt with e | e
  · rw [e, ← two_log_succ]; exact nearPos_zpow _
  · have hp : 0 < nearPos q x := lt_of_lt_of_le (mul_pos ulp_pos (by positivity)) (nearPos_ge hx)
    have hl : Int.log 2 (nearPos q x) = Int.log 2 x := by
      apply le_antisymm
      · have := (Int.lt_zpow_iff_log_lt (b := 2) (by norm_num) (x := Int.log 2 x + 1) hp).mp
          (by rw [← two_log_succ] at e; exact_mod_cast e)
        omega
      · exact (Int.zpow_le_iff_le_log (b := 2) (by norm_num) hp).mp
          (by have := nearPos_ge (q := q) hx; rw [← two_log] at this; exact_mod_cast this)
    have hu : ulp q (nearPos q x) = ulp q x := by rw [ulp, ulp, hl]
    exact nearPos_of_multiple (k := ⌊x / ulp q x + 1 / 2⌋) (by rw [hu]; rfl)

theorem near_neg : near q (-x) = -near q x := by
  unfold near
  rcases lt_trichotomy x 0 with h | rfl | h
  · rw [if_pos (by linarith), if_neg (by linarith), neg_neg]
  · simp [nearPos_zero]
  · rw [if_neg (by linarith), if_pos h.le, neg_neg]

/-- Rounding to the nearest number with `q + 1` binary digits; the unit roundoff is `2^-(q+1)`. -/
def binary (q : ℕ) : Rounding where
  fl := near q
  u := 2⁻¹ ^ (q + 1)
  err x := by
    by_cases h : 0 ≤ x
    · rw [near, if_pos h, abs_of_nonneg h]; exact nearPos_err h
    · have := nearPos_err (q := q) (x := -x) (by linarith)
      rw [near, if_neg h, abs_of_neg (lt_of_not_ge h)]
      rw [← abs_neg, show -(-nearPos q (-x) - x) = nearPos q (-x) - -x by ring]
      exact this

theorem binary_nearest (q : ℕ) : (binary q).Nearest where
  mono := by
    have pos : ∀ z : ℝ, 0 ≤ z → 0 ≤ nearPos q z := fun z hz => by
      have := nearPos_mono (q := q) le_rfl hz
      rwa [nearPos_zero] at this
    intro x y hxy
    show near q x ≤ near q y
    unfold near
    split <;> split
    · exact nearPos_mono ‹_› hxy
    · linarith
    · have := pos y ‹_›; have := pos (-x) (by linarith); linarith
    · have := nearPos_mono (q := q) (x := -y) (y := -x) (by linarith) (by linarith); linarith
  odd x := near_neg
  float x := by
    show near q (near q x) = near q x
    have key : ∀ z : ℝ, 0 ≤ z → near q (near q z) = near q z := by
      intro z hz
      have h0 : 0 ≤ nearPos q z := by
        have := nearPos_mono (q := q) le_rfl hz
        rwa [nearPos_zero] at this
      rw [near, near, if_pos hz, if_pos h0]; exact nearPos_idem hz
    by_cases h : 0 ≤ x
    · exact key x h
    · have := key (-x) (by linarith)
      rw [near_neg, near_neg, neg_inj] at this
      exact this
  one := by
    show near q 1 = 1
    rw [near, if_pos (by norm_num)]
    simpa using nearPos_zpow (q := q) 0
  two := by
    show near q 2 = 2
    rw [near, if_pos (by norm_num)]
    simpa using nearPos_zpow (q := q) 1

end
end Verif.Spec
