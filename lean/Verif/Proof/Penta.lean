/- LU recurrences of a pentadiagonal matrix with diagonals at 0, ±s, ±2s. -/
import Mathlib.Algebra.Module.Basic
import Mathlib.Algebra.Field.Basic
import Mathlib.Tactic.Module
import Mathlib.Tactic.Abel
import Mathlib.Tactic.Ring
import Mathlib.Tactic.IntervalCases
import Mathlib.Tactic.LinearCombination
import Mathlib.Tactic.FieldSimp

namespace Verif
variable {K T : Type} [Field K] [AddCommGroup T] [Module K T]

structure LU4 (K : Type) where
  ga : K
  mu : K
  al : K
  be : K

/-- factor entries of row `i` -/
def pLU (s : ℕ) (b c d e f : ℕ → K) (i : ℕ) : LU4 K :=
  if h : s = 0 ∨ i < s then
    ⟨0, d i, (d i)⁻¹ * e i, (d i)⁻¹ * f i⟩
  else if i < 2 * s then
    let p := pLU s b c d e f (i - s)
    let ga := c (i - s)
    let mu := d i - p.al * ga
    ⟨ga, mu, mu⁻¹ * (e i - p.be * ga), mu⁻¹ * f i⟩
  else
    let p := pLU s b c d e f (i - s)
    let q := pLU s b c d e f (i - 2 * s)
    let ga := c (i - s) - q.al * b (i - 2 * s)
    let mu := d i - q.be * b (i - 2 * s) - p.al * ga
    ⟨ga, mu, mu⁻¹ * (e i - p.be * ga), mu⁻¹ * f i⟩
termination_by i
decreasing_by all_goals omega

/-- forward-substituted right-hand side -/
def pZe (s : ℕ) (b c d e f : ℕ → K) (r : ℕ → T) (i : ℕ) : T :=
  if h : s = 0 ∨ i < s then (d i)⁻¹ • r i
  else if i < 2 * s then
    (pLU s b c d e f i).mu⁻¹ • (r i - (pLU s b c d e f i).ga • pZe s b c d e f r (i - s))
  else
    (pLU s b c d e f i).mu⁻¹ • (r i - b (i - 2 * s) • pZe s b c d e f r (i - 2 * s)
      - (pLU s b c d e f i).ga • pZe s b c d e f r (i - s))
termination_by i
decreasing_by all_goals omega

section
variable {s : ℕ} {b c d e f : ℕ → K} {r : ℕ → T}

theorem pLU_lo {i : ℕ} (h : i < s) :
    pLU s b c d e f i = ⟨0, d i, (d i)⁻¹ * e i, (d i)⁻¹ * f i⟩ := by
  rw [pLU, dif_pos (Or.inr h)]

theorem pLU_mid {i : ℕ} (hs : 0 < s) (h : i < s) :
    pLU s b c d e f (i + s) =
    ⟨c i, d (i + s) - (pLU s b c d e f i).al * c i,
      (d (i + s) - (pLU s b c d e f i).al * c i)⁻¹
        * (e (i + s) - (pLU s b c d e f i).be * c i),
      (d (i + s) - (pLU s b c d e f i).al * c i)⁻¹ * f (i + s)⟩ := by
  rw [pLU, dif_neg (by omega), if_pos (by omega)]
  simp only [Nat.add_sub_cancel]

theorem pLU_hi {i : ℕ} (hs : 0 < s) :
    pLU s b c d e f (i + 2 * s) =
      let p := pLU s b c d e f (i + s)
      let q := pLU s b c d e f i
      let ga := c (i + s) - q.al * b i
      let mu := d (i + 2 * s) - q.be * b i - p.al * ga
      ⟨ga, mu, mu⁻¹ * (e (i + 2 * s) - p.be * ga), mu⁻¹ * f (i + 2 * s)⟩ := by
  rw [pLU, dif_neg (by omega), if_neg (by omega)]
  simp only [Nat.add_sub_cancel, show i + 2 * s - s = i + s by omega]

theorem pZe_lo {i : ℕ} (h : i < s) : pZe s b c d e f r i = (d i)⁻¹ • r i := by
  rw [pZe, dif_pos (Or.inr h)]

theorem pZe_mid {i : ℕ} (hs : 0 < s) (h : i < s) :
    pZe s b c d e f r (i + s) = (pLU s b c d e f (i + s)).mu⁻¹ •
      (r (i + s) - (pLU s b c d e f (i + s)).ga • pZe s b c d e f r i) := by
  rw [pZe, dif_neg (by omega), if_pos (by omega)]
  simp only [Nat.add_sub_cancel]

theorem pZe_hi {i : ℕ} (hs : 0 < s) :
    pZe s b c d e f r (i + 2 * s) = (pLU s b c d e f (i + 2 * s)).mu⁻¹ •
      (r (i + 2 * s) - b i • pZe s b c d e f r i
        - (pLU s b c d e f (i + 2 * s)).ga • pZe s b c d e f r (i + s)) := by
  rw [pZe, dif_neg (by omega), if_neg (by omega)]
  simp only [Nat.add_sub_cancel, show i + 2 * s - s = i + s by omega]

theorem pLU_be (i : ℕ) : (pLU s b c d e f i).be = (pLU s b c d e f i).mu⁻¹ * f i := by
  rw [pLU]; split
  · rfl
  · split <;> rfl

/-- The elimination identity. -/
theorem penta_solves (hs : 0 < s) (x : ℕ → T) (n : ℕ)
    (hp : ∀ i < n, (pLU s b c d e f i).mu ≠ 0)
    (hx : ∀ i < n, x i = pZe s b c d e f r i
      - (if i + s < n then (pLU s b c d e f i).al • x (i + s) else 0)
      - (if i + 2 * s < n then (pLU s b c d e f i).be • x (i + 2 * s) else 0)) :
    ∀ i < n, (if 2 * s ≤ i then b (i - 2 * s) • x (i - 2 * s) else 0)
      + (if s ≤ i then c (i - s) • x (i - s) else 0) + d i • x i
      + (if i + s < n then e i • x (i + s) else 0)
      + (if i + 2 * s < n then f i • x (i + 2 * s) else 0) = r i := by
  intro i hi
  have hmu := hp i hi
  have hxi : (pLU s b c d e f i).mu • x i = (pLU s b c d e f i).mu • pZe s b c d e f r i
      - (if i + s < n then ((pLU s b c d e f i).mu * (pLU s b c d e f i).al) • x (i + s) else 0)
      - (if i + 2 * s < n then f i • x (i + 2 * s) else 0) := by
    conv_lhs => rw [hx i hi]
    rw [smul_sub, smul_sub, smul_ite, smul_zero, smul_ite, smul_zero, smul_smul, smul_smul,
      pLU_be, mul_inv_cancel_left₀ hmu]
  rcases lt_or_ge i s with h1 | h1
  · rw [if_neg (by omega), if_neg (by omega)]
    rw [pLU_lo h1, pZe_lo h1] at hxi
    rw [pLU_lo h1] at hmu
    simp only at hxi hmu
    rw [smul_smul, mul_inv_cancel₀ hmu, mul_inv_cancel_left₀ hmu, one_smul] at hxi
    rw [hxi]; abel
  rcases lt_or_ge i (2 * s) with h2 | h2
  · obtain ⟨j, rfl⟩ : ∃ j, i = j + s := ⟨i - s, by omega⟩
    have hj : j < s := by omega
    rw [if_neg (by omega), if_pos h1, Nat.add_sub_cancel]
    have hxj := hx j (by omega)
    rw [if_pos (by omega)] at hxj
    rw [pZe_mid hs hj] at hxi
    rw [smul_smul, mul_inv_cancel₀ hmu, one_smul] at hxi
    rw [pLU_mid hs hj] at hxi hmu
    simp only at hxi hmu
    rw [mul_inv_cancel_left₀ hmu] at hxi
    rw [hxj, show j + 2 * s = j + s + s by ring]
    by_cases h3 : j + s + s < n
    · simp only [h3, if_true] at hxi ⊢
      generalize (if j + s + 2 * s < n then f (j + s) • x (j + s + 2 * s) else 0) = Z at hxi ⊢
      linear_combination (norm := module) hxi
    · simp only [h3, if_false] at hxi ⊢
      generalize (if j + s + 2 * s < n then f (j + s) • x (j + s + 2 * s) else 0) = Z at hxi ⊢
      linear_combination (norm := module) hxi
  · obtain ⟨j, rfl⟩ : ∃ j, i = j + 2 * s := ⟨i - 2 * s, by omega⟩
    rw [if_pos h2, if_pos h1, Nat.add_sub_cancel, show j + 2 * s - s = j + s by omega]
    have hxj := hx j (by omega)
    rw [if_pos (by omega), if_pos (by omega)] at hxj
    have hxk := hx (j + s) (by omega)
    rw [if_pos (by omega), show j + s + s = j + 2 * s by ring,
      show j + s + 2 * s = j + 2 * s + s by ring] at hxk
    rw [pZe_hi hs] at hxi
    rw [smul_smul, mul_inv_cancel₀ hmu, one_smul] at hxi
    rw [pLU_hi hs] at hxi hmu
    simp only at hxi hmu
    rw [mul_inv_cancel_left₀ hmu] at hxi
    generalize (if j + 2 * s + 2 * s < n then f (j + 2 * s) • x (j + 2 * s + 2 * s) else 0) = Z
      at hxi ⊢
    by_cases h3 : j + 2 * s + s < n
    · simp only [h3, if_true] at hxi hxk ⊢
      linear_combination (norm := module) hxi + b j • hxj
        + (c (j + s) - (pLU s b c d e f j).al * b j) • hxk
    · simp only [h3, if_false] at hxi hxk ⊢
      linear_combination (norm := module) hxi + b j • hxj
        + (c (j + s) - (pLU s b c d e f j).al * b j) • hxk
end
end Verif
