/- Algebra of stencil matrices with diagonals at offsets 0, -s, -2s. -/
import Verif.Proof.Banded
import Mathlib.Tactic.Module
import Mathlib.Tactic.Ring
import Mathlib.Tactic.LinearCombination

namespace Verif
open Spec Finset
variable {K T : Type} [Field K] [AddCommGroup T] [Module K T]

/-- stencil matrix -/
def stMat (s : ℕ) (d l h : ℕ → K) (i j : ℕ) : K :=
  (if i = j then d j else 0) + (if i = j + s then l j else 0) + (if i = j + 2 * s then h j else 0)

theorem stMat_mul (s m : ℕ) (d l h : ℕ → K) (x : ℕ → T) (i : ℕ) :
    ∑ j ∈ range m, stMat s d l h i j • x j =
      (if i < m then d i • x i else 0)
      + (if s ≤ i ∧ i - s < m then l (i - s) • x (i - s) else 0)
      + (if 2 * s ≤ i ∧ i - 2 * s < m then h (i - 2 * s) • x (i - 2 * s) else 0) := by
  have aux : ∀ (t : ℕ) (g : ℕ → K), ∑ j ∈ range m, (if i = j + t then g j else 0) • x j
      = if t ≤ i ∧ i - t < m then g (i - t) • x (i - t) else 0 := by
    intro t g
    by_cases h : t ≤ i ∧ i - t < m
    · rw [if_pos h, Finset.sum_eq_single (i - t)]
      · rw [if_pos (by omega)]
      · intro j _ hj; rw [if_neg (by omega), zero_smul]
      · intro hn; exact absurd (mem_range.mpr h.2) hn
    · rw [if_neg h]
      apply Finset.sum_eq_zero
      intro j hj
      rw [mem_range] at hj
      rw [if_neg (by omega), zero_smul]
  have a0 := aux 0 d
  simp only [Nat.add_zero, Nat.zero_le, Nat.sub_zero, true_and] at a0
  simp only [stMat, add_smul, Finset.sum_add_distrib, aux, a0]

theorem stMat_tmul (s N : ℕ) (d l h : ℕ → K) (u : ℕ → T) (j : ℕ) :
    ∑ i ∈ range N, stMat s d l h i j • u i =
      (if j < N then d j • u j else 0)
      + (if j + s < N then l j • u (j + s) else 0)
      + (if j + 2 * s < N then h j • u (j + 2 * s) else 0) := by
  have aux : ∀ (t : ℕ) (g : K), ∑ i ∈ range N, (if i = t then g else 0) • u i
      = if t < N then g • u t else 0 := by
    intro t g
    by_cases h : t < N
    · rw [if_pos h, Finset.sum_eq_single t]
      · rw [if_pos rfl]
      · intro j _ hj; rw [if_neg hj, zero_smul]
      · intro hn; exact absurd (mem_range.mpr h) hn
    · rw [if_neg h]
      apply Finset.sum_eq_zero
      intro j hj
      rw [mem_range] at hj
      rw [if_neg (by omega), zero_smul]
  simp only [stMat, add_smul, Finset.sum_add_distrib, aux]

/-- rows of `Sᵀ S x` -/
theorem stMat_normal (s m N : ℕ) (d l h : ℕ → K) (x : ℕ → T) (j : ℕ) (hj : j < m)
    (hN : m + 2 * s ≤ N ∨ (m + s ≤ N ∧ ∀ i, h i = 0)) :
    ∑ i ∈ range N, stMat s d l h i j • (∑ k ∈ range m, stMat s d l h i k • x k) =
      (if 2 * s ≤ j then (d j * h (j - 2 * s)) • x (j - 2 * s) else 0)
      + (if s ≤ j then (d j * l (j - s) + l j * h (j - s)) • x (j - s) else 0)
      + (d j * d j + l j * l j + h j * h j) • x j
      + (if j + s < m then (d (j + s) * l j + l (j + s) * h j) • x (j + s) else 0)
      + (if j + 2 * s < m then (d (j + 2 * s) * h j) • x (j + 2 * s) else 0) := by
  have hlast : (if j + 2 * s < N then h j • (∑ k ∈ range m, stMat s d l h (j + 2 * s) k • x k)
      else 0) = h j • (∑ k ∈ range m, stMat s d l h (j + 2 * s) k • x k) := by
    split
    · rfl
    · rcases hN with h1 | ⟨_, h1⟩
      · omega
      · rw [h1, zero_smul]
  rw [stMat_tmul, if_pos (show j < N by omega), if_pos (show j + s < N by omega), hlast,
    stMat_mul, stMat_mul, stMat_mul]
  rw [if_pos hj, if_pos (show s ≤ j + s ∧ j + s - s < m by omega),
    if_pos (show 2 * s ≤ j + 2 * s ∧ j + 2 * s - 2 * s < m by omega)]
  rw [show j + s - s = j by omega, show j + 2 * s - 2 * s = j by omega,
    show j + 2 * s - s = j + s by omega, show j + s - 2 * s = j - s by omega]
  have e1 : (s ≤ j ∧ j - s < m) ↔ s ≤ j := by omega
  have e2 : (2 * s ≤ j ∧ j - 2 * s < m) ↔ 2 * s ≤ j := by omega
  have e3 : (2 * s ≤ j + s ∧ j - s < m) ↔ s ≤ j := by omega
  have e4 : (s ≤ j + 2 * s ∧ j + s < m) ↔ j + s < m := by omega
  simp only [e1, e2, e3, e4]
  split_ifs <;> module

end Verif
