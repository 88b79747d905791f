/- Row form of banded matrix-vector products. -/
import Verif.Spec.Banded
import Mathlib.Tactic.Common
import Mathlib.Tactic.Abel

namespace Verif
open Finset Spec
variable {K T : Type} [Field K] [AddCommGroup T] [Module K T]

theorem sum_ite_shift_lo (n i s : ℕ) (hi : i < n) (g : ℕ → T) :
    (∑ j ∈ range n, if j + s = i then g j else 0) = if s ≤ i then g (i - s) else 0 := by
  by_cases h : s ≤ i
  · rw [if_pos h]
    rw [Finset.sum_eq_single (i - s)]
    · rw [if_pos (by omega)]
    · intro j _ hj; rw [if_neg (by omega)]
    · intro hj; simp at hj; omega
  · rw [if_neg h]
    apply Finset.sum_eq_zero
    intro j _
    rw [if_neg (by omega)]

theorem sum_ite_shift_up (n i s : ℕ) (g : ℕ → T) :
    (∑ j ∈ range n, if j = i + s then g j else 0) = if i + s < n then g (i + s) else 0 := by
  rw [Finset.sum_ite_eq' (range n) (i + s)]; simp

theorem matVec_triMat (n : ℕ) (l d u : ℕ → K) (x : ℕ → T) (i : ℕ) (hi : i < n) :
    matVec n (triMat l d u) x i = (if 2 ≤ i then l (i - 2) • x (i - 2) else 0) + d i • x i
      + (if i + 2 < n then u i • x (i + 2) else 0) := by
  unfold matVec triMat
  simp only [add_smul, ite_smul, zero_smul, Finset.sum_add_distrib]
  rw [sum_ite_shift_lo n i 2 hi (fun j => l j • x j),
    sum_ite_shift_up n i 2 (fun j => u i • x j),
    Finset.sum_ite_eq' (range n) i, if_pos (by simpa using hi)]
  abel

theorem matVec_pentaMat (n s : ℕ) (b c d e f : ℕ → K) (x : ℕ → T) (i : ℕ) (hi : i < n) :
    matVec n (pentaMat s b c d e f) x i =
      (if 2 * s ≤ i then b (i - 2 * s) • x (i - 2 * s) else 0)
      + (if s ≤ i then c (i - s) • x (i - s) else 0) + d i • x i
      + (if i + s < n then e i • x (i + s) else 0)
      + (if i + 2 * s < n then f i • x (i + 2 * s) else 0) := by
  unfold matVec pentaMat
  simp only [add_smul, ite_smul, zero_smul, Finset.sum_add_distrib]
  rw [sum_ite_shift_lo n i (2 * s) hi (fun j => b j • x j),
    sum_ite_shift_lo n i s hi (fun j => c j • x j),
    sum_ite_shift_up n i s (fun j => e i • x j),
    sum_ite_shift_up n i (2 * s) (fun j => f i • x j),
    Finset.sum_ite_eq' (range n) i, if_pos (by simpa using hi)]
  abel

end Verif
