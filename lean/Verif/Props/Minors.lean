/-
Property theorems C91: exactly when the banded solvers succeed.
-/
import Verif.Proof.Minors
import Verif.Props.Solvers
import Mathlib.Analysis.Real.Sqrt

namespace Verif.Props
open Res Spec

section iff
variable {K T : Type} [Field K] [DecidableEq K] [AddCommGroup T] [Module K T]

/-- C91 (diagonals 0, ±2): the solver returns if and only if no leading principal minor of the matrix
vanishes, and otherwise divides by zero; whatever the right-hand side. -/
theorem C91_tdma (l2 d0 u2 : List K) (rhs : List T) (hn : 3 ≤ rhs.length)
    (hl : l2.length = rhs.length - 2) (hd : d0.length = rhs.length) (hu : u2.length = rhs.length - 2) :
    ((∃ x, tdma l2 d0 u2 rhs = ok x) ↔
      ∀ k, 1 ≤ k → k ≤ rhs.length → minor (triMat (nth l2) (nth d0) (nth u2)) k ≠ 0) ∧
    (tdma l2 d0 u2 rhs = err .div0 ↔
      ∃ k, 1 ≤ k ∧ k ≤ rhs.length ∧ minor (triMat (nth l2) (nth d0) (nth u2)) k = 0) := by
  have h1 : (∃ x, tdma l2 d0 u2 rhs = ok x) ↔
      ∀ k, 1 ≤ k → k ≤ rhs.length → minor (triMat (nth l2) (nth d0) (nth u2)) k ≠ 0 := by
    rw [← tri_minors]
    constructor
    · rintro ⟨x, hx⟩
      have := wp_tdma (Q := fun e => e = .div0) l2 d0 u2 rhs _ hn rfl hl hd hu (fun _ _ _ => rfl)
      rw [hx] at this
      exact this.1
    · intro hp
      obtain ⟨x, hx, -⟩ := wp_total.mp (wp_tdma (Q := fun _ => False) l2 d0 u2 rhs _ hn rfl hl hd hu
        (fun i hi h => hp i hi h))
      exact ⟨x, hx⟩
  refine ⟨h1, ?_⟩
  rcases C18_tdma_solves l2 d0 u2 rhs hn hl hd hu with h | ⟨x, hx, -⟩
  · refine ⟨fun _ => ?_, fun _ => h⟩
    by_contra hne
    push Not at hne
    obtain ⟨x, hx⟩ := h1.2 hne
    rw [h] at hx; cases hx
  · refine ⟨fun h => ?_, fun ⟨k, k1, k2, hk⟩ => absurd hk (h1.1 ⟨x, hx⟩ k k1 k2)⟩
    rw [hx] at h; cases h

/-- C91 (diagonals 0, ±1, ±2). -/
theorem C91_pdma (l2 l1 d0 u1 u2 : List K) (rhs : List T) (hn : 4 ≤ rhs.length)
    (h2 : l2.length = rhs.length - 2) (h1 : l1.length = rhs.length - 1) (hd : d0.length = rhs.length)
    (hu1 : u1.length = rhs.length - 1) (hu2 : u2.length = rhs.length - 2) :
    ((∃ x, pdma l2 l1 d0 u1 u2 rhs = ok x) ↔ ∀ k, 1 ≤ k → k ≤ rhs.length →
      minor (pentaMat 1 (nth l2) (nth l1) (nth d0) (nth u1) (nth u2)) k ≠ 0) ∧
    (pdma l2 l1 d0 u1 u2 rhs = err .div0 ↔ ∃ k, 1 ≤ k ∧ k ≤ rhs.length ∧
      minor (pentaMat 1 (nth l2) (nth l1) (nth d0) (nth u1) (nth u2)) k = 0) := by
  have h3 : (∃ x, pdma l2 l1 d0 u1 u2 rhs = ok x) ↔ ∀ k, 1 ≤ k → k ≤ rhs.length →
      minor (pentaMat 1 (nth l2) (nth l1) (nth d0) (nth u1) (nth u2)) k ≠ 0 := by
    rw [← penta_minors _ _ _ _ _ one_pos]
    constructor
    · rintro ⟨x, hx⟩
      have := wp_pdma (Q := fun e => e = .div0) hn rfl h2 h1 hd hu1 hu2 (fun _ _ _ => rfl)
      rw [hx] at this
      exact this.1
    · intro hp
      obtain ⟨x, hx, -⟩ := wp_total.mp (wp_pdma (Q := fun _ => False) hn rfl h2 h1 hd hu1 hu2
        (fun i hi h => hp i hi h))
      exact ⟨x, hx⟩
  refine ⟨h3, ?_⟩
  rcases C18_pdma_solves l2 l1 d0 u1 u2 rhs hn h2 h1 hd hu1 hu2 with h | ⟨x, hx, -⟩
  · refine ⟨fun _ => ?_, fun _ => h⟩
    by_contra hne
    push Not at hne
    obtain ⟨x, hx⟩ := h3.2 hne
    rw [h] at hx; cases hx
  · refine ⟨fun h => ?_, fun ⟨k, k1, k2, hk⟩ => absurd hk (h3.1 ⟨x, hx⟩ k k1 k2)⟩
    rw [hx] at h; cases h

/-- C91 (diagonals 0, ±2, ±4). -/
theorem C91_pdma2 (l4 l2 d0 u2 u4 : List K) (rhs : List T) (hn : 6 ≤ rhs.length)
    (h4 : l4.length = rhs.length - 4) (h2 : l2.length = rhs.length - 2) (hd : d0.length = rhs.length)
    (hu2 : u2.length = rhs.length - 2) (hu4 : u4.length = rhs.length - 4) :
    ((∃ x, pdma2 l4 l2 d0 u2 u4 rhs = ok x) ↔ ∀ k, 1 ≤ k → k ≤ rhs.length →
      minor (pentaMat 2 (nth l4) (nth l2) (nth d0) (nth u2) (nth u4)) k ≠ 0) ∧
    (pdma2 l4 l2 d0 u2 u4 rhs = err .div0 ↔ ∃ k, 1 ≤ k ∧ k ≤ rhs.length ∧
      minor (pentaMat 2 (nth l4) (nth l2) (nth d0) (nth u2) (nth u4)) k = 0) := by
  have h3 : (∃ x, pdma2 l4 l2 d0 u2 u4 rhs = ok x) ↔ ∀ k, 1 ≤ k → k ≤ rhs.length →
      minor (pentaMat 2 (nth l4) (nth l2) (nth d0) (nth u2) (nth u4)) k ≠ 0 := by
    rw [← penta_minors _ _ _ _ _ two_pos]
    constructor
    · rintro ⟨x, hx⟩
      have := wp_pdma2 (Q := fun e => e = .div0) hn rfl h4 h2 hd hu2 hu4 (fun _ _ _ => rfl)
      rw [hx] at this
      exact this.1
    · intro hp
      obtain ⟨x, hx, -⟩ := wp_total.mp (wp_pdma2 (Q := fun _ => False) hn rfl h4 h2 hd hu2 hu4
        (fun i hi h => hp i hi h))
      exact ⟨x, hx⟩
  refine ⟨h3, ?_⟩
  rcases C18_pdma2_solves l4 l2 d0 u2 u4 rhs hn h4 h2 hd hu2 hu4 with h | ⟨x, hx, -⟩
  · refine ⟨fun _ => ?_, fun _ => h⟩
    by_contra hne
    push Not at hne
    obtain ⟨x, hx⟩ := h3.2 hne
    rw [h] at hx; cases hx
  · refine ⟨fun h => ?_, fun ⟨k, k1, k2, hk⟩ => absurd hk (h3.1 ⟨x, hx⟩ k k1 k2)⟩
    rw [hx] at h; cases h

end iff

/-- C91: matrices with positive quadratic form (such as all symmetric positive definite ones) are always
solved. -/
theorem C91_positive_definite {K T : Type} [Field K] [LinearOrder K] [AddCommGroup T] [Module K T]
    (l4 l2 l1 d0 u1 u2 u4 : List K) (rhs : List T) (hd : d0.length = rhs.length) :
    (3 ≤ rhs.length → l2.length = rhs.length - 2 → u2.length = rhs.length - 2 →
      PositiveDefinite rhs.length (triMat (nth l2) (nth d0) (nth u2)) →
      ∃ x, tdma l2 d0 u2 rhs = ok x ∧
        Solves rhs.length (triMat (nth l2) (nth d0) (nth u2)) (nth x) (nth rhs)) ∧
    (4 ≤ rhs.length → l2.length = rhs.length - 2 → l1.length = rhs.length - 1 →
      u1.length = rhs.length - 1 → u2.length = rhs.length - 2 →
      PositiveDefinite rhs.length (pentaMat 1 (nth l2) (nth l1) (nth d0) (nth u1) (nth u2)) →
      ∃ x, pdma l2 l1 d0 u1 u2 rhs = ok x ∧
        Solves rhs.length (pentaMat 1 (nth l2) (nth l1) (nth d0) (nth u1) (nth u2)) (nth x) (nth rhs)) ∧
    (6 ≤ rhs.length → l4.length = rhs.length - 4 → l2.length = rhs.length - 2 →
      u2.length = rhs.length - 2 → u4.length = rhs.length - 4 →
      PositiveDefinite rhs.length (pentaMat 2 (nth l4) (nth l2) (nth d0) (nth u2) (nth u4)) →
      ∃ x, pdma2 l4 l2 d0 u2 u4 rhs = ok x ∧
        Solves rhs.length (pentaMat 2 (nth l4) (nth l2) (nth d0) (nth u2) (nth u4)) (nth x) (nth rhs)) := by
  refine ⟨fun hn hl hu hA => ?_, fun hn h2 h1 hu1 hu2 hA => ?_, fun hn h4 h2 hu2 hu4 hA => ?_⟩
  · obtain ⟨x, hx⟩ := (C91_tdma l2 d0 u2 rhs hn hl hd hu).1.2 fun k _ hk => minor_of_posDef hA hk
    rcases C18_tdma_solves l2 d0 u2 rhs hn hl hd hu with h | ⟨y, hy, -, hs, -⟩
    · rw [hx] at h; cases h
    · exact ⟨y, hy, hs⟩
  · obtain ⟨x, hx⟩ := (C91_pdma l2 l1 d0 u1 u2 rhs hn h2 h1 hd hu1 hu2).1.2
      fun k _ hk => minor_of_posDef hA hk
    rcases C18_pdma_solves l2 l1 d0 u1 u2 rhs hn h2 h1 hd hu1 hu2 with h | ⟨y, hy, -, hs, -⟩
    · rw [hx] at h; cases h
    · exact ⟨y, hy, hs⟩
  · obtain ⟨x, hx⟩ := (C91_pdma2 l4 l2 d0 u2 u4 rhs hn h4 h2 hd hu2 hu4).1.2
      fun k _ hk => minor_of_posDef hA hk
    rcases C18_pdma2_solves l4 l2 d0 u2 u4 rhs hn h4 h2 hd hu2 hu4 with h | ⟨y, hy, -, hs, -⟩
    · rw [hx] at h; cases h
    · exact ⟨y, hy, hs⟩

/-- C91: matrices strictly dominated by their diagonal (in every row, or in every column) are always
solved. -/
theorem C91_dominant {K T : Type} [NormedField K] [DecidableEq K] [AddCommGroup T] [Module K T]
    (l4 l2 l1 d0 u1 u2 u4 : List K) (rhs : List T) (hd : d0.length = rhs.length) :
    (3 ≤ rhs.length → l2.length = rhs.length - 2 → u2.length = rhs.length - 2 →
      (RowDominant rhs.length (triMat (nth l2) (nth d0) (nth u2)) ∨
        ColDominant rhs.length (triMat (nth l2) (nth d0) (nth u2))) →
      ∃ x, tdma l2 d0 u2 rhs = ok x ∧
        Solves rhs.length (triMat (nth l2) (nth d0) (nth u2)) (nth x) (nth rhs)) ∧
    (4 ≤ rhs.length → l2.length = rhs.length - 2 → l1.length = rhs.length - 1 →
      u1.length = rhs.length - 1 → u2.length = rhs.length - 2 →
      (RowDominant rhs.length (pentaMat 1 (nth l2) (nth l1) (nth d0) (nth u1) (nth u2)) ∨
        ColDominant rhs.length (pentaMat 1 (nth l2) (nth l1) (nth d0) (nth u1) (nth u2))) →
      ∃ x, pdma l2 l1 d0 u1 u2 rhs = ok x ∧
        Solves rhs.length (pentaMat 1 (nth l2) (nth l1) (nth d0) (nth u1) (nth u2)) (nth x) (nth rhs)) ∧
    (6 ≤ rhs.length → l4.length = rhs.length - 4 → l2.length = rhs.length - 2 →
      u2.length = rhs.length - 2 → u4.length = rhs.length - 4 →
      (RowDominant rhs.length (pentaMat 2 (nth l4) (nth l2) (nth d0) (nth u2) (nth u4)) ∨
        ColDominant rhs.length (pentaMat 2 (nth l4) (nth l2) (nth d0) (nth u2) (nth u4))) →
      ∃ x, pdma2 l4 l2 d0 u2 u4 rhs = ok x ∧
        Solves rhs.length (pentaMat 2 (nth l4) (nth l2) (nth d0) (nth u2) (nth u4)) (nth x) (nth rhs)) := by
  refine ⟨fun hn hl hu hA => ?_, fun hn h2 h1 hu1 hu2 hA => ?_, fun hn h4 h2 hu2 hu4 hA => ?_⟩
  · obtain ⟨x, hx⟩ := (C91_tdma l2 d0 u2 rhs hn hl hd hu).1.2 fun k _ hk =>
      hA.elim (minor_of_rowDominant · hk) (minor_of_colDominant · hk)
    rcases C18_tdma_solves l2 d0 u2 rhs hn hl hd hu with h | ⟨y, hy, -, hs, -⟩
    · rw [hx] at h; cases h
    · exact ⟨y, hy, hs⟩
  · obtain ⟨x, hx⟩ := (C91_pdma l2 l1 d0 u1 u2 rhs hn h2 h1 hd hu1 hu2).1.2 fun k _ hk =>
      hA.elim (minor_of_rowDominant · hk) (minor_of_colDominant · hk)
    rcases C18_pdma_solves l2 l1 d0 u1 u2 rhs hn h2 h1 hd hu1 hu2 with h | ⟨y, hy, -, hs, -⟩
    · rw [hx] at h; cases h
    · exact ⟨y, hy, hs⟩
  · obtain ⟨x, hx⟩ := (C91_pdma2 l4 l2 d0 u2 u4 rhs hn h4 h2 hd hu2 hu4).1.2 fun k _ hk =>
      hA.elim (minor_of_rowDominant · hk) (minor_of_colDominant · hk)
    rcases C18_pdma2_solves l4 l2 d0 u2 u4 rhs hn h4 h2 hd hu2 hu4 with h | ⟨y, hy, -, hs, -⟩
    · rw [hx] at h; cases h
    · exact ⟨y, hy, hs⟩

/-! ### The hypotheses are met -/

/-- A dominant matrix of every size: `5` on the diagonal, `1` and `-1` beside it. -/
example (n : ℕ) (hn : 3 ≤ n) (rhs : List ℝ) (hr : rhs.length = n) :
    ∃ x, tdma (List.replicate (n - 2) (1 : ℝ)) (List.replicate n 5) (List.replicate (n - 2) (-1)) rhs
      = ok x := by
  subst hr
  have hdom : RowDominant rhs.length (triMat (nth (List.replicate (rhs.length - 2) (1 : ℝ)))
      (nth (List.replicate rhs.length 5)) (nth (List.replicate (rhs.length - 2) (-1)))) := by
    intro i hi
    have hd : triMat (nth (List.replicate (rhs.length - 2) (1 : ℝ))) (nth (List.replicate rhs.length 5))
        (nth (List.replicate (rhs.length - 2) (-1))) i i = 5 := by
      simp [triMat, nth, hi]
    rw [hd]
    refine lt_of_le_of_lt (b := (2 : ℝ)) ?_ (by norm_num)
    calc _ ≤ ∑ j ∈ Finset.range rhs.length, ((if j + 2 = i then (1 : ℝ) else 0) + if j = i + 2 then 1 else 0) := by
          refine (Finset.sum_le_sum fun j hj => ?_).trans
            (Finset.sum_le_sum_of_subset_of_nonneg (Finset.erase_subset _ _) fun j _ _ => by positivity)
          have hji := (Finset.mem_erase.1 hj).1
          unfold triMat
          rw [if_neg hji, zero_add]
          refine (norm_add_le _ _).trans (add_le_add ?_ ?_)
          · split
            · unfold nth
              rw [List.getD_eq_getElem?_getD, List.getElem?_replicate]
              split <;> norm_num
            · simp
          · split
            · unfold nth
              rw [List.getD_eq_getElem?_getD, List.getElem?_replicate]
              split <;> norm_num
            · simp
      _ ≤ 2 := by
          rw [Finset.sum_add_distrib]
          have h1 : ∑ j ∈ Finset.range rhs.length, (if j + 2 = i then (1 : ℝ) else 0) ≤ 1 := by
            rw [sum_ite_shift_lo _ i 2 hi (fun _ => (1 : ℝ))]; split <;> norm_num
          have h2 : ∑ j ∈ Finset.range rhs.length, (if j = i + 2 then (1 : ℝ) else 0) ≤ 1 := by
            rw [sum_ite_shift_up _ i 2 (fun _ => (1 : ℝ))]; split <;> norm_num
          linarith
  obtain ⟨x, hx, -⟩ := (C91_dominant [] (List.replicate (rhs.length - 2) (1 : ℝ)) []
    (List.replicate rhs.length 5) [] (List.replicate (rhs.length - 2) (-1)) [] rhs (by simp)).1 hn
    (by simp) (by simp) (Or.inl hdom)
  exact ⟨x, hx⟩

end Verif.Props
