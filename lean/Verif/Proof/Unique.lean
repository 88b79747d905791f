/- Uniqueness of solutions of the banded systems when no pivot vanishes. -/
import Verif.Proof.Tdma
import Verif.Proof.Penta

namespace Verif
variable {K T : Type} [Field K] [AddCommGroup T] [Module K T]

theorem tri_forward (l d u : ℕ → K) (r y : ℕ → T) (n : ℕ)
    (hp : ∀ i < n, triPiv l d u i ≠ 0)
    (hy : ∀ i < n, (if 2 ≤ i then l (i - 2) • y (i - 2) else 0) + d i • y i
      + (if i + 2 < n then u i • y (i + 2) else 0) = r i) :
    ∀ i < n, y i = triG l d u r i - (if i + 2 < n then triW l d u i • y (i + 2) else 0) := by
  intro i
  induction i using Nat.strongRecOn with
  | _ i ih =>
    intro hi
    have h := hy i hi
    have hpi := hp i hi
    have key : triPiv l d u i • y i = triPiv l d u i • triG l d u r i
        - (if i + 2 < n then u i • y (i + 2) else 0) := by
      by_cases h2 : 2 ≤ i
      · obtain ⟨j, rfl⟩ : ∃ j, i = j + 2 := ⟨i - 2, by omega⟩
        have hj := ih j (by omega) (by omega)
        rw [if_pos (by omega)] at hj
        rw [if_pos h2, Nat.add_sub_cancel, hj] at h
        rw [triG, smul_smul, mul_inv_cancel₀ hpi, one_smul, triPiv, ← triW]
        linear_combination (norm := module) h
      · have hd : triPiv l d u i = d i := by
          match i, h2 with
          | 0, _ => rfl
          | 1, _ => rfl
          | i + 2, h => omega
        have hg : triG l d u r i = (triPiv l d u i)⁻¹ • r i := by
          match i, h2 with
          | 0, _ => rfl
          | 1, _ => rw [triG]
          | i + 2, h => omega
        rw [hg, smul_smul, mul_inv_cancel₀ hpi, one_smul, hd]
        rw [if_neg h2] at h
        linear_combination (norm := module) h
    have := congrArg (fun t => (triPiv l d u i)⁻¹ • t) key
    simp only [smul_sub, smul_smul, inv_mul_cancel₀ hpi, one_smul, smul_ite, smul_zero] at this
    exact this

/-- downward determination -/
theorem back_unique (n s : ℕ) (hs : 0 < s) (a b : ℕ → K) (z x y : ℕ → T)
    (hx : ∀ i < n, x i = z i - (if i + s < n then a i • x (i + s) else 0)
      - (if i + 2 * s < n then b i • x (i + 2 * s) else 0))
    (hy : ∀ i < n, y i = z i - (if i + s < n then a i • y (i + s) else 0)
      - (if i + 2 * s < n then b i • y (i + 2 * s) else 0)) :
    ∀ i < n, x i = y i := by
  suffices h : ∀ k i, n - i ≤ k → i < n → x i = y i from fun i hi => h (n - i) i le_rfl hi
  intro k
  induction k with
  | zero => intro i h1 h2; omega
  | succ k ih =>
    intro i h1 h2
    rw [hx i h2, hy i h2]
    congr 1
    · congr 1
      split
      · rw [ih (i + s) (by omega) (by omega)]
      · rfl
    · split
      · rw [ih (i + 2 * s) (by omega) (by omega)]
      · rfl

theorem tri_unique (l d u : ℕ → K) (r x y : ℕ → T) (n : ℕ)
    (hp : ∀ i < n, triPiv l d u i ≠ 0)
    (hx : ∀ i < n, (if 2 ≤ i then l (i - 2) • x (i - 2) else 0) + d i • x i
      + (if i + 2 < n then u i • x (i + 2) else 0) = r i)
    (hy : ∀ i < n, (if 2 ≤ i then l (i - 2) • y (i - 2) else 0) + d i • y i
      + (if i + 2 < n then u i • y (i + 2) else 0) = r i) : ∀ i < n, x i = y i := by
  refine back_unique n 2 (by omega) (triW l d u) (fun _ => 0) (triG l d u r) x y ?_ ?_
  · intro i hi; simpa using tri_forward l d u r x n hp hx i hi
  · intro i hi; simpa using tri_forward l d u r y n hp hy i hi

section
variable {s : ℕ} {b c d e f : ℕ → K} {r : ℕ → T}

theorem penta_forward (hs : 0 < s) (y : ℕ → T) (n : ℕ)
    (hp : ∀ i < n, (pLU s b c d e f i).mu ≠ 0)
    (hy : ∀ i < n, (if 2 * s ≤ i then b (i - 2 * s) • y (i - 2 * s) else 0)
      + (if s ≤ i then c (i - s) • y (i - s) else 0) + d i • y i
      + (if i + s < n then e i • y (i + s) else 0)
      + (if i + 2 * s < n then f i • y (i + 2 * s) else 0) = r i) :
    ∀ i < n, y i = pZe s b c d e f r i
      - (if i + s < n then (pLU s b c d e f i).al • y (i + s) else 0)
      - (if i + 2 * s < n then (pLU s b c d e f i).be • y (i + 2 * s) else 0) := by
  intro i
  induction i using Nat.strongRecOn with
  | _ i ih =>
    intro hi
    have h := hy i hi
    have hmu := hp i hi
    have key : (pLU s b c d e f i).mu • y i = (pLU s b c d e f i).mu • pZe s b c d e f r i
      - (if i + s < n then ((pLU s b c d e f i).mu * (pLU s b c d e f i).al) • y (i + s) else 0)
      - (if i + 2 * s < n then f i • y (i + 2 * s) else 0) := by
      rcases lt_or_ge i s with h1 | h1
      · rw [if_neg (by omega), if_neg (by omega)] at h
        rw [pLU_lo h1, pZe_lo h1]
        rw [pLU_lo h1] at hmu
        simp only at hmu ⊢
        rw [smul_smul, mul_inv_cancel₀ hmu, mul_inv_cancel_left₀ hmu, one_smul]
        rw [← h]; abel
      rcases lt_or_ge i (2 * s) with h2 | h2
      · obtain ⟨j, rfl⟩ : ∃ j, i = j + s := ⟨i - s, by omega⟩
        have hj : j < s := by omega
        rw [if_neg (by omega), if_pos h1, Nat.add_sub_cancel] at h
        have hxj := ih j (by omega) (by omega)
        rw [if_pos (by omega)] at hxj
        rw [pZe_mid hs hj, smul_smul, mul_inv_cancel₀ hmu, one_smul]
        rw [pLU_mid hs hj] at hmu ⊢
        simp only at hmu ⊢
        rw [mul_inv_cancel_left₀ hmu]
        rw [hxj, show j + 2 * s = j + s + s by ring] at h
        generalize (if j + s + 2 * s < n then f (j + s) • y (j + s + 2 * s) else 0) = Z at h ⊢
        by_cases h3 : j + s + s < n
        · simp only [h3, if_true] at h ⊢
          linear_combination (norm := module) h
        · simp only [h3, if_false] at h ⊢
          linear_combination (norm := module) h
      · obtain ⟨j, rfl⟩ : ∃ j, i = j + 2 * s := ⟨i - 2 * s, by omega⟩
        rw [if_pos h2, if_pos h1, Nat.add_sub_cancel, show j + 2 * s - s = j + s by omega] at h
        have hxj := ih j (by omega) (by omega)
        rw [if_pos (by omega), if_pos (by omega)] at hxj
        have hxk := ih (j + s) (by omega) (by omega)
        rw [if_pos (by omega), show j + s + s = j + 2 * s by ring,
          show j + s + 2 * s = j + 2 * s + s by ring] at hxk
        rw [pZe_hi hs, smul_smul, mul_inv_cancel₀ hmu, one_smul]
        rw [pLU_hi hs] at hmu ⊢
        simp only at hmu ⊢
        rw [mul_inv_cancel_left₀ hmu]
        generalize (if j + 2 * s + 2 * s < n then f (j + 2 * s) • y (j + 2 * s + 2 * s)
          else 0) = Z at h ⊢
        by_cases h3 : j + 2 * s + s < n
        · simp only [h3, if_true] at h hxk ⊢
          linear_combination (norm := module) h - b j • hxj
            - (c (j + s) - (pLU s b c d e f j).al * b j) • hxk
        · simp only [h3, if_false] at h hxk ⊢
          linear_combination (norm := module) h - b j • hxj
            - (c (j + s) - (pLU s b c d e f j).al * b j) • hxk
    have := congrArg (fun t => (pLU s b c d e f i).mu⁻¹ • t) key
    simp only [smul_sub, smul_smul, inv_mul_cancel₀ hmu, one_smul, smul_ite, smul_zero,
      inv_mul_cancel_left₀ hmu, ← pLU_be] at this
    exact this

theorem penta_unique (hs : 0 < s) (x y : ℕ → T) (n : ℕ)
    (hp : ∀ i < n, (pLU s b c d e f i).mu ≠ 0)
    (hx : ∀ i < n, (if 2 * s ≤ i then b (i - 2 * s) • x (i - 2 * s) else 0)
      + (if s ≤ i then c (i - s) • x (i - s) else 0) + d i • x i
      + (if i + s < n then e i • x (i + s) else 0)
      + (if i + 2 * s < n then f i • x (i + 2 * s) else 0) = r i)
    (hy : ∀ i < n, (if 2 * s ≤ i then b (i - 2 * s) • y (i - 2 * s) else 0)
      + (if s ≤ i then c (i - s) • y (i - s) else 0) + d i • y i
      + (if i + s < n then e i • y (i + s) else 0)
      + (if i + 2 * s < n then f i • y (i + 2 * s) else 0) = r i) : ∀ i < n, x i = y i :=
  back_unique n s hs _ _ _ x y (penta_forward hs x n hp hx) (penta_forward hs y n hp hy)
end
end Verif
