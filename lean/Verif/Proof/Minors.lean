/- Pivots of the banded eliminations and leading principal minors. -/
import Verif.Spec.Minors
import Verif.Proof.Unique
import Verif.Proof.Banded
import Mathlib.LinearAlgebra.Matrix.ToLinearEquiv
import Mathlib.LinearAlgebra.Matrix.Gershgorin

namespace Verif
open Finset Spec
variable {K : Type} [Field K]

theorem minor_ne_zero_iff (A : ℕ → ℕ → K) (k : ℕ) : minor A k ≠ 0 ↔
    ∀ y : ℕ → K, (∀ i < k, matVec k A y i = 0) → ∀ i < k, y i = 0 := by
  classical
  unfold minor
  rw [Ne, ← Matrix.exists_mulVec_eq_zero_iff]
  have hsum : ∀ (y : ℕ → K) (i : Fin k),
      Matrix.mulVec (Matrix.of fun i j : Fin k => A i j) (fun j => y j) i = matVec k A y i := by
    intro y i
    unfold matVec Matrix.mulVec dotProduct
    rw [← Fin.sum_univ_eq_sum_range (fun j => A i j • y j)]
    rfl
  constructor
  · intro h y hy i hi
    by_contra hne
    refine h ⟨fun j => y j, fun h0 => hne (congrFun h0 ⟨i, hi⟩), funext fun i => ?_⟩
    rw [hsum, hy i i.2]; rfl
  · rintro h ⟨v, hv, he⟩
    refine hv (funext fun i => ?_)
    have hve : (fun j : Fin k => (fun m => if hm : m < k then v ⟨m, hm⟩ else 0) (j : ℕ)) = v := by
      funext j; simp
    have := h (fun m => if hm : m < k then v ⟨m, hm⟩ else 0) (fun j hj => by
      rw [← hsum _ ⟨j, hj⟩, hve, he]; rfl) i i.2
    simpa using this

/-- backward substitution -/
def backSol {T : Type} [AddCommGroup T] [Module K T] (n s : ℕ) (a b : ℕ → K) (z : ℕ → T) (i : ℕ) : T :=
  if _h : i < n ∧ 0 < s then
    z i - (if i + s < n then a i • backSol n s a b z (i + s) else 0)
      - (if i + 2 * s < n then b i • backSol n s a b z (i + 2 * s) else 0)
  else 0
termination_by n - i
decreasing_by all_goals omega

theorem backSol_eq {T : Type} [AddCommGroup T] [Module K T] {n s : ℕ} (hs : 0 < s) (a b : ℕ → K)
    (z : ℕ → T) : ∀ i < n, backSol n s a b z i
      = z i - (if i + s < n then a i • backSol n s a b z (i + s) else 0)
        - (if i + 2 * s < n then b i • backSol n s a b z (i + 2 * s) else 0) := by
  intro i hi
  conv_lhs => rw [backSol]
  rw [dif_pos ⟨hi, hs⟩]

/-! ### diagonals 0, ±2 -/

theorem triPiv_congr (l d d' u : ℕ → K) (i : ℕ) (h : ∀ j ≤ i, d j = d' j) :
    triPiv l d u i = triPiv l d' u i := by
  induction i using Nat.twoStepInduction with
  | zero => exact h 0 le_rfl
  | one => exact h 1 le_rfl
  | more i ih _ =>
    simp only [triPiv]
    rw [ih (fun j hj => h j (by omega)), h (i + 2) le_rfl]

theorem triPiv_bump (l d u : ℕ → K) (k : ℕ) :
    triPiv l (Function.update d k (d k + 1)) u k = triPiv l d u k + 1 := by
  match k with
  | 0 => simp [triPiv]
  | 1 => simp [triPiv]
  | k + 2 =>
    simp only [triPiv, Function.update_self]
    rw [triPiv_congr l _ d u k (fun j hj => Function.update_of_ne (by omega) ..)]
    ring

theorem triG_zero (l d u : ℕ → K) (r : ℕ → K) (i : ℕ) (h : ∀ j ≤ i, r j = 0) : triG l d u r i = 0 := by
  induction i using Nat.twoStepInduction with
  | zero => simp [triG, h]
  | one => simp [triG, h]
  | more i ih _ => simp [triG, h, ih (fun j hj => h j (by omega))]

theorem triG_last (l d u : ℕ → K) (r : ℕ → K) (k : ℕ) (h : ∀ j < k, r j = 0) :
    triG l d u r k = (triPiv l d u k)⁻¹ * r k := by
  match k with
  | 0 => simp [triG]
  | 1 => simp [triG]
  | k + 2 => simp [triG, triG_zero l d u r k (fun j hj => h j (by omega))]

theorem tri_kernel (l d u : ℕ → K) (k : ℕ) (hp : ∀ i < k, triPiv l d u i ≠ 0)
    (h0 : triPiv l d u k = 0) :
    ∃ y : ℕ → K, y k = 1 ∧ ∀ i < k + 1, matVec (k + 1) (triMat l d u) y i = 0 := by
  classical
  set d' := Function.update d k (d k + 1) with hd'
  set r : ℕ → K := fun i => if i = k then 1 else 0 with hr
  have hk : triPiv l d' u k = 1 := by rw [hd', triPiv_bump, h0, zero_add]
  have hp' : ∀ i < k + 1, triPiv l d' u i ≠ 0 := by
    intro i hi
    rcases Nat.lt_succ_iff_lt_or_eq.1 hi with h | rfl
    · rw [triPiv_congr l d' d u i (fun j hj => Function.update_of_ne (by omega) ..)]
      exact hp i h
    · rw [hk]; exact one_ne_zero
  set y := backSol (k + 1) 2 (triW l d' u) (fun _ => (0 : K)) (triG l d' u r) with hy
  have he := backSol_eq (n := k + 1) (s := 2) (by omega) (triW l d' u) (fun _ => (0 : K)) (triG l d' u r)
  rw [← hy] at he
  have hyk : y k = 1 := by
    rw [he k (by omega), if_neg (by omega), if_neg (by omega), sub_zero, sub_zero]
    rw [triG_last l d' u r k (fun j hj => if_neg (by omega)), hk]
    simp [hr]
  refine ⟨y, hyk, fun i hi => ?_⟩
  have hs := tri_solves l d' u r y (k + 1) hp'
    (fun i h1 h2 => by rw [he i h2, if_neg (by omega)]; simp)
    (fun i h1 => by rw [he i (by omega), if_pos (by omega)]; simp) i hi
  rw [matVec_triMat _ _ _ _ _ _ hi]
  by_cases hik : i = k
  · subst hik
    rw [show r i = 1 from if_pos rfl, hd', Function.update_self, add_smul, one_smul, hyk] at hs
    rw [hyk]; linear_combination hs
  · rw [hd', Function.update_of_ne hik, hr] at hs
    simp only [if_neg hik] at hs
    exact hs

theorem tri_minors (l d u : ℕ → K) (n : ℕ) : (∀ i < n, triPiv l d u i ≠ 0) ↔
    ∀ k, 1 ≤ k → k ≤ n → minor (triMat l d u) k ≠ 0 := by
  constructor
  · intro hp k _ hk
    rw [minor_ne_zero_iff]
    intro y hy
    refine tri_unique l d u (fun _ => (0 : K)) y (fun _ => 0) k (fun i hi => hp i (by omega)) ?_ ?_
    · intro i hi; rw [← matVec_triMat _ _ _ _ _ _ hi]; exact hy i hi
    · intro i hi; simp
  · intro h i
    induction i using Nat.strongRecOn with
    | _ i ih =>
      intro hi h0
      obtain ⟨y, hy, hk⟩ := tri_kernel l d u i (fun j hj => ih j hj (by omega)) h0
      have := (minor_ne_zero_iff _ _).1 (h (i + 1) (by omega) (by omega)) y hk i (by omega)
      rw [hy] at this
      exact one_ne_zero this

/-! ### diagonals 0, ±s, ±2s -/

section penta
variable {s : ℕ} (b c d d' e f : ℕ → K)

theorem pLU_congr (i : ℕ) (h : ∀ j ≤ i, d j = d' j) : pLU s b c d e f i = pLU s b c d' e f i := by
  induction i using Nat.strongRecOn with
  | _ i ih =>
    rw [pLU]
    conv_rhs => rw [pLU]
    by_cases h1 : s = 0 ∨ i < s
    · rw [dif_pos h1, dif_pos h1, h i le_rfl]
    · rw [dif_neg h1, dif_neg h1, h i le_rfl, ih (i - s) (by omega) (fun j hj => h j (by omega)),
        ih (i - 2 * s) (by omega) (fun j hj => h j (by omega))]

theorem pLU_bump (hs : 0 < s) (k : ℕ) :
    (pLU s b c (Function.update d k (d k + 1)) e f k).mu = (pLU s b c d e f k).mu + 1 := by
  rw [pLU]
  conv_rhs => rw [pLU]
  by_cases h1 : s = 0 ∨ k < s
  · rw [dif_pos h1, dif_pos h1]; simp
  · rw [dif_neg h1, dif_neg h1,
      pLU_congr b c _ d e f (k - s) (fun j hj => Function.update_of_ne (by omega) ..),
      pLU_congr b c _ d e f (k - 2 * s) (fun j hj => Function.update_of_ne (by omega) ..)]
    split
    · simp only [Function.update_self]; ring
    · simp only [Function.update_self]; ring

theorem pZe_zero (r : ℕ → K) (i : ℕ) (h : ∀ j ≤ i, r j = 0) : pZe s b c d e f r i = 0 := by
  induction i using Nat.strongRecOn with
  | _ i ih =>
    rw [pZe]
    by_cases h1 : s = 0 ∨ i < s
    · rw [dif_pos h1, h i le_rfl, smul_zero]
    · rw [dif_neg h1, h i le_rfl, ih (i - s) (by omega) (fun j hj => h j (by omega))]
      split
      · simp
      · rw [ih (i - 2 * s) (by omega) (fun j hj => h j (by omega))]; simp

theorem pZe_last (r : ℕ → K) (k : ℕ) (h : ∀ j < k, r j = 0) (hs : 0 < s) :
    pZe s b c d e f r k = (pLU s b c d e f k).mu⁻¹ * r k := by
  rw [pZe]
  by_cases h1 : s = 0 ∨ k < s
  · rw [dif_pos h1, pLU, dif_pos h1]; rfl
  · rw [dif_neg h1, pZe_zero b c d e f r (k - s) (fun j hj => h j (by omega))]
    split
    · simp
    · rw [pZe_zero b c d e f r (k - 2 * s) (fun j hj => h j (by omega))]; simp

theorem penta_kernel (hs : 0 < s) (k : ℕ) (hp : ∀ i < k, (pLU s b c d e f i).mu ≠ 0)
    (h0 : (pLU s b c d e f k).mu = 0) :
    ∃ y : ℕ → K, y k = 1 ∧ ∀ i < k + 1, matVec (k + 1) (pentaMat s b c d e f) y i = 0 := by
  set d' := Function.update d k (d k + 1) with hd'
  set r : ℕ → K := fun i => if i = k then 1 else 0 with hr
  have hk : (pLU s b c d' e f k).mu = 1 := by rw [hd', pLU_bump b c d e f hs, h0, zero_add]
  have hp' : ∀ i < k + 1, (pLU s b c d' e f i).mu ≠ 0 := by
    intro i hi
    rcases Nat.lt_succ_iff_lt_or_eq.1 hi with h | rfl
    · rw [pLU_congr b c d' d e f i (fun j hj => Function.update_of_ne (by omega) ..)]
      exact hp i h
    · rw [hk]; exact one_ne_zero
  set y := backSol (k + 1) s (fun i => (pLU s b c d' e f i).al) (fun i => (pLU s b c d' e f i).be)
    (pZe s b c d' e f r) with hy
  have he := backSol_eq (n := k + 1) (s := s) hs (fun i => (pLU s b c d' e f i).al)
    (fun i => (pLU s b c d' e f i).be) (pZe s b c d' e f r)
  rw [← hy] at he
  have hyk : y k = 1 := by
    rw [he k (by omega), if_neg (by omega), if_neg (by omega), sub_zero, sub_zero,
      pZe_last b c d' e f r k (fun j hj => if_neg (by omega)) hs, hk]
    simp [hr]
  refine ⟨y, hyk, fun i hi => ?_⟩
  have hsol := penta_solves hs y (k + 1) hp' he i hi
  rw [matVec_pentaMat _ _ _ _ _ _ _ _ _ hi]
  by_cases hik : i = k
  · subst hik
    rw [show r i = 1 from if_pos rfl, hd', Function.update_self, add_smul, one_smul, hyk] at hsol
    rw [hyk]; linear_combination hsol
  · rw [hd', Function.update_of_ne hik, hr] at hsol
    simp only [if_neg hik] at hsol
    exact hsol

theorem penta_minors (hs : 0 < s) (n : ℕ) : (∀ i < n, (pLU s b c d e f i).mu ≠ 0) ↔
    ∀ k, 1 ≤ k → k ≤ n → minor (pentaMat s b c d e f) k ≠ 0 := by
  constructor
  · intro hp k _ hk
    rw [minor_ne_zero_iff]
    intro y hy
    refine penta_unique (r := fun _ => (0 : K)) hs y (fun _ => 0) k (fun i hi => hp i (by omega)) ?_ ?_
    · intro i hi; rw [← matVec_pentaMat _ _ _ _ _ _ _ _ _ hi]; exact hy i hi
    · intro i hi; simp
  · intro h i
    induction i using Nat.strongRecOn with
    | _ i ih =>
      intro hi h0
      obtain ⟨y, hy, hk⟩ := penta_kernel b c d e f hs i (fun j hj => ih j hj (by omega)) h0
      have := (minor_ne_zero_iff _ _).1 (h (i + 1) (by omega) (by omega)) y hk i (by omega)
      rw [hy] at this
      exact one_ne_zero this

end penta

/-! ### sufficient conditions -/

theorem minor_of_posDef [LinearOrder K] {n : ℕ} {A : ℕ → ℕ → K} (h : PositiveDefinite n A) {k : ℕ}
    (hk : k ≤ n) : minor A k ≠ 0 := by
  rw [minor_ne_zero_iff]
  intro y hy i hi
  by_contra hne
  have := h (fun j => if j < k then y j else 0) ⟨i, by omega, by simpa [hi] using hne⟩
  have hz : ∑ i ∈ range n, (if i < k then y i else 0) * ∑ j ∈ range n, A i j * (if j < k then y j else 0)
      = 0 := by
    refine Finset.sum_eq_zero fun i _ => ?_
    by_cases hik : i < k
    · have e : ∑ j ∈ range n, A i j * (if j < k then y j else 0) = matVec k A y i := by
        unfold matVec
        rw [← Finset.sum_subset (Finset.range_mono hk)]
        · refine Finset.sum_congr rfl fun j hj => ?_
          rw [if_pos (mem_range.1 hj), smul_eq_mul]
        · intro j _ hj
          rw [if_neg (fun h' => hj (mem_range.2 h')), mul_zero]
      rw [e, hy i hik, mul_zero]
    · rw [if_neg hik, zero_mul]
  rw [hz] at this
  exact lt_irrefl _ this

theorem minor_of_rowDominant {K : Type} [NormedField K] {n : ℕ} {A : ℕ → ℕ → K} (h : RowDominant n A)
    {k : ℕ} (hk : k ≤ n) : minor A k ≠ 0 := by
  refine det_ne_zero_of_sum_row_lt_diag fun i => ?_
  refine lt_of_le_of_lt ?_ (h i (by omega))
  have : ∑ j ∈ Finset.univ.erase i, ‖A i j‖ = ∑ j ∈ (range k).erase i, ‖A i j‖ := by
    rw [Finset.sum_erase_eq_sub (mem_univ i), Finset.sum_erase_eq_sub (mem_range.2 i.2),
      Fin.sum_univ_eq_sum_range (fun j => ‖A i j‖)]
  refine this.le.trans (Finset.sum_le_sum_of_subset_of_nonneg ?_ fun _ _ _ => norm_nonneg _)
  exact Finset.erase_subset_erase _ (Finset.range_mono hk)

theorem minor_of_colDominant {K : Type} [NormedField K] {n : ℕ} {A : ℕ → ℕ → K} (h : ColDominant n A)
    {k : ℕ} (hk : k ≤ n) : minor A k ≠ 0 := by
  refine det_ne_zero_of_sum_col_lt_diag fun i => ?_
  refine lt_of_le_of_lt ?_ (h i (by omega))
  have : ∑ j ∈ Finset.univ.erase i, ‖A j i‖ = ∑ j ∈ (range k).erase i, ‖A j i‖ := by
    rw [Finset.sum_erase_eq_sub (mem_univ i), Finset.sum_erase_eq_sub (mem_range.2 i.2),
      Fin.sum_univ_eq_sum_range (fun j => ‖A j i‖)]
  refine this.le.trans (Finset.sum_le_sum_of_subset_of_nonneg ?_ fun _ _ _ => norm_nonneg _)
  exact Finset.erase_subset_erase _ (Finset.range_mono hk)

end Verif
