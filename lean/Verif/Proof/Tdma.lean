/- Correctness of the tridiagonal solver: loop invariants. -/
import Verif.Model.Tdma
import Mathlib.Tactic.Module
import Mathlib.Tactic.Abel
import Mathlib.Tactic.IntervalCases
import Mathlib.Tactic.FieldSimp
import Mathlib.Tactic.Ring
import Mathlib.Tactic.LinearCombination

namespace Verif
open Res
variable {K T : Type} [Field K] [DecidableEq K] [AddCommGroup T] [Module K T]

/-- pivots of the elimination -/
def triPiv (l d u : ℕ → K) : ℕ → K
  | 0 => d 0
  | 1 => d 1
  | i + 2 => d (i + 2) - l i * ((triPiv l d u i)⁻¹ * u i)

/-- upper factor -/
def triW (l d u : ℕ → K) (i : ℕ) : K := (triPiv l d u i)⁻¹ * u i

def triG (l d u : ℕ → K) (r : ℕ → T) : ℕ → T
  | 0 => (triPiv l d u 0)⁻¹ • r 0
  | 1 => (triPiv l d u 1)⁻¹ • r 1
  | i + 2 => (triPiv l d u (i + 2))⁻¹ • (r (i + 2) - l i • triG l d u r i)

theorem wp_tdma {Q : Err → Prop} (l2 d0 u2 : List K) (rhs : List T) (n : ℕ)
    (hn : 3 ≤ n) (hr : rhs.length = n)
    (hl : l2.length = n - 2) (hd : d0.length = n) (hu : u2.length = n - 2)
    (hQ : ∀ i < n, triPiv (nth l2) (nth d0) (nth u2) i = 0 → Q .div0) :
    wp Q (tdma l2 d0 u2 rhs) (fun x => (∀ i < n, triPiv (nth l2) (nth d0) (nth u2) i ≠ 0) ∧
      x.length = n ∧
      (∀ i, n - 2 ≤ i → i < n → nth x i = triG (nth l2) (nth d0) (nth u2) (nth rhs) i) ∧
      (∀ i, i < n - 2 → nth x i = triG (nth l2) (nth d0) (nth u2) (nth rhs) i
        - triW (nth l2) (nth d0) (nth u2) i • nth x (i + 2))) := by
  unfold tdma
  set l := nth l2; set d := nth d0; set u := nth u2; set r := nth rhs
  have hQ0 : d 0 = 0 → Q .div0 := fun h => hQ 0 (by omega) h
  have hQ1 : d 1 = 0 → Q .div0 := fun h => hQ 1 (by omega) h
  rw [hr]
  wprun
  · -- w[1]
    refine wp_cut (fun w => w.length = n - 2 ∧ ∀ i, i < 2 → i < n - 2 → nth w i = triW l d u i)
      ?_ ?_
    · refine wp_ite_i (fun h => ?_) (fun h => ?_)
      · wprun
        · refine ⟨by simp, ?_⟩
          intro i hi hi'
          interval_cases i
          · rw [nth_set_ne _ _ _ _ (by omega), nth_set_self _ _ _ (by simp; omega)]; rfl
          · rw [nth_set_self _ _ _ (by simp; omega)]; rfl
        · exact hQ1
      · wprun
        refine ⟨by simp, ?_⟩
        intro i hi hi'
        interval_cases i
        · rw [nth_set_self _ _ _ (by simp; omega)]; rfl
        · omega
    rintro w ⟨hw, hw2⟩
    wprun
    · refine wp_forRange (fun k w => w.length = n - 2 ∧
        ∀ i, i < k → i < n - 2 → nth w i = triW l d u i) ⟨hw, hw2⟩ ?_ ?_
      · rintro i w hi hi' ⟨hw, hw2⟩
        obtain ⟨i, rfl⟩ : ∃ j, i = j + 2 := ⟨i - 2, by omega⟩
        wprun
        · refine ⟨by simpa using hw, ?_⟩
          intro j hj hj'
          rcases Nat.lt_succ_iff_lt_or_eq.mp hj with h | h
          · rw [nth_set_ne _ _ _ _ (by omega)]; exact hw2 j h hj'
          · subst h
            rw [nth_set_self _ _ _ (by omega)]
            simp only [Nat.add_sub_cancel, hw2 i (by omega) (by omega)]
            rfl
        · simp only [Nat.add_sub_cancel, hw2 i (by omega) (by omega)]
          exact hQ (i + 2) (by omega)
      rintro w ⟨hw, hw2⟩
      replace hw2 : ∀ i, i < n - 2 → nth w i = triW l d u i := fun i hi => hw2 i (by omega) hi
      wprun
      refine wp_forRange (fun k g => (∀ i < k, triPiv l d u i ≠ 0) ∧
        g.length = n ∧ ∀ i, i < k → nth g i = triG l d u r i)
        ⟨?_, by simp, ?_⟩ ?_ ?_
      · intro i hi
        interval_cases i
        · show d 0 ≠ 0; assumption
        · show d 1 ≠ 0; assumption
      · intro i hi
        interval_cases i
        · rw [nth_set_ne _ _ _ _ (by omega), nth_set_self _ _ _ (by simp; omega)]; rfl
        · rw [nth_set_self _ _ _ (by simp; omega)]; rfl
      · rintro i g hi hi' ⟨hnz, hg, hg2⟩
        obtain ⟨i, rfl⟩ : ∃ j, i = j + 2 := ⟨i - 2, by omega⟩
        wprun
        · rename_i hne
          simp only [Nat.add_sub_cancel, hw2 i (by omega)] at hne
          refine ⟨?_, by simpa using hg, ?_⟩
          · intro j hj
            rcases Nat.lt_succ_iff_lt_or_eq.mp hj with h | h
            · exact hnz j h
            · subst h; exact hne
          intro j hj
          rcases Nat.lt_succ_iff_lt_or_eq.mp hj with h | h
          · rw [nth_set_ne _ _ _ _ (by omega)]; exact hg2 j h
          · subst h
            rw [nth_set_self _ _ _ (by omega)]
            simp only [Nat.add_sub_cancel, hw2 i (by omega), hg2 i (by omega)]
            rfl
        · simp only [Nat.add_sub_cancel, hw2 i (by omega)]
          exact hQ (i + 2) (by omega)
      rintro g ⟨hnz, hg, hg2⟩
      rw [show max 2 n = n by omega] at hnz
      replace hg2 : ∀ i, i < n → nth g i = triG l d u r i := fun i hi => hg2 i (by omega)
      wprun
      refine wp_forRev (fun k x => x.length = n ∧
        (∀ i, n - 2 ≤ i → i < n → nth x i = triG l d u r i) ∧
        (∀ i, k ≤ i + 1 → i < n - 2 → nth x i = triG l d u r i - triW l d u i • nth x (i + 2)))
        ⟨by simpa using hr, ?_, ?_⟩ ?_ ?_
      · intro i h1 h2
        rw [nth_set]
        by_cases h : n - 2 = i
        · rw [if_pos ⟨h, by simp; omega⟩, hg2 _ (by omega), h]
        · rw [if_neg (by tauto)]
          obtain rfl : i = n - 1 := by omega
          rw [nth_set_self _ _ _ (by omega)]; exact hg2 _ (by omega)
      · intro i h1 h2; omega
      · rintro i x hi hi' ⟨hx, hx1, hx2⟩
        obtain ⟨i, rfl⟩ : ∃ j, i = j + 1 := ⟨i - 1, by omega⟩
        wprun
        simp only [Nat.add_sub_cancel]
        refine ⟨by simpa using hx, ?_, ?_⟩
        · intro j h1 h2
          rw [nth_set_ne _ _ _ _ (by omega)]; exact hx1 j h1 h2
        · intro j h1 h2
          rw [nth_set_ne _ i (j + 2) _ (by omega)]
          by_cases h : i = j
          · subst h
            rw [nth_set_self _ _ _ (by omega), hg2 _ (by omega), hw2 _ (by omega)]
          · rw [nth_set_ne _ _ _ _ h]; exact hx2 j (by omega) h2
      · rintro x ⟨hx, hx1, hx2⟩
        exact ⟨hnz, hx, hx1, fun i hi => hx2 i (by omega) hi⟩
    · exact hQ1
  · exact hQ0
  · exact hQ0

/-- The elimination identity: a vector obeying the recurrences solves the system. -/
theorem tri_solves (l d u : ℕ → K) (r x : ℕ → T) (n : ℕ)
    (hp : ∀ i < n, triPiv l d u i ≠ 0)
    (hlast : ∀ i, n - 2 ≤ i → i < n → x i = triG l d u r i)
    (hx : ∀ i, i < n - 2 → x i = triG l d u r i - triW l d u i • x (i + 2)) :
    ∀ i < n, (if 2 ≤ i then l (i - 2) • x (i - 2) else 0) + d i • x i
      + (if i + 2 < n then u i • x (i + 2) else 0) = r i := by
  have key : ∀ i < n, triPiv l d u i • x i + (if i + 2 < n then u i • x (i + 2) else 0)
      = triPiv l d u i • triG l d u r i := by
    intro i hi
    have := hp i hi
    by_cases h : i + 2 < n
    · rw [if_pos h, hx i (by omega), triW, smul_sub, smul_smul, mul_inv_cancel_left₀ this]
      abel
    · rw [if_neg h, hlast i (by omega) hi, add_zero]
  have hG : ∀ i < n, triPiv l d u i • triG l d u r i
      = r i - (if 2 ≤ i then l (i - 2) • triG l d u r (i - 2) else 0) := by
    intro i hi
    have := hp i hi
    match i, hi, this with
    | 0, _, h => rw [triG, smul_smul, mul_inv_cancel₀ h]; simp
    | 1, _, h => simp [triG, smul_smul, mul_inv_cancel₀ h]
    | i + 2, _, h => rw [triG, smul_smul, mul_inv_cancel₀ h]; simp
  intro i hi
  have k1 := key i hi
  rw [hG i hi] at k1
  by_cases h2 : 2 ≤ i
  · obtain ⟨j, rfl⟩ : ∃ j, i = j + 2 := ⟨i - 2, by omega⟩
    simp only [h2, if_true, Nat.add_sub_cancel] at k1 ⊢
    rw [triPiv, ← triW, sub_smul] at k1
    rw [hx j (by omega), smul_sub, smul_smul]
    have : d (j + 2) • x (j + 2) + (if j + 2 + 2 < n then u (j + 2) • x (j + 2 + 2) else 0)
      = r (j + 2) - l j • triG l d u r j + (l j * triW l d u j) • x (j + 2) := by
      rw [← k1]; abel
    rw [add_assoc, this]; abel
  · rw [if_neg h2] at k1 ⊢
    have : triPiv l d u i = d i := by
      match i, h2 with
      | 0, _ => rfl
      | 1, _ => rfl
      | i + 2, h => omega
    rw [this] at k1
    simpa using k1

end Verif
