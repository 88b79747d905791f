/-
Every array is a sum of products of unit vectors and its rows.
-/
import Verif.Proof.SumOf

namespace Verif
open Res Spec Finset

theorem ret_ex {R S T : Type} [CommRing R] [AddCommGroup S] [Module R S] [AddCommGroup T] [Module R T]
    {f : List S → List T → Res (List T)} {n m : ℕ} (h : LinOp R f n m) {x : List S} (hx : x.length = n) :
    ∃ X, Returns f m x X := by
  obtain ⟨g, hg, -⟩ := h
  exact ⟨g x, fun out ho => (hg x out hx ho).1⟩

/-- Every array is a sum of products of unit vectors and its rows. -/
theorem expand2 {R P : Type} [CommRing R] [AddCommGroup P] [Module R P] (n0 n1 : ℕ) (a : Arr P) :
    ∃ (x : ℕ → List R) (y : ℕ → List P), (∀ r, (x r).length = n0) ∧ (∀ r, (y r).length = n1) ∧
      ∀ i < n0, ∀ j < n1, at_ a [i, j] = ∑ r ∈ range n0, nth (x r) i • nth (y r) j := by
  refine ⟨fun r => (List.range n0).map fun i => if r = i then 1 else 0,
    fun r => (List.range n1).map fun j => at_ a [r, j], fun r => by simp, fun r => by simp, fun i hi j hj => ?_⟩
  rw [Finset.sum_eq_single i]
  · dsimp only
    rw [nth_map_range _ _ _ hi, nth_map_range _ _ _ hj, if_pos rfl, one_smul]
  · intro r _ hr
    dsimp only
    rw [nth_map_range _ _ _ hi, if_neg hr, zero_smul]
  · intro h; exact absurd (mem_range.mpr hi) h

theorem expand3 {R P : Type} [CommRing R] [AddCommGroup P] [Module R P] (n0 n1 n2 : ℕ) (a : Arr P) :
    ∃ (x y : ℕ → List R) (z : ℕ → List P), (∀ r, (x r).length = n0) ∧ (∀ r, (y r).length = n1) ∧
      (∀ r, (z r).length = n2) ∧ ∀ i < n0, ∀ j < n1, ∀ k < n2,
        at_ a [i, j, k] = ∑ r ∈ range (n0 * n1), (nth (x r) i * nth (y r) j) • nth (z r) k := by
  refine ⟨fun r => (List.range n0).map fun i => if r / n1 = i then 1 else 0,
    fun r => (List.range n1).map fun j => if r % n1 = j then 1 else 0,
    fun r => (List.range n2).map fun k => at_ a [r / n1, r % n1, k], fun r => by simp, fun r => by simp,
    fun r => by simp, fun i hi j hj k hk => ?_⟩
  have hn1' : 0 < n1 := by omega
  have ed : (i * n1 + j) / n1 = i := by
    rw [mul_comm, Nat.mul_add_div hn1', Nat.div_eq_of_lt hj, add_zero]
  have em : (i * n1 + j) % n1 = j := by
    rw [mul_comm, Nat.mul_add_mod, Nat.mod_eq_of_lt hj]
  rw [Finset.sum_eq_single (i * n1 + j)]
  · dsimp only
    rw [nth_map_range _ _ _ hi, nth_map_range _ _ _ hj, nth_map_range _ _ _ hk, ed, em, if_pos rfl, if_pos rfl,
      one_mul, one_smul]
  · intro r _ hr
    dsimp only
    rw [nth_map_range _ _ _ hi, nth_map_range _ _ _ hj]
    by_cases e1 : r / n1 = i
    · have e2 : r % n1 ≠ j := fun e2 => hr (by rw [← e1, ← e2, mul_comm]; exact (Nat.div_add_mod r n1).symm)
      rw [if_neg e2, mul_zero, zero_smul]
    · rw [if_neg e1, zero_mul, zero_smul]
  · intro h
    refine absurd (mem_range.mpr ?_) h
    calc i * n1 + j < i * n1 + n1 := by omega
      _ = (i + 1) * n1 := by ring
      _ ≤ n0 * n1 := Nat.mul_le_mul_right _ hi

theorem good_ext3 {T : Type} [Zero T] {a b : Arr T} {n0 n1 n2 : ℕ} (ha : Good a [n0, n1, n2])
    (hb : Good b [n0, n1, n2]) (h : ∀ p < n0, ∀ q < n1, ∀ r < n2, at_ a [p, q, r] = at_ b [p, q, r]) : a = b := by
  refine arr_ext (ha.2.2.trans hb.2.2.symm) (ha.2.1.trans hb.2.1.symm) ha.1 hb.1 fun idx hi => ?_
  rw [ha.2.2] at hi
  cases hi with
  | cons hp hi =>
    cases hi with
    | cons hq hi =>
      cases hi with
      | cons hr hi =>
        cases hi
        exact h _ hp _ hq _ hr

end Verif
