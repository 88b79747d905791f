/-
Lemmas about the field of examples/field.rs.
-/
import Verif.Model.Field
import Verif.Props.Poisson
import Verif.Props.Kinds
import Verif.Proof.Dist

namespace Verif
open Res Spec

/-- the value `get_dx` stores at `i` -/
noncomputable def dxAt (x : List ℝ) (i : ℕ) : ℝ :=
  (if i = x.length - 1 then nth x i else (nth x (i + 1) + nth x i) / 2) -
    (if i = 0 then nth x i else (nth x i + nth x (i - 1)) / 2)

theorem getDxAxis_eq (x : List ℝ) : getDxAxis x = ok ((List.range x.length).map (dxAt x)) := by
  have h : wp (fun _ => False) (getDxAxis x) (fun d => d = (List.range x.length).map (dxAt x)) := by
    unfold getDxAxis
    refine wp_forRange (fun i d => d.length = x.length ∧ ∀ j < i, nth d j = dxAt x j)
      ⟨by simp, by omega⟩ ?_ ?_
    · rintro i d - hi ⟨hl, hd⟩
      have h2 : ((1 : ℝ) + 1) ≠ 0 := by norm_num
      refine wp_bind_i (wp_cut (fun y => y = if i = 0 then nth x i else (nth x i + nth x (i - 1)) / 2)
        ?_ fun y hy => ?_)
      · by_cases h0 : i = 0
        · rw [if_pos h0, if_pos h0, h0]
          exact wp_rdC_i (by omega) rfl
        · rw [if_neg h0, if_neg h0]
          refine wp_bind_i (wp_rdC_i hi ?_)
          refine wp_bind_i (wp_usub_i (by omega) ?_)
          refine wp_bind_i (wp_rdC_i (by omega) ?_)
          exact wp_div_i (fun _ => by rw [smul_eq_mul]; ring) (fun h => h2 h)
      · refine wp_bind_i (wp_usub_i (by omega) ?_)
        refine wp_bind_i (wp_cut (fun z => z = if i = x.length - 1 then nth x i else
          (nth x (i + 1) + nth x i) / 2) ?_ fun z hz => ?_)
        · by_cases h0 : i = x.length - 1
          · rw [if_pos h0, if_pos h0]
            exact wp_rdC_i (by omega) (by rw [h0])
          · rw [if_neg h0, if_neg h0]
            refine wp_bind_i (wp_rdC_i (by omega) ?_)
            refine wp_bind_i (wp_rdC_i (by omega) ?_)
            exact wp_div_i (fun _ => by rw [smul_eq_mul]; ring) (fun h => h2 h)
        · refine wp_wrC_i (by omega) ⟨by simp [hl], fun j hj => ?_⟩
          by_cases hji : j = i
          · subst hji
            rw [nth_set_self _ _ _ (by omega), hy, hz]; rfl
          · rw [nth_set_ne _ _ _ _ (by omega)]
            exact hd j (by omega)
    · rintro d ⟨hl, hd⟩
      refine ext_nth (by simp [hl]) fun i hi => ?_
      rw [hd i (by omega), nth_map_range _ _ _ (by omega)]
  obtain ⟨d, h1, rfl⟩ := wp_total.mp h
  exact h1

/-- partial sums of the deltas -/
theorem sum_dxAt (x : List ℝ) (k : ℕ) (hk : k + 1 < x.length) :
    ∑ i ∈ Finset.range (k + 1), dxAt x i = (nth x (k + 1) + nth x k) / 2 - nth x 0 := by
  induction k with
  | zero => simp only [Finset.sum_range_succ, Finset.range_zero, Finset.sum_empty, dxAt]
            rw [if_neg (by omega)]; simp
  | succ k ih =>
    rw [Finset.sum_range_succ, ih (by omega)]
    unfold dxAt
    rw [if_neg (by omega), if_neg (by omega)]
    simp only [Nat.add_sub_cancel]
    ring

theorem sum_dxAt_all (x : List ℝ) (h : 0 < x.length) :
    ∑ i ∈ Finset.range x.length, dxAt x i = nth x (x.length - 1) - nth x 0 := by
  obtain ⟨k, hk⟩ : ∃ k, x.length = k + 1 := ⟨x.length - 1, by omega⟩
  rw [hk, Finset.sum_range_succ]
  cases k with
  | zero => simp [dxAt, hk]
  | succ k =>
    rw [sum_dxAt x k (by omega)]
    unfold dxAt
    rw [if_pos (by omega), if_neg (by omega)]
    simp only [Nat.add_sub_cancel]
    ring

theorem dxAt_pos (x : List ℝ) (hinc : ∀ i j, i < j → j < x.length → nth x i < nth x j)
    (h2 : 2 ≤ x.length) (i : ℕ) (hi : i < x.length) : 0 < dxAt x i := by
  unfold dxAt
  split_ifs with h1 h0 h0
  · omega
  · have := hinc (i - 1) i (by omega) hi; linarith
  · have := hinc i (i + 1) (by omega) (by omega); linarith
  · have := hinc i (i + 1) (by omega) (by omega)
    have := hinc (i - 1) i (by omega) hi; linarith

/-- shape of a matrix is kept by a checked write, if the write succeeds -/
private theorem wp_wrC_shape {K : Type} {m : Mat K} {r c i j : ℕ} {x : K} (h : m.rows = r ∧ m.cols = c) :
    wp (fun _ => True) (m.wrC i j x) (fun m => m.rows = r ∧ m.cols = c) := by
  unfold Mat.wrC
  split
  · exact h
  · trivial

private theorem wp_top {α : Type} (r : Res α) : wp (fun _ => True) r (fun _ => True) := by
  cases r <;> trivial

private theorem wp_pinvDiag_shape {a b : ℕ} {col : ℕ → Res ℕ} {num : ℝ} {den : ℕ → Res ℝ} {p : Mat ℝ}
    {r c : ℕ} (h : p.rows = r ∧ p.cols = c) :
    wp (fun _ => True) (pinvDiag ℝ a b col num den p) (fun m => m.rows = r ∧ m.cols = c) := by
  unfold pinvDiag
  refine wp_forRange (fun _ (m : Mat ℝ) => m.rows = r ∧ m.cols = c) h ?_ (fun _ h => h)
  intro i m _ _ hm
  refine wp_bind_i (wp_mono (wp_top _) fun _ _ => ?_)
  refine wp_bind_i (wp_mono (wp_top _) fun _ _ => ?_)
  refine wp_bind_i (wp_mono (wp_top _) fun _ _ => ?_)
  exact wp_wrC_shape hm

/-- whenever `laplacian_pinv` returns, the size is at least four and the shapes are `n×n` and
`(n-2)×n` -/
theorem laplacianPinv_shape {o : Mode} {n : ℕ} {P I : Mat ℝ}
    (h : (⟨n, n⟩ : Cheb).laplacianPinv ℝ o = ok (P, I)) :
    4 ≤ n ∧ P.rows = n ∧ P.cols = n ∧ I.rows = n - 2 ∧ I.cols = n := by
  have key : wp (fun _ => True) ((⟨n, n⟩ : Cheb).laplacianPinv ℝ o) (fun q =>
      4 ≤ n ∧ q.1.rows = n ∧ q.1.cols = n ∧ q.2.rows = n - 2 ∧ q.2.cols = n) := by
    unfold Cheb.laplacianPinv Cheb.diffmatPinv
    refine wp_bind_i (wp_assert_i (by omega) ?_)
    refine wp_bind_i (wp_cut (fun p => 4 ≤ n ∧ p.rows = n ∧ p.cols = n) ?_ ?_)
    · unfold pinv
      dsimp only
      rw [if_neg (by omega), if_pos rfl]
      refine wp_bind_i (wp_mono (wp_wrC_shape ⟨rfl, rfl⟩) fun p hp => ?_)
      refine wp_bind_i (wp_mono (wp_pinvDiag_shape hp) fun p hp => ?_)
      rw [wp_bind, wp_usub]
      refine ⟨fun _ => ?_, fun _ => trivial⟩
      refine wp_bind_i (wp_mono (wp_pinvDiag_shape hp) fun p hp => ?_)
      rw [wp_bind, wp_usub]
      refine ⟨fun h4 => ?_, fun _ => trivial⟩
      exact wp_mono (wp_pinvDiag_shape hp) fun p hp => ⟨h4, hp⟩
    · rintro p ⟨h4, h1, h2⟩
      unfold pinvEye
      refine wp_bind_i (wp_bind_i (wp_assert_i (by show 2 ≤ n; omega) ?_))
      exact ⟨h4, h1, h2, rfl, rfl⟩
  rw [h] at key
  exact key

theorem fair_exists (sh : List ℕ) (ax : ℕ) : ∃ s, FairSchedule sh ax s := by
  refine ⟨(List.range (laneCount sh ax)).flatMap (fun l => List.replicate (sh.getD ax 0 + 1) l), ?_, ?_⟩
  · intro l hl
    obtain ⟨a, ha, hal⟩ := List.mem_flatMap.mp hl
    rw [(List.mem_replicate.mp hal).2]
    exact List.mem_range.mp ha
  · intro l hl
    rw [List.count_flatMap]
    refine le_trans ?_ (List.single_le_sum (by simp) _ (List.mem_map.mpr ⟨l, List.mem_range.mpr hl, rfl⟩))
    simp

end Verif
