/-
Property theorems C93: the banded solvers in arithmetic with rounding.
-/
import Verif.Proof.RndPentaDom
import Verif.Props.Minors
import Verif.Props.Rounding

namespace Verif.Props
open Res Spec Finset
variable {R : Rounding}

theorem vals_fun (l : List (Rnd R)) : nth (vals l) = fun k => (nth l k).val := funext fun k => Rnd.nth_vals l k

/-- C93: in arithmetic with rounding `pdma` on bands of the right lengths either meets a zero pivot or returns the exact
solution of a nearby system: there are a lower and a unit upper band factor whose product is the matrix up to two
roundings and to which the backward error is proportional with seven roundings. -/
theorem C93_pdma_backward (h7 : 7 * R.u < 1) (l2 l1 d0 u1 u2 rhs : List (Rnd R)) (hn : 4 ≤ rhs.length)
    (h2 : l2.length = rhs.length - 2) (h1 : l1.length = rhs.length - 1) (hd : d0.length = rhs.length)
    (hu1 : u1.length = rhs.length - 1) (hu2 : u2.length = rhs.length - 2) :
    pdma l2 l1 d0 u1 u2 rhs = err .div0 ∨ ∃ x, pdma l2 l1 d0 u1 u2 rhs = ok x ∧ x.length = rhs.length ∧
      ∃ (A L U : ℕ → ℕ → ℝ) (ga mu al be : ℕ → ℝ),
        A = pentaMat 1 (nth (vals l2)) (nth (vals l1)) (nth (vals d0)) (nth (vals u1)) (nth (vals u2)) ∧
        L = pentaMat 1 (nth (vals l2)) ga mu 0 0 ∧ U = pentaMat 1 0 0 1 al be ∧
        (∀ i < rhs.length, ∀ j < rhs.length, |A i j - ∑ k ∈ range rhs.length, L i k * U k j|
          ≤ R.γ 2 * ∑ k ∈ range rhs.length, |L i k| * |U k j|) ∧
        ∃ A' : ℕ → ℕ → ℝ, Solves rhs.length A' (nth (vals x)) (nth (vals rhs)) ∧
          ∀ i < rhs.length, ∀ j < rhs.length, |A' i j - A i j| ≤ R.γ 7 * ∑ k ∈ range rhs.length, |L i k| * |U k j| := by
  have hw := wp_pdma_rnd (Q := fun e => e = .div0) (l2 := l2) (l1 := l1) (d0 := d0) (u1 := u1) (u2 := u2) hn rfl h2 h1 hd hu1
    hu2 (fun _ _ _ => rfl)
  cases hp : pdma l2 l1 d0 u1 u2 rhs with
  | err e => rw [hp] at hw; exact .inl (congrArg _ hw)
  | ok x =>
    rw [hp] at hw
    obtain ⟨hm, hx, hb⟩ := hw
    refine .inr ⟨x, rfl, hx, _, _, _, fun j => (rLU 1 (nth l2) (nth l1) (nth d0) (nth u1) (nth u2) (j + 1)).ga.val,
      fun i => (rLU 1 (nth l2) (nth l1) (nth d0) (nth u1) (nth u2) i).mu.val, fun i => (rLU 1 (nth l2) (nth l1) (nth d0) (nth u1) (nth u2) i).al.val,
      fun i => (rLU 1 (nth l2) (nth l1) (nth d0) (nth u1) (nth u2) i).be.val, rfl, rfl, rfl, ?_⟩
    simp only [vals_fun]
    exact penta_backward (r := nth rhs) (x := nth x) h7 one_pos hm hb

/-- C93: the same for `pdma2`. -/
theorem C93_pdma2_backward (h7 : 7 * R.u < 1) (l4 l2 d0 u2 u4 rhs : List (Rnd R)) (hn : 6 ≤ rhs.length)
    (h4 : l4.length = rhs.length - 4) (h2 : l2.length = rhs.length - 2) (hd : d0.length = rhs.length)
    (hu2 : u2.length = rhs.length - 2) (hu4 : u4.length = rhs.length - 4) :
    pdma2 l4 l2 d0 u2 u4 rhs = err .div0 ∨ ∃ x, pdma2 l4 l2 d0 u2 u4 rhs = ok x ∧ x.length = rhs.length ∧
      ∃ (A L U : ℕ → ℕ → ℝ) (ga mu al be : ℕ → ℝ),
        A = pentaMat 2 (nth (vals l4)) (nth (vals l2)) (nth (vals d0)) (nth (vals u2)) (nth (vals u4)) ∧
        L = pentaMat 2 (nth (vals l4)) ga mu 0 0 ∧ U = pentaMat 2 0 0 1 al be ∧
        (∀ i < rhs.length, ∀ j < rhs.length, |A i j - ∑ k ∈ range rhs.length, L i k * U k j|
          ≤ R.γ 2 * ∑ k ∈ range rhs.length, |L i k| * |U k j|) ∧
        ∃ A' : ℕ → ℕ → ℝ, Solves rhs.length A' (nth (vals x)) (nth (vals rhs)) ∧
          ∀ i < rhs.length, ∀ j < rhs.length, |A' i j - A i j| ≤ R.γ 7 * ∑ k ∈ range rhs.length, |L i k| * |U k j| := by
  have hw := wp_pdma2_rnd (Q := fun e => e = .div0) (l4 := l4) (l2 := l2) (d0 := d0) (u2 := u2) (u4 := u4) hn rfl h4 h2 hd hu2
    hu4 (fun _ _ _ => rfl)
  cases hp : pdma2 l4 l2 d0 u2 u4 rhs with
  | err e => rw [hp] at hw; exact .inl (congrArg _ hw)
  | ok x =>
    rw [hp] at hw
    obtain ⟨hm, hx, hb⟩ := hw
    refine .inr ⟨x, rfl, hx, _, _, _, fun j => (rLU 2 (nth l4) (nth l2) (nth d0) (nth u2) (nth u4) (j + 2)).ga.val,
      fun i => (rLU 2 (nth l4) (nth l2) (nth d0) (nth u2) (nth u4) i).mu.val, fun i => (rLU 2 (nth l4) (nth l2) (nth d0) (nth u2) (nth u4) i).al.val,
      fun i => (rLU 2 (nth l4) (nth l2) (nth d0) (nth u2) (nth u4) i).be.val, rfl, rfl, rfl, ?_⟩
    simp only [vals_fun]
    exact penta_backward (r := nth rhs) (x := nth x) h7 two_pos hm hb

/-- `DominantBy` in the bands -/
theorem dominantBy_bands {s n : ℕ} (hs : 0 < s) {b c d e f : List (Rnd R)} {ρ σ : ℝ} (hρ : ρ < σ)
    (he : e.length = n - s) (hf : f.length = n - 2 * s)
    (h : DominantBy ρ n (pentaMat s (nth (vals b)) (nth (vals c)) (nth (vals d)) (nth (vals e)) (nth (vals f)))) :
    (∀ i, n ≤ i + s → (nth e i).val = 0) ∧ (∀ i, n ≤ i + 2 * s → (nth f i).val = 0) ∧
    ∀ i < n, (if 2 * s ≤ i then |(nth b (i - 2 * s)).val| else 0) + (if s ≤ i then |(nth c (i - s)).val| else 0)
      + |(nth e i).val| + |(nth f i).val| < σ * |(nth d i).val| := by
  have e0 : ∀ i, n ≤ i + s → (nth e i).val = 0 := fun i hi => by rw [nth_of_le _ _ (by omega)]; rfl
  have f0 : ∀ i, n ≤ i + 2 * s → (nth f i).val = 0 := fun i hi => by rw [nth_of_le _ _ (by omega)]; rfl
  refine ⟨e0, f0, fun i hi => ?_⟩
  obtain ⟨hne, hoff⟩ := h i hi
  have key := add_sum_erase (range n) (fun j => |pentaMat s (nth (vals b)) (nth (vals c)) (nth (vals d)) (nth (vals e))
    (nth (vals f)) i j|) (mem_range.mpr hi)
  rw [sum_abs_penta hs hi] at key
  rw [pentaMat_diag hs] at hne hoff key
  simp only [Rnd.nth_vals] at hne hoff key
  have p := abs_pos.mpr hne
  have e1 : (if i + s < n then |(nth e i).val| else 0) = |(nth e i).val| := by
    split
    · rfl
    · rw [e0 i (by omega), abs_zero]
  have f1 : (if i + 2 * s < n then |(nth f i).val| else 0) = |(nth f i).val| := by
    split
    · rfl
    · rw [f0 i (by omega), abs_zero]
  rw [e1, f1] at key
  have := mul_lt_mul_of_pos_right hρ p
  linarith

theorem rowDominant_of_by {n : ℕ} {ρ : ℝ} (hρ : ρ < 1) {A : ℕ → ℕ → ℝ} (h : DominantBy ρ n A) : RowDominant n A := by
  intro i hi
  obtain ⟨hne, hoff⟩ := h i hi
  have p := abs_pos.mpr hne
  simp only [Real.norm_eq_abs]
  nlinarith

theorem within_of {x : List (Rnd R)} {y : List ℝ} {n : ℕ} {ε : ℝ} (hx : x.length = n) (hy : y.length = n)
    (h : ∀ i < n, |(nth x i).val - nth y i| ≤ ε) : Within ε (vals x) y := by
  refine ⟨by rw [vals_length, hx, hy], fun i hi => ?_⟩
  rw [Rnd.nth_vals]
  exact h i (by rwa [vals_length, hx] at hi)

theorem bounded_vals {x : List (Rnd R)} {X : ℝ} (h : Bounded X (vals x)) : ∀ i < x.length, |(nth x i).val| ≤ X := by
  intro i hi
  rw [← Rnd.nth_vals]
  have hi' : i < (vals x).length := by rwa [vals_length]
  exact h _ (by rw [nth_eq_getElem _ _ hi']; exact List.getElem_mem hi')

/-- C93: on systems whose rows are dominated by their diagonal entries with a ratio below `(1 - u)⁷`, `pdma` with
rounding returns: it solves a system whose rows differ by at most nine times seven roundings of the diagonal entry, and
its result is that of `pdma` in exact arithmetic up to the corresponding error. -/
theorem C93_pdma_dominant (h7 : 7 * R.u < 1) (l2 l1 d0 u1 u2 rhs : List (Rnd R)) (hn : 4 ≤ rhs.length)
    (h2 : l2.length = rhs.length - 2) (h1 : l1.length = rhs.length - 1) (hd : d0.length = rhs.length)
    (hu1 : u1.length = rhs.length - 1) (hu2 : u2.length = rhs.length - 2) {ρ : ℝ} (hρ : ρ < (1 - R.u) ^ 7)
    (hdom : DominantBy ρ rhs.length
      (pentaMat 1 (nth (vals l2)) (nth (vals l1)) (nth (vals d0)) (nth (vals u1)) (nth (vals u2)))) :
    ∃ x y, pdma l2 l1 d0 u1 u2 rhs = ok x ∧ x.length = rhs.length ∧
      pdma (vals l2) (vals l1) (vals d0) (vals u1) (vals u2) (vals rhs) = ok y ∧
      (∃ A : ℕ → ℕ → ℝ, Solves rhs.length A (nth (vals x)) (nth (vals rhs)) ∧ ∀ i < rhs.length, ∑ j ∈ range rhs.length,
        |A i j - pentaMat 1 (nth (vals l2)) (nth (vals l1)) (nth (vals d0)) (nth (vals u1)) (nth (vals u2)) i j|
          ≤ 9 * R.γ 7 * |nth (vals d0) i|) ∧
      ∀ X, Bounded X (vals x) → Within (9 * R.γ 7 * X / (1 - ρ)) (vals x) y := by
  have u0 := R.u_nonneg
  have hσ : (1 - R.u) ^ 7 ≤ 1 := pow_le_one₀ (by linarith) (by linarith)
  have hρ1 : ρ < 1 := by linarith
  obtain ⟨he, hf, hb⟩ := dominantBy_bands one_pos hρ hu1 hu2 hdom
  have hrow := dominant_rows h7 one_pos he hf hb
  obtain ⟨x, e, -, hx, hB⟩ := wp_total.mp (wp_pdma_rnd (Q := fun _ => False) (l2 := l2) (l1 := l1) (d0 := d0) (u1 := u1)
    (u2 := u2) hn rfl h2 h1 hd hu1 hu2 (fun i hi h => (hrow i hi).1 h))
  obtain ⟨A', hS, hE⟩ := dominant_backward (r := nth rhs) (x := nth x) h7 one_pos he hf hb hB
  obtain ⟨y, ey, hy⟩ := (C91_dominant [] (vals l2) (vals l1) (vals d0) (vals u1) (vals u2) [] (vals rhs)
    (by simpa only [vals_length] using hd)).2.1 (by simpa only [vals_length] using hn)
    (by simpa only [vals_length] using h2) (by simpa only [vals_length] using h1)
    (by simpa only [vals_length] using hu1) (by simpa only [vals_length] using hu2)
    (.inl (by simpa only [vals_length] using rowDominant_of_by hρ1 hdom))
  have hyl : y.length = rhs.length := by
    rcases C18_pdma_solves (vals l2) (vals l1) (vals d0) (vals u1) (vals u2) (vals rhs)
      (by simpa only [vals_length] using hn)
      (by simpa only [vals_length] using h2) (by simpa only [vals_length] using h1)
      (by simpa only [vals_length] using hd) (by simpa only [vals_length] using hu1)
      (by simpa only [vals_length] using hu2) with h | ⟨z, hz, hl, -⟩
    · exact absurd (ey.symm.trans h) (by simp)
    · rw [Res.ok.inj (ey.symm.trans hz), hl, vals_length]
  rw [vals_length] at hy
  refine ⟨x, y, e, hx, ey, ⟨A', by simpa only [vals_fun] using hS, by simpa only [vals_fun] using hE⟩, fun X hX => ?_⟩
  refine within_of hx hyl (dominant_forward (x := fun i => (nth x i).val) hρ1
    (fun i hi => bounded_vals hX i (by rw [hx]; exact hi)) hdom ?_ hS (by simpa only [vals_fun] using hy))
  simp only [pentaMat_diag one_pos]
  simpa only [vals_fun] using hE

/-- C93: the same for `pdma2`. -/
theorem C93_pdma2_dominant (h7 : 7 * R.u < 1) (l4 l2 d0 u2 u4 rhs : List (Rnd R)) (hn : 6 ≤ rhs.length)
    (h4 : l4.length = rhs.length - 4) (h2 : l2.length = rhs.length - 2) (hd : d0.length = rhs.length)
    (hu2 : u2.length = rhs.length - 2) (hu4 : u4.length = rhs.length - 4) {ρ : ℝ} (hρ : ρ < (1 - R.u) ^ 7)
    (hdom : DominantBy ρ rhs.length
      (pentaMat 2 (nth (vals l4)) (nth (vals l2)) (nth (vals d0)) (nth (vals u2)) (nth (vals u4)))) :
    ∃ x y, pdma2 l4 l2 d0 u2 u4 rhs = ok x ∧ x.length = rhs.length ∧
      pdma2 (vals l4) (vals l2) (vals d0) (vals u2) (vals u4) (vals rhs) = ok y ∧
      (∃ A : ℕ → ℕ → ℝ, Solves rhs.length A (nth (vals x)) (nth (vals rhs)) ∧ ∀ i < rhs.length, ∑ j ∈ range rhs.length,
        |A i j - pentaMat 2 (nth (vals l4)) (nth (vals l2)) (nth (vals d0)) (nth (vals u2)) (nth (vals u4)) i j|
          ≤ 9 * R.γ 7 * |nth (vals d0) i|) ∧
      ∀ X, Bounded X (vals x) → Within (9 * R.γ 7 * X / (1 - ρ)) (vals x) y := by
  have u0 := R.u_nonneg
  have hσ : (1 - R.u) ^ 7 ≤ 1 := pow_le_one₀ (by linarith) (by linarith)
  have hρ1 : ρ < 1 := by linarith
  obtain ⟨he, hf, hb⟩ := dominantBy_bands two_pos hρ hu2 hu4 hdom
  have hrow := dominant_rows h7 two_pos he hf hb
  obtain ⟨x, e, -, hx, hB⟩ := wp_total.mp (wp_pdma2_rnd (Q := fun _ => False) (l4 := l4) (l2 := l2) (d0 := d0) (u2 := u2)
    (u4 := u4) hn rfl h4 h2 hd hu2 hu4 (fun i hi h => (hrow i hi).1 h))
  obtain ⟨A', hS, hE⟩ := dominant_backward (r := nth rhs) (x := nth x) h7 two_pos he hf hb hB
  obtain ⟨y, ey, hy⟩ := (C91_dominant (vals l4) (vals l2) [] (vals d0) [] (vals u2) (vals u4) (vals rhs)
    (by simpa only [vals_length] using hd)).2.2 (by simpa only [vals_length] using hn)
    (by simpa only [vals_length] using h4) (by simpa only [vals_length] using h2)
    (by simpa only [vals_length] using hu2) (by simpa only [vals_length] using hu4)
    (.inl (by simpa only [vals_length] using rowDominant_of_by hρ1 hdom))
  have hyl : y.length = rhs.length := by
    rcases C18_pdma2_solves (vals l4) (vals l2) (vals d0) (vals u2) (vals u4) (vals rhs)
      (by simpa only [vals_length] using hn)
      (by simpa only [vals_length] using h4) (by simpa only [vals_length] using h2)
      (by simpa only [vals_length] using hd) (by simpa only [vals_length] using hu2)
      (by simpa only [vals_length] using hu4) with h | ⟨z, hz, hl, -⟩
    · exact absurd (ey.symm.trans h) (by simp)
    · rw [Res.ok.inj (ey.symm.trans hz), hl, vals_length]
  rw [vals_length] at hy
  refine ⟨x, y, e, hx, ey, ⟨A', by simpa only [vals_fun] using hS, by simpa only [vals_fun] using hE⟩, fun X hX => ?_⟩
  refine within_of hx hyl (dominant_forward (x := fun i => (nth x i).val) hρ1
    (fun i hi => bounded_vals hX i (by rw [hx]; exact hi)) hdom ?_ hS (by simpa only [vals_fun] using hy))
  simp only [pentaMat_diag two_pos]
  simpa only [vals_fun] using hE

/-- C93: the tridiagonal solver: forward error on systems dominated with ratio `ρ`. -/
theorem C93_tdma_dominant (hR : R.Nearest) (h5 : 5 * R.u < 1) (l2 d0 u2 rhs : List (Rnd R))
    (hn : 3 ≤ rhs.length) (hl : l2.length = rhs.length - 2) (hd : d0.length = rhs.length)
    (hu : u2.length = rhs.length - 2) (fl : ∀ x ∈ vals l2, R.IsFloat x) (fu : ∀ x ∈ vals u2, R.IsFloat x)
    {ρ : ℝ} (hρ : ρ < 1) (hdom : DominantBy ρ rhs.length (triMat (nth (vals l2)) (nth (vals d0)) (nth (vals u2)))) :
    ∃ x y, tdma l2 d0 u2 rhs = ok x ∧ x.length = rhs.length ∧ tdma (vals l2) (vals d0) (vals u2) (vals rhs) = ok y ∧
      ∀ X, Bounded X (vals x) → Within (4 * R.γ 5 * X / (1 - ρ)) (vals x) y := by
  set A := triMat (nth (vals l2)) (nth (vals d0)) (nth (vals u2)) with hA
  have g5 := R.γ_nonneg (k := 5) (by push_cast; linarith)
  have split : ∀ i < rhs.length, leftSum A i + rightSum rhs.length A i = ∑ j ∈ (range rhs.length).erase i, |A i j| := by
    intro i hi
    have key := add_sum_erase (range rhs.length) (fun j => |A i j|) (mem_range.mpr hi)
    have : ∑ j ∈ range rhs.length, |A i j| = leftSum A i + |A i i| + rightSum rhs.length A i := by
      rw [leftSum, rightSum, ← sum_range_succ, sum_range_add_sum_Ico _ (by omega)]
    linarith
  have hl0 : ∀ i, 0 ≤ leftSum A i := fun i => sum_nonneg fun _ _ => abs_nonneg _
  have hr0 : ∀ i, 0 ≤ rightSum rhs.length A i := fun i => sum_nonneg fun _ _ => abs_nonneg _
  have strict : ∀ i < rhs.length, leftSum A i + rightSum rhs.length A i < |A i i| := by
    intro i hi
    have p := abs_pos.mpr (hdom i hi).1
    have := (hdom i hi).2
    rw [split i hi]
    nlinarith
  obtain ⟨x, e, hx, A', hS, hE⟩ := C71_tdma_backward_stable hR h5 l2 d0 u2 rhs hn hl hd hu fl fu
    (fun i hi => ⟨(strict i hi).le, by linarith [strict i hi, hr0 i]⟩)
  obtain ⟨y, ey, hy⟩ := (C91_dominant [] (vals l2) [] (vals d0) [] (vals u2) [] (vals rhs)
    (by simpa only [vals_length] using hd)).1 (by simpa only [vals_length] using hn)
    (by simpa only [vals_length] using hl) (by simpa only [vals_length] using hu)
    (.inl (by simpa only [vals_length] using rowDominant_of_by hρ hdom))
  have hyl : y.length = rhs.length := by
    rcases C18_tdma_solves (vals l2) (vals d0) (vals u2) (vals rhs) (by simpa only [vals_length] using hn)
      (by simpa only [vals_length] using hl) (by simpa only [vals_length] using hd)
      (by simpa only [vals_length] using hu) with h | ⟨z, hz, hl, -⟩
    · exact absurd (ey.symm.trans h) (by simp)
    · rw [Res.ok.inj (ey.symm.trans hz), hl, vals_length]
  rw [vals_length] at hy
  refine ⟨x, y, e, hx, ey, fun X hX => ?_⟩
  refine within_of hx hyl (dominant_forward (x := fun i => (nth x i).val) hρ
    (fun i hi => bounded_vals hX i (by rw [hx]; exact hi)) hdom (fun i hi => ?_) (by simpa only [vals_fun] using hS) hy)
  refine (sum_le_sum fun j hj => hE i hi j (mem_range.mp hj)).trans ?_
  rw [← mul_sum, sum_add_distrib, sum_ite_eq (range rhs.length) i, if_pos (mem_range.mpr hi),
    ← add_sum_erase _ _ (mem_range.mpr hi), ← split i hi, mul_comm 4, mul_assoc]
  refine mul_le_mul_of_nonneg_left ?_ g5
  have := strict i hi
  have := hr0 i
  linarith

/-! ### The hypotheses are met -/

theorem nth_rep {S : Type} [Zero S] (m : ℕ) (a : S) (i : ℕ) : nth (List.replicate m a) i = if i < m then a else 0 := by
  split
  · rename_i h; rw [nth_eq_getElem _ _ (by simpa using h), List.getElem_replicate]
  · rename_i h; exact nth_of_le _ _ (by simpa using h)

theorem dominant_rep (s n : ℕ) (hs : 0 < s) : DominantBy (1 / 2) n (pentaMat s
    (nth (vals (List.replicate (n - 2 * s) (1 : Rnd R)))) (nth (vals (List.replicate (n - s) (-1 : Rnd R))))
    (nth (vals (List.replicate n (⟨8⟩ : Rnd R)))) (nth (vals (List.replicate (n - s) (1 : Rnd R))))
    (nth (vals (List.replicate (n - 2 * s) (-1 : Rnd R))))) := by
  intro i hi
  have key := add_sum_erase (range n) (fun j => |pentaMat s
    (nth (vals (List.replicate (n - 2 * s) (1 : Rnd R)))) (nth (vals (List.replicate (n - s) (-1 : Rnd R))))
    (nth (vals (List.replicate n (⟨8⟩ : Rnd R)))) (nth (vals (List.replicate (n - s) (1 : Rnd R))))
    (nth (vals (List.replicate (n - 2 * s) (-1 : Rnd R)))) i j|) (mem_range.mpr hi)
  rw [sum_abs_penta hs hi] at key
  rw [pentaMat_diag hs] at key ⊢
  have e8 : nth (vals (List.replicate n (⟨8⟩ : Rnd R))) i = 8 := by
    rw [Rnd.nth_vals, nth_rep, if_pos hi]
  have le1 : ∀ (m k : ℕ) (a : Rnd R), |a.val| = 1 → |nth (vals (List.replicate m a)) k| ≤ 1 := by
    intro m k a ha
    rw [Rnd.nth_vals, nth_rep]
    split
    · exact ha.le
    · simp
  rw [e8] at key ⊢
  refine ⟨by norm_num, ?_⟩
  rw [show |(8:ℝ)| = 8 by norm_num] at key ⊢
  have o1 : |(1 : Rnd R).val| = 1 := by simp
  have o2 : |(-1 : Rnd R).val| = 1 := by simp
  have b1 := le1 (n - 2 * s) (i - 2 * s) 1 o1
  have b2 := le1 (n - s) (i - s) (-1) o2
  have b3 := le1 (n - s) i 1 o1
  have b4 := le1 (n - 2 * s) i (-1) o2
  have c1 : ∀ {p : Prop} [Decidable p] {a : ℝ}, a ≤ 1 → (if p then a else 0) ≤ 1 := by
    intro p _ a h; split <;> linarith
  have := c1 (p := 2 * s ≤ i) b1
  have := c1 (p := s ≤ i) b2
  have := c1 (p := i + s < n) b3
  have := c1 (p := i + 2 * s < n) b4
  linarith

/-- numbers with 53 binary digits: systems of every size with `8` on the diagonal and `±1` beside it are solved up to an
error of `10⁻¹³` relative to the largest entry of the solution, by both pentadiagonal solvers -/
example (rhs : List (Rnd (binary 52))) (hn : 6 ≤ rhs.length) :
    (∃ x y, pdma (List.replicate (rhs.length - 2) (1 : Rnd (binary 52))) (List.replicate (rhs.length - 1) (-1)) (List.replicate rhs.length ⟨8⟩)
      (List.replicate (rhs.length - 1) 1) (List.replicate (rhs.length - 2) (-1)) rhs = ok x ∧
      pdma (List.replicate (rhs.length - 2) 1) (List.replicate (rhs.length - 1) (-1)) (List.replicate rhs.length (8:ℝ))
      (List.replicate (rhs.length - 1) 1) (List.replicate (rhs.length - 2) (-1)) (vals rhs) = ok y ∧
      ∀ X, Bounded X (vals x) → Within (X / 10 ^ 13) (vals x) y) ∧
    (∃ x y, pdma2 (List.replicate (rhs.length - 4) (1 : Rnd (binary 52))) (List.replicate (rhs.length - 2) (-1)) (List.replicate rhs.length ⟨8⟩)
      (List.replicate (rhs.length - 2) 1) (List.replicate (rhs.length - 4) (-1)) rhs = ok x ∧
      pdma2 (List.replicate (rhs.length - 4) 1) (List.replicate (rhs.length - 2) (-1)) (List.replicate rhs.length (8:ℝ))
      (List.replicate (rhs.length - 2) 1) (List.replicate (rhs.length - 4) (-1)) (vals rhs) = ok y ∧
      ∀ X, Bounded X (vals x) → Within (X / 10 ^ 13) (vals x) y) := by
  have hu : (binary 52).u = 1 / 2 ^ 53 := by show (2⁻¹ : ℝ) ^ 53 = _; norm_num
  have h7 : 7 * (binary 52).u < 1 := by rw [hu]; norm_num
  have hγ : (binary 52).γ 7 ≤ 1 / 10 ^ 15 * 4 := by rw [Rounding.γ, hu]; norm_num
  have hσ : (1 / 2 : ℝ) < (1 - (binary 52).u) ^ 7 := by rw [hu]; norm_num
  have fin : ∀ {x : List (Rnd (binary 52))} {y : List ℝ}, 0 < x.length →
      (∀ X, Bounded X (vals x) → Within (9 * (binary 52).γ 7 * X / (1 - 1 / 2)) (vals x) y) →
      ∀ X, Bounded X (vals x) → Within (X / 10 ^ 13) (vals x) y := by
    intro x y hx h X hX
    have X0 : 0 ≤ X := (abs_nonneg _).trans (bounded_vals hX 0 hx)
    refine ⟨(h X hX).1, fun i hi => ((h X hX).2 i hi).trans ?_⟩
    have := mul_le_mul_of_nonneg_right hγ X0
    rw [show (1:ℝ) - 1 / 2 = 1 / 2 by norm_num]
    linarith
  have vr : ∀ (m : ℕ) (a : Rnd (binary 52)), vals (List.replicate m a) = List.replicate m a.val := fun m a => by
    rw [vals, List.map_replicate]
  constructor
  · obtain ⟨x, y, e1, hx, e2, -, h⟩ := C93_pdma_dominant h7 (List.replicate (rhs.length - 2) 1)
      (List.replicate (rhs.length - 1) (-1)) (List.replicate rhs.length ⟨8⟩)
      (List.replicate (rhs.length - 1) 1) (List.replicate (rhs.length - 2) (-1)) rhs (by omega) (by simp) (by simp) (by simp)
      (by simp) (by simp) hσ (dominant_rep 1 rhs.length one_pos)
    simp only [vr] at e2
    exact ⟨x, y, e1, e2, fin (by omega) h⟩
  · obtain ⟨x, y, e1, hx, e2, -, h⟩ := C93_pdma2_dominant h7 (List.replicate (rhs.length - 4) 1)
      (List.replicate (rhs.length - 2) (-1)) (List.replicate rhs.length ⟨8⟩)
      (List.replicate (rhs.length - 2) 1) (List.replicate (rhs.length - 4) (-1)) rhs (by omega) (by simp) (by simp) (by simp)
      (by simp) (by simp) hσ (dominant_rep 2 rhs.length two_pos)
    simp only [vr] at e2
    exact ⟨x, y, e1, e2, fin (by omega) h⟩

end Verif.Props
