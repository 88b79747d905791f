/- The pentadiagonal solvers in arithmetic with rounding, on diagonally dominant systems. -/
import Verif.Proof.RndPentaErr
import Verif.Spec.Minors

namespace Verif
open Res Spec Finset
variable {R : Rounding} {s : ℕ}

theorem abs_pentaMat {b c d e f : ℕ → ℝ} (hs : 0 < s) (i j : ℕ) :
    |pentaMat s b c d e f i j| =
      pentaMat s (fun k => |b k|) (fun k => |c k|) (fun k => |d k|) (fun k => |e k|) (fun k => |f k|) i j := by
  unfold pentaMat
  by_cases h0 : j = i
  · simp (disch := omega) [if_pos h0, if_neg]
  by_cases h1 : j + s = i
  · simp (disch := omega) [if_neg h0, if_pos h1, if_neg]
  by_cases h2 : j + 2 * s = i
  · simp (disch := omega) [if_neg h0, if_neg h1, if_pos h2, if_neg]
  by_cases h3 : j = i + s
  · simp (disch := omega) [if_neg h0, if_neg h1, if_neg h2, if_pos h3, if_neg]
  · simp only [if_neg h0, if_neg h1, if_neg h2, if_neg h3, zero_add]
    split <;> simp

theorem pentaMat_diag {b c d e f : ℕ → ℝ} (hs : 0 < s) (i : ℕ) : pentaMat s b c d e f i i = d i := by
  unfold pentaMat
  simp (disch := omega) only [if_true, if_neg, add_zero]

/-- the sum of a row of moduli -/
theorem sum_abs_penta {b c d e f : ℕ → ℝ} (hs : 0 < s) {n i : ℕ} (hi : i < n) :
    ∑ j ∈ range n, |pentaMat s b c d e f i j| = (if 2 * s ≤ i then |b (i - 2 * s)| else 0)
      + (if s ≤ i then |c (i - s)| else 0) + |d i| + (if i + s < n then |e i| else 0)
      + (if i + 2 * s < n then |f i| else 0) := by
  have := matVec_pentaMat n s (fun k => |b k|) (fun k => |c k|) (fun k => |d k|) (fun k => |e k|) (fun k => |f k|)
    (fun _ => (1:ℝ)) i hi
  simp only [matVec, smul_eq_mul, mul_one] at this
  rw [sum_congr rfl (fun j _ => abs_pentaMat hs i j), this]

/-- The invariant of the elimination on a dominant matrix. -/
theorem dominant_rows (h7 : 7 * R.u < 1) (hs : 0 < s) {b c d e f : ℕ → Rnd R} {n : ℕ}
    (he : ∀ i, n ≤ i + s → (e i).val = 0) (hf : ∀ i, n ≤ i + 2 * s → (f i).val = 0)
    (hdom : ∀ i < n, (if 2 * s ≤ i then |(b (i - 2 * s)).val| else 0) + (if s ≤ i then |(c (i - s)).val| else 0)
      + |(e i).val| + |(f i).val| < (1 - R.u) ^ 7 * |(d i).val|) :
    ∀ i < n, (rLU s b c d e f i).mu.val ≠ 0 ∧ |(rLU s b c d e f i).al.val| + |(rLU s b c d e f i).be.val| ≤ 1 ∧
      (if 2 * s ≤ i then |(b (i - 2 * s)).val| else 0) + (if s ≤ i then |(rLU s b c d e f i).ga.val| else 0)
        + |(rLU s b c d e f i).mu.val| ≤ 9 / 2 * |(d i).val| := by
  have u0 := R.u_nonneg
  have hu : R.u < 1 := by linarith
  have s0 : 0 < 1 - R.u := by linarith
  have s1 : 1 - R.u ≤ 1 := by linarith
  intro i
  induction i using Nat.strong_induction_on with
  | _ i ih =>
    intro hi
    -- the row in the uniform notation
    set L := rLU s b c d e f with hL
    let B := if 2 * s ≤ i then (b (i - 2 * s)).val else 0
    let C := if s ≤ i then (c (i - s)).val else 0
    let G := if s ≤ i then (L i).ga.val else 0
    let al1 := if s ≤ i then (L (i - s)).al.val else 0
    let be1 := if s ≤ i then (L (i - s)).be.val else 0
    let al2 := if 2 * s ≤ i then (L (i - 2 * s)).al.val else 0
    let be2 := if 2 * s ≤ i then (L (i - 2 * s)).be.val else 0
    have a1 : |al1| + |be1| ≤ 1 := by
      by_cases h : s ≤ i
      · simp only [al1, be1, if_pos h]; exact (ih (i - s) (by omega) (by omega)).2.1
      · simp [al1, be1, if_neg h]
    have a2 : |al2| + |be2| ≤ 1 := by
      by_cases h : 2 * s ≤ i
      · simp only [al2, be2, if_pos h]; exact (ih (i - 2 * s) (by omega) (by omega)).2.1
      · simp [al2, be2, if_neg h]
    have eB : |B| = if 2 * s ≤ i then |(b (i - 2 * s)).val| else 0 := by simp only [B]; split <;> simp
    have eC : |C| = if s ≤ i then |(c (i - s)).val| else 0 := by simp only [C]; split <;> simp
    have eG : |G| = if s ≤ i then |(L i).ga.val| else 0 := by simp only [G]; split <;> simp
    have dom := hdom i hi
    rw [← eB, ← eC] at dom
    have n5 := abs_nonneg (e i).val
    have n6 := abs_nonneg (f i).val
    have n7 := abs_nonneg be1
    have dom' : |B| + |C| < (1 - R.u) ^ 7 * |(d i).val| := by linarith
    have a1' : |al1| ≤ 1 := by linarith
    have hg : |G| * (1 - R.u) ^ 2 ≤ |C| + |B| * |al2| := by
      by_cases h : s ≤ i
      · obtain ⟨c1, c2, f1, f2, ec⟩ := rLU_c (b := b) (c := c) (d := d) (e := e) (f := f) hu hs i h
        refine ga_le (c1 := c1) (c2 := c2) s0 s1 ?_ (by simpa using f1.lo) (by simpa using f2.hi) (f2.pos hu).le
        simp only [C, G, B, al2, if_pos h]
        rw [ec]
        split <;> simp [hL]
      · simp only [G, if_neg h, abs_zero, zero_mul]
        positivity
    obtain ⟨d1, d2, d3, g1, g2, g3, ed⟩ := rLU_d (b := b) (c := c) (d := d) (e := e) (f := f) hu hs i
    have ed' : (d i).val = (L i).mu.val * d1 + G * al1 * d2 + B * be2 * d3 := by
      rw [ed]
      simp only [G, al1, B, be2, hL]
      congr 1
      · congr 1
        split <;> simp
      · split <;> simp
    have hm := mu_ge s0 ed' g1.hi (g1.pos hu).le g2.hi (g2.pos hu).le g3.hi (g3.pos hu).le
    have hm' := mu_le s0 ed' g1.lo g2.hi (g2.pos hu).le g3.hi (g3.pos hu).le
    have hmu := row_pivot s0 s1 hg hm a1' a2 dom'
    obtain ⟨e1, e2, k1, k2, ee⟩ := rLU_e hu hs i hmu
    obtain ⟨f1, k3, ef⟩ := rLU_f hu hs i hmu
    have ee' : (e i).val = (L i).mu.val * (L i).al.val * e1 + G * be1 * e2 := by
      rw [ee]
      simp only [G, be1, hL]
      congr 1
      split <;> simp
    have hr := row_le s0 s1 ee' ef k1.lo (by simpa using k2.hi) (k2.pos hu).le (by simpa using k3.lo)
    refine ⟨hmu, row_small s0 s1 hg hm hr hmu a1 a2 dom, ?_⟩
    rw [← eB, ← eG]
    exact row_size (by linarith) s1 hg hm' a1' a2 dom'

/-- The row sums of the backward error on a dominant matrix. -/
theorem dominant_backward (h7 : 7 * R.u < 1) (hs : 0 < s) {b c d e f r x : ℕ → Rnd R} {n : ℕ}
    (he : ∀ i, n ≤ i + s → (e i).val = 0) (hf : ∀ i, n ≤ i + 2 * s → (f i).val = 0)
    (hdom : ∀ i < n, (if 2 * s ≤ i then |(b (i - 2 * s)).val| else 0) + (if s ≤ i then |(c (i - s)).val| else 0)
      + |(e i).val| + |(f i).val| < (1 - R.u) ^ 7 * |(d i).val|)
    (hx : ∀ i < n, x i = rBack s n (rLU s b c d e f) (rZe s b c d e f r) x i) :
    ∃ A' : ℕ → ℕ → ℝ, Solves n A' (fun i => (x i).val) (fun i => (r i).val) ∧
      ∀ i < n, ∑ j ∈ range n, |A' i j - pentaMat s (fun k => (b k).val) (fun k => (c k).val) (fun k => (d k).val)
          (fun k => (e k).val) (fun k => (f k).val) i j| ≤ 9 * R.γ 7 * |(d i).val| := by
  have hrow := dominant_rows h7 hs he hf hdom
  obtain ⟨-, A', hS, hE⟩ := penta_backward (r := r) h7 hs (fun i hi => (hrow i hi).1) hx
  have g7 := R.γ_nonneg (k := 7) (by push_cast; linarith)
  refine ⟨A', hS, fun i hi => (sum_le_sum fun j hj => hE i hi j (mem_range.mp hj)).trans ?_⟩
  rw [← mul_sum, sum_comm]
  have hU : ∀ k ∈ range n, ∑ j ∈ range n, |pentaMat s (fun k => (b k).val) (fun j => (rLU s b c d e f (j + s)).ga.val)
      (fun i => (rLU s b c d e f i).mu.val) 0 0 i k| * |pentaMat s 0 0 1 (fun i => (rLU s b c d e f i).al.val)
      (fun i => (rLU s b c d e f i).be.val) k j| ≤ |pentaMat s (fun k => (b k).val)
      (fun j => (rLU s b c d e f (j + s)).ga.val) (fun i => (rLU s b c d e f i).mu.val) 0 0 i k| * 2 := by
    intro k hk
    rw [← mul_sum, sum_abs_penta hs (mem_range.mp hk)]
    refine mul_le_mul_of_nonneg_left ?_ (abs_nonneg _)
    have h := (hrow k (mem_range.mp hk)).2.1
    have n1 := abs_nonneg (rLU s b c d e f k).al.val
    have n2 := abs_nonneg (rLU s b c d e f k).be.val
    simp only [Pi.zero_apply, Pi.one_apply, abs_zero, abs_one, ite_self, zero_add]
    split <;> split <;> linarith
  have h2 := (sum_le_sum hU)
  rw [← sum_mul, sum_abs_penta hs hi] at h2
  have h3 := (hrow i hi).2.2
  simp only [Pi.zero_apply, abs_zero, ite_self, add_zero] at h2
  have h4 : (if s ≤ i then |(rLU s b c d e f (i - s + s)).ga.val| else 0)
      = if s ≤ i then |(rLU s b c d e f i).ga.val| else 0 := by
    split
    · rename_i h; rw [show i - s + s = i by omega]
    · rfl
  rw [h4] at h2
  calc _ ≤ R.γ 7 * (9 * |(d i).val|) := mul_le_mul_of_nonneg_left (h2.trans (by linarith)) g7
    _ = _ := by ring

/-- The solution of a dominant system depends continuously on the matrix. -/
theorem dominant_forward {n : ℕ} {A A' : ℕ → ℕ → ℝ} {x y r : ℕ → ℝ} {ρ ε X : ℝ} (hρ : ρ < 1) (hX : ∀ i < n, |x i| ≤ X)
    (hd : DominantBy ρ n A) (hE : ∀ i < n, ∑ j ∈ range n, |A' i j - A i j| ≤ ε * |A i i|)
    (hx : Solves n A' x r) (hy : Solves n A y r) :
    ∀ i < n, |x i - y i| ≤ ε * X / (1 - ρ) := by
  intro i0 hi0
  obtain ⟨i, hi, hmax⟩ := exists_max_image (range n) (fun i => |x i - y i|) ⟨i0, mem_range.mpr hi0⟩
  refine (hmax i0 (mem_range.mpr hi0)).trans ?_
  have hin := mem_range.mp hi
  obtain ⟨hne, hoff⟩ := hd i hin
  have e : A i i * (x i - y i) = -(∑ j ∈ (range n).erase i, A i j * (x j - y j)) - ∑ j ∈ range n, (A' i j - A i j) * x j := by
    have h1 := hx i hin
    have h2 := hy i hin
    simp only [matVec, smul_eq_mul] at h1 h2
    have h3 : ∑ j ∈ range n, A i j * (x j - y j) = A i i * (x i - y i) + ∑ j ∈ (range n).erase i, A i j * (x j - y j) :=
      (add_sum_erase _ _ hi).symm
    have h4 : ∑ j ∈ range n, A i j * (x j - y j) = -∑ j ∈ range n, (A' i j - A i j) * x j := by
      rw [← sum_neg_distrib]
      have : ∑ j ∈ range n, A i j * (x j - y j) - ∑ j ∈ range n, -((A' i j - A i j) * x j)
          = ∑ j ∈ range n, A' i j * x j - ∑ j ∈ range n, A i j * y j := by
        rw [← sum_sub_distrib, ← sum_sub_distrib]
        exact sum_congr rfl fun j _ => by ring
      rw [h1, h2, sub_self] at this
      linarith
    linarith
  have n1 := abs_nonneg (x i - y i)
  have b1 : |∑ j ∈ (range n).erase i, A i j * (x j - y j)| ≤ ρ * |A i i| * |x i - y i| := by
    refine (abs_sum_le_sum_abs _ _).trans ?_
    calc ∑ j ∈ (range n).erase i, |A i j * (x j - y j)| ≤ ∑ j ∈ (range n).erase i, |A i j| * |x i - y i| := by
          refine sum_le_sum fun j hj => ?_
          rw [abs_mul]
          exact mul_le_mul_of_nonneg_left (hmax j (mem_of_mem_erase hj)) (abs_nonneg _)
      _ = (∑ j ∈ (range n).erase i, |A i j|) * |x i - y i| := by rw [sum_mul]
      _ ≤ _ := by gcongr
  have b2 : |∑ j ∈ range n, (A' i j - A i j) * x j| ≤ ε * |A i i| * X := by
    refine (abs_sum_le_sum_abs _ _).trans ?_
    have X0 : 0 ≤ X := (abs_nonneg _).trans (hX i hin)
    calc ∑ j ∈ range n, |(A' i j - A i j) * x j| ≤ ∑ j ∈ range n, |A' i j - A i j| * X := by
          refine sum_le_sum fun j hj => ?_
          rw [abs_mul]
          exact mul_le_mul_of_nonneg_left (hX j (mem_range.mp hj)) (abs_nonneg _)
      _ = (∑ j ∈ range n, |A' i j - A i j|) * X := by rw [sum_mul]
      _ ≤ _ := by gcongr; exact hE i hin
  have b3 : |A i i| * |x i - y i| ≤ ρ * |A i i| * |x i - y i| + ε * |A i i| * X := by
    rw [← abs_mul, e]
    refine (abs_sub _ _).trans ?_
    rw [abs_neg]
    exact add_le_add b1 b2
  rw [le_div_iff₀ (by linarith)]
  refine le_of_mul_le_mul_left (a := |A i i|) ?_ (abs_pos.mpr hne)
  linarith

end Verif
