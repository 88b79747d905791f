/- The pseudo-inverse matrices of `_pinv`. -/
import Verif.Proof.Dmat
import Verif.Spec.Mat
import Mathlib.Tactic.FieldSimp
import Mathlib.Tactic.LinearCombination

namespace Verif
open Res Spec Finset
variable {K : Type} [Field K] [DecidableEq K] {Q : Err → Prop}

/-- coefficient of row `i` at column `i + 2 s - k` -/
def pc (K : Type) [Field K] (k s : ℕ) (x : K) : K :=
  match k, s with
  | 1, 0 => 1 / (2 * x)
  | 1, 1 => -1 / (2 * x)
  | 2, 0 => 1 / (4 * x * (x - 1))
  | 2, 1 => -1 / (2 * (x * x - 1))
  | 2, 2 => 1 / (4 * x * (x + 1))
  | 3, 0 => 1 / (8 * x * (x - 1) * (x - 2))
  | 3, 1 => -3 / (8 * (x + 1) * (x - 2) * x)
  | 3, 2 => 3 / (8 * (x - 1) * (x + 2) * x)
  | 3, 3 => -1 / (8 * x * (x + 1) * (x + 2))
  | 4, 0 => 1 / (16 * x * (x - 1) * (x - 2) * (x - 3))
  | 4, 1 => -1 / (4 * (x - 3) * (x - 1) * x * (x + 1))
  | 4, 2 => 3 / (8 * (x - 2) * (x - 1) * (x + 1) * (x + 2))
  | 4, 3 => -1 / (4 * (x - 1) * x * (x + 1) * (x + 3))
  | 4, 4 => 1 / (16 * x * (x + 1) * (x + 2) * (x + 3))
  | _, _ => 0

/-- entries of `_pinv` -/
def pTrue (K : Type) [Field K] (k n i j : ℕ) : K :=
  ∑ s ∈ range (k + 1), if k ≤ i ∧ i + 2 * s = j + k ∧ i + 2 * s < n then
    pc K k s i * (if j = 0 then 2 else 1) else 0

theorem castK_ne [CharZero K] {x : K} (z : ℤ) (hx : x = (z : K)) (hz : z ≠ 0) : x ≠ 0 := by
  rw [hx]; exact_mod_cast hz

/-- the band identity -/
theorem pc_identity [CharZero K] {k i q : ℕ} (hk : 1 ≤ k) (hk4 : k ≤ 4) (hi : k ≤ i) :
    ∑ s ∈ range (k + 1), pc K k s i * dTrue K k (i + 2 * s - k) q = if i = q then 1 else 0 := by
  have h0 : ∀ p, dTrue K 0 p q = if p = q then 1 else 0 := fun p => by simp [dTrue]
  rw [← h0 i]
  have hx0 : (i : K) ≠ 0 := castK_ne (i : ℤ) (by simp) (by omega)
  have : k = 1 ∨ k = 2 ∨ k = 3 ∨ k = 4 := by omega
  rcases this with rfl | rfl | rfl | rfl
  · obtain ⟨j, rfl⟩ : ∃ j, i = j + 1 := ⟨i - 1, by omega⟩
    simp only [sum_range_succ, sum_range_zero, pc]
    have r1 := dTrue_rec (K := K) 0 j q (by omega)
    rw [show j + 1 + 2 * 0 - 1 = j by omega, show j + 1 + 2 * 1 - 1 = j + 2 by omega]
    push_cast at *
    rw [r1]
    field_simp
    ring
  · obtain ⟨j, rfl⟩ : ∃ j, i = j + 2 := ⟨i - 2, by omega⟩
    simp only [sum_range_succ, sum_range_zero, pc]
    have r1 := dTrue_rec (K := K) 1 j q (by omega)
    have r2 := dTrue_rec (K := K) 1 (j + 2) q (by omega)
    have r3 := dTrue_rec (K := K) 0 (j + 1) q (by omega)
    rw [show j + 2 + 2 * 0 - 2 = j by omega, show j + 2 + 2 * 1 - 2 = j + 2 by omega,
      show j + 2 + 2 * 2 - 2 = j + 4 by omega]
    simp only [show j + 2 + 2 = j + 4 by omega, show j + 1 + 2 = j + 3 by omega, show j + 2 + 1 = j + 3 by omega,
      show j + 1 + 1 = j + 2 by omega, Nat.reduceAdd] at r1 r2 r3
    have n1 : ((j : K) + 1) ≠ 0 := castK_ne (j + 1 : ℤ) (by push_cast; ring) (by omega)
    have n2 : ((j : K) + 2) ≠ 0 := castK_ne (j + 2 : ℤ) (by push_cast; ring) (by omega)
    have n3 : ((j : K) + 3) ≠ 0 := castK_ne (j + 3 : ℤ) (by push_cast; ring) (by omega)
    push_cast at *
    rw [r1, r3, r2]
    generalize (j : K) = x at *
    rw [show x + 2 - 1 = x + 1 by ring, show (x + 2) * (x + 2) - 1 = (x + 1) * (x + 3) by ring,
      show x + 2 + 1 = x + 3 by ring]
    field_simp
    ring
  · obtain ⟨j, rfl⟩ : ∃ j, i = j + 3 := ⟨i - 3, by omega⟩
    simp only [sum_range_succ, sum_range_zero, pc]
    have a1 := dTrue_rec (K := K) 2 j q (by omega)
    have a2 := dTrue_rec (K := K) 2 (j + 2) q (by omega)
    have a3 := dTrue_rec (K := K) 2 (j + 4) q (by omega)
    have b1 := dTrue_rec (K := K) 1 (j + 1) q (by omega)
    have b2 := dTrue_rec (K := K) 1 (j + 3) q (by omega)
    have c1 := dTrue_rec (K := K) 0 (j + 2) q (by omega)
    rw [show j + 3 + 2 * 0 - 3 = j by omega, show j + 3 + 2 * 1 - 3 = j + 2 by omega,
      show j + 3 + 2 * 2 - 3 = j + 4 by omega, show j + 3 + 2 * 3 - 3 = j + 6 by omega]
    simp only [Nat.add_assoc, Nat.reduceAdd] at a1 a2 a3 b1 b2 c1
    have n1 : ((j : K) + 1) ≠ 0 := castK_ne (j + 1 : ℤ) (by push_cast; ring) (by omega)
    have n2 : ((j : K) + 2) ≠ 0 := castK_ne (j + 2 : ℤ) (by push_cast; ring) (by omega)
    have n3 : ((j : K) + 3) ≠ 0 := castK_ne (j + 3 : ℤ) (by push_cast; ring) (by omega)
    have n4 : ((j : K) + 4) ≠ 0 := castK_ne (j + 4 : ℤ) (by push_cast; ring) (by omega)
    have n5 : ((j : K) + 5) ≠ 0 := castK_ne (j + 5 : ℤ) (by push_cast; ring) (by omega)
    push_cast at *
    rw [a1, a2, a3, b1, b2, c1]
    generalize (j : K) = x at *
    rw [show x + 3 - 1 = x + 2 by ring, show x + 3 - 2 = x + 1 by ring,
      show x + 3 + 1 = x + 4 by ring, show x + 3 + 2 = x + 5 by ring]
    field_simp
    ring
  · obtain ⟨j, rfl⟩ : ∃ j, i = j + 4 := ⟨i - 4, by omega⟩
    simp only [sum_range_succ, sum_range_zero, pc]
    have a1 := dTrue_rec (K := K) 3 j q (by omega)
    have a2 := dTrue_rec (K := K) 3 (j + 2) q (by omega)
    have a3 := dTrue_rec (K := K) 3 (j + 4) q (by omega)
    have a4 := dTrue_rec (K := K) 3 (j + 6) q (by omega)
    have b1 := dTrue_rec (K := K) 2 (j + 1) q (by omega)
    have b2 := dTrue_rec (K := K) 2 (j + 3) q (by omega)
    have b3 := dTrue_rec (K := K) 2 (j + 5) q (by omega)
    have c1 := dTrue_rec (K := K) 1 (j + 2) q (by omega)
    have c2 := dTrue_rec (K := K) 1 (j + 4) q (by omega)
    have d1 := dTrue_rec (K := K) 0 (j + 3) q (by omega)
    rw [show j + 4 + 2 * 0 - 4 = j by omega, show j + 4 + 2 * 1 - 4 = j + 2 by omega,
      show j + 4 + 2 * 2 - 4 = j + 4 by omega, show j + 4 + 2 * 3 - 4 = j + 6 by omega,
      show j + 4 + 2 * 4 - 4 = j + 8 by omega]
    simp only [Nat.add_assoc, Nat.reduceAdd] at a1 a2 a3 a4 b1 b2 b3 c1 c2 d1
    have n1 : ((j : K) + 1) ≠ 0 := castK_ne (j + 1 : ℤ) (by push_cast; ring) (by omega)
    have n2 : ((j : K) + 2) ≠ 0 := castK_ne (j + 2 : ℤ) (by push_cast; ring) (by omega)
    have n3 : ((j : K) + 3) ≠ 0 := castK_ne (j + 3 : ℤ) (by push_cast; ring) (by omega)
    have n4 : ((j : K) + 4) ≠ 0 := castK_ne (j + 4 : ℤ) (by push_cast; ring) (by omega)
    have n5 : ((j : K) + 5) ≠ 0 := castK_ne (j + 5 : ℤ) (by push_cast; ring) (by omega)
    have n6 : ((j : K) + 6) ≠ 0 := castK_ne (j + 6 : ℤ) (by push_cast; ring) (by omega)
    have n7 : ((j : K) + 7) ≠ 0 := castK_ne (j + 7 : ℤ) (by push_cast; ring) (by omega)
    push_cast at *
    rw [a1, a2, a3, a4, b1, b2, b3, c1, c2, d1]
    generalize (j : K) = x at *
    rw [show x + 4 - 1 = x + 3 by ring, show x + 4 - 2 = x + 2 by ring, show x + 4 - 3 = x + 1 by ring,
      show x + 4 + 1 = x + 5 by ring, show x + 4 + 2 = x + 6 by ring, show x + 4 + 3 = x + 7 by ring]
    field_simp
    ring

/-- rows `k..` of `P · D_k` are rows of the identity -/
theorem pTrue_mul [CharZero K] {k n i q : ℕ} (hk : 1 ≤ k) (hk4 : k ≤ 4) (hi : k ≤ i) (hq : q < n) :
    ∑ j ∈ range n, pTrue K k n i j * hTrue K k j q = if i = q then 1 else 0 := by
  rw [← pc_identity hk hk4 hi]
  unfold pTrue
  simp only [sum_mul]
  rw [sum_comm]
  refine sum_congr rfl (fun s hs => ?_)
  by_cases h : i + 2 * s < n
  · rw [sum_eq_single (i + 2 * s - k)]
    · rw [if_pos ⟨hi, by omega, h⟩]
      unfold hTrue
      by_cases h0 : i + 2 * s - k = 0
      · rw [if_pos h0, if_pos ⟨h0, hk⟩]; ring
      · rw [if_neg h0, if_neg (by omega)]; ring
    · intro j _ hj
      rw [if_neg (by omega), zero_mul]
    · intro hh
      exact absurd (mem_range.mpr (by omega)) hh
  · rw [sum_eq_zero, dTrue_zero (by omega), mul_zero]
    intro j _
    rw [if_neg (by omega), zero_mul]

/-! ### the code -/

theorem wp_pinvDiag {n a b : ℕ} {col : ℕ → Res ℕ} {c : ℕ → ℕ} {num : K} {den : ℕ → Res K}
    {v : ℕ → K} {p : Mat K} {P : Mat K → Prop}
    (hp : p.rows = n ∧ p.cols = n) (hb : b ≤ n)
    (hcol : ∀ i, a ≤ i → i < b → col i = ok (c i) ∧ c i < n)
    (hden : ∀ i, a ≤ i → i < b → wp Q (den i) (fun d => d ≠ 0 ∧ num / d = v i))
    (hz : ∀ i, a ≤ i → i < b → p.get i (c i) = 0)
    (hP : ∀ p' : Mat K, p'.rows = n → p'.cols = n →
      (∀ i j, p'.get i j = p.get i j + if a ≤ i ∧ i < b ∧ j = c i then v i else 0) → P p') :
    wp Q (pinvDiag K a b col num den p) P := by
  unfold pinvDiag
  refine wp_forRange (fun m p' => p'.rows = n ∧ p'.cols = n ∧
      ∀ i j, p'.get i j = p.get i j + if a ≤ i ∧ i < m ∧ j = c i then v i else 0)
    ⟨hp.1, hp.2, fun i j => ?_⟩ ?_ ?_
  · rw [if_neg (by omega), add_zero]
  · rintro i p' h1 h2 ⟨h3, h4, h5⟩
    simp only [wp_bind]
    rw [(hcol i h1 h2).1]
    simp only [wp_ok]
    refine wp_mono (hden i h1 h2) ?_
    rintro d ⟨hd, hv⟩
    refine wp_div_i (fun _ => ?_) (fun h => absurd h hd)
    refine Mat.wp_wrC_i (by omega) (by have := (hcol i h1 h2).2; omega) ?_
    refine ⟨h3, h4, fun i' j' => ?_⟩
    rw [Mat.upd_get, h5]
    by_cases hij : i' = i ∧ j' = c i
    · obtain ⟨rfl, rfl⟩ := hij
      rw [if_pos ⟨rfl, rfl⟩, if_pos ⟨h1, by omega, rfl⟩, hz _ h1 h2, ← hv, zero_add, smul_eq_mul,
        div_eq_inv_mul]
    · rw [if_neg hij]
      congr 1
      refine if_congr ⟨fun ⟨x, y, z⟩ => ⟨x, by omega, z⟩, fun ⟨x, y, z⟩ => ⟨x, ?_, z⟩⟩ rfl rfl
      rcases Nat.lt_succ_iff_lt_or_eq.mp y with h | rfl
      · exact h
      · exact absurd ⟨rfl, z⟩ hij
  · rintro p' ⟨h1, h2, h3⟩
    refine hP p' h1 h2 (fun i j => ?_)
    rw [h3]
    congr 1
    exact if_congr ⟨fun ⟨x, y, z⟩ => ⟨x, by omega, z⟩, fun ⟨x, y, z⟩ => ⟨x, by omega, z⟩⟩ rfl rfl

theorem prod_exact (o : Mode) (a : ℕ) (l : List ℕ) (hpos : ∀ x ∈ l, 1 ≤ x)
    (h : l.foldl (· * ·) a < usizeW) : o.prod (a :: l) = ok (l.foldl (· * ·) a) := by
  unfold Mode.prod
  have mono : ∀ (l : List ℕ) (a : ℕ), (∀ x ∈ l, 1 ≤ x) → a ≤ l.foldl (· * ·) a := by
    intro l
    induction l with
    | nil => intro a _; exact le_rfl
    | cons b l ih =>
      intro a hp
      refine le_trans ?_ (ih (a * b) (fun x hx => hp x (List.mem_cons_of_mem _ hx)))
      exact Nat.le_mul_of_pos_right a (hp b List.mem_cons_self)
  induction l generalizing a with
  | nil => rfl
  | cons b l ih =>
    simp only [List.foldl_cons, bind_ok] at *
    have hp' : ∀ x ∈ l, 1 ≤ x := fun x hx => hpos x (List.mem_cons_of_mem _ hx)
    rw [o.mul_ok (lt_of_le_of_lt (mono l (a * b) hp') h)]
    exact ih (a * b) hp' h

/-- a denominator -/
theorem wp_den (o : Mode) {a : ℕ} {l : List ℕ} {num v : K} [CharZero K] (ha : 1 ≤ a)
    (hpos : ∀ x ∈ l, 1 ≤ x) (h : l.foldl (· * ·) a < usizeW)
    (hv : num / ((l.foldl (· * ·) a : ℕ) : K) = v) :
    wp Q (o.prod (a :: l)) (fun x => wp Q (pure ((x : ℕ) : K)) (fun d => d ≠ 0 ∧ num / d = v)) := by
  rw [prod_exact o a l hpos h]
  refine ⟨?_, hv⟩
  have mono : ∀ (l : List ℕ) (a : ℕ), 1 ≤ a → (∀ x ∈ l, 1 ≤ x) → 1 ≤ l.foldl (· * ·) a := by
    intro l
    induction l with
    | nil => intro a h _; exact h
    | cons b l ih =>
      intro a h hp
      exact ih (a * b) (Nat.one_le_iff_ne_zero.mpr (by
        have := hp b List.mem_cons_self
        positivity)) (fun x hx => hp x (List.mem_cons_of_mem _ hx))
  have := mono l a ha hpos
  exact_mod_cast (show l.foldl (· * ·) a ≠ 0 by omega)

theorem pTrue_term {k s n i j : ℕ} (hs : 1 ≤ s) :
    (if k ≤ i ∧ i < n - 2 * s ∧ j = i + 2 * s - k then pc K k s i else 0)
      = if k ≤ i ∧ i + 2 * s = j + k ∧ i + 2 * s < n then
          pc K k s i * (if j = 0 then 2 else 1) else 0 := by
  by_cases h : k ≤ i ∧ i + 2 * s = j + k ∧ i + 2 * s < n
  · rw [if_pos h, if_pos (by omega), if_neg (by omega), mul_one]
  · rw [if_neg h, if_neg (by omega)]

macro "pden" : tactic => `(tactic| (
  simp only [wp_bind]
  repeat (first
    | with_reducible refine wp_usub_i (by omega) ?_)))

end Verif
namespace Verif
open Res Spec Finset
variable {K : Type} [Field K] [DecidableEq K] {Q : Err → Prop}

theorem wp_pinv1 [CharZero K] (o : Mode) {n : ℕ} (hn : 2 ≤ n) :
    wp Q (pinv K o n 1) (fun p => p.rows = n ∧ p.cols = n ∧
      ∀ i < n, ∀ j < n, p.get i j = pTrue K 1 n i j) := by
  unfold pinv
  simp only [if_true, wp_bind]
  refine Mat.wp_wrC_i (by simp; omega) (by simp; omega) ?_
  refine wp_pinvDiag (n := n) (c := fun i => i - 1) (v := fun i => pc K 1 0 i) ⟨rfl, rfl⟩ le_rfl ?_ ?_ ?_ ?_
  · intro i h1 h2
    exact ⟨by unfold usub; rw [if_pos (by omega)], by omega⟩
  · intro i h1 h2
    refine ⟨?_, rfl⟩
    have : (i : K) ≠ 0 := castK_ne (i : ℤ) (by simp) (by omega)
    simpa using this
  · intro i h1 h2
    rw [Mat.upd_get, if_neg (by omega)]; rfl
  · intro p2 r2 c2 g2
    refine wp_usub_i (by omega) ?_
    refine wp_pinvDiag (n := n) (c := fun i => i + 1) (v := fun i => pc K 1 1 i) ⟨r2, c2⟩ (by omega) ?_ ?_ ?_ ?_
    · intro i h1 h2
      exact ⟨rfl, by omega⟩
    · intro i h1 h2
      refine ⟨?_, rfl⟩
      have : (i : K) ≠ 0 := castK_ne (i : ℤ) (by simp) (by omega)
      simpa using this
    · intro i h1 h2
      rw [g2, Mat.upd_get, if_neg (by omega), if_neg (by omega)]; simp
    · intro p3 r3 c3 g3
      refine ⟨r3, c3, fun i hi j hj => ?_⟩
      rw [g3, g2, Mat.upd_get, Mat.zeros_get]
      unfold pTrue
      simp only [sum_range_succ, sum_range_zero, zero_add]
      congr 1
      · by_cases h : i = 1 ∧ j = 0
        · rw [if_pos h, if_neg (by omega), if_pos (by omega), if_pos h.2, h.1]
          simp [pc]
        · rw [if_neg h, zero_add]
          by_cases h2 : 2 ≤ i ∧ i < n ∧ j = i - 1
          · rw [if_pos h2, if_pos (by omega), if_neg (by omega), mul_one]
          · rw [if_neg h2, if_neg (by omega)]
      · by_cases h2 : 1 ≤ i ∧ i < n - 2 ∧ j = i + 1
        · rw [if_pos h2, if_pos (by omega), if_neg (by omega), mul_one]
        · rw [if_neg h2, if_neg (by omega)]

theorem wp_pinv2 [CharZero K] (o : Mode) {n : ℕ} (hn : 4 ≤ n) (hm : n ≤ 2 ^ 30) :
    wp Q (pinv K o n 2) (fun p => p.rows = n ∧ p.cols = n ∧
      ∀ i < n, ∀ j < n, p.get i j = pTrue K 2 n i j) := by
  have bd : ∀ {a b c B : ℕ}, a ≤ B → b ≤ B → c * a * b ≤ c * B * B := by
    intro a b c B h1 h2
    exact Nat.mul_le_mul (Nat.mul_le_mul_left _ h1) h2
  unfold pinv
  simp only [if_true, show ¬ (2 = 1) by omega, if_false, wp_bind]
  refine Mat.wp_wrC_i (by simp; omega) (by simp; omega) ?_
  refine wp_pinvDiag (n := n) (c := fun i => i - 2) (v := fun i => pc K 2 0 i) ⟨rfl, rfl⟩ le_rfl ?_ ?_ ?_ ?_
  · intro i h1 h2
    exact ⟨by unfold usub; rw [if_pos (by omega)], by omega⟩
  · intro i h1 h2; pden
    refine wp_den o (by omega) (by simp; omega) ?_ ?_
    · have := @bd i (i - 1) 4 (2 ^ 30) (by omega) (by omega)
      simp only [List.foldl]; unfold usizeW; omega
    · have : ((i - 1 : ℕ) : K) = i - 1 := by push_cast [show 1 ≤ i by omega]; rfl
      simp only [List.foldl, pc]; push_cast; rw [this]
  · intro i h1 h2
    rw [Mat.upd_get, if_neg (by omega)]; rfl
  · intro p2 r2 c2 g2
    refine wp_usub_i (by omega) ?_
    refine wp_pinvDiag (n := n) (c := fun i => i) (v := fun i => pc K 2 1 i) ⟨r2, c2⟩ (by omega) ?_ ?_ ?_ ?_
    · intro i h1 h2
      exact ⟨rfl, by omega⟩
    · intro i h1 h2; pden
      have b1 := @bd i i 1 (2 ^ 30) (by omega) (by omega)
      have b2 : 2 * 2 ≤ i * i := Nat.mul_le_mul h1 h1
      simp only [one_mul] at b1
      rw [o.mul_ok (by unfold usizeW; omega), wp_ok, o.sub_ok (by omega), wp_ok]
      refine wp_den o (by omega) (by simp; omega) ?_ ?_
      · simp only [List.foldl]; unfold usizeW; omega
      · have : ((i * i - 1 : ℕ) : K) = i * i - 1 := by push_cast [show 1 ≤ i * i by omega]; rfl
        simp only [List.foldl, pc]; push_cast; rw [this]
    · intro i h1 h2
      rw [g2, Mat.upd_get, if_neg (by omega), if_neg (by omega)]; simp
    · intro p3 r3 c3 g3
      refine wp_usub_i (by omega) ?_
      refine wp_pinvDiag (n := n) (c := fun i => i + 2) (v := fun i => pc K 2 2 i) ⟨r3, c3⟩ (by omega) ?_ ?_ ?_ ?_
      · intro i h1 h2
        exact ⟨rfl, by omega⟩
      · intro i h1 h2; pden
        refine wp_den o (by omega) (by simp; omega) ?_ ?_
        · have := @bd i (i + 1) 4 (2 ^ 30) (by omega) (by omega)
          simp only [List.foldl]; unfold usizeW; omega
        · simp only [List.foldl, pc]; push_cast; rfl
      · intro i h1 h2
        rw [g3, g2, Mat.upd_get, if_neg (by omega), if_neg (by omega), if_neg (by omega)]; simp
      · intro p4 r4 c4 g4
        refine ⟨r4, c4, fun i hi j hj => ?_⟩
        rw [g4, g3, g2, Mat.upd_get, Mat.zeros_get]
        unfold pTrue
        simp only [sum_range_succ, sum_range_zero, zero_add]
        congr 1
        · congr 1
          · by_cases h : i = 2 ∧ j = 0
            · rw [if_pos h, if_neg (by omega), if_pos (by omega), if_pos h.2, h.1]
              norm_num [pc]
            · rw [if_neg h, zero_add]
              by_cases h2 : 3 ≤ i ∧ i < n ∧ j = i - 2
              · rw [if_pos h2, if_pos (by omega), if_neg (by omega), mul_one]
              · rw [if_neg h2, if_neg (by omega)]
          · by_cases h2 : 2 ≤ i ∧ i < n - 2 ∧ j = i
            · rw [if_pos h2, if_pos (by omega), if_neg (by omega), mul_one]
            · rw [if_neg h2, if_neg (by omega)]
        · by_cases h2 : 2 ≤ i ∧ i < n - 4 ∧ j = i + 2
          · rw [if_pos h2, if_pos (by omega), if_neg (by omega), mul_one]
          · rw [if_neg h2, if_neg (by omega)]

theorem wp_pinv3 [CharZero K] (o : Mode) {n : ℕ} (hn : 6 ≤ n) (hm : n ≤ 2 ^ 20) :
    wp Q (pinv K o n 3) (fun p => p.rows = n ∧ p.cols = n ∧
      ∀ i < n, ∀ j < n, p.get i j = pTrue K 3 n i j) := by
  have bd : ∀ {a b e c B : ℕ}, a ≤ B → b ≤ B → e ≤ B → c * a * b * e ≤ c * B * B * B := by
    intro a b e c B ha hb he
    exact (Nat.mul_le_mul (Nat.mul_le_mul (Nat.mul_le_mul le_rfl ha) hb) he)
  unfold pinv
  simp only [if_true, show ¬ (3 = 1) by omega, show ¬ (3 = 2) by omega, if_false, wp_bind]
  refine wp_pinvDiag (n := n) (c := fun i => i - 3) (v := fun i => pc K 3 0 i) ⟨rfl, rfl⟩ le_rfl ?_ ?_ ?_ ?_
  · intro i h1 h2
    exact ⟨by unfold usub; rw [if_pos (by omega)], by omega⟩
  · intro i h1 h2; pden
    refine wp_den o (by omega) (by simp; omega) ?_ ?_
    · have := @bd (i) (i - 1) (i - 2) 8 (2 ^ 20) (by omega) (by omega) (by omega)
      simp only [List.foldl]; unfold usizeW; omega
    · have e1 : ((i - 1 : ℕ) : K) = i - 1 := by push_cast [show 1 ≤ i by omega]; rfl
      have e2 : ((i - 2 : ℕ) : K) = i - 2 := by push_cast [show 2 ≤ i by omega]; rfl
      simp only [List.foldl, pc]; push_cast; rw [e1, e2]
  · intro i h1 h2; rfl
  · intro p1 r1 c1 g1
    simp only [Mat.zeros_get, zero_add] at g1
    refine Mat.wp_rdC_i (by omega) (by omega) ?_
    refine Mat.wp_wrC_i (by omega) (by omega) ?_
    have hg1 : ∀ i j, (p1.upd 3 0 (p1.get 3 0 * 2)).get i j
        = if 3 ≤ i ∧ i < n ∧ j = i - 3 then pc K 3 0 i * (if j = 0 then 2 else 1) else 0 := by
      intro i j
      rw [Mat.upd_get, g1, g1]
      by_cases h : i = 3 ∧ j = 0
      · rw [if_pos h, if_pos (by omega), if_pos (by omega), if_pos h.2, h.1]
      · rw [if_neg h]
        by_cases h2 : 3 ≤ i ∧ i < n ∧ j = i - 3
        · rw [if_pos h2, if_pos h2, if_neg (by omega), mul_one]
        · rw [if_neg h2, if_neg h2]
    replace r1 : (p1.upd 3 0 (p1.get 3 0 * 2)).rows = n := r1
    replace c1 : (p1.upd 3 0 (p1.get 3 0 * 2)).cols = n := c1
    refine wp_usub_i (by omega) ?_
    refine wp_pinvDiag (n := n) (c := fun i => i - 1) (v := fun i => pc K 3 1 i) ⟨r1, c1⟩ (by omega) ?_ ?_ ?_ ?_
    · intro i h1 h2
      exact ⟨by unfold usub; rw [if_pos (by omega)], by omega⟩
    · intro i h1 h2; pden
      refine wp_den o (by omega) (by simp; omega) ?_ ?_
      · have := @bd (i + 1) (i - 2) (i) 8 (2 ^ 20) (by omega) (by omega) (by omega)
        simp only [List.foldl]; unfold usizeW; omega
      · have e2 : ((i - 2 : ℕ) : K) = i - 2 := by push_cast [show 2 ≤ i by omega]; rfl
        simp only [List.foldl, pc]; push_cast; rw [e2]
    · intro i h1 h2
      rw [hg1, if_neg (by omega)]
    · intro p2 r2 c2 g2
      refine wp_usub_i (by omega) ?_
      refine wp_pinvDiag (n := n) (c := fun i => i + 1) (v := fun i => pc K 3 2 i) ⟨r2, c2⟩ (by omega) ?_ ?_ ?_ ?_
      · intro i h1 h2
        exact ⟨rfl, by omega⟩
      · intro i h1 h2; pden
        refine wp_den o (by omega) (by simp; omega) ?_ ?_
        · have := @bd (i - 1) (i + 2) (i) 8 (2 ^ 20) (by omega) (by omega) (by omega)
          simp only [List.foldl]; unfold usizeW; omega
        · have e1 : ((i - 1 : ℕ) : K) = i - 1 := by push_cast [show 1 ≤ i by omega]; rfl
          simp only [List.foldl, pc]; push_cast; rw [e1]
      · intro i h1 h2
        rw [g2, hg1, if_neg (by omega), if_neg (by omega)]; simp
      · intro p3 r3 c3 g3
        refine wp_usub_i (by omega) ?_
        refine wp_pinvDiag (n := n) (c := fun i => i + 3) (v := fun i => pc K 3 3 i) ⟨r3, c3⟩ (by omega) ?_ ?_ ?_ ?_
        · intro i h1 h2
          exact ⟨rfl, by omega⟩
        · intro i h1 h2; pden
          refine wp_den o (by omega) (by simp; omega) ?_ ?_
          · have := @bd (i) (i + 1) (i + 2) 8 (2 ^ 20) (by omega) (by omega) (by omega)
            simp only [List.foldl]; unfold usizeW; omega
          · simp only [List.foldl, pc]; push_cast; rfl
        · intro i h1 h2
          rw [g3, g2, hg1, if_neg (by omega), if_neg (by omega), if_neg (by omega)]; simp
        · intro p4 r4 c4 g4
          refine ⟨r4, c4, fun i hi j hj => ?_⟩
          rw [g4, g3, g2, hg1]
          unfold pTrue
          simp only [sum_range_succ, sum_range_zero, zero_add]
          refine congrArg₂ (· + ·) ?_ ?_
          swap
          · by_cases h2 : 3 ≤ i ∧ i < n - 6 ∧ j = i + 3
            · rw [if_pos h2, if_pos (by omega), if_neg (by omega), mul_one]
            · rw [if_neg h2, if_neg (by omega)]
          refine congrArg₂ (· + ·) ?_ ?_
          swap
          · by_cases h2 : 3 ≤ i ∧ i < n - 4 ∧ j = i + 1
            · rw [if_pos h2, if_pos (by omega), if_neg (by omega), mul_one]
            · rw [if_neg h2, if_neg (by omega)]
          refine congrArg₂ (· + ·) ?_ ?_
          swap
          · by_cases h2 : 3 ≤ i ∧ i < n - 2 ∧ j = i - 1
            · rw [if_pos h2, if_pos (by omega), if_neg (by omega), mul_one]
            · rw [if_neg h2, if_neg (by omega)]
          exact if_congr (by omega) rfl rfl

theorem wp_pinv4 [CharZero K] (o : Mode) {n : ℕ} (hn : 8 ≤ n) (hm : n ≤ 2 ^ 14) :
    wp Q (pinv K o n 4) (fun p => p.rows = n ∧ p.cols = n ∧
      ∀ i < n, ∀ j < n, p.get i j = pTrue K 4 n i j) := by
  have bd : ∀ {a b e d c B : ℕ}, a ≤ B → b ≤ B → e ≤ B → d ≤ B → c * a * b * e * d ≤ c * B * B * B * B := by
    intro a b e d c B ha hb he hd
    exact (Nat.mul_le_mul (Nat.mul_le_mul (Nat.mul_le_mul (Nat.mul_le_mul le_rfl ha) hb) he) hd)
  unfold pinv
  simp only [if_true, show ¬ (4 = 1) by omega, show ¬ (4 = 2) by omega, show ¬ (4 = 3) by omega, if_false, wp_bind]
  refine wp_pinvDiag (n := n) (c := fun i => i - 4) (v := fun i => pc K 4 0 i) ⟨rfl, rfl⟩ le_rfl ?_ ?_ ?_ ?_
  · intro i h1 h2
    exact ⟨by unfold usub; rw [if_pos (by omega)], by omega⟩
  · intro i h1 h2; pden
    refine wp_den o (by omega) (by simp; omega) ?_ ?_
    · have := @bd (i) (i - 1) (i - 2) (i - 3) 16 (2 ^ 14) (by omega) (by omega) (by omega) (by omega)
      simp only [List.foldl]; unfold usizeW; omega
    · have e1 : ((i - 1 : ℕ) : K) = i - 1 := by push_cast [show 1 ≤ i by omega]; rfl
      have e2 : ((i - 2 : ℕ) : K) = i - 2 := by push_cast [show 2 ≤ i by omega]; rfl
      have e3 : ((i - 3 : ℕ) : K) = i - 3 := by push_cast [show 3 ≤ i by omega]; rfl
      simp only [List.foldl, pc]; push_cast; rw [e1, e2, e3]
  · intro i h1 h2; rfl
  · intro p1 r1 c1 g1
    simp only [Mat.zeros_get, zero_add] at g1
    refine Mat.wp_rdC_i (by omega) (by omega) ?_
    refine Mat.wp_wrC_i (by omega) (by omega) ?_
    have hg1 : ∀ i j, (p1.upd 4 0 (p1.get 4 0 * 2)).get i j
        = if 4 ≤ i ∧ i < n ∧ j = i - 4 then pc K 4 0 i * (if j = 0 then 2 else 1) else 0 := by
      intro i j
      rw [Mat.upd_get, g1, g1]
      by_cases h : i = 4 ∧ j = 0
      · rw [if_pos h, if_pos (by omega), if_pos (by omega), if_pos h.2, h.1]
      · rw [if_neg h]
        by_cases h2 : 4 ≤ i ∧ i < n ∧ j = i - 4
        · rw [if_pos h2, if_pos h2, if_neg (by omega), mul_one]
        · rw [if_neg h2, if_neg h2]
    replace r1 : (p1.upd 4 0 (p1.get 4 0 * 2)).rows = n := r1
    replace c1 : (p1.upd 4 0 (p1.get 4 0 * 2)).cols = n := c1
    refine wp_usub_i (by omega) ?_
    refine wp_pinvDiag (n := n) (c := fun i => i - 2) (v := fun i => pc K 4 1 i) ⟨r1, c1⟩ (by omega) ?_ ?_ ?_ ?_
    · intro i h1 h2
      exact ⟨by unfold usub; rw [if_pos (by omega)], by omega⟩
    · intro i h1 h2; pden
      refine wp_den o (by omega) (by simp; omega) ?_ ?_
      · have := @bd (i - 3) (i - 1) (i) (i + 1) 4 (2 ^ 14) (by omega) (by omega) (by omega) (by omega)
        simp only [List.foldl]; unfold usizeW; omega
      · have e1 : ((i - 1 : ℕ) : K) = i - 1 := by push_cast [show 1 ≤ i by omega]; rfl
        have e3 : ((i - 3 : ℕ) : K) = i - 3 := by push_cast [show 3 ≤ i by omega]; rfl
        simp only [List.foldl, pc]; push_cast; rw [e1, e3]
    · intro i h1 h2
      rw [hg1, if_neg (by omega)]
    · intro p2 r2 c2 g2
      refine wp_usub_i (by omega) ?_
      refine wp_pinvDiag (n := n) (c := fun i => i) (v := fun i => pc K 4 2 i) ⟨r2, c2⟩ (by omega) ?_ ?_ ?_ ?_
      · intro i h1 h2
        exact ⟨rfl, by omega⟩
      · intro i h1 h2; pden
        refine wp_den o (by omega) (by simp; omega) ?_ ?_
        · have := @bd (i - 2) (i - 1) (i + 1) (i + 2) 8 (2 ^ 14) (by omega) (by omega) (by omega) (by omega)
          simp only [List.foldl]; unfold usizeW; omega
        · have e1 : ((i - 1 : ℕ) : K) = i - 1 := by push_cast [show 1 ≤ i by omega]; rfl
          have e2 : ((i - 2 : ℕ) : K) = i - 2 := by push_cast [show 2 ≤ i by omega]; rfl
          simp only [List.foldl, pc]; push_cast; rw [e1, e2]
      · intro i h1 h2
        rw [g2, hg1, if_neg (by omega), if_neg (by omega)]; simp
      · intro p3 r3 c3 g3
        refine wp_usub_i (by omega) ?_
        refine wp_pinvDiag (n := n) (c := fun i => i + 2) (v := fun i => pc K 4 3 i) ⟨r3, c3⟩ (by omega) ?_ ?_ ?_ ?_
        · intro i h1 h2
          exact ⟨rfl, by omega⟩
        · intro i h1 h2; pden
          refine wp_den o (by omega) (by simp; omega) ?_ ?_
          · have := @bd (i - 1) (i) (i + 1) (i + 3) 4 (2 ^ 14) (by omega) (by omega) (by omega) (by omega)
            simp only [List.foldl]; unfold usizeW; omega
          · have e1 : ((i - 1 : ℕ) : K) = i - 1 := by push_cast [show 1 ≤ i by omega]; rfl
            simp only [List.foldl, pc]; push_cast; rw [e1]
        · intro i h1 h2
          rw [g3, g2, hg1, if_neg (by omega), if_neg (by omega), if_neg (by omega)]; simp
        · intro p4 r4 c4 g4
          refine wp_usub_i (by omega) ?_
          refine wp_pinvDiag (n := n) (c := fun i => i + 4) (v := fun i => pc K 4 4 i) ⟨r4, c4⟩ (by omega) ?_ ?_ ?_ ?_
          · intro i h1 h2
            exact ⟨rfl, by omega⟩
          · intro i h1 h2; pden
            refine wp_den o (by omega) (by simp; omega) ?_ ?_
            · have := @bd (i) (i + 1) (i + 2) (i + 3) 16 (2 ^ 14) (by omega) (by omega) (by omega) (by omega)
              simp only [List.foldl]; unfold usizeW; omega
            · simp only [List.foldl, pc]; push_cast; rfl
          · intro i h1 h2
            rw [g4, g3, g2, hg1, if_neg (by omega), if_neg (by omega), if_neg (by omega), if_neg (by omega)]; simp
          · intro p5 r5 c5 g5
            refine ⟨r5, c5, fun i hi j hj => ?_⟩
            rw [g5, g4, g3, g2, hg1]
            unfold pTrue
            simp only [sum_range_succ, sum_range_zero, zero_add]
            refine congrArg₂ (· + ·) ?_ ?_
            swap
            · by_cases h2 : 4 ≤ i ∧ i < n - 8 ∧ j = i + 4
              · rw [if_pos h2, if_pos (by omega), if_neg (by omega), mul_one]
              · rw [if_neg h2, if_neg (by omega)]
            refine congrArg₂ (· + ·) ?_ ?_
            swap
            · by_cases h2 : 4 ≤ i ∧ i < n - 6 ∧ j = i + 2
              · rw [if_pos h2, if_pos (by omega), if_neg (by omega), mul_one]
              · rw [if_neg h2, if_neg (by omega)]
            refine congrArg₂ (· + ·) ?_ ?_
            swap
            · by_cases h2 : 4 ≤ i ∧ i < n - 4 ∧ j = i
              · rw [if_pos h2, if_pos (by omega), if_neg (by omega), mul_one]
              · rw [if_neg h2, if_neg (by omega)]
            refine congrArg₂ (· + ·) ?_ ?_
            swap
            · by_cases h2 : 4 ≤ i ∧ i < n - 2 ∧ j = i - 2
              · rw [if_pos h2, if_pos (by omega), if_neg (by omega), mul_one]
              · rw [if_neg h2, if_neg (by omega)]
            exact if_congr (by omega) rfl rfl

/-- largest size of the machine-integer denominators considered -/
def pinvMax : ℕ → ℕ
  | 1 => 2 ^ 63
  | 2 => 2 ^ 30
  | 3 => 2 ^ 20
  | 4 => 2 ^ 14
  | _ => 0

theorem wp_pinv [CharZero K] (o : Mode) {n k : ℕ} (hk : 1 ≤ k) (hk4 : k ≤ 4) (hn : 2 * k ≤ n)
    (hm : n ≤ pinvMax k) :
    wp Q (pinv K o n k) (fun p => p.rows = n ∧ p.cols = n ∧
      ∀ i < n, ∀ j < n, p.get i j = pTrue K k n i j) := by
  have : k = 1 ∨ k = 2 ∨ k = 3 ∨ k = 4 := by omega
  rcases this with rfl | rfl | rfl | rfl
  · exact wp_pinv1 o hn
  · exact wp_pinv2 o hn hm
  · exact wp_pinv3 o hn hm
  · exact wp_pinv4 o hn hm

/-- `_pinv` panics below its smallest sizes and for orders other than 1..4 -/
theorem pinv_small_panics [CharZero K] (o : Mode) {n k : ℕ} (hn : 2 ≤ n)
    (hk : k = 0 ∨ 5 ≤ k ∨ n < 2 * k) : pinv K o n k = err .panic := by
  by_cases h : k = 0 ∨ 5 ≤ k
  · unfold pinv
    rw [if_neg (by omega), if_neg (by omega), if_neg (by omega), if_neg (by omega)]
  · have hk' : (k = 2 ∧ (n = 2 ∨ n = 3)) ∨ (k = 3 ∧ (n = 2 ∨ n = 3 ∨ n = 4 ∨ n = 5)) ∨
        (k = 4 ∧ (n = 2 ∨ n = 3 ∨ n = 4 ∨ n = 5 ∨ n = 6 ∨ n = 7)) := by omega
    rcases hk' with ⟨rfl, rfl | rfl⟩ | ⟨rfl, rfl | rfl | rfl | rfl⟩ |
      ⟨rfl, rfl | rfl | rfl | rfl | rfl | rfl⟩ <;>
    simp [pinv, pinvDiag, forRange, forList, List.range'_succ, Mat.wrC, Mat.rdC, usub, Mode.prod,
      Mode.mul, divR, usizeW]

end Verif
