/- `pdma2` in arithmetic with rounding: the first rows (part of Proof/RndPenta, split to bound the memory of a
single prover process). -/
import Verif.Proof.RndPenta

namespace Verif
open Res Spec
variable {R : Rounding}

section
variable {Q : Err → Prop} {l4 l2 d0 u2 u4 : List (Rnd R)} {rhs : List (Rnd R)} {n : ℕ}

theorem wp_pdma2Init01_rnd (hn : 6 ≤ n) (hr : rhs.length = n) (hd : d0.length = n)
    (he : u2.length = n - 2) (hf : u4.length = n - 4)
    (hQ : ∀ i < n, (rLU 2 (nth l4) (nth l2) (nth d0) (nth u2) (nth u4) i).mu.val = 0 → Q .div0)
    (w : PentaWork (Rnd R) (Rnd R))
    (lal : w.al.length = n - 2) (lbe : w.be.length = n - 4) (lze : w.ze.length = n)
    (lga : w.ga.length = n) (lmu : w.mu.length = n) :
    wp Q (pdma2Init01 d0 u2 u4 rhs w)
      (RInv 2 n (nth l4) (nth l2) (nth d0) (nth u2) (nth u4) (nth rhs) 2) := by
  have q0 := hQ 0 (by omega)
  have q1 := hQ 1 (by omega)
  have e0 : rLU 2 (nth l4) (nth l2) (nth d0) (nth u2) (nth u4) 0 = _ := rLU_lo (by omega)
  have e1 : rLU 2 (nth l4) (nth l2) (nth d0) (nth u2) (nth u4) 1 = _ := rLU_lo (by omega)
  have z0 : rZe 2 (nth l4) (nth l2) (nth d0) (nth u2) (nth u4) (nth rhs) 0 = _ :=
    rZe_lo (by omega)
  have z1 : rZe 2 (nth l4) (nth l2) (nth d0) (nth u2) (nth u4) (nth rhs) 1 = _ :=
    rZe_lo (by omega)
  rw [e0] at q0
  rw [e1] at q1
  simp only at q0 q1
  unfold pdma2Init01
  rrun
  all_goals simp only [nth_set, List.length_set, *, true_and, and_true] at *
  all_goals simp (disch := omega) only [if_pos, if_neg, one_ne_zero, zero_ne_one, false_and,
    if_false, Nat.zero_lt_one, and_true, true_and, and_false] at *
  all_goals try simp only [Rnd.smul_eq] at *
  all_goals try assumption
  constructor
  all_goals try simp only [List.length_set, lal, lbe, lze, lga, lmu, Nat.reduceMul]
  rotate_right
  · intro i hi
    interval_cases i
    · rw [e0]; assumption
    · rw [e1]; assumption
  all_goals intro i hi hi'
  all_goals interval_cases i
  all_goals simp only [nth_set, List.length_set, lal, lbe, lze, e0, e1, z0, z1, Rnd.smul_eq]
  all_goals simp (disch := omega) only [if_pos, if_neg, one_ne_zero, zero_ne_one, false_and,
    if_false, Nat.zero_lt_one, and_true, true_and, and_false]

theorem wp_pdma2Init2_rnd (hn : 6 ≤ n) (hr : rhs.length = n) (h2 : l2.length = n - 2)
    (hd : d0.length = n) (he : u2.length = n - 2) (hf : u4.length = n - 4)
    (hQ : ∀ i < n, (rLU 2 (nth l4) (nth l2) (nth d0) (nth u2) (nth u4) i).mu.val = 0 → Q .div0)
    (w : PentaWork (Rnd R) (Rnd R))
    (hw : RInv 2 n (nth l4) (nth l2) (nth d0) (nth u2) (nth u4) (nth rhs) 2 w) :
    wp Q (pdma2Init2 l2 d0 u2 u4 rhs w)
      (RInv 2 n (nth l4) (nth l2) (nth d0) (nth u2) (nth u4) (nth rhs) 3) := by
  have q := hQ 2 (by omega)
  obtain ⟨lal, lbe, lze, lga, lmu, al, be, ze, nz⟩ := hw
  have ek : rLU 2 (nth l4) (nth l2) (nth d0) (nth u2) (nth u4) (0 + 2) = _ :=
    rLU_mid (by omega) (by omega)
  have zk : rZe 2 (nth l4) (nth l2) (nth d0) (nth u2) (nth u4) (nth rhs) (0 + 2) = _ :=
    rZe_mid (by omega) (by omega)
  simp only [Nat.reduceAdd, Nat.reduceMul] at ek zk lbe be
  rw [ek] at zk q
  simp only at q
  have a0 := al 0 (by omega) (by omega)
  have b0 := be 0 (by omega) (by omega)
  have z0 := ze 0 (by omega) (by omega)
  unfold pdma2Init2
  rrun
  · refine wp_cut (fun be' => be'.length = n - 4 ∧ ∀ i, i < 3 → i < n - 4 → nth be' i =
      (rLU 2 (nth l4) (nth l2) (nth d0) (nth u2) (nth u4) i).be) ?_ ?_
    · refine wp_ite_i (fun h => ?_) (fun h => ?_)
      · rrun
        · refine ⟨by simpa using lbe, nth_set_lt_succ (by omega) ?_ be⟩
          rw [ek]
          simp only [nth_set, List.length_set, *, true_and, Rnd.smul_eq]
          simp (disch := omega) only [if_pos, a0]
        · simp only [nth_set, List.length_set, *, true_and]
          simp (disch := omega) only [if_pos, a0]
          assumption
      · rrun
        exact ⟨lbe, nth_noset_lt_succ (by omega) be⟩
    · rintro be' ⟨hbe, hbe'⟩
      rrun
      · constructor
        all_goals try simp only [List.length_set, lal, lbe, lze, lga, lmu, Nat.reduceMul, hbe]
        · refine nth_set_lt_succ (by omega) ?_ al
          rw [ek]
          simp only [nth_set, List.length_set, *, true_and, Rnd.smul_eq]
          simp (disch := omega) only [if_pos, a0, b0]
        · exact hbe'
        · refine nth_set_lt_succ (by omega) ?_ ze
          rw [zk]
          simp only [nth_set, List.length_set, *, true_and, Rnd.smul_eq]
          simp (disch := omega) only [if_pos, a0, b0, z0]
        · refine nz_lt_succ nz ?_
          rw [ek]
          rename_i hne _
          simp only [nth_set, List.length_set, *, true_and] at hne
          simp (disch := omega) only [if_pos, a0] at hne
          exact hne
      · simp only [nth_set, List.length_set, *, true_and]
        simp (disch := omega) only [if_pos, a0]
        assumption
  · simp only [nth_set, List.length_set, *, true_and]
    simp (disch := omega) only [if_pos, a0]
    assumption

theorem wp_pdma2Init3_rnd (hn : 6 ≤ n) (hr : rhs.length = n) (h2 : l2.length = n - 2)
    (hd : d0.length = n) (he : u2.length = n - 2) (hf : u4.length = n - 4)
    (hQ : ∀ i < n, (rLU 2 (nth l4) (nth l2) (nth d0) (nth u2) (nth u4) i).mu.val = 0 → Q .div0)
    (w : PentaWork (Rnd R) (Rnd R))
    (hw : RInv 2 n (nth l4) (nth l2) (nth d0) (nth u2) (nth u4) (nth rhs) 3 w) :
    wp Q (pdma2Init3 l2 d0 u2 u4 rhs w)
      (RInv 2 n (nth l4) (nth l2) (nth d0) (nth u2) (nth u4) (nth rhs) 4) := by
  have q := hQ 3 (by omega)
  obtain ⟨lal, lbe, lze, lga, lmu, al, be, ze, nz⟩ := hw
  have ek : rLU 2 (nth l4) (nth l2) (nth d0) (nth u2) (nth u4) (1 + 2) = _ :=
    rLU_mid (by omega) (by omega)
  have zk : rZe 2 (nth l4) (nth l2) (nth d0) (nth u2) (nth u4) (nth rhs) (1 + 2) = _ :=
    rZe_mid (by omega) (by omega)
  simp only [Nat.reduceAdd, Nat.reduceMul] at ek zk lbe be
  rw [ek] at zk q
  simp only at q
  have a0 := al 1 (by omega) (by omega)
  have b0 := be 1 (by omega) (by omega)
  have z0 := ze 1 (by omega) (by omega)
  unfold pdma2Init3
  rrun
  · refine wp_cut (fun be' => be'.length = n - 4 ∧ ∀ i, i < 4 → i < n - 4 → nth be' i =
      (rLU 2 (nth l4) (nth l2) (nth d0) (nth u2) (nth u4) i).be) ?_ ?_
    · refine wp_ite_i (fun h => ?_) (fun h => ?_)
      · rrun
        · refine ⟨by simpa using lbe, nth_set_lt_succ (by omega) ?_ be⟩
          rw [ek]
          simp only [nth_set, List.length_set, *, true_and, Rnd.smul_eq]
          simp (disch := omega) only [if_pos, a0]
        · simp only [nth_set, List.length_set, *, true_and]
          simp (disch := omega) only [if_pos, a0]
          assumption
      · rrun
        exact ⟨lbe, nth_noset_lt_succ (by omega) be⟩
    · rintro be' ⟨hbe, hbe'⟩
      rrun
      · constructor
        all_goals try simp only [List.length_set, lal, lbe, lze, lga, lmu, Nat.reduceMul, hbe]
        · refine nth_set_lt_succ (by omega) ?_ al
          rw [ek]
          simp only [nth_set, List.length_set, *, true_and, Rnd.smul_eq]
          simp (disch := omega) only [if_pos, a0, b0]
        · exact hbe'
        · refine nth_set_lt_succ (by omega) ?_ ze
          rw [zk]
          simp only [nth_set, List.length_set, *, true_and, Rnd.smul_eq]
          simp (disch := omega) only [if_pos, a0, b0, z0]
        · refine nz_lt_succ nz ?_
          rw [ek]
          rename_i hne _
          simp only [nth_set, List.length_set, *, true_and] at hne
          simp (disch := omega) only [if_pos, a0] at hne
          exact hne
      · simp only [nth_set, List.length_set, *, true_and]
        simp (disch := omega) only [if_pos, a0]
        assumption
  · simp only [nth_set, List.length_set, *, true_and]
    simp (disch := omega) only [if_pos, a0]
    assumption

theorem wp_pdma2Row_rnd (hr : rhs.length = n)
    (h4 : l4.length = n - 4) (h2 : l2.length = n - 2) (hd : d0.length = n)
    (he : u2.length = n - 2) (hf : u4.length = n - 4)
    (hQ : ∀ i < n, (rLU 2 (nth l4) (nth l2) (nth d0) (nth u2) (nth u4) i).mu.val = 0 → Q .div0)
    (w : PentaWork (Rnd R) (Rnd R)) (k : ℕ) (hk : 4 ≤ k) (hkn : k < n - 4)
    (hw : RInv 2 n (nth l4) (nth l2) (nth d0) (nth u2) (nth u4) (nth rhs) k w) :
    wp Q (pdma2Row l4 l2 d0 u2 u4 rhs k w)
      (RInv 2 n (nth l4) (nth l2) (nth d0) (nth u2) (nth u4) (nth rhs) (k + 1)) := by
  obtain ⟨k, rfl⟩ : ∃ j, k = j + 4 := ⟨k - 4, by omega⟩
  have q := hQ (k + 4) (by omega)
  obtain ⟨lal, lbe, lze, lga, lmu, al, be, ze, nz⟩ := hw
  have ek : rLU 2 (nth l4) (nth l2) (nth d0) (nth u2) (nth u4) (k + 2 * 2) = _ :=
    rLU_hi (by omega)
  have zk : rZe 2 (nth l4) (nth l2) (nth d0) (nth u2) (nth u4) (nth rhs) (k + 2 * 2) = _ :=
    rZe_hi (by omega)
  simp only [Nat.reduceMul] at ek zk lbe be
  rw [ek] at zk q
  simp only at q
  unfold pdma2Row
  rrun
  all_goals simp only [nth_set, List.length_set, *, true_and, and_true, Nat.add_sub_cancel,
    show k + 4 - 2 = k + 2 by omega] at *
  all_goals simp (disch := omega) only [al k, al (k + 2), be k, be (k + 2), if_pos, ze k,
    ze (k + 2)] at *
  all_goals try simp only [Rnd.smul_eq] at *
  all_goals try assumption
  constructor
  all_goals try simp only [List.length_set, lal, lbe, lze, lga, lmu, Nat.reduceMul]
  rotate_right
  · refine nz_lt_succ nz ?_
    rw [ek]; assumption
  all_goals refine nth_set_lt_succ (by omega) ?_ ?_
  all_goals first | assumption | simp only [ek, zk]

end
end Verif
