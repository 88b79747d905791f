/- Correctness of `pdma2`: loop invariants. -/
import Verif.Model.Pdma2
import Verif.Proof.Pdma

namespace Verif
open Res
variable {K T : Type} [Field K] [DecidableEq K] [AddCommGroup T] [Module K T]
variable {Q : Err → Prop} {l4 l2 d0 u2 u4 : List K} {rhs : List T} {n : ℕ}

theorem wp_pdma2Init01 (hn : 6 ≤ n) (hr : rhs.length = n) (hd : d0.length = n)
    (he : u2.length = n - 2) (hf : u4.length = n - 4)
    (hQ : ∀ i < n, (pLU 2 (nth l4) (nth l2) (nth d0) (nth u2) (nth u4) i).mu = 0 → Q .div0)
    (w : PentaWork K T)
    (lal : w.al.length = n - 2) (lbe : w.be.length = n - 4) (lze : w.ze.length = n)
    (lga : w.ga.length = n) (lmu : w.mu.length = n) :
    wp Q (pdma2Init01 d0 u2 u4 rhs w)
      (PInv 2 n (nth l4) (nth l2) (nth d0) (nth u2) (nth u4) (nth rhs) 2) := by
  have q0 := hQ 0 (by omega)
  have q1 := hQ 1 (by omega)
  have e0 : pLU 2 (nth l4) (nth l2) (nth d0) (nth u2) (nth u4) 0 = _ := pLU_lo (by omega)
  have e1 : pLU 2 (nth l4) (nth l2) (nth d0) (nth u2) (nth u4) 1 = _ := pLU_lo (by omega)
  have z0 : pZe 2 (nth l4) (nth l2) (nth d0) (nth u2) (nth u4) (nth rhs) 0 = _ :=
    pZe_lo (by omega)
  have z1 : pZe 2 (nth l4) (nth l2) (nth d0) (nth u2) (nth u4) (nth rhs) 1 = _ :=
    pZe_lo (by omega)
  rw [e0] at q0
  rw [e1] at q1
  simp only at q0 q1
  unfold pdma2Init01
  wprun
  all_goals simp only [nth_set, List.length_set, *, true_and, and_true] at *
  all_goals simp (disch := omega) only [if_pos, if_neg, one_ne_zero, zero_ne_one, false_and,
    if_false, Nat.zero_lt_one, and_true, true_and, and_false] at *
  all_goals try simp only [smul_eq_mul] at *
  all_goals try assumption
  constructor
  all_goals try simp only [List.length_set, lal, lbe, lze, lga, lmu, Nat.reduceMul]
  rotate_right
  · intro i hi
    interval_cases i
    · rw [e0]; assumption
    · rw [e1]; assumption
  all_goals intro i hi hi'
  all_goals interval_cases i
  all_goals simp only [nth_set, List.length_set, lal, lbe, lze, e0, e1, z0, z1, smul_eq_mul]
  all_goals simp (disch := omega) only [if_pos, if_neg, one_ne_zero, zero_ne_one, false_and,
    if_false, Nat.zero_lt_one, and_true, true_and, and_false]

theorem wp_pdma2Init2 (hn : 6 ≤ n) (hr : rhs.length = n) (h2 : l2.length = n - 2)
    (hd : d0.length = n) (he : u2.length = n - 2) (hf : u4.length = n - 4)
    (hQ : ∀ i < n, (pLU 2 (nth l4) (nth l2) (nth d0) (nth u2) (nth u4) i).mu = 0 → Q .div0)
    (w : PentaWork K T)
    (hw : PInv 2 n (nth l4) (nth l2) (nth d0) (nth u2) (nth u4) (nth rhs) 2 w) :
    wp Q (pdma2Init2 l2 d0 u2 u4 rhs w)
      (PInv 2 n (nth l4) (nth l2) (nth d0) (nth u2) (nth u4) (nth rhs) 3) := by
  have q := hQ 2 (by omega)
  obtain ⟨lal, lbe, lze, lga, lmu, al, be, ze, nz⟩ := hw
  have ek : pLU 2 (nth l4) (nth l2) (nth d0) (nth u2) (nth u4) (0 + 2) = _ :=
    pLU_mid (by omega) (by omega)
  have zk : pZe 2 (nth l4) (nth l2) (nth d0) (nth u2) (nth u4) (nth rhs) (0 + 2) = _ :=
    pZe_mid (by omega) (by omega)
  simp only [Nat.reduceAdd, Nat.reduceMul] at ek zk lbe be
  rw [ek] at zk q
  simp only at q
  have a0 := al 0 (by omega) (by omega)
  have b0 := be 0 (by omega) (by omega)
  have z0 := ze 0 (by omega) (by omega)
  unfold pdma2Init2
  wprun
  · refine wp_cut (fun be' => be'.length = n - 4 ∧ ∀ i, i < 3 → i < n - 4 → nth be' i =
      (pLU 2 (nth l4) (nth l2) (nth d0) (nth u2) (nth u4) i).be) ?_ ?_
    · refine wp_ite_i (fun h => ?_) (fun h => ?_)
      · wprun
        · refine ⟨by simpa using lbe, nth_set_lt_succ (by omega) ?_ be⟩
          rw [ek]
          simp only [nth_set, List.length_set, *, true_and, smul_eq_mul]
          simp (disch := omega) only [if_pos, a0]
        · simp only [nth_set, List.length_set, *, true_and]
          simp (disch := omega) only [if_pos, a0]
          assumption
      · wprun
        exact ⟨lbe, nth_noset_lt_succ (by omega) be⟩
    · rintro be' ⟨hbe, hbe'⟩
      wprun
      · constructor
        all_goals try simp only [List.length_set, lal, lbe, lze, lga, lmu, Nat.reduceMul, hbe]
        · refine nth_set_lt_succ (by omega) ?_ al
          rw [ek]
          simp only [nth_set, List.length_set, *, true_and, smul_eq_mul]
          simp (disch := omega) only [if_pos, a0, b0]
        · exact hbe'
        · refine nth_set_lt_succ (by omega) ?_ ze
          rw [zk]
          simp only [nth_set, List.length_set, *, true_and, smul_eq_mul]
          simp (disch := omega) only [if_pos, a0, b0, z0]
        · refine nz_lt_succ nz ?_
          rw [ek]
          rename_i hne _
          simp only [nth_set, List.length_set, *, true_and] at hne
          simp (disch := omega) only [if_pos, a0] at hne
          exact hne
      · simp only [nth_set, List.length_set, *, true_and]
        simp (disch := omega) only [if_pos, a0]
        assumption
  · simp only [nth_set, List.length_set, *, true_and]
    simp (disch := omega) only [if_pos, a0]
    assumption

theorem wp_pdma2Init3 (hn : 6 ≤ n) (hr : rhs.length = n) (h2 : l2.length = n - 2)
    (hd : d0.length = n) (he : u2.length = n - 2) (hf : u4.length = n - 4)
    (hQ : ∀ i < n, (pLU 2 (nth l4) (nth l2) (nth d0) (nth u2) (nth u4) i).mu = 0 → Q .div0)
    (w : PentaWork K T)
    (hw : PInv 2 n (nth l4) (nth l2) (nth d0) (nth u2) (nth u4) (nth rhs) 3 w) :
    wp Q (pdma2Init3 l2 d0 u2 u4 rhs w)
      (PInv 2 n (nth l4) (nth l2) (nth d0) (nth u2) (nth u4) (nth rhs) 4) := by
  have q := hQ 3 (by omega)
  obtain ⟨lal, lbe, lze, lga, lmu, al, be, ze, nz⟩ := hw
  have ek : pLU 2 (nth l4) (nth l2) (nth d0) (nth u2) (nth u4) (1 + 2) = _ :=
    pLU_mid (by omega) (by omega)
  have zk : pZe 2 (nth l4) (nth l2) (nth d0) (nth u2) (nth u4) (nth rhs) (1 + 2) = _ :=
    pZe_mid (by omega) (by omega)
  simp only [Nat.reduceAdd, Nat.reduceMul] at ek zk lbe be
  rw [ek] at zk q
  simp only at q
  have a0 := al 1 (by omega) (by omega)
  have b0 := be 1 (by omega) (by omega)
  have z0 := ze 1 (by omega) (by omega)
  unfold pdma2Init3
  wprun
  · refine wp_cut (fun be' => be'.length = n - 4 ∧ ∀ i, i < 4 → i < n - 4 → nth be' i =
      (pLU 2 (nth l4) (nth l2) (nth d0) (nth u2) (nth u4) i).be) ?_ ?_
    · refine wp_ite_i (fun h => ?_) (fun h => ?_)
      · wprun
        · refine ⟨by simpa using lbe, nth_set_lt_succ (by omega) ?_ be⟩
          rw [ek]
          simp only [nth_set, List.length_set, *, true_and, smul_eq_mul]
          simp (disch := omega) only [if_pos, a0]
        · simp only [nth_set, List.length_set, *, true_and]
          simp (disch := omega) only [if_pos, a0]
          assumption
      · wprun
        exact ⟨lbe, nth_noset_lt_succ (by omega) be⟩
    · rintro be' ⟨hbe, hbe'⟩
      wprun
      · constructor
        all_goals try simp only [List.length_set, lal, lbe, lze, lga, lmu, Nat.reduceMul, hbe]
        · refine nth_set_lt_succ (by omega) ?_ al
          rw [ek]
          simp only [nth_set, List.length_set, *, true_and, smul_eq_mul]
          simp (disch := omega) only [if_pos, a0, b0]
        · exact hbe'
        · refine nth_set_lt_succ (by omega) ?_ ze
          rw [zk]
          simp only [nth_set, List.length_set, *, true_and, smul_eq_mul]
          simp (disch := omega) only [if_pos, a0, b0, z0]
        · refine nz_lt_succ nz ?_
          rw [ek]
          rename_i hne _
          simp only [nth_set, List.length_set, *, true_and] at hne
          simp (disch := omega) only [if_pos, a0] at hne
          exact hne
      · simp only [nth_set, List.length_set, *, true_and]
        simp (disch := omega) only [if_pos, a0]
        assumption
  · simp only [nth_set, List.length_set, *, true_and]
    simp (disch := omega) only [if_pos, a0]
    assumption

theorem wp_pdma2Row (hr : rhs.length = n)
    (h4 : l4.length = n - 4) (h2 : l2.length = n - 2) (hd : d0.length = n)
    (he : u2.length = n - 2) (hf : u4.length = n - 4)
    (hQ : ∀ i < n, (pLU 2 (nth l4) (nth l2) (nth d0) (nth u2) (nth u4) i).mu = 0 → Q .div0)
    (w : PentaWork K T) (k : ℕ) (hk : 4 ≤ k) (hkn : k < n - 4)
    (hw : PInv 2 n (nth l4) (nth l2) (nth d0) (nth u2) (nth u4) (nth rhs) k w) :
    wp Q (pdma2Row l4 l2 d0 u2 u4 rhs k w)
      (PInv 2 n (nth l4) (nth l2) (nth d0) (nth u2) (nth u4) (nth rhs) (k + 1)) := by
  obtain ⟨k, rfl⟩ : ∃ j, k = j + 4 := ⟨k - 4, by omega⟩
  have q := hQ (k + 4) (by omega)
  obtain ⟨lal, lbe, lze, lga, lmu, al, be, ze, nz⟩ := hw
  have ek : pLU 2 (nth l4) (nth l2) (nth d0) (nth u2) (nth u4) (k + 2 * 2) = _ :=
    pLU_hi (by omega)
  have zk : pZe 2 (nth l4) (nth l2) (nth d0) (nth u2) (nth u4) (nth rhs) (k + 2 * 2) = _ :=
    pZe_hi (by omega)
  simp only [Nat.reduceMul] at ek zk lbe be
  rw [ek] at zk q
  simp only at q
  unfold pdma2Row
  wprun
  all_goals simp only [nth_set, List.length_set, *, true_and, and_true, Nat.add_sub_cancel,
    show k + 4 - 2 = k + 2 by omega] at *
  all_goals simp (disch := omega) only [al k, al (k + 2), be k, be (k + 2), if_pos, ze k,
    ze (k + 2)] at *
  all_goals try simp only [smul_eq_mul] at *
  all_goals try assumption
  constructor
  all_goals try simp only [List.length_set, lal, lbe, lze, lga, lmu, Nat.reduceMul]
  rotate_right
  · refine nz_lt_succ nz ?_
    rw [ek]; assumption
  all_goals refine nth_set_lt_succ (by omega) ?_ ?_
  all_goals first | assumption | simp only [ek, zk]

set_option maxHeartbeats 1000000 in
theorem wp_pdma2RowN4 (hn : 6 ≤ n) (hr : rhs.length = n)
    (h4 : l4.length = n - 4) (h2 : l2.length = n - 2) (hd : d0.length = n)
    (he : u2.length = n - 2)
    (hQ : ∀ i < n, (pLU 2 (nth l4) (nth l2) (nth d0) (nth u2) (nth u4) i).mu = 0 → Q .div0)
    (w : PentaWork K T)
    (hw : PInv 2 n (nth l4) (nth l2) (nth d0) (nth u2) (nth u4) (nth rhs) (max 4 (n - 4)) w) :
    wp Q (pdma2RowN4 l4 l2 d0 u2 rhs n w)
      (PInv 2 n (nth l4) (nth l2) (nth d0) (nth u2) (nth u4) (nth rhs) (max 4 (n - 3))) := by
  unfold pdma2RowN4
  refine wp_ite_i (fun h => ?_) (fun h => ?_)
  swap
  · wprun
    rwa [show max 4 (n - 3) = max 4 (n - 4) by omega]
  obtain ⟨k, rfl⟩ : ∃ j, n = j + 8 := ⟨n - 8, by omega⟩
  rw [show max 4 (k + 8 - 4) = k + 4 by omega] at hw
  rw [show max 4 (k + 8 - 3) = k + 5 by omega]
  have q := hQ (k + 4) (by omega)
  obtain ⟨lal, lbe, lze, lga, lmu, al, be, ze, nz⟩ := hw
  have ek : pLU 2 (nth l4) (nth l2) (nth d0) (nth u2) (nth u4) (k + 2 * 2) = _ :=
    pLU_hi (by omega)
  have zk : pZe 2 (nth l4) (nth l2) (nth d0) (nth u2) (nth u4) (nth rhs) (k + 2 * 2) = _ :=
    pZe_hi (by omega)
  simp only [Nat.reduceMul] at ek zk lbe be
  rw [ek] at zk q
  simp only at q
  clear hQ
  have t4 : k + 8 - 4 = k + 4 := by omega
  have t2 : k + 8 - 2 = k + 6 := by omega
  rw [t4] at h4 lbe be
  rw [t2] at h2 he lal al
  clear t4 t2
  have s4 : (k + 8) -! 4 = ok (k + 4) := if_pos (by omega)
  have s2 : (k + 8) -! 6 = ok (k + 2) := if_pos (by omega)
  have s0 : (k + 8) -! 8 = ok (k + 0) := if_pos (by omega)
  simp only [s4, s2, s0, Nat.add_zero]
  clear s4 s2 s0
  wprun
  all_goals simp only [nth_set, List.length_set, *, true_and, and_true] at *
  all_goals simp (disch := omega) only [al k, al (k + 2), be k, be (k + 2), if_pos, ze k,
    ze (k + 2)] at *
  all_goals try simp only [smul_eq_mul] at *
  all_goals try assumption
  constructor
  all_goals try simp only [List.length_set, lal, lbe, lze, lga, lmu, Nat.reduceMul]
  all_goals try omega
  · refine nth_set_lt_succ (by omega) ?_ ?_
    all_goals first | assumption | simp only [ek, zk]
  · exact nth_noset_lt_succ (by omega) be
  · refine nth_set_lt_succ (by omega) ?_ ?_
    all_goals first | assumption | simp only [ek, zk]
  · refine nz_lt_succ nz ?_
    rw [ek]; assumption

set_option maxHeartbeats 1000000 in
theorem wp_pdma2RowN3 (hn : 6 ≤ n) (hr : rhs.length = n)
    (h4 : l4.length = n - 4) (h2 : l2.length = n - 2) (hd : d0.length = n)
    (he : u2.length = n - 2)
    (hQ : ∀ i < n, (pLU 2 (nth l4) (nth l2) (nth d0) (nth u2) (nth u4) i).mu = 0 → Q .div0)
    (w : PentaWork K T)
    (hw : PInv 2 n (nth l4) (nth l2) (nth d0) (nth u2) (nth u4) (nth rhs) (max 4 (n - 3)) w) :
    wp Q (pdma2RowN3 l4 l2 d0 u2 rhs n w)
      (PInv 2 n (nth l4) (nth l2) (nth d0) (nth u2) (nth u4) (nth rhs) (max 4 (n - 2))) := by
  unfold pdma2RowN3
  refine wp_ite_i (fun h => ?_) (fun h => ?_)
  swap
  · wprun
    rwa [show max 4 (n - 2) = max 4 (n - 3) by omega]
  obtain ⟨k, rfl⟩ : ∃ j, n = j + 7 := ⟨n - 7, by omega⟩
  rw [show max 4 (k + 7 - 3) = k + 4 by omega] at hw
  rw [show max 4 (k + 7 - 2) = k + 5 by omega]
  have q := hQ (k + 4) (by omega)
  obtain ⟨lal, lbe, lze, lga, lmu, al, be, ze, nz⟩ := hw
  have ek : pLU 2 (nth l4) (nth l2) (nth d0) (nth u2) (nth u4) (k + 2 * 2) = _ :=
    pLU_hi (by omega)
  have zk : pZe 2 (nth l4) (nth l2) (nth d0) (nth u2) (nth u4) (nth rhs) (k + 2 * 2) = _ :=
    pZe_hi (by omega)
  simp only [Nat.reduceMul] at ek zk lbe be
  rw [ek] at zk q
  simp only at q
  clear hQ
  have t4 : k + 7 - 4 = k + 3 := by omega
  have t2 : k + 7 - 2 = k + 5 := by omega
  rw [t4] at h4 lbe be
  rw [t2] at h2 he lal al
  clear t4 t2
  have s4 : (k + 7) -! 3 = ok (k + 4) := if_pos (by omega)
  have s2 : (k + 7) -! 5 = ok (k + 2) := if_pos (by omega)
  have s0 : (k + 7) -! 7 = ok (k + 0) := if_pos (by omega)
  simp only [s4, s2, s0, Nat.add_zero]
  clear s4 s2 s0
  wprun
  all_goals simp only [nth_set, List.length_set, *, true_and, and_true] at *
  all_goals simp (disch := omega) only [al k, al (k + 2), be k, be (k + 2), if_pos, ze k,
    ze (k + 2)] at *
  all_goals try simp only [smul_eq_mul] at *
  all_goals try assumption
  constructor
  all_goals try simp only [List.length_set, lal, lbe, lze, lga, lmu, Nat.reduceMul]
  all_goals try omega
  · refine nth_set_lt_succ (by omega) ?_ ?_
    all_goals first | assumption | simp only [ek, zk]
  · exact nth_noset_lt_succ (by omega) be
  · refine nth_set_lt_succ (by omega) ?_ ?_
    all_goals first | assumption | simp only [ek, zk]
  · refine nz_lt_succ nz ?_
    rw [ek]; assumption

set_option maxHeartbeats 1000000 in
theorem wp_pdma2RowN2 (hn : 6 ≤ n) (hr : rhs.length = n)
    (h4 : l4.length = n - 4) (h2 : l2.length = n - 2) (hd : d0.length = n)
    
    (hQ : ∀ i < n, (pLU 2 (nth l4) (nth l2) (nth d0) (nth u2) (nth u4) i).mu = 0 → Q .div0)
    (w : PentaWork K T)
    (hw : PInv 2 n (nth l4) (nth l2) (nth d0) (nth u2) (nth u4) (nth rhs) (max 4 (n - 2)) w) :
    wp Q (pdma2RowN2 l4 l2 d0 rhs n w)
      (PInv 2 n (nth l4) (nth l2) (nth d0) (nth u2) (nth u4) (nth rhs) (max 4 (n - 1))) := by
  unfold pdma2RowN2
  obtain ⟨k, rfl⟩ : ∃ j, n = j + 6 := ⟨n - 6, by omega⟩
  rw [show max 4 (k + 6 - 2) = k + 4 by omega] at hw
  rw [show max 4 (k + 6 - 1) = k + 5 by omega]
  have q := hQ (k + 4) (by omega)
  obtain ⟨lal, lbe, lze, lga, lmu, al, be, ze, nz⟩ := hw
  have ek : pLU 2 (nth l4) (nth l2) (nth d0) (nth u2) (nth u4) (k + 2 * 2) = _ :=
    pLU_hi (by omega)
  have zk : pZe 2 (nth l4) (nth l2) (nth d0) (nth u2) (nth u4) (nth rhs) (k + 2 * 2) = _ :=
    pZe_hi (by omega)
  simp only [Nat.reduceMul] at ek zk lbe be
  rw [ek] at zk q
  simp only at q
  clear hQ
  have t4 : k + 6 - 4 = k + 2 := by omega
  have t2 : k + 6 - 2 = k + 4 := by omega
  rw [t4] at h4 lbe be
  rw [t2] at h2 lal al
  clear t4 t2
  have s4 : (k + 6) -! 2 = ok (k + 4) := if_pos (by omega)
  have s2 : (k + 6) -! 4 = ok (k + 2) := if_pos (by omega)
  have s0 : (k + 6) -! 6 = ok (k + 0) := if_pos (by omega)
  simp only [s4, s2, s0, Nat.add_zero]
  clear s4 s2 s0
  wprun
  all_goals simp only [nth_set, List.length_set, *, true_and, and_true] at *
  all_goals simp (disch := omega) only [al k, al (k + 2), be k, be (k + 2), if_pos, ze k,
    ze (k + 2)] at *
  all_goals try simp only [smul_eq_mul] at *
  all_goals try assumption
  constructor
  all_goals try simp only [List.length_set, lal, lbe, lze, lga, lmu, Nat.reduceMul]
  all_goals try omega
  · exact nth_noset_lt_succ (by omega) al
  · exact nth_noset_lt_succ (by omega) be
  · refine nth_set_lt_succ (by omega) ?_ ?_
    all_goals first | assumption | simp only [ek, zk]
  · refine nz_lt_succ nz ?_
    rw [ek]; assumption

set_option maxHeartbeats 1000000 in
theorem wp_pdma2RowN1 (hn : 6 ≤ n) (hr : rhs.length = n)
    (h4 : l4.length = n - 4) (h2 : l2.length = n - 2) (hd : d0.length = n)
    
    (hQ : ∀ i < n, (pLU 2 (nth l4) (nth l2) (nth d0) (nth u2) (nth u4) i).mu = 0 → Q .div0)
    (w : PentaWork K T)
    (hw : PInv 2 n (nth l4) (nth l2) (nth d0) (nth u2) (nth u4) (nth rhs) (max 4 (n - 1)) w) :
    wp Q (pdma2RowN1 l4 l2 d0 rhs n w)
      (PInv 2 n (nth l4) (nth l2) (nth d0) (nth u2) (nth u4) (nth rhs) (max 4 (n - 0))) := by
  unfold pdma2RowN1
  obtain ⟨k, rfl⟩ : ∃ j, n = j + 5 := ⟨n - 5, by omega⟩
  rw [show max 4 (k + 5 - 1) = k + 4 by omega] at hw
  rw [show max 4 (k + 5 - 0) = k + 5 by omega]
  have q := hQ (k + 4) (by omega)
  obtain ⟨lal, lbe, lze, lga, lmu, al, be, ze, nz⟩ := hw
  have ek : pLU 2 (nth l4) (nth l2) (nth d0) (nth u2) (nth u4) (k + 2 * 2) = _ :=
    pLU_hi (by omega)
  have zk : pZe 2 (nth l4) (nth l2) (nth d0) (nth u2) (nth u4) (nth rhs) (k + 2 * 2) = _ :=
    pZe_hi (by omega)
  simp only [Nat.reduceMul] at ek zk lbe be
  rw [ek] at zk q
  simp only at q
  clear hQ
  have t4 : k + 5 - 4 = k + 1 := by omega
  have t2 : k + 5 - 2 = k + 3 := by omega
  rw [t4] at h4 lbe be
  rw [t2] at h2 lal al
  clear t4 t2
  have s4 : (k + 5) -! 1 = ok (k + 4) := if_pos (by omega)
  have s2 : (k + 5) -! 3 = ok (k + 2) := if_pos (by omega)
  have s0 : (k + 5) -! 5 = ok (k + 0) := if_pos (by omega)
  simp only [s4, s2, s0, Nat.add_zero]
  clear s4 s2 s0
  wprun
  all_goals simp only [nth_set, List.length_set, *, true_and, and_true] at *
  all_goals simp (disch := omega) only [al k, al (k + 2), be k, be (k + 2), if_pos, ze k,
    ze (k + 2)] at *
  all_goals try simp only [smul_eq_mul] at *
  all_goals try assumption
  constructor
  all_goals try simp only [List.length_set, lal, lbe, lze, lga, lmu, Nat.reduceMul]
  all_goals try omega
  · exact nth_noset_lt_succ (by omega) al
  · exact nth_noset_lt_succ (by omega) be
  · refine nth_set_lt_succ (by omega) ?_ ?_
    all_goals first | assumption | simp only [ek, zk]
  · refine nz_lt_succ nz ?_
    rw [ek]; assumption

set_option maxHeartbeats 1000000 in
/-- Full run of `pdma2`: the result obeys the back-substitution recurrence. -/
theorem wp_pdma2 (hn : 6 ≤ n) (hr : rhs.length = n)
    (h4 : l4.length = n - 4) (h2 : l2.length = n - 2) (hd : d0.length = n)
    (he : u2.length = n - 2) (hf : u4.length = n - 4)
    (hQ : ∀ i < n, (pLU 2 (nth l4) (nth l2) (nth d0) (nth u2) (nth u4) i).mu = 0 → Q .div0) :
    wp Q (pdma2 l4 l2 d0 u2 u4 rhs) (fun x =>
      (∀ i < n, (pLU 2 (nth l4) (nth l2) (nth d0) (nth u2) (nth u4) i).mu ≠ 0) ∧ x.length = n ∧
      ∀ i < n, nth x i = pZe 2 (nth l4) (nth l2) (nth d0) (nth u2) (nth u4) (nth rhs) i
        - (if i + 2 < n then (pLU 2 (nth l4) (nth l2) (nth d0) (nth u2) (nth u4) i).al
            • nth x (i + 2) else 0)
        - (if i + 2 * 2 < n then (pLU 2 (nth l4) (nth l2) (nth d0) (nth u2) (nth u4) i).be
            • nth x (i + 2 * 2) else 0)) := by
  unfold pdma2
  rw [hr]
  wprun
  refine wp_cut _ (wp_pdma2Init01 (l4 := l4) (l2 := l2) hn hr hd he hf hQ _ (by simp) (by simp)
    (by simp) (by simp) (by simp)) ?_
  intro w hw
  wprun
  refine wp_cut _ (wp_pdma2Init2 hn hr h2 hd he hf hQ w hw) ?_
  intro w hw
  wprun
  refine wp_cut _ (wp_pdma2Init3 hn hr h2 hd he hf hQ w hw) ?_
  intro w hw
  wprun
  refine wp_forRange (PInv 2 n (nth l4) (nth l2) (nth d0) (nth u2) (nth u4) (nth rhs)) hw ?_ ?_
  · intro i w hi hi' hw
    exact wp_pdma2Row hr h4 h2 hd he hf hQ w i hi hi' hw
  intro w hw
  wprun
  refine wp_cut _ (wp_pdma2RowN4 hn hr h4 h2 hd he hQ w hw) ?_
  intro w hw
  wprun
  refine wp_cut _ (wp_pdma2RowN3 hn hr h4 h2 hd he hQ w hw) ?_
  intro w hw
  wprun
  refine wp_cut _ (wp_pdma2RowN2 hn hr h4 h2 hd hQ w hw) ?_
  intro w hw
  wprun
  refine wp_cut _ (wp_pdma2RowN1 hn hr h4 h2 hd hQ w hw) ?_
  rintro w hw
  rw [show max 4 (n - (1 - 1)) = n by omega] at hw
  obtain ⟨lal, lbe, lze, lga, lmu, al, be, ze, nz⟩ := hw
  rw [show 2 * 2 = 4 from rfl] at lbe be
  wprun
  set L := pLU 2 (nth l4) (nth l2) (nth d0) (nth u2) (nth u4)
  set Z := pZe 2 (nth l4) (nth l2) (nth d0) (nth u2) (nth u4) (nth rhs)
  refine wp_forRev (fun k x => x.length = n ∧
      ∀ i, k ≤ i → i < n → nth x i = Z i - (if i + 2 < n then (L i).al • nth x (i + 2) else 0)
        - (if i + 2 * 2 < n then (L i).be • nth x (i + 2 * 2) else 0))
        ⟨by simpa using hr, ?_⟩ ?_ ?_
  · intro i hi hi'
    obtain ⟨m, rfl⟩ : ∃ m, n = m + 4 := ⟨n - 4, by omega⟩
    have s4 : m + 4 - 4 = m := by omega
    have s3 : m + 4 - 3 = m + 1 := by omega
    have s2 : m + 4 - 2 = m + 2 := by omega
    have s1 : m + 4 - 1 = m + 3 := by omega
    simp only [nth_set, List.length_set, hr, s4, s3, s2, s1]
    obtain rfl | rfl | rfl | rfl : i = m + 3 ∨ i = m + 2 ∨ i = m + 1 ∨ i = m := by omega
    all_goals simp (disch := omega) only [if_pos, if_neg, ze, al]
    all_goals simp
  · rintro i x hi hi' ⟨hx, hx2⟩
    wprun
    refine ⟨by simpa using hx, ?_⟩
    intro j hj hj'
    rw [nth_set_ne _ i (j + 2) _ (by omega), nth_set_ne _ i (j + 2 * 2) _ (by omega)]
    by_cases h : i = j
    · subst h
      rw [nth_set_self _ _ _ (by omega), ze i (by omega) (by omega), al i (by omega) (by omega),
        be i (by omega) (by omega), if_pos (by omega), if_pos (by omega)]
    · rw [nth_set_ne _ _ _ _ h]; exact hx2 j (by omega) hj'
  · rintro x ⟨hx, hx2⟩
    exact ⟨nz, hx, fun i hi => hx2 i (by omega) hi⟩

end Verif
