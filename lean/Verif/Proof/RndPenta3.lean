/- `pdma2` in arithmetic with rounding: the last rows. -/
import Verif.Proof.RndPenta

namespace Verif
open Res Spec
variable {R : Rounding}

section
variable {Q : Err → Prop} {l4 l2 d0 u2 u4 : List (Rnd R)} {rhs : List (Rnd R)} {n : ℕ}

set_option maxHeartbeats 1000000 in
theorem wp_pdma2RowN4_rnd (hn : 6 ≤ n) (hr : rhs.length = n)
    (h4 : l4.length = n - 4) (h2 : l2.length = n - 2) (hd : d0.length = n)
    (he : u2.length = n - 2)
    (hQ : ∀ i < n, (rLU 2 (nth l4) (nth l2) (nth d0) (nth u2) (nth u4) i).mu.val = 0 → Q .div0)
    (w : PentaWork (Rnd R) (Rnd R))
    (hw : RInv 2 n (nth l4) (nth l2) (nth d0) (nth u2) (nth u4) (nth rhs) (max 4 (n - 4)) w) :
    wp Q (pdma2RowN4 l4 l2 d0 u2 rhs n w)
      (RInv 2 n (nth l4) (nth l2) (nth d0) (nth u2) (nth u4) (nth rhs) (max 4 (n - 3))) := by
  unfold pdma2RowN4
  refine wp_ite_i (fun h => ?_) (fun h => ?_)
  swap
  · rrun
    rwa [show max 4 (n - 3) = max 4 (n - 4) by omega]
  obtain ⟨k, rfl⟩ : ∃ j, n = j + 8 := ⟨n - 8, by omega⟩
  rw [show max 4 (k + 8 - 4) = k + 4 by omega] at hw
  rw [show max 4 (k + 8 - 3) = k + 5 by omega]
  have q := hQ (k + 4) (by omega)
  obtain ⟨lal, lbe, lze, lga, lmu, al, be, ze, nz⟩ := hw
  have ek : rLU 2 (nth l4) (nth l2) (nth d0) (nth u2) (nth u4) (k + 2 * 2) = _ :=
    rLU_hi (by omega)
  have zk : rZe 2 (nth l4) (nth l2) (nth d0) (nth u2) (nth u4) (nth rhs) (k + 2 * 2) = _ :=
    rZe_hi (by omega)
  simp only [Nat.reduceMul] at ek zk lbe be
  rw [ek] at zk q
  simp only at q
  clear hQ
  have t4 : k + 8 - 4 = k + 4 := by omega
  have t2 : k + 8 - 2 = k + 6 := by omega
  rw [t4] at h4 lbe be
  rw [t2] at h2 he lal al
  clear t4 t2
  have s4 : (k + 8) -! 4 = ok (k + 4) := if_pos (by omega)
  have s2 : (k + 8) -! 6 = ok (k + 2) := if_pos (by omega)
  have s0 : (k + 8) -! 8 = ok (k + 0) := if_pos (by omega)
  simp only [s4, s2, s0, Nat.add_zero]
  clear s4 s2 s0
  rrun
  all_goals simp only [nth_set, List.length_set, *, true_and, and_true] at *
  all_goals simp (disch := omega) only [al k, al (k + 2), be k, be (k + 2), if_pos, ze k,
    ze (k + 2)] at *
  all_goals try simp only [Rnd.smul_eq] at *
  all_goals try assumption
  constructor
  all_goals try simp only [List.length_set, lal, lbe, lze, lga, lmu, Nat.reduceMul]
  all_goals try omega
  · refine nth_set_lt_succ (by omega) ?_ ?_
    all_goals first | assumption | simp only [ek, zk]
  · exact nth_noset_lt_succ (by omega) be
  · refine nth_set_lt_succ (by omega) ?_ ?_
    all_goals first | assumption | simp only [ek, zk]
  · refine nz_lt_succ nz ?_
    rw [ek]; assumption

set_option maxHeartbeats 1000000 in
theorem wp_pdma2RowN3_rnd (hn : 6 ≤ n) (hr : rhs.length = n)
    (h4 : l4.length = n - 4) (h2 : l2.length = n - 2) (hd : d0.length = n)
    (he : u2.length = n - 2)
    (hQ : ∀ i < n, (rLU 2 (nth l4) (nth l2) (nth d0) (nth u2) (nth u4) i).mu.val = 0 → Q .div0)
    (w : PentaWork (Rnd R) (Rnd R))
    (hw : RInv 2 n (nth l4) (nth l2) (nth d0) (nth u2) (nth u4) (nth rhs) (max 4 (n - 3)) w) :
    wp Q (pdma2RowN3 l4 l2 d0 u2 rhs n w)
      (RInv 2 n (nth l4) (nth l2) (nth d0) (nth u2) (nth u4) (nth rhs) (max 4 (n - 2))) := by
  unfold pdma2RowN3
  refine wp_ite_i (fun h => ?_) (fun h => ?_)
  swap
  · rrun
    rwa [show max 4 (n - 2) = max 4 (n - 3) by omega]
  obtain ⟨k, rfl⟩ : ∃ j, n = j + 7 := ⟨n - 7, by omega⟩
  rw [show max 4 (k + 7 - 3) = k + 4 by omega] at hw
  rw [show max 4 (k + 7 - 2) = k + 5 by omega]
  have q := hQ (k + 4) (by omega)
  obtain ⟨lal, lbe, lze, lga, lmu, al, be, ze, nz⟩ := hw
  have ek : rLU 2 (nth l4) (nth l2) (nth d0) (nth u2) (nth u4) (k + 2 * 2) = _ :=
    rLU_hi (by omega)
  have zk : rZe 2 (nth l4) (nth l2) (nth d0) (nth u2) (nth u4) (nth rhs) (k + 2 * 2) = _ :=
    rZe_hi (by omega)
  simp only [Nat.reduceMul] at ek zk lbe be
  rw [ek] at zk q
  simp only at q
  clear hQ
  have t4 : k + 7 - 4 = k + 3 := by omega
  have t2 : k + 7 - 2 = k + 5 := by omega
  rw [t4] at h4 lbe be
  rw [t2] at h2 he lal al
  clear t4 t2
  have s4 : (k + 7) -! 3 = ok (k + 4) := if_pos (by omega)
  have s2 : (k + 7) -! 5 = ok (k + 2) := if_pos (by omega)
  have s0 : (k + 7) -! 7 = ok (k + 0) := if_pos (by omega)
  simp only [s4, s2, s0, Nat.add_zero]
  clear s4 s2 s0
  rrun
  all_goals simp only [nth_set, List.length_set, *, true_and, and_true] at *
  all_goals simp (disch := omega) only [al k, al (k + 2), be k, be (k + 2), if_pos, ze k,
    ze (k + 2)] at *
  all_goals try simp only [Rnd.smul_eq] at *
  all_goals try assumption
  constructor
  all_goals try simp only [List.length_set, lal, lbe, lze, lga, lmu, Nat.reduceMul]
  all_goals try omega
  · refine nth_set_lt_succ (by omega) ?_ ?_
    all_goals first | assumption | simp only [ek, zk]
  · exact nth_noset_lt_succ (by omega) be
  · refine nth_set_lt_succ (by omega) ?_ ?_
    all_goals first | assumption | simp only [ek, zk]
  · refine nz_lt_succ nz ?_
    rw [ek]; assumption

set_option maxHeartbeats 1000000 in
theorem wp_pdma2RowN2_rnd (hn : 6 ≤ n) (hr : rhs.length = n)
    (h4 : l4.length = n - 4) (h2 : l2.length = n - 2) (hd : d0.length = n)
    
    (hQ : ∀ i < n, (rLU 2 (nth l4) (nth l2) (nth d0) (nth u2) (nth u4) i).mu.val = 0 → Q .div0)
    (w : PentaWork (Rnd R) (Rnd R))
    (hw : RInv 2 n (nth l4) (nth l2) (nth d0) (nth u2) (nth u4) (nth rhs) (max 4 (n - 2)) w) :
    wp Q (pdma2RowN2 l4 l2 d0 rhs n w)
      (RInv 2 n (nth l4) (nth l2) (nth d0) (nth u2) (nth u4) (nth rhs) (max 4 (n - 1))) := by
  unfold pdma2RowN2
  obtain ⟨k, rfl⟩ : ∃ j, n = j + 6 := ⟨n - 6, by omega⟩
  rw [show max 4 (k + 6 - 2) = k + 4 by omega] at hw
  rw [show max 4 (k + 6 - 1) = k + 5 by omega]
  have q := hQ (k + 4) (by omega)
  obtain ⟨lal, lbe, lze, lga, lmu, al, be, ze, nz⟩ := hw
  have ek : rLU 2 (nth l4) (nth l2) (nth d0) (nth u2) (nth u4) (k + 2 * 2) = _ :=
    rLU_hi (by omega)
  have zk : rZe 2 (nth l4) (nth l2) (nth d0) (nth u2) (nth u4) (nth rhs) (k + 2 * 2) = _ :=
    rZe_hi (by omega)
  simp only [Nat.reduceMul] at ek zk lbe be
  rw [ek] at zk q
  simp only at q
  clear hQ
  have t4 : k + 6 - 4 = k + 2 := by omega
  have t2 : k + 6 - 2 = k + 4 := by omega
  rw [t4] at h4 lbe be
  rw [t2] at h2 lal al
  clear t4 t2
  have s4 : (k + 6) -! 2 = ok (k + 4) := if_pos (by omega)
  have s2 : (k + 6) -! 4 = ok (k + 2) := if_pos (by omega)
  have s0 : (k + 6) -! 6 = ok (k + 0) := if_pos (by omega)
  simp only [s4, s2, s0, Nat.add_zero]
  clear s4 s2 s0
  rrun
  all_goals simp only [nth_set, List.length_set, *, true_and, and_true] at *
  all_goals simp (disch := omega) only [al k, al (k + 2), be k, be (k + 2), if_pos, ze k,
    ze (k + 2)] at *
  all_goals try simp only [Rnd.smul_eq] at *
  all_goals try assumption
  constructor
  all_goals try simp only [List.length_set, lal, lbe, lze, lga, lmu, Nat.reduceMul]
  all_goals try omega
  · exact nth_noset_lt_succ (by omega) al
  · exact nth_noset_lt_succ (by omega) be
  · refine nth_set_lt_succ (by omega) ?_ ?_
    all_goals first | assumption | simp only [ek, zk]
  · refine nz_lt_succ nz ?_
    rw [ek]; assumption

set_option maxHeartbeats 1000000 in
theorem wp_pdma2RowN1_rnd (hn : 6 ≤ n) (hr : rhs.length = n)
    (h4 : l4.length = n - 4) (h2 : l2.length = n - 2) (hd : d0.length = n)
    
    (hQ : ∀ i < n, (rLU 2 (nth l4) (nth l2) (nth d0) (nth u2) (nth u4) i).mu.val = 0 → Q .div0)
    (w : PentaWork (Rnd R) (Rnd R))
    (hw : RInv 2 n (nth l4) (nth l2) (nth d0) (nth u2) (nth u4) (nth rhs) (max 4 (n - 1)) w) :
    wp Q (pdma2RowN1 l4 l2 d0 rhs n w)
      (RInv 2 n (nth l4) (nth l2) (nth d0) (nth u2) (nth u4) (nth rhs) (max 4 (n - 0))) := by
  unfold pdma2RowN1
  obtain ⟨k, rfl⟩ : ∃ j, n = j + 5 := ⟨n - 5, by omega⟩
  rw [show max 4 (k + 5 - 1) = k + 4 by omega] at hw
  rw [show max 4 (k + 5 - 0) = k + 5 by omega]
  have q := hQ (k + 4) (by omega)
  obtain ⟨lal, lbe, lze, lga, lmu, al, be, ze, nz⟩ := hw
  have ek : rLU 2 (nth l4) (nth l2) (nth d0) (nth u2) (nth u4) (k + 2 * 2) = _ :=
    rLU_hi (by omega)
  have zk : rZe 2 (nth l4) (nth l2) (nth d0) (nth u2) (nth u4) (nth rhs) (k + 2 * 2) = _ :=
    rZe_hi (by omega)
  simp only [Nat.reduceMul] at ek zk lbe be
  rw [ek] at zk q
  simp only at q
  clear hQ
  have t4 : k + 5 - 4 = k + 1 := by omega
  have t2 : k + 5 - 2 = k + 3 := by omega
  rw [t4] at h4 lbe be
  rw [t2] at h2 lal al
  clear t4 t2
  have s4 : (k + 5) -! 1 = ok (k + 4) := if_pos (by omega)
  have s2 : (k + 5) -! 3 = ok (k + 2) := if_pos (by omega)
  have s0 : (k + 5) -! 5 = ok (k + 0) := if_pos (by omega)
  simp only [s4, s2, s0, Nat.add_zero]
  clear s4 s2 s0
  rrun
  all_goals simp only [nth_set, List.length_set, *, true_and, and_true] at *
  all_goals simp (disch := omega) only [al k, al (k + 2), be k, be (k + 2), if_pos, ze k,
    ze (k + 2)] at *
  all_goals try simp only [Rnd.smul_eq] at *
  all_goals try assumption
  constructor
  all_goals try simp only [List.length_set, lal, lbe, lze, lga, lmu, Nat.reduceMul]
  all_goals try omega
  · exact nth_noset_lt_succ (by omega) al
  · exact nth_noset_lt_succ (by omega) be
  · refine nth_set_lt_succ (by omega) ?_ ?_
    all_goals first | assumption | simp only [ek, zk]
  · refine nz_lt_succ nz ?_
    rw [ek]; assumption

end
end Verif
