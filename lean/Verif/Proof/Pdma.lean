/- Correctness of `pdma`: loop invariants. -/
import Verif.Model.Pdma
import Verif.Proof.Penta

namespace Verif
open Res
variable {K T : Type} [Field K] [DecidableEq K] [AddCommGroup T] [Module K T]

/-- invariant of the elimination with stride `s`: rows below `k` are done -/
structure PInv (s n : ℕ) (b c d e f : ℕ → K) (r : ℕ → T) (k : ℕ) (w : PentaWork K T) : Prop where
  lal : w.al.length = n - s
  lbe : w.be.length = n - 2 * s
  lze : w.ze.length = n
  lga : w.ga.length = n
  lmu : w.mu.length = n
  al : ∀ i, i < k → i < n - s → nth w.al i = (pLU s b c d e f i).al
  be : ∀ i, i < k → i < n - 2 * s → nth w.be i = (pLU s b c d e f i).be
  ze : ∀ i, i < k → i < n → nth w.ze i = pZe s b c d e f r i
  nz : ∀ i, i < k → (pLU s b c d e f i).mu ≠ 0

theorem nth_set_lt_succ {S : Type} [Zero S] {l : List S} {k m : ℕ} {v : S} {g : ℕ → S}
    (hk : k < l.length) (hv : v = g k) (h : ∀ i, i < k → i < m → nth l i = g i) :
    ∀ i, i < k + 1 → i < m → nth (l.set k v) i = g i := by
  intro i hi him
  rcases Nat.lt_succ_iff_lt_or_eq.mp hi with h' | h'
  · rw [nth_set_ne _ _ _ _ (by omega)]; exact h i h' him
  · subst h'; rw [nth_set_self _ _ _ hk, hv]

theorem nz_lt_succ {k : ℕ} {g : ℕ → Prop} (h : ∀ i, i < k → g i) (hk : g k) :
    ∀ i, i < k + 1 → g i := by
  intro i hi
  rcases Nat.lt_succ_iff_lt_or_eq.mp hi with h' | rfl
  · exact h i h'
  · exact hk

theorem nth_noset_lt_succ {S : Type} [Zero S] {l : List S} {k m : ℕ} {g : ℕ → S}
    (hk : m ≤ k) (h : ∀ i, i < k → i < m → nth l i = g i) :
    ∀ i, i < k + 1 → i < m → nth l i = g i := fun i _ him => h i (by omega) him

section
variable {Q : Err → Prop} {l2 l1 d0 u1 u2 : List K} {rhs : List T} {n : ℕ}

theorem wp_pdmaInit (hn : 4 ≤ n) (hr : rhs.length = n)
    (h1 : l1.length = n - 1) (hd : d0.length = n)
    (he : u1.length = n - 1) (hf : u2.length = n - 2)
    (hQ : ∀ i < n, (pLU 1 (nth l2) (nth l1) (nth d0) (nth u1) (nth u2) i).mu = 0 → Q .div0)
    (w : PentaWork K T)
    (lal : w.al.length = n - 1) (lbe : w.be.length = n - 2) (lze : w.ze.length = n)
    (lga : w.ga.length = n) (lmu : w.mu.length = n) :
    wp Q (pdmaInit l1 d0 u1 u2 rhs w)
      (PInv 1 n (nth l2) (nth l1) (nth d0) (nth u1) (nth u2) (nth rhs) 2) := by
  have q0 := hQ 0 (by omega)
  have q1 := hQ 1 (by omega)
  have e1 : pLU 1 (nth l2) (nth l1) (nth d0) (nth u1) (nth u2) (0 + 1) = _ :=
    pLU_mid (by omega) (by omega)
  have e0 : pLU 1 (nth l2) (nth l1) (nth d0) (nth u1) (nth u2) 0 = _ := pLU_lo (by omega)
  have z0 : pZe 1 (nth l2) (nth l1) (nth d0) (nth u1) (nth u2) (nth rhs) 0 = _ :=
    pZe_lo (by omega)
  have z1 : pZe 1 (nth l2) (nth l1) (nth d0) (nth u1) (nth u2) (nth rhs) (0 + 1) = _ :=
    pZe_mid (by omega) (by omega)
  rw [e1, e0] at z1
  rw [e0] at e1 q0
  simp only [Nat.zero_add] at e1 z1
  rw [e1] at q1
  simp only at q0 q1
  unfold pdmaInit
  wprun
  all_goals simp only [nth_set, List.length_set, *, true_and, and_true] at *
  all_goals simp (disch := omega) only [if_pos, if_neg, one_ne_zero, zero_ne_one, false_and,
    if_false, Nat.zero_lt_one, and_true, true_and, and_false] at *
  all_goals try simp only [smul_eq_mul] at *
  all_goals try assumption
  constructor
  all_goals try simp only [List.length_set, lal, lbe, lze, lga, lmu, Nat.mul_one]
  rotate_right
  · intro i hi
    interval_cases i
    · rw [e0]; assumption
    · rw [e1]; assumption
  all_goals intro i hi hi'
  all_goals interval_cases i
  all_goals simp only [nth_set, List.length_set, lal, lbe, lze, e0, e1, z0, z1, smul_eq_mul]
  all_goals simp (disch := omega) only [if_pos, if_neg, one_ne_zero, zero_ne_one, false_and,
    if_false, Nat.zero_lt_one, and_true, true_and, and_false]

theorem wp_pdmaRow (hr : rhs.length = n)
    (h2 : l2.length = n - 2) (h1 : l1.length = n - 1) (hd : d0.length = n)
    (he : u1.length = n - 1) (hf : u2.length = n - 2)
    (hQ : ∀ i < n, (pLU 1 (nth l2) (nth l1) (nth d0) (nth u1) (nth u2) i).mu = 0 → Q .div0)
    (w : PentaWork K T) (k : ℕ) (hk : 2 ≤ k) (hkn : k < n - 2)
    (hw : PInv 1 n (nth l2) (nth l1) (nth d0) (nth u1) (nth u2) (nth rhs) k w) :
    wp Q (pdmaRow l2 l1 d0 u1 u2 rhs k w)
      (PInv 1 n (nth l2) (nth l1) (nth d0) (nth u1) (nth u2) (nth rhs) (k + 1)) := by
  obtain ⟨k, rfl⟩ : ∃ j, k = j + 2 := ⟨k - 2, by omega⟩
  have q := hQ (k + 2) (by omega)
  obtain ⟨lal, lbe, lze, lga, lmu, al, be, ze, nz⟩ := hw
  have ek : pLU 1 (nth l2) (nth l1) (nth d0) (nth u1) (nth u2) (k + 2 * 1) = _ :=
    pLU_hi (by omega)
  have zk : pZe 1 (nth l2) (nth l1) (nth d0) (nth u1) (nth u2) (nth rhs) (k + 2 * 1) = _ :=
    pZe_hi (by omega)
  simp only [Nat.mul_one] at ek zk lbe be
  rw [ek] at zk q
  simp only at q
  unfold pdmaRow
  wprun
  all_goals simp only [nth_set, List.length_set, *, true_and, and_true, Nat.add_sub_cancel,
    show k + 2 - 1 = k + 1 by omega] at *
  all_goals simp (disch := omega) only [al k, al (k + 1), be k, be (k + 1), if_pos, ze k,
    ze (k + 1)] at *
  all_goals try simp only [smul_eq_mul] at *
  all_goals try assumption
  constructor
  all_goals try simp only [List.length_set, lal, lbe, lze, lga, lmu, Nat.mul_one]
  rotate_right
  · refine nz_lt_succ nz ?_
    rw [ek]; assumption
  all_goals refine nth_set_lt_succ (by omega) ?_ ?_
  all_goals first | assumption | simp only [ek, zk]

theorem wp_pdmaRowN2 (hn : 4 ≤ n) (hr : rhs.length = n)
    (h2 : l2.length = n - 2) (h1 : l1.length = n - 1) (hd : d0.length = n)
    (he : u1.length = n - 1)
    (hQ : ∀ i < n, (pLU 1 (nth l2) (nth l1) (nth d0) (nth u1) (nth u2) i).mu = 0 → Q .div0)
    (w : PentaWork K T)
    (hw : PInv 1 n (nth l2) (nth l1) (nth d0) (nth u1) (nth u2) (nth rhs) (n - 2) w) :
    wp Q (pdmaRowN2 l2 l1 d0 u1 rhs n w)
      (PInv 1 n (nth l2) (nth l1) (nth d0) (nth u1) (nth u2) (nth rhs) (n - 1)) := by
  obtain ⟨k, rfl⟩ : ∃ j, n = j + 4 := ⟨n - 4, by omega⟩
  have q := hQ (k + 2) (by omega)
  obtain ⟨lal, lbe, lze, lga, lmu, al, be, ze, nz⟩ := hw
  have ek : pLU 1 (nth l2) (nth l1) (nth d0) (nth u1) (nth u2) (k + 2 * 1) = _ :=
    pLU_hi (by omega)
  have zk : pZe 1 (nth l2) (nth l1) (nth d0) (nth u1) (nth u2) (nth rhs) (k + 2 * 1) = _ :=
    pZe_hi (by omega)
  simp only [Nat.mul_one] at ek zk lbe be
  rw [ek] at zk q
  simp only at q
  unfold pdmaRowN2
  have s4 : k + 4 - 4 = k := by omega
  have s3 : k + 4 - 3 = k + 1 := by omega
  have s2 : k + 4 - 2 = k + 2 := by omega
  have s1 : k + 4 - 1 = k + 3 := by omega
  wprun
  all_goals simp only [nth_set, List.length_set, *, true_and, and_true] at *
  all_goals simp (disch := omega) only [al k, al (k + 1), be k, be (k + 1), if_pos, ze k,
    ze (k + 1)] at *
  all_goals try simp only [smul_eq_mul] at *
  all_goals try assumption
  constructor
  all_goals try simp only [List.length_set, lal, lbe, lze, lga, lmu, Nat.mul_one, s2, s1]
  · refine nth_set_lt_succ (by omega) ?_ ?_
    all_goals first | assumption | simp only [ek, zk]
  · exact nth_noset_lt_succ (by omega) be
  · refine nth_set_lt_succ (by omega) ?_ ?_
    all_goals first | assumption | simp only [ek, zk]
  · refine nz_lt_succ nz ?_
    rw [ek]; assumption

theorem wp_pdmaRowN1 (hn : 4 ≤ n) (hr : rhs.length = n)
    (h2 : l2.length = n - 2) (h1 : l1.length = n - 1) (hd : d0.length = n)
    (hQ : ∀ i < n, (pLU 1 (nth l2) (nth l1) (nth d0) (nth u1) (nth u2) i).mu = 0 → Q .div0)
    (w : PentaWork K T)
    (hw : PInv 1 n (nth l2) (nth l1) (nth d0) (nth u1) (nth u2) (nth rhs) (n - 1) w) :
    wp Q (pdmaRowN1 l2 l1 d0 rhs n w)
      (PInv 1 n (nth l2) (nth l1) (nth d0) (nth u1) (nth u2) (nth rhs) n) := by
  obtain ⟨k, rfl⟩ : ∃ j, n = j + 3 := ⟨n - 3, by omega⟩
  have q := hQ (k + 2) (by omega)
  obtain ⟨lal, lbe, lze, lga, lmu, al, be, ze, nz⟩ := hw
  have ek : pLU 1 (nth l2) (nth l1) (nth d0) (nth u1) (nth u2) (k + 2 * 1) = _ :=
    pLU_hi (by omega)
  have zk : pZe 1 (nth l2) (nth l1) (nth d0) (nth u1) (nth u2) (nth rhs) (k + 2 * 1) = _ :=
    pZe_hi (by omega)
  simp only [Nat.mul_one] at ek zk lbe be
  rw [ek] at zk q
  simp only at q
  unfold pdmaRowN1
  have s3 : k + 3 - 3 = k := by omega
  have s2 : k + 3 - 2 = k + 1 := by omega
  have s1 : k + 3 - 1 = k + 2 := by omega
  wprun
  all_goals simp only [nth_set, List.length_set, *, true_and, and_true] at *
  all_goals simp (disch := omega) only [al k, al (k + 1), be k, be (k + 1), if_pos, ze k,
    ze (k + 1)] at *
  all_goals try simp only [smul_eq_mul] at *
  all_goals try assumption
  constructor
  all_goals try simp only [List.length_set, lal, lbe, lze, lga, lmu, Nat.mul_one, s2, s1]
  · exact nth_noset_lt_succ (by omega) al
  · exact nth_noset_lt_succ (by omega) be
  · refine nth_set_lt_succ (by omega) ?_ ?_
    all_goals first | assumption | simp only [ek, zk]
  · refine nz_lt_succ nz ?_
    rw [ek]; assumption

/-- Full run of `pdma`: the result obeys the back-substitution recurrence. -/
theorem wp_pdma (hn : 4 ≤ n) (hr : rhs.length = n)
    (h2 : l2.length = n - 2) (h1 : l1.length = n - 1) (hd : d0.length = n)
    (he : u1.length = n - 1) (hf : u2.length = n - 2)
    (hQ : ∀ i < n, (pLU 1 (nth l2) (nth l1) (nth d0) (nth u1) (nth u2) i).mu = 0 → Q .div0) :
    wp Q (pdma l2 l1 d0 u1 u2 rhs) (fun x =>
      (∀ i < n, (pLU 1 (nth l2) (nth l1) (nth d0) (nth u1) (nth u2) i).mu ≠ 0) ∧ x.length = n ∧
      ∀ i < n, nth x i = pZe 1 (nth l2) (nth l1) (nth d0) (nth u1) (nth u2) (nth rhs) i
        - (if i + 1 < n then (pLU 1 (nth l2) (nth l1) (nth d0) (nth u1) (nth u2) i).al
            • nth x (i + 1) else 0)
        - (if i + 2 * 1 < n then (pLU 1 (nth l2) (nth l1) (nth d0) (nth u1) (nth u2) i).be
            • nth x (i + 2 * 1) else 0)) := by
  unfold pdma
  rw [hr]
  wprun
  refine wp_cut _ (wp_pdmaInit (l2 := l2) hn hr h1 hd he hf hQ _ (by simp) (by simp) (by simp)
    (by simp) (by simp)) ?_
  intro w hw
  wprun
  refine wp_forRange (PInv 1 n (nth l2) (nth l1) (nth d0) (nth u1) (nth u2) (nth rhs)) hw ?_ ?_
  · intro i w hi hi' hw
    exact wp_pdmaRow hr h2 h1 hd he hf hQ w i hi hi' hw
  intro w hw
  rw [show max 2 (n - 2) = n - 2 by omega] at hw
  wprun
  refine wp_cut _ (wp_pdmaRowN2 hn hr h2 h1 hd he hQ w hw) ?_
  intro w hw
  wprun
  refine wp_cut _ (wp_pdmaRowN1 hn hr h2 h1 hd hQ w hw) ?_
  rintro w ⟨lal, lbe, lze, lga, lmu, al, be, ze, nz⟩
  rw [Nat.mul_one] at lbe be
  wprun
  set L := pLU 1 (nth l2) (nth l1) (nth d0) (nth u1) (nth u2)
  set Z := pZe 1 (nth l2) (nth l1) (nth d0) (nth u1) (nth u2) (nth rhs)
  refine wp_forRev (fun k x => x.length = n ∧
      ∀ i, k ≤ i → i < n → nth x i = Z i - (if i + 1 < n then (L i).al • nth x (i + 1) else 0)
        - (if i + 2 * 1 < n then (L i).be • nth x (i + 2 * 1) else 0))
        ⟨by simpa using hr, ?_⟩ ?_ ?_
  · intro i hi hi'
    simp only [nth_set, List.length_set, hr]
    obtain rfl | rfl : i = n - 1 ∨ i = n - 2 := by omega
    · simp (disch := omega) only [if_pos, if_neg, ze]
      simp [show n ≠ 0 by omega]
    · simp (disch := omega) only [if_pos, if_neg, ze, al]
      simp [show 0 < n by omega]
  · rintro i x hi hi' ⟨hx, hx2⟩
    wprun
    refine ⟨by simpa using hx, ?_⟩
    intro j hj hj'
    rw [nth_set_ne _ i (j + 1) _ (by omega), nth_set_ne _ i (j + 2 * 1) _ (by omega)]
    by_cases h : i = j
    · subst h
      rw [nth_set_self _ _ _ (by omega), ze i (by omega) (by omega), al i (by omega) (by omega),
        be i (by omega) (by omega), if_pos (by omega), if_pos (by omega)]
    · rw [nth_set_ne _ _ _ _ h]; exact hx2 j (by omega) hj'
  · rintro x ⟨hx, hx2⟩
    exact ⟨nz, hx, fun i hi => hx2 i (by omega) hi⟩

end
end Verif
