/- `pdma2` in arithmetic with rounding: the full run. -/
import Verif.Proof.RndPenta2
import Verif.Proof.RndPenta3

namespace Verif
open Res Spec
variable {R : Rounding}

section
variable {Q : Err → Prop} {l4 l2 d0 u2 u4 : List (Rnd R)} {rhs : List (Rnd R)} {n : ℕ}

set_option maxHeartbeats 1000000 in
/-- Full run of `pdma2`: the result obeys the back-substitution recurrence. -/
theorem wp_pdma2_rnd (hn : 6 ≤ n) (hr : rhs.length = n)
    (h4 : l4.length = n - 4) (h2 : l2.length = n - 2) (hd : d0.length = n)
    (he : u2.length = n - 2) (hf : u4.length = n - 4)
    (hQ : ∀ i < n, (rLU 2 (nth l4) (nth l2) (nth d0) (nth u2) (nth u4) i).mu.val = 0 → Q .div0) :
    wp Q (pdma2 l4 l2 d0 u2 u4 rhs) (fun x =>
      (∀ i < n, (rLU 2 (nth l4) (nth l2) (nth d0) (nth u2) (nth u4) i).mu.val ≠ 0) ∧ x.length = n ∧
      ∀ i < n, nth x i = rBack 2 n (rLU 2 (nth l4) (nth l2) (nth d0) (nth u2) (nth u4))
        (rZe 2 (nth l4) (nth l2) (nth d0) (nth u2) (nth u4) (nth rhs)) (nth x) i) := by
  unfold pdma2
  rw [hr]
  rrun
  refine wp_cut _ (wp_pdma2Init01_rnd (l4 := l4) (l2 := l2) hn hr hd he hf hQ _ (by simp) (by simp)
    (by simp) (by simp) (by simp)) ?_
  intro w hw
  rrun
  refine wp_cut _ (wp_pdma2Init2_rnd hn hr h2 hd he hf hQ w hw) ?_
  intro w hw
  rrun
  refine wp_cut _ (wp_pdma2Init3_rnd hn hr h2 hd he hf hQ w hw) ?_
  intro w hw
  rrun
  refine wp_forRange (RInv 2 n (nth l4) (nth l2) (nth d0) (nth u2) (nth u4) (nth rhs)) hw ?_ ?_
  · intro i w hi hi' hw
    exact wp_pdma2Row_rnd hr h4 h2 hd he hf hQ w i hi hi' hw
  intro w hw
  rrun
  refine wp_cut _ (wp_pdma2RowN4_rnd hn hr h4 h2 hd he hQ w hw) ?_
  intro w hw
  rrun
  refine wp_cut _ (wp_pdma2RowN3_rnd hn hr h4 h2 hd he hQ w hw) ?_
  intro w hw
  rrun
  refine wp_cut _ (wp_pdma2RowN2_rnd hn hr h4 h2 hd hQ w hw) ?_
  intro w hw
  rrun
  refine wp_cut _ (wp_pdma2RowN1_rnd hn hr h4 h2 hd hQ w hw) ?_
  rintro w hw
  rw [show max 4 (n - (1 - 1)) = n by omega] at hw
  obtain ⟨lal, lbe, lze, lga, lmu, al, be, ze, nz⟩ := hw
  rw [show 2 * 2 = 4 from rfl] at lbe be
  rrun
  set L := rLU 2 (nth l4) (nth l2) (nth d0) (nth u2) (nth u4)
  set Z := rZe 2 (nth l4) (nth l2) (nth d0) (nth u2) (nth u4) (nth rhs)
  refine wp_forRev (fun k x => x.length = n ∧
      ∀ i, k ≤ i → i < n → nth x i = rBack 2 n L Z (nth x) i)
        ⟨by simpa using hr, ?_⟩ ?_ ?_
  · intro i hi hi'
    obtain ⟨m, rfl⟩ : ∃ m, n = m + 4 := ⟨n - 4, by omega⟩
    have s4 : m + 4 - 4 = m := by omega
    have s3 : m + 4 - 3 = m + 1 := by omega
    have s2 : m + 4 - 2 = m + 2 := by omega
    have s1 : m + 4 - 1 = m + 3 := by omega
    simp only [rBack, nth_set, List.length_set, hr, s4, s3, s2, s1]
    obtain rfl | rfl | rfl | rfl : i = m + 3 ∨ i = m + 2 ∨ i = m + 1 ∨ i = m := by omega
    all_goals simp (disch := omega) only [true_and, if_pos, if_neg, ze, al]
  · rintro i x hi hi' ⟨hx, hx2⟩
    rrun
    refine ⟨by simpa using hx, ?_⟩
    intro j hj hj'
    rw [rBack, nth_set_ne _ i (j + 2) _ (by omega), nth_set_ne _ i (j + 2 * 2) _ (by omega)]
    by_cases h : i = j
    · subst h
      rw [nth_set_self _ _ _ (by omega), ze i (by omega) (by omega), al i (by omega) (by omega),
        be i (by omega) (by omega), if_pos (by omega)]
    · rw [nth_set_ne _ _ _ _ h]; exact hx2 j (by omega) hj'
  · rintro x ⟨hx, hx2⟩
    exact ⟨nz, hx, fun i hi => hx2 i (by omega) hi⟩

end
end Verif
