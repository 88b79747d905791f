/- The tridiagonal solver in an arbitrary arithmetic: the recurrences its result obeys. -/
import Verif.Proof.AnyArith
import Mathlib.Tactic.IntervalCases

namespace Verif
open Res Spec

section
variable {K T : Type} [DivBy K T] {Q : Err → Prop}

theorem wp_divE {x : T} {a : K} {P : T → Prop} (he : ∃ y, divR x a = ok y) (h : ∀ y, divR x a = ok y → P y) :
    wp Q (divR x a) P := by
  obtain ⟨y, e⟩ := he
  rw [e]; exact h y e

end

section
variable {K T : Type} [Zero K] [Sub K] [Mul K] [DivBy K K] [Zero T] [Sub T] [SMul K T] [DivBy K T]

/-- pivots, read off the factor `w` -/
def anyPiv (l d w : ℕ → K) (i : ℕ) : K := if i < 2 then d i else d i - l (i - 2) * w (i - 2)

/-- The recurrences obeyed by the result `x` of the elimination, with factors `w` and `g`. -/
structure TriRec (n : ℕ) (l d u : ℕ → K) (r x : ℕ → T) (w : ℕ → K) (g : ℕ → T) : Prop where
  w_eq : ∀ i < n - 2, divR (u i) (anyPiv l d w i) = ok (w i)
  g_eq : ∀ i < n, divR (if i < 2 then r i else r i - l (i - 2) • g (i - 2)) (anyPiv l d w i) = ok (g i)
  last : ∀ i, n - 2 ≤ i → i < n → x i = g i
  back : ∀ i < n - 2, x i = g i - w i • x (i + 2)

set_option maxHeartbeats 1000000 in
theorem wp_tdma_any {Q : Err → Prop} (l2 d0 u2 : List K) (rhs : List T) {n : ℕ}
    (hn : 3 ≤ n) (hr : rhs.length = n) (hl : l2.length = n - 2) (hd : d0.length = n) (hu : u2.length = n - 2)
    (Inv : ℕ → K → Prop) (h0 : ∀ i < 2, Inv i (nth d0 i))
    (hK : ∀ i < n, ∀ p, Inv i p → ∀ x : K, ∃ y, divR x p = ok y)
    (hT : ∀ i < n, ∀ p, Inv i p → ∀ x : T, ∃ y, divR x p = ok y)
    (hs : ∀ i < n - 2, ∀ p w, Inv i p → divR (nth u2 i) p = ok w → Inv (i + 2) (nth d0 (i + 2) - nth l2 i * w)) :
    wp Q (tdma l2 d0 u2 rhs) (fun x => x.length = n ∧ ∃ w g,
      TriRec n (nth l2) (nth d0) (nth u2) (nth rhs) (nth x) w g ∧
      ∀ i < n, Inv i (anyPiv (nth l2) (nth d0) w i)) := by
  unfold tdma
  set l := nth l2; set d := nth d0; set u := nth u2; set r := nth rhs
  rw [hr]
  wprun
  refine wp_divE (hK 0 (by omega) _ (h0 0 (by omega)) _) fun w0 hw0 => ?_
  wprun
  refine wp_divE (hT 0 (by omega) _ (h0 0 (by omega)) _) fun g0 hg0 => ?_
  wprun
  refine wp_cut (fun w => w.length = n - 2 ∧ ∀ i, i < 2 → i < n - 2 →
    divR (u i) (d i) = ok (nth w i)) ?_ ?_
  · refine wp_ite_i (fun h => ?_) (fun h => ?_)
    · wprun
      refine wp_divE (hK 1 (by omega) _ (h0 1 (by omega)) _) fun w1 hw1 => ?_
      wprun
      refine ⟨by simp, ?_⟩
      intro i hi hi'
      interval_cases i
      · rw [nth_set_ne _ _ _ _ (by omega), nth_set_self _ _ _ (by simp; omega)]; exact hw0
      · rw [nth_set_self _ _ _ (by simp; omega)]; exact hw1
    · wprun
      refine ⟨by simp, ?_⟩
      intro i hi hi'
      interval_cases i
      · rw [nth_set_self _ _ _ (by simp; omega)]; exact hw0
      · omega
  rintro w ⟨hw, hw2⟩
  wprun
  refine wp_divE (hT 1 (by omega) _ (h0 1 (by omega)) _) fun g1 hg1 => ?_
  wprun
  refine wp_forRange (fun k w => w.length = n - 2 ∧
    ∀ i, i < k → i < n - 2 → divR (u i) (anyPiv l d (nth w) i) = ok (nth w i) ∧ Inv i (anyPiv l d (nth w) i))
    ⟨hw, ?_⟩ ?_ ?_
  · intro i h h'
    rw [anyPiv, if_pos h]
    exact ⟨hw2 i h h', h0 i h⟩
  · rintro i w hi hi' ⟨hw, hw2⟩
    obtain ⟨i, rfl⟩ : ∃ j, i = j + 2 := ⟨i - 2, by omega⟩
    have hI : Inv (i + 2) (d (i + 2) - l i * nth w i) :=
      hs i (by omega) _ _ (hw2 i (by omega) (by omega)).2 (hw2 i (by omega) (by omega)).1
    wprun
    simp only [Nat.add_sub_cancel]
    refine wp_divE (hK (i + 2) (by omega) _ hI _) fun y hy => ?_
    wprun
    refine ⟨by simpa using hw, ?_⟩
    have hp : ∀ j ≤ i + 2, anyPiv l d (nth (w.set (i + 2) y)) j = anyPiv l d (nth w) j := by
      intro j hj
      simp only [anyPiv]
      split
      · rfl
      · rw [nth_set_ne _ _ _ _ (by omega)]
    intro j hj hj'
    rw [hp j (by omega)]
    rcases Nat.lt_succ_iff_lt_or_eq.mp hj with h | h
    · rw [nth_set_ne _ _ _ _ (by omega)]; exact hw2 j h hj'
    · subst h
      rw [nth_set_self _ _ _ (by omega), anyPiv, if_neg (by omega)]
      exact ⟨hy, hI⟩
  rintro w ⟨hw, hw2⟩
  have hW : ∀ i < n - 2, divR (u i) (anyPiv l d (nth w) i) = ok (nth w i) := fun i hi => (hw2 i (by omega) hi).1
  have hI : ∀ i < n, Inv i (anyPiv l d (nth w) i) := by
    intro i hi
    by_cases h : i < 2
    · rw [anyPiv, if_pos h]; exact h0 i h
    · obtain ⟨i, rfl⟩ : ∃ j, i = j + 2 := ⟨i - 2, by omega⟩
      rw [anyPiv, if_neg h]
      exact hs i (by omega) _ _ (hw2 i (by omega) (by omega)).2 (hW i (by omega))
  wprun
  refine wp_forRange (fun k g => g.length = n ∧ ∀ i, i < k →
    divR (if i < 2 then r i else r i - l (i - 2) • nth g (i - 2)) (anyPiv l d (nth w) i) = ok (nth g i))
    ⟨by simp, ?_⟩ ?_ ?_
  · intro i hi
    rw [if_pos hi, anyPiv, if_pos hi]
    interval_cases i
    · rw [nth_set_ne _ _ _ _ (by omega), nth_set_self _ _ _ (by simp; omega)]; exact hg0
    · rw [nth_set_self _ _ _ (by simp; omega)]; exact hg1
  · rintro i g hi hi' ⟨hg, hg2⟩
    have hIi := hI i hi'
    rw [anyPiv, if_neg (by omega)] at hIi
    wprun
    refine wp_divE (hT i (by omega) _ hIi _) fun y hy => ?_
    wprun
    refine ⟨by simpa using hg, ?_⟩
    intro j hj
    rcases Nat.lt_succ_iff_lt_or_eq.mp hj with h | h
    · rw [nth_set_ne _ i j _ (by omega), nth_set_ne _ i (j - 2) _ (by omega)]; exact hg2 j h
    · subst h
      rw [nth_set_self _ _ _ (by omega), nth_set_ne _ _ _ _ (by omega), if_neg (by omega), anyPiv,
        if_neg (by omega)]
      exact hy
  rintro g ⟨hg, hg2⟩
  replace hg2 : ∀ i < n, divR (if i < 2 then r i else r i - l (i - 2) • nth g (i - 2))
    (anyPiv l d (nth w) i) = ok (nth g i) := fun i hi => hg2 i (by omega)
  wprun
  refine wp_forRev (fun k x => x.length = n ∧
    (∀ i, n - 2 ≤ i → i < n → nth x i = nth g i) ∧
    (∀ i, k ≤ i + 1 → i < n - 2 → nth x i = nth g i - nth w i • nth x (i + 2)))
    ⟨by simpa using hr, ?_, ?_⟩ ?_ ?_
  · intro i h1 h2
    rw [nth_set]
    by_cases h : n - 2 = i
    · rw [if_pos ⟨h, by simp; omega⟩, h]
    · rw [if_neg (by tauto)]
      obtain rfl : i = n - 1 := by omega
      rw [nth_set_self _ _ _ (by omega)]
  · intro i h1 h2; omega
  · rintro i x hi hi' ⟨hx, hx1, hx2⟩
    obtain ⟨i, rfl⟩ : ∃ j, i = j + 1 := ⟨i - 1, by omega⟩
    wprun
    simp only [Nat.add_sub_cancel]
    refine ⟨by simpa using hx, ?_, ?_⟩
    · intro j h1 h2
      rw [nth_set_ne _ _ _ _ (by omega)]; exact hx1 j h1 h2
    · intro j h1 h2
      rw [nth_set_ne _ i (j + 2) _ (by omega)]
      by_cases h : i = j
      · subst h
        rw [nth_set_self _ _ _ (by omega)]
      · rw [nth_set_ne _ _ _ _ h]; exact hx2 j (by omega) h2
  · rintro x ⟨hx, hx1, hx2⟩
    exact ⟨hx, nth w, nth g, ⟨hW, hg2, hx1, fun i hi => hx2 i (by omega) hi⟩, hI⟩

end
end Verif
