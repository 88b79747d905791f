/- Closed form of the distribution of grid points. -/
import Verif.Model.Distribute
import Verif.Proof.Usize
import Mathlib.Tactic.Ring
import Mathlib.Algebra.BigOperators.Intervals

namespace Verif
open Res

/-- number of points of rank `i` -/
def cnt (n P i : ℕ) : ℕ := n / P + if P - n % P ≤ i then 1 else 0
/-- first point of rank `i` -/
def off (n P i : ℕ) : ℕ := i * (n / P) + (i - (P - n % P))

theorem off_zero (n P : ℕ) : off n P 0 = 0 := by simp [off]

theorem off_succ (n P i : ℕ) : off n P (i + 1) = off n P i + cnt n P i := by
  unfold off cnt
  have : (i + 1) * (n / P) = i * (n / P) + n / P := by ring
  split <;> omega

theorem off_P (n : ℕ) {P : ℕ} (h : 0 < P) : off n P P = n := by
  unfold off
  have h1 := Nat.div_add_mod n P
  have h2 := Nat.mod_lt n h
  omega

theorem off_mono (n P : ℕ) : Monotone (off n P) :=
  monotone_nat_of_le_succ (fun i => by rw [off_succ]; omega)

theorem cnt_pos {n P : ℕ} (h : 0 < P) (hn : P ≤ n) (i : ℕ) : 1 ≤ cnt n P i := by
  unfold cnt
  have : 0 < n / P := Nat.div_pos hn h
  omega

theorem off_le {n P i : ℕ} (h : 0 < P) (hi : i ≤ P) : off n P i ≤ n := by
  have := off_mono n P hi
  rwa [off_P n h] at this

theorem off_cnt_le {n P i : ℕ} (hi : i < P) : off n P i + cnt n P i ≤ n := by
  rw [← off_succ]; exact off_le (by omega) hi

theorem sum_cnt (n P k : ℕ) : ∑ i ∈ Finset.range k, cnt n P i = off n P k := by
  induction k with
  | zero => simp [off_zero]
  | succ k ih => rw [Finset.sum_range_succ, ih, off_succ]

set_option maxHeartbeats 1000000 in
/-- ranges of `distribute` -/
theorem distribute_ok (o : Mode) {n P : ℕ} (hP : 0 < P) (hn : P ≤ n) (hw : n + 1 < usizeW) :
    distribute o n P = ok ((List.range P).map (off n P),
      (List.range P).map (fun i => off n P (i + 1) - 1), (List.range P).map (cnt n P)) := by
  have hq : 1 ≤ n / P := Nat.div_pos hn hP
  have hm : n % P < P := Nat.mod_lt n hP
  have hd := Nat.div_add_mod n P
  have hd' : n / P * P + n % P = n := by rw [mul_comm]; exact hd
  have hql : n / P ≤ n := Nat.div_le_self n P
  have hnu : n - n / P * P = n % P := by omega
  have key : wp (fun _ => False) (distribute o n P) (fun x => x = ((List.range P).map (off n P),
      (List.range P).map (fun i => off n P (i + 1) - 1), (List.range P).map (cnt n P))) := by
    unfold distribute
    refine wp_bind_i (wp_assert_i hP ?_)
    refine wp_bind_i (wp_wrC_i (by simpa using hP) ?_)
    refine wp_bind_i (wp_wrC_i (by simpa using hP) ?_)
    refine wp_bind_i (wp_sub_exact (by omega) ?_)
    refine wp_bind_i (wp_wrC_i (by simpa using hP) ?_)
    refine wp_bind_i (wp_mul_exact (by omega) ?_)
    refine wp_bind_i (wp_sub_exact (by omega) ?_)
    rw [hnu]
    refine wp_bind_i (wp_sub_exact (by omega) ?_)
    refine wp_bind_i ?_
    -- common loop body
    let I : ℕ → List ℕ × List ℕ × List ℕ → Prop := fun i s =>
      s.1.length = P ∧ s.2.1.length = P ∧ s.2.2.length = P ∧
      ∀ j < i, nth s.1 j = off n P j ∧ nth s.2.1 j = off n P (j + 1) - 1 ∧ nth s.2.2 j = cnt n P j
    refine wp_forRange (I := fun i s => I i s) ?_ ?_ ?_
    · refine ⟨by simp, by simp, by simp, ?_⟩
      intro j hj
      obtain rfl : j = 0 := by omega
      have e1 : off n P 1 = n / P + (1 - (P - n % P)) := by simp [off]
      have e2 : cnt n P 0 = n / P := by unfold cnt; rw [if_neg (by omega)]; rfl
      have e3 := off_succ n P 0
      rw [off_zero, e2] at e3
      refine ⟨?_, ?_, ?_⟩
      · rw [off_zero, nth_set_self _ _ _ (by simpa using hP)]
      · rw [nth_set_self _ _ _ (by simpa using hP), e3]; omega
      · rw [nth_set_self _ _ _ (by simpa using hP), e2]
    · rintro i ⟨st, en, sz⟩ h1 h2 ⟨l1, l2, l3, hI⟩
      have l1 : st.length = P := l1
      have l2 : en.length = P := l2
      have l3 : sz.length = P := l3
      obtain ⟨a1, a2, a3⟩ := hI (i - 1) (by omega)
      have a1 : nth st (i - 1) = off n P (i - 1) := a1
      have a2 : nth en (i - 1) = off n P (i - 1 + 1) - 1 := a2
      have hc : cnt n P i = n / P := by unfold cnt; rw [if_neg (by omega)]; rfl
      have hc' : cnt n P (i - 1) = n / P := by unfold cnt; rw [if_neg (by omega)]; rfl
      have o1 := off_succ n P (i - 1)
      have o2 := off_succ n P i
      have o3 : off n P (i + 1) ≤ n := off_le hP (by omega)
      rw [show i - 1 + 1 = i by omega] at o1 a2
      refine wp_bind_i (wp_sub_exact (by omega) ?_)
      refine wp_bind_i (wp_rdC_i (by change _ < st.length; omega) ?_)
      change wp _ (o.add (nth st (i - 1)) (n / P) >>= _) _
      rw [a1]
      refine wp_bind_i (wp_add_exact (by omega) ?_)
      refine wp_bind_i (wp_wrC_i (by change _ < st.length; omega) ?_)
      refine wp_bind_i (wp_wrC_i (by change _ < sz.length; omega) ?_)
      refine wp_bind_i (wp_sub_exact (by omega) ?_)
      refine wp_bind_i (wp_rdC_i (by change _ < en.length; omega) ?_)
      change wp _ (o.add (nth en (i - 1)) (n / P) >>= _) _
      rw [a2]
      refine wp_bind_i (wp_add_exact (by omega) ?_)
      refine wp_bind_i (wp_wrC_i (by change _ < en.length; omega) ?_)
      refine wp_pure_i ?_
      refine ⟨by simpa using l1, by simpa using l2, by simpa using l3, ?_⟩
      intro j hj
      change nth (st.set i _) j = _ ∧ nth (en.set i _) j = _ ∧ nth (sz.set i _) j = _
      by_cases hji : j = i
      · subst hji
        rw [nth_set_self _ _ _ (by omega), nth_set_self _ _ _ (by omega),
          nth_set_self _ _ _ (by omega)]
        refine ⟨by omega, by omega, by omega⟩
      · rw [nth_set_ne _ _ _ _ (by omega), nth_set_ne _ _ _ _ (by omega),
          nth_set_ne _ _ _ _ (by omega)]
        exact hI j (by omega)
    rintro ⟨st, en, sz⟩ hI
    have hnl : max 1 (P - n % P) = P - n % P := by omega
    rw [hnl] at hI
    refine wp_bind_i (wp_add_exact (by omega) ?_)
    refine wp_bind_i ?_
    refine wp_forRange (I := fun i s => I i s) hI ?_ ?_
    · rintro i ⟨st, en, sz⟩ h1 h2 ⟨l1, l2, l3, hI⟩
      have l1 : st.length = P := l1
      have l2 : en.length = P := l2
      have l3 : sz.length = P := l3
      obtain ⟨a1, a2, a3⟩ := hI (i - 1) (by omega)
      have a2 : nth en (i - 1) = off n P (i - 1 + 1) - 1 := a2
      have hc : cnt n P i = n / P + 1 := by unfold cnt; rw [if_pos (by omega)]
      have o1 := off_succ n P (i - 1)
      have o4 := cnt_pos hP hn (i - 1)
      have o2 := off_succ n P i
      have o3 : off n P (i + 1) ≤ n := off_le hP (by omega)
      rw [show i - 1 + 1 = i by omega] at o1 a2
      refine wp_bind_i (wp_sub_exact (by omega) ?_)
      refine wp_bind_i (wp_rdC_i (by change _ < en.length; omega) ?_)
      change wp _ (o.add (nth en (i - 1)) 1 >>= _) _
      rw [a2]
      refine wp_bind_i (wp_add_exact (by omega) ?_)
      refine wp_bind_i (wp_wrC_i (by change _ < st.length; omega) ?_)
      refine wp_bind_i (wp_wrC_i (by change _ < sz.length; omega) ?_)
      refine wp_bind_i (wp_sub_exact (by omega) ?_)
      refine wp_bind_i (wp_rdC_i (by change _ < en.length; omega) ?_)
      change wp _ (o.add (nth en (i - 1)) (n / P + 1) >>= _) _
      rw [a2]
      refine wp_bind_i (wp_add_exact (by omega) ?_)
      refine wp_bind_i (wp_wrC_i (by change _ < en.length; omega) ?_)
      refine wp_pure_i ?_
      refine ⟨by simpa using l1, by simpa using l2, by simpa using l3, ?_⟩
      intro j hj
      change nth (st.set i _) j = _ ∧ nth (en.set i _) j = _ ∧ nth (sz.set i _) j = _
      by_cases hji : j = i
      · subst hji
        rw [nth_set_self _ _ _ (by omega), nth_set_self _ _ _ (by omega),
          nth_set_self _ _ _ (by omega)]
        refine ⟨by omega, by omega, by omega⟩
      · rw [nth_set_ne _ _ _ _ (by omega), nth_set_ne _ _ _ _ (by omega),
          nth_set_ne _ _ _ _ (by omega)]
        exact hI j (by omega)
    rintro ⟨st, en, sz⟩ ⟨l1, l2, l3, hI⟩
    have l1 : st.length = P := l1
    have l2 : en.length = P := l2
    have l3 : sz.length = P := l3
    rw [show max (P - n % P) P = P by omega] at hI
    refine wp_bind_i (wp_sub_exact (by omega) ?_)
    refine wp_bind_i (wp_sub_exact (by omega) ?_)
    refine wp_bind_i (wp_wrC_i (by change _ < en.length; omega) ?_)
    refine wp_bind_i (wp_rdC_i (by simp only [List.length_set]; change _ < en.length; omega) ?_)
    refine wp_bind_i (wp_rdC_i (by change _ < st.length; omega) ?_)
    change wp _ (o.sub (nth (en.set (P - 1) (n - 1)) (P - 1)) (nth st (P - 1)) >>= _) _
    obtain ⟨a1, a2, a3⟩ := hI (P - 1) (by omega)
    have a1 : nth st (P - 1) = off n P (P - 1) := a1
    have a2 : nth en (P - 1) = off n P (P - 1 + 1) - 1 := a2
    have a3 : nth sz (P - 1) = cnt n P (P - 1) := a3
    have o1 := off_succ n P (P - 1)
    have o4 := cnt_pos hP hn (P - 1)
    have o5 := off_P n hP
    rw [show P - 1 + 1 = P by omega] at o1 a2
    rw [nth_set_self _ _ _ (by omega), a1]
    refine wp_bind_i (wp_sub_exact (by omega) ?_)
    refine wp_bind_i (wp_add_exact (by omega) ?_)
    refine wp_bind_i (wp_wrC_i (by change _ < sz.length; omega) ?_)
    refine wp_pure_i ?_
    refine Prod.ext ?_ (Prod.ext ?_ ?_)
    · refine ext_nth (by simpa using l1) (fun j hj => ?_)
      have hj : j < st.length := hj
      rw [nth_map_range _ _ _ (by omega)]
      exact (hI j (by omega)).1
    · refine ext_nth (by simpa using l2) (fun j hj => ?_)
      have hj : j < (en.set (P - 1) (n - 1)).length := hj
      rw [List.length_set] at hj
      rw [nth_map_range _ _ _ (by omega)]
      change nth (en.set (P - 1) (n - 1)) j = _
      by_cases hjP : j = P - 1
      · subst hjP
        rw [nth_set_self _ _ _ (by omega), show P - 1 + 1 = P by omega]; omega
      · rw [nth_set_ne _ _ _ _ (by omega)]
        exact (hI j (by omega)).2.1
    · refine ext_nth (by simpa using l3) (fun j hj => ?_)
      have hj : j < (sz.set (P - 1) _).length := hj
      rw [List.length_set] at hj
      rw [nth_map_range _ _ _ (by omega)]
      change nth (sz.set (P - 1) _) j = _
      by_cases hjP : j = P - 1
      · subst hjP
        rw [nth_set_self _ _ _ (by omega)]; omega
      · rw [nth_set_ne _ _ _ _ (by omega)]
        exact (hI j (by omega)).2.2
  obtain ⟨x, hx, rfl⟩ := wp_total.1 key
  exact hx

/-- with fewer points than ranks a debug build panics -/
theorem distribute_debug_panics {n P : ℕ} (hn : n < P) :
    distribute .debug n P = err .panic := by
  unfold distribute
  have h0 : n / P = 0 := Nat.div_eq_of_lt hn
  have h1 : assertR (0 < P) = ok () := by unfold assertR; rw [if_pos (by omega)]
  have h2 : ∀ x : ℕ, wrC (List.replicate P 0) 0 x = ok ((List.replicate P 0).set 0 x) := by
    intro x; unfold wrC; rw [if_pos (by simp; omega)]
  rw [h1, bind_ok, h2, bind_ok, h2, bind_ok, h0]
  rfl

end Verif
