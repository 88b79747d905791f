/- Fewer grid points than ranks: what a release build computes. -/
import Verif.Proof.Split

namespace Verif
open Res Spec Mpi

/-- last point of rank `i` as a machine word: `usize::MAX` for an empty rank at the start -/
def enW (n P i : ℕ) : ℕ := if i < P - n then usizeW - 1 else i - (P - n)

theorem off_small {n P i : ℕ} (h : n < P) : off n P i = i - (P - n) := by
  unfold off; rw [Nat.div_eq_of_lt h, Nat.mod_eq_of_lt h]; omega

theorem cnt_small {n P i : ℕ} (h : n < P) : cnt n P i = if P - n ≤ i then 1 else 0 := by
  unfold cnt; rw [Nat.div_eq_of_lt h, Nat.mod_eq_of_lt h]; omega

theorem wp_add_rel {Q : Err → Prop} {a b : ℕ} {P : ℕ → Prop}
    (hp : P ((a + b) % usizeW)) : wp Q (Mode.release.add a b) P := by
  unfold Mode.add
  by_cases h : a + b < usizeW
  · rw [if_pos h]; rw [Nat.mod_eq_of_lt h] at hp; exact hp
  · rw [if_neg h]; exact hp

set_option maxHeartbeats 1000000 in
theorem distribute_release {n P : ℕ} (h0 : 0 < n) (hn : n < P) (hw : P < usizeW) :
    distribute .release n P = ok ((List.range P).map (off n P),
      (List.range P).map (enW n P), (List.range P).map (cnt n P)) := by
  have hP : 0 < P := by omega
  have hq : n / P = 0 := Nat.div_eq_of_lt hn
  have hW : usizeW = 18446744073709551616 := by norm_num
  have hw' : P < 18446744073709551616 := hw
  have key : wp (fun _ => False) (distribute .release n P) (fun x => x = ((List.range P).map (off n P),
      (List.range P).map (enW n P), (List.range P).map (cnt n P))) := by
    unfold distribute
    refine wp_bind_i (wp_assert_i hP ?_)
    rw [hq]
    refine wp_bind_i (wp_wrC_i (by simpa using hP) ?_)
    refine wp_bind_i (wp_wrC_i (by simpa using hP) ?_)
    have es : Mode.release.sub 0 1 = ok (usizeW - 1) := rfl
    rw [es]
    refine wp_bind_i (show wp _ (ok _) _ from ?_)
    refine wp_bind_i (wp_wrC_i (by simpa using hP) ?_)
    refine wp_bind_i (wp_mul_exact (by omega) ?_)
    refine wp_bind_i (wp_sub_exact (by omega) ?_)
    rw [show n - 0 * P = n by omega]
    refine wp_bind_i (wp_sub_exact (by omega) ?_)
    refine wp_bind_i ?_
    let I : ℕ → List ℕ × List ℕ × List ℕ → Prop := fun i s =>
      s.1.length = P ∧ s.2.1.length = P ∧ s.2.2.length = P ∧
      ∀ j < i, nth s.1 j = off n P j ∧ nth s.2.1 j = enW n P j ∧ nth s.2.2 j = cnt n P j
    refine wp_forRange (I := fun i s => I i s) ?_ ?_ ?_
    · refine ⟨by simp, by simp, by simp, ?_⟩
      intro j hj
      obtain rfl : j = 0 := by omega
      refine ⟨?_, ?_, ?_⟩
      · rw [off_zero, nth_set_self _ _ _ (by simpa using hP)]
      · rw [nth_set_self _ _ _ (by simpa using hP)]; unfold enW; rw [if_pos (by omega)]
      · rw [nth_set_self _ _ _ (by simpa using hP), cnt_small hn, if_neg (by omega)]
    · rintro i ⟨st, en, sz⟩ h1 h2 ⟨l1, l2, l3, hI⟩
      have l1 : st.length = P := l1
      have l2 : en.length = P := l2
      have l3 : sz.length = P := l3
      obtain ⟨a1, a2, a3⟩ := hI (i - 1) (by omega)
      have a1 : nth st (i - 1) = off n P (i - 1) := a1
      have a2 : nth en (i - 1) = enW n P (i - 1) := a2
      have e1 : off n P (i - 1) = 0 := by rw [off_small hn]; omega
      have e1' : off n P i = 0 := by rw [off_small hn]; omega
      have e2 : enW n P (i - 1) = usizeW - 1 := by unfold enW; rw [if_pos (by omega)]
      have e2' : enW n P i = usizeW - 1 := by unfold enW; rw [if_pos (by omega)]
      have e3 : cnt n P i = 0 := by rw [cnt_small hn, if_neg (by omega)]
      refine wp_bind_i (wp_sub_exact (by omega) ?_)
      refine wp_bind_i (wp_rdC_i (by change _ < st.length; omega) ?_)
      change wp _ (Mode.release.add (nth st (i - 1)) 0 >>= _) _
      rw [a1, e1]
      refine wp_bind_i (wp_add_exact (by omega) ?_)
      refine wp_bind_i (wp_wrC_i (by change _ < st.length; omega) ?_)
      refine wp_bind_i (wp_wrC_i (by change _ < sz.length; omega) ?_)
      refine wp_bind_i (wp_sub_exact (by omega) ?_)
      refine wp_bind_i (wp_rdC_i (by change _ < en.length; omega) ?_)
      change wp _ (Mode.release.add (nth en (i - 1)) 0 >>= _) _
      rw [a2, e2]
      refine wp_bind_i (wp_add_exact (by omega) ?_)
      refine wp_bind_i (wp_wrC_i (by change _ < en.length; omega) ?_)
      refine wp_pure_i ?_
      refine ⟨by simpa using l1, by simpa using l2, by simpa using l3, ?_⟩
      intro j hj
      change nth (st.set i _) j = _ ∧ nth (en.set i _) j = _ ∧ nth (sz.set i _) j = _
      by_cases hji : j = i
      · subst hji
        rw [nth_set_self _ _ _ (by omega), nth_set_self _ _ _ (by omega),
          nth_set_self _ _ _ (by omega)]
        refine ⟨by omega, by omega, by omega⟩
      · rw [nth_set_ne _ _ _ _ (by omega), nth_set_ne _ _ _ _ (by omega),
          nth_set_ne _ _ _ _ (by omega)]
        exact hI j (by omega)
    rintro ⟨st, en, sz⟩ hI
    have hnl : max 1 (P - n) = P - n := by omega
    rw [hnl] at hI
    refine wp_bind_i (wp_add_exact (by omega) ?_)
    refine wp_bind_i ?_
    refine wp_forRange (I := fun i s => I i s) hI ?_ ?_
    · rintro i ⟨st, en, sz⟩ h1 h2 ⟨l1, l2, l3, hI⟩
      have l1 : st.length = P := l1
      have l2 : en.length = P := l2
      have l3 : sz.length = P := l3
      obtain ⟨a1, a2, a3⟩ := hI (i - 1) (by omega)
      have a2 : nth en (i - 1) = enW n P (i - 1) := a2
      have e1 : (enW n P (i - 1) + 1) % usizeW = off n P i := by
        rw [off_small hn]; unfold enW; rw [hW]; split <;> omega
      have e2 : (enW n P (i - 1) + (0 + 1)) % usizeW = enW n P i := by
        unfold enW; rw [hW]; split <;> split <;> omega
      have e3 : cnt n P i = 0 + 1 := by rw [cnt_small hn, if_pos (by omega)]
      refine wp_bind_i (wp_sub_exact (by omega) ?_)
      refine wp_bind_i (wp_rdC_i (by change _ < en.length; omega) ?_)
      change wp _ (Mode.release.add (nth en (i - 1)) 1 >>= _) _
      rw [a2]
      refine wp_bind_i (wp_add_rel ?_)
      refine wp_bind_i (wp_wrC_i (by change _ < st.length; omega) ?_)
      refine wp_bind_i (wp_wrC_i (by change _ < sz.length; omega) ?_)
      refine wp_bind_i (wp_sub_exact (by omega) ?_)
      refine wp_bind_i (wp_rdC_i (by change _ < en.length; omega) ?_)
      change wp _ (Mode.release.add (nth en (i - 1)) (0 + 1) >>= _) _
      rw [a2]
      refine wp_bind_i (wp_add_rel ?_)
      refine wp_bind_i (wp_wrC_i (by change _ < en.length; omega) ?_)
      refine wp_pure_i ?_
      refine ⟨by simpa using l1, by simpa using l2, by simpa using l3, ?_⟩
      intro j hj
      change nth (st.set i _) j = _ ∧ nth (en.set i _) j = _ ∧ nth (sz.set i _) j = _
      by_cases hji : j = i
      · subst hji
        rw [nth_set_self _ _ _ (by omega), nth_set_self _ _ _ (by omega),
          nth_set_self _ _ _ (by omega)]
        exact ⟨e1, e2, e3.symm⟩
      · rw [nth_set_ne _ _ _ _ (by omega), nth_set_ne _ _ _ _ (by omega),
          nth_set_ne _ _ _ _ (by omega)]
        exact hI j (by omega)
    rintro ⟨st, en, sz⟩ ⟨l1, l2, l3, hI⟩
    have l1 : st.length = P := l1
    have l2 : en.length = P := l2
    have l3 : sz.length = P := l3
    rw [show max (P - n) P = P by omega] at hI
    refine wp_bind_i (wp_sub_exact (by omega) ?_)
    refine wp_bind_i (wp_sub_exact (by omega) ?_)
    refine wp_bind_i (wp_wrC_i (by change _ < en.length; omega) ?_)
    refine wp_bind_i (wp_rdC_i (by simp only [List.length_set]; change _ < en.length; omega) ?_)
    refine wp_bind_i (wp_rdC_i (by change _ < st.length; omega) ?_)
    change wp _ (Mode.release.sub (nth (en.set (P - 1) (n - 1)) (P - 1)) (nth st (P - 1)) >>= _) _
    obtain ⟨a1, a2, a3⟩ := hI (P - 1) (by omega)
    have a1 : nth st (P - 1) = off n P (P - 1) := a1
    rw [nth_set_self _ _ _ (by omega), a1, off_small hn]
    refine wp_bind_i (wp_sub_exact (by omega) ?_)
    refine wp_bind_i (wp_add_exact (by omega) ?_)
    refine wp_bind_i (wp_wrC_i (by change _ < sz.length; omega) ?_)
    refine wp_pure_i ?_
    refine Prod.ext ?_ (Prod.ext ?_ ?_)
    · refine ext_nth (by simpa using l1) (fun j hj => ?_)
      have hj : j < st.length := hj
      rw [nth_map_range _ _ _ (by omega)]
      exact (hI j (by omega)).1
    · refine ext_nth (by simpa using l2) (fun j hj => ?_)
      have hj : j < (en.set (P - 1) (n - 1)).length := hj
      rw [List.length_set] at hj
      rw [nth_map_range _ _ _ (by omega)]
      change nth (en.set (P - 1) (n - 1)) j = _
      by_cases hjP : j = P - 1
      · subst hjP
        rw [nth_set_self _ _ _ (by omega)]; unfold enW; rw [if_neg (by omega)]; omega
      · rw [nth_set_ne _ _ _ _ (by omega)]
        exact (hI j (by omega)).2.1
    · refine ext_nth (by simpa using l3) (fun j hj => ?_)
      have hj : j < (sz.set (P - 1) _).length := hj
      rw [List.length_set] at hj
      rw [nth_map_range _ _ _ (by omega)]
      change nth (sz.set (P - 1) _) j = _
      by_cases hjP : j = P - 1
      · subst hjP
        rw [nth_set_self _ _ _ (by omega), cnt_small hn, if_pos (by omega)]; omega
      · rw [nth_set_ne _ _ _ _ (by omega)]
        exact (hI j (by omega)).2.2
  obtain ⟨x, hx, rfl⟩ := wp_total.1 key
  exact hx

/-! ### construction in two dimensions -/

theorem mapR_sub_two (o : Mode) {n0 n1 P : ℕ} (h0 : 1 ≤ n0) (h1 : 1 ≤ n1) :
    mapR (fun a => mapR (fun e => o.sub e 1) a) (List.replicate P [n0, n1])
      = ok ((List.range P).map (fun _ => [n0 - 1, n1 - 1])) := by
  have e1 : mapR (fun e => o.sub e 1) [n0, n1] = ok [n0 - 1, n1 - 1] := by
    change (o.sub n0 1 >>= fun x => (o.sub n1 1 >>= fun y => _) >>= _) = _
    rw [o.sub_ok h0, o.sub_ok h1]
    rfl
  rw [mapR_ok (g := fun _ => [n0 - 1, n1 - 1])]
  · simp [List.map_const']
  · intro x hx
    rw [List.eq_of_mem_replicate hx]; exact e1

theorem Dist.new_two0 {o : Mode} {n0 n1 P r : ℕ} (hr : r < P) (h0 : 1 ≤ n0) (h1 : 1 ≤ n1)
    {st en sz : ℕ → ℕ} (hd : distribute o n1 P
      = ok ((List.range P).map st, (List.range P).map en, (List.range P).map sz)) :
    Dist.new o [n0, n1] P r 0 = ok ⟨[n0, sz r], [0, st r], [n0 - 1, en r],
      (List.range P).map (fun s => [n0, sz s]), (List.range P).map (fun s => [0, st s]),
      (List.range P).map (fun s => [n0 - 1, en s]), P, r, 0⟩ := by
  have r1 : List.replicate P (List.replicate [n0, n1].length 0) = (List.range P).map (fun _ => [0, 0]) := by
    simp [List.map_const', List.replicate]
  have r2 : List.replicate P [n0, n1] = (List.range P).map (fun _ => [n0, n1]) := by
    simp [List.map_const']
  unfold Dist.new
  rw [assertR_ok (by omega), bind_ok, mapR_sub_two o h0 h1, bind_ok, r1, r2]
  have hl : forRange 0 ([n0, n1] : List ℕ).length (fun axis s =>
      (if axis = 0 then pure s else do
        let n ← rdC [n0, n1] axis
        let (stSplit, enSplit, szSplit) ← distribute o n P
        let stProcs ← setAxis axis s.1 stSplit
        let enProcs ← setAxis axis s.2.1 enSplit
        let szProcs ← setAxis axis s.2.2 szSplit
        pure (stProcs, enProcs, szProcs)))
      ((List.range P).map (fun _ => [0, 0]), (List.range P).map (fun _ => [n0 - 1, n1 - 1]),
        (List.range P).map (fun _ => [n0, n1]))
      = ok ((List.range P).map (fun s => [0, st s]), (List.range P).map (fun s => [n0 - 1, en s]),
        (List.range P).map (fun s => [n0, sz s])) := by
    change (distribute o n1 P >>= fun x => _) >>= _ = _
    rw [hd, bind_ok]
    dsimp only
    rw [setAxis_map _ _ _ _ (by simp), bind_ok, setAxis_map _ _ _ _ (by simp), bind_ok,
      setAxis_map _ _ _ _ (by simp), bind_ok]
    rfl
  rw [hl, bind_ok]
  dsimp only
  rw [rdC_map_range _ hr, rdC_map_range _ hr, rdC_map_range _ hr]
  rfl

theorem Dist.new_two1 {o : Mode} {n0 n1 P r : ℕ} (hr : r < P) (h0 : 1 ≤ n0) (h1 : 1 ≤ n1)
    {st en sz : ℕ → ℕ} (hd : distribute o n0 P
      = ok ((List.range P).map st, (List.range P).map en, (List.range P).map sz)) :
    Dist.new o [n0, n1] P r 1 = ok ⟨[sz r, n1], [st r, 0], [en r, n1 - 1],
      (List.range P).map (fun s => [sz s, n1]), (List.range P).map (fun s => [st s, 0]),
      (List.range P).map (fun s => [en s, n1 - 1]), P, r, 1⟩ := by
  have r1 : List.replicate P (List.replicate [n0, n1].length 0) = (List.range P).map (fun _ => [0, 0]) := by
    simp [List.map_const', List.replicate]
  have r2 : List.replicate P [n0, n1] = (List.range P).map (fun _ => [n0, n1]) := by
    simp [List.map_const']
  unfold Dist.new
  rw [assertR_ok (by omega), bind_ok, mapR_sub_two o h0 h1, bind_ok, r1, r2]
  have hl : forRange 0 ([n0, n1] : List ℕ).length (fun axis s =>
      (if axis = 1 then pure s else do
        let n ← rdC [n0, n1] axis
        let (stSplit, enSplit, szSplit) ← distribute o n P
        let stProcs ← setAxis axis s.1 stSplit
        let enProcs ← setAxis axis s.2.1 enSplit
        let szProcs ← setAxis axis s.2.2 szSplit
        pure (stProcs, enProcs, szProcs)))
      ((List.range P).map (fun _ => [0, 0]), (List.range P).map (fun _ => [n0 - 1, n1 - 1]),
        (List.range P).map (fun _ => [n0, n1]))
      = ok ((List.range P).map (fun s => [st s, 0]), (List.range P).map (fun s => [en s, n1 - 1]),
        (List.range P).map (fun s => [sz s, n1])) := by
    change (distribute o n0 P >>= fun x => _) >>= _ = _
    rw [hd, bind_ok]
    dsimp only
    rw [setAxis_map _ _ _ _ (by simp), bind_ok, setAxis_map _ _ _ _ (by simp), bind_ok,
      setAxis_map _ _ _ _ (by simp), bind_ok]
    rfl
  rw [hl, bind_ok]
  dsimp only
  rw [rdC_map_range _ hr, rdC_map_range _ hr, rdC_map_range _ hr]
  rfl

theorem mapR_sub_zero {n0 n1 P : ℕ} (hP : 0 < P) (h : n0 = 0 ∨ n1 = 0) :
    mapR (fun a => mapR (fun e => Mode.debug.sub e 1) a) (List.replicate P [n0, n1]) = err .panic := by
  have e1 : mapR (fun e => Mode.debug.sub e 1) [n0, n1] = err .panic := by
    change (Mode.debug.sub n0 1 >>= fun x => (Mode.debug.sub n1 1 >>= fun y => _) >>= _) = _
    rcases h with h | h
    · subst h; rfl
    · subst h
      rcases Nat.eq_zero_or_pos n0 with h | h
      · subst h; rfl
      · rw [Mode.debug.sub_ok h]; rfl
  obtain ⟨k, rfl⟩ : ∃ k, P = k + 1 := ⟨P - 1, by omega⟩
  rw [List.replicate_succ]
  change (mapR _ _ >>= _) = _
  rw [e1]; rfl

theorem Dist.new_panics0 {n0 n1 P r : ℕ} (hP : 0 < P) (h : n0 = 0 ∨ n1 < P) :
    Dist.new .debug [n0, n1] P r 0 = err .panic := by
  unfold Dist.new
  rw [assertR_ok (by omega), bind_ok]
  by_cases hz : n0 = 0 ∨ n1 = 0
  · rw [mapR_sub_zero hP hz]; rfl
  · rw [mapR_sub_two _ (by omega) (by omega), bind_ok]
    change ((distribute .debug n1 P >>= fun x => _) >>= _) >>= _ = _
    rw [distribute_debug_panics (by omega)]
    rfl

theorem Dist.new_panics1 {n0 n1 P r : ℕ} (hP : 0 < P) (h : n1 = 0 ∨ n0 < P) :
    Dist.new .debug [n0, n1] P r 1 = err .panic := by
  unfold Dist.new
  rw [assertR_ok (by omega), bind_ok]
  by_cases hz : n0 = 0 ∨ n1 = 0
  · rw [mapR_sub_zero hP hz]; rfl
  · rw [mapR_sub_two _ (by omega) (by omega), bind_ok]
    change ((distribute .debug n0 P >>= fun x => _) >>= _) >>= _ = _
    rw [distribute_debug_panics (by omega)]
    rfl

theorem Decomp2d.new_panics {n0 n1 P r : ℕ} (hP : 0 < P) (hr : r < P) (h : n0 < P ∨ n1 < P)
    (w0 : n0 + 1 < usizeW) (w1 : n1 + 1 < usizeW) :
    Decomp2d.new .debug P r [n0, n1] = err .panic := by
  unfold Decomp2d.new
  by_cases hx : n0 = 0 ∨ n1 < P
  · rw [Dist.new_panics0 hP hx]; rfl
  · rw [Dist.new_two0 hr (by omega) (by omega) (distribute_ok _ hP (by omega) w1), bind_ok,
      Dist.new_panics1 hP (by omega)]
    rfl

end Verif
