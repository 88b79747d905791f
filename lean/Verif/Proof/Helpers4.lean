/- Loop proofs for `Stencil4`. -/
import Verif.Model.Helpers
import Verif.Proof.Fill
import Verif.Proof.StMat
import Verif.Proof.Positive
import Verif.Proof.Pdma2

namespace Verif
open Res Spec Finset
variable {K T : Type} [Field K] [DecidableEq K] [AddCommGroup T] [Module K T] {Q : Err → Prop}

/-- what the constructor establishes -/
structure Stencil4.Wf (s : Stencil4 K) (m : ℕ) (d l h : ℕ → K) : Prop where
  diag : s.diag = (List.range m).map d
  low2 : s.low2 = (List.range m).map l
  low4 : s.low4 = (List.range m).map h
  fdiag : s.fdmaDiag = (List.range m).map (fun i => d i * d i + l i * l i + h i * h i)
  foff2 : s.fdmaOff2 = (List.range (m - 2)).map (fun i => d (i + 2) * l i + l (i + 2) * h i)
  foff4 : s.fdmaOff4 = (List.range (m - 4)).map (fun i => d (i + 4) * h i)

namespace Stencil4
variable {m : ℕ} {d l h : ℕ → K} {s : Stencil4 K}

theorem wp_new (hm : 4 ≤ m) :
    wp Q (Stencil4.new ((List.range m).map d) ((List.range m).map l) ((List.range m).map h))
      (fun s => s.Wf m d l h) := by
  unfold Stencil4.new
  simp only [List.length_map, List.length_range]
  wprun
  simp only [List.length_replicate]
  refine wp_fill (fun i => d i * d i + l i * l i + h i * h i) (by simp) ?_ ?_
  · intro i hi v hv
    wprun
    rw [nth_map_range _ _ _ hi, nth_map_range _ _ _ hi, nth_map_range _ _ _ hi]
  wprun
  refine wp_fill (fun i => d (i + 2) * l i + l (i + 2) * h i) (by simp) ?_ ?_
  · intro i hi v hv
    wprun
    rw [nth_map_range _ _ _ (by omega), nth_map_range _ _ _ (by omega),
      nth_map_range _ _ _ (by omega), nth_map_range _ _ _ (by omega)]
  wprun
  refine wp_fill (fun i => d (i + 4) * h i) (by simp) ?_ ?_
  · intro i hi v hv
    wprun
    rw [nth_map_range _ _ _ (by omega), nth_map_range _ _ _ (by omega)]
  wprun
  exact ⟨rfl, rfl, rfl, rfl, rfl, rfl⟩

theorem wp_toArray (hs : s.Wf m d l h) :
    wp Q s.toArray (fun M => M.rows = m + 4 ∧ M.cols = m ∧
      ∀ i j, j < m → M.get i j = stMat 2 d l h i j) := by
  unfold toArray
  rw [hs.diag, hs.low2, hs.low4]
  simp only [List.length_map, List.length_range, min_self]
  refine wp_forRange (fun k M => M.rows = m + 4 ∧ M.cols = m ∧
    ∀ i j, M.get i j = if j < k then stMat 2 d l h i j else 0)
    ⟨rfl, rfl, by simp⟩ ?_ ?_
  · rintro k M - hk ⟨h1, h2, h3⟩
    mprun
    refine ⟨h1, h2, fun i j => ?_⟩
    rw [nth_map_range _ _ _ hk, nth_map_range _ _ _ hk, nth_map_range _ _ _ hk,
      Mat.upd_get, Mat.upd_get, Mat.upd_get, h3]
    unfold stMat
    rcases Nat.lt_trichotomy j k with h | rfl | h
    · rw [if_neg (by omega), if_neg (by omega), if_neg (by omega), if_pos h,
        if_pos (show j < k + 1 by omega)]
    · rw [if_pos (show j < j + 1 by omega), if_neg (show ¬ j < j by omega)]
      by_cases h1 : i = j + 4
      · rw [if_pos ⟨h1, rfl⟩, if_neg (by omega), if_neg (by omega), if_pos (by omega)]; simp
      · rw [if_neg (show ¬ (i = j + 4 ∧ _) by omega)]
        by_cases h2 : i = j + 2
        · rw [if_pos ⟨h2, rfl⟩, if_neg (by omega), if_pos h2, if_neg (by omega)]; simp
        · by_cases h3 : i = j
          · simp [h3]
          · simp [h3, h2, h1]
    · rw [if_neg (by omega), if_neg (by omega), if_neg (by omega), if_neg (by omega),
        if_neg (by omega)]
  · rintro M ⟨h1, h2, h3⟩
    refine ⟨h1, h2, fun i j hj => ?_⟩
    rw [h3, if_pos (by omega)]

/-- rows computed before the faulty statements -/
theorem wp_dotHead (hs : s.Wf m d l h) (hm : 4 ≤ m) (v u : List T) (hv : v.length = m)
    (hu : u.length = m + 4) :
    wp Q (s.dotHead v u) (fun x => x.length = m + 4 ∧
      ∀ i ≤ m, nth x i = ∑ j ∈ range m, stMat 2 d l h i j • nth v j) := by
  unfold dotHead
  rw [hs.diag, hs.low2, hs.low4, hu]
  wprun
  refine wp_forRange (fun k x => x.length = m + 4 ∧
      ∀ i < k, nth x i = ∑ j ∈ range m, stMat 2 d l h i j • nth v j)
    ⟨by simpa using hu, ?_⟩ ?_ ?_
  · intro i hi
    rw [stMat_mul]
    have : i = 0 ∨ i = 1 ∨ i = 2 ∨ i = 3 := by omega
    rcases this with rfl | rfl | rfl | rfl
    · rw [nth_set_ne _ _ _ _ (by omega), nth_set_ne _ _ _ _ (by omega),
        nth_set_ne _ _ _ _ (by omega), nth_set_self _ _ _ (by omega),
        nth_map_range _ _ _ (by omega)]
      simp [show 0 < m by omega]
    · rw [nth_set_ne _ _ _ _ (by omega), nth_set_ne _ _ _ _ (by omega),
        nth_set_self _ _ _ (by simp; omega), nth_map_range _ _ _ (by omega)]
      simp [show 1 < m by omega]
    · rw [nth_set_ne _ _ _ _ (by omega),
        nth_set_self _ _ _ (by simp; omega), nth_map_range _ _ _ (by omega),
        nth_map_range _ _ _ (by omega)]
      simp [show 2 < m by omega, show 0 < m by omega]
    · rw [nth_set_self _ _ _ (by simp; omega), nth_map_range _ _ _ (by omega),
        nth_map_range _ _ _ (by omega)]
      simp [show 3 < m by omega, show 1 < m by omega]
  · rintro i x h2 him ⟨hx, hk⟩
    wprun
    refine ⟨by simpa using hx, fun k hk' => ?_⟩
    rcases Nat.lt_succ_iff_lt_or_eq.mp hk' with h' | rfl
    · rw [nth_set_ne _ _ _ _ (by omega)]; exact hk k h'
    · rw [nth_set_self _ _ _ (by omega), stMat_mul, nth_map_range _ _ _ (by omega),
        nth_map_range _ _ _ (by omega), nth_map_range _ _ _ (by omega),
        if_pos (by omega), if_pos (by omega), if_pos (by omega)]
  · rintro x ⟨hx, hk⟩
    wprun
    refine ⟨by simpa using hx, fun i hi => ?_⟩
    simp only [show m + 4 - 4 = m by omega, show m + 4 - 6 = m - 2 by omega,
      show m + 4 - 8 = m - 4 by omega]
    have : i < m ∨ i = m := by omega
    rcases this with h | rfl
    · rw [nth_set_ne _ _ _ _ (by omega), hk i (by omega)]
    · rw [nth_set_self _ _ _ (by omega), stMat_mul,
        nth_map_range _ _ _ (by omega), nth_map_range _ _ _ (by omega),
        if_neg (by omega), if_pos (by omega), if_pos (by omega)]
      simp

theorem dot_ub (hs : s.Wf m d l h) (hm : 4 ≤ m) (v u : List T) (hv : v.length = m)
    (hu : u.length = m + 4) : s.dot v u = err .ub := by
  suffices H : wp (fun e => e = .ub) (s.dot v u) (fun _ => False) by
    cases hx : s.dot v u with
    | ok a => rw [hx] at H; exact H.elim
    | err e => rw [hx] at H; rw [show e = .ub from H]
  unfold dot
  rw [hs.diag]
  simp only [List.length_map, List.length_range]
  wprun
  refine wp_mono (wp_dotHead hs hm v u hv hu) ?_
  rintro x ⟨hx, -⟩
  unfold dotTail
  rw [hs.low2, hs.low4, hx]
  wprun
  simp

theorem wp_pinv (hs : s.Wf m d l h) (hd : ∀ i < m, d i ≠ 0) :
    wp Q s.pinv (fun P => P.rows = m ∧ P.cols = m + 4 ∧
      ∀ i < m, ∀ j < m, ∑ k ∈ range (m + 4), P.get i k * stMat 2 d l h k j
        = if i = j then 1 else 0) := by
  unfold pinv
  rw [hs.diag, hs.low2, hs.low4]
  simp only [List.length_map, List.length_range]
  refine wp_forRange (fun r P => P.rows = m ∧ P.cols = m + 4 ∧
    (∀ i, r ≤ i → ∀ j, P.get i j = 0) ∧ (∀ i < r, ∀ j, i < j → P.get i j = 0) ∧
    ∀ i < r, ∀ j < m, d j * P.get i j + l j * P.get i (j + 2) + h j * P.get i (j + 4)
      = if i = j then 1 else 0)
    ⟨rfl, rfl, by simp, by simp, by simp⟩ ?_ ?_
  · rintro r P - hr ⟨h1, h2, h3, h4, h5⟩
    have hdr := hd r hr
    mprun
    swap
    · intro h; rw [nth_map_range _ _ _ hr] at h; exact absurd h hdr
    rw [nth_map_range _ _ _ hr]
    -- state after writing the diagonal entry
    set P1 := P.upd r r ((d r)⁻¹ • (1 : K)) with hP1
    have g1 : ∀ i j, P1.get i j = if i = r ∧ j = r then (d r)⁻¹ else P.get i j := by
      intro i j; rw [hP1, Mat.upd_get]; simp
    -- invariant: columns >= k of the right parity are done
    let I : ℕ → Mat K → Prop := fun k P' => P'.rows = m ∧ P'.cols = m + 4 ∧
      (∀ i ≠ r, ∀ j, P'.get i j = P.get i j) ∧ P'.get r r = (d r)⁻¹ ∧
      (∀ j, r < j → P'.get r j = 0) ∧
      (∀ j, j < r → (r - j) % 2 = 1 → P'.get r j = 0) ∧
      (∀ j, k ≤ j → j < r → (r - j) % 2 = 0 →
        d j * P'.get r j + l j * P'.get r (j + 2) + h j * P'.get r (j + 4) = 0)
    have ini : I r P1 := by
      refine ⟨h1, h2, fun i hi j => ?_, ?_, fun j hj => ?_, fun j hj ho => ?_,
        fun j h1 h2 => by omega⟩
      · rw [g1, if_neg (by omega)]
      · rw [g1, if_pos ⟨rfl, rfl⟩]
      · rw [g1, if_neg (by omega), h3 r le_rfl]
      · rw [g1, if_neg (by omega), h3 r le_rfl]
    have weak : ∀ k k' P', k' ≤ k → (r - k) % 2 = 0 → k ≤ r → k - k' ≤ 1 → I k P' → I k' P' := by
      rintro k k' P' h0 hp hkr hkk ⟨i1, i2, i3, i4, i5, i6, i7⟩
      refine ⟨i1, i2, i3, i4, i5, i6, fun j hj1 hj2 hj3 => i7 j (by omega) hj2 hj3⟩
    have fin : ∀ P', I 0 P' → P'.rows = m ∧ P'.cols = m + 4 ∧
        (∀ i, r + 1 ≤ i → ∀ j, P'.get i j = 0) ∧ (∀ i < r + 1, ∀ j, i < j → P'.get i j = 0) ∧
        ∀ i < r + 1, ∀ j < m,
          d j * P'.get i j + l j * P'.get i (j + 2) + h j * P'.get i (j + 4)
            = if i = j then 1 else 0 := by
      rintro P' ⟨i1, i2, i3, i4, i5, i6, i7⟩
      have odd0 : ∀ j, (j < r ∧ (r - j) % 2 = 1) ∨ r < j → P'.get r j = 0 := by
        rintro j (⟨h, h'⟩ | h)
        · exact i6 j h h'
        · exact i5 j h
      refine ⟨i1, i2, fun i hi j => ?_, fun i hi j hj => ?_, fun i hi j hj => ?_⟩
      · rw [i3 i (by omega)]; exact h3 i (by omega) j
      · rcases Nat.lt_succ_iff_lt_or_eq.mp hi with h | rfl
        · rw [i3 i (by omega)]; exact h4 i h j hj
        · exact i5 j hj
      · rcases Nat.lt_succ_iff_lt_or_eq.mp hi with h | rfl
        · rw [i3 i (by omega), i3 i (by omega), i3 i (by omega)]; exact h5 i h j hj
        · rcases Nat.lt_trichotomy i j with h | rfl | h
          · rw [if_neg (by omega), i5 j h, i5 (j + 2) (by omega), i5 (j + 4) (by omega)]; simp
          · rw [if_pos rfl, i4, i5 (i + 2) (by omega), i5 (i + 4) (by omega),
              mul_inv_cancel₀ hdr]; simp
          · rw [if_neg (by omega)]
            rcases Nat.mod_two_eq_zero_or_one (i - j) with he | ho
            · exact i7 j (by omega) h he
            · rw [odd0 j (by omega), odd0 (j + 2) (by omega), odd0 (j + 4) (by omega)]; simp
    -- one update
    have upd : ∀ j P', j < r → (r - j) % 2 = 0 → I (j + 2) P' →
        I j (P'.upd r j ((d j)⁻¹ • (-1 * (P'.get r (j + 4) * h j + P'.get r (j + 2) * l j)))) := by
      rintro j P' hj hpar ⟨i1, i2, i3, i4, i5, i6, i7⟩
      have hdj := hd j (by omega)
      refine ⟨i1, i2, fun i hi k => ?_, ?_, fun k hk => ?_, fun k hk ho => ?_,
        fun k h1 h2 h3 => ?_⟩
      · rw [Mat.upd_get, if_neg (by omega), i3 i hi]
      · rw [Mat.upd_get, if_neg (by omega), i4]
      · rw [Mat.upd_get, if_neg (by omega), i5 k hk]
      · rw [Mat.upd_get, if_neg (by omega), i6 k hk ho]
      · rcases Nat.eq_or_lt_of_le h1 with rfl | h
        · rw [Mat.upd_get, if_pos ⟨rfl, rfl⟩, Mat.upd_get, if_neg (by omega), Mat.upd_get,
            if_neg (by omega), smul_eq_mul, mul_inv_cancel_left₀ hdj]
          ring
        · rw [Mat.upd_get, if_neg (by omega), Mat.upd_get, if_neg (by omega), Mat.upd_get,
            if_neg (by omega)]
          exact i7 k (by omega) h2 h3
    refine wp_cut (fun P2 => if 2 ≤ r then I (r - 2) P2 else I 0 P2) ?_ ?_
    · refine wp_ite_i (fun hr1 => ?_) (fun hr1 => ?_)
      · have r1 : P1.rows = m := h1
        have c1 : P1.cols = m + 4 := h2
        mprun
        swap
        · intro h; rw [nth_map_range _ _ _ (by omega)] at h
          exact absurd h (hd _ (by omega))
        rw [if_pos hr1]
        rw [nth_map_range _ _ _ (by omega), nth_map_range _ _ _ (by omega)]
        have := upd (r - 2) P1 (by omega) (by omega) (by rwa [show r - 2 + 2 = r by omega])
        rwa [show P1.get r (r - 2 + 4) = 0 from ini.2.2.2.2.1 _ (by omega), zero_mul,
          zero_add] at this
      · mprun
        rw [if_neg (by omega)]
        exact weak r 0 P1 (by omega) (by omega) le_rfl (by omega) ini
    intro P2 hP2
    refine wp_ite_i (fun hr2 => ?_) (fun hr2 => ?_)
    · rw [if_pos (by omega)] at hP2
      mprun
      refine wp_forRev2 I ?_ ?_ ?_
      · rw [show r - 1 + 1 = r by omega]
        obtain ⟨i1, i2, i3, i4, i5, i6, i7⟩ := hP2
        exact ⟨i1, i2, i3, i4, i5, i6, fun j hj1 hj2 hj3 => by omega⟩
      · rintro j P' hj hpar hI
        have i1 := hI.1
        have i2 := hI.2.1
        have hdj := hd j (by omega)
        mprun
        swap
        · intro h; rw [nth_map_range _ _ _ (by omega)] at h; exact absurd h hdj
        rw [nth_map_range _ _ _ (by omega), nth_map_range _ _ _ (by omega),
          nth_map_range _ _ _ (by omega)]
        exact upd j P' (by omega) (by omega) hI
      · rintro k P' hk1 hk2 hI
        exact fin P' (weak k 0 P' (by omega) (by omega) (by omega) (by omega) hI)
    · mprun
      refine fin P2 ?_
      by_cases h2r : 2 ≤ r
      · rw [if_pos h2r] at hP2
        exact weak (r - 2) 0 P2 (by omega) (by omega) (by omega) (by omega) hP2
      · rwa [if_neg h2r] at hP2
  · rintro P ⟨h1, h2, h3, h4, h5⟩
    refine ⟨h1, h2, fun i hi j hj => ?_⟩
    have := stMat_tmul 2 (m + 4) d l h (fun k => P.get i k) j
    simp only [smul_eq_mul] at this
    rw [if_pos (by omega), if_pos (by omega), if_pos (by omega)] at this
    rw [← h5 i (by omega) j hj, ← this]
    exact Finset.sum_congr rfl (fun k _ => mul_comm _ _)

end Stencil4

section Solve
variable {K T : Type} [Field K] [LinearOrder K] [IsStrictOrderedRing K] [AddCommGroup T]
  [Module K T] {Q : Err → Prop} {m : ℕ} {d l h : ℕ → K} {s : Stencil4 K}

theorem Stencil4.wp_solve (hs : s.Wf m d l h) (hd : ∀ i < m, d i ≠ 0) (hm : 6 ≤ m)
    (u v : List T) (hu : u.length = m + 4) (hv : v.length = m) :
    wp Q (s.solve u v) (fun x => x.length = m ∧
      ∀ j < m, ∑ i ∈ range (m + 4), stMat 2 d l h i j •
          (∑ k ∈ range m, stMat 2 d l h i k • nth x k)
        = ∑ i ∈ range (m + 4), stMat 2 d l h i j • nth u i) := by
  unfold solve
  rw [hs.diag, hs.low2, hs.low4, hs.fdiag, hs.foff2, hs.foff4, hv]
  wprun
  refine wp_fill (fun i => d i • nth u i + l i • nth u (i + 2) + h i • nth u (i + 4)) hv ?_ ?_
  · intro i hi v hv
    wprun
    rw [nth_map_range _ _ _ hi, nth_map_range _ _ _ hi, nth_map_range _ _ _ hi]
  set F := List.map (fun i => d (i + 4) * h i) (List.range (m - 4)) with hF
  set E := List.map (fun i => d (i + 2) * l i + l (i + 2) * h i) (List.range (m - 2)) with hE
  set D := List.map (fun i => d i * d i + l i * l i + h i * h i) (List.range m) with hD
  have hFi : ∀ i, i + 2 * 2 < m → nth F i = d (i + 2 * 2) * h i := fun i hi => by
    rw [hF, nth_map_range _ _ _ (by omega)]
  have hEi : ∀ i, i + 2 < m → nth E i = d (i + 2) * l i + l (i + 2) * h i := fun i hi => by
    rw [hE, nth_map_range _ _ _ (by omega)]
  have hDi : ∀ i, i < m → nth D i = d i * d i + l i * l i + h i * h i := fun i hi => by
    rw [hD, nth_map_range _ _ _ (by omega)]
  have hpos := penta_pos (f := nth F) (e := nth E) (D := nth D) (by omega) m d l h hDi hEi hFi hd
  refine wp_mono (wp_pdma2 (n := m) hm (by simp) (by simp [hF]) (by simp [hE]) (by simp [hD])
    (by simp [hE]) (by simp [hF]) (fun i hi h => absurd h (hpos i hi).ne')) ?_
  rintro x ⟨hp, hx, h1⟩
  refine ⟨hx, fun j hj => ?_⟩
  have := penta_solves (by omega) (nth x) m hp h1 j hj
  have hr : nth (List.map (fun i => d i • nth u i + l i • nth u (i + 2) + h i • nth u (i + 4))
    (List.range m)) j = _ := nth_map_range _ _ _ hj
  rw [hr, hDi j hj] at this
  rw [stMat_normal 2 m (m + 4) _ _ _ _ _ hj (Or.inl le_rfl), stMat_tmul]
  rw [if_pos (show j < m + 4 by omega), if_pos (show j + 2 < m + 4 by omega),
    if_pos (show j + 2 * 2 < m + 4 by omega), ← this]
  congr 1
  · congr 1
    · congr 1
      congr 1
      · split
        · rw [hFi (j - 2 * 2) (by omega), show j - 2 * 2 + 2 * 2 = j by omega]
        · rfl
      · split
        · rw [hEi (j - 2) (by omega), show j - 2 + 2 = j by omega]
        · rfl
    · split
      · rw [hEi j (by omega)]
      · rfl
  · split
    · rw [hFi j (by omega)]
    · rfl

end Solve
end Verif
