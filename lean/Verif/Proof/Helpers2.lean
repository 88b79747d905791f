/- Loop proofs for `Stencil2`. -/
import Verif.Model.Helpers
import Verif.Proof.Fill
import Verif.Proof.StMat
import Verif.Proof.Positive

namespace Verif
open Res Spec Finset
variable {K T : Type} [Field K] [DecidableEq K] [AddCommGroup T] [Module K T] {Q : Err → Prop}

/-- what the constructor establishes, in terms of `m`, `d`, `l` -/
structure Stencil2.Wf (s : Stencil2 K) (m : ℕ) (d l : ℕ → K) : Prop where
  diag : s.diag = (List.range m).map d
  low2 : s.low2 = (List.range m).map l
  tdiag : s.tdmaDiag = (List.range m).map (fun i => d i * d i + l i * l i)
  toff : s.tdmaOff2 = (List.range (m - 2)).map (fun i => d (i + 2) * l i)

namespace Stencil2
variable {m : ℕ} {d l : ℕ → K} {s : Stencil2 K}

theorem wp_new (hm : 2 ≤ m) :
    wp Q (Stencil2.new ((List.range m).map d) ((List.range m).map l)) (fun s => s.Wf m d l) := by
  unfold Stencil2.new
  simp only [List.length_map, List.length_range]
  wprun
  simp only [List.length_replicate]
  refine wp_fill (fun i => d i * d i + l i * l i) (by simp) ?_ ?_
  · intro i hi v hv
    wprun
    rw [nth_map_range _ _ _ hi, nth_map_range _ _ _ hi]
  wprun
  refine wp_fill (fun i => d (i + 2) * l i) (by simp) ?_ ?_
  · intro i hi v hv
    wprun
    rw [nth_map_range _ _ _ (by omega), nth_map_range _ _ _ (by omega)]
  wprun
  exact ⟨rfl, rfl, rfl, rfl⟩

theorem wp_toArray (hs : s.Wf m d l) :
    wp Q s.toArray (fun M => M.rows = m + 2 ∧ M.cols = m ∧
      ∀ i j, j < m → M.get i j = stMat 2 d l (fun _ => 0) i j) := by
  unfold toArray
  rw [hs.diag, hs.low2]
  simp only [List.length_map, List.length_range, min_self]
  refine wp_forRange (fun k M => M.rows = m + 2 ∧ M.cols = m ∧
    ∀ i j, M.get i j = if j < k then stMat 2 d l (fun _ => 0) i j else 0)
    ⟨rfl, rfl, by simp⟩ ?_ ?_
  · rintro k M - hk ⟨h1, h2, h3⟩
    mprun
    refine ⟨h1, h2, fun i j => ?_⟩
    rw [nth_map_range _ _ _ hk, nth_map_range _ _ _ hk, Mat.upd_get, Mat.upd_get, h3]
    unfold stMat
    rcases Nat.lt_trichotomy j k with h | rfl | h
    · rw [if_neg (by omega), if_neg (by omega), if_pos h, if_pos (show j < k + 1 by omega)]
    · rw [if_pos (show j < j + 1 by omega), if_neg (show ¬ j < j by omega)]
      by_cases h1 : i = j + 2
      · rw [if_pos ⟨h1, rfl⟩, if_neg (by omega), if_pos h1]; simp
      · rw [if_neg (by omega)]
        by_cases h2 : i = j
        · simp [h2]
        · simp [h2, h1]
    · rw [if_neg (by omega), if_neg (by omega), if_neg (by omega), if_neg (by omega)]
  · rintro M ⟨h1, h2, h3⟩
    refine ⟨h1, h2, fun i j hj => ?_⟩
    rw [h3, if_pos (by omega)]

theorem wp_dot (hs : s.Wf m d l) (hm : 2 ≤ m) (v u : List T) (hv : v.length = m)
    (hu : u.length = m + 2) :
    wp Q (s.dot v u) (fun x => x.length = m + 2 ∧
      ∀ i < m + 2, nth x i = ∑ j ∈ range m, stMat 2 d l (fun _ => 0) i j • nth v j) := by
  unfold dot
  rw [hs.diag, hs.low2, hu]
  simp only [List.length_map, List.length_range]
  wprun
  refine wp_forRange (fun k x => x.length = m + 2 ∧
      ∀ i < k, nth x i = ∑ j ∈ range m, stMat 2 d l (fun _ => 0) i j • nth v j)
    ⟨by simpa using hu, ?_⟩ ?_ ?_
  · intro i hi
    rw [stMat_mul]
    have : i = 0 ∨ i = 1 := by omega
    rcases this with rfl | rfl
    · rw [nth_set_ne _ _ _ _ (by omega), nth_set_self _ _ _ (by omega),
        nth_map_range _ _ _ (by omega)]
      simp [show 0 < m by omega]
    · rw [nth_set_self _ _ _ (by simp; omega), nth_map_range _ _ _ (by omega)]
      simp [show 1 < m by omega]
  · rintro i x h2 him ⟨hx, hk⟩
    wprun
    refine ⟨by simpa using hx, fun k hk' => ?_⟩
    rcases Nat.lt_succ_iff_lt_or_eq.mp hk' with h' | rfl
    · rw [nth_set_ne _ _ _ _ (by omega)]; exact hk k h'
    · rw [nth_set_self _ _ _ (by omega), stMat_mul, nth_map_range _ _ _ (by omega),
        nth_map_range _ _ _ (by omega), if_pos (by omega), if_pos (by omega)]
      simp
  · rintro x ⟨hx, hk⟩
    wprun
    refine ⟨by simpa using hx, fun i hi => ?_⟩
    simp only [show m + 2 - 2 = m by omega, show m + 2 - 4 = m - 2 by omega,
      show m + 2 - 1 = m + 1 by omega, show m + 2 - 3 = m - 1 by omega]
    have : i < m ∨ i = m ∨ i = m + 1 := by omega
    rcases this with h | rfl | rfl
    · rw [nth_set_ne _ _ _ _ (by omega), nth_set_ne _ _ _ _ (by omega), hk i (by omega)]
    · rw [nth_set_ne _ _ _ _ (by omega), nth_set_self _ _ _ (by omega), stMat_mul,
        nth_map_range _ _ _ (by omega), if_neg (by omega), if_pos (by omega)]
      simp
    · rw [nth_set_self _ _ _ (by simp; omega), stMat_mul,
        nth_map_range _ _ _ (by omega), if_neg (by omega), if_pos (by omega),
        show m + 1 - 2 = m - 1 by omega]
      simp

theorem wp_pinv (hs : s.Wf m d l) (hd : ∀ i < m, d i ≠ 0) :
    wp Q s.pinv (fun P => P.rows = m ∧ P.cols = m + 2 ∧
      ∀ i < m, ∀ j < m, ∑ k ∈ range (m + 2), P.get i k * stMat 2 d l (fun _ => 0) k j
        = if i = j then 1 else 0) := by
  unfold pinv
  rw [hs.diag, hs.low2]
  simp only [List.length_map, List.length_range]
  refine wp_forRange (fun r P => P.rows = m ∧ P.cols = m + 2 ∧
    (∀ i, r ≤ i → ∀ j, P.get i j = 0) ∧ (∀ i < r, ∀ j, i < j → P.get i j = 0) ∧
    ∀ i < r, ∀ j < m, d j * P.get i j + l j * P.get i (j + 2) = if i = j then 1 else 0)
    ⟨rfl, rfl, by simp, by simp, by simp⟩ ?_ ?_
  · rintro r P - hr ⟨h1, h2, h3, h4, h5⟩
    have hdr := hd r hr
    mprun
    swap
    · intro h; rw [nth_map_range _ _ _ hr] at h; exact absurd h hdr
    rw [nth_map_range _ _ _ hr]
    -- state after writing the diagonal entry
    set P1 := P.upd r r ((d r)⁻¹ • (1 : K)) with hP1
    have g1 : ∀ i j, P1.get i j = if i = r ∧ j = r then (d r)⁻¹ else P.get i j := by
      intro i j; rw [hP1, Mat.upd_get]; simp
    have r1 : P1.rows = m := h1
    have c1 : P1.cols = m + 2 := h2
    -- invariant of the inner loop
    let I : ℕ → Mat K → Prop := fun k P' => P'.rows = m ∧ P'.cols = m + 2 ∧
      (∀ i ≠ r, ∀ j, P'.get i j = P.get i j) ∧ P'.get r r = (d r)⁻¹ ∧
      (∀ j, r < j → P'.get r j = 0) ∧
      (∀ j, j < r → (r - j) % 2 = 1 → P'.get r j = 0) ∧
      (∀ j, k ≤ j → j < r → (r - j) % 2 = 0 → d j * P'.get r j + l j * P'.get r (j + 2) = 0)
    have fin : ∀ P' k, k ≤ 1 → (r - k) % 2 = 0 ∨ r < 2 → I k P' → P'.rows = m ∧ P'.cols = m + 2 ∧
        (∀ i, r + 1 ≤ i → ∀ j, P'.get i j = 0) ∧ (∀ i < r + 1, ∀ j, i < j → P'.get i j = 0) ∧
        ∀ i < r + 1, ∀ j < m,
          d j * P'.get i j + l j * P'.get i (j + 2) = if i = j then 1 else 0 := by
      rintro P' k hk1 hk2 ⟨i1, i2, i3, i4, i5, i6, i7⟩
      refine ⟨i1, i2, fun i hi j => ?_, fun i hi j hj => ?_, fun i hi j hj => ?_⟩
      · rw [i3 i (by omega)]; exact h3 i (by omega) j
      · rcases Nat.lt_succ_iff_lt_or_eq.mp hi with h | rfl
        · rw [i3 i (by omega)]; exact h4 i h j hj
        · exact i5 j hj
      · rcases Nat.lt_succ_iff_lt_or_eq.mp hi with h | rfl
        · rw [i3 i (by omega), i3 i (by omega)]; exact h5 i h j hj
        · rcases Nat.lt_trichotomy i j with h | rfl | h
          · rw [if_neg (by omega), i5 j h, i5 (j + 2) (by omega)]; simp
          · rw [if_pos rfl, i4, i5 (i + 2) (by omega), mul_inv_cancel₀ hdr]; simp
          · rw [if_neg (by omega)]
            rcases Nat.mod_two_eq_zero_or_one (i - j) with he | ho
            · exact i7 j (by omega) h he
            · rw [i6 j h ho]
              rcases Nat.lt_or_ge (j + 2) i with h' | h'
              · rw [i6 (j + 2) h' (by omega)]; simp
              · rw [i5 (j + 2) (by omega)]; simp
    refine wp_ite_i (fun hr2 => ?_) (fun hr2 => ?_)
    · mprun
      refine wp_forRev2 I ?_ ?_ ?_
      · rw [show r - 1 + 1 = r by omega]
        refine ⟨r1, c1, fun i hi j => ?_, ?_, fun j hj => ?_, fun j hj ho => ?_,
          fun j h1 h2 => by omega⟩
        · rw [g1, if_neg (by omega)]
        · rw [g1, if_pos ⟨rfl, rfl⟩]
        · rw [g1, if_neg (by omega), h3 r le_rfl]
        · rw [g1, if_neg (by omega), h3 r le_rfl]
      · rintro j P' hj hpar ⟨i1, i2, i3, i4, i5, i6, i7⟩
        have hdj := hd j (by omega)
        mprun
        swap
        · intro h; rw [nth_map_range _ _ _ (by omega)] at h; exact absurd h hdj
        rw [nth_map_range _ _ _ (by omega), nth_map_range _ _ _ (by omega)]
        refine ⟨i1, i2, fun i hi k => ?_, ?_, fun k hk => ?_, fun k hk ho => ?_,
          fun k h1 h2 h3 => ?_⟩
        · rw [Mat.upd_get, if_neg (by omega), i3 i hi]
        · rw [Mat.upd_get, if_neg (by omega), i4]
        · rw [Mat.upd_get, if_neg (by omega), i5 k hk]
        · rw [Mat.upd_get, if_neg (by omega), i6 k hk ho]
        · rcases Nat.eq_or_lt_of_le h1 with rfl | h
          · rw [Mat.upd_get, if_pos ⟨rfl, rfl⟩, Mat.upd_get, if_neg (by omega), smul_eq_mul,
              mul_inv_cancel_left₀ hdj]
            ring
          · rw [Mat.upd_get, if_neg (by omega), Mat.upd_get, if_neg (by omega)]
            exact i7 k (by omega) h2 h3
      · rintro k P' hk1 hk2 hI
        exact fin P' k hk1 (by omega) hI
    · mprun
      refine fin P1 0 (by omega) (by omega) ⟨r1, c1, fun i hi j => ?_, ?_, fun j hj => ?_,
        fun j hj ho => ?_, fun j h1 h2 => by omega⟩
      · rw [g1, if_neg (by omega)]
      · rw [g1, if_pos ⟨rfl, rfl⟩]
      · rw [g1, if_neg (by omega), h3 r le_rfl]
      · rw [g1, if_neg (by omega), h3 r le_rfl]
  · rintro P ⟨h1, h2, h3, h4, h5⟩
    refine ⟨h1, h2, fun i hi j hj => ?_⟩
    have := stMat_tmul 2 (m + 2) d l (fun _ => (0 : K)) (fun k => P.get i k) j
    simp only [smul_eq_mul, zero_mul, ite_self, add_zero] at this
    rw [if_pos (by omega), if_pos (by omega)] at this
    rw [← h5 i (by omega) j hj, ← this]
    exact Finset.sum_congr rfl (fun k _ => mul_comm _ _)

end Stencil2

section Solve
variable {K T : Type} [Field K] [LinearOrder K] [IsStrictOrderedRing K] [AddCommGroup T]
  [Module K T] {Q : Err → Prop} {m : ℕ} {d l : ℕ → K} {s : Stencil2 K}

theorem Stencil2.wp_solve (hs : s.Wf m d l) (hd : ∀ i < m, d i ≠ 0) (hm : 3 ≤ m)
    (u v : List T) (hu : u.length = m + 2) (hv : v.length = m) :
    wp Q (s.solve u v) (fun x => x.length = m ∧
      ∀ j < m, ∑ i ∈ range (m + 2), stMat 2 d l (fun _ => 0) i j •
          (∑ k ∈ range m, stMat 2 d l (fun _ => 0) i k • nth x k)
        = ∑ i ∈ range (m + 2), stMat 2 d l (fun _ => 0) i j • nth u i) := by
  unfold solve
  rw [hs.diag, hs.low2, hs.tdiag, hs.toff, hv]
  wprun
  refine wp_fill (fun i => d i • nth u i + l i • nth u (i + 2)) hv ?_ ?_
  · intro i hi v hv
    wprun
    rw [nth_map_range _ _ _ hi, nth_map_range _ _ _ hi]
  set O := List.map (fun i => d (i + 2) * l i) (List.range (m - 2)) with hO
  set D := List.map (fun i => d i * d i + l i * l i) (List.range m) with hD
  have hOi : ∀ i, i + 2 < m → nth O i = d (i + 2) * l i := fun i hi => by
    rw [hO, nth_map_range _ _ _ (by omega)]
  have hDi : ∀ i, i < m → nth D i = d i * d i + l i * l i := fun i hi => by
    rw [hD, nth_map_range _ _ _ (by omega)]
  have hpos := tri_pos m (nth D) (nth O) d l hDi hOi hd
  have hpiv : ∀ i < m, triPiv (nth O) (nth D) (nth O) i ≠ 0 := fun i hi =>
    (lt_of_le_of_lt (mul_self_nonneg _) (hpos i hi)).ne'
  refine wp_mono (wp_tdma O D O _ m hm (by simp) (by simp [hO]) (by simp [hD]) (by simp [hO])
    (fun i hi h => absurd h (hpiv i hi))) ?_
  rintro x ⟨-, hx, h1, h2⟩
  refine ⟨hx, fun j hj => ?_⟩
  have := tri_solves _ _ _ _ (nth x) m hpiv h1 h2 j hj
  have hr : nth (List.map (fun i => d i • nth u i + l i • nth u (i + 2)) (List.range m)) j = _ :=
    nth_map_range _ _ _ hj
  rw [hr, hDi j hj] at this
  rw [stMat_normal _ _ _ _ _ _ _ _ hj (Or.inr ⟨le_rfl, fun _ => rfl⟩), stMat_tmul]
  simp only [zero_smul, mul_zero, add_zero, ite_self, zero_add]
  rw [if_pos (show j < m + 2 by omega), if_pos (show j + 2 < m + 2 by omega), ← this]
  congr 1
  · congr 1
    split
    · rw [hOi (j - 2) (by omega), show j - 2 + 2 = j by omega]
    · rfl
  · split
    · rw [hOi j (by omega)]
    · rfl

end Solve
end Verif
