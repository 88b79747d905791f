/- Lock step runs of gather, scatter, all-gather and of the scalar routines. -/
import Verif.Proof.Decomp

namespace Verif
open Res Spec Mpi

section Coll
variable {T : Type} [Zero T] {P : ℕ}

theorem zeroVec_length (n : ℕ) : (Decomp2d.zeroVec n : List T).length = n := by
  simp [Decomp2d.zeroVec]

theorem gatherV_runs {C D : ℕ → ℕ} {send : ℕ → List T} {L : ℕ} (hP : 0 < P)
    (hD : ∀ s, D (s + 1) = D s + C s) (hD0 : D P ≤ L) (hC : ∀ s < P, (send s).length = C s)
    (hw : ∀ s < P, C s < 2 ^ 31) :
    ∃ R : List T, (R.length = L ∧ ∀ s < P, ∀ e < C s, nth R (D s + e) = nth (send s) e) ∧
      ∀ {β : Type} (y : ℕ → β) (post : List T → Prog T β), post R = .ret (ok (y 0)) →
        Runs P (fun r => if r = 0 then gatherVRoot P 0 (send r) (Decomp2d.zeroVec L)
            ((List.range P).map (fun s => (D s, C s))) >>= post
          else gatherV 0 (send r) >>= fun _ => pure (y r)) y := by
  let cs : ℕ → Coll T := fun r => ⟨.gatherV, fun x => if x = 0 then some (send r) else none,
    fun s => if r = 0 then ((List.range P).map (fun s => (D s, C s)))[s]? else none,
    if r = 0 then Decomp2d.zeroVec L else []⟩
  have ho : ∀ s < P, (cs s).out 0 = some (send s) := by
    intro s _; change (if 0 = 0 then some (send s) else none) = _; rw [if_pos rfl]
  have hsl : ∀ s < P, (cs 0).slot s = some (D s, (send s).length) := by
    intro s hs
    change (if 0 = 0 then ((List.range P).map (fun s => (D s, C s)))[s]? else none) = _
    rw [if_pos rfl, hC s hs]; simp [hs]
  have hm : Matched P cs := by
    refine matched_of_part (fun _ _ _ _ => rfl) (fun r hr => ?_)
    by_cases hr0 : r = 0
    · subst hr0
      refine .all D send hsl ho (fun s hs => by rw [hD, hC s hs]) ?_
      change D P ≤ (if 0 = 0 then (Decomp2d.zeroVec L : List T) else []).length
      rw [if_pos rfl, zeroVec_length]; exact hD0
    · refine .nobody (fun s _ => if_neg hr0) (fun s _ => if_neg hr0)
  refine ⟨recvAll P cs 0, ⟨?_, ?_⟩, ?_⟩
  · rw [recvAll_length hm hP]
    change (if 0 = 0 then (Decomp2d.zeroVec L : List T) else []).length = L
    rw [if_pos rfl, zeroVec_length]
  · intro s hs e he
    exact nth_of_get (recvAll_get hm hP hs (hsl s hs) (ho s hs) (by rw [hC s hs]; exact he))
  · intro β y post hpost
    have := Runs.bind (Runs.call hm) (q := fun r b => if r = 0 then post b else pure (y r)) (b := y)
      (.done (fun r hr => by
        by_cases hr0 : r = 0
        · subst hr0; rw [if_pos rfl, hpost]
        · rw [if_neg hr0]; rfl))
    refine this.congr (fun r hr => ?_) (fun _ _ => rfl)
    have hs := slice_ok (buf := send r) (by rw [hC r hr]; exact hw r hr)
    by_cases hr0 : r = 0
    · subst hr0
      rw [if_pos rfl]
      unfold gatherVRoot
      rw [hs, parts_ok]
      rfl
    · rw [if_neg hr0]
      unfold gatherV
      rw [hs]
      have e1 : (fun s : ℕ => if r = 0 then ((List.range P).map (fun s => (D s, C s)))[s]? else none)
          = fun _ => none := by funext s; rw [if_neg hr0]
      have e2 : (if r = 0 then (Decomp2d.zeroVec L : List T) else []) = [] := if_neg hr0
      have e3 : cs r = ⟨.gatherV, fun x => if x = 0 then some (send r) else none, fun _ => none, []⟩ := by
        change Coll.mk _ _ (fun s => if r = 0 then _ else none) (if r = 0 then _ else []) = _
        rw [e1, e2]
      rw [e3]
      have e4 : (fun b : List T => if r = 0 then post b else pure (y r)) = fun _ => pure (y r) := by
        funext b; rw [if_neg hr0]
      rw [e4]
      rfl

theorem scatterV_runs {C D : ℕ → ℕ} {send : List T} (hP : 0 < P)
    (hD : ∀ s < P, D s + C s ≤ send.length) (hw : ∀ s < P, C s < 2 ^ 31)
    {β : Type} (y : ℕ → β) (post : ℕ → List T → Prog T β)
    (hpost : ∀ r < P, post r (block send (D r, C r)) = .ret (ok (y r))) :
    Runs P (fun r => if r = 0 then scatterVRoot P 0 send ((List.range P).map (fun s => (D s, C s)))
          (Decomp2d.zeroVec (C r)) >>= post r
        else scatterV 0 (Decomp2d.zeroVec (C r)) >>= post r) y := by
  let cs : ℕ → Coll T := fun r => ⟨.scatterV,
    fun x => if r = 0 then (((List.range P).map (fun s => (D s, C s)))[x]?).map (block send) else none,
    fun s => if s = 0 then some (0, (Decomp2d.zeroVec (C r) : List T).length) else none,
    Decomp2d.zeroVec (C r)⟩
  have ho : ∀ r < P, (cs 0).out r = some (block send (D r, C r)) := by
    intro r hr
    change (if 0 = 0 then (((List.range P).map (fun s => (D s, C s)))[r]?).map (block send) else none) = _
    rw [if_pos rfl]; simp [hr]
  have hsl : ∀ r < P, (cs r).slot 0 = some (0, (block send (D r, C r)).length) := by
    intro r hr
    change (if 0 = 0 then some (0, (Decomp2d.zeroVec (C r) : List T).length) else none) = _
    rw [if_pos rfl, zeroVec_length, block_length (hD r hr)]
  have hm : Matched P cs := by
    refine matched_of_part (fun _ _ _ _ => rfl) (fun r hr => ?_)
    refine .root _ (hsl r hr) (ho r hr) ?_ (fun s _ hs0 => if_neg hs0) (fun s _ hs0 => if_neg hs0)
    change _ ≤ (Decomp2d.zeroVec (C r) : List T).length
    rw [zeroVec_length, block_length (hD r hr)]
  have hrecv : ∀ r < P, recvAll P cs r = block send (D r, C r) := by
    intro r hr
    have hl := block_length (hD r hr)
    refine ext_nth ?_ ?_
    · rw [recvAll_length hm hr, hl]
      exact zeroVec_length _
    · intro i hi
      rw [recvAll_length hm hr] at hi
      have hi : i < (Decomp2d.zeroVec (C r) : List T).length := hi
      rw [zeroVec_length] at hi
      have := recvAll_get hm hr hP (hsl r hr) (ho r hr) (e := i) (by omega)
      rw [Nat.zero_add] at this
      exact nth_of_get this
  have := Runs.bind (Runs.call hm) (q := post) (b := y)
      (.done (fun r hr => by rw [hrecv r hr, hpost r hr]))
  refine this.congr (fun r hr => ?_) (fun _ _ => rfl)
  have hs := slice_ok (buf := (Decomp2d.zeroVec (C r) : List T)) (by rw [zeroVec_length]; exact hw r hr)
  by_cases hr0 : r = 0
  · subst hr0
    rw [if_pos rfl]
    unfold scatterVRoot
    rw [hs, parts_ok]
    rfl
  · rw [if_neg hr0]
    unfold scatterV
    rw [hs]
    have e3 : cs r = ⟨.scatterV, fun _ => none,
        fun s => if s = 0 then some (0, (Decomp2d.zeroVec (C r) : List T).length) else none,
        Decomp2d.zeroVec (C r)⟩ := by
      change Coll.mk _ (fun x => if r = 0 then _ else none) _ _ = _
      congr 1
      funext x; rw [if_neg hr0]
    rw [e3]
    rfl

theorem allGatherV_runs {C D : ℕ → ℕ} {send : ℕ → List T} {L : ℕ}
    (hD : ∀ s, D (s + 1) = D s + C s) (hD0 : D P ≤ L) (hC : ∀ s < P, (send s).length = C s)
    (hw : ∀ s < P, C s < 2 ^ 31) :
    ∃ R : ℕ → List T, Runs P (fun r => allGatherV P (send r) (Decomp2d.zeroVec L)
        ((List.range P).map (fun s => (D s, C s)))) R ∧
      ∀ r < P, (R r).length = L ∧ ∀ s < P, ∀ e < C s, nth (R r) (D s + e) = nth (send s) e := by
  let cs : ℕ → Coll T := fun r => ⟨.allGatherV, fun _ => some (send r),
    fun s => ((List.range P).map (fun s => (D s, C s)))[s]?, Decomp2d.zeroVec L⟩
  have hsl : ∀ r, ∀ s < P, (cs r).slot s = some (D s, (send s).length) := by
    intro r s hs
    change ((List.range P).map (fun s => (D s, C s)))[s]? = _
    rw [hC s hs]; simp [hs]
  have hm : Matched P cs := by
    refine matched_of_part (fun _ _ _ _ => rfl) (fun r hr => ?_)
    refine .all D send (hsl r) (fun _ _ => rfl) (fun s hs => by rw [hD, hC s hs]) ?_
    change D P ≤ (Decomp2d.zeroVec L : List T).length
    rw [zeroVec_length]; exact hD0
  refine ⟨fun r => recvAll P cs r, ?_, ?_⟩
  · refine (Runs.call hm).congr (fun r hr => ?_) (fun _ _ => rfl)
    unfold allGatherV
    rw [slice_ok (buf := send r) (by rw [hC r hr]; exact hw r hr), parts_ok]
    rfl
  · intro r hr
    refine ⟨by rw [recvAll_length hm hr]; exact zeroVec_length _, ?_⟩
    intro s hs e he
    exact nth_of_get (recvAll_get hm hr hs (hsl r s hs) rfl (by rw [hC s hs]; exact he))

end Coll

/-! ### blocks of rows -/

theorem off_find {n P : ℕ} (hP : 0 < P) {j : ℕ} (hj : j < n) :
    ∃ s < P, off n P s ≤ j ∧ j < off n P (s + 1) := by
  have : ∀ k, j < off n P k → ∃ s < k, off n P s ≤ j ∧ j < off n P (s + 1) := by
    intro k
    induction k with
    | zero => rw [off_zero]; omega
    | succ k ih =>
      intro h
      rcases Nat.lt_or_ge j (off n P k) with h' | h'
      · obtain ⟨s, h1, h2⟩ := ih h'
        exact ⟨s, by omega, h2⟩
      · exact ⟨k, by omega, h', h⟩
  exact this P (by rw [off_P n hP]; exact hj)

section Rows
variable {T : Type} [Zero T] {n c P : ℕ}

theorem rows_concat (hP : 0 < P) {R : List T} (hl : R.length = n * c) (h : ℕ → ℕ → T)
    (hR : ∀ s < P, ∀ e < cnt n P s * c, nth R (off n P s * c + e)
      = nth (mk2 (cnt n P s) c (fun j i => h (off n P s + j) i)).data e) :
    R = (mk2 n c h).data := by
  refine ext_nth (by rw [hl]; simp [mk2]) (fun k hk => ?_)
  rw [hl] at hk
  have hc : 0 < c := by
    rcases Nat.eq_zero_or_pos c with rfl | h
    · simp at hk
    · exact h
  have hj : k / c < n := Nat.div_lt_of_lt_mul (by rw [mul_comm]; exact hk)
  have hi : k % c < c := Nat.mod_lt _ hc
  obtain ⟨s, hs, h1, h2⟩ := off_find hP hj
  rw [off_succ] at h2
  have hk' : k = k / c * c + k % c := by rw [mul_comm]; exact (Nat.div_add_mod k c).symm
  have e0 : k = off n P s * c + ((k / c - off n P s) * c + k % c) := by
    conv_lhs => rw [hk', show k / c = off n P s + (k / c - off n P s) by omega]
    ring
  have := hR s hs ((k / c - off n P s) * c + k % c) (idx2_lt (by omega) hi)
  rw [← e0, nth_mk2 _ (by omega) hi] at this
  rw [this, show off n P s + (k / c - off n P s) = k / c by omega]
  conv_rhs => rw [hk']
  rw [nth_mk2 h hj hi]

theorem rows_block {s : ℕ} (hs : s < P) (h : ℕ → ℕ → T) :
    block (mk2 n c h).data (off n P s * c, cnt n P s * c)
      = (mk2 (cnt n P s) c (fun j i => h (off n P s + j) i)).data := by
  have hle : off n P s * c + cnt n P s * c ≤ n * c := by
    rw [← Nat.add_mul]; exact Nat.mul_le_mul_right _ (off_cnt_le hs)
  have hl : (block (mk2 n c h).data (off n P s * c, cnt n P s * c)).length = cnt n P s * c :=
    block_length (by simpa [mk2] using hle)
  refine ext_nth (by rw [hl]; simp [mk2]) (fun k hk => ?_)
  rw [hl] at hk
  have hc : 0 < c := by
    rcases Nat.eq_zero_or_pos c with rfl | h
    · simp at hk
    · exact h
  have hj : k / c < cnt n P s := Nat.div_lt_of_lt_mul (by rw [mul_comm]; exact hk)
  have hi : k % c < c := Nat.mod_lt _ hc
  have hk' : k = k / c * c + k % c := by rw [mul_comm]; exact (Nat.div_add_mod k c).symm
  rw [block_nth hk]
  have e : off n P s * c + k = (off n P s + k / c) * c + k % c := by
    conv_lhs => rw [hk']
    ring
  rw [e, nth_mk2 h (by have := off_cnt_le (n := n) hs; omega) hi]
  conv_rhs => rw [hk']
  rw [nth_mk2 _ hj hi]

end Rows

section Methods
variable {T : Type} [Zero T] (o : Mode) {n0 n1 P : ℕ} (hg : Grid n0 n1 P) (hw : n0 * n1 < 2 ^ 31)

include hw in
theorem xlen_lt {r : ℕ} (hr : r < P) : n0 * cnt n1 P r < 2 ^ 31 :=
  lt_of_le_of_lt (Nat.mul_le_mul_left _ (cnt_le hr)) hw

include hw in
theorem ylen_lt {r : ℕ} (hr : r < P) : cnt n0 P r * n1 < 2 ^ 31 :=
  lt_of_le_of_lt (Nat.mul_le_mul_right _ (cnt_le hr)) hw

theorem swap_xPen (n0 n1 P r : ℕ) (f : ℕ → ℕ → T) : swapAxes (xPen n0 n1 P r f)
    = mk2 (cnt n1 P r) n0 (fun j i => f i (off n1 P r + j)) := swapAxes_mk2 _ _ _

include hg hw in
/-- local preparation of `gather_x` and relatives -/
theorem prepX {r : ℕ} (hr : r < P) (f : ℕ → ℕ → T) :
    checkShape (xPen n0 n1 P r f) (decompOf n0 n1 P r).xPencil.sz = ok () ∧
    (decompOf n0 n1 P r).xPencil.length o = ok (cnt n1 P r * n0) ∧
    zipSet id (swapAxes (xPen n0 n1 P r f)).data (Decomp2d.zeroVec (cnt n1 P r * n0))
      = (mk2 (cnt n1 P r) n0 (fun j i => f i (off n1 P r + j))).data ∧
    o.prod (decompOf n0 n1 P r).nGlobal = ok (n1 * n0) ∧
    (decompOf n0 n1 P r).xPencil.countsAllGather o
      = ok ((List.range P).map (fun s => ((cnt n1 P s * n0 : ℕ) : ℤ)),
        (List.range P).map (fun s => ((off n1 P s * n0 : ℕ) : ℤ))) ∧
    ∀ buf : List T, buf.length = n1 * n0 →
      partition buf ((List.range P).map (fun s => ((cnt n1 P s * n0 : ℕ) : ℤ)))
        ((List.range P).map (fun s => ((off n1 P s * n0 : ℕ) : ℤ)))
        = ok ((List.range P).map (fun s => (off n1 P s * n0, cnt n1 P s * n0))) := by
  have h1 := xlen_lt hw hr
  refine ⟨assertR_ok rfl, ?_, ?_, ?_, ?_, ?_⟩
  · rw [mul_comm (cnt n1 P r)]; exact prod2_ok o _ _ (lt_usize h1)
  · rw [swap_xPen]; exact zipSet_zeroVec (by simp [mk2])
  · rw [mul_comm n1]; exact prod2_ok o _ _ (lt_usize hw)
  · simp only [mul_comm _ n0]; exact countsX o hg.pos hw
  · intro buf hb
    refine partition_ok (by rw [hb, mul_comm]; exact hw) (fun s hs => ?_)
    rw [hb, ← Nat.add_mul]; exact Nat.mul_le_mul_right _ (off_cnt_le hs)

include hg hw in
/-- local preparation of `gather_y` and relatives -/
theorem prepY {r : ℕ} (hr : r < P) (f : ℕ → ℕ → T) :
    checkShape (yPen n0 n1 P r f) (decompOf n0 n1 P r).yPencil.sz = ok () ∧
    (decompOf n0 n1 P r).yPencil.length o = ok (cnt n0 P r * n1) ∧
    zipSet id (yPen n0 n1 P r f).data (Decomp2d.zeroVec (cnt n0 P r * n1))
      = (mk2 (cnt n0 P r) n1 (fun i j => f (off n0 P r + i) j)).data ∧
    o.prod (decompOf n0 n1 P r).nGlobal = ok (n0 * n1) ∧
    (decompOf n0 n1 P r).yPencil.countsAllGather o
      = ok ((List.range P).map (fun s => ((cnt n0 P s * n1 : ℕ) : ℤ)),
        (List.range P).map (fun s => ((off n0 P s * n1 : ℕ) : ℤ))) ∧
    ∀ buf : List T, buf.length = n0 * n1 →
      partition buf ((List.range P).map (fun s => ((cnt n0 P s * n1 : ℕ) : ℤ)))
        ((List.range P).map (fun s => ((off n0 P s * n1 : ℕ) : ℤ)))
        = ok ((List.range P).map (fun s => (off n0 P s * n1, cnt n0 P s * n1))) := by
  have h1 := ylen_lt hw hr
  refine ⟨assertR_ok rfl, ?_, ?_, ?_, ?_, ?_⟩
  · exact prod2_ok o _ _ (lt_usize h1)
  · exact zipSet_zeroVec (by simp [yPen, mk2])
  · exact prod2_ok o _ _ (lt_usize hw)
  · exact countsY o hg.pos hw
  · intro buf hb
    refine partition_ok (by rw [hb]; exact hw) (fun s hs => ?_)
    rw [hb, ← Nat.add_mul]; exact Nat.mul_le_mul_right _ (off_cnt_le hs)

include hg hw in
theorem gatherX_runs (f : ℕ → ℕ → T) (rcv : Arr T) (hrcv : Good rcv [n0, n1]) :
    Runs P (fun r => if r = 0
        then (decompOf n0 n1 P r).gatherXInplaceRoot o (xPen n0 n1 P r f) rcv >>= fun a => pure (some a)
        else (decompOf n0 n1 P r).gatherX o (xPen n0 n1 P r f) >>= fun _ => pure none)
      (fun r => if r = 0 then some (mk2 n0 n1 f) else none) := by
  obtain ⟨R, ⟨hl, hR⟩, hruns⟩ := gatherV_runs (T := T) (P := P) (C := fun s => cnt n1 P s * n0)
    (D := fun s => off n1 P s * n0)
    (send := fun s => (mk2 (cnt n1 P s) n0 (fun j i => f i (off n1 P s + j))).data) (L := n1 * n0)
    hg.pos (fun s => by rw [off_succ, Nat.add_mul]) (by rw [off_P _ hg.pos]) (fun s _ => by simp [mk2])
    (fun s hs => by rw [mul_comm]; exact xlen_lt hw hs)
  have e : R = (mk2 n1 n0 (fun j i => f i j)).data := rows_concat hg.pos hl _ hR
  refine (hruns (fun r => if r = 0 then some (mk2 n0 n1 f) else none)
    (fun b => liftM (checkShape rcv [n0, n1]) >>= fun _ => pure (some (Decomp2d.copySwapped rcv b)))
    ?_).congr (fun r hr => ?_) (fun _ _ => rfl)
  · have : checkShape rcv [n0, n1] = ok () := assertR_ok hrcv.2.2
    rw [e, copySwapped_mk2 hrcv, this]
    rfl
  · obtain ⟨s1, s2, s3, s4, s5, s6⟩ := prepX o hg hw hr f
    by_cases hr0 : r = 0
    · simp only [if_pos hr0]
      unfold Decomp2d.gatherXInplaceRoot
      have sr : assertR ((decompOf n0 n1 P r).nrank = 0) = ok () := assertR_ok hr0
      rw [s1, s2, sr, s4, s5]
      simp only [liftM_ok, ret_ok_bind]
      rw [s3, s6 _ (zeroVec_length _)]
      simp only [liftM_ok, ret_ok_bind]
      have hsl : slice (mk2 (cnt n1 P r) n0 (fun j i => f i (off n1 P r + j))).data = ok () := by
        refine slice_ok ?_
        have := xlen_lt hw hr
        rw [mul_comm] at this
        simpa [mk2] using this
      unfold gatherVRoot
      rw [hsl, show (decompOf n0 n1 P r).nprocs = P from rfl, parts_ok]
      have : checkShape rcv [n0, n1] = ok () := assertR_ok hrcv.2.2
      rw [show (decompOf n0 n1 P r).nGlobal = [n0, n1] from rfl, this]
      rfl
    · simp only [if_neg hr0]
      unfold Decomp2d.gatherX
      have sr : assertR ((decompOf n0 n1 P r).nrank ≠ 0) = ok () := assertR_ok hr0
      rw [s1, s2, sr]
      simp only [liftM_ok, ret_ok_bind]
      rw [s3]

include hg hw in
theorem gatherY_runs (f : ℕ → ℕ → T) (rcv : Arr T) (hrcv : Good rcv [n0, n1]) :
    Runs P (fun r => if r = 0
        then (decompOf n0 n1 P r).gatherYInplaceRoot o (yPen n0 n1 P r f) rcv >>= fun a => pure (some a)
        else (decompOf n0 n1 P r).gatherY o (yPen n0 n1 P r f) >>= fun _ => pure none)
      (fun r => if r = 0 then some (mk2 n0 n1 f) else none) := by
  obtain ⟨R, ⟨hl, hR⟩, hruns⟩ := gatherV_runs (T := T) (P := P) (C := fun s => cnt n0 P s * n1)
    (D := fun s => off n0 P s * n1)
    (send := fun s => (mk2 (cnt n0 P s) n1 (fun i j => f (off n0 P s + i) j)).data) (L := n0 * n1)
    hg.pos (fun s => by rw [off_succ, Nat.add_mul]) (by rw [off_P _ hg.pos]) (fun s _ => by simp [mk2])
    (fun s hs => ylen_lt hw hs)
  have e : R = (mk2 n0 n1 f).data := rows_concat hg.pos hl _ hR
  refine (hruns (fun r => if r = 0 then some (mk2 n0 n1 f) else none)
    (fun b => liftM (checkShape rcv [n0, n1]) >>= fun _ => pure (some (Decomp2d.copyPlain rcv b)))
    ?_).congr (fun r hr => ?_) (fun _ _ => rfl)
  · have : checkShape rcv [n0, n1] = ok () := assertR_ok hrcv.2.2
    rw [e, copyPlain_mk2 hrcv, this]
    rfl
  · obtain ⟨s1, s2, s3, s4, s5, s6⟩ := prepY o hg hw hr f
    by_cases hr0 : r = 0
    · simp only [if_pos hr0]
      unfold Decomp2d.gatherYInplaceRoot
      have sr : assertR ((decompOf n0 n1 P r).nrank = 0) = ok () := assertR_ok hr0
      rw [s1, s2, sr, s4, s5]
      simp only [liftM_ok, ret_ok_bind]
      rw [s3, s6 _ (zeroVec_length _)]
      simp only [liftM_ok, ret_ok_bind]
      have hsl : slice (mk2 (cnt n0 P r) n1 (fun i j => f (off n0 P r + i) j)).data = ok () := by
        refine slice_ok ?_
        have := ylen_lt hw hr
        simpa [mk2] using this
      unfold gatherVRoot
      rw [hsl, show (decompOf n0 n1 P r).nprocs = P from rfl, parts_ok]
      have : checkShape rcv [n0, n1] = ok () := assertR_ok hrcv.2.2
      rw [show (decompOf n0 n1 P r).nGlobal = [n0, n1] from rfl, this]
      rfl
    · simp only [if_neg hr0]
      unfold Decomp2d.gatherY
      have sr : assertR ((decompOf n0 n1 P r).nrank ≠ 0) = ok () := assertR_ok hr0
      rw [s1, s2, sr]
      simp only [liftM_ok, ret_ok_bind]
      rw [s3]

include hg hw in
theorem scatterX_runs (f : ℕ → ℕ → T) (rcv : ℕ → Arr T)
    (hrcv : ∀ r < P, Good (rcv r) [n0, cnt n1 P r]) :
    Runs P (fun r => if r = 0
        then (decompOf n0 n1 P r).scatterXInplaceRoot o (mk2 n0 n1 f) (rcv r)
        else (decompOf n0 n1 P r).scatterXInplace o (rcv r))
      (fun r => xPen n0 n1 P r f) := by
  refine (scatterV_runs (T := T) (P := P) (C := fun s => cnt n1 P s * n0)
    (D := fun s => off n1 P s * n0) (send := (mk2 n1 n0 (fun j i => f i j)).data) hg.pos
    (fun s hs => by
      simp only [mk2, List.length_map, List.length_range]
      rw [← Nat.add_mul]; exact Nat.mul_le_mul_right _ (off_cnt_le hs))
    (fun s hs => by rw [mul_comm]; exact xlen_lt hw hs)
    (fun r => xPen n0 n1 P r f) (fun r b => pure (Decomp2d.copySwapped (rcv r) b)) ?_).congr
    (fun r hr => ?_) (fun _ _ => rfl)
  · intro r hr
    rw [rows_block hr, copySwapped_mk2 (hrcv r hr) (fun i j => f i (off n1 P r + j))]
    rfl
  · obtain ⟨s1, s2, s3, s4, s5, s6⟩ := prepX o hg hw hr f
    have sc : checkShape (rcv r) (decompOf n0 n1 P r).xPencil.sz = ok () := assertR_ok (hrcv r hr).2.2
    by_cases hr0 : r = 0
    · simp only [if_pos hr0]
      unfold Decomp2d.scatterXInplaceRoot
      have sr : assertR ((decompOf n0 n1 P r).nrank = 0) = ok () := assertR_ok hr0
      have sg : checkShape (mk2 n0 n1 f) (decompOf n0 n1 P r).nGlobal = ok () := assertR_ok rfl
      have sz : zipSet id (swapAxes (mk2 n0 n1 f)).data (Decomp2d.zeroVec (n1 * n0))
          = (mk2 n1 n0 (fun j i => f i j)).data := by
        rw [swapAxes_mk2]; exact zipSet_zeroVec (by simp [mk2])
      rw [sg, sc, s2, sr, s4, s5]
      simp only [liftM_ok, ret_ok_bind]
      rw [sz, s6 _ (by simp [mk2])]
      simp only [liftM_ok, ret_ok_bind]
      rfl
    · simp only [if_neg hr0]
      unfold Decomp2d.scatterXInplace
      have sr : assertR ((decompOf n0 n1 P r).nrank ≠ 0) = ok () := assertR_ok hr0
      rw [sc, s2, sr]
      simp only [liftM_ok, ret_ok_bind]

include hg hw in
theorem scatterY_runs (f : ℕ → ℕ → T) (rcv : ℕ → Arr T)
    (hrcv : ∀ r < P, Good (rcv r) [cnt n0 P r, n1]) :
    Runs P (fun r => if r = 0
        then (decompOf n0 n1 P r).scatterYInplaceRoot o (mk2 n0 n1 f) (rcv r)
        else (decompOf n0 n1 P r).scatterYInplace o (rcv r))
      (fun r => yPen n0 n1 P r f) := by
  refine (scatterV_runs (T := T) (P := P) (C := fun s => cnt n0 P s * n1)
    (D := fun s => off n0 P s * n1) (send := (mk2 n0 n1 f).data) hg.pos
    (fun s hs => by
      simp only [mk2, List.length_map, List.length_range]
      rw [← Nat.add_mul]; exact Nat.mul_le_mul_right _ (off_cnt_le hs))
    (fun s hs => ylen_lt hw hs)
    (fun r => yPen n0 n1 P r f) (fun r b => pure (Decomp2d.copyPlain (rcv r) b)) ?_).congr
    (fun r hr => ?_) (fun _ _ => rfl)
  · intro r hr
    rw [rows_block hr, copyPlain_mk2 (hrcv r hr)]
    rfl
  · obtain ⟨s1, s2, s3, s4, s5, s6⟩ := prepY o hg hw hr f
    have sc : checkShape (rcv r) (decompOf n0 n1 P r).yPencil.sz = ok () := assertR_ok (hrcv r hr).2.2
    by_cases hr0 : r = 0
    · simp only [if_pos hr0]
      unfold Decomp2d.scatterYInplaceRoot
      have sr : assertR ((decompOf n0 n1 P r).nrank = 0) = ok () := assertR_ok hr0
      have sg : checkShape (mk2 n0 n1 f) (decompOf n0 n1 P r).nGlobal = ok () := assertR_ok rfl
      have sz : zipSet id (mk2 n0 n1 f).data (Decomp2d.zeroVec (n0 * n1))
          = (mk2 n0 n1 f).data := zipSet_zeroVec (by simp [mk2])
      rw [sg, sc, s2, sr, s4, s5]
      simp only [liftM_ok, ret_ok_bind]
      rw [sz, s6 _ (by simp [mk2])]
      simp only [liftM_ok, ret_ok_bind]
      rfl
    · simp only [if_neg hr0]
      unfold Decomp2d.scatterYInplace
      have sr : assertR ((decompOf n0 n1 P r).nrank ≠ 0) = ok () := assertR_ok hr0
      rw [sc, s2, sr]
      simp only [liftM_ok, ret_ok_bind]

include hg hw in
theorem allGatherX_runs (f : ℕ → ℕ → T) (rcv : ℕ → Arr T) (hrcv : ∀ r < P, Good (rcv r) [n0, n1]) :
    Runs P (fun r => (decompOf n0 n1 P r).allGatherX o (xPen n0 n1 P r f) (rcv r))
      (fun _ => mk2 n0 n1 f) := by
  obtain ⟨R, hruns, hR⟩ := allGatherV_runs (T := T) (P := P) (C := fun s => cnt n1 P s * n0)
    (D := fun s => off n1 P s * n0)
    (send := fun s => (mk2 (cnt n1 P s) n0 (fun j i => f i (off n1 P s + j))).data) (L := n1 * n0)
    (fun s => by rw [off_succ, Nat.add_mul]) (by rw [off_P _ hg.pos]) (fun s _ => by simp [mk2])
    (fun s hs => by rw [mul_comm]; exact xlen_lt hw hs)
  refine (Runs.bind hruns (q := fun r b => pure (Decomp2d.copySwapped (rcv r) b))
    (b := fun _ => mk2 n0 n1 f) (.done (fun r hr => ?_))).congr (fun r hr => ?_) (fun _ _ => rfl)
  · obtain ⟨hl, hRr⟩ := hR r hr
    have e : R r = (mk2 n1 n0 (fun j i => f i j)).data := rows_concat hg.pos hl _ hRr
    rw [e, copySwapped_mk2 (hrcv r hr)]
    rfl
  · obtain ⟨s1, s2, s3, s4, s5, s6⟩ := prepX o hg hw hr f
    have sc : checkShape (rcv r) (decompOf n0 n1 P r).nGlobal = ok () := assertR_ok (hrcv r hr).2.2
    unfold Decomp2d.allGatherX
    rw [s1, sc, s2, s4, s5]
    simp only [liftM_ok, ret_ok_bind]
    rw [s3, s6 _ (zeroVec_length _)]
    simp only [liftM_ok, ret_ok_bind]
    rfl

include hg hw in
theorem allGatherY_runs (f : ℕ → ℕ → T) (rcv : ℕ → Arr T) (hrcv : ∀ r < P, Good (rcv r) [n0, n1]) :
    Runs P (fun r => (decompOf n0 n1 P r).allGatherY o (yPen n0 n1 P r f) (rcv r))
      (fun _ => mk2 n0 n1 f) := by
  obtain ⟨R, hruns, hR⟩ := allGatherV_runs (T := T) (P := P) (C := fun s => cnt n0 P s * n1)
    (D := fun s => off n0 P s * n1)
    (send := fun s => (mk2 (cnt n0 P s) n1 (fun i j => f (off n0 P s + i) j)).data) (L := n0 * n1)
    (fun s => by rw [off_succ, Nat.add_mul]) (by rw [off_P _ hg.pos]) (fun s _ => by simp [mk2])
    (fun s hs => ylen_lt hw hs)
  refine (Runs.bind hruns (q := fun r b => pure (Decomp2d.copyPlain (rcv r) b))
    (b := fun _ => mk2 n0 n1 f) (.done (fun r hr => ?_))).congr (fun r hr => ?_) (fun _ _ => rfl)
  · obtain ⟨hl, hRr⟩ := hR r hr
    have e : R r = (mk2 n0 n1 f).data := rows_concat hg.pos hl _ hRr
    rw [e, copyPlain_mk2 (hrcv r hr)]
    rfl
  · obtain ⟨s1, s2, s3, s4, s5, s6⟩ := prepY o hg hw hr f
    have sc : checkShape (rcv r) (decompOf n0 n1 P r).nGlobal = ok () := assertR_ok (hrcv r hr).2.2
    unfold Decomp2d.allGatherY
    rw [s1, sc, s2, s4, s5]
    simp only [liftM_ok, ret_ok_bind]
    rw [s3, s6 _ (zeroVec_length _)]
    simp only [liftM_ok, ret_ok_bind]
    rfl

end Methods

end Verif
