/- Lock step runs of the transposes. -/
import Verif.Proof.Pencil
import Verif.Spec.Mpi

namespace Verif
open Res Spec Mpi

/-- the decomposition of rank `r` -/
def decompOf (n0 n1 P r : ℕ) : Decomp2d :=
  ⟨P, r, [n0, n1],
    ⟨[n0, cnt n1 P r], [0, off n1 P r], [n0 - 1, off n1 P (r + 1) - 1],
      (List.range P).map (fun s => [n0, cnt n1 P s]), (List.range P).map (fun s => [0, off n1 P s]),
      (List.range P).map (fun s => [n0 - 1, off n1 P (s + 1) - 1]), P, r, 0⟩,
    ⟨[cnt n0 P r, n1], [off n0 P r, 0], [off n0 P (r + 1) - 1, n1 - 1],
      (List.range P).map (fun s => [cnt n0 P s, n1]), (List.range P).map (fun s => [off n0 P s, 0]),
      (List.range P).map (fun s => [off n0 P (s + 1) - 1, n1 - 1]), P, r, 1⟩⟩

theorem Decomp2d.new_ok (o : Mode) {n0 n1 P r : ℕ} (hg : Grid n0 n1 P) (hr : r < P) :
    Decomp2d.new o P r [n0, n1] = ok (decompOf n0 n1 P r) := by
  have hlt : ∀ i < ([n0, n1] : List ℕ).length, i = 0 ∨ i = 1 := by
    intro i hi
    have : i < 2 := hi
    omega
  have a0 := hg.le0
  have a1 := hg.le1
  have a2 := hg.w0
  have a3 := hg.w1
  have a4 := hg.pos
  unfold Decomp2d.new
  rw [Dist.new_ok o hr (by omega), bind_ok, Dist.new_ok o hr (by omega), bind_ok]
  · rfl
  · intro i hi _
    rcases hlt i hi with rfl | rfl
    · exact a0
    · exact a1
  · intro i hi
    rcases hlt i hi with rfl | rfl
    · exact a4.trans_le a0
    · exact a4.trans_le a1
  · intro i hi
    rcases hlt i hi with rfl | rfl
    · exact a2
    · exact a3
  · intro i hi _
    rcases hlt i hi with rfl | rfl
    · exact a0
    · exact a1
  · intro i hi
    rcases hlt i hi with rfl | rfl
    · exact a4.trans_le a0
    · exact a4.trans_le a1
  · intro i hi
    rcases hlt i hi with rfl | rfl
    · exact a2
    · exact a3

section Counts
variable (o : Mode) {n0 n1 P r : ℕ}

theorem prod2_ok (a b : ℕ) (h : a * b < usizeW) : o.prod [a, b] = ok (a * b) := by
  change (ok a >>= fun x => o.mul x b) = _
  rw [bind_ok, o.mul_ok h]

theorem toI32_ok {x : ℕ} (h : x < 2 ^ 31) : toI32 x = (x : ℤ) := toI32_of_lt h

theorem lt_usize {x : ℕ} (h : x < 2 ^ 31) : x < usizeW := lt_trans h (by norm_num)

theorem cnt_le {n P i : ℕ} (hi : i < P) : cnt n P i ≤ n := by
  have := off_cnt_le (n := n) hi; omega

theorem countsXY (hP : 0 < P) (hr : r < P) (hx : n0 * cnt n1 P r < 2 ^ 31) :
    (decompOf n0 n1 P r).xPencil.countsAllToAll o (decompOf n0 n1 P r).yPencil
      = ok ((List.range P).map (fun s => ((cnt n0 P s * cnt n1 P r : ℕ) : ℤ)),
        (List.range P).map (fun s => ((off n0 P s * cnt n1 P r : ℕ) : ℤ))) := by
  unfold Dist.countsAllToAll
  have e1 : mapR (fun x => do
      pure (toI32 (← o.mul (← rdC x (decompOf n0 n1 P r).xPencil.axisContig)
        (← rdC (decompOf n0 n1 P r).xPencil.sz (decompOf n0 n1 P r).yPencil.axisContig))))
      (decompOf n0 n1 P r).yPencil.szProcs
      = ok ((List.range P).map (fun s => ((cnt n0 P s * cnt n1 P r : ℕ) : ℤ))) := by
    change mapR _ ((List.range P).map (fun s => [cnt n0 P s, n1])) = _
    rw [mapR_ok (g := fun x => ((x.getD 0 0 * cnt n1 P r : ℕ) : ℤ))]
    · rw [List.map_map]; rfl
    · intro x hx'
      obtain ⟨s, hs, rfl⟩ := List.mem_map.1 hx'
      have hs := List.mem_range.1 hs
      have hle : cnt n0 P s * cnt n1 P r < 2 ^ 31 :=
        lt_of_le_of_lt (Nat.mul_le_mul_right _ (cnt_le hs)) hx
      change (o.mul (cnt n0 P s) (cnt n1 P r) >>= fun y => pure (toI32 y)) = _
      rw [o.mul_ok (lt_usize hle), bind_ok, toI32_ok hle]
      rfl
  rw [e1, bind_ok]
  have e2 := displs_ok o (c := fun s => cnt n0 P s * cnt n1 P r)
    (D := fun s => off n0 P s * cnt n1 P r) (fun s => by rw [off_succ, Nat.add_mul]) P 0
    (fun s hs => lt_of_le_of_lt (Nat.mul_le_mul_right _ (off_le hP (by omega))) hx)
  rw [off_zero, Nat.zero_mul, ← List.range_eq_range'] at e2
  change (Dist.displs o ((0 : ℕ) : ℤ) _ >>= _) = _
  rw [e2, bind_ok]
  rfl

theorem countsYX (hP : 0 < P) (hr : r < P) (hy : cnt n0 P r * n1 < 2 ^ 31) :
    (decompOf n0 n1 P r).yPencil.countsAllToAll o (decompOf n0 n1 P r).xPencil
      = ok ((List.range P).map (fun s => ((cnt n1 P s * cnt n0 P r : ℕ) : ℤ)),
        (List.range P).map (fun s => ((off n1 P s * cnt n0 P r : ℕ) : ℤ))) := by
  rw [mul_comm] at hy
  unfold Dist.countsAllToAll
  have e1 : mapR (fun x => do
      pure (toI32 (← o.mul (← rdC x (decompOf n0 n1 P r).yPencil.axisContig)
        (← rdC (decompOf n0 n1 P r).yPencil.sz (decompOf n0 n1 P r).xPencil.axisContig))))
      (decompOf n0 n1 P r).xPencil.szProcs
      = ok ((List.range P).map (fun s => ((cnt n1 P s * cnt n0 P r : ℕ) : ℤ))) := by
    change mapR _ ((List.range P).map (fun s => [n0, cnt n1 P s])) = _
    rw [mapR_ok (g := fun x => ((x.getD 1 0 * cnt n0 P r : ℕ) : ℤ))]
    · rw [List.map_map]; rfl
    · intro x hx'
      obtain ⟨s, hs, rfl⟩ := List.mem_map.1 hx'
      have hs := List.mem_range.1 hs
      have hle : cnt n1 P s * cnt n0 P r < 2 ^ 31 :=
        lt_of_le_of_lt (Nat.mul_le_mul_right _ (cnt_le hs)) hy
      change (o.mul (cnt n1 P s) (cnt n0 P r) >>= fun y => pure (toI32 y)) = _
      rw [o.mul_ok (lt_usize hle), bind_ok, toI32_ok hle]
      rfl
  rw [e1, bind_ok]
  have e2 := displs_ok o (c := fun s => cnt n1 P s * cnt n0 P r)
    (D := fun s => off n1 P s * cnt n0 P r) (fun s => by rw [off_succ, Nat.add_mul]) P 0
    (fun s hs => lt_of_le_of_lt (Nat.mul_le_mul_right _ (off_le hP (by omega))) hy)
  rw [off_zero, Nat.zero_mul, ← List.range_eq_range'] at e2
  change (Dist.displs o ((0 : ℕ) : ℤ) _ >>= _) = _
  rw [e2, bind_ok]
  rfl

theorem countsX (hP : 0 < P) (hw : n0 * n1 < 2 ^ 31) :
    (decompOf n0 n1 P r).xPencil.countsAllGather o
      = ok ((List.range P).map (fun s => ((n0 * cnt n1 P s : ℕ) : ℤ)),
        (List.range P).map (fun s => ((n0 * off n1 P s : ℕ) : ℤ))) := by
  unfold Dist.countsAllGather
  have e1 : mapR (fun x => do pure (toI32 (← o.prod x))) (decompOf n0 n1 P r).xPencil.szProcs
      = ok ((List.range P).map (fun s => ((n0 * cnt n1 P s : ℕ) : ℤ))) := by
    change mapR _ ((List.range P).map (fun s => [n0, cnt n1 P s])) = _
    rw [mapR_ok (g := fun x => ((n0 * x.getD 1 0 : ℕ) : ℤ))]
    · rw [List.map_map]; rfl
    · intro x hx'
      obtain ⟨s, hs, rfl⟩ := List.mem_map.1 hx'
      have hs := List.mem_range.1 hs
      have hle : n0 * cnt n1 P s < 2 ^ 31 :=
        lt_of_le_of_lt (Nat.mul_le_mul_left _ (cnt_le hs)) hw
      change (o.prod [n0, cnt n1 P s] >>= fun y => pure (toI32 y)) = _
      rw [prod2_ok o _ _ (lt_usize hle), bind_ok, toI32_ok hle]
      rfl
  rw [e1, bind_ok]
  have e2 := displs_ok o (c := fun s => n0 * cnt n1 P s)
    (D := fun s => n0 * off n1 P s) (fun s => by rw [off_succ, Nat.mul_add]) P 0
    (fun s hs => lt_of_le_of_lt (Nat.mul_le_mul_left _ (off_le hP (by omega))) hw)
  rw [off_zero, Nat.mul_zero, ← List.range_eq_range'] at e2
  change (Dist.displs o ((0 : ℕ) : ℤ) _ >>= _) = _
  rw [e2, bind_ok]
  rfl

theorem countsY (hP : 0 < P) (hw : n0 * n1 < 2 ^ 31) :
    (decompOf n0 n1 P r).yPencil.countsAllGather o
      = ok ((List.range P).map (fun s => ((cnt n0 P s * n1 : ℕ) : ℤ)),
        (List.range P).map (fun s => ((off n0 P s * n1 : ℕ) : ℤ))) := by
  unfold Dist.countsAllGather
  have e1 : mapR (fun x => do pure (toI32 (← o.prod x))) (decompOf n0 n1 P r).yPencil.szProcs
      = ok ((List.range P).map (fun s => ((cnt n0 P s * n1 : ℕ) : ℤ))) := by
    change mapR _ ((List.range P).map (fun s => [cnt n0 P s, n1])) = _
    rw [mapR_ok (g := fun x => ((x.getD 0 0 * n1 : ℕ) : ℤ))]
    · rw [List.map_map]; rfl
    · intro x hx'
      obtain ⟨s, hs, rfl⟩ := List.mem_map.1 hx'
      have hs := List.mem_range.1 hs
      have hle : cnt n0 P s * n1 < 2 ^ 31 :=
        lt_of_le_of_lt (Nat.mul_le_mul_right _ (cnt_le hs)) hw
      change (o.prod [cnt n0 P s, n1] >>= fun y => pure (toI32 y)) = _
      rw [prod2_ok o _ _ (lt_usize hle), bind_ok, toI32_ok hle]
      rfl
  rw [e1, bind_ok]
  have e2 := displs_ok o (c := fun s => cnt n0 P s * n1)
    (D := fun s => off n0 P s * n1) (fun s => by rw [off_succ, Nat.add_mul]) P 0
    (fun s hs => lt_of_le_of_lt (Nat.mul_le_mul_right _ (off_le hP (by omega))) hw)
  rw [off_zero, Nat.zero_mul, ← List.range_eq_range'] at e2
  change (Dist.displs o ((0 : ℕ) : ℤ) _ >>= _) = _
  rw [e2, bind_ok]
  rfl

end Counts

section Transpose
variable {T : Type} [Zero T] (o : Mode) {n0 n1 P : ℕ}

/-- x-pencil of rank `r` of the global array with entries `f` -/
def xPen (n0 n1 P r : ℕ) (f : ℕ → ℕ → T) : Arr T :=
  mk2 n0 (cnt n1 P r) (fun i j => f i (off n1 P r + j))
/-- y-pencil of rank `r` of the global array with entries `f` -/
def yPen (n0 n1 P r : ℕ) (f : ℕ → ℕ → T) : Arr T :=
  mk2 (cnt n0 P r) n1 (fun i j => f (off n0 P r + i) j)

theorem block_nth {l : List T} {d c e : ℕ} (he : e < c) : nth (block l (d, c)) e = nth l (d + e) := by
  unfold block nth
  rw [List.getD_eq_getElem?_getD, List.getElem?_take_of_lt he, List.getElem?_drop,
    List.getD_eq_getElem?_getD]

omit [Zero T] in
theorem block_length {l : List T} {d c : ℕ} (h : d + c ≤ l.length) : (block l (d, c)).length = c := by
  unfold block; simp; omega

theorem nth_of_get {l l' : List T} {i j : ℕ} (h : l[i]? = l'[j]?) : nth l i = nth l' j := by
  unfold nth; rw [List.getD_eq_getElem?_getD, List.getD_eq_getElem?_getD, h]

/-- the all-to-all exchange with counts `C r s` and running sums `D r s` -/
theorem allToAll_runs {C D : ℕ → ℕ → ℕ} {send : ℕ → List T} {L Ls : ℕ → ℕ}
    (hD : ∀ r s, D r (s + 1) = D r s + C r s) (hD0 : ∀ r, D r P ≤ L r)
    {E : ℕ → ℕ → ℕ} (hE : ∀ r s, s < P → r < P → E s r + C r s ≤ (send s).length) :
    ∃ R : ℕ → List T, Runs P (fun r => allToAllV P (send r)
        ((List.range P).map (fun s => (E r s, C s r)))
        (Decomp2d.zeroVec (L r)) ((List.range P).map (fun s => (D r s, C r s)))) R ∧
      ∀ r < P, (R r).length = L r ∧ ∀ s < P, ∀ e < C r s,
        nth (R r) (D r s + e) = nth (send s) (E s r + e) := by
  let cs : ℕ → Coll T := fun r => ⟨.allToAllV,
    fun s => (((List.range P).map (fun s => (E r s, C s r)))[s]?).map (block (send r)),
    fun s => ((List.range P).map (fun s => (D r s, C r s)))[s]?, Decomp2d.zeroVec (L r)⟩
  have ho : ∀ r < P, ∀ s < P, (cs s).out r = some (block (send s) (E s r, C r s)) := by
    intro r hr s hs
    change (((List.range P).map (fun x => (E s x, C x s)))[r]?).map (block (send s)) = _
    simp [hr]
  have hsl : ∀ r < P, ∀ s < P, (cs r).slot s = some (D r s, (block (send s) (E s r, C r s)).length) := by
    intro r hr s hs
    change ((List.range P).map (fun s => (D r s, C r s)))[s]? = _
    rw [block_length (hE r s hs hr)]
    simp [hs]
  have hm : Matched P cs := by
    refine matched_of_part (fun _ _ _ _ => rfl) (fun r hr => ?_)
    refine .all (D r) (fun s => block (send s) (E s r, C r s)) (hsl r hr) (ho r hr) ?_ ?_
    · intro s hs; rw [hD, block_length (hE r s hs hr)]
    · change D r P ≤ (Decomp2d.zeroVec (L r) : List T).length
      simpa [Decomp2d.zeroVec] using hD0 r
  refine ⟨fun r => recvAll P cs r, ?_, ?_⟩
  · refine (Runs.call hm).congr (fun r hr => ?_) (fun _ _ => rfl)
    unfold allToAllV
    rw [parts_ok, parts_ok]
    rfl
  · intro r hr
    refine ⟨by rw [recvAll_length hm hr]; simp [cs, Decomp2d.zeroVec], ?_⟩
    intro s hs e he
    have hl := block_length (hE r s hs hr)
    have := recvAll_get hm hr hs (hsl r hr s hs) (ho r hr s hs) (e := e) (by rw [hl]; exact he)
    rw [nth_of_get this, block_nth he]

variable (hg : Grid n0 n1 P)

include hg in
theorem transposeXY_runs (hx : ∀ r < P, n0 * cnt n1 P r < 2 ^ 31)
    (hy : ∀ r < P, cnt n0 P r * n1 < 2 ^ 31) (f : ℕ → ℕ → T) (rcv : ℕ → Arr T)
    (hrcv : ∀ r < P, Good (rcv r) [cnt n0 P r, n1]) :
    Runs P (fun r => (decompOf n0 n1 P r).transposeXToY o (xPen n0 n1 P r f) (rcv r))
      (fun r => yPen n0 n1 P r f) := by
  have hP := hg.pos
  obtain ⟨R, hR, hRs⟩ := allToAll_runs (T := T) (P := P) (C := fun r s => cnt n1 P s * cnt n0 P r)
    (D := fun r s => off n1 P s * cnt n0 P r) (send := fun s => (xPen n0 n1 P s f).data)
    (L := fun r => cnt n0 P r * n1) (Ls := fun r => 0)
    (fun r s => by rw [off_succ, Nat.add_mul]) (fun r => by rw [off_P _ hP, mul_comm])
    (E := fun s r => off n0 P r * cnt n1 P s)
    (fun r s hs hr => by
      have e1 : (xPen n0 n1 P s f).data.length = n0 * cnt n1 P s := by simp [xPen, mk2]
      rw [e1, mul_comm (cnt n1 P s), ← Nat.add_mul, ← off_succ]
      exact Nat.mul_le_mul_right _ (off_le hP hr))
  have hmain : Runs P (fun r => allToAllV P (xPen n0 n1 P r f).data
        ((List.range P).map (fun s => (off n0 P s * cnt n1 P r, cnt n0 P s * cnt n1 P r)))
        (Decomp2d.zeroVec (cnt n0 P r * n1))
        ((List.range P).map (fun s => (off n1 P s * cnt n0 P r, cnt n1 P s * cnt n0 P r))) >>=
        fun b => liftM ((decompOf n0 n1 P r).mergeXy o (rcv r) b)) (fun r => yPen n0 n1 P r f) := by
    refine Runs.bind (hR.congr (fun r _ => ?_) (fun _ _ => rfl)) ?_
    · congr 2
      funext s; rw [mul_comm (cnt n0 P s)]
    refine .done (fun r hr => ?_)
    obtain ⟨hl, hRr⟩ := hRs r hr
    obtain ⟨w1, w2, w3⟩ := hrcv r hr
    have hL : (rcv r).data.length = cnt n0 P r * n1 := by rw [w1, w3]; simp
    obtain ⟨b, p, hb, b1, b2, b3, b4⟩ := merge_loop (T := T) o (P := P) (c := cnt n0 P r) (n := n1)
      (off := off n1 P) (cnt := cnt n1 P) (off_zero _ _) (off_succ _ _) (off_P _ hP)
      (fun s _ => cnt_pos hP hg.le1 s) [cnt n0 P r, n1] (cnt n0 P r * n1) (fun i j => i * n1 + j)
      wr2 (fun a ha hal i hi j hj x => wr2_ok ha hal hi hj x)
      (fun i _ j hj i' _ j' hj' h => idx2_inj hj hj' h) (fun i hi j hj => idx2_lt hi hj)
      (R r) (by rw [hl, mul_comm]) (by rw [mul_comm]; exact lt_usize (hy r hr))
      (fun i j => f (off n0 P r + i) j)
      (by
        intro s hs i hi j hj
        rw [hRr s hs (i * cnt n1 P s + j) (by rw [mul_comm (cnt n1 P s) (cnt n0 P r)]; exact idx2_lt hi hj)]
        have : off n0 P r * cnt n1 P s + (i * cnt n1 P s + j)
            = (off n0 P r + i) * cnt n1 P s + j := by ring
        rw [this]
        exact nth_mk2 _ (by have := off_cnt_le (n := n0) hr; omega) hj)
      (fun proc s => do
        let j1 ← rdC (← rdC (decompOf n0 n1 P r).xPencil.stProcs proc) 1
        let j2 ← rdC (← rdC (decompOf n0 n1 P r).xPencil.enProcs proc) 1
        let n ← rdC (decompOf n0 n1 P r).yPencil.sz 0
        forRange 0 n (fun i s =>
          forRange j1 (j2 + 1) (fun j s => do
            let data ← wr2 s.1 i j (← rdC (R r) s.2)
            pure (data, ← o.add s.2 1)) s) s)
      (by
        intro s hs x
        dsimp only [decompOf]
        rw [rdC_map_range _ hs, bind_ok]
        change (rdC ((List.range P).map _) s >>= _) = _
        rw [rdC_map_range _ hs, bind_ok]
        rfl)
      (rcv r) w3 hL
    have : (decompOf n0 n1 P r).mergeXy o (rcv r) (R r) = ok b := by
      unfold Decomp2d.mergeXy
      change (forRange 0 P _ (rcv r, 0) >>= _) = _
      rw [hb]; rfl
    rw [this, liftM_ok]
    congr 2
    have hgb : Good b [cnt n0 P r, n1] := ⟨by unfold Arr.WF; rw [b1, b3]; simp, by rw [b2, w2], b1⟩
    rw [eq_mk2 hgb]
    refine mk2_congr (fun i hi j hj => ?_)
    have e : at_ b [i, j] = nth b.data (i * n1 + j) := by
      unfold at_; congr 1; rw [b1]; simp [flat]
    rw [e]; exact b4 i hi j hj
  refine hmain.congr (fun r hr => ?_) (fun _ _ => rfl)
  have hlen : (xPen n0 n1 P r f).data.length = n0 * cnt n1 P r := by simp [xPen, mk2]
  unfold Decomp2d.transposeXToY
  have s1 : checkShape (xPen n0 n1 P r f) (decompOf n0 n1 P r).xPencil.sz = ok () := assertR_ok rfl
  have s2 : checkShape (rcv r) (decompOf n0 n1 P r).yPencil.sz = ok () :=
    assertR_ok (hrcv r hr).2.2
  have s3 : (decompOf n0 n1 P r).xPencil.length o = ok (n0 * cnt n1 P r) :=
    prod2_ok o _ _ (lt_usize (hx r hr))
  have s4 : (decompOf n0 n1 P r).yPencil.length o = ok (cnt n0 P r * n1) :=
    prod2_ok o _ _ (lt_usize (hy r hr))
  have s5 : Decomp2d.splitXy (xPen n0 n1 P r f) (Decomp2d.zeroVec (n0 * cnt n1 P r))
      = (xPen n0 n1 P r f).data := zipSet_zeroVec hlen
  have s6 := partition_ok (buf := (xPen n0 n1 P r f).data) (P := P)
    (c := fun s => cnt n0 P s * cnt n1 P r) (D := fun s => off n0 P s * cnt n1 P r)
    (by rw [hlen]; exact hx r hr)
    (fun s hs => by
      rw [hlen, ← Nat.add_mul, ← off_succ]; exact Nat.mul_le_mul_right _ (off_le hP hs))
  have s7 := partition_ok (buf := (Decomp2d.zeroVec (cnt n0 P r * n1) : List T)) (P := P)
    (c := fun s => cnt n1 P s * cnt n0 P r) (D := fun s => off n1 P s * cnt n0 P r)
    (by simp [Decomp2d.zeroVec]; exact hy r hr)
    (fun s hs => by
      simp only [Decomp2d.zeroVec, List.length_replicate]
      rw [← Nat.add_mul, ← off_succ, mul_comm]; exact Nat.mul_le_mul_left _ (off_le hP hs))
  rw [s1, s2, s3, s4, countsXY o hP hr (hx r hr), countsYX o hP hr (hy r hr)]
  simp only [liftM_ok, ret_ok_bind]
  rw [s5, s6]
  simp only [liftM_ok, ret_ok_bind]
  rw [s7]
  simp only [liftM_ok, ret_ok_bind]
  rfl

include hg in
theorem transposeYX_runs (hx : ∀ r < P, n0 * cnt n1 P r < 2 ^ 31)
    (hy : ∀ r < P, cnt n0 P r * n1 < 2 ^ 31) (f : ℕ → ℕ → T) (rcv : ℕ → Arr T)
    (hrcv : ∀ r < P, Good (rcv r) [n0, cnt n1 P r]) :
    Runs P (fun r => (decompOf n0 n1 P r).transposeYToX o (yPen n0 n1 P r f) (rcv r))
      (fun r => xPen n0 n1 P r f) := by
  have hP := hg.pos
  have hsw : ∀ s, swapAxes (yPen n0 n1 P s f)
      = mk2 n1 (cnt n0 P s) (fun j i => f (off n0 P s + i) j) := fun s => swapAxes_mk2 _ _ _
  have hlen : ∀ s, (swapAxes (yPen n0 n1 P s f)).data.length = cnt n0 P s * n1 := by
    intro s; rw [hsw]; simp [mk2, mul_comm]
  obtain ⟨R, hR, hRs⟩ := allToAll_runs (T := T) (P := P) (C := fun r s => cnt n0 P s * cnt n1 P r)
    (D := fun r s => off n0 P s * cnt n1 P r) (send := fun s => (swapAxes (yPen n0 n1 P s f)).data)
    (L := fun r => n0 * cnt n1 P r) (Ls := fun r => 0)
    (fun r s => by rw [off_succ, Nat.add_mul]) (fun r => by rw [off_P _ hP])
    (E := fun s r => off n1 P r * cnt n0 P s)
    (fun r s hs hr => by
      rw [hlen, mul_comm (cnt n0 P s) (cnt n1 P r), ← Nat.add_mul, ← off_succ, mul_comm]
      exact Nat.mul_le_mul_left _ (off_le hP hr))
  have hmain : Runs P (fun r => allToAllV P (swapAxes (yPen n0 n1 P r f)).data
        ((List.range P).map (fun s => (off n1 P s * cnt n0 P r, cnt n1 P s * cnt n0 P r)))
        (Decomp2d.zeroVec (n0 * cnt n1 P r))
        ((List.range P).map (fun s => (off n0 P s * cnt n1 P r, cnt n0 P s * cnt n1 P r))) >>=
        fun b => liftM ((decompOf n0 n1 P r).mergeYx o (rcv r) b)) (fun r => xPen n0 n1 P r f) := by
    refine Runs.bind (hR.congr (fun r _ => ?_) (fun _ _ => rfl)) ?_
    · congr 2
      funext s; rw [mul_comm (cnt n1 P s)]
    refine .done (fun r hr => ?_)
    obtain ⟨hl, hRr⟩ := hRs r hr
    obtain ⟨w1, w2, w3⟩ := hrcv r hr
    have hL : (rcv r).data.length = n0 * cnt n1 P r := by rw [w1, w3]; simp
    obtain ⟨b, p, hb, b1, b2, b3, b4⟩ := merge_loop (T := T) o (P := P) (c := cnt n1 P r) (n := n0)
      (off := off n0 P) (cnt := cnt n0 P) (off_zero _ _) (off_succ _ _) (off_P _ hP)
      (fun s _ => cnt_pos hP hg.le0 s) [n0, cnt n1 P r] (n0 * cnt n1 P r)
      (fun j i => i * cnt n1 P r + j)
      (fun a j i x => wr2 a i j x) (fun a ha hal j hj i hi x => wr2_ok ha hal hi hj x)
      (fun j hj i _ j' hj' i' _ h => (idx2_inj hj hj' h).symm) (fun j hj i hi => idx2_lt hi hj)
      (R r) hl (lt_usize (hx r hr))
      (fun j i => f i (off n1 P r + j))
      (by
        intro s hs j hj i hi
        rw [hRr s hs (j * cnt n0 P s + i) (by rw [mul_comm (cnt n0 P s) (cnt n1 P r)]; exact idx2_lt hj hi)]
        have : off n1 P r * cnt n0 P s + (j * cnt n0 P s + i)
            = (off n1 P r + j) * cnt n0 P s + i := by ring
        rw [this, hsw]
        exact nth_mk2 _ (by have := off_cnt_le (n := n1) hr; omega) hi)
      (fun proc s => do
        let i1 ← rdC (← rdC (decompOf n0 n1 P r).yPencil.stProcs proc) 0
        let i2 ← rdC (← rdC (decompOf n0 n1 P r).yPencil.enProcs proc) 0
        let n ← rdC (decompOf n0 n1 P r).xPencil.sz 1
        forRange 0 n (fun j s =>
          forRange i1 (i2 + 1) (fun i s => do
            let data ← wr2 s.1 i j (← rdC (R r) s.2)
            pure (data, ← o.add s.2 1)) s) s)
      (by
        intro s hs x
        dsimp only [decompOf]
        rw [rdC_map_range _ hs, bind_ok]
        change (rdC ((List.range P).map _) s >>= _) = _
        rw [rdC_map_range _ hs, bind_ok]
        rfl)
      (rcv r) w3 hL
    have : (decompOf n0 n1 P r).mergeYx o (rcv r) (R r) = ok b := by
      unfold Decomp2d.mergeYx
      change (forRange 0 P _ (rcv r, 0) >>= _) = _
      rw [hb]; rfl
    rw [this, liftM_ok]
    congr 2
    have hgb : Good b [n0, cnt n1 P r] := ⟨by unfold Arr.WF; rw [b1, b3]; simp, by rw [b2, w2], b1⟩
    rw [eq_mk2 hgb]
    refine mk2_congr (fun i hi j hj => ?_)
    have e : at_ b [i, j] = nth b.data (i * cnt n1 P r + j) := by
      unfold at_; congr 1; rw [b1]; simp [flat]
    rw [e]; exact b4 j hj i hi
  refine hmain.congr (fun r hr => ?_) (fun _ _ => rfl)
  unfold Decomp2d.transposeYToX
  have s1 : checkShape (yPen n0 n1 P r f) (decompOf n0 n1 P r).yPencil.sz = ok () := assertR_ok rfl
  have s2 : checkShape (rcv r) (decompOf n0 n1 P r).xPencil.sz = ok () :=
    assertR_ok (hrcv r hr).2.2
  have s3 : (decompOf n0 n1 P r).xPencil.length o = ok (n0 * cnt n1 P r) :=
    prod2_ok o _ _ (lt_usize (hx r hr))
  have s4 : (decompOf n0 n1 P r).yPencil.length o = ok (cnt n0 P r * n1) :=
    prod2_ok o _ _ (lt_usize (hy r hr))
  have s5 : Decomp2d.splitYx (yPen n0 n1 P r f) (Decomp2d.zeroVec (cnt n0 P r * n1))
      = (swapAxes (yPen n0 n1 P r f)).data := zipSet_zeroVec (hlen r)
  have s6 := partition_ok (buf := (swapAxes (yPen n0 n1 P r f)).data) (P := P)
    (c := fun s => cnt n1 P s * cnt n0 P r) (D := fun s => off n1 P s * cnt n0 P r)
    (by rw [hlen]; exact hy r hr)
    (fun s hs => by
      rw [hlen, ← Nat.add_mul, ← off_succ, mul_comm]; exact Nat.mul_le_mul_left _ (off_le hP hs))
  have s7 := partition_ok (buf := (Decomp2d.zeroVec (n0 * cnt n1 P r) : List T)) (P := P)
    (c := fun s => cnt n0 P s * cnt n1 P r) (D := fun s => off n0 P s * cnt n1 P r)
    (by simp [Decomp2d.zeroVec]; exact hx r hr)
    (fun s hs => by
      simp only [Decomp2d.zeroVec, List.length_replicate]
      rw [← Nat.add_mul, ← off_succ]; exact Nat.mul_le_mul_right _ (off_le hP hs))
  rw [s1, s2, s3, s4, countsXY o hP hr (hx r hr), countsYX o hP hr (hy r hr)]
  simp only [liftM_ok, ret_ok_bind]
  rw [s5, s6]
  simp only [liftM_ok, ret_ok_bind]
  rw [s7]
  simp only [liftM_ok, ret_ok_bind]
  rfl

end Transpose

end Verif
