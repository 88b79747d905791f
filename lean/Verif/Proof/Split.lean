/- Splitting and assembling global arrays; scalar routines; the variants that allocate. -/
import Verif.Proof.Gather

namespace Verif
open Res Spec Mpi

theorem off_inj {n P s r j : ℕ} (h1 : off n P s ≤ j) (h2 : j < off n P (s + 1))
    (h3 : off n P r ≤ j) (h4 : j < off n P (r + 1)) : s = r := by
  rcases Nat.lt_trichotomy s r with h | h | h
  · have := off_mono n P (show s + 1 ≤ r by omega); omega
  · exact h
  · have := off_mono n P (show r + 1 ≤ s by omega); omega

section
variable {T : Type} [Zero T] {n0 n1 P r : ℕ}

theorem sliceIncl_ok {st en dim : ℕ} (h : en + 1 < usizeW) (h1 : st ≤ en + 1) (h2 : en + 1 ≤ dim) :
    Dist.sliceIncl st en dim = ok (st, en + 1 - st) := by
  unfold Dist.sliceIncl
  rw [if_neg (by omega)]
  dsimp only
  rw [assertR_ok ⟨h1, h2⟩]
  rfl

theorem window_of {d : Dist} {s0 s1 c0 c1 e0 e1 : ℕ} (hst : d.st = [s0, s1]) (hen : d.en = [e0, e1])
    (h0 : Dist.sliceIncl s0 e0 n0 = ok (s0, c0)) (h1 : Dist.sliceIncl s1 e1 n1 = ok (s1, c1))
    (g0 : s0 + c0 ≤ n0) (g1 : s1 + c1 ≤ n1) (f : ℕ → ℕ → T) :
    d.window (mk2 n0 n1 f) = ok (mk2 c0 c1 (fun i j => f (s0 + i) (s1 + j))) := by
  have e : d.window (mk2 n0 n1 f) = ok ⟨[c0, c1], (List.range (c0 * c1)).map
      (fun k => nth (mk2 n0 n1 f).data ((s0 + k / c1) * n1 + (s1 + k % c1))), true⟩ := by
    unfold Dist.window
    rw [hst, hen]
    change (Dist.sliceIncl s0 e0 n0 >>= fun s => (Dist.sliceIncl s1 e1 n1 >>= fun s' => _)) = _
    rw [h0, h1]
    rfl
  rw [e]
  conv_rhs => unfold mk2
  congr 2
  refine List.map_congr_left (fun k hk => ?_)
  have hk := List.mem_range.1 hk
  have hc : 0 < c1 := by
    rcases Nat.eq_zero_or_pos c1 with rfl | h
    · simp at hk
    · exact h
  have hi : k / c1 < c0 := Nat.div_lt_of_lt_mul (by rw [mul_comm]; exact hk)
  have hj : k % c1 < c1 := Nat.mod_lt _ hc
  exact nth_mk2 f (by omega) (by omega)

theorem splitX_ok (hg : Grid n0 n1 P) (hr : r < P) (f : ℕ → ℕ → T) :
    (decompOf n0 n1 P r).xPencil.window (mk2 n0 n1 f) = ok (xPen n0 n1 P r f) := by
  have h0 := hg.le0
  have h1 := hg.le1
  have hp := hg.pos
  have hw0 := hg.w0
  have hw1 := hg.w1
  have hc := cnt_pos hg.pos hg.le1 r
  have hl := off_cnt_le (n := n1) hr
  have hs := off_succ n1 P r
  have := window_of (d := (decompOf n0 n1 P r).xPencil) (n0 := n0) (n1 := n1) (c0 := n0)
    (c1 := cnt n1 P r) rfl rfl
    (by rw [sliceIncl_ok (by omega) (by omega) (by omega), show n0 - 1 + 1 - 0 = n0 by omega])
    (by rw [sliceIncl_ok (by omega) (by omega) (by omega),
        show off n1 P (r + 1) - 1 + 1 - off n1 P r = cnt n1 P r by omega]) (by omega) hl f
  simpa [xPen] using this

theorem splitY_ok (hg : Grid n0 n1 P) (hr : r < P) (f : ℕ → ℕ → T) :
    (decompOf n0 n1 P r).yPencil.window (mk2 n0 n1 f) = ok (yPen n0 n1 P r f) := by
  have h0 := hg.le0
  have h1 := hg.le1
  have hp := hg.pos
  have hw0 := hg.w0
  have hw1 := hg.w1
  have hc := cnt_pos hg.pos hg.le0 r
  have hl := off_cnt_le (n := n0) hr
  have hs := off_succ n0 P r
  have := window_of (d := (decompOf n0 n1 P r).yPencil) (n0 := n0) (n1 := n1) (c0 := cnt n0 P r)
    (c1 := n1) rfl rfl
    (by rw [sliceIncl_ok (by omega) (by omega) (by omega),
        show off n0 P (r + 1) - 1 + 1 - off n0 P r = cnt n0 P r by omega])
    (by rw [sliceIncl_ok (by omega) (by omega) (by omega), show n1 - 1 + 1 - 0 = n1 by omega])
    hl (by omega) f
  simpa [yPen] using this

/-- `split_array_inplace` writes the same data into an array of the right shape -/
theorem splitInplace_ok {d : Dist} {a w p : Arr T} {c0 c1 : ℕ} (hw : d.window a = ok w)
    (hs : Good w [c0, c1]) (hp : Good p [c0, c1]) : d.splitArrayInplace a p = ok w := by
  unfold Dist.splitArrayInplace
  rw [hw, bind_ok, hs.2.2, hp.2.2]
  change (assertR ((c0 = c0 ∨ c0 = 1) ∧ (c1 = c1 ∨ c1 = 1)) >>= _) = _
  rw [assertR_ok ⟨.inl rfl, .inl rfl⟩, bind_ok]
  simp only [if_true]
  have hwd : w.data.length = c0 * c1 := by
    have := hs.1; unfold Arr.WF at this; rw [this, hs.2.2]; simp
  change ok _ = _
  congr 1
  obtain ⟨psh, pd, pstd⟩ := p
  obtain ⟨wsh, wd, wstd⟩ := w
  have a1 : psh = [c0, c1] := hp.2.2
  have a2 : wsh = [c0, c1] := hs.2.2
  have a3 : pstd = true := hp.2.1
  have a4 : wstd = true := hs.2.1
  subst a1 a2 a3 a4
  change (⟨[c0, c1], _, true⟩ : Arr T) = _
  congr 1
  refine ext_nth (by simp [hwd]) (fun k hk => ?_)
  rw [List.length_map, List.length_range] at hk
  rw [nth_map_range _ _ _ hk]
  congr 1
  rw [mul_comm]; exact Nat.div_add_mod k c1

/-! ### assembling -/

theorem assembleX (hg : Grid n0 n1 P) {p : ℕ → Arr T} (hp : ∀ r < P, Good (p r) [n0, cnt n1 P r]) :
    ∃ f : ℕ → ℕ → T, ∀ r < P, p r = xPen n0 n1 P r f := by
  classical
  have hex : ∀ j, ∃ s, j < n1 → s < P ∧ off n1 P s ≤ j ∧ j < off n1 P (s + 1) := by
    intro j
    by_cases h : j < n1
    · obtain ⟨s, h⟩ := off_find hg.pos h; exact ⟨s, fun _ => h⟩
    · exact ⟨0, fun h' => absurd h' h⟩
  choose s hs using hex
  refine ⟨fun i j => at_ (p (s j)) [i, j - off n1 P (s j)], fun r hr => ?_⟩
  rw [eq_mk2 (hp r hr)]
  refine mk2_congr (fun i hi j hj => ?_)
  have hlt : off n1 P r + j < n1 := by have := off_cnt_le (n := n1) hr; omega
  obtain ⟨h1, h2, h3⟩ := hs _ hlt
  have : s (off n1 P r + j) = r := off_inj h2 h3 (by omega) (by rw [off_succ]; omega)
  dsimp only
  rw [this, Nat.add_sub_cancel_left]

theorem assembleY (hg : Grid n0 n1 P) {p : ℕ → Arr T} (hp : ∀ r < P, Good (p r) [cnt n0 P r, n1]) :
    ∃ f : ℕ → ℕ → T, ∀ r < P, p r = yPen n0 n1 P r f := by
  classical
  have hex : ∀ j, ∃ s, j < n0 → s < P ∧ off n0 P s ≤ j ∧ j < off n0 P (s + 1) := by
    intro j
    by_cases h : j < n0
    · obtain ⟨s, h⟩ := off_find hg.pos h; exact ⟨s, fun _ => h⟩
    · exact ⟨0, fun h' => absurd h' h⟩
  choose s hs using hex
  refine ⟨fun i j => at_ (p (s i)) [i - off n0 P (s i), j], fun r hr => ?_⟩
  rw [eq_mk2 (hp r hr)]
  refine mk2_congr (fun i hi j hj => ?_)
  have hlt : off n0 P r + i < n0 := by have := off_cnt_le (n := n0) hr; omega
  obtain ⟨h1, h2, h3⟩ := hs _ hlt
  have : s (off n0 P r + i) = r := off_inj h2 h3 (by omega) (by rw [off_succ]; omega)
  dsimp only
  rw [this, Nat.add_sub_cancel_left]

end

/-! ### allocating variants -/

section
variable {T : Type} [Zero T] (o : Mode) {n0 n1 P : ℕ}

theorem gatherXRoot_eq {d : Decomp2d} (h : d.nrank = 0) (p : Arr T) :
    d.gatherXRoot o p = d.gatherXInplaceRoot o p (Arr.zeros d.nGlobal) := by
  unfold Decomp2d.gatherXRoot; rw [assertR_ok h]; rfl

theorem gatherYRoot_eq {d : Decomp2d} (h : d.nrank = 0) (p : Arr T) :
    d.gatherYRoot o p = d.gatherYInplaceRoot o p (Arr.zeros d.nGlobal) := by
  unfold Decomp2d.gatherYRoot; rw [assertR_ok h]; rfl

theorem scatterXRoot_eq {d : Decomp2d} (h : d.nrank = 0) (p : Arr T) :
    d.scatterXRoot o p = d.scatterXInplaceRoot o p (Arr.zeros d.xPencil.sz) := by
  unfold Decomp2d.scatterXRoot; rw [assertR_ok h]; rfl

theorem scatterYRoot_eq {d : Decomp2d} (h : d.nrank = 0) (p : Arr T) :
    d.scatterYRoot o p = d.scatterYInplaceRoot o p (Arr.zeros d.yPencil.sz) := by
  unfold Decomp2d.scatterYRoot; rw [assertR_ok h]; rfl

theorem scatterX_eq {d : Decomp2d} (h : d.nrank ≠ 0) :
    d.scatterX T o = d.scatterXInplace o (Arr.zeros d.xPencil.sz) := by
  unfold Decomp2d.scatterX; rw [assertR_ok h]; rfl

theorem scatterY_eq {d : Decomp2d} (h : d.nrank ≠ 0) :
    d.scatterY T o = d.scatterYInplace o (Arr.zeros d.yPencil.sz) := by
  unfold Decomp2d.scatterY; rw [assertR_ok h]; rfl

end

/-! ### scalar routines -/

section
variable {T : Type} {P : ℕ}

theorem broadcastScalar_runs (hP : 0 < P) (x : ℕ → T) :
    Runs P (fun r => broadcastScalar r (x r)) (fun _ => x 0) := by
  let cs : ℕ → Coll T := fun r => ⟨.broadcast, fun y => if r = 0 ∧ y ≠ 0 then some [x r] else none,
    fun s => if r ≠ 0 ∧ s = 0 then some (0, [x r].length) else none, [x r]⟩
  have sl0 : ∀ s, (cs 0).slot s = none := fun s => by
    change (if 0 ≠ 0 ∧ s = 0 then some (0, [x 0].length) else none) = none
    simp
  have sl : ∀ r, r ≠ 0 → (cs r).slot 0 = some (0, [x 0].length) := fun r h => by
    change (if r ≠ 0 ∧ 0 = 0 then some (0, [x r].length) else none) = _
    rw [if_pos ⟨h, rfl⟩]; rfl
  have ou : ∀ r, r ≠ 0 → (cs 0).out r = some [x 0] := fun r h => by
    change (if 0 = 0 ∧ r ≠ 0 then some [x 0] else none) = _
    rw [if_pos ⟨rfl, h⟩]
  have hm : Matched P cs := by
    refine matched_of_part (fun _ _ _ _ => rfl) (fun r hr => ?_)
    by_cases hr0 : r = 0
    · subst hr0
      refine .nobody (fun s _ => sl0 s) (fun s _ => ?_)
      change (if s = 0 ∧ 0 ≠ 0 then some [x s] else none) = none
      simp
    · refine .root [x 0] (sl r hr0) (ou r hr0) le_rfl (fun s _ hs => ?_) (fun s _ hs => ?_)
      · change (if r ≠ 0 ∧ s = 0 then some (0, [x r].length) else none) = none
        simp [hs]
      · change (if s = 0 ∧ r ≠ 0 then some [x s] else none) = none
        simp [hs]
  have hrec : ∀ r < P, recvAll P cs r = [x 0] := by
    intro r hr
    by_cases hr0 : r = 0
    · subst hr0
      rw [recvAll_none hm hr (fun s _ => sl0 s)]
    · have h1 := recvAll_get hm hr hP (sl r hr0) (ou r hr0) (e := 0) (by simp)
      have h2 : (recvAll P cs r).length = 1 := recvAll_length hm hr
      match h3 : recvAll P cs r, h2 with
      | [y], _ => rw [h3] at h1; simpa using h1
  refine (Runs.bind (Runs.call hm) (q := fun r b => liftM (rdC b 0)) (b := fun _ => x 0)
    (.done (fun r hr => by rw [hrec r hr]; rfl))).congr (fun r hr => ?_) (fun _ _ => rfl)
  rfl

theorem gatherSum_runs [AddCommMonoid T] (hP : 0 < P) (hw : P < 2 ^ 31) (x res : ℕ → T) :
    Runs P (fun r => gatherSum P r (x r) (res r))
      (fun r => if r = 0 then ∑ s ∈ Finset.range P, x s else res r) := by
  have hl : (List.replicate P (0 : T)).length / P = 1 := by rw [List.length_replicate, Nat.div_self hP]
  let cs : ℕ → Coll T := fun r => ⟨.gather, fun y => if y = 0 then some [x r] else none,
    fun s => if r = 0 ∧ s < P then some (s, 1) else none, if r = 0 then List.replicate P 0 else []⟩
  have hsl : ∀ s < P, (cs 0).slot s = some (s, [x s].length) := fun s hs => by
    change (if 0 = 0 ∧ s < P then some (s, 1) else none) = _
    rw [if_pos ⟨rfl, hs⟩]; rfl
  have ho : ∀ s < P, (cs s).out 0 = some [x s] := fun s _ => by
    change (if 0 = 0 then some [x s] else none) = _
    rw [if_pos rfl]
  have hb : (cs 0).buf = List.replicate P 0 := by
    change (if 0 = 0 then List.replicate P (0 : T) else []) = _
    rw [if_pos rfl]
  have hm : Matched P cs := by
    refine matched_of_part (fun _ _ _ _ => rfl) (fun r hr => ?_)
    by_cases hr0 : r = 0
    · subst hr0
      refine .all (fun s => s) (fun s => [x s]) hsl ho (fun s hs => rfl) ?_
      rw [hb, List.length_replicate]
    · refine .nobody (fun s _ => ?_) (fun s _ => if_neg hr0)
      change (if r = 0 ∧ s < P then some (s, 1) else none) = none
      rw [if_neg (by omega)]
  have hrec : recvAll P cs 0 = (List.range P).map x := by
    have h2 : (recvAll P cs 0).length = P := by rw [recvAll_length hm hP, hb, List.length_replicate]
    refine List.ext_getElem? (fun i => ?_)
    by_cases hi : i < P
    · have h1 := recvAll_get hm hP hi (hsl i hi) (ho i hi) (e := 0) (by simp)
      rw [Nat.add_zero] at h1
      rw [h1]; simp [hi]
    · rw [List.getElem?_eq_none (by omega), List.getElem?_eq_none (by simp; omega)]
  have hsum : ((List.range P).map x).sum = ∑ s ∈ Finset.range P, x s := by
    rfl
  refine (Runs.bind (Runs.call hm) (q := fun r b => pure (if r = 0 then b.sum else res r))
    (b := fun r => if r = 0 then ∑ s ∈ Finset.range P, x s else res r)
    (.done (fun r hr => ?_))).congr (fun r hr => ?_) (fun _ _ => rfl)
  · by_cases hr0 : r = 0
    · subst hr0; rw [hrec, hsum]; rfl
    · simp only [if_neg hr0]; rfl
  · unfold gatherSum
    by_cases hr0 : r = 0
    · subst hr0
      rw [if_pos rfl]
      unfold gatherIntoRoot
      rw [slice_ok (by rw [List.length_replicate]; exact hw), hl]
      have : cs 0 = ⟨.gather, fun y => if y = 0 then some [x 0] else none,
          fun s => if s < P then some (s * 1, 1) else none, List.replicate P 0⟩ := by
        change Coll.mk _ _ (fun s => if 0 = 0 ∧ s < P then some (s, 1) else none)
          (if 0 = 0 then List.replicate P 0 else []) = _
        simp
      rw [this]
      rfl
    · rw [if_neg hr0]
      unfold gatherInto
      have : cs r = ⟨.gather, fun y => if y = 0 then some [x r] else none, fun _ => none, []⟩ := by
        change Coll.mk _ _ (fun s => if r = 0 ∧ s < P then some (s, 1) else none)
          (if r = 0 then List.replicate P 0 else []) = _
        simp [hr0]
      rw [this]
      simp only [if_neg hr0]
      rfl

theorem allGatherSum_runs [AddCommMonoid T] (hP : 0 < P) (hw : P < 2 ^ 31) (x res : ℕ → T) :
    Runs P (fun r => allGatherSum P (x r) (res r)) (fun _ => ∑ s ∈ Finset.range P, x s) := by
  have hl : (List.replicate P (0 : T)).length / P = 1 := by rw [List.length_replicate, Nat.div_self hP]
  let cs : ℕ → Coll T := fun r => ⟨.allGather, fun _ => some [x r],
    fun s => if s < P then some (s * 1, 1) else none, List.replicate P 0⟩
  have hsl : ∀ r, ∀ s < P, (cs r).slot s = some (s, [x s].length) := fun r s hs => by
    change (if s < P then some (s * 1, 1) else none) = _
    rw [if_pos hs, Nat.mul_one]; rfl
  have hm : Matched P cs := by
    refine matched_of_part (fun _ _ _ _ => rfl) (fun r hr => ?_)
    refine .all (fun s => s) (fun s => [x s]) (hsl r) (fun _ _ => rfl) (fun s hs => rfl) ?_
    change P ≤ (List.replicate P (0 : T)).length
    rw [List.length_replicate]
  have hrec : ∀ r < P, recvAll P cs r = (List.range P).map x := by
    intro r hr
    have h2 : (recvAll P cs r).length = P := by
      rw [recvAll_length hm hr]; exact List.length_replicate
    refine List.ext_getElem? (fun i => ?_)
    by_cases hi : i < P
    · have h1 := recvAll_get hm hr hi (hsl r i hi) rfl (e := 0) (by simp)
      rw [Nat.add_zero] at h1
      rw [h1]; simp [hi]
    · rw [List.getElem?_eq_none (by omega), List.getElem?_eq_none (by simp; omega)]
  have hsum : ((List.range P).map x).sum = ∑ s ∈ Finset.range P, x s := by
    rfl
  refine (Runs.bind (Runs.call hm) (q := fun r b => pure b.sum)
    (b := fun r => ∑ s ∈ Finset.range P, x s)
    (.done (fun r hr => by rw [hrec r hr, hsum]; rfl))).congr (fun r hr => ?_) (fun _ _ => rfl)
  unfold allGatherSum allGatherInto
  rw [slice_ok (by rw [List.length_replicate]; exact hw), hl]
  rfl

end
end Verif
