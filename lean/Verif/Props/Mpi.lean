/-
Properties of the domain decomposition and of the communication between ranks (C42-C47, C56).

`AllReturn P progs results` (Model/Mpi.lean) speaks about every interleaving of the ranks and of the
messages: nobody fails, nobody waits for ever, and rank `r` returns `results r`.
-/
import Verif.Proof.Handler

namespace Verif.Props
open Res Spec Mpi

/-! ### C42, C43: distribution of the grid points -/

/-- C42: `n0, n1, …` points in any number of directions; the direction `c` (0 or 1) is not
distributed, the others are partitioned. -/
theorem C42_balanced_partition (o : Mode) {n : List ℕ} {P c : ℕ} {d : ℕ → Dist} (hP : 1 ≤ P)
    (hn : ∀ i < n.length, P ≤ nth n i) (hw : ∀ i < n.length, nth n i + 1 < usizeW)
    (hd : ∀ r < P, Dist.new o n P r c = ok (d r)) :
    (∀ i < n.length, i ≠ c → BalancedPartition (nth n i) P (fun r => nth (d r).st i)
        (fun r => nth (d r).en i) (fun r => nth (d r).sz i)) ∧
    (∀ i < n.length, i = c → ∀ r < P,
        nth (d r).st i = 0 ∧ nth (d r).en i = nth n i - 1 ∧ nth (d r).sz i = nth n i) ∧
    -- every rank knows the ranges of all ranks
    ∀ r < P, ∀ s < P, (d r).stProcs[s]? = some (d s).st ∧ (d r).enProcs[s]? = some (d s).en ∧
      (d r).szProcs[s]? = some (d s).sz := by
  have hc : c ≤ 1 := by
    by_contra h
    have := hd 0 hP
    unfold Dist.new at this
    rw [assertR_panic h] at this
    cases this
  have e : ∀ r < P, d r = distOf n P r c := by
    intro r hr
    have h1 := hd r hr
    rw [Dist.new_ok o hr hc (fun i hi _ => hn i hi) (fun i hi => le_trans hP (hn i hi)) hw] at h1
    exact (Res.ok.inj h1).symm
  refine ⟨fun i hi hic => ?_, fun i hi hic r hr => ?_, fun r hr s hs => ?_⟩
  · have key := partition_off hP (hn i hi)
    have v : ∀ r < P, nth (d r).st i = off (nth n i) P r ∧
        nth (d r).en i = off (nth n i) P (r + 1) - 1 ∧ nth (d r).sz i = cnt (nth n i) P r := by
      intro r hr
      rw [e r hr]
      unfold distOf
      dsimp only
      rw [nth_map_range _ _ _ hi, nth_map_range _ _ _ hi, nth_map_range _ _ _ hi, if_neg hic,
        if_neg hic, if_neg hic]
      exact ⟨rfl, rfl, rfl⟩
    refine ⟨?_, fun r hr => ?_, ?_, fun r hr => ?_, fun k hk => ?_, fun r hr s hs => ?_⟩
    · rw [(v 0 hP).1]; exact key.first
    · rw [(v (r + 1) hr).1, (v r (by omega)).2.1]; exact key.next r hr
    · rw [(v (P - 1) (by omega)).2.1]; exact key.last
    · rw [(v r hr).1, (v r hr).2.1, (v r hr).2.2]; exact key.size r hr
    · obtain ⟨r, ⟨hr, h1, h2⟩, hu⟩ := key.cover k hk
      refine ⟨r, ⟨hr, ?_, ?_⟩, ?_⟩
      · rw [(v r hr).1]; exact h1
      · rw [(v r hr).2.1]; exact h2
      · rintro s ⟨hs, h3, h4⟩
        rw [(v s hs).1] at h3
        rw [(v s hs).2.1] at h4
        exact hu s ⟨hs, h3, h4⟩
    · rw [(v r hr).2.2, (v s hs).2.2]; exact key.balanced r hr s hs
  · rw [e r hr]
    unfold distOf
    dsimp only
    rw [nth_map_range _ _ _ hi, nth_map_range _ _ _ hi, nth_map_range _ _ _ hi, if_pos hic,
      if_pos hic, if_pos hic]
    exact ⟨rfl, rfl, rfl⟩
  · rw [e r hr, e s hs]
    unfold distOf
    simp [hs]

/-- C42: the two pencil decompositions of a plane. -/
theorem C42_pencils (o : Mode) {n0 n1 P : ℕ} {d : ℕ → Decomp2d} (hg : Grid n0 n1 P)
    (hd : ∀ r < P, Decomp2d.new o P r [n0, n1] = ok (d r)) :
    (∃ st en sz, BalancedPartition n1 P st en sz ∧ ∀ r < P, (d r).xPencil.st = [0, st r] ∧
      (d r).xPencil.en = [n0 - 1, en r] ∧ (d r).getXPencilShape = [n0, sz r]) ∧
    (∃ st en sz, BalancedPartition n0 P st en sz ∧ ∀ r < P, (d r).yPencil.st = [st r, 0] ∧
      (d r).yPencil.en = [en r, n1 - 1] ∧ (d r).getYPencilShape = [sz r, n1]) ∧
    ∀ r < P, (d r).getGlobalShape = [n0, n1] := by
  have e : ∀ r < P, d r = decompOf n0 n1 P r := by
    intro r hr
    have h1 := hd r hr
    rw [Decomp2d.new_ok o hg hr] at h1
    exact (Res.ok.inj h1).symm
  refine ⟨⟨_, _, _, partition_off hg.pos hg.le1, fun r hr => ?_⟩,
    ⟨_, _, _, partition_off hg.pos hg.le0, fun r hr => ?_⟩, fun r hr => ?_⟩ <;> rw [e r hr]
  · exact ⟨rfl, rfl, rfl⟩
  · exact ⟨rfl, rfl, rfl⟩
  · rfl

example : ∃ d : ℕ → Dist, ∀ r < 3, Dist.new .debug [10, 7, 4] 3 r 0 = ok (d r) :=
  ⟨fun r => distOf [10, 7, 4] 3 r 0, fun r hr => by
    interval_cases r <;> decide +kernel⟩

/-- C43: with at least `P` points in each direction the construction never fails, whether or not the
grid is divisible. -/
theorem C43_enough_points (o : Mode) {n0 n1 P r : ℕ} (hg : Grid n0 n1 P) (hr : r < P) :
    ∃ d, Decomp2d.new o P r [n0, n1] = ok d := ⟨_, Decomp2d.new_ok o hg hr⟩

/-- C43: a debug build panics exactly if some rank would own no points. -/
theorem C43_debug_panics_iff {n0 n1 P r : ℕ} (hr : r < P) (w0 : n0 + 1 < usizeW)
    (w1 : n1 + 1 < usizeW) :
    Decomp2d.new .debug P r [n0, n1] = err .panic ↔ n0 < P ∨ n1 < P := by
  constructor
  · intro h
    by_contra hc
    obtain ⟨d, hd⟩ := C43_enough_points .debug (⟨by omega, by omega, by omega, w0, w1⟩ : Grid n0 n1 P) hr
    rw [h] at hd; cases hd
  · exact fun h => Decomp2d.new_panics (by omega) hr h w0 w1

/-- C43, negative part: a release build accepts fewer points than ranks (here in the second
direction).  The sizes of the pencils are right, but the rank does not know where its points end:
for a rank without points, splitting a global array returns the whole array. -/
theorem C43_release_wrong_layout {n0 n1 P r : ℕ} (hr : r < P - n1) (h0 : P ≤ n0) (h1 : 0 < n1)
    (w0 : n0 + 1 < usizeW) :
    ∃ d, Decomp2d.new .release P r [n0, n1] = ok d ∧ d.getXPencilShape = [n0, 0] ∧
      ∀ {T : Type} [Zero T] (a : Arr T), Good a [n0, n1] → d.splitArrayXPencil a = ok a := by
  have hP : 0 < P := by omega
  have hrP : r < P := by omega
  have hx := Dist.new_two0 (o := .release) (n0 := n0) hrP (by omega) (by omega)
    (distribute_release h1 (by omega : n1 < P) (by omega))
  have hy := Dist.new_two1 (o := .release) (n1 := n1) hrP (by omega) (by omega)
    (distribute_ok .release hP h0 w0)
  refine ⟨⟨P, r, [n0, n1], _, _⟩, (by unfold Decomp2d.new; rw [hx, bind_ok, hy, bind_ok]; rfl), ?_, ?_⟩
  · change [n0, cnt n1 P r] = [n0, 0]
    rw [cnt_small (by omega), if_neg (by omega)]
  · intro T _ a ha
    have he : enW n1 P r = usizeW - 1 := by unfold enW; rw [if_pos hr]
    rw [eq_mk2 ha]
    refine (window_of (c0 := n0) (c1 := n1) rfl rfl ?_ ?_ (by omega) ?_ _).trans ?_
    · rw [sliceIncl_ok (by omega) (by omega) (by omega), show n0 - 1 + 1 - 0 = n0 by omega]
    · rw [he, off_small (by omega), show r - (P - n1) = 0 by omega]
      unfold Dist.sliceIncl
      rw [if_pos (by norm_num)]
      dsimp only
      rw [assertR_ok ⟨by omega, le_rfl⟩]
      rfl
    · rw [off_small (by omega)]; omega
    · rw [off_small (by omega), show r - (P - n1) = 0 by omega]
      simp only [Nat.zero_add]

example : ∃ d, Decomp2d.new .release 3 0 [4, 2] = ok d ∧ d.getXPencilShape = [4, 0] ∧
    ∃ d', Decomp2d.new .debug 3 2 [4, 5] = ok d' ∧ Decomp2d.new .debug 3 2 [4, 2] = err .panic := by
  obtain ⟨d, h1, h2, -⟩ := C43_release_wrong_layout (n0 := 4) (n1 := 2) (P := 3) (r := 0) (by omega)
    (by omega) (by omega) (by norm_num)
  obtain ⟨d', h3⟩ := C43_enough_points .debug
    (⟨by omega, by omega, by omega, by norm_num, by norm_num⟩ : Grid 4 5 3) (show 2 < 3 by omega)
  exact ⟨d, h1, h2, d', h3, (C43_debug_panics_iff (by omega) (by norm_num) (by norm_num)).2 (by omega)⟩

/-! ### C44: transposes -/

section
variable {T : Type} [Zero T] {o : Mode} {n0 n1 P : ℕ} {d : ℕ → Decomp2d}

/-- C44: the parts of a global array returned by `split_array_{x,y}_pencil`, and stored by
`split_array_inplace`, are those the ranks own. -/
theorem C44_split (hg : Grid n0 n1 P) (hd : ∀ r < P, Decomp2d.new o P r [n0, n1] = ok (d r))
    {a : Arr T} (ha : Good a [n0, n1]) {r : ℕ} (hr : r < P) :
    (∃ p, (d r).splitArrayXPencil a = ok p ∧ IsWindow a (d r).xPencil.st (d r).getXPencilShape p ∧
      ∀ b, Good b (d r).getXPencilShape → (d r).xPencil.splitArrayInplace a b = ok p) ∧
    (∃ p, (d r).splitArrayYPencil a = ok p ∧ IsWindow a (d r).yPencil.st (d r).getYPencilShape p ∧
      ∀ b, Good b (d r).getYPencilShape → (d r).yPencil.splitArrayInplace a b = ok p) := by
  rw [d_eq hg hd r hr, eq_mk2 ha]
  refine ⟨⟨_, splitX_ok hg hr _, (isWindow_x hr _).2 rfl, fun b hb => ?_⟩,
    ⟨_, splitY_ok hg hr _, (isWindow_y hr _).2 rfl, fun b hb => ?_⟩⟩
  · exact splitInplace_ok (splitX_ok hg hr _) (good_mk2 _ _ _) hb
  · exact splitInplace_ok (splitY_ok hg hr _) (good_mk2 _ _ _) hb

/-- C44: any pencils of the right shapes are the x-pencils of exactly one global array. -/
theorem C44_assemble_x (hg : Grid n0 n1 P) (hd : ∀ r < P, Decomp2d.new o P r [n0, n1] = ok (d r))
    {p : ℕ → Arr T} (hp : ∀ r < P, Good (p r) (d r).getXPencilShape) :
    ∃! a, Good a [n0, n1] ∧ ∀ r < P, IsWindow a (d r).xPencil.st (d r).getXPencilShape (p r) := by
  have hp' : ∀ r < P, Good (p r) [n0, cnt n1 P r] := fun r hr => by
    have := hp r hr; rw [d_eq hg hd r hr] at this; exact this
  obtain ⟨f, hf⟩ := assembleX hg hp'
  refine ⟨mk2 n0 n1 f, ⟨good_mk2 _ _ _, fun r hr => ?_⟩, ?_⟩
  · rw [d_eq hg hd r hr]; exact (isWindow_x hr f).2 (hf r hr)
  · rintro b ⟨hb, hw⟩
    rw [eq_mk2 hb]
    refine mk2_congr (fun i hi j hj => ?_)
    obtain ⟨s, hs, h1, h2⟩ := off_find hg.pos hj
    rw [off_succ] at h2
    have := hw s hs
    rw [d_eq hg hd s hs, eq_mk2 hb] at this
    have e := (isWindow_x hs _).1 this
    rw [hf s hs] at e
    have := congrArg (fun x => at_ x [i, j - off n1 P s]) e
    dsimp only [xPen] at this
    rw [at_mk2 _ hi (by omega), at_mk2 _ hi (by omega)] at this
    rw [show off n1 P s + (j - off n1 P s) = j by omega] at this
    exact this.symm

/-- C44: any pencils of the right shapes are the y-pencils of exactly one global array. -/
theorem C44_assemble_y (hg : Grid n0 n1 P) (hd : ∀ r < P, Decomp2d.new o P r [n0, n1] = ok (d r))
    {p : ℕ → Arr T} (hp : ∀ r < P, Good (p r) (d r).getYPencilShape) :
    ∃! a, Good a [n0, n1] ∧ ∀ r < P, IsWindow a (d r).yPencil.st (d r).getYPencilShape (p r) := by
  have hp' : ∀ r < P, Good (p r) [cnt n0 P r, n1] := fun r hr => by
    have := hp r hr; rw [d_eq hg hd r hr] at this; exact this
  obtain ⟨f, hf⟩ := assembleY hg hp'
  refine ⟨mk2 n0 n1 f, ⟨good_mk2 _ _ _, fun r hr => ?_⟩, ?_⟩
  · rw [d_eq hg hd r hr]; exact (isWindow_y hr f).2 (hf r hr)
  · rintro b ⟨hb, hw⟩
    rw [eq_mk2 hb]
    refine mk2_congr (fun i hi j hj => ?_)
    obtain ⟨s, hs, h1, h2⟩ := off_find hg.pos hi
    rw [off_succ] at h2
    have := hw s hs
    rw [d_eq hg hd s hs, eq_mk2 hb] at this
    have e := (isWindow_y hs _).1 this
    rw [hf s hs] at e
    have := congrArg (fun x => at_ x [i - off n0 P s, j]) e
    dsimp only [yPen] at this
    rw [at_mk2 _ (by omega) hj, at_mk2 _ (by omega) hj] at this
    rw [show off n0 P s + (i - off n0 P s) = i by omega] at this
    exact this.symm

section
variable (hg : Grid n0 n1 P) (hd : ∀ r < P, Decomp2d.new o P r [n0, n1] = ok (d r))
  (hx : ∀ r < P, (d r).getXPencilShape.prod < 2 ^ 31)
  (hy : ∀ r < P, (d r).getYPencilShape.prod < 2 ^ 31)
include hg hd hx hy

/-- C44: `transpose_x_to_y` on all ranks turns the x-pencils of a global array into its y-pencils,
whatever the previous content of the receiving arrays. -/
theorem C44_transpose_x_to_y {a : Arr T} (ha : Good a [n0, n1]) {p rcv : ℕ → Arr T}
    (hp : ∀ r < P, IsWindow a (d r).xPencil.st (d r).getXPencilShape (p r))
    (hrcv : ∀ r < P, Good (rcv r) (d r).getYPencilShape) :
    ∃ q, (∀ r < P, IsWindow a (d r).yPencil.st (d r).getYPencilShape (q r)) ∧
      AllReturn P (fun r => (d r).transposeXToY o (p r) (rcv r)) q := by
  have e := d_eq hg hd
  rw [eq_mk2 ha] at hp ⊢
  refine ⟨fun r => yPen n0 n1 P r (fun i j => at_ a [i, j]), fun r hr => ?_, ?_⟩
  · rw [e r hr]; exact (isWindow_y hr _).2 rfl
  · refine ((transposeXY_runs o hg (small_x hg hd hx) (small_y hg hd hy) _ rcv
      (fun r hr => ?_)).congr (fun r hr => ?_) (fun _ _ => rfl)).allReturn
    · have := hrcv r hr; rw [e r hr] at this; exact this
    · have := hp r hr
      rw [e r hr] at this ⊢
      rw [(isWindow_x hr _).1 this]

/-- C44: `transpose_y_to_x` on all ranks turns the y-pencils of a global array into its x-pencils. -/
theorem C44_transpose_y_to_x {a : Arr T} (ha : Good a [n0, n1]) {p rcv : ℕ → Arr T}
    (hp : ∀ r < P, IsWindow a (d r).yPencil.st (d r).getYPencilShape (p r))
    (hrcv : ∀ r < P, Good (rcv r) (d r).getXPencilShape) :
    ∃ q, (∀ r < P, IsWindow a (d r).xPencil.st (d r).getXPencilShape (q r)) ∧
      AllReturn P (fun r => (d r).transposeYToX o (p r) (rcv r)) q := by
  have e := d_eq hg hd
  rw [eq_mk2 ha] at hp ⊢
  refine ⟨fun r => xPen n0 n1 P r (fun i j => at_ a [i, j]), fun r hr => ?_, ?_⟩
  · rw [e r hr]; exact (isWindow_x hr _).2 rfl
  · refine ((transposeYX_runs o hg (small_x hg hd hx) (small_y hg hd hy) _ rcv
      (fun r hr => ?_)).congr (fun r hr => ?_) (fun _ _ => rfl)).allReturn
    · have := hrcv r hr; rw [e r hr] at this; exact this
    · have := hp r hr
      rw [e r hr] at this ⊢
      rw [(isWindow_y hr _).1 this]

/-- C44: the transposes are inverse to each other, on any pencils. -/
theorem C44_transpose_round_trip_x {p rcv rcv' : ℕ → Arr T}
    (hp : ∀ r < P, Good (p r) (d r).getXPencilShape)
    (hrcv : ∀ r < P, Good (rcv r) (d r).getYPencilShape)
    (hrcv' : ∀ r < P, Good (rcv' r) (d r).getXPencilShape) :
    AllReturn P (fun r => do
      let q ← (d r).transposeXToY o (p r) (rcv r)
      (d r).transposeYToX o q (rcv' r)) p := by
  have e := d_eq hg hd
  have hp' : ∀ r < P, Good (p r) [n0, cnt n1 P r] := fun r hr => by
    have := hp r hr; rw [e r hr] at this; exact this
  obtain ⟨f, hf⟩ := assembleX hg hp'
  have r1 := transposeXY_runs o hg (small_x hg hd hx) (small_y hg hd hy) f rcv
    (fun r hr => by have := hrcv r hr; rw [e r hr] at this; exact this)
  have r2 := transposeYX_runs o hg (small_x hg hd hx) (small_y hg hd hy) f rcv'
    (fun r hr => by have := hrcv' r hr; rw [e r hr] at this; exact this)
  refine ((Runs.bind (q := fun r q => (decompOf n0 n1 P r).transposeYToX o q (rcv' r)) r1 r2).congr
    (fun r hr => ?_) hf).allReturn
  rw [e r hr, hf r hr]

theorem C44_transpose_round_trip_y {p rcv rcv' : ℕ → Arr T}
    (hp : ∀ r < P, Good (p r) (d r).getYPencilShape)
    (hrcv : ∀ r < P, Good (rcv r) (d r).getXPencilShape)
    (hrcv' : ∀ r < P, Good (rcv' r) (d r).getYPencilShape) :
    AllReturn P (fun r => do
      let q ← (d r).transposeYToX o (p r) (rcv r)
      (d r).transposeXToY o q (rcv' r)) p := by
  have e := d_eq hg hd
  have hp' : ∀ r < P, Good (p r) [cnt n0 P r, n1] := fun r hr => by
    have := hp r hr; rw [e r hr] at this; exact this
  obtain ⟨f, hf⟩ := assembleY hg hp'
  have r1 := transposeYX_runs o hg (small_x hg hd hx) (small_y hg hd hy) f rcv
    (fun r hr => by have := hrcv r hr; rw [e r hr] at this; exact this)
  have r2 := transposeXY_runs o hg (small_x hg hd hx) (small_y hg hd hy) f rcv'
    (fun r hr => by have := hrcv' r hr; rw [e r hr] at this; exact this)
  refine ((Runs.bind (q := fun r q => (decompOf n0 n1 P r).transposeXToY o q (rcv' r)) r1 r2).congr
    (fun r hr => ?_) hf).allReturn
  rw [e r hr, hf r hr]

end

/-- C44: arrays of other shapes are rejected before anything is sent. -/
theorem C44_wrong_shape_panics (o : Mode) (d : Decomp2d) (snd rcv : Arr T) :
    (snd.shape ≠ d.getXPencilShape ∨ rcv.shape ≠ d.getYPencilShape →
      d.transposeXToY o snd rcv = .ret (err .panic)) ∧
    (snd.shape ≠ d.getYPencilShape ∨ rcv.shape ≠ d.getXPencilShape →
      d.transposeYToX o snd rcv = .ret (err .panic)) := by
  refine ⟨fun h => ?_, fun h => ?_⟩
  · unfold Decomp2d.transposeXToY checkShape
    by_cases h1 : snd.shape = d.xPencil.sz
    · rw [assertR_ok h1, assertR_panic (show ¬ rcv.shape = d.yPencil.sz from h.resolve_left (fun h' => h' h1))]; rfl
    · rw [assertR_panic h1]; rfl
  · unfold Decomp2d.transposeYToX checkShape
    by_cases h1 : snd.shape = d.yPencil.sz
    · rw [assertR_ok h1, assertR_panic (show ¬ rcv.shape = d.xPencil.sz from h.resolve_left (fun h' => h' h1))]; rfl
    · rw [assertR_panic h1]; rfl

/-! ### C45: gather, scatter, all-gather -/

section
variable (hg : Grid n0 n1 P) (hd : ∀ r < P, Decomp2d.new o P r [n0, n1] = ok (d r))
  (hw : n0 * n1 < 2 ^ 31)
include hg hd hw

/-- C45: `gather_x_root` on rank 0 and `gather_x` on the others: rank 0 gets the global array.  With
a receiving array of rank 0 (`gather_x_inplace_root`) the same, whatever its content. -/
theorem C45_gather_x {a : Arr T} (ha : Good a [n0, n1]) {p : ℕ → Arr T}
    (hp : ∀ r < P, IsWindow a (d r).xPencil.st (d r).getXPencilShape (p r)) :
    AllReturn P (fun r => if r = 0 then do let b ← (d r).gatherXRoot o (p r); pure (some b)
        else do (d r).gatherX o (p r); pure none) (fun r => if r = 0 then some a else none) ∧
    ∀ rcv, Good rcv [n0, n1] →
      AllReturn P (fun r => if r = 0 then do
          let b ← (d r).gatherXInplaceRoot o (p r) rcv; pure (some b)
        else do (d r).gatherX o (p r); pure none) (fun r => if r = 0 then some a else none) := by
  have e := d_eq hg hd
  rw [eq_mk2 ha] at hp ⊢
  have hp' : ∀ r < P, p r = xPen n0 n1 P r (fun i j => at_ a [i, j]) := fun r hr => by
    have := hp r hr; rw [e r hr] at this; exact (isWindow_x hr _).1 this
  have key : ∀ rcv, Good rcv [n0, n1] → AllReturn P (fun r => if r = 0 then do
          let b ← (d r).gatherXInplaceRoot o (p r) rcv; pure (some b)
        else do (d r).gatherX o (p r); pure none)
      (fun r => if r = 0 then some (mk2 n0 n1 (fun i j => at_ a [i, j])) else none) := by
    intro rcv hrcv
    refine ((gatherX_runs o hg hw (fun i j => at_ a [i, j]) rcv hrcv).congr (fun r hr => ?_)
      (fun _ _ => rfl)).allReturn
    rw [e r hr, hp' r hr]
  refine ⟨?_, key⟩
  have k := key (Arr.zeros [n0, n1]) (good_zeros _)
  have : (fun r => if r = 0 then do let b ← (d r).gatherXRoot o (p r); pure (some b)
        else do (d r).gatherX o (p r); pure none) = (fun r => if r = 0 then do
          let b ← (d r).gatherXInplaceRoot o (p r) (Arr.zeros [n0, n1]); pure (some b)
        else do (d r).gatherX o (p r); pure none) := by
    funext r
    by_cases hr0 : r = 0
    · subst hr0
      rw [if_pos rfl, if_pos rfl, gatherXRoot_eq o (by rw [e 0 hg.pos]; rfl),
        show (d 0).nGlobal = [n0, n1] by rw [e 0 hg.pos]; rfl]
    · rw [if_neg hr0, if_neg hr0]
  rw [this]; exact k

theorem C45_gather_y {a : Arr T} (ha : Good a [n0, n1]) {p : ℕ → Arr T}
    (hp : ∀ r < P, IsWindow a (d r).yPencil.st (d r).getYPencilShape (p r)) :
    AllReturn P (fun r => if r = 0 then do let b ← (d r).gatherYRoot o (p r); pure (some b)
        else do (d r).gatherY o (p r); pure none) (fun r => if r = 0 then some a else none) ∧
    ∀ rcv, Good rcv [n0, n1] →
      AllReturn P (fun r => if r = 0 then do
          let b ← (d r).gatherYInplaceRoot o (p r) rcv; pure (some b)
        else do (d r).gatherY o (p r); pure none) (fun r => if r = 0 then some a else none) := by
  have e := d_eq hg hd
  rw [eq_mk2 ha] at hp ⊢
  have hp' : ∀ r < P, p r = yPen n0 n1 P r (fun i j => at_ a [i, j]) := fun r hr => by
    have := hp r hr; rw [e r hr] at this; exact (isWindow_y hr _).1 this
  have key : ∀ rcv, Good rcv [n0, n1] → AllReturn P (fun r => if r = 0 then do
          let b ← (d r).gatherYInplaceRoot o (p r) rcv; pure (some b)
        else do (d r).gatherY o (p r); pure none)
      (fun r => if r = 0 then some (mk2 n0 n1 (fun i j => at_ a [i, j])) else none) := by
    intro rcv hrcv
    refine ((gatherY_runs o hg hw (fun i j => at_ a [i, j]) rcv hrcv).congr (fun r hr => ?_)
      (fun _ _ => rfl)).allReturn
    rw [e r hr, hp' r hr]
  refine ⟨?_, key⟩
  have k := key (Arr.zeros [n0, n1]) (good_zeros _)
  have : (fun r => if r = 0 then do let b ← (d r).gatherYRoot o (p r); pure (some b)
        else do (d r).gatherY o (p r); pure none) = (fun r => if r = 0 then do
          let b ← (d r).gatherYInplaceRoot o (p r) (Arr.zeros [n0, n1]); pure (some b)
        else do (d r).gatherY o (p r); pure none) := by
    funext r
    by_cases hr0 : r = 0
    · subst hr0
      rw [if_pos rfl, if_pos rfl, gatherYRoot_eq o (by rw [e 0 hg.pos]; rfl),
        show (d 0).nGlobal = [n0, n1] by rw [e 0 hg.pos]; rfl]
    · rw [if_neg hr0, if_neg hr0]
  rw [this]; exact k

/-- C45: `scatter_x_root` on rank 0 and `scatter_x` on the others (or their in-place versions): every
rank gets its pencil. -/
theorem C45_scatter_x {a : Arr T} (ha : Good a [n0, n1]) :
    ∃ q, (∀ r < P, IsWindow a (d r).xPencil.st (d r).getXPencilShape (q r)) ∧
      AllReturn P (fun r => if r = 0 then (d r).scatterXRoot o a else (d r).scatterX T o) q ∧
      ∀ rcv : ℕ → Arr T, (∀ r < P, Good (rcv r) (d r).getXPencilShape) →
        AllReturn P (fun r => if r = 0 then (d r).scatterXInplaceRoot o a (rcv r)
          else (d r).scatterXInplace o (rcv r)) q := by
  have e := d_eq hg hd
  rw [eq_mk2 ha]
  have key : ∀ rcv : ℕ → Arr T, (∀ r < P, Good (rcv r) (d r).getXPencilShape) →
      Runs P (fun r => if r = 0 then (d r).scatterXInplaceRoot o (mk2 n0 n1 (fun i j => at_ a [i, j])) (rcv r)
          else (d r).scatterXInplace o (rcv r)) (fun r => xPen n0 n1 P r (fun i j => at_ a [i, j])) := by
    intro rcv hrcv
    refine (scatterX_runs o hg hw (fun i j => at_ a [i, j]) rcv (fun r hr => ?_)).congr (fun r hr => ?_)
      (fun _ _ => rfl)
    · have := hrcv r hr; rw [e r hr] at this; exact this
    · rw [e r hr]
  refine ⟨_, fun r hr => ?_, ?_, fun rcv hrcv => (key rcv hrcv).allReturn⟩
  · rw [e r hr]; exact (isWindow_x hr _).2 rfl
  · refine ((key (fun r => Arr.zeros (d r).getXPencilShape) (fun r _ => good_zeros _)).congr
      (fun r hr => ?_) (fun _ _ => rfl)).allReturn
    by_cases hr0 : r = 0
    · rw [if_pos hr0, if_pos hr0, scatterXRoot_eq o (by rw [e r hr]; exact hr0)]; rfl
    · rw [if_neg hr0, if_neg hr0, scatterX_eq o (by rw [e r hr]; exact hr0)]; rfl

theorem C45_scatter_y {a : Arr T} (ha : Good a [n0, n1]) :
    ∃ q, (∀ r < P, IsWindow a (d r).yPencil.st (d r).getYPencilShape (q r)) ∧
      AllReturn P (fun r => if r = 0 then (d r).scatterYRoot o a else (d r).scatterY T o) q ∧
      ∀ rcv : ℕ → Arr T, (∀ r < P, Good (rcv r) (d r).getYPencilShape) →
        AllReturn P (fun r => if r = 0 then (d r).scatterYInplaceRoot o a (rcv r)
          else (d r).scatterYInplace o (rcv r)) q := by
  have e := d_eq hg hd
  rw [eq_mk2 ha]
  have key : ∀ rcv : ℕ → Arr T, (∀ r < P, Good (rcv r) (d r).getYPencilShape) →
      Runs P (fun r => if r = 0 then (d r).scatterYInplaceRoot o (mk2 n0 n1 (fun i j => at_ a [i, j])) (rcv r)
          else (d r).scatterYInplace o (rcv r)) (fun r => yPen n0 n1 P r (fun i j => at_ a [i, j])) := by
    intro rcv hrcv
    refine (scatterY_runs o hg hw (fun i j => at_ a [i, j]) rcv (fun r hr => ?_)).congr (fun r hr => ?_)
      (fun _ _ => rfl)
    · have := hrcv r hr; rw [e r hr] at this; exact this
    · rw [e r hr]
  refine ⟨_, fun r hr => ?_, ?_, fun rcv hrcv => (key rcv hrcv).allReturn⟩
  · rw [e r hr]; exact (isWindow_y hr _).2 rfl
  · refine ((key (fun r => Arr.zeros (d r).getYPencilShape) (fun r _ => good_zeros _)).congr
      (fun r hr => ?_) (fun _ _ => rfl)).allReturn
    by_cases hr0 : r = 0
    · rw [if_pos hr0, if_pos hr0, scatterYRoot_eq o (by rw [e r hr]; exact hr0)]; rfl
    · rw [if_neg hr0, if_neg hr0, scatterY_eq o (by rw [e r hr]; exact hr0)]; rfl

/-- C45: `all_gather_x` and `all_gather_y` give every rank the global array. -/
theorem C45_all_gather {a : Arr T} (ha : Good a [n0, n1]) {p rcv : ℕ → Arr T}
    (hrcv : ∀ r < P, Good (rcv r) [n0, n1]) :
    ((∀ r < P, IsWindow a (d r).xPencil.st (d r).getXPencilShape (p r)) →
      AllReturn P (fun r => (d r).allGatherX o (p r) (rcv r)) (fun _ => a)) ∧
    ((∀ r < P, IsWindow a (d r).yPencil.st (d r).getYPencilShape (p r)) →
      AllReturn P (fun r => (d r).allGatherY o (p r) (rcv r)) (fun _ => a)) := by
  have e := d_eq hg hd
  rw [eq_mk2 ha]
  refine ⟨fun hp => ?_, fun hp => ?_⟩
  · refine ((allGatherX_runs o hg hw (fun i j => at_ a [i, j]) rcv hrcv).congr (fun r hr => ?_)
      (fun _ _ => rfl)).allReturn
    have := hp r hr
    rw [e r hr] at this ⊢
    rw [(isWindow_x hr _).1 this]
  · refine ((allGatherY_runs o hg hw (fun i j => at_ a [i, j]) rcv hrcv).congr (fun r hr => ?_)
      (fun _ _ => rfl)).allReturn
    have := hp r hr
    rw [e r hr] at this ⊢
    rw [(isWindow_y hr _).1 this]

/-- C45: scattering and gathering again. -/
theorem C45_gather_scatter {a : Arr T} (ha : Good a [n0, n1]) :
    AllReturn P (fun r => if r = 0 then do
          let p ← (d r).scatterXRoot o a
          let b ← (d r).gatherXRoot o p
          pure (some b)
        else do
          let p ← (d r).scatterX T o
          (d r).gatherX o p
          pure none) (fun r => if r = 0 then some a else none) ∧
    AllReturn P (fun r => if r = 0 then do
          let p ← (d r).scatterYRoot o a
          let b ← (d r).gatherYRoot o p
          pure (some b)
        else do
          let p ← (d r).scatterY T o
          (d r).gatherY o p
          pure none) (fun r => if r = 0 then some a else none) := by
  have e := d_eq hg hd
  rw [eq_mk2 ha]
  constructor
  · have h1 := scatterX_runs o hg hw (fun i j => at_ a [i, j]) (fun r => Arr.zeros [n0, cnt n1 P r])
      (fun r _ => good_zeros _)
    have h2 := gatherX_runs o hg hw (fun i j => at_ a [i, j]) (Arr.zeros [n0, n1]) (good_zeros _)
    refine ((Runs.bind (q := fun r p => if r = 0
        then (decompOf n0 n1 P r).gatherXInplaceRoot o p (Arr.zeros [n0, n1]) >>= fun a => pure (some a)
        else (decompOf n0 n1 P r).gatherX o p >>= fun _ => pure none) h1 h2).congr
      (fun r hr => ?_) (fun _ _ => rfl)).allReturn
    rw [e r hr]
    by_cases hr0 : r = 0
    · subst hr0
      simp only [if_pos, scatterXRoot_eq o (show (decompOf n0 n1 P 0).nrank = 0 from rfl),
        gatherXRoot_eq o (show (decompOf n0 n1 P 0).nrank = 0 from rfl)]
      rfl
    · simp only [if_neg hr0, scatterX_eq o (show (decompOf n0 n1 P r).nrank ≠ 0 from hr0)]
      rfl
  · have h1 := scatterY_runs o hg hw (fun i j => at_ a [i, j]) (fun r => Arr.zeros [cnt n0 P r, n1])
      (fun r _ => good_zeros _)
    have h2 := gatherY_runs o hg hw (fun i j => at_ a [i, j]) (Arr.zeros [n0, n1]) (good_zeros _)
    refine ((Runs.bind (q := fun r p => if r = 0
        then (decompOf n0 n1 P r).gatherYInplaceRoot o p (Arr.zeros [n0, n1]) >>= fun a => pure (some a)
        else (decompOf n0 n1 P r).gatherY o p >>= fun _ => pure none) h1 h2).congr
      (fun r hr => ?_) (fun _ _ => rfl)).allReturn
    rw [e r hr]
    by_cases hr0 : r = 0
    · subst hr0
      simp only [if_pos, scatterYRoot_eq o (show (decompOf n0 n1 P 0).nrank = 0 from rfl),
        gatherYRoot_eq o (show (decompOf n0 n1 P 0).nrank = 0 from rfl)]
      rfl
    · simp only [if_neg hr0, scatterY_eq o (show (decompOf n0 n1 P r).nrank ≠ 0 from hr0)]
      rfl

/-- C45: gathering any pencils and scattering them again. -/
theorem C45_scatter_gather {p : ℕ → Arr T} :
    ((∀ r < P, Good (p r) (d r).getXPencilShape) →
      AllReturn P (fun r => if r = 0 then do
          let a ← (d r).gatherXRoot o (p r)
          (d r).scatterXRoot o a
        else do
          (d r).gatherX o (p r)
          (d r).scatterX T o) p) ∧
    ((∀ r < P, Good (p r) (d r).getYPencilShape) →
      AllReturn P (fun r => if r = 0 then do
          let a ← (d r).gatherYRoot o (p r)
          (d r).scatterYRoot o a
        else do
          (d r).gatherY o (p r)
          (d r).scatterY T o) p) := by
  have e := d_eq hg hd
  constructor
  · intro hp
    have hp' : ∀ r < P, Good (p r) [n0, cnt n1 P r] := fun r hr => by
      have := hp r hr; rw [e r hr] at this; exact this
    obtain ⟨f, hf⟩ := assembleX hg hp'
    have h1 := gatherX_runs o hg hw f (Arr.zeros [n0, n1]) (good_zeros _)
    have h2 := scatterX_runs o hg hw f (fun r => Arr.zeros [n0, cnt n1 P r]) (fun r _ => good_zeros _)
    refine ((Runs.bind (q := fun r x => if r = 0
        then (decompOf n0 n1 P r).scatterXInplaceRoot o (x.getD (Arr.zeros [n0, n1]))
          (Arr.zeros [n0, cnt n1 P r])
        else (decompOf n0 n1 P r).scatterXInplace o (Arr.zeros [n0, cnt n1 P r])) h1
      (h2.congr (fun r hr => ?_) (fun _ _ => rfl))).congr (fun r hr => ?_) hf).allReturn
    · by_cases hr0 : r = 0
      · simp only [if_pos hr0]; rfl
      · simp only [if_neg hr0]
    · rw [e r hr, hf r hr]
      by_cases hr0 : r = 0
      · subst hr0
        simp only [if_pos, scatterXRoot_eq o (show (decompOf n0 n1 P 0).nrank = 0 from rfl),
          gatherXRoot_eq o (show (decompOf n0 n1 P 0).nrank = 0 from rfl)]
        rw [Mpi.Prog.bind_assoc]; rfl
      · simp only [if_neg hr0, scatterX_eq o (show (decompOf n0 n1 P r).nrank ≠ 0 from hr0)]
        rw [Mpi.Prog.bind_assoc]; rfl
  · intro hp
    have hp' : ∀ r < P, Good (p r) [cnt n0 P r, n1] := fun r hr => by
      have := hp r hr; rw [e r hr] at this; exact this
    obtain ⟨f, hf⟩ := assembleY hg hp'
    have h1 := gatherY_runs o hg hw f (Arr.zeros [n0, n1]) (good_zeros _)
    have h2 := scatterY_runs o hg hw f (fun r => Arr.zeros [cnt n0 P r, n1]) (fun r _ => good_zeros _)
    refine ((Runs.bind (q := fun r x => if r = 0
        then (decompOf n0 n1 P r).scatterYInplaceRoot o (x.getD (Arr.zeros [n0, n1]))
          (Arr.zeros [cnt n0 P r, n1])
        else (decompOf n0 n1 P r).scatterYInplace o (Arr.zeros [cnt n0 P r, n1])) h1
      (h2.congr (fun r hr => ?_) (fun _ _ => rfl))).congr (fun r hr => ?_) hf).allReturn
    · by_cases hr0 : r = 0
      · simp only [if_pos hr0]; rfl
      · simp only [if_neg hr0]
    · rw [e r hr, hf r hr]
      by_cases hr0 : r = 0
      · subst hr0
        simp only [if_pos, scatterYRoot_eq o (show (decompOf n0 n1 P 0).nrank = 0 from rfl),
          gatherYRoot_eq o (show (decompOf n0 n1 P 0).nrank = 0 from rfl)]
        rw [Mpi.Prog.bind_assoc]; rfl
      · simp only [if_neg hr0, scatterY_eq o (show (decompOf n0 n1 P r).nrank ≠ 0 from hr0)]
        rw [Mpi.Prog.bind_assoc]; rfl

end

/-- C45: the routines for the root panic on other ranks, and conversely, before anything is sent. -/
theorem C45_wrong_rank_panics (o : Mode) (d : Decomp2d) (a b : Arr T) :
    (d.nrank ≠ 0 → d.gatherXRoot o a = .ret (err .panic) ∧ d.gatherYRoot o a = .ret (err .panic) ∧
      d.gatherXInplaceRoot o a b = .ret (err .panic) ∧ d.gatherYInplaceRoot o a b = .ret (err .panic) ∧
      d.scatterXRoot o a = .ret (err .panic) ∧ d.scatterYRoot o a = .ret (err .panic) ∧
      d.scatterXInplaceRoot o a b = .ret (err .panic) ∧ d.scatterYInplaceRoot o a b = .ret (err .panic)) ∧
    (d.nrank = 0 → d.gatherX o a = .ret (err .panic) ∧ d.gatherY o a = .ret (err .panic) ∧
      d.scatterX T o = .ret (err .panic) ∧ d.scatterY T o = .ret (err .panic) ∧
      d.scatterXInplace o a = .ret (err .panic) ∧ d.scatterYInplace o a = .ret (err .panic)) := by
  have chk : ∀ (a : Arr T) s, checkShape a s = ok () ∨ checkShape a s = err .panic := by
    intro a s
    unfold checkShape assertR
    split
    · exact .inl rfl
    · exact .inr rfl
  have lx := prod_ok_or_panic o d.xPencil.sz
  have ly := prod_ok_or_panic o d.yPencil.sz
  refine ⟨fun h => ⟨?_, ?_, ?_, ?_, ?_, ?_, ?_, ?_⟩, fun h => ?_⟩
  · unfold Decomp2d.gatherXRoot; rw [assertR_panic h]; rfl
  · unfold Decomp2d.gatherYRoot; rw [assertR_panic h]; rfl
  · unfold Decomp2d.gatherXInplaceRoot Dist.length
    rw [assertR_panic h]
    rcases chk a d.xPencil.sz with h1 | h1 <;> rw [h1] <;> try rfl
    rcases lx with ⟨n, h2⟩ | h2 <;> rw [h2] <;> rfl
  · unfold Decomp2d.gatherYInplaceRoot Dist.length
    rw [assertR_panic h]
    rcases chk a d.yPencil.sz with h1 | h1 <;> rw [h1] <;> try rfl
    rcases ly with ⟨n, h2⟩ | h2 <;> rw [h2] <;> rfl
  · unfold Decomp2d.scatterXRoot; rw [assertR_panic h]; rfl
  · unfold Decomp2d.scatterYRoot; rw [assertR_panic h]; rfl
  · unfold Decomp2d.scatterXInplaceRoot Dist.length
    rw [assertR_panic h]
    rcases chk a d.nGlobal with h1 | h1 <;> rw [h1] <;> try rfl
    rcases chk b d.xPencil.sz with h1 | h1 <;> rw [h1] <;> try rfl
    rcases lx with ⟨n, h2⟩ | h2 <;> rw [h2] <;> rfl
  · unfold Decomp2d.scatterYInplaceRoot Dist.length
    rw [assertR_panic h]
    rcases chk a d.nGlobal with h1 | h1 <;> rw [h1] <;> try rfl
    rcases chk b d.yPencil.sz with h1 | h1 <;> rw [h1] <;> try rfl
    rcases ly with ⟨n, h2⟩ | h2 <;> rw [h2] <;> rfl
  · have h' : ¬ d.nrank ≠ 0 := fun h' => h' h
    refine ⟨?_, ?_, ?_, ?_, ?_, ?_⟩
    · unfold Decomp2d.gatherX Dist.length
      rw [assertR_panic h']
      rcases chk a d.xPencil.sz with h1 | h1 <;> rw [h1] <;> try rfl
      rcases lx with ⟨n, h2⟩ | h2 <;> rw [h2] <;> rfl
    · unfold Decomp2d.gatherY Dist.length
      rw [assertR_panic h']
      rcases chk a d.yPencil.sz with h1 | h1 <;> rw [h1] <;> try rfl
      rcases ly with ⟨n, h2⟩ | h2 <;> rw [h2] <;> rfl
    · unfold Decomp2d.scatterX; rw [assertR_panic h']; rfl
    · unfold Decomp2d.scatterY; rw [assertR_panic h']; rfl
    · unfold Decomp2d.scatterXInplace Dist.length
      rw [assertR_panic h']
      rcases chk a d.xPencil.sz with h1 | h1 <;> rw [h1] <;> try rfl
      rcases lx with ⟨n, h2⟩ | h2 <;> rw [h2] <;> rfl
    · unfold Decomp2d.scatterYInplace Dist.length
      rw [assertR_panic h']
      rcases chk a d.yPencil.sz with h1 | h1 <;> rw [h1] <;> try rfl
      rcases ly with ⟨n, h2⟩ | h2 <;> rw [h2] <;> rfl

end

/-! ### C46: communication counts -/

/-- C46: in `transpose_x_to_y` (`cx`: sending, `cy`: receiving) and `transpose_y_to_x` (the other way
round) the count rank `r` has for rank `s` is the count `s` has for `r`; it is the number of points
common to both pencils; displacements are running sums, and the counts add up to the size of the
local array. -/
theorem C46_counts_all_to_all {o : Mode} {n0 n1 P : ℕ} {d : ℕ → Decomp2d} (hg : Grid n0 n1 P)
    (hd : ∀ r < P, Decomp2d.new o P r [n0, n1] = ok (d r))
    (hx : ∀ r < P, (d r).getXPencilShape.prod < 2 ^ 31)
    (hy : ∀ r < P, (d r).getYPencilShape.prod < 2 ^ 31) :
    ∃ cx dx cy dy : ℕ → List ℤ, ∀ r < P,
      (d r).xPencil.countsAllToAll o (d r).yPencil = ok (cx r, dx r) ∧
      (d r).yPencil.countsAllToAll o (d r).xPencil = ok (cy r, dy r) ∧
      (cx r).length = P ∧ (cy r).length = P ∧
      (∀ s < P, nth (cx r) s = nth (cy s) r ∧
        nth (cx r) s = nth (d s).getYPencilShape 0 * nth (d r).getXPencilShape 1) ∧
      RunningSums (cx r) (dx r) ∧ RunningSums (cy r) (dy r) ∧
      (cx r).sum = (d r).getXPencilShape.prod ∧ (cy r).sum = (d r).getYPencilShape.prod := by
  have e := d_eq hg hd
  have hx' := small_x hg hd hx
  have hy' := small_y hg hd hy
  refine ⟨fun r => (List.range P).map (fun s => ((cnt n0 P s * cnt n1 P r : ℕ) : ℤ)),
    fun r => (List.range P).map (fun s => ((off n0 P s * cnt n1 P r : ℕ) : ℤ)),
    fun r => (List.range P).map (fun s => ((cnt n1 P s * cnt n0 P r : ℕ) : ℤ)),
    fun r => (List.range P).map (fun s => ((off n1 P s * cnt n0 P r : ℕ) : ℤ)), fun r hr => ?_⟩
  obtain ⟨s1, t1⟩ := runningSums_map (P := P) (c := fun s => cnt n0 P s * cnt n1 P r)
    (D := fun s => off n0 P s * cnt n1 P r) (by simp [off_zero]) (fun s => by rw [off_succ, Nat.add_mul])
  obtain ⟨s2, t2⟩ := runningSums_map (P := P) (c := fun s => cnt n1 P s * cnt n0 P r)
    (D := fun s => off n1 P s * cnt n0 P r) (by simp [off_zero]) (fun s => by rw [off_succ, Nat.add_mul])
  refine ⟨?_, ?_, by simp, by simp, fun s hs => ⟨?_, ?_⟩, s1, s2, ?_, ?_⟩
  · rw [e r hr]; exact countsXY o hg.pos hr (hx' r hr)
  · rw [e r hr]; exact countsYX o hg.pos hr (hy' r hr)
  · dsimp only
    rw [nth_map_range _ _ _ hs, nth_map_range _ _ _ hr, mul_comm]
  · dsimp only
    rw [nth_map_range _ _ _ hs, e r hr, e s hs]
    change ((cnt n0 P s * cnt n1 P r : ℕ) : ℤ) = (cnt n0 P s : ℕ) * (cnt n1 P r : ℕ)
    push_cast; rfl
  · rw [t1, e r hr, off_P _ hg.pos]
    change _ = (([n0, cnt n1 P r].prod : ℕ) : ℤ)
    simp
  · rw [t2, e r hr, off_P _ hg.pos]
    change _ = (([cnt n0 P r, n1].prod : ℕ) : ℤ)
    simp [mul_comm]

/-- C46: the counts of gather, scatter and all-gather are the sizes of the pencils; they add up to
the size of the global array. -/
theorem C46_counts_all_gather {o : Mode} {n0 n1 P : ℕ} {d : ℕ → Decomp2d} (hg : Grid n0 n1 P)
    (hd : ∀ r < P, Decomp2d.new o P r [n0, n1] = ok (d r)) (hw : n0 * n1 < 2 ^ 31) :
    ∃ cx dx cy dy : List ℤ, (∀ r < P,
      (d r).xPencil.countsAllGather o = ok (cx, dx) ∧ (d r).yPencil.countsAllGather o = ok (cy, dy) ∧
      nth cx r = (d r).getXPencilShape.prod ∧ nth cy r = (d r).getYPencilShape.prod) ∧
      cx.length = P ∧ cy.length = P ∧ RunningSums cx dx ∧ RunningSums cy dy ∧
      cx.sum = n0 * n1 ∧ cy.sum = n0 * n1 := by
  have e := d_eq hg hd
  obtain ⟨s1, t1⟩ := runningSums_map (P := P) (c := fun s => n0 * cnt n1 P s)
    (D := fun s => n0 * off n1 P s) (by simp [off_zero]) (fun s => by rw [off_succ, Nat.mul_add])
  obtain ⟨s2, t2⟩ := runningSums_map (P := P) (c := fun s => cnt n0 P s * n1)
    (D := fun s => off n0 P s * n1) (by simp [off_zero]) (fun s => by rw [off_succ, Nat.add_mul])
  refine ⟨_, _, _, _, fun r hr => ⟨?_, ?_, ?_, ?_⟩, ?_, ?_, s1, s2, ?_, ?_⟩
  · rw [e r hr]; exact countsX o hg.pos hw
  · rw [e r hr]; exact countsY o hg.pos hw
  · rw [nth_map_range _ _ _ hr, e r hr]
    change _ = (([n0, cnt n1 P r].prod : ℕ) : ℤ)
    simp
  · rw [nth_map_range _ _ _ hr, e r hr]
    change _ = (([cnt n0 P r, n1].prod : ℕ) : ℤ)
    simp
  · simp
  · simp
  · rw [t1, off_P _ hg.pos]; push_cast; rfl
  · rw [t2, off_P _ hg.pos]; push_cast; rfl

/-- the hypotheses of C44-C46 hold for a 5 × 7 grid on 3 ranks, with a non-constant array -/
example : ∃ d : ℕ → Decomp2d, Grid 5 7 3 ∧ (∀ r < 3, Decomp2d.new .debug 3 r [5, 7] = ok (d r)) ∧
    (∀ r < 3, (d r).getXPencilShape.prod < 2 ^ 31) ∧ (∀ r < 3, (d r).getYPencilShape.prod < 2 ^ 31) ∧
    (d 0).getXPencilShape = [5, 2] ∧ (d 2).getXPencilShape = [5, 3] ∧ (d 0).getYPencilShape = [1, 7] ∧
    ∃ a : Arr ℤ, Good a [5, 7] ∧ at_ a [1, 2] ≠ at_ a [2, 1] := by
  have hg : Grid 5 7 3 := ⟨by omega, by omega, by omega, by norm_num, by norm_num⟩
  refine ⟨fun r => decompOf 5 7 3 r, hg, fun r hr => Decomp2d.new_ok _ hg hr, ?_, ?_, by decide,
    by decide, by decide, mk2 5 7 (fun i j => (i : ℤ) + 2 * j), good_mk2 _ _ _, ?_⟩
  · intro r hr; interval_cases r <;> decide
  · intro r hr; interval_cases r <;> decide
  · rw [at_mk2 _ (by omega) (by omega), at_mk2 _ (by omega) (by omega)]; decide

/-! ### C47: lookup of decompositions -/

/-- C47: after any history of inserts, looking up a global shape returns the decomposition first
inserted with this shape, and panics if there is none. -/
theorem C47_lookup (hist : List Decomp2d) (shape : List ℕ) :
    (hist.foldl DecompHandler.insert DecompHandler.new).getDecomp shape
      = (hist.find? (fun d => d.getGlobalShape = shape)).elim (err .panic) ok :=
  (DecompHandler.lookup_foldl hist).2.2 shape

/-- C47: the result of a lookup has the shape looked for, and has been inserted. -/
theorem C47_lookup_shape {hist : List Decomp2d} {shape : List ℕ} {d : Decomp2d}
    (h : (hist.foldl DecompHandler.insert DecompHandler.new).getDecomp shape = ok d) :
    d.getGlobalShape = shape ∧ d ∈ hist := by
  rw [C47_lookup] at h
  cases hf : hist.find? (fun d => d.getGlobalShape = shape) with
  | none => rw [hf] at h; cases h
  | some e =>
    rw [hf] at h
    cases h
    exact ⟨by simpa using List.find?_some hf, List.mem_of_find?_eq_some hf⟩

/-- C47: a lookup fails exactly if the shape has never been inserted. -/
theorem C47_lookup_panics_iff (hist : List Decomp2d) (shape : List ℕ) :
    ((∃ e, (hist.foldl DecompHandler.insert DecompHandler.new).getDecomp shape = err e) ↔
      ∀ d ∈ hist, d.getGlobalShape ≠ shape) ∧
    ((hist.foldl DecompHandler.insert DecompHandler.new).getDecomp shape = err .panic ↔
      ∀ d ∈ hist, d.getGlobalShape ≠ shape) := by
  rw [C47_lookup]
  cases hf : hist.find? (fun d => d.getGlobalShape = shape) with
  | none =>
    have : ∀ d ∈ hist, d.getGlobalShape ≠ shape := by simpa using hf
    exact ⟨⟨fun _ => this, fun _ => ⟨_, rfl⟩⟩, ⟨fun _ => this, fun _ => rfl⟩⟩
  | some d =>
    have h1 : d.getGlobalShape = shape := by simpa using List.find?_some hf
    have h2 := List.mem_of_find?_eq_some hf
    refine ⟨⟨?_, fun h => absurd h1 (h d h2)⟩, ⟨?_, fun h => absurd h1 (h d h2)⟩⟩
    · rintro ⟨e, he⟩; cases he
    · intro he; cases he

/-- C47: inserting a shape again does not change any lookup. -/
theorem C47_duplicate_insert {hist : List Decomp2d} {d : Decomp2d}
    (h : ∃ e ∈ hist, e.getGlobalShape = d.getGlobalShape) (shape : List ℕ) :
    ((hist ++ [d]).foldl DecompHandler.insert DecompHandler.new).getDecomp shape
      = (hist.foldl DecompHandler.insert DecompHandler.new).getDecomp shape := by
  rw [C47_lookup, C47_lookup, List.find?_append]
  cases hf : hist.find? (fun d => d.getGlobalShape = shape) with
  | some e => rfl
  | none =>
    have hn : ∀ e ∈ hist, e.getGlobalShape ≠ shape := by simpa using hf
    obtain ⟨e, he, hed⟩ := h
    have : d.getGlobalShape ≠ shape := fun h' => hn e he (hed.trans h')
    simp [this]

example : ∃ d e : Decomp2d, d.getGlobalShape ≠ e.getGlobalShape ∧
    ([d, e, d].foldl DecompHandler.insert DecompHandler.new).getDecomp [8, 6] = ok e ∧
    ([d, e, d].foldl DecompHandler.insert DecompHandler.new).getDecomp [6, 8] = err .panic :=
  ⟨decompOf 5 7 3 1, decompOf 8 6 3 1, by decide, rfl, rfl⟩

/-! ### C56: scalars -/

/-- C56: `broadcast_scalar` gives every rank the value of rank 0. -/
theorem C56_broadcast_scalar {T : Type} {P : ℕ} (hP : 0 < P) (x : ℕ → T) :
    AllReturn P (fun r => broadcastScalar r (x r)) (fun _ => x 0) :=
  (broadcastScalar_runs hP x).allReturn

/-- C56: `gather_sum` gives rank 0 the sum of the values of all ranks, and leaves the results of the
other ranks alone. -/
theorem C56_gather_sum {T : Type} [AddCommMonoid T] {P : ℕ} (hP : 0 < P) (hw : P < 2 ^ 31)
    (x result : ℕ → T) :
    AllReturn P (fun r => gatherSum P r (x r) (result r))
      (fun r => if r = 0 then ∑ s ∈ Finset.range P, x s else result r) :=
  (gatherSum_runs hP hw x result).allReturn

/-- C56: `all_gather_sum` gives every rank the sum of the values of all ranks. -/
theorem C56_all_gather_sum {T : Type} [AddCommMonoid T] {P : ℕ} (hP : 0 < P) (hw : P < 2 ^ 31)
    (x result : ℕ → T) :
    AllReturn P (fun r => allGatherSum P (x r) (result r)) (fun _ => ∑ s ∈ Finset.range P, x s) :=
  (allGatherSum_runs hP hw x result).allReturn

/-- there are executions: on 2 ranks, `all_gather_sum` of 3 and 4 -/
example : AllReturn 2 (fun r => allGatherSum 2 (if r = 0 then (3 : ℤ) else 4) 0) (fun _ => 7) :=
  C56_all_gather_sum (by omega) (by omega) (fun r => if r = 0 then (3 : ℤ) else 4) (fun _ => 0)

end Verif.Props
