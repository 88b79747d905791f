/-
Properties of the communication on large arrays (C99): MPI counts and displacements are `i32`.
-/
import Verif.Proof.LargeMpi
import Verif.Props.Mpi

namespace Verif.Props
open Res Spec Mpi

/-! ### counts and displacements -/

/-- C99: without overflow checks (release builds) the counts and displacements of gather, scatter and
all-gather are always returned; they are the exact numbers modulo 2³², as `i32`.  So they are right
exactly as far as the exact numbers are `i32`s (`IsI32Of.eq_iff`). -/
theorem C99_counts_all_gather_release (d : Dist) :
    ∃ c D, d.countsAllGather .release = ok (c, D) ∧
      List.Forall₂ (fun z s => IsI32Of z (s.prod : ℕ)) c d.szProcs ∧
      D.length = d.szProcs.length ∧ ∀ k < d.szProcs.length,
        IsI32Of (nth D k) ((d.szProcs.take k).map (fun s => ((s.prod : ℕ) : ℤ))).sum := by
  have hdvd : (2 ^ 32 : ℤ) ∣ 2 ^ 64 := ⟨2 ^ 32, by norm_num⟩
  obtain ⟨c, h1, h2⟩ := mapR_rel (f := fun x => do pure (toI32 (← Mode.release.prod x)))
    (R := fun z s => IsI32Of z (s.prod : ℕ)) d.szProcs (fun s _ => by
      obtain ⟨z, h1, h2⟩ := prod_release s
      exact ⟨toI32 z, by rw [h1]; rfl, (toI32_is z).trans (hdvd.trans h2)⟩)
  have h3 : List.Forall₂ (fun c x => (2 ^ 32 : ℤ) ∣ c - x) c
      (d.szProcs.map (fun s => ((s.prod : ℕ) : ℤ))) := by
    rw [List.forall₂_map_right_iff]
    exact h2.imp (fun _ _ h => h.2)
  obtain ⟨D, h4, h5, h6⟩ := displs_release h3 0 0 (by unfold IsI32Of InI32; norm_num)
  refine ⟨c, D, ?_, h2, by rw [h5, h2.length_eq], fun k hk => ?_⟩
  · unfold Dist.countsAllGather
    rw [h1, bind_ok, h4]; rfl
  · have := h6 k (by rw [h2.length_eq]; exact hk)
    rwa [zero_add, ← List.map_take] at this

/-- C99: with overflow checks (debug builds) they are returned exactly if all products fit into a
`usize` and all running sums of the counts - including the sum of all of them, which is not needed
for anything - into an `i32`; then displacements are the running sums of the counts.  The counts
themselves are converted without a check.  Otherwise the call panics. -/
theorem C99_counts_all_gather_debug (d : Dist) (hu : ∀ s ∈ d.szProcs, ∀ x ∈ s, x < usizeW) :
    ∃ c : List ℤ, ((∀ s ∈ d.szProcs, ∀ k, (s.take k).prod < usizeW) →
      List.Forall₂ (fun z s => IsI32Of z (s.prod : ℕ)) c d.szProcs) ∧
      ((∀ s ∈ d.szProcs, ∀ k, (s.take k).prod < usizeW) ∧ (∀ k ≤ c.length, InI32 (c.take k).sum) →
        ∃ D, d.countsAllGather .debug = ok (c, D) ∧ D.length = c.length ∧
          ∀ k < c.length, nth D k = (c.take k).sum) ∧
      (¬ ((∀ s ∈ d.szProcs, ∀ k, (s.take k).prod < usizeW) ∧ ∀ k ≤ c.length, InI32 (c.take k).sum) →
        d.countsAllGather .debug = err .panic) := by
  rcases mapR_or (f := fun x => do pure (toI32 (← Mode.debug.prod x)))
    (R := fun z s => IsI32Of z (s.prod : ℕ)) (C := fun s => ∀ k, (s.take k).prod < usizeW) d.szProcs
    (fun s hs => by
      rcases prod_debug s (hu s hs) with ⟨h1, h2⟩ | ⟨h1, h2⟩
      · exact .inl ⟨h1, toI32 s.prod, by rw [h2]; rfl, toI32_is _⟩
      · exact .inr ⟨h1, by rw [h2]; rfl⟩) with ⟨h1, c, h2, h3⟩ | ⟨h1, h2⟩
  · refine ⟨c, fun _ => h3, ?_, ?_⟩
    · rintro ⟨_, h4⟩
      rcases displs_debug c 0 (by unfold InI32; norm_num) with ⟨_, D, h5, h6, h7⟩ | ⟨h5, _⟩
      · exact ⟨D, by unfold Dist.countsAllGather; rw [h2, bind_ok, h5]; rfl, h6,
          fun k hk => by rw [h7 k hk, zero_add]⟩
      · exact absurd (fun k hk => by rw [zero_add]; exact h4 k hk) h5
    · intro h4
      rcases displs_debug c 0 (by unfold InI32; norm_num) with ⟨h5, _⟩ | ⟨_, h5⟩
      · exact absurd ⟨h1, fun k hk => by rw [← zero_add (List.sum _)]; exact h5 k hk⟩ h4
      · unfold Dist.countsAllGather; rw [h2, bind_ok, h5]; rfl
  · exact ⟨[], fun h => absurd h h1, fun h => absurd h.1 h1,
      fun _ => by unfold Dist.countsAllGather; rw [h2]; rfl⟩

private theorem sum_le_of_nonneg {l : List ℤ} (h : ∀ x ∈ l, 0 ≤ x) (k : ℕ) :
    0 ≤ (l.take k).sum ∧ (l.take k).sum ≤ l.sum := by
  have h1 := List.sum_nonneg (l := l.take k) (fun x hx => h x (List.mem_of_mem_take hx))
  have h2 := List.sum_nonneg (l := l.drop k) (fun x hx => h x (List.mem_of_mem_drop hx))
  have h3 : (l.take k).sum + (l.drop k).sum = l.sum := by rw [← List.sum_append, List.take_append_drop]
  exact ⟨h1, by omega⟩

/-- C99: if the number of points of every single rank is an `i32`, then gather, scatter and all-gather
have the exact counts and displacements in a debug build if the number of points of the grid is an
`i32`, and panic otherwise. -/
theorem C99_counts_all_gather_limit (d : Dist) (hs : ∀ s ∈ d.szProcs, s.prod < 2 ^ 31)
    (hu : ∀ s ∈ d.szProcs, ∀ k, (s.take k).prod < usizeW) :
    ((d.szProcs.map List.prod).sum < 2 ^ 31 →
      ∃ D, d.countsAllGather .debug = ok (d.szProcs.map (fun s => ((s.prod : ℕ) : ℤ)), D) ∧
        RunningSums (d.szProcs.map (fun s => ((s.prod : ℕ) : ℤ))) D) ∧
    (2 ^ 31 ≤ (d.szProcs.map List.prod).sum → d.countsAllGather .debug = err .panic) := by
  have e : mapR (fun x => do pure (toI32 (← Mode.debug.prod x))) d.szProcs
      = ok (d.szProcs.map (fun s => ((s.prod : ℕ) : ℤ))) := by
    refine mapR_ok _ (fun s h => ?_)
    have hp : Mode.debug.prod s = ok s.prod := by
      cases s with
      | nil => rfl
      | cons a l =>
        have ha := hu _ h 1
        simp only [List.take_succ_cons, List.take_zero, List.prod_cons, List.prod_nil, mul_one] at ha
        rcases prod_debug_aux l a ha with ⟨_, h2⟩ | ⟨h1, _⟩
        · rw [List.prod_cons]; exact h2
        · refine absurd (fun k => ?_) h1
          have := hu _ h (k + 1)
          rwa [List.take_succ_cons, List.prod_cons] at this
    rw [hp, bind_ok]
    exact congrArg ok (toI32_of_lt (hs s h))
  have hsum : (d.szProcs.map (fun s => ((s.prod : ℕ) : ℤ))).sum
      = ((d.szProcs.map List.prod).sum : ℕ) := by
    rw [Nat.cast_list_sum, List.map_map]; rfl
  set c := d.szProcs.map (fun s => ((s.prod : ℕ) : ℤ)) with hc
  have hnn : ∀ x ∈ c, 0 ≤ x := by
    intro x hx
    obtain ⟨s, _, rfl⟩ := List.mem_map.1 hx
    exact Int.natCast_nonneg _
  refine ⟨fun h => ?_, fun h => ?_⟩
  · rcases displs_debug c 0 (by unfold InI32; norm_num) with ⟨_, D, h5, h6, h7⟩ | ⟨h5, _⟩
    · refine ⟨D, by unfold Dist.countsAllGather; rw [e, bind_ok, h5]; rfl, h6, hnn, fun k hk => ?_⟩
      rw [h7 k hk, zero_add]
    · refine absurd (fun k _ => ?_) h5
      have := sum_le_of_nonneg hnn k
      unfold InI32
      rw [hsum] at this
      constructor <;> omega
  · rcases displs_debug c 0 (by unfold InI32; norm_num) with ⟨h5, _⟩ | ⟨_, h5⟩
    · have := (h5 c.length le_rfl).2
      rw [zero_add, List.take_length, hsum] at this
      omega
    · unfold Dist.countsAllGather; rw [e, bind_ok, h5]; rfl

/-- C99: the same for the transposes: without overflow checks, counts and displacements are the exact
numbers of points modulo 2³², for any size of the grid. -/
theorem C99_counts_all_to_all_release {n0 n1 P : ℕ} {d : ℕ → Decomp2d} (hg : Grid n0 n1 P)
    (hd : ∀ r < P, Decomp2d.new .release P r [n0, n1] = ok (d r)) {r : ℕ} (hr : r < P) :
    ∃ cx dx cy dy, (d r).xPencil.countsAllToAll .release (d r).yPencil = ok (cx, dx) ∧
      (d r).yPencil.countsAllToAll .release (d r).xPencil = ok (cy, dy) ∧
      cx.length = P ∧ dx.length = P ∧ cy.length = P ∧ dy.length = P ∧ ∀ s < P,
        IsI32Of (nth cx s) (nth (d s).getYPencilShape 0 * nth (d r).getXPencilShape 1) ∧
        IsI32Of (nth dx s) (nth (d s).yPencil.st 0 * nth (d r).getXPencilShape 1) ∧
        IsI32Of (nth cy s) (nth (d s).getXPencilShape 1 * nth (d r).getYPencilShape 0) ∧
        IsI32Of (nth dy s) (nth (d s).xPencil.st 1 * nth (d r).getYPencilShape 0) := by
  have e := d_eq hg hd
  have hdvd : (2 ^ 32 : ℤ) ∣ 2 ^ 64 := ⟨2 ^ 32, by norm_num⟩
  -- the exchange of `cnt n P s · m` points
  have key : ∀ (n m : ℕ) (l : List (List ℕ)) (f : List ℕ → Res ℤ),
      l.length = P → (∀ s < P, ∀ x, l[s]? = some x → ∃ z, Mode.release.mul (cnt n P s) m = ok z ∧
        f x = ok (toI32 z)) →
      ∃ c D, mapR f l = ok c ∧ Dist.displs .release 0 c = ok D ∧ c.length = P ∧ D.length = P ∧
        ∀ s < P, IsI32Of (nth c s) ((cnt n P s * m : ℕ) : ℤ) ∧
          IsI32Of (nth D s) ((off n P s * m : ℕ) : ℤ) := by
    intro n m l f hl hf
    obtain ⟨c, h1, h2, h3⟩ := mapR_cnt n m l f hl hf
    have h4 : List.Forall₂ (fun c x => (2 ^ 32 : ℤ) ∣ c - x) c
        ((List.range P).map (fun s => ((cnt n P s * m : ℕ) : ℤ))) := by
      rw [List.forall₂_iff_get]
      refine ⟨by simp [h2], fun i hi hi' => ?_⟩
      have h5 := (h3 i (h2 ▸ hi)).2
      have h6 : ((List.range P).map (fun s => ((cnt n P s * m : ℕ) : ℤ))).get ⟨i, hi'⟩
          = ((cnt n P i * m : ℕ) : ℤ) := by
        simp only [List.get_eq_getElem, List.getElem_map, List.getElem_range]
      have h7 : c.get ⟨i, hi⟩ = nth c i := by rw [nth_eq_getElem _ _ hi, List.get_eq_getElem]
      rw [h6, h7]
      exact h5
    obtain ⟨D, h5, h6, h7⟩ := displs_release h4 0 0 (by unfold IsI32Of InI32; norm_num)
    refine ⟨c, D, h1, h5, h2, h6.trans h2, fun s hs => ⟨h3 s hs, ?_⟩⟩
    have := h7 s (h2.symm ▸ hs)
    rw [zero_add, ← List.map_take, List.take_range, min_eq_left hs.le] at this
    rwa [sum_cnt_list] at this
  obtain ⟨cx, dx, a1, a2, a3, a4, a5⟩ := key n0 (cnt n1 P r) (d r).yPencil.szProcs
    (fun x => do pure (toI32 (← Mode.release.mul (← rdC x (d r).xPencil.axisContig)
      (← rdC (d r).xPencil.sz (d r).yPencil.axisContig)))) (by rw [e r hr]; simp [decompOf])
    (fun s hs x hx => by
      rw [e r hr] at hx ⊢
      obtain ⟨z, h1, _⟩ := mul_release (cnt n0 P s) (cnt n1 P r)
      have : x = [cnt n0 P s, n1] := by simpa [decompOf, hs, eq_comm] using hx
      subst this
      exact ⟨z, h1, by
        change (Mode.release.mul (cnt n0 P s) (cnt n1 P r) >>= fun y => pure (toI32 y)) = _
        rw [h1]; rfl⟩)
  obtain ⟨cy, dy, b1, b2, b3, b4, b5⟩ := key n1 (cnt n0 P r) (d r).xPencil.szProcs
    (fun x => do pure (toI32 (← Mode.release.mul (← rdC x (d r).yPencil.axisContig)
      (← rdC (d r).yPencil.sz (d r).xPencil.axisContig)))) (by rw [e r hr]; simp [decompOf])
    (fun s hs x hx => by
      rw [e r hr] at hx ⊢
      obtain ⟨z, h1, _⟩ := mul_release (cnt n1 P s) (cnt n0 P r)
      have : x = [n0, cnt n1 P s] := by simpa [decompOf, hs, eq_comm] using hx
      subst this
      exact ⟨z, h1, by
        change (Mode.release.mul (cnt n1 P s) (cnt n0 P r) >>= fun y => pure (toI32 y)) = _
        rw [h1]; rfl⟩)
  refine ⟨cx, dx, cy, dy, ?_, ?_, a3, a4, b3, b4, fun s hs => ?_⟩
  · unfold Dist.countsAllToAll; rw [a1, bind_ok, a2]; rfl
  · unfold Dist.countsAllToAll; rw [b1, bind_ok, b2]; rfl
  · have hx := a5 s hs
    have hy := b5 s hs
    rw [e s hs, e r hr]
    push_cast at hx hy
    exact ⟨hx.1, hx.2, hy.1, hy.2⟩

/-! ### the collective operations -/

section
variable {T : Type} [Zero T] {o : Mode} {n0 n1 P : ℕ} {d : ℕ → Decomp2d}

/-- C99: on a rank with a pencil of 2³¹ points or more both transposes panic, in any build, before
anything is sent - whatever their arguments. -/
theorem C99_transpose_panics (hg : Grid n0 n1 P) (hw : n0 * n1 < usizeW)
    (hd : ∀ r < P, Decomp2d.new o P r [n0, n1] = ok (d r)) {r : ℕ} (hr : r < P)
    (h : 2 ^ 31 ≤ (d r).getXPencilShape.prod ∨ 2 ^ 31 ≤ (d r).getYPencilShape.prod) (a b : Arr T) :
    (d r).transposeXToY o a b = .ret (err .panic) ∧ (d r).transposeYToX o a b = .ret (err .panic) := by
  rw [d_eq hg hd r hr] at h ⊢
  have h' : 2 ^ 31 ≤ n0 * cnt n1 P r ∨ 2 ^ 31 ≤ cnt n0 P r * n1 := by
    simpa [Decomp2d.getXPencilShape, Decomp2d.getYPencilShape, decompOf] using h
  exact ⟨transposeXToY_panics o hg.pos hr hw h' a b, transposeYToX_panics o hg.pos hr hw h' a b⟩

/-- C99: if any rank has such a pencil, no rank returns from a transpose, in any interleaving: large
arrays are never transposed wrongly.  (Otherwise all ranks return the right pencils: C44.) -/
theorem C99_transpose_none_returns (hg : Grid n0 n1 P) (hw : n0 * n1 < usizeW)
    (hd : ∀ r < P, Decomp2d.new o P r [n0, n1] = ok (d r))
    (h : ∃ r < P, 2 ^ 31 ≤ (d r).getXPencilShape.prod ∨ 2 ^ 31 ≤ (d r).getYPencilShape.prod)
    (a b : ℕ → Arr T) :
    NoneReturns P (fun r => (d r).transposeXToY o (a r) (b r)) ∧
    NoneReturns P (fun r => (d r).transposeYToX o (a r) (b r)) := by
  obtain ⟨r0, hr0, h0⟩ := h
  have big : ∀ r < P, (2 ^ 31 ≤ (d r).getXPencilShape.prod ∨ 2 ^ 31 ≤ (d r).getYPencilShape.prod) ∨
      (n0 * cnt n1 P r < 2 ^ 31 ∧ cnt n0 P r * n1 < 2 ^ 31) := by
    intro r hr
    rw [d_eq hg hd r hr]
    simp only [Decomp2d.getXPencilShape, Decomp2d.getYPencilShape, decompOf, List.prod_cons,
      List.prod_nil, mul_one]
    omega
  refine ⟨noneReturns hr0 (C99_transpose_panics hg hw hd hr0 h0 _ _).1 (fun r hr => ?_),
    noneReturns hr0 (C99_transpose_panics hg hw hd hr0 h0 _ _).2 (fun r hr => ?_)⟩
  · rcases big r hr with h1 | ⟨h1, h2⟩
    · exact .inl (C99_transpose_panics hg hw hd hr h1 _ _).1
    · simp only [d_eq hg hd r hr]
      refine (transposeXToY_enters o hg.pos hr h1 h2 (a r) (b r)).imp id ?_
      rintro ⟨c, k, h3, h4⟩
      exact ⟨c, k, h3, h4 r0 hr0⟩
  · rcases big r hr with h1 | ⟨h1, h2⟩
    · exact .inl (C99_transpose_panics hg hw hd hr h1 _ _).2
    · simp only [d_eq hg hd r hr]
      refine (transposeYToX_enters o hg.pos hr h1 h2 (a r) (b r)).imp id ?_
      rintro ⟨c, k, h3, h4⟩
      exact ⟨c, k, h3, h4 r0 hr0⟩

/-- C99: if the grid has 2³¹ points or more, all-gather panics on every rank, and the routines of the
root for gather and scatter panic, before anything is sent. -/
theorem C99_global_panics (hg : Grid n0 n1 P) (hw : n0 * n1 < usizeW) (h : 2 ^ 31 ≤ n0 * n1)
    (hd : ∀ r < P, Decomp2d.new o P r [n0, n1] = ok (d r)) {r : ℕ} (hr : r < P) (a b : Arr T) :
    (d r).allGatherX o a b = .ret (err .panic) ∧ (d r).allGatherY o a b = .ret (err .panic) ∧
    (d r).gatherXInplaceRoot o a b = .ret (err .panic) ∧
    (d r).gatherYInplaceRoot o a b = .ret (err .panic) ∧
    (d r).gatherXRoot o a = .ret (err .panic) ∧ (d r).gatherYRoot o a = .ret (err .panic) ∧
    (d r).scatterXInplaceRoot o a b = .ret (err .panic) ∧
    (d r).scatterYInplaceRoot o a b = .ret (err .panic) ∧
    (d r).scatterXRoot o a = .ret (err .panic) ∧ (d r).scatterYRoot o a = .ret (err .panic) := by
  rw [d_eq hg hd r hr]
  have h1 := fun a b => all_gather_panics (T := T) o hr hw h a b
  have h2 := fun a b => root_panics (T := T) o hr hw h a b
  refine ⟨(h1 a b).1, (h1 a b).2, (h2 a b).1, (h2 a b).2.1, ?_, ?_, (h2 a b).2.2.1, (h2 a b).2.2.2,
    ?_, ?_⟩
  · unfold Decomp2d.gatherXRoot
    rcases assertR_oop ((decompOf n0 n1 P r).nrank = 0) with ⟨u, e⟩ | e
    · rw [e]; exact (h2 a _).1
    · rw [e]; rfl
  · unfold Decomp2d.gatherYRoot
    rcases assertR_oop ((decompOf n0 n1 P r).nrank = 0) with ⟨u, e⟩ | e
    · rw [e]; exact (h2 a _).2.1
    · rw [e]; rfl
  · unfold Decomp2d.scatterXRoot
    rcases assertR_oop ((decompOf n0 n1 P r).nrank = 0) with ⟨u, e⟩ | e
    · rw [e]; exact (h2 a _).2.2.1
    · rw [e]; rfl
  · unfold Decomp2d.scatterYRoot
    rcases assertR_oop ((decompOf n0 n1 P r).nrank = 0) with ⟨u, e⟩ | e
    · rw [e]; exact (h2 a _).2.2.2
    · rw [e]; rfl

/-- C99: then no rank returns from a scatter. -/
theorem C99_scatter_none_returns (hg : Grid n0 n1 P) (hw : n0 * n1 < usizeW) (h : 2 ^ 31 ≤ n0 * n1)
    (hd : ∀ r < P, Decomp2d.new o P r [n0, n1] = ok (d r)) (a : Arr T) (b : ℕ → Arr T) :
    NoneReturns P (fun r => if r = 0 then (d r).scatterXInplaceRoot o a (b r)
      else (d r).scatterXInplace o (b r)) ∧
    NoneReturns P (fun r => if r = 0 then (d r).scatterYInplaceRoot o a (b r)
      else (d r).scatterYInplace o (b r)) := by
  have h1 := fun b => C99_global_panics (T := T) hg hw h hd hg.pos a b
  refine ⟨noneReturns hg.pos ?_ (fun r hr => ?_), noneReturns hg.pos ?_ (fun r hr => ?_)⟩
  · simp only [if_pos]; exact (h1 _).2.2.2.2.2.2.1
  · by_cases h0 : r = 0
    · subst h0; simp only [if_pos]; exact .inl (h1 _).2.2.2.2.2.2.1
    · simp only [if_neg h0, d_eq hg hd r hr]; exact (scatter_waits o hr hw (b r)).1
  · simp only [if_pos]; exact (h1 _).2.2.2.2.2.2.2.1
  · by_cases h0 : r = 0
    · subst h0; simp only [if_pos]; exact .inl (h1 _).2.2.2.2.2.2.2.1
    · simp only [if_neg h0, d_eq hg hd r hr]; exact (scatter_waits o hr hw (b r)).2

end

/-- A grid of 65536 × 65536 points on 4 ranks: every rank has 2³⁰ points, so the transposes work; but
there are 2³² points in all, so all-gather panics; the release build has the displacement -2³¹ for
the third rank. -/
example : ∃ d : ℕ → Decomp2d, Grid 65536 65536 4 ∧ 2 ^ 31 ≤ 65536 * 65536 ∧ 65536 * 65536 < usizeW ∧
    (∀ r < 4, Decomp2d.new .release 4 r [65536, 65536] = ok (d r)) ∧
    (∀ r < 4, (d r).getXPencilShape.prod < 2 ^ 31 ∧ (d r).getYPencilShape.prod < 2 ^ 31) ∧
    (d 0).xPencil.countsAllGather .release
      = ok ([2 ^ 30, 2 ^ 30, 2 ^ 30, 2 ^ 30], [0, 2 ^ 30, -2 ^ 31, -2 ^ 30]) ∧
    (d 0).xPencil.countsAllGather .debug = err .panic := by
  have hg : Grid 65536 65536 4 := ⟨by omega, by omega, by omega, by norm_num, by norm_num⟩
  have hc : ∀ r < 4, cnt 65536 4 r = 16384 := by
    intro r hr
    unfold cnt
    rw [if_neg (by omega)]
  have e : (decompOf 65536 65536 4 0).xPencil.szProcs
      = [[65536, 16384], [65536, 16384], [65536, 16384], [65536, 16384]] := by
    simp [decompOf, hc, List.range_succ]
  have hm : ∀ s ∈ [[65536, 16384], [65536, 16384], [65536, 16384], [65536, 16384]],
      s = [65536, 16384] := by simp
  refine ⟨fun r => decompOf 65536 65536 4 r, hg, by norm_num, by norm_num,
    fun r hr => Decomp2d.new_ok _ hg hr, ?_, ?_, ?_⟩
  · intro r hr
    simp [Decomp2d.getXPencilShape, Decomp2d.getYPencilShape, decompOf, hc r hr]
  · have h : mapR (fun x => do pure (toI32 (← Mode.release.prod x)))
        [[65536, 16384], [65536, 16384], [65536, 16384], [65536, 16384]]
        = ok [2 ^ 30, 2 ^ 30, 2 ^ 30, 2 ^ 30] := by
      refine mapR_ok (g := fun _ => (2 ^ 30 : ℤ)) _ (fun s hs => ?_)
      rw [hm s hs, prod2_ok _ _ _ (by norm_num), bind_ok]
      change ok (toI32 _) = _
      rw [toI32_of_lt (by norm_num)]
      norm_num
    unfold Dist.countsAllGather
    rw [e, h, bind_ok]
    norm_num [Dist.displs, Mode.i32Add, bind_ok]
  · refine (C99_counts_all_gather_limit _ ?_ ?_).2 ?_
    · rw [e]; intro s hs
      rw [hm s hs]; norm_num
    · rw [e]; intro s hs k
      rw [hm s hs]
      rcases k with _ | _ | _ | k <;> norm_num
    · rw [e]; norm_num

/-- On 2 ranks it has pencils of 2³¹ points: nobody returns from a transpose. -/
example : ∃ d : ℕ → Decomp2d, Grid 65536 65536 2 ∧ 65536 * 65536 < usizeW ∧
    (∀ r < 2, Decomp2d.new .debug 2 r [65536, 65536] = ok (d r)) ∧
    ∃ r < 2, 2 ^ 31 ≤ (d r).getXPencilShape.prod := by
  have hg : Grid 65536 65536 2 := ⟨by omega, by omega, by omega, by norm_num, by norm_num⟩
  have hc : cnt 65536 2 0 = 32768 := by
    unfold cnt
    rw [if_neg (by omega)]
  refine ⟨fun r => decompOf 65536 65536 2 r, hg, by norm_num, fun r hr => Decomp2d.new_ok _ hg hr,
    0, by omega, ?_⟩
  simp [Decomp2d.getXPencilShape, decompOf, hc]

end Verif.Props
