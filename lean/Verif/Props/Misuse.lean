/-
Properties of calls of the distributed layer with arrays that do not fit (C87).
-/
import Verif.Proof.Misuse
import Verif.Props.SpaceMpi

namespace Verif.Props
open Res Spec Mpi

/-! ### what the two kinds of failure mean for the ranks together -/

/-- C87: a call that panics at once does so in every execution, nothing is ever sent by this rank, and the ranks never
all return. -/
theorem C87_at_once {T α : Type} {N r : ℕ} (hr : r < N) {ps : ℕ → Prog T α} (h : PanicsAtOnce (ps r)) :
    PanicsFirst N ps r ∧ NeverReturns N ps r ∧ ∀ a, ¬ AllReturn N ps a := by
  have h1 := panicsFirst (N := N) h
  refine ⟨h1, fun n w hs a ha => ?_, fun a ha => ?_⟩
  · rw [(h1 n w hs).1] at ha; cases ha
  · exact (ha.1 0 _ (.refl _)).1 (.inl ⟨r, hr, _, (h1 0 _ (.refl _)).1⟩)

/-- C87: `Distribution::check_shape` returns for arrays of the shape of the own part, and panics for all others. -/
theorem C87_check_shape {T : Type} (d : Dist) (a : Arr T) :
    (a.shape = d.sz → d.checkShape a = ok ()) ∧ (a.shape ≠ d.sz → d.checkShape a = err .panic) :=
  ⟨fun h => assertR_ok h, fun h => assertR_panic h⟩

section
variable {T : Type} [Zero T]

/-- C87: the collective methods of a decomposition panic at once if the local array has not the shape of the pencil, or
(scatter and all-gather) the global array not the global shape. -/
theorem C87_decomposition (o : Mode) (d : Decomp2d) (a b : Arr T) :
    (a.shape ≠ d.getXPencilShape → PanicsAtOnce (d.gatherX o a) ∧ PanicsAtOnce (d.gatherXRoot o a) ∧
      PanicsAtOnce (d.gatherXInplaceRoot o a b) ∧ PanicsAtOnce (d.scatterXInplace o a)) ∧
    (a.shape ≠ d.getYPencilShape → PanicsAtOnce (d.gatherY o a) ∧ PanicsAtOnce (d.gatherYRoot o a) ∧
      PanicsAtOnce (d.gatherYInplaceRoot o a b) ∧ PanicsAtOnce (d.scatterYInplace o a)) ∧
    (a.shape ≠ d.getGlobalShape → PanicsAtOnce (d.scatterXRoot o a) ∧ PanicsAtOnce (d.scatterYRoot o a)) ∧
    (a.shape ≠ d.getGlobalShape ∨ b.shape ≠ d.getXPencilShape → PanicsAtOnce (d.scatterXInplaceRoot o a b)) ∧
    (a.shape ≠ d.getGlobalShape ∨ b.shape ≠ d.getYPencilShape → PanicsAtOnce (d.scatterYInplaceRoot o a b)) ∧
    (a.shape ≠ d.getXPencilShape ∨ b.shape ≠ d.getGlobalShape → PanicsAtOnce (d.allGatherX o a b)) ∧
    (a.shape ≠ d.getYPencilShape ∨ b.shape ≠ d.getGlobalShape → PanicsAtOnce (d.allGatherY o a b)) ∧
    (a.shape ≠ d.getXPencilShape ∨ b.shape ≠ d.getYPencilShape → PanicsAtOnce (d.transposeXToY o a b)) ∧
    (a.shape ≠ d.getYPencilShape ∨ b.shape ≠ d.getXPencilShape → PanicsAtOnce (d.transposeYToX o a b)) := by
  have root : ∀ {α : Type} {p : Prog T α}, PanicsAtOnce p → PanicsAtOnce (do assertR (d.nrank = 0); p) := by
    intro α p hp
    by_cases h : d.nrank = 0
    · rw [assertR_ok h]; exact hp
    · rw [assertR_panic h]; rfl
  have two : ∀ {α : Type} {f : Unit → Prog T α} {s s' : List ℕ}, a.shape ≠ s ∨ b.shape ≠ s' →
      PanicsAtOnce (do checkShape a s; let u ← (checkShape b s' : Res Unit); f u) := by
    intro α f s s' h
    rcases checkShape_or a s with h1 | h1
    · rw [h1]
      rcases h with h | h
      · rw [checkShape_panic h] at h1; cases h1
      · rw [checkShape_panic h]; rfl
    · rw [h1]; rfl
  refine ⟨fun h => ?_, fun h => ?_, fun h => ?_, two, two, two, two, two, two⟩
  · change a.shape ≠ d.xPencil.sz at h
    have g : PanicsAtOnce (d.gatherXInplaceRoot o a b) := by
      unfold Decomp2d.gatherXInplaceRoot; rw [checkShape_panic h]; rfl
    have g' : PanicsAtOnce (d.gatherXInplaceRoot o a (Arr.zeros d.nGlobal)) := by
      unfold Decomp2d.gatherXInplaceRoot; rw [checkShape_panic h]; rfl
    refine ⟨?_, root g', g, ?_⟩
    · unfold Decomp2d.gatherX; rw [checkShape_panic h]; rfl
    · unfold Decomp2d.scatterXInplace; rw [checkShape_panic h]; rfl
  · change a.shape ≠ d.yPencil.sz at h
    have g : PanicsAtOnce (d.gatherYInplaceRoot o a b) := by
      unfold Decomp2d.gatherYInplaceRoot; rw [checkShape_panic h]; rfl
    have g' : PanicsAtOnce (d.gatherYInplaceRoot o a (Arr.zeros d.nGlobal)) := by
      unfold Decomp2d.gatherYInplaceRoot; rw [checkShape_panic h]; rfl
    refine ⟨?_, root g', g, ?_⟩
    · unfold Decomp2d.gatherY; rw [checkShape_panic h]; rfl
    · unfold Decomp2d.scatterYInplace; rw [checkShape_panic h]; rfl
  · change a.shape ≠ d.nGlobal at h
    refine ⟨root ?_, root ?_⟩
    · unfold Decomp2d.scatterXInplaceRoot; rw [checkShape_panic h]; rfl
    · unfold Decomp2d.scatterYInplaceRoot; rw [checkShape_panic h]; rfl

/-- C87: the gathers into a given array check the shape of that array only after the communication: with any other shape
the root never returns. -/
theorem C87_gather_target (o : Mode) (d : Decomp2d) (a b : Arr T) (h : b.shape ≠ d.getGlobalShape) {N r : ℕ}
    {ps : ℕ → Prog T (Arr T)} (hp : ps r = d.gatherXInplaceRoot o a b ∨ ps r = d.gatherYInplaceRoot o a b) :
    NeverReturns N ps r := by
  refine Post.never ?_
  change b.shape ≠ d.nGlobal at h
  rcases hp with hp | hp <;> rw [hp]
  · unfold Decomp2d.gatherXInplaceRoot
    iterate 7 refine Post.bind (Post.any _) (fun _ _ => ?_)
    refine Post.bind (R := fun _ => False) (Post.res fun _ h' => ?_) (fun _ h' => h'.elim)
    rw [checkShape_panic h] at h'; cases h'
  · unfold Decomp2d.gatherYInplaceRoot
    iterate 7 refine Post.bind (Post.any _) (fun _ _ => ?_)
    refine Post.bind (R := fun _ => False) (Post.res fun _ h' => ?_) (fun _ h' => h'.elim)
    rw [checkShape_panic h] at h'; cases h'

end

/-! ### the distributed space -/

section
variable {P I S T A : Type} [Zero P] [Zero I] [Zero S] [Zero T] {o : Mode} {N : ℕ} {b0 : Base I S T A}
  {b1 : Base P I T A}

theorem pens {r : ℕ} {sp : Space2Mpi P I S T A} (h : Space2Mpi.new o N r b0 b1 = ok sp) :
    ∃ dp ds, sp.getDecomp sp.space.shapePhysical = ok dp ∧ sp.getDecomp sp.space.shapeSpectral = ok ds ∧
      dp.nGlobal = sp.space.shapePhysical ∧ ds.nGlobal = sp.space.shapeSpectral ∧
      sp.shapePhysicalXPen = ok dp.xPencil.sz ∧ sp.shapePhysicalYPen = ok dp.yPencil.sz ∧
      sp.shapeSpectralXPen = ok ds.xPencil.sz ∧ sp.shapeSpectralYPen = ok ds.yPencil.sz := by
  have hsp : sp.space = ⟨b0, b1⟩ := (Space2Mpi.new_hist h).1
  obtain ⟨dp, hp⟩ := Space2Mpi.new_made h (n0 := b0.lenPhys) (n1 := b1.lenPhys) (.inl rfl) (.inl rfl)
  obtain ⟨ds, hs⟩ := Space2Mpi.new_made h (n0 := b0.lenSpec) (n1 := b1.lenSpec) (.inr rfl) (.inr rfl)
  have gp : sp.getDecomp sp.space.shapePhysical = ok dp := by
    rw [hsp]; exact ((C48_lookup_iff h _).1 dp).2 ⟨_, _, .inl rfl, .inl rfl, rfl, hp⟩
  have gs : sp.getDecomp sp.space.shapeSpectral = ok ds := by
    rw [hsp]; exact ((C48_lookup_iff h _).1 ds).2 ⟨_, _, .inr rfl, .inr rfl, rfl, hs⟩
  refine ⟨dp, ds, gp, gs, by rw [hsp]; exact Decomp2d.new_shape hp, by rw [hsp]; exact Decomp2d.new_shape hs, ?_, ?_, ?_, ?_⟩
  · unfold Space2Mpi.shapePhysicalXPen; rw [gp]; rfl
  · unfold Space2Mpi.shapePhysicalYPen; rw [gp]; rfl
  · unfold Space2Mpi.shapeSpectralXPen; rw [gs]; rfl
  · unfold Space2Mpi.shapeSpectralYPen; rw [gs]; rfl

/-- C87: the collective methods for grid values reject local arrays that have not the shape of the pencil, and global
arrays that have not the global shape: at once, except for the target of a gather. -/
theorem C87_collectives_phys {r : ℕ} {sp : Space2Mpi P I S T A} (h : Space2Mpi.new o N r b0 b1 = ok sp) :
    ∃ sx sy, sp.shapePhysicalXPen = ok sx ∧ sp.shapePhysicalYPen = ok sy ∧ ∀ a b : Arr P,
      (a.shape ≠ sx → PanicsAtOnce (sp.gatherFromXPencilPhys o a) ∧ PanicsAtOnce (sp.gatherFromXPencilPhysRoot o a b) ∧
        PanicsAtOnce (sp.allGatherFromXPencilPhys o a b) ∧ PanicsAtOnce (sp.scatterToXPencilPhys o a) ∧
        PanicsAtOnce (sp.scatterToXPencilPhysRoot o b a) ∧ PanicsAtOnce (sp.transposeXToYPhys o a b) ∧
        PanicsAtOnce (sp.transposeYToXPhys o b a)) ∧
      (a.shape ≠ sy → PanicsAtOnce (sp.gatherFromYPencilPhys o a) ∧ PanicsAtOnce (sp.gatherFromYPencilPhysRoot o a b) ∧
        PanicsAtOnce (sp.allGatherFromYPencilPhys o a b) ∧ PanicsAtOnce (sp.scatterToYPencilPhys o a) ∧
        PanicsAtOnce (sp.scatterToYPencilPhysRoot o b a) ∧ PanicsAtOnce (sp.transposeYToXPhys o a b) ∧
        PanicsAtOnce (sp.transposeXToYPhys o b a)) ∧
      (b.shape ≠ sp.space.shapePhysical → PanicsAtOnce (sp.allGatherFromXPencilPhys o a b) ∧
        PanicsAtOnce (sp.allGatherFromYPencilPhys o a b) ∧ PanicsAtOnce (sp.scatterToXPencilPhysRoot o b a) ∧
        PanicsAtOnce (sp.scatterToYPencilPhysRoot o b a) ∧
        ∀ N r ps, ps r = sp.gatherFromXPencilPhysRoot o a b ∨ ps r = sp.gatherFromYPencilPhysRoot o a b →
          NeverReturns N ps r) := by
  obtain ⟨d, -, hd, -, hn, -, hx, hy, -, -⟩ := pens h
  refine ⟨_, _, hx, hy, fun a b => ?_⟩
  unfold Space2Mpi.gatherFromXPencilPhys Space2Mpi.gatherFromXPencilPhysRoot Space2Mpi.allGatherFromXPencilPhys
    Space2Mpi.scatterToXPencilPhys Space2Mpi.scatterToXPencilPhysRoot Space2Mpi.transposeXToYPhys
    Space2Mpi.transposeYToXPhys Space2Mpi.gatherFromYPencilPhys Space2Mpi.gatherFromYPencilPhysRoot
    Space2Mpi.allGatherFromYPencilPhys Space2Mpi.scatterToYPencilPhys Space2Mpi.scatterToYPencilPhysRoot
  rw [hd, ← hn]
  obtain ⟨a1, a2, -, -, -, a6, a7, a8, a9⟩ := C87_decomposition o d a b
  obtain ⟨-, -, -, c4, c5, -, -, c8, c9⟩ := C87_decomposition o d b a
  exact ⟨fun h => ⟨(a1 h).1, (a1 h).2.2.1, a6 (.inl h), (a1 h).2.2.2, c4 (.inr h), a8 (.inl h), c9 (.inr h)⟩,
    fun h => ⟨(a2 h).1, (a2 h).2.2.1, a7 (.inl h), (a2 h).2.2.2, c5 (.inr h), a9 (.inl h), c8 (.inr h)⟩,
    fun h => ⟨a6 (.inr h), a7 (.inr h), c4 (.inl h), c5 (.inl h), fun N r ps hp => C87_gather_target o d a b h hp⟩⟩

/-- C87: the same for coefficients. -/
theorem C87_collectives_spec {r : ℕ} {sp : Space2Mpi P I S T A} (h : Space2Mpi.new o N r b0 b1 = ok sp) :
    ∃ sx sy, sp.shapeSpectralXPen = ok sx ∧ sp.shapeSpectralYPen = ok sy ∧ ∀ a b : Arr S,
      (a.shape ≠ sx → PanicsAtOnce (sp.gatherFromXPencilSpec o a) ∧ PanicsAtOnce (sp.gatherFromXPencilSpecRoot o a b) ∧
        PanicsAtOnce (sp.allGatherFromXPencilSpec o a b) ∧ PanicsAtOnce (sp.scatterToXPencilSpec o a) ∧
        PanicsAtOnce (sp.scatterToXPencilSpecRoot o b a) ∧ PanicsAtOnce (sp.transposeXToYSpec o a b) ∧
        PanicsAtOnce (sp.transposeYToXSpec o b a)) ∧
      (a.shape ≠ sy → PanicsAtOnce (sp.gatherFromYPencilSpec o a) ∧ PanicsAtOnce (sp.gatherFromYPencilSpecRoot o a b) ∧
        PanicsAtOnce (sp.allGatherFromYPencilSpec o a b) ∧ PanicsAtOnce (sp.scatterToYPencilSpec o a) ∧
        PanicsAtOnce (sp.scatterToYPencilSpecRoot o b a) ∧ PanicsAtOnce (sp.transposeYToXSpec o a b) ∧
        PanicsAtOnce (sp.transposeXToYSpec o b a)) ∧
      (b.shape ≠ sp.space.shapeSpectral → PanicsAtOnce (sp.allGatherFromXPencilSpec o a b) ∧
        PanicsAtOnce (sp.allGatherFromYPencilSpec o a b) ∧ PanicsAtOnce (sp.scatterToXPencilSpecRoot o b a) ∧
        PanicsAtOnce (sp.scatterToYPencilSpecRoot o b a) ∧
        ∀ N r ps, ps r = sp.gatherFromXPencilSpecRoot o a b ∨ ps r = sp.gatherFromYPencilSpecRoot o a b →
          NeverReturns N ps r) := by
  obtain ⟨-, d, -, hd, -, hn, -, -, hx, hy⟩ := pens h
  refine ⟨_, _, hx, hy, fun a b => ?_⟩
  unfold Space2Mpi.gatherFromXPencilSpec Space2Mpi.gatherFromXPencilSpecRoot Space2Mpi.allGatherFromXPencilSpec
    Space2Mpi.scatterToXPencilSpec Space2Mpi.scatterToXPencilSpecRoot Space2Mpi.transposeXToYSpec
    Space2Mpi.transposeYToXSpec Space2Mpi.gatherFromYPencilSpec Space2Mpi.gatherFromYPencilSpecRoot
    Space2Mpi.allGatherFromYPencilSpec Space2Mpi.scatterToYPencilSpec Space2Mpi.scatterToYPencilSpecRoot
  rw [hd, ← hn]
  obtain ⟨a1, a2, -, -, -, a6, a7, a8, a9⟩ := C87_decomposition o d a b
  obtain ⟨-, -, -, c4, c5, -, -, c8, c9⟩ := C87_decomposition o d b a
  exact ⟨fun h => ⟨(a1 h).1, (a1 h).2.2.1, a6 (.inl h), (a1 h).2.2.2, c4 (.inr h), a8 (.inl h), c9 (.inr h)⟩,
    fun h => ⟨(a2 h).1, (a2 h).2.2.1, a7 (.inl h), (a2 h).2.2.2, c5 (.inr h), a9 (.inl h), c8 (.inr h)⟩,
    fun h => ⟨a6 (.inr h), a7 (.inr h), c4 (.inl h), c5 (.inl h), fun N r ps hp => C87_gather_target o d a b h hp⟩⟩

variable {sp : ℕ → Space2Mpi P I S T A} (h : Distributed o N b0 b1 sp)
include h

/-- C87: `forward_mpi` and `forward_inplace_mpi` panic at once on an input that is no y-pencil of grid values (other shape
or memory layout); with an output that is no x-pencil of coefficients `forward_inplace_mpi` never returns. -/
theorem C87_forward (h1 : ∃ g, Computes b1.forwardSlice b1.lenPhys b1.lenSpec g) {r : ℕ} (hr : r < N) {a : Arr P}
    (ha : a.WF) {out : Arr S} (ho : out.WF) :
    (¬ YShaped (sp r) (Space2.shapePhysical ⟨b0, b1⟩) a →
      PanicsAtOnce ((sp r).forwardMpi o a) ∧ PanicsAtOnce ((sp r).forwardInplaceMpi o a out)) ∧
    (¬ XShaped (sp r) (Space2.shapeSpectral ⟨b0, b1⟩) out → ∀ N' r' ps, ps r' = (sp r).forwardInplaceMpi o a out →
      NeverReturns N' ps r') := by
  obtain ⟨g1, h1⟩ := h1
  have hl : (sp r).getDecomp [b0.lenPhys, b1.lenSpec] = ok (decompOf b0.lenPhys b1.lenSpec N r) :=
    h.lookup hr (.inl rfl) (.inr rfl)
  refine ⟨fun hy => ?_, fun hx N' r' ps hp => Post.never ?_⟩
  · have hy : ¬ Good a [cnt b0.lenPhys N r, b1.lenPhys] := fun e => hy ((h.yShaped_iff hr (.inl rfl) (.inl rfl) _).2 e)
    unfold Space2Mpi.forwardMpi Space2Mpi.forwardInplaceMpi
    rw [h.space_eq hr]
    dsimp only
    rw [hl]
    rcases first_pass h1 ha (s := [cnt b0.lenPhys N r, b1.lenPhys]) (ax := 1) (by decide : 1 < 2) rfl hy with e | ⟨u, e, hu⟩
    · have e' : b1.forward a 1 = err .panic := e
      rw [e']; exact ⟨rfl, rfl⟩
    · have e' : b1.forward a 1 = ok u := e
      rw [e']
      have := (C44_wrong_shape_panics o (decompOf b0.lenPhys b1.lenSpec N r) u
        (Arr.zeros (decompOf b0.lenPhys b1.lenSpec N r).xPencil.sz)).2 (.inl hu)
      constructor
      · show (Decomp2d.transposeYToX o _ _ _ >>= _) = _
        rw [this]; rfl
      · show (Decomp2d.transposeYToX o _ _ _ >>= _) = _
        rw [this]; rfl
  · have hx : ¬ Good out [b0.lenSpec, cnt b1.lenSpec N r] := fun e => hx ((h.xShaped_iff hr (.inr rfl) (.inr rfl) _).2 e)
    rw [hp]
    unfold Space2Mpi.forwardInplaceMpi
    rw [h.space_eq hr]
    dsimp only
    rw [hl]
    refine Post.bind (Post.any _) fun u _ => ?_
    show Post _ (Decomp2d.transposeYToX o _ u _ >>= _)
    refine Post.bind (transposeYToX_shape o (decompOf b0.lenPhys b1.lenSpec N r) u _) fun v hv => ?_
    refine Post.res fun w hw => ?_
    rw [last_pass (C35_rejects b0).1 (ax := 0) (hv.1.trans rfl : v.shape = [b0.lenPhys, cnt b1.lenSpec N r]) (by decide : 0 < 2) ho hx] at hw
    cases hw

/-- C87: `backward_mpi` and `backward_inplace_mpi` panic at once on an input that is no x-pencil of coefficients; with an
output that is no y-pencil of grid values `backward_inplace_mpi` never returns. -/
theorem C87_backward (h0 : ∃ g, Computes b0.backwardSlice b0.lenSpec b0.lenPhys g) {r : ℕ} (hr : r < N) {a : Arr S}
    (ha : a.WF) {out : Arr P} (ho : out.WF) :
    (¬ XShaped (sp r) (Space2.shapeSpectral ⟨b0, b1⟩) a →
      PanicsAtOnce ((sp r).backwardMpi o a) ∧ PanicsAtOnce ((sp r).backwardInplaceMpi o a out)) ∧
    (¬ YShaped (sp r) (Space2.shapePhysical ⟨b0, b1⟩) out → ∀ N' r' ps, ps r' = (sp r).backwardInplaceMpi o a out →
      NeverReturns N' ps r') := by
  obtain ⟨g0, h0⟩ := h0
  have hl : (sp r).getDecomp [b0.lenPhys, b1.lenSpec] = ok (decompOf b0.lenPhys b1.lenSpec N r) :=
    h.lookup hr (.inl rfl) (.inr rfl)
  refine ⟨fun hx => ?_, fun hy N' r' ps hp => Post.never ?_⟩
  · have hx : ¬ Good a [b0.lenSpec, cnt b1.lenSpec N r] := fun e => hx ((h.xShaped_iff hr (.inr rfl) (.inr rfl) _).2 e)
    unfold Space2Mpi.backwardMpi Space2Mpi.backwardInplaceMpi
    rw [h.space_eq hr]
    dsimp only
    rw [hl]
    rcases first_pass h0 ha (s := [b0.lenSpec, cnt b1.lenSpec N r]) (ax := 0) (by decide : 0 < 2) rfl hx with e | ⟨u, e, hu⟩
    · have e' : b0.backward a 0 = err .panic := e
      rw [e']; exact ⟨rfl, rfl⟩
    · have e' : b0.backward a 0 = ok u := e
      rw [e']
      have := (C44_wrong_shape_panics o (decompOf b0.lenPhys b1.lenSpec N r) u
        (Arr.zeros (decompOf b0.lenPhys b1.lenSpec N r).yPencil.sz)).1 (.inl hu)
      constructor
      · show (Decomp2d.transposeXToY o _ _ _ >>= _) = _
        rw [this]; rfl
      · show (Decomp2d.transposeXToY o _ _ _ >>= _) = _
        rw [this]; rfl
  · have hy : ¬ Good out [cnt b0.lenPhys N r, b1.lenPhys] := fun e => hy ((h.yShaped_iff hr (.inl rfl) (.inl rfl) _).2 e)
    rw [hp]
    unfold Space2Mpi.backwardInplaceMpi
    rw [h.space_eq hr]
    dsimp only
    rw [hl]
    refine Post.bind (Post.any _) fun u _ => ?_
    show Post _ (Decomp2d.transposeXToY o _ u _ >>= _)
    refine Post.bind (transposeXToY_shape o (decompOf b0.lenPhys b1.lenSpec N r) u _) fun v hv => ?_
    refine Post.res fun w hw => ?_
    rw [last_pass (C35_rejects b1).2.1 (ax := 1) (hv.1.trans rfl : v.shape = [cnt b0.lenPhys N r, b1.lenSpec]) (by decide : 1 < 2) ho hy] at hw
    cases hw

/-- C87: `to_ortho_mpi` and `to_ortho_inplace_mpi` panic at once on an input that is no x-pencil of coefficients; with an
output of another shape than the x-pencil of orthogonal coefficients `to_ortho_inplace_mpi` never returns. -/
theorem C87_to_ortho (h0 : ∃ g, Computes b0.toOrthoSlice b0.lenSpec b0.lenOrth g) {r : ℕ} (hr : r < N) {a : Arr T}
    (ha : a.WF) (out : Arr T) :
    (¬ XShaped (sp r) (Space2.shapeSpectral ⟨b0, b1⟩) a →
      PanicsAtOnce ((sp r).toOrthoMpi o a) ∧ PanicsAtOnce ((sp r).toOrthoInplaceMpi o a out)) ∧
    (∀ d, (sp r).getDecomp [b0.lenOrth, b1.lenOrth] = ok d → out.shape ≠ d.getXPencilShape →
      ∀ N' r' ps, ps r' = (sp r).toOrthoInplaceMpi o a out → NeverReturns N' ps r') := by
  obtain ⟨g0, h0⟩ := h0
  have hl : (sp r).getDecomp [b0.lenOrth, b1.lenSpec] = ok (decompOf b0.lenOrth b1.lenSpec N r) :=
    h.lookup hr (h.orth0.elim .inl .inr) (.inr rfl)
  refine ⟨fun hx => ?_, fun d hd hs N' r' ps hp => Post.never ?_⟩
  · have hx : ¬ Good a [b0.lenSpec, cnt b1.lenSpec N r] := fun e => hx ((h.xShaped_iff hr (.inr rfl) (.inr rfl) _).2 e)
    unfold Space2Mpi.toOrthoMpi Space2Mpi.toOrthoInplaceMpi
    suffices hwk : PanicsAtOnce ((sp r).toOrthoWork o a) by
      rw [show (sp r).toOrthoWork o a = _ from hwk]; exact ⟨rfl, rfl⟩
    unfold Space2Mpi.toOrthoWork
    rw [h.space_eq hr]
    dsimp only
    rw [hl]
    rcases first_pass h0 ha (s := [b0.lenSpec, cnt b1.lenSpec N r]) (ax := 0) (by decide : 0 < 2) rfl hx with e | ⟨u, e, hu⟩
    · have e' : b0.toOrtho a 0 = err .panic := e
      rw [e']; rfl
    · have e' : b0.toOrtho a 0 = ok u := e
      rw [e']
      have := (C44_wrong_shape_panics o (decompOf b0.lenOrth b1.lenSpec N r) u
        (Arr.zeros (decompOf b0.lenOrth b1.lenSpec N r).yPencil.sz)).1 (.inl hu)
      show (Decomp2d.transposeXToY o _ _ _ >>= _) = _
      rw [this]; rfl
  · rw [hp]
    unfold Space2Mpi.toOrthoInplaceMpi
    refine Post.bind (Post.any _) fun u _ => ?_
    rw [h.space_eq hr]
    dsimp only
    have hd' : (sp r).getDecomp [b0.lenOrth, b1.lenOrth] = ok d := hd
    rw [hd']
    refine Post.bind (R := fun x => x = d) (Post.res fun x hx => (Res.ok.inj hx).symm) fun x hx => ?_
    subst hx
    rw [(C44_wrong_shape_panics o x u out).2 (.inr hs)]
    exact .ret fun _ h' => by cases h'

/-- C87: `from_ortho_mpi` and `from_ortho_inplace_mpi` panic at once on an input that is no x-pencil of orthogonal
coefficients; with an output of another shape than the x-pencil of coefficients `from_ortho_inplace_mpi` never returns. -/
theorem C87_from_ortho (h0 : ∃ g, Computes b0.fromOrthoSlice b0.lenOrth b0.lenSpec g) {r : ℕ} (hr : r < N) {a : Arr T}
    (ha : a.WF) (out : Arr T) :
    (¬ XShaped (sp r) [b0.lenOrth, b1.lenOrth] a →
      PanicsAtOnce ((sp r).fromOrthoMpi o a) ∧ PanicsAtOnce ((sp r).fromOrthoInplaceMpi o a out)) ∧
    (∀ d, (sp r).getDecomp (Space2.shapeSpectral ⟨b0, b1⟩) = ok d → out.shape ≠ d.getXPencilShape →
      ∀ N' r' ps, ps r' = (sp r).fromOrthoInplaceMpi o a out → NeverReturns N' ps r') := by
  obtain ⟨g0, h0⟩ := h0
  have hl : (sp r).getDecomp [b0.lenSpec, b1.lenOrth] = ok (decompOf b0.lenSpec b1.lenOrth N r) :=
    h.lookup hr (.inr rfl) (h.orth1.elim .inl .inr)
  refine ⟨fun hx => ?_, fun d hd hs N' r' ps hp => Post.never ?_⟩
  · have hx : ¬ Good a [b0.lenOrth, cnt b1.lenOrth N r] := fun e => hx ((h.xShaped_iff hr (h.orth0.elim .inl .inr) (h.orth1.elim .inl .inr) _).2 e)
    unfold Space2Mpi.fromOrthoMpi Space2Mpi.fromOrthoInplaceMpi
    suffices hwk : PanicsAtOnce ((sp r).fromOrthoWork o a) by
      rw [show (sp r).fromOrthoWork o a = _ from hwk]; exact ⟨rfl, rfl⟩
    unfold Space2Mpi.fromOrthoWork
    rw [h.space_eq hr]
    dsimp only
    rw [hl]
    rcases first_pass h0 ha (s := [b0.lenOrth, cnt b1.lenOrth N r]) (ax := 0) (by decide : 0 < 2) rfl hx with e | ⟨u, e, hu⟩
    · have e' : b0.fromOrtho a 0 = err .panic := e
      rw [e']; rfl
    · have e' : b0.fromOrtho a 0 = ok u := e
      rw [e']
      have := (C44_wrong_shape_panics o (decompOf b0.lenSpec b1.lenOrth N r) u
        (Arr.zeros (decompOf b0.lenSpec b1.lenOrth N r).yPencil.sz)).1 (.inl hu)
      show (Decomp2d.transposeXToY o _ _ _ >>= _) = _
      rw [this]; rfl
  · rw [hp]
    unfold Space2Mpi.fromOrthoInplaceMpi
    refine Post.bind (Post.any _) fun u _ => ?_
    rw [h.space_eq hr]
    dsimp only
    have hd' : (sp r).getDecomp [b0.lenSpec, b1.lenSpec] = ok d := hd
    rw [hd']
    refine Post.bind (R := fun x => x = d) (Post.res fun x hx => (Res.ok.inj hx).symm) fun x hx => ?_
    subst hx
    rw [(C44_wrong_shape_panics o x u out).2 (.inr hs)]
    exact .ret fun _ h' => by cases h'

/-- C87: `gradient_mpi` panics at once on an input that is no x-pencil of coefficients. -/
theorem C87_gradient [Mul A] [Powi A] [DivBy A T] {d0 : ℕ} (h0 : RunsGradient b0 d0) {r : ℕ} (hr : r < N) {a : Arr T}
    (ha : a.WF) (hx : ¬ XShaped (sp r) (Space2.shapeSpectral ⟨b0, b1⟩) a) (d1 : ℕ) (scale : Option (A × A)) :
    PanicsAtOnce ((sp r).gradientMpi o a d0 d1 scale) := by
  obtain ⟨g0, h0⟩ := h0
  have hl : (sp r).getDecomp [b0.lenOrth, b1.lenSpec] = ok (decompOf b0.lenOrth b1.lenSpec N r) :=
    h.lookup hr (h.orth0.elim .inl .inr) (.inr rfl)
  have hx : ¬ Good a [b0.lenSpec, cnt b1.lenSpec N r] := fun e => hx ((h.xShaped_iff hr (.inr rfl) (.inr rfl) _).2 e)
  unfold Space2Mpi.gradientMpi
  rw [h.space_eq hr]
  dsimp only
  rw [hl]
  rcases first_pass h0 ha (s := [b0.lenSpec, cnt b1.lenSpec N r]) (ax := 0) (by decide : 0 < 2) rfl hx with e | ⟨u, e, hu⟩
  · have e' : b0.gradient a d0 0 = err .panic := e
    rw [e']; rfl
  · have e' : b0.gradient a d0 0 = ok u := e
    rw [e']
    have := (C44_wrong_shape_panics o (decompOf b0.lenOrth b1.lenSpec N r) u
      (Arr.zeros (decompOf b0.lenOrth b1.lenSpec N r).yPencil.sz)).1 (.inl hu)
    show (Decomp2d.transposeXToY o _ _ _ >>= _) = _
    rw [this]; rfl

end

/-- Three ranks and a space of a real Fourier base of 8 and a Dirichlet base of 7 points: if rank 1 passes the global
array instead of its pencil, `forward_mpi` panics on it at once and the ranks never all return; if it passes an array of
the global shape as output, it never returns. -/
example : ∃ (b0 : Base ℝ ℂ ℂ) (b1 : Base ℝ ℝ ℂ) (sp : ℕ → Space2Mpi ℝ ℝ ℂ ℂ), Distributed .debug 3 b0 b1 sp ∧
    ∀ ps : ℕ → Prog ℝ (Arr ℂ),
      (ps 1 = (sp 1).forwardMpi .debug (Arr.zeros [8, 7]) → PanicsFirst 3 ps 1 ∧ ∀ a, ¬ AllReturn 3 ps a) ∧
      ((∃ a, a.WF ∧ ps 1 = (sp 1).forwardInplaceMpi .debug a (Arr.zeros [5, 5])) → NeverReturns 3 ps 1) := by
  obtain ⟨b0, h0, a1, a2, a3⟩ := isR2c_exists (n := 8) (by omega)
  obtain ⟨b1, h1, c1, c2, c3⟩ := isDirichlet_exists (T := ℂ) (n := 7) (by omega)
  obtain ⟨sp, h⟩ := distributed_ex b0 b1 (by omega) (by omega) (.inr (a3.trans a2.symm))
    (.inl (c3.trans c1.symm))
  have hc : ∃ g, Computes b1.forwardSlice b1.lenPhys b1.lenSpec g := (C41_bases_run.2.1 _ h1).forward
  refine ⟨b0, b1, sp, h, fun ps => ⟨fun hp => ?_, fun ⟨a, ha, hp⟩ => ?_⟩⟩
  · have := (C87_forward h hc (r := 1) (by omega) (a := Arr.zeros [8, 7]) (good_zeros _).1
      (out := (Arr.zeros [5, 5] : Arr ℂ)) (good_zeros _).1).1 ?_
    · have h2 := C87_at_once (N := 3) (r := 1) (by omega) (ps := ps) (hp ▸ this.1)
      exact ⟨h2.1, h2.2.2⟩
    · intro hy
      have := ((h.yShaped_iff (r := 1) (by omega) (.inl rfl) (.inl rfl) _).1 hy).2.2
      rw [a1, c1] at this
      revert this
      decide
  · refine (C87_forward h hc (r := 1) (by omega) ha (out := (Arr.zeros [5, 5] : Arr ℂ)) (good_zeros _).1).2 ?_ _ _ _ hp
    intro hx
    have := ((h.xShaped_iff (r := 1) (by omega) (.inr rfl) (.inr rfl) _).1 hx).2.2
    rw [a2, c2] at this
    revert this
    decide

end Verif.Props
