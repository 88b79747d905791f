/-
Properties C34 (spaces), C37 and C41: parallel methods, order of the axes and shapes of the results
of the one-, two- and three-dimensional spaces.
-/
import Verif.Proof.SpaceOps

namespace Verif.Props
open Res Spec Finset

/-! ### Space1 -/

section
variable {P S T A : Type} [Zero P] [Zero S] [Zero T]
  (sp : Space1 P S T A)

/-- `forward` of Space1: the result has the documented shape, the inplace variant stores the same result
whatever the output array contained. -/
theorem C41_space1_forward (h0 : Runs sp.base0) {a : Arr P}
    (ha : Good a sp.shapePhysical) {out : Arr S} (ho : Good out sp.shapeSpectral) :
    ∃ r, sp.forward a = ok r ∧ Good r sp.shapeSpectral ∧ sp.forwardInplace a out = ok r := by
  obtain ⟨g0, c0⟩ := h0.forward
  have k0 := good_mapAx g0 sp.base0.lenSpec 0 ha.2.2
  exact ⟨_, sp.forward_eq c0 ha, k0, sp.forwardInplace_eq c0 ha ho⟩

/-- `forward_par` and `forward_inplace_par` of Space1 return what the serial methods return, whatever the
schedules of the lane tasks of the passes over the axes. -/
theorem C34_space1_forward (h0 : Runs sp.base0) {a : Arr P}
    (ha : Good a sp.shapePhysical) {out : Arr S} (ho : Good out sp.shapeSpectral) {s0 : List ℕ} (hs0 : FairSchedule [sp.base0.lenSpec] 0 s0) :
    sp.forwardPar s0 a = sp.forward a ∧ sp.forwardInplacePar s0 a out = sp.forwardInplace a out := by
  obtain ⟨g0, c0⟩ := h0.forward
  exact ⟨by rw [sp.forwardPar_eq c0 ha hs0, sp.forward_eq c0 ha],
    by rw [sp.forwardInplacePar_eq c0 ha ho hs0, sp.forwardInplace_eq c0 ha ho]⟩

/-- `backward` of Space1: the result has the documented shape, the inplace variant stores the same result
whatever the output array contained. -/
theorem C41_space1_backward (h0 : Runs sp.base0) {a : Arr S}
    (ha : Good a sp.shapeSpectral) {out : Arr P} (ho : Good out sp.shapePhysical) :
    ∃ r, sp.backward a = ok r ∧ Good r sp.shapePhysical ∧ sp.backwardInplace a out = ok r := by
  obtain ⟨g0, c0⟩ := h0.backward
  have k0 := good_mapAx g0 sp.base0.lenPhys 0 ha.2.2
  exact ⟨_, sp.backward_eq c0 ha, k0, sp.backwardInplace_eq c0 ha ho⟩

/-- `backward_par` and `backward_inplace_par` of Space1 return what the serial methods return, whatever the
schedules of the lane tasks of the passes over the axes. -/
theorem C34_space1_backward (h0 : Runs sp.base0) {a : Arr S}
    (ha : Good a sp.shapeSpectral) {out : Arr P} (ho : Good out sp.shapePhysical) {s0 : List ℕ} (hs0 : FairSchedule [sp.base0.lenPhys] 0 s0) :
    sp.backwardPar s0 a = sp.backward a ∧ sp.backwardInplacePar s0 a out = sp.backwardInplace a out := by
  obtain ⟨g0, c0⟩ := h0.backward
  exact ⟨by rw [sp.backwardPar_eq c0 ha hs0, sp.backward_eq c0 ha],
    by rw [sp.backwardInplacePar_eq c0 ha ho hs0, sp.backwardInplace_eq c0 ha ho]⟩

/-- `to_ortho` of Space1: the result has the documented shape, the inplace variant stores the same result
whatever the output array contained. -/
theorem C41_space1_to_ortho (h0 : Runs sp.base0) {a : Arr T}
    (ha : Good a sp.shapeSpectral) {out : Arr T} (ho : Good out sp.shapeSpectralOrtho) :
    ∃ r, sp.toOrtho a = ok r ∧ Good r sp.shapeSpectralOrtho ∧ sp.toOrthoInplace a out = ok r := by
  obtain ⟨g0, c0⟩ := h0.toOrtho
  have k0 := good_mapAx g0 sp.base0.lenOrth 0 ha.2.2
  exact ⟨_, sp.toOrtho_eq c0 ha, k0, sp.toOrthoInplace_eq c0 ha ho⟩

/-- `to_ortho_par` and `to_ortho_inplace_par` of Space1 return what the serial methods return, whatever the
schedules of the lane tasks of the passes over the axes. -/
theorem C34_space1_to_ortho (h0 : Runs sp.base0) {a : Arr T}
    (ha : Good a sp.shapeSpectral) {out : Arr T} (ho : Good out sp.shapeSpectralOrtho) {s0 : List ℕ} (hs0 : FairSchedule [sp.base0.lenOrth] 0 s0) :
    sp.toOrthoPar s0 a = sp.toOrtho a ∧ sp.toOrthoInplacePar s0 a out = sp.toOrthoInplace a out := by
  obtain ⟨g0, c0⟩ := h0.toOrtho
  exact ⟨by rw [sp.toOrthoPar_eq c0 ha hs0, sp.toOrtho_eq c0 ha],
    by rw [sp.toOrthoInplacePar_eq c0 ha ho hs0, sp.toOrthoInplace_eq c0 ha ho]⟩

/-- `from_ortho` of Space1: the result has the documented shape, the inplace variant stores the same result
whatever the output array contained. -/
theorem C41_space1_from_ortho (h0 : Runs sp.base0) {a : Arr T}
    (ha : Good a sp.shapeSpectralOrtho) {out : Arr T} (ho : Good out sp.shapeSpectral) :
    ∃ r, sp.fromOrtho a = ok r ∧ Good r sp.shapeSpectral ∧ sp.fromOrthoInplace a out = ok r := by
  obtain ⟨g0, c0⟩ := h0.fromOrtho
  have k0 := good_mapAx g0 sp.base0.lenSpec 0 ha.2.2
  exact ⟨_, sp.fromOrtho_eq c0 ha, k0, sp.fromOrthoInplace_eq c0 ha ho⟩

/-- `from_ortho_par` and `from_ortho_inplace_par` of Space1 return what the serial methods return, whatever the
schedules of the lane tasks of the passes over the axes. -/
theorem C34_space1_from_ortho (h0 : Runs sp.base0) {a : Arr T}
    (ha : Good a sp.shapeSpectralOrtho) {out : Arr T} (ho : Good out sp.shapeSpectral) {s0 : List ℕ} (hs0 : FairSchedule [sp.base0.lenSpec] 0 s0) :
    sp.fromOrthoPar s0 a = sp.fromOrtho a ∧ sp.fromOrthoInplacePar s0 a out = sp.fromOrthoInplace a out := by
  obtain ⟨g0, c0⟩ := h0.fromOrtho
  exact ⟨by rw [sp.fromOrthoPar_eq c0 ha hs0, sp.fromOrtho_eq c0 ha],
    by rw [sp.fromOrthoInplacePar_eq c0 ha ho hs0, sp.fromOrthoInplace_eq c0 ha ho]⟩

end

section
variable {P S T : Type} [Zero P] [Zero S] [AddCommGroup T] [Module ℝ T]
  (sp : Space1 P S T)

/-- `gradient` of Space1: shape of the result. -/
theorem C41_space1_gradient {d0 : ℕ} (h0 : RunsGradient sp.base0 d0)
    {a : Arr T} (ha : Good a sp.shapeSpectral) {scale : Option (ℝ)}
    (hsc : scale ≠ none → d0 < 2 ^ 31) (hne : scale1 d0 scale ≠ 0) :
    ∃ r, sp.gradient a d0 scale = ok r ∧ Good r sp.shapeSpectralOrtho := by
  obtain ⟨g0, c0⟩ := h0
  have k0 := good_mapAx g0 sp.base0.lenOrth 0 ha.2.2
  exact ⟨_, sp.gradient_eq c0 ha hsc hne, good_scaleArr k0⟩

end

section
variable {P S T A : Type} [Zero P] [Zero S] [Zero T] [Mul A] [Powi A] [DivBy A T]
  (sp : Space1 P S T A)

/-- `gradient_par` of Space1 returns (or fails with) what `gradient` returns, whatever the schedules. -/
theorem C34_space1_gradient {d0 : ℕ} (h0 : RunsGradient sp.base0 d0)
    {a : Arr T} (ha : Good a sp.shapeSpectral) {scale : Option (A)}
    {s0 : List ℕ}
    (hs0 : FairSchedule [sp.base0.lenOrth] 0 s0) :
    sp.gradientPar s0 a d0 scale = sp.gradient a d0 scale := by
  obtain ⟨g0, c0⟩ := h0
  unfold Space1.gradientPar Space1.gradient
  rw [show sp.base0.gradientPar s0 a d0 0 = _ from alloc_par_good c0 ha (by decide : 0 < 1) rfl hs0,
    show sp.base0.gradient a d0 0 = _ from alloc_good c0 ha (by decide : 0 < 1) rfl, bind_ok]

end

/-! ### Space2 -/

section
variable {P I S T A : Type} [Zero P] [Zero I] [Zero S] [Zero T]
  (sp : Space2 P I S T A)

/-- `forward` of Space2: the result has the documented shape, the inplace variant stores the same result
whatever the output array contained. -/
theorem C41_space2_forward (h0 : Runs sp.base0) (h1 : Runs sp.base1) {a : Arr P}
    (ha : Good a sp.shapePhysical) {out : Arr S} (ho : Good out sp.shapeSpectral) :
    ∃ r, sp.forward a = ok r ∧ Good r sp.shapeSpectral ∧ sp.forwardInplace a out = ok r := by
  obtain ⟨g0, c0⟩ := h0.forward
  obtain ⟨g1, c1⟩ := h1.forward
  have k1 := good_mapAx g1 sp.base1.lenSpec 1 ha.2.2
  have k0 := good_mapAx g0 sp.base0.lenSpec 0 k1.2.2
  exact ⟨_, sp.forward_eq c0 c1 ha, k0, sp.forwardInplace_eq c0 c1 ha ho⟩

/-- `forward_par` and `forward_inplace_par` of Space2 return what the serial methods return, whatever the
schedules of the lane tasks of the passes over the axes. -/
theorem C34_space2_forward (h0 : Runs sp.base0) (h1 : Runs sp.base1) {a : Arr P}
    (ha : Good a sp.shapePhysical) {out : Arr S} (ho : Good out sp.shapeSpectral) {s0 s1 : List ℕ} (hs0 : FairSchedule [sp.base0.lenSpec, sp.base1.lenSpec] 0 s0)
    (hs1 : FairSchedule [sp.base0.lenPhys, sp.base1.lenSpec] 1 s1) :
    sp.forwardPar s0 s1 a = sp.forward a ∧ sp.forwardInplacePar s0 s1 a out = sp.forwardInplace a out := by
  obtain ⟨g0, c0⟩ := h0.forward
  obtain ⟨g1, c1⟩ := h1.forward
  exact ⟨by rw [sp.forwardPar_eq c0 c1 ha hs0 hs1, sp.forward_eq c0 c1 ha],
    by rw [sp.forwardInplacePar_eq c0 c1 ha ho hs0 hs1, sp.forwardInplace_eq c0 c1 ha ho]⟩

/-- `backward` of Space2: the result has the documented shape, the inplace variant stores the same result
whatever the output array contained. -/
theorem C41_space2_backward (h0 : Runs sp.base0) (h1 : Runs sp.base1) {a : Arr S}
    (ha : Good a sp.shapeSpectral) {out : Arr P} (ho : Good out sp.shapePhysical) :
    ∃ r, sp.backward a = ok r ∧ Good r sp.shapePhysical ∧ sp.backwardInplace a out = ok r := by
  obtain ⟨g0, c0⟩ := h0.backward
  obtain ⟨g1, c1⟩ := h1.backward
  have k0 := good_mapAx g0 sp.base0.lenPhys 0 ha.2.2
  have k1 := good_mapAx g1 sp.base1.lenPhys 1 k0.2.2
  exact ⟨_, sp.backward_eq c0 c1 ha, k1, sp.backwardInplace_eq c0 c1 ha ho⟩

/-- `backward_par` and `backward_inplace_par` of Space2 return what the serial methods return, whatever the
schedules of the lane tasks of the passes over the axes. -/
theorem C34_space2_backward (h0 : Runs sp.base0) (h1 : Runs sp.base1) {a : Arr S}
    (ha : Good a sp.shapeSpectral) {out : Arr P} (ho : Good out sp.shapePhysical) {s0 s1 : List ℕ} (hs0 : FairSchedule [sp.base0.lenPhys, sp.base1.lenSpec] 0 s0)
    (hs1 : FairSchedule [sp.base0.lenPhys, sp.base1.lenPhys] 1 s1) :
    sp.backwardPar s0 s1 a = sp.backward a ∧ sp.backwardInplacePar s0 s1 a out = sp.backwardInplace a out := by
  obtain ⟨g0, c0⟩ := h0.backward
  obtain ⟨g1, c1⟩ := h1.backward
  exact ⟨by rw [sp.backwardPar_eq c0 c1 ha hs0 hs1, sp.backward_eq c0 c1 ha],
    by rw [sp.backwardInplacePar_eq c0 c1 ha ho hs0 hs1, sp.backwardInplace_eq c0 c1 ha ho]⟩

/-- `to_ortho` of Space2: the result has the documented shape, the inplace variant stores the same result
whatever the output array contained. -/
theorem C41_space2_to_ortho (h0 : Runs sp.base0) (h1 : Runs sp.base1) {a : Arr T}
    (ha : Good a sp.shapeSpectral) {out : Arr T} (ho : Good out sp.shapeSpectralOrtho) :
    ∃ r, sp.toOrtho a = ok r ∧ Good r sp.shapeSpectralOrtho ∧ sp.toOrthoInplace a out = ok r := by
  obtain ⟨g0, c0⟩ := h0.toOrtho
  obtain ⟨g1, c1⟩ := h1.toOrtho
  have k0 := good_mapAx g0 sp.base0.lenOrth 0 ha.2.2
  have k1 := good_mapAx g1 sp.base1.lenOrth 1 k0.2.2
  exact ⟨_, sp.toOrtho_eq c0 c1 ha, k1, sp.toOrthoInplace_eq c0 c1 ha ho⟩

/-- `to_ortho_par` and `to_ortho_inplace_par` of Space2 return what the serial methods return, whatever the
schedules of the lane tasks of the passes over the axes. -/
theorem C34_space2_to_ortho (h0 : Runs sp.base0) (h1 : Runs sp.base1) {a : Arr T}
    (ha : Good a sp.shapeSpectral) {out : Arr T} (ho : Good out sp.shapeSpectralOrtho) {s0 s1 : List ℕ} (hs0 : FairSchedule [sp.base0.lenOrth, sp.base1.lenSpec] 0 s0)
    (hs1 : FairSchedule [sp.base0.lenOrth, sp.base1.lenOrth] 1 s1) :
    sp.toOrthoPar s0 s1 a = sp.toOrtho a ∧ sp.toOrthoInplacePar s0 s1 a out = sp.toOrthoInplace a out := by
  obtain ⟨g0, c0⟩ := h0.toOrtho
  obtain ⟨g1, c1⟩ := h1.toOrtho
  exact ⟨by rw [sp.toOrthoPar_eq c0 c1 ha hs0 hs1, sp.toOrtho_eq c0 c1 ha],
    by rw [sp.toOrthoInplacePar_eq c0 c1 ha ho hs0 hs1, sp.toOrthoInplace_eq c0 c1 ha ho]⟩

/-- `from_ortho` of Space2: the result has the documented shape, the inplace variant stores the same result
whatever the output array contained. -/
theorem C41_space2_from_ortho (h0 : Runs sp.base0) (h1 : Runs sp.base1) {a : Arr T}
    (ha : Good a sp.shapeSpectralOrtho) {out : Arr T} (ho : Good out sp.shapeSpectral) :
    ∃ r, sp.fromOrtho a = ok r ∧ Good r sp.shapeSpectral ∧ sp.fromOrthoInplace a out = ok r := by
  obtain ⟨g0, c0⟩ := h0.fromOrtho
  obtain ⟨g1, c1⟩ := h1.fromOrtho
  have k0 := good_mapAx g0 sp.base0.lenSpec 0 ha.2.2
  have k1 := good_mapAx g1 sp.base1.lenSpec 1 k0.2.2
  exact ⟨_, sp.fromOrtho_eq c0 c1 ha, k1, sp.fromOrthoInplace_eq c0 c1 ha ho⟩

/-- `from_ortho_par` and `from_ortho_inplace_par` of Space2 return what the serial methods return, whatever the
schedules of the lane tasks of the passes over the axes. -/
theorem C34_space2_from_ortho (h0 : Runs sp.base0) (h1 : Runs sp.base1) {a : Arr T}
    (ha : Good a sp.shapeSpectralOrtho) {out : Arr T} (ho : Good out sp.shapeSpectral) {s0 s1 : List ℕ} (hs0 : FairSchedule [sp.base0.lenSpec, sp.base1.lenOrth] 0 s0)
    (hs1 : FairSchedule [sp.base0.lenSpec, sp.base1.lenSpec] 1 s1) :
    sp.fromOrthoPar s0 s1 a = sp.fromOrtho a ∧ sp.fromOrthoInplacePar s0 s1 a out = sp.fromOrthoInplace a out := by
  obtain ⟨g0, c0⟩ := h0.fromOrtho
  obtain ⟨g1, c1⟩ := h1.fromOrtho
  exact ⟨by rw [sp.fromOrthoPar_eq c0 c1 ha hs0 hs1, sp.fromOrtho_eq c0 c1 ha],
    by rw [sp.fromOrthoInplacePar_eq c0 c1 ha ho hs0 hs1, sp.fromOrthoInplace_eq c0 c1 ha ho]⟩

end

section
variable {P I S T : Type} [Zero P] [Zero I] [Zero S] [AddCommGroup T] [Module ℝ T]
  (sp : Space2 P I S T)

/-- `gradient` of Space2: shape of the result. -/
theorem C41_space2_gradient {d0 d1 : ℕ} (h0 : RunsGradient sp.base0 d0) (h1 : RunsGradient sp.base1 d1)
    {a : Arr T} (ha : Good a sp.shapeSpectral) {scale : Option (ℝ × ℝ)}
    (hsc : scale ≠ none → d0 < 2 ^ 31 ∧ d1 < 2 ^ 31) (hne : scale2 d0 d1 scale ≠ 0) :
    ∃ r, sp.gradient a d0 d1 scale = ok r ∧ Good r sp.shapeSpectralOrtho := by
  obtain ⟨g0, c0⟩ := h0
  obtain ⟨g1, c1⟩ := h1
  have k0 := good_mapAx g0 sp.base0.lenOrth 0 ha.2.2
  have k1 := good_mapAx g1 sp.base1.lenOrth 1 k0.2.2
  exact ⟨_, sp.gradient_eq c0 c1 ha hsc hne, good_scaleArr k1⟩

end

section
variable {P I S T A : Type} [Zero P] [Zero I] [Zero S] [Zero T] [Mul A] [Powi A] [DivBy A T]
  (sp : Space2 P I S T A)

/-- `gradient_par` of Space2 returns (or fails with) what `gradient` returns, whatever the schedules. -/
theorem C34_space2_gradient {d0 d1 : ℕ} (h0 : RunsGradient sp.base0 d0) (h1 : RunsGradient sp.base1 d1)
    {a : Arr T} (ha : Good a sp.shapeSpectral) {scale : Option (A × A)}
    {s0 s1 : List ℕ}
    (hs0 : FairSchedule [sp.base0.lenOrth, sp.base1.lenSpec] 0 s0)
    (hs1 : FairSchedule [sp.base0.lenOrth, sp.base1.lenOrth] 1 s1) :
    sp.gradientPar s0 s1 a d0 d1 scale = sp.gradient a d0 d1 scale := by
  obtain ⟨g0, c0⟩ := h0
  obtain ⟨g1, c1⟩ := h1
  have k0 := good_mapAx g0 sp.base0.lenOrth 0 ha.2.2
  unfold Space2.gradientPar Space2.gradient
  rw [show sp.base0.gradientPar s0 a d0 0 = _ from alloc_par_good c0 ha (by decide : 0 < 2) rfl hs0,
    show sp.base0.gradient a d0 0 = _ from alloc_good c0 ha (by decide : 0 < 2) rfl, bind_ok, bind_ok]
  rw [show sp.base1.gradientPar s1 _ d1 1 = _ from alloc_par_good c1 k0 (by decide : 1 < 2) rfl hs1,
    show sp.base1.gradient _ d1 1 = _ from alloc_good c1 k0 (by decide : 1 < 2) rfl, bind_ok]

end

section
variable {R T : Type} [CommRing R] [Zero T] (sp : Space2 R R R T)

/-- `forward` of Space2 is the composition of the one-dimensional operators along the axes, in any order (for spaces
whose transforms all act on the same element type, where every order is possible). -/
theorem C37_space2_forward (h0 : LinOp R sp.base0.forwardSlice sp.base0.lenPhys sp.base0.lenSpec)
    (h1 : LinOp R sp.base1.forwardSlice sp.base1.lenPhys sp.base1.lenSpec)
    {a : Arr R} (ha : Good a sp.shapePhysical) {σ : List ℕ} (hσ : σ.Perm [0, 1]) :
    inOrder (fun i => if i = 0 then (fun u => sp.base0.forward u 0) else (fun u => sp.base1.forward u 1)) σ a
      = sp.forward a := by
  obtain ⟨g0, c0, l0⟩ := h0
  obtain ⟨g1, c1, l1⟩ := h1
  rw [sp.forward_eq c0 c1 ha]
  refine (order2 l0 c0.len l1 c1.len
    (fun q x hx => alloc_good c0 hx (by decide : 0 < 2) rfl)
    (fun q x hx => alloc_good c1 hx (by decide : 1 < 2) rfl) ha hσ).trans ?_
  refine (order2 (st := (fun i => if i = 0 then (fun u => sp.base0.forward u 0) else (fun u => sp.base1.forward u 1))) l0 c0.len l1 c1.len
    (fun q x hx => alloc_good c0 hx (by decide : 0 < 2) rfl)
    (fun q x hx => alloc_good c1 hx (by decide : 1 < 2) rfl) ha (σ := [0, 1].reverse) (List.reverse_perm _)).symm.trans ?_
  have e1 : sp.base1.forward a 1 = ok _ := alloc_good c1 ha (by decide : 1 < 2) rfl
  have k1 := good_mapAx g1 sp.base1.lenSpec 1 ha.2.2
  have e0 : sp.base0.forward _ 0 = ok _ := alloc_good c0 k1 (by decide : 0 < 2) rfl
  have k0 := good_mapAx g0 sp.base0.lenSpec 0 k1.2.2
  change inOrder _ [1, 0] a = _
  simp only [inOrder, if_true, if_false, one_ne_zero, OfNat.ofNat_ne_zero, OfNat.ofNat_ne_one]
  rw [e1, bind_ok, e0]; rfl

end

section
variable {R T : Type} [CommRing R] [Zero T] (sp : Space2 R R R T)

/-- `backward` of Space2 is the composition of the one-dimensional operators along the axes, in any order (for spaces
whose transforms all act on the same element type, where every order is possible). -/
theorem C37_space2_backward (h0 : LinOp R sp.base0.backwardSlice sp.base0.lenSpec sp.base0.lenPhys)
    (h1 : LinOp R sp.base1.backwardSlice sp.base1.lenSpec sp.base1.lenPhys)
    {a : Arr R} (ha : Good a sp.shapeSpectral) {σ : List ℕ} (hσ : σ.Perm [0, 1]) :
    inOrder (fun i => if i = 0 then (fun u => sp.base0.backward u 0) else (fun u => sp.base1.backward u 1)) σ a
      = sp.backward a := by
  obtain ⟨g0, c0, l0⟩ := h0
  obtain ⟨g1, c1, l1⟩ := h1
  rw [sp.backward_eq c0 c1 ha]
  exact order2 l0 c0.len l1 c1.len
    (fun q x hx => alloc_good c0 hx (by decide : 0 < 2) rfl)
    (fun q x hx => alloc_good c1 hx (by decide : 1 < 2) rfl) ha hσ

end

section
variable {P I S T : Type} [Zero P] [Zero I] [Zero S] [CommRing T]
  (sp : Space2 P I S T)

/-- `to_ortho` of Space2 is the composition of the one-dimensional operators along the axes, in any order. -/
theorem C37_space2_to_ortho (h0 : LinOp T sp.base0.toOrthoSlice sp.base0.lenSpec sp.base0.lenOrth)
    (h1 : LinOp T sp.base1.toOrthoSlice sp.base1.lenSpec sp.base1.lenOrth)
    {a : Arr T} (ha : Good a sp.shapeSpectral) {σ : List ℕ} (hσ : σ.Perm [0, 1]) :
    inOrder (fun i => if i = 0 then (fun u => sp.base0.toOrtho u 0) else (fun u => sp.base1.toOrtho u 1)) σ a
      = sp.toOrtho a := by
  obtain ⟨g0, c0, l0⟩ := h0
  obtain ⟨g1, c1, l1⟩ := h1
  rw [sp.toOrtho_eq c0 c1 ha]
  exact order2 l0 c0.len l1 c1.len
    (fun q x hx => alloc_good c0 hx (by decide : 0 < 2) rfl)
    (fun q x hx => alloc_good c1 hx (by decide : 1 < 2) rfl) ha hσ

end

section
variable {P I S T : Type} [Zero P] [Zero I] [Zero S] [CommRing T]
  (sp : Space2 P I S T)

/-- `from_ortho` of Space2 is the composition of the one-dimensional operators along the axes, in any order. -/
theorem C37_space2_from_ortho (h0 : LinOp T sp.base0.fromOrthoSlice sp.base0.lenOrth sp.base0.lenSpec)
    (h1 : LinOp T sp.base1.fromOrthoSlice sp.base1.lenOrth sp.base1.lenSpec)
    {a : Arr T} (ha : Good a sp.shapeSpectralOrtho) {σ : List ℕ} (hσ : σ.Perm [0, 1]) :
    inOrder (fun i => if i = 0 then (fun u => sp.base0.fromOrtho u 0) else (fun u => sp.base1.fromOrtho u 1)) σ a
      = sp.fromOrtho a := by
  obtain ⟨g0, c0, l0⟩ := h0
  obtain ⟨g1, c1, l1⟩ := h1
  rw [sp.fromOrtho_eq c0 c1 ha]
  exact order2 l0 c0.len l1 c1.len
    (fun q x hx => alloc_good c0 hx (by decide : 0 < 2) rfl)
    (fun q x hx => alloc_good c1 hx (by decide : 1 < 2) rfl) ha hσ

end

section
variable {P I S T : Type} [Zero P] [Zero I] [Zero S] [CommRing T] [Module ℝ T]
  (sp : Space2 P I S T)

/-- `gradient` of Space2 is the composition of the one-dimensional operators along the axes, in any order. -/
theorem C37_space2_gradient {d0 d1 : ℕ} (h0 : LinOp T (fun x out => sp.base0.gradientSlice x out d0) sp.base0.lenSpec sp.base0.lenOrth)
    (h1 : LinOp T (fun x out => sp.base1.gradientSlice x out d1) sp.base1.lenSpec sp.base1.lenOrth)
    {a : Arr T} (ha : Good a sp.shapeSpectral) {σ : List ℕ} (hσ : σ.Perm [0, 1]) :
    inOrder (fun i => if i = 0 then (fun u => sp.base0.gradient u d0 0) else (fun u => sp.base1.gradient u d1 1)) σ a
      = sp.gradient a d0 d1 none := by
  obtain ⟨g0, c0, l0⟩ := h0
  obtain ⟨g1, c1, l1⟩ := h1
  rw [sp.gradient_eq c0 c1 ha (scale := none) (fun h => absurd rfl h) one_ne_zero]
  refine (order2 l0 c0.len l1 c1.len
    (fun q x hx => alloc_good c0 hx (by decide : 0 < 2) rfl)
    (fun q x hx => alloc_good c1 hx (by decide : 1 < 2) rfl) ha hσ).trans ?_
  congr 1
  rw [show (scale2 d0 d1 none)⁻¹ = 1 from inv_one, scaleArr_one]

end

/-! ### Space3 -/

section
variable {P I J S T A : Type} [Zero P] [Zero I] [Zero J] [Zero S] [Zero T]
  (sp : Space3 P I J S T A)

/-- `forward` of Space3: the result has the documented shape, the inplace variant stores the same result
whatever the output array contained. -/
theorem C41_space3_forward (h0 : Runs sp.base0) (h1 : Runs sp.base1) (h2 : Runs sp.base2) {a : Arr P}
    (ha : Good a sp.shapePhysical) {out : Arr S} (ho : Good out sp.shapeSpectral) :
    ∃ r, sp.forward a = ok r ∧ Good r sp.shapeSpectral ∧ sp.forwardInplace a out = ok r := by
  obtain ⟨g0, c0⟩ := h0.forward
  obtain ⟨g1, c1⟩ := h1.forward
  obtain ⟨g2, c2⟩ := h2.forward
  have k2 := good_mapAx g2 sp.base2.lenSpec 2 ha.2.2
  have k1 := good_mapAx g1 sp.base1.lenSpec 1 k2.2.2
  have k0 := good_mapAx g0 sp.base0.lenSpec 0 k1.2.2
  exact ⟨_, sp.forward_eq c0 c1 c2 ha, k0, sp.forwardInplace_eq c0 c1 c2 ha ho⟩

/-- `forward_par` and `forward_inplace_par` of Space3 return what the serial methods return, whatever the
schedules of the lane tasks of the passes over the axes. -/
theorem C34_space3_forward (h0 : Runs sp.base0) (h1 : Runs sp.base1) (h2 : Runs sp.base2) {a : Arr P}
    (ha : Good a sp.shapePhysical) {out : Arr S} (ho : Good out sp.shapeSpectral) {s0 s1 s2 : List ℕ} (hs0 : FairSchedule [sp.base0.lenSpec, sp.base1.lenSpec, sp.base2.lenSpec] 0 s0)
    (hs1 : FairSchedule [sp.base0.lenPhys, sp.base1.lenSpec, sp.base2.lenSpec] 1 s1)
    (hs2 : FairSchedule [sp.base0.lenPhys, sp.base1.lenPhys, sp.base2.lenSpec] 2 s2) :
    sp.forwardPar s0 s1 s2 a = sp.forward a ∧ sp.forwardInplacePar s0 s1 s2 a out = sp.forwardInplace a out := by
  obtain ⟨g0, c0⟩ := h0.forward
  obtain ⟨g1, c1⟩ := h1.forward
  obtain ⟨g2, c2⟩ := h2.forward
  exact ⟨by rw [sp.forwardPar_eq c0 c1 c2 ha hs0 hs1 hs2, sp.forward_eq c0 c1 c2 ha],
    by rw [sp.forwardInplacePar_eq c0 c1 c2 ha ho hs0 hs1 hs2, sp.forwardInplace_eq c0 c1 c2 ha ho]⟩

/-- `backward` of Space3: the result has the documented shape, the inplace variant stores the same result
whatever the output array contained. -/
theorem C41_space3_backward (h0 : Runs sp.base0) (h1 : Runs sp.base1) (h2 : Runs sp.base2) {a : Arr S}
    (ha : Good a sp.shapeSpectral) {out : Arr P} (ho : Good out sp.shapePhysical) :
    ∃ r, sp.backward a = ok r ∧ Good r sp.shapePhysical ∧ sp.backwardInplace a out = ok r := by
  obtain ⟨g0, c0⟩ := h0.backward
  obtain ⟨g1, c1⟩ := h1.backward
  obtain ⟨g2, c2⟩ := h2.backward
  have k0 := good_mapAx g0 sp.base0.lenPhys 0 ha.2.2
  have k1 := good_mapAx g1 sp.base1.lenPhys 1 k0.2.2
  have k2 := good_mapAx g2 sp.base2.lenPhys 2 k1.2.2
  exact ⟨_, sp.backward_eq c0 c1 c2 ha, k2, sp.backwardInplace_eq c0 c1 c2 ha ho⟩

/-- `backward_par` and `backward_inplace_par` of Space3 return what the serial methods return, whatever the
schedules of the lane tasks of the passes over the axes. -/
theorem C34_space3_backward (h0 : Runs sp.base0) (h1 : Runs sp.base1) (h2 : Runs sp.base2) {a : Arr S}
    (ha : Good a sp.shapeSpectral) {out : Arr P} (ho : Good out sp.shapePhysical) {s0 s1 s2 : List ℕ} (hs0 : FairSchedule [sp.base0.lenPhys, sp.base1.lenSpec, sp.base2.lenSpec] 0 s0)
    (hs1 : FairSchedule [sp.base0.lenPhys, sp.base1.lenPhys, sp.base2.lenSpec] 1 s1)
    (hs2 : FairSchedule [sp.base0.lenPhys, sp.base1.lenPhys, sp.base2.lenPhys] 2 s2) :
    sp.backwardPar s0 s1 s2 a = sp.backward a ∧ sp.backwardInplacePar s0 s1 s2 a out = sp.backwardInplace a out := by
  obtain ⟨g0, c0⟩ := h0.backward
  obtain ⟨g1, c1⟩ := h1.backward
  obtain ⟨g2, c2⟩ := h2.backward
  exact ⟨by rw [sp.backwardPar_eq c0 c1 c2 ha hs0 hs1 hs2, sp.backward_eq c0 c1 c2 ha],
    by rw [sp.backwardInplacePar_eq c0 c1 c2 ha ho hs0 hs1 hs2, sp.backwardInplace_eq c0 c1 c2 ha ho]⟩

/-- `to_ortho` of Space3: the result has the documented shape, the inplace variant stores the same result
whatever the output array contained. -/
theorem C41_space3_to_ortho (h0 : Runs sp.base0) (h1 : Runs sp.base1) (h2 : Runs sp.base2) {a : Arr T}
    (ha : Good a sp.shapeSpectral) {out : Arr T} (ho : Good out sp.shapeSpectralOrtho) :
    ∃ r, sp.toOrtho a = ok r ∧ Good r sp.shapeSpectralOrtho ∧ sp.toOrthoInplace a out = ok r := by
  obtain ⟨g0, c0⟩ := h0.toOrtho
  obtain ⟨g1, c1⟩ := h1.toOrtho
  obtain ⟨g2, c2⟩ := h2.toOrtho
  have k0 := good_mapAx g0 sp.base0.lenOrth 0 ha.2.2
  have k1 := good_mapAx g1 sp.base1.lenOrth 1 k0.2.2
  have k2 := good_mapAx g2 sp.base2.lenOrth 2 k1.2.2
  exact ⟨_, sp.toOrtho_eq c0 c1 c2 ha, k2, sp.toOrthoInplace_eq c0 c1 c2 ha ho⟩

/-- `to_ortho_par` and `to_ortho_inplace_par` of Space3 return what the serial methods return, whatever the
schedules of the lane tasks of the passes over the axes. -/
theorem C34_space3_to_ortho (h0 : Runs sp.base0) (h1 : Runs sp.base1) (h2 : Runs sp.base2) {a : Arr T}
    (ha : Good a sp.shapeSpectral) {out : Arr T} (ho : Good out sp.shapeSpectralOrtho) {s0 s1 s2 : List ℕ} (hs0 : FairSchedule [sp.base0.lenOrth, sp.base1.lenSpec, sp.base2.lenSpec] 0 s0)
    (hs1 : FairSchedule [sp.base0.lenOrth, sp.base1.lenOrth, sp.base2.lenSpec] 1 s1)
    (hs2 : FairSchedule [sp.base0.lenOrth, sp.base1.lenOrth, sp.base2.lenOrth] 2 s2) :
    sp.toOrthoPar s0 s1 s2 a = sp.toOrtho a ∧ sp.toOrthoInplacePar s0 s1 s2 a out = sp.toOrthoInplace a out := by
  obtain ⟨g0, c0⟩ := h0.toOrtho
  obtain ⟨g1, c1⟩ := h1.toOrtho
  obtain ⟨g2, c2⟩ := h2.toOrtho
  exact ⟨by rw [sp.toOrthoPar_eq c0 c1 c2 ha hs0 hs1 hs2, sp.toOrtho_eq c0 c1 c2 ha],
    by rw [sp.toOrthoInplacePar_eq c0 c1 c2 ha ho hs0 hs1 hs2, sp.toOrthoInplace_eq c0 c1 c2 ha ho]⟩

/-- `from_ortho` of Space3: the result has the documented shape, the inplace variant stores the same result
whatever the output array contained. -/
theorem C41_space3_from_ortho (h0 : Runs sp.base0) (h1 : Runs sp.base1) (h2 : Runs sp.base2) {a : Arr T}
    (ha : Good a sp.shapeSpectralOrtho) {out : Arr T} (ho : Good out sp.shapeSpectral) :
    ∃ r, sp.fromOrtho a = ok r ∧ Good r sp.shapeSpectral ∧ sp.fromOrthoInplace a out = ok r := by
  obtain ⟨g0, c0⟩ := h0.fromOrtho
  obtain ⟨g1, c1⟩ := h1.fromOrtho
  obtain ⟨g2, c2⟩ := h2.fromOrtho
  have k0 := good_mapAx g0 sp.base0.lenSpec 0 ha.2.2
  have k1 := good_mapAx g1 sp.base1.lenSpec 1 k0.2.2
  have k2 := good_mapAx g2 sp.base2.lenSpec 2 k1.2.2
  exact ⟨_, sp.fromOrtho_eq c0 c1 c2 ha, k2, sp.fromOrthoInplace_eq c0 c1 c2 ha ho⟩

/-- `from_ortho_par` and `from_ortho_inplace_par` of Space3 return what the serial methods return, whatever the
schedules of the lane tasks of the passes over the axes. -/
theorem C34_space3_from_ortho (h0 : Runs sp.base0) (h1 : Runs sp.base1) (h2 : Runs sp.base2) {a : Arr T}
    (ha : Good a sp.shapeSpectralOrtho) {out : Arr T} (ho : Good out sp.shapeSpectral) {s0 s1 s2 : List ℕ} (hs0 : FairSchedule [sp.base0.lenSpec, sp.base1.lenOrth, sp.base2.lenOrth] 0 s0)
    (hs1 : FairSchedule [sp.base0.lenSpec, sp.base1.lenSpec, sp.base2.lenOrth] 1 s1)
    (hs2 : FairSchedule [sp.base0.lenSpec, sp.base1.lenSpec, sp.base2.lenSpec] 2 s2) :
    sp.fromOrthoPar s0 s1 s2 a = sp.fromOrtho a ∧ sp.fromOrthoInplacePar s0 s1 s2 a out = sp.fromOrthoInplace a out := by
  obtain ⟨g0, c0⟩ := h0.fromOrtho
  obtain ⟨g1, c1⟩ := h1.fromOrtho
  obtain ⟨g2, c2⟩ := h2.fromOrtho
  exact ⟨by rw [sp.fromOrthoPar_eq c0 c1 c2 ha hs0 hs1 hs2, sp.fromOrtho_eq c0 c1 c2 ha],
    by rw [sp.fromOrthoInplacePar_eq c0 c1 c2 ha ho hs0 hs1 hs2, sp.fromOrthoInplace_eq c0 c1 c2 ha ho]⟩

end

section
variable {P I J S T : Type} [Zero P] [Zero I] [Zero J] [Zero S] [AddCommGroup T] [Module ℝ T]
  (sp : Space3 P I J S T)

/-- `gradient` of Space3: shape of the result.  (The last axis is treated with base 1, see C40.) -/
theorem C41_space3_gradient {d0 d1 d2 : ℕ} (h0 : RunsGradient sp.base0 d0) (h1 : RunsGradient sp.base1 d1) (h2 : RunsGradient sp.base1 d2)
    (h21 : sp.base2.lenSpec = sp.base1.lenSpec)
    {a : Arr T} (ha : Good a sp.shapeSpectral) {scale : Option (ℝ × ℝ × ℝ)}
    (hsc : scale ≠ none → d0 < 2 ^ 31 ∧ d1 < 2 ^ 31 ∧ d2 < 2 ^ 31) (hne : scale3 d0 d1 d2 scale ≠ 0) :
    ∃ r, sp.gradient a d0 d1 d2 scale = ok r ∧ Good r [sp.base0.lenOrth, sp.base1.lenOrth, sp.base1.lenOrth] := by
  obtain ⟨g0, c0⟩ := h0
  obtain ⟨g1, c1⟩ := h1
  obtain ⟨g2, c2⟩ := h2
  have k0 := good_mapAx g0 sp.base0.lenOrth 0 ha.2.2
  have k1 := good_mapAx g1 sp.base1.lenOrth 1 k0.2.2
  have k2 := good_mapAx g2 sp.base1.lenOrth 2 k1.2.2
  exact ⟨_, sp.gradient_eq c0 c1 c2 h21 ha hsc hne, good_scaleArr k2⟩

end

section
variable {P I J S T A : Type} [Zero P] [Zero I] [Zero J] [Zero S] [Zero T] [Mul A] [Powi A] [DivBy A T]
  (sp : Space3 P I J S T A)

/-- `gradient_par` of Space3 returns (or fails with) what `gradient` returns, whatever the schedules. -/
theorem C34_space3_gradient {d0 d1 d2 : ℕ} (h0 : RunsGradient sp.base0 d0) (h1 : RunsGradient sp.base1 d1) (h2 : RunsGradient sp.base1 d2)
    (h21 : sp.base2.lenSpec = sp.base1.lenSpec)
    {a : Arr T} (ha : Good a sp.shapeSpectral) {scale : Option (A × A × A)}
    {s0 s1 s2 : List ℕ}
    (hs0 : FairSchedule [sp.base0.lenOrth, sp.base1.lenSpec, sp.base2.lenSpec] 0 s0)
    (hs1 : FairSchedule [sp.base0.lenOrth, sp.base1.lenOrth, sp.base2.lenSpec] 1 s1)
    (hs2 : FairSchedule [sp.base0.lenOrth, sp.base1.lenOrth, sp.base1.lenOrth] 2 s2) :
    sp.gradientPar s0 s1 s2 a d0 d1 d2 scale = sp.gradient a d0 d1 d2 scale := by
  obtain ⟨g0, c0⟩ := h0
  obtain ⟨g1, c1⟩ := h1
  obtain ⟨g2, c2⟩ := h2
  have k0 := good_mapAx g0 sp.base0.lenOrth 0 ha.2.2
  have k1 := good_mapAx g1 sp.base1.lenOrth 1 k0.2.2
  unfold Space3.gradientPar Space3.gradient
  rw [show sp.base0.gradientPar s0 a d0 0 = _ from alloc_par_good c0 ha (by decide : 0 < 3) rfl hs0,
    show sp.base0.gradient a d0 0 = _ from alloc_good c0 ha (by decide : 0 < 3) rfl, bind_ok, bind_ok]
  rw [show sp.base1.gradientPar s1 _ d1 1 = _ from alloc_par_good c1 k0 (by decide : 1 < 3) rfl hs1,
    show sp.base1.gradient _ d1 1 = _ from alloc_good c1 k0 (by decide : 1 < 3) rfl, bind_ok, bind_ok]
  rw [show sp.base1.gradientPar s2 _ d2 2 = _ from alloc_par_good c2 k1 (by decide : 2 < 3) h21 hs2,
    show sp.base1.gradient _ d2 2 = _ from alloc_good c2 k1 (by decide : 2 < 3) h21, bind_ok]

end

section
variable {R T : Type} [CommRing R] [Zero T] (sp : Space3 R R R R T)

/-- `forward` of Space3 is the composition of the one-dimensional operators along the axes, in any order (for spaces
whose transforms all act on the same element type, where every order is possible). -/
theorem C37_space3_forward (h0 : LinOp R sp.base0.forwardSlice sp.base0.lenPhys sp.base0.lenSpec)
    (h1 : LinOp R sp.base1.forwardSlice sp.base1.lenPhys sp.base1.lenSpec)
    (h2 : LinOp R sp.base2.forwardSlice sp.base2.lenPhys sp.base2.lenSpec)
    {a : Arr R} (ha : Good a sp.shapePhysical) {σ : List ℕ} (hσ : σ.Perm [0, 1, 2]) :
    inOrder (fun i => if i = 0 then (fun u => sp.base0.forward u 0)
      else if i = 1 then (fun u => sp.base1.forward u 1) else (fun u => sp.base2.forward u 2)) σ a
      = sp.forward a := by
  obtain ⟨g0, c0, l0⟩ := h0
  obtain ⟨g1, c1, l1⟩ := h1
  obtain ⟨g2, c2, l2⟩ := h2
  rw [sp.forward_eq c0 c1 c2 ha]
  refine (order3 l0 c0.len l1 c1.len l2 c2.len
    (fun p q x hx => alloc_good c0 hx (by decide : 0 < 3) rfl)
    (fun p q x hx => alloc_good c1 hx (by decide : 1 < 3) rfl)
    (fun p q x hx => alloc_good c2 hx (by decide : 2 < 3) rfl) ha hσ).trans ?_
  refine (order3 (st := (fun i => if i = 0 then (fun u => sp.base0.forward u 0)
      else if i = 1 then (fun u => sp.base1.forward u 1) else (fun u => sp.base2.forward u 2))) l0 c0.len l1 c1.len l2 c2.len
    (fun p q x hx => alloc_good c0 hx (by decide : 0 < 3) rfl)
    (fun p q x hx => alloc_good c1 hx (by decide : 1 < 3) rfl)
    (fun p q x hx => alloc_good c2 hx (by decide : 2 < 3) rfl) ha (σ := [0, 1, 2].reverse) (List.reverse_perm _)).symm.trans ?_
  have e2 : sp.base2.forward a 2 = ok _ := alloc_good c2 ha (by decide : 2 < 3) rfl
  have k2 := good_mapAx g2 sp.base2.lenSpec 2 ha.2.2
  have e1 : sp.base1.forward _ 1 = ok _ := alloc_good c1 k2 (by decide : 1 < 3) rfl
  have k1 := good_mapAx g1 sp.base1.lenSpec 1 k2.2.2
  have e0 : sp.base0.forward _ 0 = ok _ := alloc_good c0 k1 (by decide : 0 < 3) rfl
  have k0 := good_mapAx g0 sp.base0.lenSpec 0 k1.2.2
  change inOrder _ [2, 1, 0] a = _
  simp only [inOrder, if_true, if_false, one_ne_zero, OfNat.ofNat_ne_zero, OfNat.ofNat_ne_one]
  rw [e2, bind_ok, e1, bind_ok, e0]; rfl

end

section
variable {R T : Type} [CommRing R] [Zero T] (sp : Space3 R R R R T)

/-- `backward` of Space3 is the composition of the one-dimensional operators along the axes, in any order (for spaces
whose transforms all act on the same element type, where every order is possible). -/
theorem C37_space3_backward (h0 : LinOp R sp.base0.backwardSlice sp.base0.lenSpec sp.base0.lenPhys)
    (h1 : LinOp R sp.base1.backwardSlice sp.base1.lenSpec sp.base1.lenPhys)
    (h2 : LinOp R sp.base2.backwardSlice sp.base2.lenSpec sp.base2.lenPhys)
    {a : Arr R} (ha : Good a sp.shapeSpectral) {σ : List ℕ} (hσ : σ.Perm [0, 1, 2]) :
    inOrder (fun i => if i = 0 then (fun u => sp.base0.backward u 0)
      else if i = 1 then (fun u => sp.base1.backward u 1) else (fun u => sp.base2.backward u 2)) σ a
      = sp.backward a := by
  obtain ⟨g0, c0, l0⟩ := h0
  obtain ⟨g1, c1, l1⟩ := h1
  obtain ⟨g2, c2, l2⟩ := h2
  rw [sp.backward_eq c0 c1 c2 ha]
  exact order3 l0 c0.len l1 c1.len l2 c2.len
    (fun p q x hx => alloc_good c0 hx (by decide : 0 < 3) rfl)
    (fun p q x hx => alloc_good c1 hx (by decide : 1 < 3) rfl)
    (fun p q x hx => alloc_good c2 hx (by decide : 2 < 3) rfl) ha hσ

end

section
variable {P I J S T : Type} [Zero P] [Zero I] [Zero J] [Zero S] [CommRing T]
  (sp : Space3 P I J S T)

/-- `to_ortho` of Space3 is the composition of the one-dimensional operators along the axes, in any order. -/
theorem C37_space3_to_ortho (h0 : LinOp T sp.base0.toOrthoSlice sp.base0.lenSpec sp.base0.lenOrth)
    (h1 : LinOp T sp.base1.toOrthoSlice sp.base1.lenSpec sp.base1.lenOrth)
    (h2 : LinOp T sp.base2.toOrthoSlice sp.base2.lenSpec sp.base2.lenOrth)
    {a : Arr T} (ha : Good a sp.shapeSpectral) {σ : List ℕ} (hσ : σ.Perm [0, 1, 2]) :
    inOrder (fun i => if i = 0 then (fun u => sp.base0.toOrtho u 0)
      else if i = 1 then (fun u => sp.base1.toOrtho u 1) else (fun u => sp.base2.toOrtho u 2)) σ a
      = sp.toOrtho a := by
  obtain ⟨g0, c0, l0⟩ := h0
  obtain ⟨g1, c1, l1⟩ := h1
  obtain ⟨g2, c2, l2⟩ := h2
  rw [sp.toOrtho_eq c0 c1 c2 ha]
  exact order3 l0 c0.len l1 c1.len l2 c2.len
    (fun p q x hx => alloc_good c0 hx (by decide : 0 < 3) rfl)
    (fun p q x hx => alloc_good c1 hx (by decide : 1 < 3) rfl)
    (fun p q x hx => alloc_good c2 hx (by decide : 2 < 3) rfl) ha hσ

end

section
variable {P I J S T : Type} [Zero P] [Zero I] [Zero J] [Zero S] [CommRing T]
  (sp : Space3 P I J S T)

/-- `from_ortho` of Space3 is the composition of the one-dimensional operators along the axes, in any order. -/
theorem C37_space3_from_ortho (h0 : LinOp T sp.base0.fromOrthoSlice sp.base0.lenOrth sp.base0.lenSpec)
    (h1 : LinOp T sp.base1.fromOrthoSlice sp.base1.lenOrth sp.base1.lenSpec)
    (h2 : LinOp T sp.base2.fromOrthoSlice sp.base2.lenOrth sp.base2.lenSpec)
    {a : Arr T} (ha : Good a sp.shapeSpectralOrtho) {σ : List ℕ} (hσ : σ.Perm [0, 1, 2]) :
    inOrder (fun i => if i = 0 then (fun u => sp.base0.fromOrtho u 0)
      else if i = 1 then (fun u => sp.base1.fromOrtho u 1) else (fun u => sp.base2.fromOrtho u 2)) σ a
      = sp.fromOrtho a := by
  obtain ⟨g0, c0, l0⟩ := h0
  obtain ⟨g1, c1, l1⟩ := h1
  obtain ⟨g2, c2, l2⟩ := h2
  rw [sp.fromOrtho_eq c0 c1 c2 ha]
  exact order3 l0 c0.len l1 c1.len l2 c2.len
    (fun p q x hx => alloc_good c0 hx (by decide : 0 < 3) rfl)
    (fun p q x hx => alloc_good c1 hx (by decide : 1 < 3) rfl)
    (fun p q x hx => alloc_good c2 hx (by decide : 2 < 3) rfl) ha hσ

end

end Verif.Props