/-
Property C92: the methods of a space accept exactly the arrays of the documented shapes.
-/
import Verif.Proof.Checks
import Verif.Props.AnyArith

namespace Verif.Props
open Res Spec

theorem shape1 {l : List ℕ} (h : l.length = 1) : ∃ x, l = [x] := by
  match l, h with
  | [x], _ => exact ⟨x, rfl⟩

theorem shape2 {l : List ℕ} (h : l.length = 2) : ∃ x y, l = [x, y] := by
  match l, h with
  | [x, y], _ => exact ⟨x, y, rfl⟩

theorem shape3 {l : List ℕ} (h : l.length = 3) : ∃ x y z, l = [x, y, z] := by
  match l, h with
  | [x, y, z], _ => exact ⟨x, y, z, rfl⟩

/-! ### Space1 -/

section
variable {P S T A : Type} [Zero P] [Zero S] [Zero T] (sp : Space1 P S T A)

/-- C92: `forward` of Space1, in all four variants and for every schedule. -/
theorem C92_space1_forward (h0 : StaysInBounds sp.base0) :
    Accepts sp.forward sp.shapePhysical sp.shapeSpectral ∧ AcceptsInto sp.forwardInplace sp.shapePhysical sp.shapeSpectral ∧
    ∀ s0, Accepts (sp.forwardPar s0) sp.shapePhysical sp.shapeSpectral ∧
      AcceptsInto (sp.forwardInplacePar s0) sp.shapePhysical sp.shapeSpectral := by
  have h : AcceptsInto sp.forwardInplace sp.shapePhysical sp.shapeSpectral := by
    refine acceptsInto_of_wp (fun a out ha ho => ?_)
    obtain ⟨x, ea⟩ := shape1 ha
    obtain ⟨u, eo⟩ := shape1 ho
    unfold Space1.forwardInplace
    refine wp_mono (serial_checks h0.forward _ a out 0) ?_
    rintro r ⟨⟨c, co, -, e, so⟩, sr, sr'⟩
    simp only [ea, eo, List.set_cons_zero, List.set_cons_succ, List.set_nil, List.getD_cons_zero, List.getD_cons_succ, List.cons.injEq, and_true, true_and] at e so
    refine ⟨⟨⟨c, ?_⟩, co, ?_⟩, sr.trans ?_, sr'⟩ <;> simp only [ea, eo, Space1.shapePhysical, Space1.shapeSpectral, List.cons.injEq, and_true] <;> omega
  have hp : ∀ s0, AcceptsInto (sp.forwardInplacePar s0) sp.shapePhysical sp.shapeSpectral := by
    intro s0
    refine acceptsInto_of_wp (fun a out ha ho => ?_)
    obtain ⟨x, ea⟩ := shape1 ha
    obtain ⟨u, eo⟩ := shape1 ho
    unfold Space1.forwardInplacePar
    refine wp_mono (par_checks h0.forward s0 a out 0) ?_
    rintro r ⟨⟨c, co, -, e, so⟩, sr, sr'⟩
    simp only [ea, eo, List.set_cons_zero, List.set_cons_succ, List.set_nil, List.getD_cons_zero, List.getD_cons_succ, List.cons.injEq, and_true, true_and] at e so
    refine ⟨⟨⟨c, ?_⟩, co, ?_⟩, sr.trans ?_, sr'⟩ <;> simp only [ea, eo, Space1.shapePhysical, Space1.shapeSpectral, List.cons.injEq, and_true] <;> omega
  exact ⟨h.alloc, h, fun s0 => ⟨(hp s0).alloc, hp s0⟩⟩

/-- C92: `backward` of Space1, in all four variants and for every schedule. -/
theorem C92_space1_backward (h0 : StaysInBounds sp.base0) :
    Accepts sp.backward sp.shapeSpectral sp.shapePhysical ∧ AcceptsInto sp.backwardInplace sp.shapeSpectral sp.shapePhysical ∧
    ∀ s0, Accepts (sp.backwardPar s0) sp.shapeSpectral sp.shapePhysical ∧
      AcceptsInto (sp.backwardInplacePar s0) sp.shapeSpectral sp.shapePhysical := by
  have h : AcceptsInto sp.backwardInplace sp.shapeSpectral sp.shapePhysical := by
    refine acceptsInto_of_wp (fun a out ha ho => ?_)
    obtain ⟨x, ea⟩ := shape1 ha
    obtain ⟨u, eo⟩ := shape1 ho
    unfold Space1.backwardInplace
    refine wp_mono (serial_checks h0.backward _ a out 0) ?_
    rintro r ⟨⟨c, co, -, e, so⟩, sr, sr'⟩
    simp only [ea, eo, List.set_cons_zero, List.set_cons_succ, List.set_nil, List.getD_cons_zero, List.getD_cons_succ, List.cons.injEq, and_true, true_and] at e so
    refine ⟨⟨⟨c, ?_⟩, co, ?_⟩, sr.trans ?_, sr'⟩ <;> simp only [ea, eo, Space1.shapeSpectral, Space1.shapePhysical, List.cons.injEq, and_true] <;> omega
  have hp : ∀ s0, AcceptsInto (sp.backwardInplacePar s0) sp.shapeSpectral sp.shapePhysical := by
    intro s0
    refine acceptsInto_of_wp (fun a out ha ho => ?_)
    obtain ⟨x, ea⟩ := shape1 ha
    obtain ⟨u, eo⟩ := shape1 ho
    unfold Space1.backwardInplacePar
    refine wp_mono (par_checks h0.backward s0 a out 0) ?_
    rintro r ⟨⟨c, co, -, e, so⟩, sr, sr'⟩
    simp only [ea, eo, List.set_cons_zero, List.set_cons_succ, List.set_nil, List.getD_cons_zero, List.getD_cons_succ, List.cons.injEq, and_true, true_and] at e so
    refine ⟨⟨⟨c, ?_⟩, co, ?_⟩, sr.trans ?_, sr'⟩ <;> simp only [ea, eo, Space1.shapeSpectral, Space1.shapePhysical, List.cons.injEq, and_true] <;> omega
  exact ⟨h.alloc, h, fun s0 => ⟨(hp s0).alloc, hp s0⟩⟩

/-- C92: `to_ortho` of Space1, in all four variants and for every schedule. -/
theorem C92_space1_to_ortho (h0 : StaysInBounds sp.base0) :
    Accepts sp.toOrtho sp.shapeSpectral sp.shapeSpectralOrtho ∧ AcceptsInto sp.toOrthoInplace sp.shapeSpectral sp.shapeSpectralOrtho ∧
    ∀ s0, Accepts (sp.toOrthoPar s0) sp.shapeSpectral sp.shapeSpectralOrtho ∧
      AcceptsInto (sp.toOrthoInplacePar s0) sp.shapeSpectral sp.shapeSpectralOrtho := by
  have h : AcceptsInto sp.toOrthoInplace sp.shapeSpectral sp.shapeSpectralOrtho := by
    refine acceptsInto_of_wp (fun a out ha ho => ?_)
    obtain ⟨x, ea⟩ := shape1 ha
    obtain ⟨u, eo⟩ := shape1 ho
    unfold Space1.toOrthoInplace
    refine wp_mono (serial_checks h0.toOrtho _ a out 0) ?_
    rintro r ⟨⟨c, co, -, e, so⟩, sr, sr'⟩
    simp only [ea, eo, List.set_cons_zero, List.set_cons_succ, List.set_nil, List.getD_cons_zero, List.getD_cons_succ, List.cons.injEq, and_true, true_and] at e so
    refine ⟨⟨⟨c, ?_⟩, co, ?_⟩, sr.trans ?_, sr'⟩ <;> simp only [ea, eo, Space1.shapeSpectral, Space1.shapeSpectralOrtho, List.cons.injEq, and_true] <;> omega
  have hp : ∀ s0, AcceptsInto (sp.toOrthoInplacePar s0) sp.shapeSpectral sp.shapeSpectralOrtho := by
    intro s0
    refine acceptsInto_of_wp (fun a out ha ho => ?_)
    obtain ⟨x, ea⟩ := shape1 ha
    obtain ⟨u, eo⟩ := shape1 ho
    unfold Space1.toOrthoInplacePar
    refine wp_mono (par_checks h0.toOrtho s0 a out 0) ?_
    rintro r ⟨⟨c, co, -, e, so⟩, sr, sr'⟩
    simp only [ea, eo, List.set_cons_zero, List.set_cons_succ, List.set_nil, List.getD_cons_zero, List.getD_cons_succ, List.cons.injEq, and_true, true_and] at e so
    refine ⟨⟨⟨c, ?_⟩, co, ?_⟩, sr.trans ?_, sr'⟩ <;> simp only [ea, eo, Space1.shapeSpectral, Space1.shapeSpectralOrtho, List.cons.injEq, and_true] <;> omega
  exact ⟨h.alloc, h, fun s0 => ⟨(hp s0).alloc, hp s0⟩⟩

/-- C92: `from_ortho` of Space1, in all four variants and for every schedule. -/
theorem C92_space1_from_ortho (h0 : StaysInBounds sp.base0) :
    Accepts sp.fromOrtho sp.shapeSpectralOrtho sp.shapeSpectral ∧ AcceptsInto sp.fromOrthoInplace sp.shapeSpectralOrtho sp.shapeSpectral ∧
    ∀ s0, Accepts (sp.fromOrthoPar s0) sp.shapeSpectralOrtho sp.shapeSpectral ∧
      AcceptsInto (sp.fromOrthoInplacePar s0) sp.shapeSpectralOrtho sp.shapeSpectral := by
  have h : AcceptsInto sp.fromOrthoInplace sp.shapeSpectralOrtho sp.shapeSpectral := by
    refine acceptsInto_of_wp (fun a out ha ho => ?_)
    obtain ⟨x, ea⟩ := shape1 ha
    obtain ⟨u, eo⟩ := shape1 ho
    unfold Space1.fromOrthoInplace
    refine wp_mono (serial_checks h0.fromOrtho _ a out 0) ?_
    rintro r ⟨⟨c, co, -, e, so⟩, sr, sr'⟩
    simp only [ea, eo, List.set_cons_zero, List.set_cons_succ, List.set_nil, List.getD_cons_zero, List.getD_cons_succ, List.cons.injEq, and_true, true_and] at e so
    refine ⟨⟨⟨c, ?_⟩, co, ?_⟩, sr.trans ?_, sr'⟩ <;> simp only [ea, eo, Space1.shapeSpectralOrtho, Space1.shapeSpectral, List.cons.injEq, and_true] <;> omega
  have hp : ∀ s0, AcceptsInto (sp.fromOrthoInplacePar s0) sp.shapeSpectralOrtho sp.shapeSpectral := by
    intro s0
    refine acceptsInto_of_wp (fun a out ha ho => ?_)
    obtain ⟨x, ea⟩ := shape1 ha
    obtain ⟨u, eo⟩ := shape1 ho
    unfold Space1.fromOrthoInplacePar
    refine wp_mono (par_checks h0.fromOrtho s0 a out 0) ?_
    rintro r ⟨⟨c, co, -, e, so⟩, sr, sr'⟩
    simp only [ea, eo, List.set_cons_zero, List.set_cons_succ, List.set_nil, List.getD_cons_zero, List.getD_cons_succ, List.cons.injEq, and_true, true_and] at e so
    refine ⟨⟨⟨c, ?_⟩, co, ?_⟩, sr.trans ?_, sr'⟩ <;> simp only [ea, eo, Space1.shapeSpectralOrtho, Space1.shapeSpectral, List.cons.injEq, and_true] <;> omega
  exact ⟨h.alloc, h, fun s0 => ⟨(hp s0).alloc, hp s0⟩⟩

end

section
variable {P S T A : Type} [Zero P] [Zero S] [Zero T] [Mul A] [Powi A] [DivBy A T] [DivNoUb A T] (sp : Space1 P S T A)

/-- C92: `gradient` of Space1, serial and parallel, for every schedule and every scale. -/
theorem C92_space1_gradient (hp : ∀ (x : A) (k : ℤ), powi x k ≠ err .ub) {d0 : ℕ} (h0 : GradientInBounds sp.base0 d0)
    (scale : Option (A)) :
    Accepts (fun a => sp.gradient a d0 scale) sp.shapeSpectral sp.shapeSpectralOrtho ∧
    ∀ s0, Accepts (fun a => sp.gradientPar s0 a d0 scale) sp.shapeSpectral sp.shapeSpectralOrtho := by
  have k : Accepts (fun a => (do sp.base0.gradient a d0 0)) sp.shapeSpectral sp.shapeSpectralOrtho := by
    refine accepts_of_wp (fun a ha => ?_)
    obtain ⟨x, ea⟩ := shape1 ha
    refine wp_mono (alloc_checks (M := fun a o ax => sp.base0.gradientInplace a o d0 ax) (fun a o ax => serial_checks h0 _ a o ax) a 0) ?_
    rintro b0 ⟨c0, -, e0, s0', t0⟩
    simp only [ea, List.set_cons_zero, List.set_cons_succ, List.getD_cons_zero, List.getD_cons_succ] at e0 s0'
    refine ⟨⟨c0, ?_⟩, s0'.trans ?_, t0⟩ <;> simp only [ea, Space1.shapeSpectral, Space1.shapeSpectralOrtho, List.cons.injEq, and_true] <;> omega
  have kp : ∀ s0, Accepts (fun a => (do sp.base0.gradientPar s0 a d0 0)) sp.shapeSpectral sp.shapeSpectralOrtho := by
    intro s0
    refine accepts_of_wp (fun a ha => ?_)
    obtain ⟨x, ea⟩ := shape1 ha
    refine wp_mono (alloc_checks (M := fun a o ax => sp.base0.gradientInplacePar s0 a o d0 ax) (fun a o ax => par_checks h0 s0 a o ax) a 0) ?_
    rintro b0 ⟨c0, -, e0, s0', t0⟩
    simp only [ea, List.set_cons_zero, List.set_cons_succ, List.getD_cons_zero, List.getD_cons_succ] at e0 s0'
    refine ⟨⟨c0, ?_⟩, s0'.trans ?_, t0⟩ <;> simp only [ea, Space1.shapeSpectral, Space1.shapeSpectralOrtho, List.cons.injEq, and_true] <;> omega
  refine ⟨?_, fun s0 => ?_⟩
  · skip
    have := k
    cases scale with
    | none =>
      have h := this.scale (g := fun x => pure x) (fun x => ⟨rfl, rfl⟩)
      exact h.congr (fun a => by unfold Space1.gradient; simp only [bind_assoc'])
    | some c0 =>
      have h := this.scale (g := fun x => do let p0 ← powi c0 (toI32 d0); divAll (p0) x) (fun x => wp_bind_i (wp_mono (powi_noUb hp c0 _) fun _ _ => divAll_checks _ _))
      exact h.congr (fun a => by unfold Space1.gradient; simp only [bind_assoc'])
  · skip
    have := kp s0
    cases scale with
    | none =>
      have h := this.scale (g := fun x => pure x) (fun x => ⟨rfl, rfl⟩)
      exact h.congr (fun a => by unfold Space1.gradientPar; simp only [bind_assoc'])
    | some c0 =>
      have h := this.scale (g := fun x => do let p0 ← powi c0 (toI32 d0); divAll (p0) x) (fun x => wp_bind_i (wp_mono (powi_noUb hp c0 _) fun _ _ => divAll_checks _ _))
      exact h.congr (fun a => by unfold Space1.gradientPar; simp only [bind_assoc'])

end

/-! ### Space2 -/

section
variable {P I S T A : Type} [Zero P] [Zero I] [Zero S] [Zero T] (sp : Space2 P I S T A)

/-- C92: `forward` of Space2, in all four variants and for every schedule. -/
theorem C92_space2_forward (h0 : StaysInBounds sp.base0) (h1 : StaysInBounds sp.base1) :
    Accepts sp.forward sp.shapePhysical sp.shapeSpectral ∧ AcceptsInto sp.forwardInplace sp.shapePhysical sp.shapeSpectral ∧
    ∀ s0 s1, Accepts (sp.forwardPar s0 s1) sp.shapePhysical sp.shapeSpectral ∧
      AcceptsInto (sp.forwardInplacePar s0 s1) sp.shapePhysical sp.shapeSpectral := by
  have h : AcceptsInto sp.forwardInplace sp.shapePhysical sp.shapeSpectral := by
    refine acceptsInto_of_wp (fun a out ha ho => ?_)
    obtain ⟨x, y, ea⟩ := shape2 ha
    obtain ⟨u, v, eo⟩ := shape2 ho
    unfold Space2.forwardInplace
    refine wp_bind_i (wp_mono (alloc_checks (M := fun a o ax => sp.base1.forwardInplace a o ax) (fun a o ax => serial_checks h1.forward _ a o ax) a 1) ?_)
    rintro b0 ⟨c0, -, e0, s0', t0⟩
    refine wp_mono (serial_checks h0.forward _ b0 out 0) ?_
    rintro r ⟨⟨c, co, -, e, so⟩, sr, sr'⟩
    simp only [ea, eo, s0', List.set_cons_zero, List.set_cons_succ, List.set_nil, List.getD_cons_zero, List.getD_cons_succ, List.cons.injEq, and_true, true_and] at e0 e so
    refine ⟨⟨⟨c0, ?_⟩, co, ?_⟩, sr.trans ?_, sr'⟩ <;> simp only [ea, eo, Space2.shapePhysical, Space2.shapeSpectral, List.cons.injEq, and_true] <;> omega
  have hp : ∀ s0 s1, AcceptsInto (sp.forwardInplacePar s0 s1) sp.shapePhysical sp.shapeSpectral := by
    intro s0 s1
    refine acceptsInto_of_wp (fun a out ha ho => ?_)
    obtain ⟨x, y, ea⟩ := shape2 ha
    obtain ⟨u, v, eo⟩ := shape2 ho
    unfold Space2.forwardInplacePar
    refine wp_bind_i (wp_mono (alloc_checks (M := fun a o ax => sp.base1.forwardInplacePar s1 a o ax) (fun a o ax => par_checks h1.forward s1 a o ax) a 1) ?_)
    rintro b0 ⟨c0, -, e0, s0', t0⟩
    refine wp_mono (par_checks h0.forward s0 b0 out 0) ?_
    rintro r ⟨⟨c, co, -, e, so⟩, sr, sr'⟩
    simp only [ea, eo, s0', List.set_cons_zero, List.set_cons_succ, List.set_nil, List.getD_cons_zero, List.getD_cons_succ, List.cons.injEq, and_true, true_and] at e0 e so
    refine ⟨⟨⟨c0, ?_⟩, co, ?_⟩, sr.trans ?_, sr'⟩ <;> simp only [ea, eo, Space2.shapePhysical, Space2.shapeSpectral, List.cons.injEq, and_true] <;> omega
  exact ⟨h.alloc, h, fun s0 s1 => ⟨(hp s0 s1).alloc, hp s0 s1⟩⟩

/-- C92: `backward` of Space2, in all four variants and for every schedule. -/
theorem C92_space2_backward (h0 : StaysInBounds sp.base0) (h1 : StaysInBounds sp.base1) :
    Accepts sp.backward sp.shapeSpectral sp.shapePhysical ∧ AcceptsInto sp.backwardInplace sp.shapeSpectral sp.shapePhysical ∧
    ∀ s0 s1, Accepts (sp.backwardPar s0 s1) sp.shapeSpectral sp.shapePhysical ∧
      AcceptsInto (sp.backwardInplacePar s0 s1) sp.shapeSpectral sp.shapePhysical := by
  have h : AcceptsInto sp.backwardInplace sp.shapeSpectral sp.shapePhysical := by
    refine acceptsInto_of_wp (fun a out ha ho => ?_)
    obtain ⟨x, y, ea⟩ := shape2 ha
    obtain ⟨u, v, eo⟩ := shape2 ho
    unfold Space2.backwardInplace
    refine wp_bind_i (wp_mono (alloc_checks (M := fun a o ax => sp.base0.backwardInplace a o ax) (fun a o ax => serial_checks h0.backward _ a o ax) a 0) ?_)
    rintro b0 ⟨c0, -, e0, s0', t0⟩
    refine wp_mono (serial_checks h1.backward _ b0 out 1) ?_
    rintro r ⟨⟨c, co, -, e, so⟩, sr, sr'⟩
    simp only [ea, eo, s0', List.set_cons_zero, List.set_cons_succ, List.set_nil, List.getD_cons_zero, List.getD_cons_succ, List.cons.injEq, and_true, true_and] at e0 e so
    refine ⟨⟨⟨c0, ?_⟩, co, ?_⟩, sr.trans ?_, sr'⟩ <;> simp only [ea, eo, Space2.shapeSpectral, Space2.shapePhysical, List.cons.injEq, and_true] <;> omega
  have hp : ∀ s0 s1, AcceptsInto (sp.backwardInplacePar s0 s1) sp.shapeSpectral sp.shapePhysical := by
    intro s0 s1
    refine acceptsInto_of_wp (fun a out ha ho => ?_)
    obtain ⟨x, y, ea⟩ := shape2 ha
    obtain ⟨u, v, eo⟩ := shape2 ho
    unfold Space2.backwardInplacePar
    refine wp_bind_i (wp_mono (alloc_checks (M := fun a o ax => sp.base0.backwardInplacePar s0 a o ax) (fun a o ax => par_checks h0.backward s0 a o ax) a 0) ?_)
    rintro b0 ⟨c0, -, e0, s0', t0⟩
    refine wp_mono (par_checks h1.backward s1 b0 out 1) ?_
    rintro r ⟨⟨c, co, -, e, so⟩, sr, sr'⟩
    simp only [ea, eo, s0', List.set_cons_zero, List.set_cons_succ, List.set_nil, List.getD_cons_zero, List.getD_cons_succ, List.cons.injEq, and_true, true_and] at e0 e so
    refine ⟨⟨⟨c0, ?_⟩, co, ?_⟩, sr.trans ?_, sr'⟩ <;> simp only [ea, eo, Space2.shapeSpectral, Space2.shapePhysical, List.cons.injEq, and_true] <;> omega
  exact ⟨h.alloc, h, fun s0 s1 => ⟨(hp s0 s1).alloc, hp s0 s1⟩⟩

/-- C92: `to_ortho` of Space2, in all four variants and for every schedule. -/
theorem C92_space2_to_ortho (h0 : StaysInBounds sp.base0) (h1 : StaysInBounds sp.base1) :
    Accepts sp.toOrtho sp.shapeSpectral sp.shapeSpectralOrtho ∧ AcceptsInto sp.toOrthoInplace sp.shapeSpectral sp.shapeSpectralOrtho ∧
    ∀ s0 s1, Accepts (sp.toOrthoPar s0 s1) sp.shapeSpectral sp.shapeSpectralOrtho ∧
      AcceptsInto (sp.toOrthoInplacePar s0 s1) sp.shapeSpectral sp.shapeSpectralOrtho := by
  have h : AcceptsInto sp.toOrthoInplace sp.shapeSpectral sp.shapeSpectralOrtho := by
    refine acceptsInto_of_wp (fun a out ha ho => ?_)
    obtain ⟨x, y, ea⟩ := shape2 ha
    obtain ⟨u, v, eo⟩ := shape2 ho
    unfold Space2.toOrthoInplace
    refine wp_bind_i (wp_mono (alloc_checks (M := fun a o ax => sp.base0.toOrthoInplace a o ax) (fun a o ax => serial_checks h0.toOrtho _ a o ax) a 0) ?_)
    rintro b0 ⟨c0, -, e0, s0', t0⟩
    refine wp_mono (serial_checks h1.toOrtho _ b0 out 1) ?_
    rintro r ⟨⟨c, co, -, e, so⟩, sr, sr'⟩
    simp only [ea, eo, s0', List.set_cons_zero, List.set_cons_succ, List.set_nil, List.getD_cons_zero, List.getD_cons_succ, List.cons.injEq, and_true, true_and] at e0 e so
    refine ⟨⟨⟨c0, ?_⟩, co, ?_⟩, sr.trans ?_, sr'⟩ <;> simp only [ea, eo, Space2.shapeSpectral, Space2.shapeSpectralOrtho, List.cons.injEq, and_true] <;> omega
  have hp : ∀ s0 s1, AcceptsInto (sp.toOrthoInplacePar s0 s1) sp.shapeSpectral sp.shapeSpectralOrtho := by
    intro s0 s1
    refine acceptsInto_of_wp (fun a out ha ho => ?_)
    obtain ⟨x, y, ea⟩ := shape2 ha
    obtain ⟨u, v, eo⟩ := shape2 ho
    unfold Space2.toOrthoInplacePar
    refine wp_bind_i (wp_mono (alloc_checks (M := fun a o ax => sp.base0.toOrthoInplacePar s0 a o ax) (fun a o ax => par_checks h0.toOrtho s0 a o ax) a 0) ?_)
    rintro b0 ⟨c0, -, e0, s0', t0⟩
    refine wp_mono (par_checks h1.toOrtho s1 b0 out 1) ?_
    rintro r ⟨⟨c, co, -, e, so⟩, sr, sr'⟩
    simp only [ea, eo, s0', List.set_cons_zero, List.set_cons_succ, List.set_nil, List.getD_cons_zero, List.getD_cons_succ, List.cons.injEq, and_true, true_and] at e0 e so
    refine ⟨⟨⟨c0, ?_⟩, co, ?_⟩, sr.trans ?_, sr'⟩ <;> simp only [ea, eo, Space2.shapeSpectral, Space2.shapeSpectralOrtho, List.cons.injEq, and_true] <;> omega
  exact ⟨h.alloc, h, fun s0 s1 => ⟨(hp s0 s1).alloc, hp s0 s1⟩⟩

/-- C92: `from_ortho` of Space2, in all four variants and for every schedule. -/
theorem C92_space2_from_ortho (h0 : StaysInBounds sp.base0) (h1 : StaysInBounds sp.base1) :
    Accepts sp.fromOrtho sp.shapeSpectralOrtho sp.shapeSpectral ∧ AcceptsInto sp.fromOrthoInplace sp.shapeSpectralOrtho sp.shapeSpectral ∧
    ∀ s0 s1, Accepts (sp.fromOrthoPar s0 s1) sp.shapeSpectralOrtho sp.shapeSpectral ∧
      AcceptsInto (sp.fromOrthoInplacePar s0 s1) sp.shapeSpectralOrtho sp.shapeSpectral := by
  have h : AcceptsInto sp.fromOrthoInplace sp.shapeSpectralOrtho sp.shapeSpectral := by
    refine acceptsInto_of_wp (fun a out ha ho => ?_)
    obtain ⟨x, y, ea⟩ := shape2 ha
    obtain ⟨u, v, eo⟩ := shape2 ho
    unfold Space2.fromOrthoInplace
    refine wp_bind_i (wp_mono (alloc_checks (M := fun a o ax => sp.base0.fromOrthoInplace a o ax) (fun a o ax => serial_checks h0.fromOrtho _ a o ax) a 0) ?_)
    rintro b0 ⟨c0, -, e0, s0', t0⟩
    refine wp_mono (serial_checks h1.fromOrtho _ b0 out 1) ?_
    rintro r ⟨⟨c, co, -, e, so⟩, sr, sr'⟩
    simp only [ea, eo, s0', List.set_cons_zero, List.set_cons_succ, List.set_nil, List.getD_cons_zero, List.getD_cons_succ, List.cons.injEq, and_true, true_and] at e0 e so
    refine ⟨⟨⟨c0, ?_⟩, co, ?_⟩, sr.trans ?_, sr'⟩ <;> simp only [ea, eo, Space2.shapeSpectralOrtho, Space2.shapeSpectral, List.cons.injEq, and_true] <;> omega
  have hp : ∀ s0 s1, AcceptsInto (sp.fromOrthoInplacePar s0 s1) sp.shapeSpectralOrtho sp.shapeSpectral := by
    intro s0 s1
    refine acceptsInto_of_wp (fun a out ha ho => ?_)
    obtain ⟨x, y, ea⟩ := shape2 ha
    obtain ⟨u, v, eo⟩ := shape2 ho
    unfold Space2.fromOrthoInplacePar
    refine wp_bind_i (wp_mono (alloc_checks (M := fun a o ax => sp.base0.fromOrthoInplacePar s0 a o ax) (fun a o ax => par_checks h0.fromOrtho s0 a o ax) a 0) ?_)
    rintro b0 ⟨c0, -, e0, s0', t0⟩
    refine wp_mono (par_checks h1.fromOrtho s1 b0 out 1) ?_
    rintro r ⟨⟨c, co, -, e, so⟩, sr, sr'⟩
    simp only [ea, eo, s0', List.set_cons_zero, List.set_cons_succ, List.set_nil, List.getD_cons_zero, List.getD_cons_succ, List.cons.injEq, and_true, true_and] at e0 e so
    refine ⟨⟨⟨c0, ?_⟩, co, ?_⟩, sr.trans ?_, sr'⟩ <;> simp only [ea, eo, Space2.shapeSpectralOrtho, Space2.shapeSpectral, List.cons.injEq, and_true] <;> omega
  exact ⟨h.alloc, h, fun s0 s1 => ⟨(hp s0 s1).alloc, hp s0 s1⟩⟩

end

section
variable {P I S T A : Type} [Zero P] [Zero I] [Zero S] [Zero T] [Mul A] [Powi A] [DivBy A T] [DivNoUb A T] (sp : Space2 P I S T A)

/-- C92: `gradient` of Space2, serial and parallel, for every schedule and every scale. -/
theorem C92_space2_gradient (hp : ∀ (x : A) (k : ℤ), powi x k ≠ err .ub) {d0 d1 : ℕ} (h0 : GradientInBounds sp.base0 d0) (h1 : GradientInBounds sp.base1 d1)
    (scale : Option (A × A)) :
    Accepts (fun a => sp.gradient a d0 d1 scale) sp.shapeSpectral sp.shapeSpectralOrtho ∧
    ∀ s0 s1, Accepts (fun a => sp.gradientPar s0 s1 a d0 d1 scale) sp.shapeSpectral sp.shapeSpectralOrtho := by
  have k : Accepts (fun a => (do let b0 ← sp.base0.gradient a d0 0; sp.base1.gradient b0 d1 1)) sp.shapeSpectral sp.shapeSpectralOrtho := by
    refine accepts_of_wp (fun a ha => ?_)
    obtain ⟨x, y, ea⟩ := shape2 ha
    refine wp_bind_i (wp_mono (alloc_checks (M := fun a o ax => sp.base0.gradientInplace a o d0 ax) (fun a o ax => serial_checks h0 _ a o ax) a 0) ?_)
    rintro b0 ⟨c0, -, e0, s0', t0⟩
    refine wp_mono (alloc_checks (M := fun a o ax => sp.base1.gradientInplace a o d1 ax) (fun a o ax => serial_checks h1 _ a o ax) b0 1) ?_
    rintro b1 ⟨c1, -, e1, s1', t1⟩
    simp only [ea, s0', List.set_cons_zero, List.set_cons_succ, List.getD_cons_zero, List.getD_cons_succ] at e0 e1 s1'
    refine ⟨⟨c0, ?_⟩, s1'.trans ?_, t1⟩ <;> simp only [ea, Space2.shapeSpectral, Space2.shapeSpectralOrtho, List.cons.injEq, and_true] <;> omega
  have kp : ∀ s0 s1, Accepts (fun a => (do let b0 ← sp.base0.gradientPar s0 a d0 0; sp.base1.gradientPar s1 b0 d1 1)) sp.shapeSpectral sp.shapeSpectralOrtho := by
    intro s0 s1
    refine accepts_of_wp (fun a ha => ?_)
    obtain ⟨x, y, ea⟩ := shape2 ha
    refine wp_bind_i (wp_mono (alloc_checks (M := fun a o ax => sp.base0.gradientInplacePar s0 a o d0 ax) (fun a o ax => par_checks h0 s0 a o ax) a 0) ?_)
    rintro b0 ⟨c0, -, e0, s0', t0⟩
    refine wp_mono (alloc_checks (M := fun a o ax => sp.base1.gradientInplacePar s1 a o d1 ax) (fun a o ax => par_checks h1 s1 a o ax) b0 1) ?_
    rintro b1 ⟨c1, -, e1, s1', t1⟩
    simp only [ea, s0', List.set_cons_zero, List.set_cons_succ, List.getD_cons_zero, List.getD_cons_succ] at e0 e1 s1'
    refine ⟨⟨c0, ?_⟩, s1'.trans ?_, t1⟩ <;> simp only [ea, Space2.shapeSpectral, Space2.shapeSpectralOrtho, List.cons.injEq, and_true] <;> omega
  refine ⟨?_, fun s0 s1 => ?_⟩
  · skip
    have := k
    cases scale with
    | none =>
      have h := this.scale (g := fun x => pure x) (fun x => ⟨rfl, rfl⟩)
      exact h.congr (fun a => by unfold Space2.gradient; simp only [bind_assoc'])
    | some c =>
      obtain ⟨c0, c1⟩ := c
      have h := this.scale (g := fun x => do let p0 ← powi c0 (toI32 d0); let p1 ← powi c1 (toI32 d1); divAll (p0 * p1) x) (fun x => wp_bind_i (wp_mono (powi_noUb hp c0 _) fun _ _ => wp_bind_i (wp_mono (powi_noUb hp c1 _) fun _ _ => divAll_checks _ _)))
      exact h.congr (fun a => by unfold Space2.gradient; simp only [bind_assoc'])
  · skip
    have := kp s0 s1
    cases scale with
    | none =>
      have h := this.scale (g := fun x => pure x) (fun x => ⟨rfl, rfl⟩)
      exact h.congr (fun a => by unfold Space2.gradientPar; simp only [bind_assoc'])
    | some c =>
      obtain ⟨c0, c1⟩ := c
      have h := this.scale (g := fun x => do let p0 ← powi c0 (toI32 d0); let p1 ← powi c1 (toI32 d1); divAll (p0 * p1) x) (fun x => wp_bind_i (wp_mono (powi_noUb hp c0 _) fun _ _ => wp_bind_i (wp_mono (powi_noUb hp c1 _) fun _ _ => divAll_checks _ _)))
      exact h.congr (fun a => by unfold Space2.gradientPar; simp only [bind_assoc'])

end

/-! ### Space3 -/

section
variable {P I J S T A : Type} [Zero P] [Zero I] [Zero J] [Zero S] [Zero T] (sp : Space3 P I J S T A)

/-- C92: `forward` of Space3, in all four variants and for every schedule. -/
theorem C92_space3_forward (h0 : StaysInBounds sp.base0) (h1 : StaysInBounds sp.base1) (h2 : StaysInBounds sp.base2) :
    Accepts sp.forward sp.shapePhysical sp.shapeSpectral ∧ AcceptsInto sp.forwardInplace sp.shapePhysical sp.shapeSpectral ∧
    ∀ s0 s1 s2, Accepts (sp.forwardPar s0 s1 s2) sp.shapePhysical sp.shapeSpectral ∧
      AcceptsInto (sp.forwardInplacePar s0 s1 s2) sp.shapePhysical sp.shapeSpectral := by
  have h : AcceptsInto sp.forwardInplace sp.shapePhysical sp.shapeSpectral := by
    refine acceptsInto_of_wp (fun a out ha ho => ?_)
    obtain ⟨x, y, z, ea⟩ := shape3 ha
    obtain ⟨u, v, w, eo⟩ := shape3 ho
    unfold Space3.forwardInplace
    refine wp_bind_i (wp_mono (alloc_checks (M := fun a o ax => sp.base2.forwardInplace a o ax) (fun a o ax => serial_checks h2.forward _ a o ax) a 2) ?_)
    rintro b0 ⟨c0, -, e0, s0', t0⟩
    refine wp_bind_i (wp_mono (alloc_checks (M := fun a o ax => sp.base1.forwardInplace a o ax) (fun a o ax => serial_checks h1.forward _ a o ax) b0 1) ?_)
    rintro b1 ⟨c1, -, e1, s1', t1⟩
    refine wp_mono (serial_checks h0.forward _ b1 out 0) ?_
    rintro r ⟨⟨c, co, -, e, so⟩, sr, sr'⟩
    simp only [ea, eo, s0', s1', List.set_cons_zero, List.set_cons_succ, List.set_nil, List.getD_cons_zero, List.getD_cons_succ, List.cons.injEq, and_true, true_and] at e0 e1 e so
    refine ⟨⟨⟨c0, ?_⟩, co, ?_⟩, sr.trans ?_, sr'⟩ <;> simp only [ea, eo, Space3.shapePhysical, Space3.shapeSpectral, List.cons.injEq, and_true] <;> omega
  have hp : ∀ s0 s1 s2, AcceptsInto (sp.forwardInplacePar s0 s1 s2) sp.shapePhysical sp.shapeSpectral := by
    intro s0 s1 s2
    refine acceptsInto_of_wp (fun a out ha ho => ?_)
    obtain ⟨x, y, z, ea⟩ := shape3 ha
    obtain ⟨u, v, w, eo⟩ := shape3 ho
    unfold Space3.forwardInplacePar
    refine wp_bind_i (wp_mono (alloc_checks (M := fun a o ax => sp.base2.forwardInplacePar s2 a o ax) (fun a o ax => par_checks h2.forward s2 a o ax) a 2) ?_)
    rintro b0 ⟨c0, -, e0, s0', t0⟩
    refine wp_bind_i (wp_mono (alloc_checks (M := fun a o ax => sp.base1.forwardInplacePar s1 a o ax) (fun a o ax => par_checks h1.forward s1 a o ax) b0 1) ?_)
    rintro b1 ⟨c1, -, e1, s1', t1⟩
    refine wp_mono (par_checks h0.forward s0 b1 out 0) ?_
    rintro r ⟨⟨c, co, -, e, so⟩, sr, sr'⟩
    simp only [ea, eo, s0', s1', List.set_cons_zero, List.set_cons_succ, List.set_nil, List.getD_cons_zero, List.getD_cons_succ, List.cons.injEq, and_true, true_and] at e0 e1 e so
    refine ⟨⟨⟨c0, ?_⟩, co, ?_⟩, sr.trans ?_, sr'⟩ <;> simp only [ea, eo, Space3.shapePhysical, Space3.shapeSpectral, List.cons.injEq, and_true] <;> omega
  exact ⟨h.alloc, h, fun s0 s1 s2 => ⟨(hp s0 s1 s2).alloc, hp s0 s1 s2⟩⟩

/-- C92: `backward` of Space3, in all four variants and for every schedule. -/
theorem C92_space3_backward (h0 : StaysInBounds sp.base0) (h1 : StaysInBounds sp.base1) (h2 : StaysInBounds sp.base2) :
    Accepts sp.backward sp.shapeSpectral sp.shapePhysical ∧ AcceptsInto sp.backwardInplace sp.shapeSpectral sp.shapePhysical ∧
    ∀ s0 s1 s2, Accepts (sp.backwardPar s0 s1 s2) sp.shapeSpectral sp.shapePhysical ∧
      AcceptsInto (sp.backwardInplacePar s0 s1 s2) sp.shapeSpectral sp.shapePhysical := by
  have h : AcceptsInto sp.backwardInplace sp.shapeSpectral sp.shapePhysical := by
    refine acceptsInto_of_wp (fun a out ha ho => ?_)
    obtain ⟨x, y, z, ea⟩ := shape3 ha
    obtain ⟨u, v, w, eo⟩ := shape3 ho
    unfold Space3.backwardInplace
    refine wp_bind_i (wp_mono (alloc_checks (M := fun a o ax => sp.base0.backwardInplace a o ax) (fun a o ax => serial_checks h0.backward _ a o ax) a 0) ?_)
    rintro b0 ⟨c0, -, e0, s0', t0⟩
    refine wp_bind_i (wp_mono (alloc_checks (M := fun a o ax => sp.base1.backwardInplace a o ax) (fun a o ax => serial_checks h1.backward _ a o ax) b0 1) ?_)
    rintro b1 ⟨c1, -, e1, s1', t1⟩
    refine wp_mono (serial_checks h2.backward _ b1 out 2) ?_
    rintro r ⟨⟨c, co, -, e, so⟩, sr, sr'⟩
    simp only [ea, eo, s0', s1', List.set_cons_zero, List.set_cons_succ, List.set_nil, List.getD_cons_zero, List.getD_cons_succ, List.cons.injEq, and_true, true_and] at e0 e1 e so
    refine ⟨⟨⟨c0, ?_⟩, co, ?_⟩, sr.trans ?_, sr'⟩ <;> simp only [ea, eo, Space3.shapeSpectral, Space3.shapePhysical, List.cons.injEq, and_true] <;> omega
  have hp : ∀ s0 s1 s2, AcceptsInto (sp.backwardInplacePar s0 s1 s2) sp.shapeSpectral sp.shapePhysical := by
    intro s0 s1 s2
    refine acceptsInto_of_wp (fun a out ha ho => ?_)
    obtain ⟨x, y, z, ea⟩ := shape3 ha
    obtain ⟨u, v, w, eo⟩ := shape3 ho
    unfold Space3.backwardInplacePar
    refine wp_bind_i (wp_mono (alloc_checks (M := fun a o ax => sp.base0.backwardInplacePar s0 a o ax) (fun a o ax => par_checks h0.backward s0 a o ax) a 0) ?_)
    rintro b0 ⟨c0, -, e0, s0', t0⟩
    refine wp_bind_i (wp_mono (alloc_checks (M := fun a o ax => sp.base1.backwardInplacePar s1 a o ax) (fun a o ax => par_checks h1.backward s1 a o ax) b0 1) ?_)
    rintro b1 ⟨c1, -, e1, s1', t1⟩
    refine wp_mono (par_checks h2.backward s2 b1 out 2) ?_
    rintro r ⟨⟨c, co, -, e, so⟩, sr, sr'⟩
    simp only [ea, eo, s0', s1', List.set_cons_zero, List.set_cons_succ, List.set_nil, List.getD_cons_zero, List.getD_cons_succ, List.cons.injEq, and_true, true_and] at e0 e1 e so
    refine ⟨⟨⟨c0, ?_⟩, co, ?_⟩, sr.trans ?_, sr'⟩ <;> simp only [ea, eo, Space3.shapeSpectral, Space3.shapePhysical, List.cons.injEq, and_true] <;> omega
  exact ⟨h.alloc, h, fun s0 s1 s2 => ⟨(hp s0 s1 s2).alloc, hp s0 s1 s2⟩⟩

/-- C92: `to_ortho` of Space3, in all four variants and for every schedule. -/
theorem C92_space3_to_ortho (h0 : StaysInBounds sp.base0) (h1 : StaysInBounds sp.base1) (h2 : StaysInBounds sp.base2) :
    Accepts sp.toOrtho sp.shapeSpectral sp.shapeSpectralOrtho ∧ AcceptsInto sp.toOrthoInplace sp.shapeSpectral sp.shapeSpectralOrtho ∧
    ∀ s0 s1 s2, Accepts (sp.toOrthoPar s0 s1 s2) sp.shapeSpectral sp.shapeSpectralOrtho ∧
      AcceptsInto (sp.toOrthoInplacePar s0 s1 s2) sp.shapeSpectral sp.shapeSpectralOrtho := by
  have h : AcceptsInto sp.toOrthoInplace sp.shapeSpectral sp.shapeSpectralOrtho := by
    refine acceptsInto_of_wp (fun a out ha ho => ?_)
    obtain ⟨x, y, z, ea⟩ := shape3 ha
    obtain ⟨u, v, w, eo⟩ := shape3 ho
    unfold Space3.toOrthoInplace
    refine wp_bind_i (wp_mono (alloc_checks (M := fun a o ax => sp.base0.toOrthoInplace a o ax) (fun a o ax => serial_checks h0.toOrtho _ a o ax) a 0) ?_)
    rintro b0 ⟨c0, -, e0, s0', t0⟩
    refine wp_bind_i (wp_mono (alloc_checks (M := fun a o ax => sp.base1.toOrthoInplace a o ax) (fun a o ax => serial_checks h1.toOrtho _ a o ax) b0 1) ?_)
    rintro b1 ⟨c1, -, e1, s1', t1⟩
    refine wp_mono (serial_checks h2.toOrtho _ b1 out 2) ?_
    rintro r ⟨⟨c, co, -, e, so⟩, sr, sr'⟩
    simp only [ea, eo, s0', s1', List.set_cons_zero, List.set_cons_succ, List.set_nil, List.getD_cons_zero, List.getD_cons_succ, List.cons.injEq, and_true, true_and] at e0 e1 e so
    refine ⟨⟨⟨c0, ?_⟩, co, ?_⟩, sr.trans ?_, sr'⟩ <;> simp only [ea, eo, Space3.shapeSpectral, Space3.shapeSpectralOrtho, List.cons.injEq, and_true] <;> omega
  have hp : ∀ s0 s1 s2, AcceptsInto (sp.toOrthoInplacePar s0 s1 s2) sp.shapeSpectral sp.shapeSpectralOrtho := by
    intro s0 s1 s2
    refine acceptsInto_of_wp (fun a out ha ho => ?_)
    obtain ⟨x, y, z, ea⟩ := shape3 ha
    obtain ⟨u, v, w, eo⟩ := shape3 ho
    unfold Space3.toOrthoInplacePar
    refine wp_bind_i (wp_mono (alloc_checks (M := fun a o ax => sp.base0.toOrthoInplacePar s0 a o ax) (fun a o ax => par_checks h0.toOrtho s0 a o ax) a 0) ?_)
    rintro b0 ⟨c0, -, e0, s0', t0⟩
    refine wp_bind_i (wp_mono (alloc_checks (M := fun a o ax => sp.base1.toOrthoInplacePar s1 a o ax) (fun a o ax => par_checks h1.toOrtho s1 a o ax) b0 1) ?_)
    rintro b1 ⟨c1, -, e1, s1', t1⟩
    refine wp_mono (par_checks h2.toOrtho s2 b1 out 2) ?_
    rintro r ⟨⟨c, co, -, e, so⟩, sr, sr'⟩
    simp only [ea, eo, s0', s1', List.set_cons_zero, List.set_cons_succ, List.set_nil, List.getD_cons_zero, List.getD_cons_succ, List.cons.injEq, and_true, true_and] at e0 e1 e so
    refine ⟨⟨⟨c0, ?_⟩, co, ?_⟩, sr.trans ?_, sr'⟩ <;> simp only [ea, eo, Space3.shapeSpectral, Space3.shapeSpectralOrtho, List.cons.injEq, and_true] <;> omega
  exact ⟨h.alloc, h, fun s0 s1 s2 => ⟨(hp s0 s1 s2).alloc, hp s0 s1 s2⟩⟩

/-- C92: `from_ortho` of Space3, in all four variants and for every schedule. -/
theorem C92_space3_from_ortho (h0 : StaysInBounds sp.base0) (h1 : StaysInBounds sp.base1) (h2 : StaysInBounds sp.base2) :
    Accepts sp.fromOrtho sp.shapeSpectralOrtho sp.shapeSpectral ∧ AcceptsInto sp.fromOrthoInplace sp.shapeSpectralOrtho sp.shapeSpectral ∧
    ∀ s0 s1 s2, Accepts (sp.fromOrthoPar s0 s1 s2) sp.shapeSpectralOrtho sp.shapeSpectral ∧
      AcceptsInto (sp.fromOrthoInplacePar s0 s1 s2) sp.shapeSpectralOrtho sp.shapeSpectral := by
  have h : AcceptsInto sp.fromOrthoInplace sp.shapeSpectralOrtho sp.shapeSpectral := by
    refine acceptsInto_of_wp (fun a out ha ho => ?_)
    obtain ⟨x, y, z, ea⟩ := shape3 ha
    obtain ⟨u, v, w, eo⟩ := shape3 ho
    unfold Space3.fromOrthoInplace
    refine wp_bind_i (wp_mono (alloc_checks (M := fun a o ax => sp.base0.fromOrthoInplace a o ax) (fun a o ax => serial_checks h0.fromOrtho _ a o ax) a 0) ?_)
    rintro b0 ⟨c0, -, e0, s0', t0⟩
    refine wp_bind_i (wp_mono (alloc_checks (M := fun a o ax => sp.base1.fromOrthoInplace a o ax) (fun a o ax => serial_checks h1.fromOrtho _ a o ax) b0 1) ?_)
    rintro b1 ⟨c1, -, e1, s1', t1⟩
    refine wp_mono (serial_checks h2.fromOrtho _ b1 out 2) ?_
    rintro r ⟨⟨c, co, -, e, so⟩, sr, sr'⟩
    simp only [ea, eo, s0', s1', List.set_cons_zero, List.set_cons_succ, List.set_nil, List.getD_cons_zero, List.getD_cons_succ, List.cons.injEq, and_true, true_and] at e0 e1 e so
    refine ⟨⟨⟨c0, ?_⟩, co, ?_⟩, sr.trans ?_, sr'⟩ <;> simp only [ea, eo, Space3.shapeSpectralOrtho, Space3.shapeSpectral, List.cons.injEq, and_true] <;> omega
  have hp : ∀ s0 s1 s2, AcceptsInto (sp.fromOrthoInplacePar s0 s1 s2) sp.shapeSpectralOrtho sp.shapeSpectral := by
    intro s0 s1 s2
    refine acceptsInto_of_wp (fun a out ha ho => ?_)
    obtain ⟨x, y, z, ea⟩ := shape3 ha
    obtain ⟨u, v, w, eo⟩ := shape3 ho
    unfold Space3.fromOrthoInplacePar
    refine wp_bind_i (wp_mono (alloc_checks (M := fun a o ax => sp.base0.fromOrthoInplacePar s0 a o ax) (fun a o ax => par_checks h0.fromOrtho s0 a o ax) a 0) ?_)
    rintro b0 ⟨c0, -, e0, s0', t0⟩
    refine wp_bind_i (wp_mono (alloc_checks (M := fun a o ax => sp.base1.fromOrthoInplacePar s1 a o ax) (fun a o ax => par_checks h1.fromOrtho s1 a o ax) b0 1) ?_)
    rintro b1 ⟨c1, -, e1, s1', t1⟩
    refine wp_mono (par_checks h2.fromOrtho s2 b1 out 2) ?_
    rintro r ⟨⟨c, co, -, e, so⟩, sr, sr'⟩
    simp only [ea, eo, s0', s1', List.set_cons_zero, List.set_cons_succ, List.set_nil, List.getD_cons_zero, List.getD_cons_succ, List.cons.injEq, and_true, true_and] at e0 e1 e so
    refine ⟨⟨⟨c0, ?_⟩, co, ?_⟩, sr.trans ?_, sr'⟩ <;> simp only [ea, eo, Space3.shapeSpectralOrtho, Space3.shapeSpectral, List.cons.injEq, and_true] <;> omega
  exact ⟨h.alloc, h, fun s0 s1 s2 => ⟨(hp s0 s1 s2).alloc, hp s0 s1 s2⟩⟩

end

section
variable {P I J S T A : Type} [Zero P] [Zero I] [Zero J] [Zero S] [Zero T] [Mul A] [Powi A] [DivBy A T] [DivNoUb A T] (sp : Space3 P I J S T A)

/-- C92: `gradient` of Space3, serial and parallel, for every schedule and every scale (the last axis is treated with base 1, see C40, so that the accepted shape is not the documented one). -/
theorem C92_space3_gradient (hp : ∀ (x : A) (k : ℤ), powi x k ≠ err .ub) {d0 d1 d2 : ℕ} (h0 : GradientInBounds sp.base0 d0) (h1 : GradientInBounds sp.base1 d1) (h2 : GradientInBounds sp.base1 d2)
    (scale : Option (A × A × A)) :
    Accepts (fun a => sp.gradient a d0 d1 d2 scale) [sp.base0.lenSpec, sp.base1.lenSpec, sp.base1.lenSpec] [sp.base0.lenOrth, sp.base1.lenOrth, sp.base1.lenOrth] ∧
    ∀ s0 s1 s2, Accepts (fun a => sp.gradientPar s0 s1 s2 a d0 d1 d2 scale) [sp.base0.lenSpec, sp.base1.lenSpec, sp.base1.lenSpec] [sp.base0.lenOrth, sp.base1.lenOrth, sp.base1.lenOrth] := by
  have k : Accepts (fun a => (do let b0 ← sp.base0.gradient a d0 0; let b1 ← sp.base1.gradient b0 d1 1; sp.base1.gradient b1 d2 2)) [sp.base0.lenSpec, sp.base1.lenSpec, sp.base1.lenSpec] [sp.base0.lenOrth, sp.base1.lenOrth, sp.base1.lenOrth] := by
    refine accepts_of_wp (fun a ha => ?_)
    obtain ⟨x, y, z, ea⟩ := shape3 ha
    refine wp_bind_i (wp_mono (alloc_checks (M := fun a o ax => sp.base0.gradientInplace a o d0 ax) (fun a o ax => serial_checks h0 _ a o ax) a 0) ?_)
    rintro b0 ⟨c0, -, e0, s0', t0⟩
    refine wp_bind_i (wp_mono (alloc_checks (M := fun a o ax => sp.base1.gradientInplace a o d1 ax) (fun a o ax => serial_checks h1 _ a o ax) b0 1) ?_)
    rintro b1 ⟨c1, -, e1, s1', t1⟩
    refine wp_mono (alloc_checks (M := fun a o ax => sp.base1.gradientInplace a o d2 ax) (fun a o ax => serial_checks h2 _ a o ax) b1 2) ?_
    rintro b2 ⟨c2, -, e2, s2', t2⟩
    simp only [ea, s0', s1', List.set_cons_zero, List.set_cons_succ, List.getD_cons_zero, List.getD_cons_succ] at e0 e1 e2 s2'
    refine ⟨⟨c0, ?_⟩, s2'.trans ?_, t2⟩ <;> simp only [ea, Space3.shapeSpectral, Space3.shapeSpectralOrtho, List.cons.injEq, and_true] <;> omega
  have kp : ∀ s0 s1 s2, Accepts (fun a => (do let b0 ← sp.base0.gradientPar s0 a d0 0; let b1 ← sp.base1.gradientPar s1 b0 d1 1; sp.base1.gradientPar s2 b1 d2 2)) [sp.base0.lenSpec, sp.base1.lenSpec, sp.base1.lenSpec] [sp.base0.lenOrth, sp.base1.lenOrth, sp.base1.lenOrth] := by
    intro s0 s1 s2
    refine accepts_of_wp (fun a ha => ?_)
    obtain ⟨x, y, z, ea⟩ := shape3 ha
    refine wp_bind_i (wp_mono (alloc_checks (M := fun a o ax => sp.base0.gradientInplacePar s0 a o d0 ax) (fun a o ax => par_checks h0 s0 a o ax) a 0) ?_)
    rintro b0 ⟨c0, -, e0, s0', t0⟩
    refine wp_bind_i (wp_mono (alloc_checks (M := fun a o ax => sp.base1.gradientInplacePar s1 a o d1 ax) (fun a o ax => par_checks h1 s1 a o ax) b0 1) ?_)
    rintro b1 ⟨c1, -, e1, s1', t1⟩
    refine wp_mono (alloc_checks (M := fun a o ax => sp.base1.gradientInplacePar s2 a o d2 ax) (fun a o ax => par_checks h2 s2 a o ax) b1 2) ?_
    rintro b2 ⟨c2, -, e2, s2', t2⟩
    simp only [ea, s0', s1', List.set_cons_zero, List.set_cons_succ, List.getD_cons_zero, List.getD_cons_succ] at e0 e1 e2 s2'
    refine ⟨⟨c0, ?_⟩, s2'.trans ?_, t2⟩ <;> simp only [ea, Space3.shapeSpectral, Space3.shapeSpectralOrtho, List.cons.injEq, and_true] <;> omega
  refine ⟨?_, fun s0 s1 s2 => ?_⟩
  · skip
    have := k
    cases scale with
    | none =>
      have h := this.scale (g := fun x => pure x) (fun x => ⟨rfl, rfl⟩)
      exact h.congr (fun a => by unfold Space3.gradient; simp only [bind_assoc'])
    | some c =>
      obtain ⟨c0, c1, c2⟩ := c
      have h := this.scale (g := fun x => do let p0 ← powi c0 (toI32 d0); let p1 ← powi c1 (toI32 d1); let p2 ← powi c2 (toI32 d2); divAll (p0 * p1 * p2) x) (fun x => wp_bind_i (wp_mono (powi_noUb hp c0 _) fun _ _ => wp_bind_i (wp_mono (powi_noUb hp c1 _) fun _ _ => wp_bind_i (wp_mono (powi_noUb hp c2 _) fun _ _ => divAll_checks _ _))))
      exact h.congr (fun a => by unfold Space3.gradient; simp only [bind_assoc'])
  · skip
    have := kp s0 s1 s2
    cases scale with
    | none =>
      have h := this.scale (g := fun x => pure x) (fun x => ⟨rfl, rfl⟩)
      exact h.congr (fun a => by unfold Space3.gradientPar; simp only [bind_assoc'])
    | some c =>
      obtain ⟨c0, c1, c2⟩ := c
      have h := this.scale (g := fun x => do let p0 ← powi c0 (toI32 d0); let p1 ← powi c1 (toI32 d1); let p2 ← powi c2 (toI32 d2); divAll (p0 * p1 * p2) x) (fun x => wp_bind_i (wp_mono (powi_noUb hp c0 _) fun _ _ => wp_bind_i (wp_mono (powi_noUb hp c1 _) fun _ _ => wp_bind_i (wp_mono (powi_noUb hp c2 _) fun _ _ => divAll_checks _ _))))
      exact h.congr (fun a => by unfold Space3.gradientPar; simp only [bind_assoc'])

end

/-! ### the bases of the library -/

theorem inBounds_of_computes {S T : Type} {f : List S → List T → Res (List T)} {n m : ℕ}
    (h : ∃ g, Computes f n m g) : ReturnsOrPanics f n m := by
  obtain ⟨g, hg⟩ := h
  exact fun x out hx ho => Or.inl ⟨g x, hg x out hx ho⟩

theorem inBounds_of_fails {S T : Type} {f : List S → List T → Res (List T)} {n m : ℕ}
    (h : FailsOn .panic f n m) : ReturnsOrPanics f n m := fun x out hx ho => Or.inr (h x out hx ho)

theorem inBounds_of_runsOn {S T : Type} {f : List S → List T → Res (List T)} {n m : ℕ}
    (h : RunsOn f n m) : ReturnsOrPanics f n m := fun x out hx ho => Or.inl (h x out hx ho)

section
variable {A T C : Type} [Arith A] [ArithOn A T] [CArith A C]

/-- C92: with numbers of any arithmetic (floating-point numbers, say) the bases of the library stay in
bounds – the biharmonic ones excepted (C12) –, and so do their gradients (from `n = 3` on for Chebyshev, from
`n = 1` on for complex Fourier bases). -/
theorem C92_bases_any :
    (∀ (k : Option CKind) (n : ℕ) (b : BaseR2r A), newR2r k n A = ok b → RunsMul k →
      StaysInBounds (b.toBase T) ∧ ∀ d, RunsGrad k n ∨ k = none ∧ d = 0 → GradientInBounds (b.toBase T) d) ∧
    (∀ (n : ℕ) (b : BaseR2c A C), fourierR2c n A C = ok b →
      StaysInBounds b.toBase ∧ ∀ d, GradientInBounds b.toBase d) ∧
    (∀ (n : ℕ) (b : BaseC2c A C), fourierC2c n A C = ok b →
      StaysInBounds b.toBase ∧ (1 ≤ n → ∀ d, GradientInBounds b.toBase d)) := by
  refine ⟨fun k n b hb hk => ⟨⟨?_, inBounds_of_computes ((C68_backward k n b hb).1 hk),
      inBounds_of_computes ((C68_to_ortho k n b hb).1 hk), ?_⟩,
      fun d hg => inBounds_of_computes ((C68_gradient k n b hb d).1 hg)⟩, fun n b hb => ?_, fun n b hb => ?_⟩
  · by_cases h : RunsSolve k n
    · exact inBounds_of_computes ((C68_forward k n b hb).1 h)
    · exact inBounds_of_fails ((C68_forward k n b hb).2 h)
  · by_cases h : RunsSolve k n
    · exact inBounds_of_computes ((C68_from_ortho k n b hb).1 h)
    · exact inBounds_of_fails ((C68_from_ortho k n b hb).2 h)
  · obtain ⟨-, h, hg⟩ := C68_r2c n b hb
    exact ⟨⟨inBounds_of_computes h.forward, inBounds_of_computes h.backward, inBounds_of_computes h.toOrtho,
      inBounds_of_computes h.fromOrtho⟩, fun d => inBounds_of_computes (hg d)⟩
  · obtain ⟨-, h, hg⟩ := C68_c2c n b hb
    exact ⟨⟨inBounds_of_computes h.forward, inBounds_of_computes h.backward, inBounds_of_computes h.toOrtho,
      inBounds_of_computes h.fromOrtho⟩, fun hn d => inBounds_of_computes (hg hn d)⟩

end

section
variable {T : Type} [AddCommGroup T] [Module ℝ T]

/-- C92: … and with exact numbers. -/
theorem C92_bases :
    (∀ (k : Option CKind) (n : ℕ) (b : BaseR2r), newR2r k n = ok b → RunsMul k →
      StaysInBounds (b.toBase T) ∧ ∀ d, RunsGrad k n ∨ k = none ∧ d = 0 → GradientInBounds (b.toBase T) d) ∧
    (∀ (n : ℕ) (b : BaseR2c), 1 ≤ n → fourierR2c n = ok b →
      StaysInBounds b.toBase ∧ ∀ d, GradientInBounds b.toBase d) ∧
    (∀ (n : ℕ) (b : BaseC2c), 1 ≤ n → fourierC2c n = ok b →
      StaysInBounds b.toBase ∧ ∀ d, GradientInBounds b.toBase d) := by
  refine ⟨fun k n b hb hk => ⟨⟨?_, inBounds_of_runsOn ((C51_backward k n b hb).1 hk),
      inBounds_of_runsOn ((C51_to_ortho k n b hb).1 hk), ?_⟩,
      fun d hg => inBounds_of_runsOn ((C51_gradient k n b hb d).1 hg)⟩, fun n b hn hb => ?_, fun n b hn hb => ?_⟩
  · by_cases h : RunsSolve k n
    · exact inBounds_of_runsOn ((C51_forward k n b hb).1 h)
    · exact inBounds_of_fails ((C51_forward k n b hb).2 h)
  · by_cases h : RunsSolve k n
    · exact inBounds_of_runsOn ((C51_from_ortho k n b hb).1 h)
    · exact inBounds_of_fails ((C51_from_ortho k n b hb).2 h)
  · have key : ∀ d, StaysInBounds b.toBase ∧ GradientInBounds b.toBase d := by
      intro d
      obtain ⟨b', hb', h1, h2, h3, h4, h5⟩ := (C51_fourier n hn d).1
      obtain rfl := Res.ok.inj (hb'.symm.trans hb)
      exact ⟨⟨inBounds_of_runsOn h1, inBounds_of_runsOn h2, inBounds_of_runsOn h3, inBounds_of_runsOn h4⟩,
        inBounds_of_runsOn h5⟩
    exact ⟨(key 0).1, fun d => (key d).2⟩
  · have key : ∀ d, StaysInBounds b.toBase ∧ GradientInBounds b.toBase d := by
      intro d
      obtain ⟨b', hb', h1, h2, h3, h4, h5⟩ := (C51_fourier n hn d).2
      obtain rfl := Res.ok.inj (hb'.symm.trans hb)
      exact ⟨⟨inBounds_of_runsOn h1, inBounds_of_runsOn h2, inBounds_of_runsOn h3, inBounds_of_runsOn h4⟩,
        inBounds_of_runsOn h5⟩
    exact ⟨(key 0).1, fun d => (key d).2⟩

end

/-- C92 on a concrete space: a 7 × 8 space of a real Fourier and a Dirichlet base, in exact arithmetic.  `forward`
accepts a 7 × 8 array in standard layout and panics on an 8 × 7 array or on a transposed view. -/
example : ∃ (b0 : BaseR2c) (b1 : BaseR2r), fourierR2c 7 = ok b0 ∧ newR2r (some .dirichlet) 8 = ok b1 ∧
    Accepts (Space2.new b0.toBase (b1.toBase ℂ)).forward [7, 8] [4, 6] ∧
    (Space2.new b0.toBase (b1.toBase ℂ)).forward (Arr.zeros [8, 7]) = err .panic ∧
    (Space2.new b0.toBase (b1.toBase ℂ)).forward { (Arr.zeros [7, 8] : Arr ℝ) with std := false } = err .panic := by
  obtain ⟨b1, hb1⟩ := (C51_new (some .dirichlet) 8).1 (by decide)
  refine ⟨_, b1, rfl, hb1, ?_⟩
  have h := C92_space2_forward (Space2.new (BaseR2c.fourierR2c ⟨7, 4⟩ : BaseR2c).toBase (b1.toBase ℂ))
    ((C92_bases (T := ℂ)).2.1 7 _ (by decide) rfl).1 ((C92_bases (T := ℂ)).1 _ _ b1 hb1 (Or.inl rfl)).1
  have e : (b1.toBase ℂ).lenPhys = 8 ∧ (b1.toBase ℂ).lenSpec = 6 := by
    obtain ⟨c, hc, rfl⟩ := composite_inv hb1
    have hw := Compo.wf_of_new hc
    exact ⟨hw.n_eq, hw.m_eq⟩
  have h' := h.1
  simp only [Space2.shapePhysical, Space2.shapeSpectral, Space2.new] at h'
  rw [e.1, e.2] at h'
  refine ⟨h', h'.rejects _ rfl ?_, h'.rejects _ rfl ?_⟩
  · rintro ⟨-, h⟩; exact absurd h (by decide)
  · rintro ⟨h, -⟩; exact absurd h (by decide)

end Verif.Props
