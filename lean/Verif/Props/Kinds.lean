/-
Property C61: the accessors of spaces answer for the base of the requested axis, and `base_kind`
identifies the base.
-/
import Verif.Props.SpaceInst

namespace Verif.Props
open Res Spec

/-- The kind a user expects from the constructor. -/
def kindOf : Option CKind → BaseKind
  | none => .chebyshev
  | some k => .composite k

private theorem wp_any {α : Type} (r : Res α) {p : α → Prop} (h : ∀ a, p a) :
    wp (fun _ => True) r p := by
  cases r with
  | ok a => exact h a
  | err e => trivial

section
variable {T : Type} [AddCommGroup T] [Module ℝ T]

/-- C61: `base_kind()` names the constructor that made the base, `transform_kind()` its transform. -/
theorem C61_kind_r2r (k : Option CKind) (n : ℕ) (b : BaseR2r) (hb : newR2r k n = ok b) :
    (b.toBase T).baseKind = kindOf k ∧ (b.toBase T).transformKind = .r2r := by
  cases k with
  | none =>
    obtain ⟨-, rfl⟩ := chebyshev_inv hb
    exact ⟨rfl, rfl⟩
  | some k =>
    obtain ⟨c, hc, rfl⟩ := composite_inv hb
    refine ⟨congrArg BaseKind.composite (?_ : c.baseKind = k), rfl⟩
    have key : wp (fun _ => True) (Compo.new (K := ℝ) k n) (fun c => c.baseKind = k) := by
      cases k <;> unfold Compo.new <;> dsimp only <;>
        refine wp_bind_i (wp_any _ (fun s => ?_)) <;>
        refine wp_bind_i (wp_any _ (fun s => ?_)) <;>
        refine wp_bind_i (wp_any _ (fun s => ?_)) <;> exact rfl
    rw [hc] at key
    exact key

/-- C61 for the Fourier bases. -/
theorem C61_kind_fourier :
    (∀ n b, IsR2c n b → b.baseKind = .fourierR2c ∧ b.transformKind = .r2c) ∧
    (∀ n b, IsC2c n b → b.baseKind = .fourierC2c ∧ b.transformKind = .c2c) := by
  refine ⟨fun n b h => ?_, fun n b h => ?_⟩
  · obtain ⟨-, b0, hb, rfl⟩ := h
    obtain rfl := r2c_inv hb
    exact ⟨rfl, rfl⟩
  · obtain ⟨-, b0, hb, rfl⟩ := h
    obtain rfl := c2c_inv hb
    exact ⟨rfl, rfl⟩

/-- C61: `base_kind()` together with the number of grid points determines the base, hence the
result of every operation on it. -/
theorem C61_kind_determines_base (k k' : Option CKind) (n n' : ℕ) (b b' : BaseR2r)
    (hb : newR2r k n = ok b) (hb' : newR2r k' n' = ok b')
    (hk : (b.toBase T).baseKind = (b'.toBase T).baseKind)
    (hn : (b.toBase T).lenPhys = (b'.toBase T).lenPhys) : b = b' := by
  rw [(C61_kind_r2r k n b hb).1, (C61_kind_r2r k' n' b' hb').1] at hk
  have hp : ∀ k n b, newR2r k n = ok b → (b.toBase T).lenPhys = n := by
    intro k n b hb
    cases k with
    | none => obtain ⟨-, rfl⟩ := chebyshev_inv hb; rfl
    | some k => obtain ⟨c, hc, rfl⟩ := composite_inv hb; exact (Compo.wf_of_new hc).n_eq
  rw [hp k n b hb, hp k' n' b' hb'] at hn
  obtain rfl : k = k' := by
    cases k <;> cases k' <;> simp_all [kindOf]
  subst hn
  rw [hb] at hb'
  exact Res.ok.inj hb'

end

/-- two bases of the same size and different kinds -/
example : ∃ b b' : BaseR2r, newR2r none 8 = ok b ∧ newR2r (some .neumann) 8 = ok b' ∧
    (b.toBase ℝ).baseKind ≠ (b'.toBase ℝ).baseKind := by
  obtain ⟨b, hb⟩ := newR2r_exists none 8 (by norm_num) (by rintro c ⟨⟩)
  obtain ⟨b', hb'⟩ := newR2r_exists (some .neumann) 8 (by norm_num) (by rintro c ⟨⟩; decide)
  exact ⟨b, b', hb, hb', by
    rw [(C61_kind_r2r _ _ b hb).1, (C61_kind_r2r _ _ b' hb').1]; exact fun h => nomatch h⟩

/-- The answers of one base. -/
structure Answers (P S T : Type) (b : Base P S T) (coords : Res (List ℝ)) (stencil stencilInv : Res (Mat ℝ))
    (lap : Mode → Res (Mat ℝ)) (pinv : Mode → Res (Mat ℝ × Mat ℝ)) (bk : Res BaseKind)
    (tk : Res TransformKind) : Prop where
  coords : coords = b.coords
  stencil : stencil = b.stencil
  stencilInv : stencilInv = b.stencilInv
  lap : lap = b.laplacian
  pinv : pinv = b.laplacianPinv
  bk : bk = ok b.baseKind
  tk : tk = ok b.transformKind

/-- C61: in a 1-d space the accessors answer for the base. -/
theorem C61_space1 {P S T : Type} (sp : Space1 P S T) (axis : ℕ) :
    Answers P S T sp.base0 (sp.coordsAxis axis) (sp.stencil axis) (sp.stencilInv axis)
      (fun o => sp.laplacian o axis) (fun o => sp.laplacianPinv o axis) (sp.baseKind axis)
      (sp.transformKind axis) ∧
    sp.coords = (do let x ← sp.base0.coords; pure [x]) ∧
    sp.shapePhysical = [sp.base0.lenPhys] ∧ sp.shapeSpectral = [sp.base0.lenSpec] ∧
    sp.shapeSpectralOrtho = [sp.base0.lenOrth] :=
  ⟨⟨rfl, rfl, rfl, rfl, rfl, rfl, rfl⟩, rfl, rfl, rfl, rfl⟩

/-- C61: in a 2-d space the accessors answer for the base of the axis (every axis but 0 means the
second base: the axis is not checked). -/
theorem C61_space2 {P I S T : Type} (sp : Space2 P I S T) :
    Answers I S T sp.base0 (sp.coordsAxis 0) (sp.stencil 0) (sp.stencilInv 0)
      (fun o => sp.laplacian o 0) (fun o => sp.laplacianPinv o 0) (sp.baseKind 0)
      (sp.transformKind 0) ∧
    (∀ axis, 1 ≤ axis → Answers P I T sp.base1 (sp.coordsAxis axis) (sp.stencil axis)
      (sp.stencilInv axis) (fun o => sp.laplacian o axis) (fun o => sp.laplacianPinv o axis)
      (sp.baseKind axis) (sp.transformKind axis)) ∧
    sp.coords = (do let x ← sp.base0.coords; let y ← sp.base1.coords; pure [x, y]) ∧
    sp.shapePhysical = [sp.base0.lenPhys, sp.base1.lenPhys] ∧
    sp.shapeSpectral = [sp.base0.lenSpec, sp.base1.lenSpec] ∧
    sp.shapeSpectralOrtho = [sp.base0.lenOrth, sp.base1.lenOrth] := by
  refine ⟨⟨rfl, rfl, rfl, rfl, rfl, rfl, rfl⟩, fun axis h => ?_, rfl, rfl, rfl, rfl⟩
  obtain ⟨a, rfl⟩ : ∃ a, axis = a + 1 := ⟨axis - 1, by omega⟩
  exact ⟨rfl, rfl, rfl, rfl, rfl, rfl, rfl⟩

/-- C61: in a 3-d space the accessors answer for the base of the axis and panic for any other. -/
theorem C61_space3 {P I J S T : Type} (sp : Space3 P I J S T) :
    Answers J S T sp.base0 (sp.coordsAxis 0) (sp.stencil 0) (sp.stencilInv 0)
      (fun o => sp.laplacian o 0) (fun o => sp.laplacianPinv o 0) (sp.baseKind 0)
      (sp.transformKind 0) ∧
    Answers I J T sp.base1 (sp.coordsAxis 1) (sp.stencil 1) (sp.stencilInv 1)
      (fun o => sp.laplacian o 1) (fun o => sp.laplacianPinv o 1) (sp.baseKind 1)
      (sp.transformKind 1) ∧
    Answers P I T sp.base2 (sp.coordsAxis 2) (sp.stencil 2) (sp.stencilInv 2)
      (fun o => sp.laplacian o 2) (fun o => sp.laplacianPinv o 2) (sp.baseKind 2)
      (sp.transformKind 2) ∧
    (∀ axis, 2 < axis → sp.coordsAxis axis = err .panic ∧ sp.stencil axis = err .panic ∧
      sp.stencilInv axis = err .panic ∧ (∀ o, sp.laplacian o axis = err .panic) ∧
      (∀ o, sp.laplacianPinv o axis = err .panic) ∧ sp.baseKind axis = err .panic ∧
      sp.transformKind axis = err .panic) ∧
    sp.coords = (do let x ← sp.base0.coords; let y ← sp.base1.coords; let z ← sp.base2.coords
                    pure [x, y, z]) ∧
    sp.shapePhysical = [sp.base0.lenPhys, sp.base1.lenPhys, sp.base2.lenPhys] ∧
    sp.shapeSpectral = [sp.base0.lenSpec, sp.base1.lenSpec, sp.base2.lenSpec] ∧
    sp.shapeSpectralOrtho = [sp.base0.lenOrth, sp.base1.lenOrth, sp.base2.lenOrth] := by
  refine ⟨⟨rfl, rfl, rfl, rfl, rfl, rfl, rfl⟩, ⟨rfl, rfl, rfl, rfl, rfl, rfl, rfl⟩,
    ⟨rfl, rfl, rfl, rfl, rfl, rfl, rfl⟩, fun axis h => ?_, rfl, rfl, rfl, rfl⟩
  have hp : (assertR (axis ≤ 2) : Res Unit) = err .panic := if_neg (by omega)
  refine ⟨?_, ?_, ?_, fun o => ?_, fun o => ?_, ?_, ?_⟩
  · unfold Space3.coordsAxis; rw [hp]; rfl
  · unfold Space3.stencil; rw [hp]; rfl
  · unfold Space3.stencilInv; rw [hp]; rfl
  · unfold Space3.laplacian; rw [hp]; rfl
  · unfold Space3.laplacianPinv; rw [hp]; rfl
  · unfold Space3.baseKind; rw [hp]; rfl
  · unfold Space3.transformKind; rw [hp]; rfl

/-- C61: different kinds of bases are displayed differently. -/
theorem C61_display (k k' : BaseKind) (h : k.display = k'.display) : k = k' := by
  cases k with
  | composite c => cases k' with
    | composite c' => cases c <;> cases c' <;> first | rfl | (exact absurd h (by decide))
    | _ => cases c <;> exact absurd h (by decide)
  | _ => cases k' with
    | composite c' => cases c' <;> exact absurd h (by decide)
    | _ => first | rfl | (exact absurd h (by decide))

/-- C61: a space consists of the bases it was made of; the arrays it provides have the shapes of its
physical and spectral fields, are in row-major order and filled with zeros. -/
theorem C61_new {P I J S T : Type} [Zero P] [Zero S] :
    (∀ b0 : Base P S T, (Space1.new b0).base0 = b0 ∧
      Good (Space1.new b0).ndarrayPhysical [b0.lenPhys] ∧
      (∀ x ∈ (Space1.new b0).ndarrayPhysical.data, x = 0) ∧
      Good (Space1.new b0).ndarraySpectral [b0.lenSpec] ∧
      (∀ x ∈ (Space1.new b0).ndarraySpectral.data, x = 0)) ∧
    (∀ (b0 : Base I S T) (b1 : Base P I T), (Space2.new b0 b1).base0 = b0 ∧
      (Space2.new b0 b1).base1 = b1 ∧
      Good (Space2.new b0 b1).ndarrayPhysical [b0.lenPhys, b1.lenPhys] ∧
      (∀ x ∈ (Space2.new b0 b1).ndarrayPhysical.data, x = 0) ∧
      Good (Space2.new b0 b1).ndarraySpectral [b0.lenSpec, b1.lenSpec] ∧
      (∀ x ∈ (Space2.new b0 b1).ndarraySpectral.data, x = 0)) ∧
    (∀ (b0 : Base J S T) (b1 : Base I J T) (b2 : Base P I T), (Space3.new b0 b1 b2).base0 = b0 ∧
      (Space3.new b0 b1 b2).base1 = b1 ∧ (Space3.new b0 b1 b2).base2 = b2 ∧
      Good (Space3.new b0 b1 b2).ndarrayPhysical [b0.lenPhys, b1.lenPhys, b2.lenPhys] ∧
      (∀ x ∈ (Space3.new b0 b1 b2).ndarrayPhysical.data, x = 0) ∧
      Good (Space3.new b0 b1 b2).ndarraySpectral [b0.lenSpec, b1.lenSpec, b2.lenSpec] ∧
      (∀ x ∈ (Space3.new b0 b1 b2).ndarraySpectral.data, x = 0)) :=
  ⟨fun _ => ⟨rfl, good_zeros _, fun _ h => (List.mem_replicate.1 h).2, good_zeros _,
      fun _ h => (List.mem_replicate.1 h).2⟩,
    fun _ _ => ⟨rfl, rfl, good_zeros _, fun _ h => (List.mem_replicate.1 h).2, good_zeros _,
      fun _ h => (List.mem_replicate.1 h).2⟩,
    fun _ _ _ => ⟨rfl, rfl, rfl, good_zeros _, fun _ h => (List.mem_replicate.1 h).2, good_zeros _,
      fun _ h => (List.mem_replicate.1 h).2⟩⟩

end Verif.Props
