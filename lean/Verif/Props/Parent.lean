/-
Property C109: working in a space is working in the space of its orthogonal bases: `forward` is the orthogonal
`forward` followed by `from_ortho`, `backward` is `to_ortho` followed by the orthogonal `backward`, `gradient` is
`to_ortho` followed by the orthogonal `gradient`, and derivatives of derivatives are derivatives of the sum of the
orders (so they commute).
-/
import Verif.Proof.ParentSpace
import Verif.Proof.SpaceEx

namespace Verif.Props
open Res Spec Finset

theorem OverCheb.parent {T : Type} [AddCommGroup T] [Module ℝ T] {b b' : Base ℝ ℝ T} (h : OverCheb b b') :
    Parent b b' := by
  obtain ⟨k, n, b0, b0', hb, hm, hs, -, hb', rfl, rfl⟩ := h
  exact r2r_parent hb hm hs hb'

theorem OverCheb.gradParent {T : Type} [CommRing T] [Algebra ℝ T] {b b' : Base ℝ ℝ T} (h : OverCheb b b') :
    GradParent b b' := by
  obtain ⟨k, n, b0, b0', hb, -, -, hg, hb', rfl, rfl⟩ := h
  exact r2r_gradParent hb hg hb'

/-- C109 for one-dimensional spaces: real-to-real over Chebyshev, and Fourier over itself. -/
theorem C109_space1 :
    (∀ sp spo : Space1 ℝ ℝ ℝ, OverCheb sp.base0 spo.base0 → Factors1 sp spo ∧ Derives1 sp spo) ∧
    (∀ (n : ℕ) (sp : Space1 ℝ ℂ ℂ), IsR2c n sp.base0 → Factors1 sp sp ∧ Derives1 sp sp) ∧
    (∀ (n : ℕ) (sp : Space1 ℂ ℂ ℂ), IsC2c n sp.base0 → Factors1 sp sp ∧ Derives1 sp sp) :=
  ⟨fun _ _ h => ⟨factors1 (OverCheb.parent h), derives1 (OverCheb.gradParent h)⟩,
    fun _ _ h => ⟨factors1 (r2c_parent h), derives1 (r2c_gradParent h)⟩,
    fun _ _ h => ⟨factors1 (c2c_parent h), derives1 (c2c_gradParent h)⟩⟩

/-- C109 for two-dimensional spaces of real-to-real bases. -/
theorem C109_space2_r2r_r2r (sp spo : Space2 ℝ ℝ ℝ ℝ) (h0 : OverCheb sp.base0 spo.base0)
    (h1 : OverCheb sp.base1 spo.base1) : Factors2 sp spo ∧ Derives2 sp spo :=
  ⟨factors2 (OverCheb.parent h0) (OverCheb.parent h1), derives2 (OverCheb.gradParent h0) (OverCheb.gradParent h1)⟩

/-- C109 for two-dimensional spaces: Fourier in the first direction, a real-to-real base in the second. -/
theorem C109_space2_r2c_r2r (n : ℕ) (sp spo : Space2 ℝ ℝ ℂ ℂ) (h0 : IsR2c n sp.base0) (e0 : spo.base0 = sp.base0)
    (h1 : OverCheb sp.base1 spo.base1) : Factors2 sp spo ∧ Derives2 sp spo :=
  ⟨factors2 (by rw [e0]; exact r2c_parent h0) (OverCheb.parent h1), derives2 (by rw [e0]; exact r2c_gradParent h0) (OverCheb.gradParent h1)⟩

/-- C109 for the doubly periodic two-dimensional spaces (orthogonal already). -/
theorem C109_space2_fourier :
    (∀ (n m : ℕ) (sp : Space2 ℝ ℂ ℂ ℂ), IsC2c n sp.base0 → IsR2c m sp.base1 → Factors2 sp sp ∧ Derives2 sp sp) ∧
    (∀ (n m : ℕ) (sp : Space2 ℂ ℂ ℂ ℂ), IsC2c n sp.base0 → IsC2c m sp.base1 → Factors2 sp sp ∧ Derives2 sp sp) :=
  ⟨fun _ _ _ h0 h1 => ⟨factors2 (c2c_parent h0) (r2c_parent h1), derives2 (c2c_gradParent h0) (r2c_gradParent h1)⟩,
    fun _ _ _ h0 h1 => ⟨factors2 (c2c_parent h0) (c2c_parent h1), derives2 (c2c_gradParent h0) (c2c_gradParent h1)⟩⟩

/-- C109, the transforms of three-dimensional spaces. -/
theorem C109_space3_transforms :
    (∀ sp spo : Space3 ℝ ℝ ℝ ℝ ℝ, OverCheb sp.base0 spo.base0 → OverCheb sp.base1 spo.base1 →
      OverCheb sp.base2 spo.base2 → Factors3 sp spo) ∧
    (∀ (n : ℕ) (sp spo : Space3 ℝ ℝ ℝ ℂ ℂ), IsR2c n sp.base0 → spo.base0 = sp.base0 →
      OverCheb sp.base1 spo.base1 → OverCheb sp.base2 spo.base2 → Factors3 sp spo) ∧
    (∀ (n m : ℕ) (sp spo : Space3 ℝ ℝ ℂ ℂ ℂ), IsC2c n sp.base0 → spo.base0 = sp.base0 → IsR2c m sp.base1 →
      spo.base1 = sp.base1 → OverCheb sp.base2 spo.base2 → Factors3 sp spo) ∧
    (∀ (n m l : ℕ) (sp : Space3 ℝ ℂ ℂ ℂ ℂ), IsC2c n sp.base0 → IsC2c m sp.base1 → IsR2c l sp.base2 →
      Factors3 sp sp) ∧
    (∀ (n m l : ℕ) (sp : Space3 ℂ ℂ ℂ ℂ ℂ), IsC2c n sp.base0 → IsC2c m sp.base1 → IsC2c l sp.base2 →
      Factors3 sp sp) :=
  ⟨fun _ _ h0 h1 h2 => factors3 (OverCheb.parent h0) (OverCheb.parent h1) (OverCheb.parent h2),
    fun _ _ _ h0 e0 h1 h2 => factors3 (by rw [e0]; exact r2c_parent h0) (OverCheb.parent h1) (OverCheb.parent h2),
    fun _ _ _ _ h0 e0 h1 e1 h2 => factors3 (by rw [e0]; exact c2c_parent h0) (by rw [e1]; exact r2c_parent h1) (OverCheb.parent h2),
    fun _ _ _ _ h0 h1 h2 => factors3 (c2c_parent h0) (c2c_parent h1) (r2c_parent h2),
    fun _ _ _ _ h0 h1 h2 => factors3 (c2c_parent h0) (c2c_parent h1) (c2c_parent h2)⟩

/-- C109, derivatives in three-dimensional spaces whose second and third bases are equal (for other spaces
`gradient` of `Space3` is wrong or panics, see C40). -/
theorem C109_space3_gradient :
    (∀ (b0 b0' b1 b1' : Base ℝ ℝ ℝ), OverCheb b0 b0' → OverCheb b1 b1' →
      Derives3 (Space3.new b0 b1 b1) (Space3.new b0' b1' b1')) ∧
    (∀ (n : ℕ) (b0 : Base ℝ ℂ ℂ) (b1 b1' : Base ℝ ℝ ℂ), IsR2c n b0 → OverCheb b1 b1' →
      Derives3 (Space3.new b0 b1 b1) (Space3.new b0 b1' b1')) ∧
    (∀ (n m : ℕ) (b0 b1 : Base ℂ ℂ ℂ), IsC2c n b0 → IsC2c m b1 →
      Derives3 (Space3.new b0 b1 b1) (Space3.new b0 b1 b1)) :=
  ⟨fun _ _ _ _ h0 h1 => derives3 (OverCheb.gradParent h0) (OverCheb.gradParent h1),
    fun _ _ _ _ h0 h1 => derives3 (r2c_gradParent h0) (OverCheb.gradParent h1),
    fun _ _ _ _ h0 h1 => derives3 (c2c_gradParent h0) (c2c_gradParent h1)⟩

/-- C109: mixed derivatives commute: `∂y` of `∂x` and `∂x` of `∂y` are the same array, for every array of
coefficients (here in a two-dimensional space; both are `gradient(v, [1, 1])`). -/
theorem C109_mixed_commute {P I S : Type} [Zero P] [Zero I] [AddCommGroup S] [Module ℝ S] (sp spo : Space2 P I S S)
    (h : Derives2 sp spo) (v : Arr S) (hv : Good v sp.shapeSpectral) (s : Option (ℝ × ℝ))
    (hs : scale2 1 1 s ≠ 0) :
    ∃ vx vy r, sp.gradient v 1 0 s = ok vx ∧ sp.gradient v 0 1 s = ok vy ∧
      spo.gradient vx 0 1 s = ok r ∧ spo.gradient vy 1 0 s = ok r := by
  obtain ⟨vx, r, h1, h2, h3⟩ := h.compose v 1 0 0 1 s hv (fun _ => by decide) hs
  obtain ⟨vy, r', h1', h2', h3'⟩ := h.compose v 0 1 1 0 s hv (fun _ => by decide) hs
  obtain rfl : r = r' := Res.ok.inj (h3.symm.trans h3')
  exact ⟨vx, vy, r, h1, h1', h2, h2'⟩

/-- C109: the hypotheses are met, for instance by `cheb_dirichlet(6)`. -/
theorem overCheb_exists {T : Type} [AddCommGroup T] [Module ℝ T] :
    ∃ b b' : Base ℝ ℝ T, OverCheb b b' ∧ b.lenSpec = 4 ∧ b'.lenSpec = 6 := by
  obtain ⟨b, hb⟩ := newR2r_exists (some .dirichlet) 6 (by decide) (by rintro c ⟨⟩; decide)
  obtain ⟨b', hb'⟩ := newR2r_exists none 6 (by decide) (by rintro c ⟨⟩)
  refine ⟨b.toBase T, b'.toBase T, ⟨some .dirichlet, 6, b, b', hb, Or.inl rfl, by show 5 ≤ 6; decide, Or.inl rfl, hb',
    rfl, rfl⟩, ?_, ?_⟩
  · obtain ⟨c, hc, rfl⟩ := composite_inv hb
    have hw := Compo.wf_of_new hc
    show c.m = 4
    rw [hw.m_eq]; rfl
  · obtain ⟨_, rfl⟩ := chebyshev_inv hb'
    rfl

/-- C109, concretely: `∂x∂y = ∂y∂x` in the space of Fourier (r2c, 8 points) times `cheb_dirichlet(6)`, for the array
of all coefficients `1 + i`, on a domain scaled by `(2, 3)`. -/
example : ∃ (sp spo : Space2 ℝ ℝ ℂ ℂ) (vx vy r : Arr ℂ), sp.shapeSpectral = [5, 4] ∧ spo.shapeSpectral = [5, 6] ∧
    sp.gradient ⟨[5, 4], List.replicate 20 ⟨1, 1⟩, true⟩ 1 0 (some (2, 3)) = ok vx ∧
    sp.gradient ⟨[5, 4], List.replicate 20 ⟨1, 1⟩, true⟩ 0 1 (some (2, 3)) = ok vy ∧
    spo.gradient vx 0 1 (some (2, 3)) = ok r ∧ spo.gradient vy 1 0 (some (2, 3)) = ok r := by
  obtain ⟨b0, h0, -, l0, -⟩ := isR2c_exists (n := 8) (by decide)
  obtain ⟨b1, b1', h1, l1, l1'⟩ := overCheb_exists (T := ℂ)
  have e : (Space2.new b0 b1).shapeSpectral = [5, 4] := by
    show [b0.lenSpec, b1.lenSpec] = _; rw [l0, l1]
  have e' : (Space2.new b0 b1').shapeSpectral = [5, 6] := by
    show [b0.lenSpec, b1'.lenSpec] = _; rw [l0, l1']
  obtain ⟨vx, vy, r, h⟩ := C109_mixed_commute _ _
    (C109_space2_r2c_r2r 8 (Space2.new b0 b1) (Space2.new b0 b1') h0 rfl h1).2
    ⟨[5, 4], List.replicate 20 ⟨1, 1⟩, true⟩ (by rw [e]; exact good_fill _ _) (some (2, 3)) (by norm_num [scale2])
  exact ⟨_, _, vx, vy, r, e, e', h⟩

end Verif.Props
