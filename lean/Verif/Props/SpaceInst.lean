/-
Properties C34, C37, C38, C40, C41, C53, C54, C55 for the bases made by the public constructors.
-/
import Verif.Props.SpaceFns

namespace Verif.Props
open Res Spec Finset

/-! ### C41: sizes -/

/-- C41: sizes of the bases: a base of size `n` has `n` grid points and `n` orthogonal coefficients,
composite bases lose one coefficient per boundary condition. -/
theorem C41_sizes_r2r {T : Type} [AddCommGroup T] [Module ℝ T] (k : Option CKind) (n : ℕ)
    (b : BaseR2r) (hb : newR2r k n = ok b) :
    (b.toBase T).lenPhys = n ∧ (b.toBase T).lenOrth = n ∧
    (b.toBase T).lenSpec = k.elim n (fun k => n - k.nbc) := by
  cases k with
  | none => obtain ⟨hn, rfl⟩ := chebyshev_inv hb; exact ⟨rfl, rfl, rfl⟩
  | some k =>
    obtain ⟨c, hc, rfl⟩ := composite_inv hb
    have hw := Compo.wf_of_new hc
    exact ⟨hw.n_eq, by show c.lenOrth = n; simp [Compo.lenOrth, Cheb.lenOrth, hw.ortho], hw.m_eq⟩

theorem C41_sizes_r2c (n : ℕ) (b : Base ℝ ℂ ℂ) (hb : IsR2c n b) :
    b.lenPhys = n ∧ b.lenSpec = n / 2 + 1 ∧ b.lenOrth = n / 2 + 1 := by
  obtain ⟨hn, b0, hb, rfl⟩ := hb
  obtain rfl := r2c_inv hb
  exact ⟨rfl, rfl, rfl⟩

theorem C41_sizes_c2c (n : ℕ) (b : Base ℂ ℂ ℂ) (hb : IsC2c n b) :
    b.lenPhys = n ∧ b.lenSpec = n ∧ b.lenOrth = n := by
  obtain ⟨hn, b0, hb, rfl⟩ := hb
  obtain rfl := c2c_inv hb
  exact ⟨rfl, rfl, rfl⟩

/-- C34/C41: the hypothesis `Runs` of the general theorems holds for every library base (of
admissible size, and except the biharmonic ones, whose expansion does not run: C12). -/
theorem C41_bases_run :
    (∀ b : Base ℝ ℝ ℝ, IsR2r b → Runs b) ∧ (∀ b : Base ℝ ℝ ℂ, IsR2r b → Runs b) ∧
    (∀ n b, IsR2c n b → Runs b) ∧ (∀ n b, IsC2c n b → Runs b) :=
  ⟨fun _ h => h.runs, fun _ h => h.runs, fun _ _ h => h.runs, fun _ _ h => h.runs⟩

/-- C34/C41: likewise `RunsGradient`. -/
theorem C41_gradients_run :
    (∀ k n b0 d, newR2r k n = ok b0 → RunsGrad k n →
      RunsGradient (b0.toBase ℝ) d ∧ RunsGradient (b0.toBase ℂ) d) ∧
    (∀ n b d, IsR2c n b → RunsGradient b d) ∧ (∀ n b d, IsC2c n b → RunsGradient b d) :=
  ⟨fun _ _ _ d hb hg => ⟨LinOp.computes (r2r_gradient_lin (R := ℝ) (T := ℝ) hb hg d),
      LinOp.computes (r2r_gradient_lin (R := ℝ) (T := ℂ) hb hg d)⟩,
    fun _ _ d h => LinOp.computes (h.gradLin d), fun _ _ d h => LinOp.computes (h.gradLin d)⟩

/-! ### C37 -/

/-- C37: BaseR2r×BaseR2r: both axes can be transformed in either order. -/
theorem C37_r2r_r2r (sp : Space2 ℝ ℝ ℝ ℝ) (h0 : IsR2r sp.base0) (h1 : IsR2r sp.base1)
    {σ : List ℕ} (hσ : σ.Perm [0, 1]) {a : Arr ℝ} :
    (Good a sp.shapePhysical → inOrder (fun i => if i = 0 then (fun u => sp.base0.forward u 0)
      else (fun u => sp.base1.forward u 1)) σ a = sp.forward a) ∧
    (Good a sp.shapeSpectral → inOrder (fun i => if i = 0 then (fun u => sp.base0.backward u 0)
      else (fun u => sp.base1.backward u 1)) σ a = sp.backward a) ∧
    (Good a sp.shapeSpectral → inOrder (fun i => if i = 0 then (fun u => sp.base0.toOrtho u 0)
      else (fun u => sp.base1.toOrtho u 1)) σ a = sp.toOrtho a) ∧
    (Good a sp.shapeSpectralOrtho → inOrder (fun i => if i = 0 then (fun u => sp.base0.fromOrtho u 0)
      else (fun u => sp.base1.fromOrtho u 1)) σ a = sp.fromOrtho a) :=
  ⟨fun ha => C37_space2_forward sp h0.fwdLin h1.fwdLin ha hσ,
    fun ha => C37_space2_backward sp h0.bwdLin h1.bwdLin ha hσ,
    fun ha => C37_space2_to_ortho sp h0.toLin h1.toLin ha hσ,
    fun ha => C37_space2_from_ortho sp h0.fromLin h1.fromLin ha hσ⟩

/-- C37: BaseC2c×BaseC2c. -/
theorem C37_c2c_c2c (n0 n1 : ℕ) (sp : Space2 ℂ ℂ ℂ ℂ) (h0 : IsC2c n0 sp.base0)
    (h1 : IsC2c n1 sp.base1) {σ : List ℕ} (hσ : σ.Perm [0, 1]) {a : Arr ℂ} :
    (Good a sp.shapePhysical → inOrder (fun i => if i = 0 then (fun u => sp.base0.forward u 0)
      else (fun u => sp.base1.forward u 1)) σ a = sp.forward a) ∧
    (Good a sp.shapeSpectral → inOrder (fun i => if i = 0 then (fun u => sp.base0.backward u 0)
      else (fun u => sp.base1.backward u 1)) σ a = sp.backward a) :=
  ⟨fun ha => C37_space2_forward sp h0.fwdLin h1.fwdLin ha hσ,
    fun ha => C37_space2_backward sp h0.bwdLin h1.bwdLin ha hσ⟩

/-- C37: BaseR2c×BaseR2r: the coefficient operators. -/
theorem C37_r2c_r2r (n0 : ℕ) (sp : Space2 ℝ ℝ ℂ ℂ) (h0 : IsR2c n0 sp.base0)
    (h1 : IsR2r sp.base1) {σ : List ℕ} (hσ : σ.Perm [0, 1]) {a : Arr ℂ} :
    (Good a sp.shapeSpectral → inOrder (fun i => if i = 0 then (fun u => sp.base0.toOrtho u 0)
      else (fun u => sp.base1.toOrtho u 1)) σ a = sp.toOrtho a) ∧
    (Good a sp.shapeSpectralOrtho → inOrder (fun i => if i = 0 then (fun u => sp.base0.fromOrtho u 0)
      else (fun u => sp.base1.fromOrtho u 1)) σ a = sp.fromOrtho a) :=
  ⟨fun ha => C37_space2_to_ortho sp h0.toLin h1.toLin ha hσ,
    fun ha => C37_space2_from_ortho sp h0.fromLin h1.fromLin ha hσ⟩

/-- C37: BaseR2r×BaseR2r×BaseR2r: all six orders of the axes. -/
theorem C37_r2r_r2r_r2r (sp : Space3 ℝ ℝ ℝ ℝ ℝ) (h0 : IsR2r sp.base0) (h1 : IsR2r sp.base1)
    (h2 : IsR2r sp.base2) {σ : List ℕ} (hσ : σ.Perm [0, 1, 2]) {a : Arr ℝ} :
    (Good a sp.shapePhysical → inOrder (fun i => if i = 0 then (fun u => sp.base0.forward u 0)
      else if i = 1 then (fun u => sp.base1.forward u 1) else (fun u => sp.base2.forward u 2)) σ a
      = sp.forward a) ∧
    (Good a sp.shapeSpectral → inOrder (fun i => if i = 0 then (fun u => sp.base0.backward u 0)
      else if i = 1 then (fun u => sp.base1.backward u 1) else (fun u => sp.base2.backward u 2)) σ a
      = sp.backward a) :=
  ⟨fun ha => C37_space3_forward sp h0.fwdLin h1.fwdLin h2.fwdLin ha hσ,
    fun ha => C37_space3_backward sp h0.bwdLin h1.bwdLin h2.bwdLin ha hσ⟩

/-- C37: BaseC2c×BaseC2c×BaseC2c. -/
theorem C37_c2c_c2c_c2c (n0 n1 n2 : ℕ) (sp : Space3 ℂ ℂ ℂ ℂ ℂ) (h0 : IsC2c n0 sp.base0)
    (h1 : IsC2c n1 sp.base1) (h2 : IsC2c n2 sp.base2) {σ : List ℕ} (hσ : σ.Perm [0, 1, 2])
    {a : Arr ℂ} :
    (Good a sp.shapePhysical → inOrder (fun i => if i = 0 then (fun u => sp.base0.forward u 0)
      else if i = 1 then (fun u => sp.base1.forward u 1) else (fun u => sp.base2.forward u 2)) σ a
      = sp.forward a) ∧
    (Good a sp.shapeSpectral → inOrder (fun i => if i = 0 then (fun u => sp.base0.backward u 0)
      else if i = 1 then (fun u => sp.base1.backward u 1) else (fun u => sp.base2.backward u 2)) σ a
      = sp.backward a) :=
  ⟨fun ha => C37_space3_forward sp h0.fwdLin h1.fwdLin h2.fwdLin ha hσ,
    fun ha => C37_space3_backward sp h0.bwdLin h1.bwdLin h2.bwdLin ha hσ⟩

/-! ### C38, C53–C55: the hypotheses of the general theorems hold for the library bases -/

/-- C38: the gradient of a real-to-real base differentiates its own functions: `T_k` on the
orthogonal side, the columns of `stencil()` on the composite side. -/
theorem C38_r2r_base {T : Type} [AddCommGroup T] [Module ℝ T] (k : Option CKind) (n : ℕ)
    (b : BaseR2r) (hb : newR2r k n = ok b) (hg : RunsGrad k n) (d : ℕ) :
    ∃ S, (b.toBase T).stencil = ok S ∧ Differentiates (b.toBase T) d chebFn (stencilFn S) := by
  obtain ⟨S, hS, -⟩ := r2r_stencil (T := T) hb
  exact ⟨S, hS, r2r_differentiates hb hg d hS⟩

/-- C38: the gradient of the real-to-complex Fourier base differentiates `exp(i k x)`. -/
theorem C38_r2c_base (n : ℕ) (b : Base ℝ ℂ ℂ) (hb : IsR2c n b) (d : ℕ) :
    Differentiates b d expFn expFn := r2c_differentiates hb d

/-- C38 for BaseR2c×BaseR2r: `gradient` of the space returns the Fourier×Chebyshev coefficients of
the mixed partial derivative, divided by the scales. -/
theorem C38_r2c_r2r (n0 : ℕ) (k : Option CKind) (n1 : ℕ) (b0 : Base ℝ ℂ ℂ) (b1 : BaseR2r)
    (hb0 : IsR2c n0 b0) (hb1 : newR2r k n1 = ok b1) (hg : RunsGrad k n1) (d0 d1 : ℕ)
    {v : Arr ℂ} {scale : Option (ℝ × ℝ)}
    (hsc : scale ≠ none → d0 < 2 ^ 31 ∧ d1 < 2 ^ 31) (hne : scale2 d0 d1 scale ≠ 0) :
    let sp : Space2 ℝ ℝ ℂ ℂ := ⟨b0, b1.toBase ℂ⟩
    Good v sp.shapeSpectral → ∃ S r, sp.stencil 1 = ok S ∧ sp.gradient v d0 d1 scale = ok r ∧
      Good r sp.shapeSpectralOrtho ∧ ∀ x y : ℝ,
        ∑ k ∈ range b0.lenOrth, ∑ l ∈ range (b1.toBase ℂ).lenOrth,
            expFn k x • chebFn l y • at_ r [k, l]
          = (scale2 d0 d1 scale)⁻¹ • ∑ i ∈ range b0.lenSpec, ∑ j ∈ range (b1.toBase ℂ).lenSpec,
            iteratedDeriv d0 (expFn i) x • iteratedDeriv d1 (stencilFn S j) y • at_ v [i, j] := by
  intro sp hv
  obtain ⟨S, hS, h1⟩ := C38_r2r_base (T := ℂ) k n1 b1 hb1 hg d1
  obtain ⟨r, h⟩ := C38_space2_gradient sp (r2c_differentiates hb0 d0) h1 hv hsc hne
  exact ⟨S, r, hS, h⟩

/-- C38 for BaseR2r×BaseR2r. -/
theorem C38_r2r_r2r (k0 k1 : Option CKind) (n0 n1 : ℕ) (b0 b1 : BaseR2r)
    (hb0 : newR2r k0 n0 = ok b0) (hg0 : RunsGrad k0 n0) (hb1 : newR2r k1 n1 = ok b1)
    (hg1 : RunsGrad k1 n1) (d0 d1 : ℕ) {v : Arr ℝ} {scale : Option (ℝ × ℝ)}
    (hsc : scale ≠ none → d0 < 2 ^ 31 ∧ d1 < 2 ^ 31) (hne : scale2 d0 d1 scale ≠ 0) :
    let sp : Space2 ℝ ℝ ℝ ℝ := ⟨b0.toBase ℝ, b1.toBase ℝ⟩
    Good v sp.shapeSpectral → ∃ S0 S1 r, sp.stencil 0 = ok S0 ∧ sp.stencil 1 = ok S1 ∧
      sp.gradient v d0 d1 scale = ok r ∧ Good r sp.shapeSpectralOrtho ∧ ∀ x y : ℝ,
        ∑ k ∈ range (b0.toBase ℝ).lenOrth, ∑ l ∈ range (b1.toBase ℝ).lenOrth,
            chebFn k x • chebFn l y • at_ r [k, l]
          = (scale2 d0 d1 scale)⁻¹ •
            ∑ i ∈ range (b0.toBase ℝ).lenSpec, ∑ j ∈ range (b1.toBase ℝ).lenSpec,
            iteratedDeriv d0 (stencilFn S0 i) x • iteratedDeriv d1 (stencilFn S1 j) y
              • at_ v [i, j] := by
  intro sp hv
  obtain ⟨S0, hS0, h0⟩ := C38_r2r_base (T := ℝ) k0 n0 b0 hb0 hg0 d0
  obtain ⟨S1, hS1, h1⟩ := C38_r2r_base (T := ℝ) k1 n1 b1 hb1 hg1 d1
  obtain ⟨r, h⟩ := C38_space2_gradient sp h0 h1 hv hsc hne
  exact ⟨S0, S1, r, hS0, hS1, h⟩

/-- C53: every library base expands by its matrix `stencil()`. -/
theorem C53_bases :
    (∀ k n b, newR2r k n = ok b → RunsMul k →
      (∃ S, ExpandsBy (b.toBase ℝ) S) ∧ ∃ S, ExpandsBy (b.toBase ℂ) S) ∧
    (∀ n b, IsR2c n b → ∃ S, ExpandsBy b S) ∧ (∀ n b, IsC2c n b → ∃ S, ExpandsBy b S) := by
  refine ⟨fun k n b hb hm => ?_, fun n b h => ?_, fun n b h => ?_⟩
  · obtain ⟨S, hS, -⟩ := r2r_stencil (T := ℝ) hb
    obtain ⟨S', hS', -⟩ := r2r_stencil (T := ℂ) hb
    exact ⟨⟨S, r2r_expandsBy hb hm hS⟩, S', r2r_expandsBy hb hm hS'⟩
  · obtain ⟨hn, b0, hb, rfl⟩ := id h
    obtain rfl := r2c_inv hb
    exact ⟨_, r2c_expandsBy h rfl⟩
  · obtain ⟨hn, b0, hb, rfl⟩ := id h
    obtain rfl := c2c_inv hb
    exact ⟨_, c2c_expandsBy h rfl⟩

/-- C55: every library base projects by its matrix `stencil()`. -/
theorem C55_bases :
    (∀ k n b, newR2r k n = ok b → RunsSolve k n →
      (∃ S, ProjectsBy (b.toBase ℝ) S) ∧ ∃ S, ProjectsBy (b.toBase ℂ) S) ∧
    (∀ n b, IsR2c n b → ∃ S, ProjectsBy b S) ∧ (∀ n b, IsC2c n b → ∃ S, ProjectsBy b S) := by
  refine ⟨fun k n b hb hm => ?_, fun n b h => ?_, fun n b h => ?_⟩
  · obtain ⟨S, hS, -⟩ := r2r_stencil (T := ℝ) hb
    obtain ⟨S', hS', -⟩ := r2r_stencil (T := ℂ) hb
    exact ⟨⟨S, r2r_projectsBy hb hm hS⟩, S', r2r_projectsBy hb hm hS'⟩
  · obtain ⟨hn, b0, hb, rfl⟩ := id h
    obtain rfl := r2c_inv hb
    exact ⟨_, r2c_projectsBy h rfl⟩
  · obtain ⟨hn, b0, hb, rfl⟩ := id h
    obtain rfl := c2c_inv hb
    exact ⟨_, c2c_projectsBy h rfl⟩

/-- C54: every library base evaluates its own functions at its own grid points: Chebyshev sums,
sums of composite functions, trigonometric sums. -/
theorem C54_bases :
    (∀ k n b, newR2r k n = ok b → RunsMul k →
      ∃ S, (b.toBase ℝ).stencil = ok S ∧ Evaluates (b.toBase ℝ) (fun i x s => stencilFn S i x * s)) ∧
    (∀ n b, IsR2c n b → Evaluates b (r2cTerm n)) ∧ (∀ n b, IsC2c n b → Evaluates b (c2cTerm n)) := by
  refine ⟨fun k n b hb hm => ?_, fun n b h => r2c_evaluates h, fun n b h => c2c_evaluates h⟩
  obtain ⟨S, hS, -⟩ := r2r_stencil (T := ℝ) hb
  exact ⟨S, hS, r2r_evaluates hb hm hS⟩

/-! ### C40 -/

section C40
variable {P I J S T : Type} [Zero P] [Zero I] [Zero J] [Zero S] [AddCommGroup T] [Module ℝ T]
  (sp : Space3 P I J S T)

/-- C40 is false: whenever base 1 and base 2 have different numbers of coefficients, `gradient`
panics on every array of the documented shape. -/
theorem C40_panics {d0 d1 d2 : ℕ} (h0 : RunsGradient sp.base0 d0) (h1 : RunsGradient sp.base1 d1)
    (hne : sp.base2.lenSpec ≠ sp.base1.lenSpec) {v : Arr T} (hv : Good v sp.shapeSpectral)
    (scale : Option (ℝ × ℝ × ℝ)) : sp.gradient v d0 d1 d2 scale = err .panic := by
  obtain ⟨g0, c0⟩ := h0
  obtain ⟨g1, c1⟩ := h1
  have k0 := good_mapAx g0 sp.base0.lenOrth 0 hv.2.2
  have k1 := good_mapAx g1 sp.base1.lenOrth 1 k0.2.2
  have e0 : sp.base0.gradient v d0 0 = ok _ := alloc_good c0 hv (by decide : 0 < 3) rfl
  have e1 : sp.base1.gradient _ d1 1 = ok _ := alloc_good c1 k0 (by decide : 1 < 3) rfl
  have e2 := (((C35_alloc_rejects sp.base1 2).2.2.1
    (mapAx g1 sp.base1.lenOrth 1 (mapAx g0 sp.base0.lenOrth 0 v))) (fun h => hne (by
      have := h.2.2
      rw [k1.2.2] at this
      exact this))).2 d2
  unfold Space3.gradient
  rw [e0, bind_ok, e1, bind_ok, e2, bind_err]

/-- C40, the part that holds: if base 1 and base 2 have the same sizes and the same gradient (for
instance, if they are the same base), `gradient` of Space3 returns the coefficients of the mixed
derivative.  Missing: the case of different bases 1 and 2, in which the result is wrong
(`C40_gradient_uses_base1`, `C40_wrong_values`) or there is none (`C40_panics`). -/
theorem C40_gradient_partial {R0 R1 R2 : Type} [RCLike R0] [RCLike R1] [RCLike R2] [Module R0 T]
    [Module R1 T] [Module R2 T] [SMulCommClass ℝ R0 T] [SMulCommClass ℝ R1 T]
    [SMulCommClass ℝ R2 T] [SMulCommClass R0 R1 T] [SMulCommClass R0 R2 T] [SMulCommClass R1 R2 T]
    {d0 d1 d2 : ℕ} {e0 φ0 : ℕ → ℝ → R0} {e1 φ1 : ℕ → ℝ → R1} {e2 φ2 : ℕ → ℝ → R2}
    (hspec : sp.base1.lenSpec = sp.base2.lenSpec) (horth : sp.base1.lenOrth = sp.base2.lenOrth)
    (hgrad : sp.base1.gradientSlice = sp.base2.gradientSlice)
    (h0 : Differentiates sp.base0 d0 e0 φ0) (h1 : Differentiates sp.base1 d1 e1 φ1)
    (h2 : Differentiates sp.base2 d2 e2 φ2) {v : Arr T} (hv : Good v sp.shapeSpectral)
    {scale : Option (ℝ × ℝ × ℝ)}
    (hsc : scale ≠ none → d0 < 2 ^ 31 ∧ d1 < 2 ^ 31 ∧ d2 < 2 ^ 31)
    (hne : scale3 d0 d1 d2 scale ≠ 0) :
    ∃ r, sp.gradient v d0 d1 d2 scale = ok r ∧ Good r sp.shapeSpectralOrtho ∧ ∀ x y z : ℝ,
      ∑ k ∈ range sp.base0.lenOrth, ∑ l ∈ range sp.base1.lenOrth, ∑ q ∈ range sp.base2.lenOrth,
          e0 k x • e1 l y • e2 q z • at_ r [k, l, q]
        = (scale3 d0 d1 d2 scale)⁻¹ •
          ∑ i ∈ range sp.base0.lenSpec, ∑ j ∈ range sp.base1.lenSpec, ∑ t ∈ range sp.base2.lenSpec,
          iteratedDeriv d0 (φ0 i) x • iteratedDeriv d1 (φ1 j) y • iteratedDeriv d2 (φ2 t) z •
            at_ v [i, j, t] := by
  have h2' : Differentiates sp.base1 d2 e2 φ2 := by
    unfold Differentiates at h2 ⊢
    rw [hgrad, hspec, horth]; exact h2
  have := C40_gradient_uses_base1 sp h0 h1 h2' hspec.symm hv hsc hne
  have hsh : [sp.base0.lenOrth, sp.base1.lenOrth, sp.base1.lenOrth] = sp.shapeSpectralOrtho := by
    unfold Space3.shapeSpectralOrtho; rw [← horth]
  rw [hsh] at this
  rw [← horth]
  exact this

end C40

/-- C40: for the Dirichlet stencil the functions vanish at 1. -/
theorem stencilFn_dirichlet_one {n : ℕ} {b : BaseR2r} (hb : newR2r (some .dirichlet) n = ok b)
    {S : Mat ℝ} (hS : (b.toBase ℝ).stencil = ok S) {t : ℕ} (ht : t < (b.toBase ℝ).lenSpec) :
    stencilFn S t 1 = 0 ∧ stencilFn S t 0 = chebFn t 0 - chebFn (t + 2) 0 := by
  obtain ⟨c, hc, rfl⟩ := composite_inv hb
  have hw := Compo.wf_of_new hc
  obtain ⟨S', hS', h1, h2, h3⟩ := wp_total.mp (Compo.wp_stencilMat (Q := fun _ => False) hw)
  obtain rfl : S = S' := by
    change c.stencilMat = ok S at hS
    rw [hS] at hS'; simpa using hS'
  have hm : c.m + 2 = n := hw.m_add
  have ht' : t < c.m := ht
  have key : ∀ x : ℝ, stencilFn S t x = chebFn t x - chebFn (t + 2) x := fun x => by
    unfold stencilFn
    have e : ∀ k ∈ range S.rows, S.get k t * chebFn k x
        = (CKind.mat ℝ .dirichlet k t) • chebFn k x := fun k _ => by rw [h3 k t ht']; rfl
    rw [Finset.sum_congr rfl e]
    change ∑ k ∈ range S.rows, stMat 2 (fun _ => (1 : ℝ)) (fun _ => -1) (fun _ => 0) k t • chebFn k x = _
    rw [stMat_tmul, h1, if_pos (by omega), if_pos (by omega)]
    simp only [zero_smul, ite_self, add_zero, one_smul, neg_smul]
    ring
  refine ⟨?_, key 0⟩
  rw [key]
  unfold chebFn
  rw [Polynomial.Chebyshev.T_eval_one, Polynomial.Chebyshev.T_eval_one, sub_self]

theorem stencilFn_neumann_zero {n : ℕ} {b : BaseR2r} (hb : newR2r (some .neumann) n = ok b)
    {S : Mat ℝ} (hS : (b.toBase ℝ).stencil = ok S) (x : ℝ) : stencilFn S 0 x = 1 := by
  obtain ⟨c, hc, rfl⟩ := composite_inv hb
  have hw := Compo.wf_of_new hc
  obtain ⟨S', hS', h1, h2, h3⟩ := wp_total.mp (Compo.wp_stencilMat (Q := fun _ => False) hw)
  obtain rfl : S = S' := by
    change c.stencilMat = ok S at hS
    rw [hS] at hS'; simpa using hS'
  have hm : c.m + 2 = n := hw.m_add
  have hl : 4 ≤ n := hw.le
  unfold stencilFn
  have e : ∀ k ∈ range S.rows, S.get k 0 * chebFn k x
      = (CKind.mat ℝ .neumann k 0) • chebFn k x := fun k _ => by rw [h3 k 0 (by omega)]; rfl
  rw [Finset.sum_congr rfl e]
  change ∑ k ∈ range S.rows, stMat 2 (fun _ => (1 : ℝ)) (fun i => -((i : ℕ) : ℝ) ^ 2 / (((i : ℕ) : ℝ) + 2) ^ 2) (fun _ => 0) k 0
    • chebFn k x = _
  rw [stMat_tmul, h1, if_pos (by omega), if_pos (by omega)]
  simp [chebFn]

/-- C40 is false also without a panic: in the space `chebyshev(n0) × cheb_dirichlet(n) ×
cheb_neumann(n)`, already the zeroth derivative (the expansion) of the function with the single
coefficient 1 at index (0, 0, 0) comes out with the wrong value at the point (0, 0, 1): `gradient`
returns an array of the documented shape that represents 0 there instead of 2. -/
theorem C40_wrong_values (n0 n : ℕ) (b0 b1 b2 : BaseR2r) (hb0 : newR2r none n0 = ok b0)
    (hn0 : 3 ≤ n0) (hb1 : newR2r (some .dirichlet) n = ok b1)
    (hb2 : newR2r (some .neumann) n = ok b2) :
    let sp : Space3 ℝ ℝ ℝ ℝ ℝ := ⟨b0.toBase ℝ, b1.toBase ℝ, b2.toBase ℝ⟩
    ∃ S0 S1 S2 v r, sp.stencil 0 = ok S0 ∧ sp.stencil 1 = ok S1 ∧ sp.stencil 2 = ok S2 ∧
      Good v sp.shapeSpectral ∧
      sp.gradient v 0 0 0 none = ok r ∧ Good r sp.shapeSpectralOrtho ∧
      ∑ k ∈ range sp.base0.lenOrth, ∑ l ∈ range sp.base1.lenOrth, ∑ q ∈ range sp.base2.lenOrth,
          chebFn k 0 • chebFn l 0 • chebFn q 1 • at_ r [k, l, q] = 0 ∧
      ∑ i ∈ range sp.base0.lenSpec, ∑ j ∈ range sp.base1.lenSpec, ∑ t ∈ range sp.base2.lenSpec,
          stencilFn S0 i 0 • stencilFn S1 j 0 • stencilFn S2 t 1 • at_ v [i, j, t] = 2 := by
  intro sp
  obtain ⟨S0, hS0, -⟩ := r2r_stencil (T := ℝ) hb0
  obtain ⟨S1, hS1, -⟩ := r2r_stencil (T := ℝ) hb1
  obtain ⟨S2, hS2, -⟩ := r2r_stencil (T := ℝ) hb2
  obtain ⟨z1, z2, z3⟩ := C41_sizes_r2r (T := ℝ) _ _ _ hb1
  obtain ⟨w1, w2, w3⟩ := C41_sizes_r2r (T := ℝ) _ _ _ hb2
  obtain ⟨y1, y2, y3⟩ := C41_sizes_r2r (T := ℝ) _ _ _ hb0
  have hl : 4 ≤ n := by
    obtain ⟨c, hc, -⟩ := composite_inv hb1
    exact (Compo.wf_of_new hc).le
  have p0 : sp.base0.lenSpec = n0 := y3
  have p1 : sp.base1.lenSpec = n - 2 := z3
  have p2 : sp.base2.lenSpec = n - 2 := w3
  have q1 : sp.base1.lenOrth = n := z2
  have q2 : sp.base2.lenOrth = n := w2
  -- the unit array
  set v : Arr ℝ := ⟨sp.shapeSpectral, (List.replicate (sp.shapeSpectral.prod) 0).set 0 1, true⟩ with hvdef
  have hv : Good v sp.shapeSpectral :=
    ⟨by show ((List.replicate _ (0 : ℝ)).set 0 1).length = _; rw [List.length_set, List.length_replicate], rfl, rfl⟩
  have hpos : 0 < sp.shapeSpectral.prod := by
    show 0 < [sp.base0.lenSpec, sp.base1.lenSpec, sp.base2.lenSpec].prod
    rw [p0, p1, p2]
    simp only [List.prod_cons, List.prod_nil, mul_one]
    exact Nat.mul_pos (by omega) (Nat.mul_pos (by omega) (by omega))
  have hval : ∀ i j t, i < n0 → j < n - 2 → t < n - 2 →
      at_ v [i, j, t] = if i = 0 ∧ j = 0 ∧ t = 0 then 1 else 0 := fun i j t hi hj ht => by
    have hf : flat sp.shapeSpectral [i, j, t] = i * ((n - 2) * (n - 2)) + (j * (n - 2) + t) := by
      show flat [sp.base0.lenSpec, sp.base1.lenSpec, sp.base2.lenSpec] [i, j, t] = _
      rw [p1, p2]
      simp [flat]
    show nth ((List.replicate _ 0).set 0 1) (flat sp.shapeSpectral [i, j, t]) = _
    rw [nth_set, hf, List.length_replicate]
    by_cases h : i = 0 ∧ j = 0 ∧ t = 0
    · obtain ⟨rfl, rfl, rfl⟩ := h
      simp only [zero_mul, zero_add, and_self, if_true, hpos]
    · rw [if_neg h, if_neg, nth_replicate]
      rintro ⟨h0, -⟩
      replace h0 := h0.symm
      apply h
      have hm : 0 < n - 2 := by omega
      have := Nat.eq_zero_of_add_eq_zero h0
      obtain ⟨a1, a2⟩ := this
      obtain ⟨a3, a4⟩ := Nat.eq_zero_of_add_eq_zero a2
      rcases Nat.mul_eq_zero.mp a1 with a1 | a1
      · rcases Nat.mul_eq_zero.mp a3 with a3 | a3
        · exact ⟨a1, a3, a4⟩
        · omega
      · have := Nat.mul_pos hm hm; omega
  obtain ⟨r, hr, hgood, hlaw⟩ := C40_gradient_uses_base1 sp (d0 := 0) (d1 := 0) (d2 := 0)
    (r2r_differentiates (T := ℝ) hb0 hn0 0 hS0)
    (r2r_differentiates (T := ℝ) hb1 (Or.inl rfl) 0 hS1)
    (r2r_differentiates (T := ℝ) hb1 (Or.inl rfl) 0 hS1) (p2.trans p1.symm) hv (scale := none)
    (fun h => absurd rfl h) one_ne_zero
  refine ⟨S0, S1, S2, v, r, hS0, hS1, hS2, hv, hr, ?_, ?_, ?_⟩
  · have : [sp.base0.lenOrth, sp.base1.lenOrth, sp.base1.lenOrth] = sp.shapeSpectralOrtho := by
      show _ = [sp.base0.lenOrth, sp.base1.lenOrth, sp.base2.lenOrth]; rw [q1, q2]
    rw [← this]; exact hgood
  · rw [q2, ← q1, hlaw 0 0 1]
    simp only [iteratedDeriv_zero]
    have e : ∀ t ∈ range sp.base2.lenSpec, stencilFn S1 t 1 = 0 := fun t ht =>
      (stencilFn_dirichlet_one hb1 hS1 (by
        have := Finset.mem_range.mp ht
        show t < sp.base1.lenSpec
        omega)).1
    rw [Finset.sum_eq_zero, smul_zero]
    intro i _
    refine Finset.sum_eq_zero (fun j _ => Finset.sum_eq_zero (fun t ht => ?_))
    rw [e t ht, zero_smul, smul_zero, smul_zero]
  · have hd := (stencilFn_dirichlet_one hb1 hS1 (t := 0) (by show 0 < sp.base1.lenSpec; omega)).2
    have hS00 : stencilFn S0 0 0 = 1 := by
      obtain ⟨-, -, -, -, S, hS, -, hr1, hc1, hid⟩ := C52_chebyshev (T := ℝ) n0 b0 hb0
      obtain rfl : S0 = S := by rw [hS0] at hS; simpa using hS
      unfold stencilFn
      rw [hr1, Finset.sum_eq_single_of_mem 0 (Finset.mem_range.mpr (by omega)) (fun k hk hne => by
        rw [hid k (Finset.mem_range.mp hk) 0 (by omega), if_neg hne, zero_mul]),
        hid 0 (by omega) 0 (by omega)]
      simp [chebFn]
    have hchd : stencilFn S1 0 0 = 2 := by
      rw [hd]
      have : Polynomial.Chebyshev.T ℝ 2 = 2 * Polynomial.X ^ 2 - 1 := Polynomial.Chebyshev.T_two ℝ
      simp [chebFn, this]
      norm_num
    rw [p0, p1, p2]
    have e : ∀ i ∈ range n0, ∀ j ∈ range (n - 2), ∀ t ∈ range (n - 2),
        stencilFn S0 i 0 • stencilFn S1 j 0 • stencilFn S2 t 1 • at_ v [i, j, t]
          = if i = 0 ∧ j = 0 ∧ t = 0 then (2 : ℝ) else 0 := fun i hi j hj t ht => by
      rw [hval i j t (Finset.mem_range.mp hi) (Finset.mem_range.mp hj) (Finset.mem_range.mp ht)]
      by_cases h : i = 0 ∧ j = 0 ∧ t = 0
      · obtain ⟨rfl, rfl, rfl⟩ := h
        rw [hS00, hchd, stencilFn_neumann_zero hb2 hS2]
        simp
      · rw [if_neg h, if_neg h, smul_zero, smul_zero, smul_zero]
    rw [Finset.sum_congr rfl (fun i hi => Finset.sum_congr rfl (fun j hj =>
      Finset.sum_congr rfl (fun t ht => e i hi j hj t ht)))]
    rw [Finset.sum_eq_single_of_mem 0 (Finset.mem_range.mpr (by omega)) (fun i _ hi => by simp [hi]),
      Finset.sum_eq_single_of_mem 0 (Finset.mem_range.mpr (by omega)) (fun i _ hi => by simp [hi]),
      Finset.sum_eq_single_of_mem 0 (Finset.mem_range.mpr (by omega)) (fun i _ hi => by simp [hi])]
    simp

/-! ### the hypotheses can be met -/

/-- C34, C37, C41, C53, C55: `chebyshev(3) × cheb_dirichlet(6)` with schedules in which the tasks of
the lanes interleave -/
example : ∃ (sp : Space2 ℝ ℝ ℝ ℝ) (a : Arr ℝ), IsR2r sp.base0 ∧ IsR2r sp.base1 ∧ Runs sp.base0 ∧
    Runs sp.base1 ∧ Good a sp.shapePhysical ∧ a.data.length = 18 ∧ [1, 0].Perm [0, 1] ∧
    FairSchedule [3, 2] 0 [0, 1, 1, 0, 0, 1, 1, 0] := by
  obtain ⟨b0, -, h0, p0, -⟩ := isCheb_exists (T := ℝ) (n := 3) (by decide)
  obtain ⟨b1, h1, p1, -⟩ := isDirichlet_exists (T := ℝ) (n := 6) (by decide)
  refine ⟨⟨b0, b1⟩, _, h0, h1, h0.runs, h1.runs, good_fill 1 _, ?_, by decide,
    by unfold FairSchedule; decide⟩
  show (List.replicate [b0.lenPhys, b1.lenPhys].prod (1 : ℝ)).length = 18
  rw [p0, p1, List.length_replicate]; rfl

/-- C38: `fourier_r2c(4) × cheb_neumann(6)`, derivatives (1, 2), scales (2, 3) -/
example : ∃ (b0 : Base ℝ ℂ ℂ) (b1 : BaseR2r) (v : Arr ℂ), IsR2c 4 b0 ∧
    newR2r (some .neumann) 6 = ok b1 ∧ RunsGrad (some .neumann) 6 ∧
    Good v (Space2.shapeSpectral (⟨b0, b1.toBase ℂ⟩ : Space2 ℝ ℝ ℂ ℂ)) ∧
    scale2 1 2 (some (2, 3)) ≠ 0 ∧ scale2 1 2 (some (2, 3)) = 18 := by
  obtain ⟨b0, h0, -⟩ := isR2c_exists (n := 4) (by decide)
  obtain ⟨b1, h1⟩ := newR2r_exists (some .neumann) 6 (by decide) (by rintro c ⟨⟩; decide)
  have e : scale2 1 2 (some (2, 3)) = 18 := by show (2 : ℝ) ^ 1 * 3 ^ 2 = 18; norm_num
  exact ⟨b0, b1, _, h0, h1, Or.inr (Or.inl rfl), good_fill 1 _, by rw [e]; norm_num, e⟩

/-- C40: `chebyshev(3) × cheb_dirichlet(6) × chebyshev(6)` panics, for every derivative. -/
example (d0 d1 d2 : ℕ) : ∃ (sp : Space3 ℝ ℝ ℝ ℝ ℝ) (v : Arr ℝ), Good v sp.shapeSpectral ∧
    sp.gradient v d0 d1 d2 none = err .panic := by
  obtain ⟨b0, h0⟩ := newR2r_exists none 3 (by decide) (by rintro c ⟨⟩)
  obtain ⟨b1, h1⟩ := newR2r_exists (some .dirichlet) 6 (by decide) (by rintro c ⟨⟩; decide)
  obtain ⟨b2, h2⟩ := newR2r_exists none 6 (by decide) (by rintro c ⟨⟩)
  refine ⟨⟨b0.toBase ℝ, b1.toBase ℝ, b2.toBase ℝ⟩, _, good_fill 1 _,
    C40_panics _ (C41_gradients_run.1 _ _ _ d0 h0 (le_refl 3)).1
      (C41_gradients_run.1 _ _ _ d1 h1 (Or.inl rfl)).1 ?_ (good_fill 1 _) none⟩
  show (b2.toBase ℝ).lenSpec ≠ (b1.toBase ℝ).lenSpec
  rw [(C41_sizes_r2r _ _ _ h2).2.2, (C41_sizes_r2r _ _ _ h1).2.2]
  decide

/-- C40: the bases of `C40_wrong_values` exist. -/
example : ∃ b0 b1 b2, newR2r none 3 = ok b0 ∧ newR2r (some .dirichlet) 6 = ok b1 ∧
    newR2r (some .neumann) 6 = ok b2 := by
  obtain ⟨b0, h0⟩ := newR2r_exists none 3 (by decide) (by rintro c ⟨⟩)
  obtain ⟨b1, h1⟩ := newR2r_exists (some .dirichlet) 6 (by decide) (by rintro c ⟨⟩; decide)
  obtain ⟨b2, h2⟩ := newR2r_exists (some .neumann) 6 (by decide) (by rintro c ⟨⟩; decide)
  exact ⟨b0, b1, b2, h0, h1, h2⟩

/-- C40: with equal bases on axes 1 and 2 the gradient is right: the space
`chebyshev(4) × cheb_dirichlet(6) × cheb_dirichlet(6)` satisfies `C40_gradient_partial`. -/
example (d0 d1 d2 : ℕ) : ∃ (sp : Space3 ℝ ℝ ℝ ℝ ℝ) (φ0 φ1 : ℕ → ℝ → ℝ), sp.base1 = sp.base2 ∧
    Differentiates sp.base0 d0 chebFn φ0 ∧ Differentiates sp.base1 d1 chebFn φ1 ∧
    Differentiates sp.base2 d2 chebFn φ1 ∧ sp.shapeSpectral = [4, 4, 4] := by
  obtain ⟨b0, h0⟩ := newR2r_exists none 4 (by decide) (by rintro c ⟨⟩)
  obtain ⟨b1, h1⟩ := newR2r_exists (some .dirichlet) 6 (by decide) (by rintro c ⟨⟩; decide)
  obtain ⟨S0, hS0, -⟩ := r2r_stencil (T := ℝ) h0
  obtain ⟨S1, hS1, -⟩ := r2r_stencil (T := ℝ) h1
  refine ⟨⟨b0.toBase ℝ, b1.toBase ℝ, b1.toBase ℝ⟩, stencilFn S0, stencilFn S1, rfl,
    r2r_differentiates h0 (by show 3 ≤ 4; decide) d0 hS0, r2r_differentiates h1 (Or.inl rfl) d1 hS1,
    r2r_differentiates h1 (Or.inl rfl) d2 hS1, ?_⟩
  show [(b0.toBase ℝ).lenSpec, (b1.toBase ℝ).lenSpec, (b1.toBase ℝ).lenSpec] = _
  rw [(C41_sizes_r2r _ _ _ h0).2.2, (C41_sizes_r2r _ _ _ h1).2.2]
  rfl

end Verif.Props
