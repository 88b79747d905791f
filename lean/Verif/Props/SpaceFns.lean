/-
Properties C38, C40, C53, C54 and C55: what the operators of the spaces compute, as functions of
several variables.
-/
import Verif.Props.SpaceOps

namespace Verif.Props
open Res Spec Finset

/-! ### Space1 -/

section
variable {P S T R0 : Type} [Zero P] [Zero S] [AddCommGroup T] [Module ℝ T]
  [RCLike R0] [Module R0 T]
  [SMulCommClass ℝ R0 T] 
  (sp : Space1 P S T)

/-- `gradient(v, [d0], scale)` returns the coefficients of the mixed derivative of the function with
coefficients `v`, divided by `scale` to the powers of the orders. -/
theorem C38_space1_gradient {d0 : ℕ} {e0 φ0 : ℕ → ℝ → R0}
    (h0 : Differentiates sp.base0 d0 e0 φ0)
    {v : Arr T} (hv : Good v sp.shapeSpectral) {scale : Option (ℝ)}
    (hsc : scale ≠ none → d0 < 2 ^ 31) (hne : scale1 d0 scale ≠ 0) :
    ∃ r, sp.gradient v d0 scale = ok r ∧ Good r sp.shapeSpectralOrtho ∧
      ∀ x : ℝ,
        ∑ k ∈ range sp.base0.lenOrth, e0 k x • at_ r [k]
          = (scale1 d0 scale)⁻¹ • ∑ i ∈ range sp.base0.lenSpec, iteratedDeriv d0 (φ0 i) x • at_ v [i] := by
  obtain ⟨g0, c0, r0⟩ := h0
  have k0 := good_mapAx g0 sp.base0.lenOrth 0 hv.2.2
  refine ⟨_, sp.gradient_eq c0 hv hsc hne, good_scaleArr k0, fun x => ?_⟩
  have key := tensor1 (⟨c0.len, fun u hu => r0 u hu x⟩ :
      FLaw g0 sp.base0.lenSpec sp.base0.lenOrth (fun k => e0 k x) (fun k => iteratedDeriv d0 (φ0 k) x))
      (a := v) hv.2.2
  simp only [at_scaleArr]
  rw [← key]; simp only [Finset.smul_sum]
  refine Finset.sum_congr rfl (fun k _ => ?_)
  rw [smul_comm (scale1 d0 scale)⁻¹ (e0 k x)]

end

section
variable {P S T : Type} [Zero P] [Zero S] [AddCommGroup T] [Module ℝ T]
  (sp : Space1 P S T)

/-- `to_ortho` multiplies by the matrix `stencil(i)` along every axis `i`. -/
theorem C53_space1_to_ortho {S0 : Mat ℝ} (h0 : ExpandsBy sp.base0 S0)
    {v : Arr T} (hv : Good v sp.shapeSpectral) :
    sp.stencil 0 = ok S0 ∧
    ∃ r, sp.toOrtho v = ok r ∧ Good r sp.shapeSpectralOrtho ∧
      ∀ k < sp.base0.lenOrth,
        at_ r [k]
          = ∑ i ∈ range sp.base0.lenSpec, S0.get k i • at_ v [i] := by
  obtain ⟨s0, -, -, g0, c0, r0⟩ := h0
  have k0 := good_mapAx g0 sp.base0.lenOrth 0 hv.2.2
  refine ⟨s0, _, sp.toOrtho_eq c0 hv, k0, fun k hk => ?_⟩
  have key := tensor1 (FLaw.pick c0.len hk (fun u hu => r0 u hu k hk) :
      FLaw g0 sp.base0.lenSpec sp.base0.lenOrth (fun p => if p = k then (1 : ℝ) else 0) (fun p => S0.get k p))
      (a := v) hv.2.2
  rw [← key]
  symm
  refine (Finset.sum_eq_single_of_mem k (Finset.mem_range.mpr hk) (fun p _ hp => by
    simp only [if_neg hp, zero_smul, smul_zero, Finset.sum_const_zero])).trans ?_
  simp only [if_true, one_smul]

/-- `from_ortho` returns the solution of the normal equations of the tensor product of the stencil
matrices (the least-squares projection onto the space). -/
theorem C55_space1_from_ortho {S0 : Mat ℝ} (h0 : ProjectsBy sp.base0 S0)
    {v : Arr T} (hv : Good v sp.shapeSpectralOrtho) :
    sp.stencil 0 = ok S0 ∧
    ∃ r, sp.fromOrtho v = ok r ∧ Good r sp.shapeSpectral ∧
      ∀ k < sp.base0.lenSpec,
        ∑ i ∈ range sp.base0.lenSpec, 
          (∑ p ∈ range sp.base0.lenOrth, S0.get p k * S0.get p i) • at_ r [i]
        = ∑ i ∈ range sp.base0.lenOrth, S0.get i k • at_ v [i] := by
  obtain ⟨s0, -, -, g0, c0, r0⟩ := h0
  have k0 := good_mapAx g0 sp.base0.lenSpec 0 hv.2.2
  refine ⟨s0, _, sp.fromOrtho_eq c0 hv, k0, fun k hk => ?_⟩
  exact tensor1 (⟨c0.len, fun u hu => r0 u hu k hk⟩ :
      FLaw g0 sp.base0.lenOrth sp.base0.lenSpec _ _)
      (a := v) hv.2.2

end

section
variable {P S T : Type} [AddCommMonoid P] [AddCommMonoid S] [Zero T]
  (sp : Space1 P S T)

/-- `backward(v)` evaluates the series with coefficients `v` at the points of the tensor grid
`coords()`. -/
theorem C54_space1_backward {E0 : ℕ → ℝ → S → P}
    (h0 : Evaluates sp.base0 E0)
    {v : Arr S} (hv : Good v sp.shapeSpectral) :
    ∃ x r, sp.coords = ok [x] ∧ x.length = sp.base0.lenPhys ∧
      sp.backward v = ok r ∧ Good r sp.shapePhysical ∧
      ∀ p < sp.base0.lenPhys,
        at_ r [p] = ∑ i ∈ range sp.base0.lenSpec, E0 i (nth x p) (at_ v [i]) := by
  obtain ⟨x, g0, hx0, l0, c0, r0⟩ := h0
  have k0 := good_mapAx g0 sp.base0.lenPhys 0 hv.2.2
  refine ⟨x, _, ?_, l0, sp.backward_eq c0 hv, k0, fun p hp => ?_⟩
  · show (sp.base0.coords >>= fun c0 => pure [c0]) = _
    rw [hx0]; rfl
  refine (at_mapAx (ax := 0) (m := sp.base0.lenPhys) (sh := [sp.base0.lenSpec]) hv.2.2 (inBounds1 hp)).trans ?_
  refine (r0 _ (by rw [laneAt_length, hv.2.2]; rfl) p hp).trans (Finset.sum_congr rfl (fun i hi => ?_))
  congr 1
  rw [nth_laneAt _ _ _ (by rw [hv.2.2]; exact Finset.mem_range.mp hi)]
  simp only [List.set_cons_zero]

end

/-! ### Space2 -/

section
variable {P I S T R0 R1 : Type} [Zero P] [Zero I] [Zero S] [AddCommGroup T] [Module ℝ T]
  [RCLike R0] [RCLike R1] [Module R0 T] [Module R1 T]
  [SMulCommClass ℝ R0 T] [SMulCommClass ℝ R1 T] [SMulCommClass R0 R1 T]
  (sp : Space2 P I S T)

/-- `gradient(v, [d0, d1], scale)` returns the coefficients of the mixed derivative of the function with
coefficients `v`, divided by `scale` to the powers of the orders. -/
theorem C38_space2_gradient {d0 d1 : ℕ} {e0 φ0 : ℕ → ℝ → R0} {e1 φ1 : ℕ → ℝ → R1}
    (h0 : Differentiates sp.base0 d0 e0 φ0)
    (h1 : Differentiates sp.base1 d1 e1 φ1)
    {v : Arr T} (hv : Good v sp.shapeSpectral) {scale : Option (ℝ × ℝ)}
    (hsc : scale ≠ none → d0 < 2 ^ 31 ∧ d1 < 2 ^ 31) (hne : scale2 d0 d1 scale ≠ 0) :
    ∃ r, sp.gradient v d0 d1 scale = ok r ∧ Good r sp.shapeSpectralOrtho ∧
      ∀ x y : ℝ,
        ∑ k ∈ range sp.base0.lenOrth, ∑ l ∈ range sp.base1.lenOrth, e0 k x • e1 l y • at_ r [k, l]
          = (scale2 d0 d1 scale)⁻¹ • ∑ i ∈ range sp.base0.lenSpec, ∑ j ∈ range sp.base1.lenSpec, iteratedDeriv d0 (φ0 i) x • iteratedDeriv d1 (φ1 j) y • at_ v [i, j] := by
  obtain ⟨g0, c0, r0⟩ := h0
  obtain ⟨g1, c1, r1⟩ := h1
  have k0 := good_mapAx g0 sp.base0.lenOrth 0 hv.2.2
  have k1 := good_mapAx g1 sp.base1.lenOrth 1 k0.2.2
  refine ⟨_, sp.gradient_eq c0 c1 hv hsc hne, good_scaleArr k1, fun x y => ?_⟩
  have key := tensor2 (⟨c0.len, fun u hu => r0 u hu x⟩ :
      FLaw g0 sp.base0.lenSpec sp.base0.lenOrth (fun k => e0 k x) (fun k => iteratedDeriv d0 (φ0 k) x)) (⟨c1.len, fun u hu => r1 u hu y⟩ :
      FLaw g1 sp.base1.lenSpec sp.base1.lenOrth (fun k => e1 k y) (fun k => iteratedDeriv d1 (φ1 k) y))
      (a := v) hv.2.2
  simp only [at_scaleArr]
  rw [← key]; simp only [Finset.smul_sum]
  refine Finset.sum_congr rfl (fun k _ => Finset.sum_congr rfl (fun l _ => ?_))
  rw [smul_comm (scale2 d0 d1 scale)⁻¹ (e0 k x), smul_comm (scale2 d0 d1 scale)⁻¹ (e1 l y)]

end

section
variable {P I S T : Type} [Zero P] [Zero I] [Zero S] [AddCommGroup T] [Module ℝ T]
  (sp : Space2 P I S T)

/-- `to_ortho` multiplies by the matrix `stencil(i)` along every axis `i`. -/
theorem C53_space2_to_ortho {S0 S1 : Mat ℝ} (h0 : ExpandsBy sp.base0 S0) (h1 : ExpandsBy sp.base1 S1)
    {v : Arr T} (hv : Good v sp.shapeSpectral) :
    sp.stencil 0 = ok S0 ∧ sp.stencil 1 = ok S1 ∧
    ∃ r, sp.toOrtho v = ok r ∧ Good r sp.shapeSpectralOrtho ∧
      ∀ k < sp.base0.lenOrth, ∀ l < sp.base1.lenOrth,
        at_ r [k, l]
          = ∑ i ∈ range sp.base0.lenSpec, ∑ j ∈ range sp.base1.lenSpec, S0.get k i • S1.get l j • at_ v [i, j] := by
  obtain ⟨s0, -, -, g0, c0, r0⟩ := h0
  obtain ⟨s1, -, -, g1, c1, r1⟩ := h1
  have k0 := good_mapAx g0 sp.base0.lenOrth 0 hv.2.2
  have k1 := good_mapAx g1 sp.base1.lenOrth 1 k0.2.2
  refine ⟨s0, s1, _, sp.toOrtho_eq c0 c1 hv, k1, fun k hk l hl => ?_⟩
  have key := tensor2 (FLaw.pick c0.len hk (fun u hu => r0 u hu k hk) :
      FLaw g0 sp.base0.lenSpec sp.base0.lenOrth (fun p => if p = k then (1 : ℝ) else 0) (fun p => S0.get k p)) (FLaw.pick c1.len hl (fun u hu => r1 u hu l hl) :
      FLaw g1 sp.base1.lenSpec sp.base1.lenOrth (fun p => if p = l then (1 : ℝ) else 0) (fun p => S1.get l p))
      (a := v) hv.2.2
  rw [← key]
  symm
  refine (Finset.sum_eq_single_of_mem k (Finset.mem_range.mpr hk) (fun p _ hp => by
    simp only [if_neg hp, zero_smul, smul_zero, Finset.sum_const_zero])).trans ?_
  refine (Finset.sum_eq_single_of_mem l (Finset.mem_range.mpr hl) (fun p _ hp => by
    simp only [if_neg hp, zero_smul, smul_zero, Finset.sum_const_zero])).trans ?_
  simp only [if_true, one_smul]

/-- `from_ortho` returns the solution of the normal equations of the tensor product of the stencil
matrices (the least-squares projection onto the space). -/
theorem C55_space2_from_ortho {S0 S1 : Mat ℝ} (h0 : ProjectsBy sp.base0 S0) (h1 : ProjectsBy sp.base1 S1)
    {v : Arr T} (hv : Good v sp.shapeSpectralOrtho) :
    sp.stencil 0 = ok S0 ∧ sp.stencil 1 = ok S1 ∧
    ∃ r, sp.fromOrtho v = ok r ∧ Good r sp.shapeSpectral ∧
      ∀ k < sp.base0.lenSpec, ∀ l < sp.base1.lenSpec,
        ∑ i ∈ range sp.base0.lenSpec, ∑ j ∈ range sp.base1.lenSpec, 
          (∑ p ∈ range sp.base0.lenOrth, S0.get p k * S0.get p i) • (∑ p ∈ range sp.base1.lenOrth, S1.get p l * S1.get p j) • at_ r [i, j]
        = ∑ i ∈ range sp.base0.lenOrth, ∑ j ∈ range sp.base1.lenOrth, S0.get i k • S1.get j l • at_ v [i, j] := by
  obtain ⟨s0, -, -, g0, c0, r0⟩ := h0
  obtain ⟨s1, -, -, g1, c1, r1⟩ := h1
  have k0 := good_mapAx g0 sp.base0.lenSpec 0 hv.2.2
  have k1 := good_mapAx g1 sp.base1.lenSpec 1 k0.2.2
  refine ⟨s0, s1, _, sp.fromOrtho_eq c0 c1 hv, k1, fun k hk l hl => ?_⟩
  exact tensor2 (⟨c0.len, fun u hu => r0 u hu k hk⟩ :
      FLaw g0 sp.base0.lenOrth sp.base0.lenSpec _ _) (⟨c1.len, fun u hu => r1 u hu l hl⟩ :
      FLaw g1 sp.base1.lenOrth sp.base1.lenSpec _ _)
      (a := v) hv.2.2

end

section
variable {P I S T : Type} [AddCommMonoid P] [AddCommMonoid I] [AddCommMonoid S] [Zero T]
  (sp : Space2 P I S T)

/-- `backward(v)` evaluates the series with coefficients `v` at the points of the tensor grid
`coords()`. -/
theorem C54_space2_backward {E0 : ℕ → ℝ → S → I} {E1 : ℕ → ℝ → I → P}
    (h0 : Evaluates sp.base0 E0) (h1 : Evaluates sp.base1 E1)
    {v : Arr S} (hv : Good v sp.shapeSpectral) :
    ∃ x y r, sp.coords = ok [x, y] ∧ x.length = sp.base0.lenPhys ∧ y.length = sp.base1.lenPhys ∧
      sp.backward v = ok r ∧ Good r sp.shapePhysical ∧
      ∀ p < sp.base0.lenPhys, ∀ q < sp.base1.lenPhys,
        at_ r [p, q] = ∑ j ∈ range sp.base1.lenSpec, E1 j (nth y q) (∑ i ∈ range sp.base0.lenSpec, E0 i (nth x p) (at_ v [i, j])) := by
  obtain ⟨x, g0, hx0, l0, c0, r0⟩ := h0
  obtain ⟨y, g1, hx1, l1, c1, r1⟩ := h1
  have k0 := good_mapAx g0 sp.base0.lenPhys 0 hv.2.2
  have k1 := good_mapAx g1 sp.base1.lenPhys 1 k0.2.2
  refine ⟨x, y, _, ?_, l0, l1, sp.backward_eq c0 c1 hv, k1, fun p hp q hq => ?_⟩
  · show (do let c0 ← sp.base0.coords
              let c1 ← sp.base1.coords
              pure [c0, c1]) = _
    rw [hx0, hx1]; rfl
  refine (at_mapAx (ax := 1) (m := sp.base1.lenPhys) (sh := [sp.base0.lenPhys, sp.base1.lenSpec]) k0.2.2 (inBounds2 hp hq)).trans ?_
  refine (r1 _ (by rw [laneAt_length, k0.2.2]; rfl) q hq).trans (Finset.sum_congr rfl (fun j hj => ?_))
  congr 1
  rw [nth_laneAt _ _ _ (by rw [k0.2.2]; exact Finset.mem_range.mp hj)]
  simp only [List.set_cons_succ, List.set_cons_zero]
  refine (at_mapAx (ax := 0) (m := sp.base0.lenPhys) (sh := [sp.base0.lenSpec, sp.base1.lenSpec]) hv.2.2 (inBounds2 hp (Finset.mem_range.mp hj))).trans ?_
  refine (r0 _ (by rw [laneAt_length, hv.2.2]; rfl) p hp).trans (Finset.sum_congr rfl (fun i hi => ?_))
  congr 1
  rw [nth_laneAt _ _ _ (by rw [hv.2.2]; exact Finset.mem_range.mp hi)]
  simp only [List.set_cons_zero]

end

/-! ### Space3 -/

section
variable {P I J S T R0 R1 R2 : Type} [Zero P] [Zero I] [Zero J] [Zero S] [AddCommGroup T] [Module ℝ T]
  [RCLike R0] [RCLike R1] [RCLike R2] [Module R0 T] [Module R1 T] [Module R2 T]
  [SMulCommClass ℝ R0 T] [SMulCommClass ℝ R1 T] [SMulCommClass ℝ R2 T] [SMulCommClass R0 R1 T] [SMulCommClass R0 R2 T] [SMulCommClass R1 R2 T]
  (sp : Space3 P I J S T)

/-- What `gradient` of Space3 computes: along the last axis it applies the derivative operator of
**base 1**, not of base 2; it runs only if the two have equally many coefficients. -/
theorem C40_gradient_uses_base1 {d0 d1 d2 : ℕ} {e0 φ0 : ℕ → ℝ → R0} {e1 φ1 : ℕ → ℝ → R1} {e2 φ2 : ℕ → ℝ → R2}
    (h0 : Differentiates sp.base0 d0 e0 φ0)
    (h1 : Differentiates sp.base1 d1 e1 φ1)
    (h2 : Differentiates sp.base1 d2 e2 φ2)
    (h21 : sp.base2.lenSpec = sp.base1.lenSpec)
    {v : Arr T} (hv : Good v sp.shapeSpectral) {scale : Option (ℝ × ℝ × ℝ)}
    (hsc : scale ≠ none → d0 < 2 ^ 31 ∧ d1 < 2 ^ 31 ∧ d2 < 2 ^ 31) (hne : scale3 d0 d1 d2 scale ≠ 0) :
    ∃ r, sp.gradient v d0 d1 d2 scale = ok r ∧ Good r [sp.base0.lenOrth, sp.base1.lenOrth, sp.base1.lenOrth] ∧
      ∀ x y z : ℝ,
        ∑ k ∈ range sp.base0.lenOrth, ∑ l ∈ range sp.base1.lenOrth, ∑ q ∈ range sp.base1.lenOrth, e0 k x • e1 l y • e2 q z • at_ r [k, l, q]
          = (scale3 d0 d1 d2 scale)⁻¹ • ∑ i ∈ range sp.base0.lenSpec, ∑ j ∈ range sp.base1.lenSpec, ∑ t ∈ range sp.base2.lenSpec, iteratedDeriv d0 (φ0 i) x • iteratedDeriv d1 (φ1 j) y • iteratedDeriv d2 (φ2 t) z • at_ v [i, j, t] := by
  obtain ⟨g0, c0, r0⟩ := h0
  obtain ⟨g1, c1, r1⟩ := h1
  obtain ⟨g2, c2, r2⟩ := h2
  have k0 := good_mapAx g0 sp.base0.lenOrth 0 hv.2.2
  have k1 := good_mapAx g1 sp.base1.lenOrth 1 k0.2.2
  have k2 := good_mapAx g2 sp.base1.lenOrth 2 k1.2.2
  refine ⟨_, sp.gradient_eq c0 c1 c2 h21 hv hsc hne, good_scaleArr k2, fun x y z => ?_⟩
  have key := tensor3 (⟨c0.len, fun u hu => r0 u hu x⟩ :
      FLaw g0 sp.base0.lenSpec sp.base0.lenOrth (fun k => e0 k x) (fun k => iteratedDeriv d0 (φ0 k) x)) (⟨c1.len, fun u hu => r1 u hu y⟩ :
      FLaw g1 sp.base1.lenSpec sp.base1.lenOrth (fun k => e1 k y) (fun k => iteratedDeriv d1 (φ1 k) y)) (⟨c2.len, fun u hu => r2 u hu z⟩ :
      FLaw g2 sp.base1.lenSpec sp.base1.lenOrth (fun k => e2 k z) (fun k => iteratedDeriv d2 (φ2 k) z))
      (a := v) (by rw [hv.2.2, Space3.shapeSpectral, h21])
  simp only [at_scaleArr]
  rw [h21]; rw [← key]; simp only [Finset.smul_sum]
  refine Finset.sum_congr rfl (fun k _ => Finset.sum_congr rfl (fun l _ => Finset.sum_congr rfl (fun q _ => ?_)))
  rw [smul_comm (scale3 d0 d1 d2 scale)⁻¹ (e0 k x), smul_comm (scale3 d0 d1 d2 scale)⁻¹ (e1 l y), smul_comm (scale3 d0 d1 d2 scale)⁻¹ (e2 q z)]

end

section
variable {P I J S T : Type} [Zero P] [Zero I] [Zero J] [Zero S] [AddCommGroup T] [Module ℝ T]
  (sp : Space3 P I J S T)

/-- `to_ortho` multiplies by the matrix `stencil(i)` along every axis `i`. -/
theorem C53_space3_to_ortho {S0 S1 S2 : Mat ℝ} (h0 : ExpandsBy sp.base0 S0) (h1 : ExpandsBy sp.base1 S1) (h2 : ExpandsBy sp.base2 S2)
    {v : Arr T} (hv : Good v sp.shapeSpectral) :
    sp.stencil 0 = ok S0 ∧ sp.stencil 1 = ok S1 ∧ sp.stencil 2 = ok S2 ∧
    ∃ r, sp.toOrtho v = ok r ∧ Good r sp.shapeSpectralOrtho ∧
      ∀ k < sp.base0.lenOrth, ∀ l < sp.base1.lenOrth, ∀ q < sp.base2.lenOrth,
        at_ r [k, l, q]
          = ∑ i ∈ range sp.base0.lenSpec, ∑ j ∈ range sp.base1.lenSpec, ∑ t ∈ range sp.base2.lenSpec, S0.get k i • S1.get l j • S2.get q t • at_ v [i, j, t] := by
  obtain ⟨s0, -, -, g0, c0, r0⟩ := h0
  obtain ⟨s1, -, -, g1, c1, r1⟩ := h1
  obtain ⟨s2, -, -, g2, c2, r2⟩ := h2
  have k0 := good_mapAx g0 sp.base0.lenOrth 0 hv.2.2
  have k1 := good_mapAx g1 sp.base1.lenOrth 1 k0.2.2
  have k2 := good_mapAx g2 sp.base2.lenOrth 2 k1.2.2
  refine ⟨s0, s1, s2, _, sp.toOrtho_eq c0 c1 c2 hv, k2, fun k hk l hl q hq => ?_⟩
  have key := tensor3 (FLaw.pick c0.len hk (fun u hu => r0 u hu k hk) :
      FLaw g0 sp.base0.lenSpec sp.base0.lenOrth (fun p => if p = k then (1 : ℝ) else 0) (fun p => S0.get k p)) (FLaw.pick c1.len hl (fun u hu => r1 u hu l hl) :
      FLaw g1 sp.base1.lenSpec sp.base1.lenOrth (fun p => if p = l then (1 : ℝ) else 0) (fun p => S1.get l p)) (FLaw.pick c2.len hq (fun u hu => r2 u hu q hq) :
      FLaw g2 sp.base2.lenSpec sp.base2.lenOrth (fun p => if p = q then (1 : ℝ) else 0) (fun p => S2.get q p))
      (a := v) hv.2.2
  rw [← key]
  symm
  refine (Finset.sum_eq_single_of_mem k (Finset.mem_range.mpr hk) (fun p _ hp => by
    simp only [if_neg hp, zero_smul, smul_zero, Finset.sum_const_zero])).trans ?_
  refine (Finset.sum_eq_single_of_mem l (Finset.mem_range.mpr hl) (fun p _ hp => by
    simp only [if_neg hp, zero_smul, smul_zero, Finset.sum_const_zero])).trans ?_
  refine (Finset.sum_eq_single_of_mem q (Finset.mem_range.mpr hq) (fun p _ hp => by
    simp only [if_neg hp, zero_smul, smul_zero, Finset.sum_const_zero])).trans ?_
  simp only [if_true, one_smul]

/-- `from_ortho` returns the solution of the normal equations of the tensor product of the stencil
matrices (the least-squares projection onto the space). -/
theorem C55_space3_from_ortho {S0 S1 S2 : Mat ℝ} (h0 : ProjectsBy sp.base0 S0) (h1 : ProjectsBy sp.base1 S1) (h2 : ProjectsBy sp.base2 S2)
    {v : Arr T} (hv : Good v sp.shapeSpectralOrtho) :
    sp.stencil 0 = ok S0 ∧ sp.stencil 1 = ok S1 ∧ sp.stencil 2 = ok S2 ∧
    ∃ r, sp.fromOrtho v = ok r ∧ Good r sp.shapeSpectral ∧
      ∀ k < sp.base0.lenSpec, ∀ l < sp.base1.lenSpec, ∀ q < sp.base2.lenSpec,
        ∑ i ∈ range sp.base0.lenSpec, ∑ j ∈ range sp.base1.lenSpec, ∑ t ∈ range sp.base2.lenSpec, 
          (∑ p ∈ range sp.base0.lenOrth, S0.get p k * S0.get p i) • (∑ p ∈ range sp.base1.lenOrth, S1.get p l * S1.get p j) • (∑ p ∈ range sp.base2.lenOrth, S2.get p q * S2.get p t) • at_ r [i, j, t]
        = ∑ i ∈ range sp.base0.lenOrth, ∑ j ∈ range sp.base1.lenOrth, ∑ t ∈ range sp.base2.lenOrth, S0.get i k • S1.get j l • S2.get t q • at_ v [i, j, t] := by
  obtain ⟨s0, -, -, g0, c0, r0⟩ := h0
  obtain ⟨s1, -, -, g1, c1, r1⟩ := h1
  obtain ⟨s2, -, -, g2, c2, r2⟩ := h2
  have k0 := good_mapAx g0 sp.base0.lenSpec 0 hv.2.2
  have k1 := good_mapAx g1 sp.base1.lenSpec 1 k0.2.2
  have k2 := good_mapAx g2 sp.base2.lenSpec 2 k1.2.2
  refine ⟨s0, s1, s2, _, sp.fromOrtho_eq c0 c1 c2 hv, k2, fun k hk l hl q hq => ?_⟩
  exact tensor3 (⟨c0.len, fun u hu => r0 u hu k hk⟩ :
      FLaw g0 sp.base0.lenOrth sp.base0.lenSpec _ _) (⟨c1.len, fun u hu => r1 u hu l hl⟩ :
      FLaw g1 sp.base1.lenOrth sp.base1.lenSpec _ _) (⟨c2.len, fun u hu => r2 u hu q hq⟩ :
      FLaw g2 sp.base2.lenOrth sp.base2.lenSpec _ _)
      (a := v) hv.2.2

end

section
variable {P I J S T : Type} [AddCommMonoid P] [AddCommMonoid I] [AddCommMonoid J] [AddCommMonoid S] [Zero T]
  (sp : Space3 P I J S T)

/-- `backward(v)` evaluates the series with coefficients `v` at the points of the tensor grid
`coords()`. -/
theorem C54_space3_backward {E0 : ℕ → ℝ → S → J} {E1 : ℕ → ℝ → J → I} {E2 : ℕ → ℝ → I → P}
    (h0 : Evaluates sp.base0 E0) (h1 : Evaluates sp.base1 E1) (h2 : Evaluates sp.base2 E2)
    {v : Arr S} (hv : Good v sp.shapeSpectral) :
    ∃ x y z r, sp.coords = ok [x, y, z] ∧ x.length = sp.base0.lenPhys ∧ y.length = sp.base1.lenPhys ∧ z.length = sp.base2.lenPhys ∧
      sp.backward v = ok r ∧ Good r sp.shapePhysical ∧
      ∀ p < sp.base0.lenPhys, ∀ q < sp.base1.lenPhys, ∀ s < sp.base2.lenPhys,
        at_ r [p, q, s] = ∑ t ∈ range sp.base2.lenSpec, E2 t (nth z s) (∑ j ∈ range sp.base1.lenSpec, E1 j (nth y q) (∑ i ∈ range sp.base0.lenSpec, E0 i (nth x p) (at_ v [i, j, t]))) := by
  obtain ⟨x, g0, hx0, l0, c0, r0⟩ := h0
  obtain ⟨y, g1, hx1, l1, c1, r1⟩ := h1
  obtain ⟨z, g2, hx2, l2, c2, r2⟩ := h2
  have k0 := good_mapAx g0 sp.base0.lenPhys 0 hv.2.2
  have k1 := good_mapAx g1 sp.base1.lenPhys 1 k0.2.2
  have k2 := good_mapAx g2 sp.base2.lenPhys 2 k1.2.2
  refine ⟨x, y, z, _, ?_, l0, l1, l2, sp.backward_eq c0 c1 c2 hv, k2, fun p hp q hq s hs => ?_⟩
  · show (do let c0 ← sp.base0.coords
              let c1 ← sp.base1.coords
              let c2 ← sp.base2.coords
              pure [c0, c1, c2]) = _
    rw [hx0, hx1, hx2]; rfl
  refine (at_mapAx (ax := 2) (m := sp.base2.lenPhys) (sh := [sp.base0.lenPhys, sp.base1.lenPhys, sp.base2.lenSpec]) k1.2.2 (inBounds3 hp hq hs)).trans ?_
  refine (r2 _ (by rw [laneAt_length, k1.2.2]; rfl) s hs).trans (Finset.sum_congr rfl (fun t ht => ?_))
  congr 1
  rw [nth_laneAt _ _ _ (by rw [k1.2.2]; exact Finset.mem_range.mp ht)]
  simp only [List.set_cons_succ, List.set_cons_zero]
  refine (at_mapAx (ax := 1) (m := sp.base1.lenPhys) (sh := [sp.base0.lenPhys, sp.base1.lenSpec, sp.base2.lenSpec]) k0.2.2 (inBounds3 hp hq (Finset.mem_range.mp ht))).trans ?_
  refine (r1 _ (by rw [laneAt_length, k0.2.2]; rfl) q hq).trans (Finset.sum_congr rfl (fun j hj => ?_))
  congr 1
  rw [nth_laneAt _ _ _ (by rw [k0.2.2]; exact Finset.mem_range.mp hj)]
  simp only [List.set_cons_succ, List.set_cons_zero]
  refine (at_mapAx (ax := 0) (m := sp.base0.lenPhys) (sh := [sp.base0.lenSpec, sp.base1.lenSpec, sp.base2.lenSpec]) hv.2.2 (inBounds3 hp (Finset.mem_range.mp hj) (Finset.mem_range.mp ht))).trans ?_
  refine (r0 _ (by rw [laneAt_length, hv.2.2]; rfl) p hp).trans (Finset.sum_congr rfl (fun i hi => ?_))
  congr 1
  rw [nth_laneAt _ _ _ (by rw [hv.2.2]; exact Finset.mem_range.mp hi)]
  simp only [List.set_cons_zero]

end

end Verif.Props