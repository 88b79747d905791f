/-
Property C107 for the composite Chebyshev bases.
-/
import Verif.Props.Product
import Verif.Props.Calculus2

namespace Verif.Props
open Res Spec Finset Polynomial

/-- A stencil column does not depend on the size of the base, and has at most three entries. -/
private theorem mat_zero {k : CKind} (hk : k.nbc = 2) {i j N : ℕ} (hj : j + 2 < N) (hi : N ≤ i) :
    k.mat ℝ i j = 0 := by
  have e : k.off * 2 ≤ 2 ∨ (k.off = 2 ∧ ∀ t, k.hi ℝ t = 0) := by
    cases k <;> simp [CKind.off, CKind.hi, CKind.nbc] at hk ⊢
  unfold CKind.mat stMat
  rcases e with e | ⟨e, z⟩
  · rw [if_neg (show ¬ i = j by omega), if_neg (show ¬ i = j + k.off by omega),
      if_neg (show ¬ i = j + 2 * k.off by omega)]; simp
  · rw [if_neg (show ¬ i = j by omega), if_neg (show ¬ i = j + k.off by omega), z]; simp

private theorem toOrtho_resize (k : CKind)
    (hk : k = .dirichlet ∨ k = .neumann ∨ k = .dirichletNeumann) (n m : ℕ) (hnm : n ≤ m) (b B : Compo ℝ)
    (hb : Compo.new k n = ok b) (hB : Compo.new k m = ok B) (c : List ℝ) (hc : c.length = b.lenSpec)
    (out out' : List ℝ) (ho : out.length = b.lenOrth) (ho' : out'.length = B.lenOrth) :
    ∃ u, b.toOrthoSlice c out = ok u ∧ u.length = n ∧
      B.toOrthoSlice (resize B.lenSpec c) out' = ok (resize m u) := by
  have hk2 : k.nbc = 2 := by rcases hk with rfl | rfl | rfl <;> rfl
  have hw := Compo.wf_of_new hb
  have hW := Compo.wf_of_new hB
  have e1 : b.lenOrth = n := by simp [Compo.lenOrth, Cheb.lenOrth, hw.ortho]
  have e2 : B.lenOrth = m := by simp [Compo.lenOrth, Cheb.lenOrth, hW.ortho]
  have f1 := hw.m_add
  have f2 := hW.m_add
  have g1 : b.lenSpec = b.m := rfl
  have g2 : B.lenSpec = B.m := rfl
  obtain ⟨u, hu, hul, hui⟩ := wp_total.mp (Compo.wp_toOrtho hw hk2 c out hc (by omega))
  obtain ⟨w, hw', hwl, hwi⟩ := wp_total.mp (Compo.wp_toOrtho hW hk2 (resize B.lenSpec c) out'
    (by rw [resize_length, g2]) (by omega))
  refine ⟨u, hu, hul, ?_⟩
  rw [hw']
  congr 1
  refine ext_nth (by rw [hwl, resize_length]) fun i hi => ?_
  rw [hwi i (by omega), show nth (resize m u) i = nth u i by
    unfold resize; rw [nth_map_range _ _ _ (by omega)]]
  have e : ∀ j ∈ range B.m, k.mat ℝ i j • nth (resize B.lenSpec c) j = k.mat ℝ i j • nth c j := by
    intro j hj
    unfold resize; rw [nth_map_range _ _ _ (by rw [g2]; exact mem_range.mp hj)]
  rw [Finset.sum_congr rfl e]
  have hs : ∑ j ∈ range B.m, k.mat ℝ i j • nth c j = ∑ j ∈ range b.m, k.mat ℝ i j • nth c j := by
    refine (Finset.sum_subset (fun j hj => mem_range.mpr (by have := mem_range.mp hj; omega)) ?_).symm
    intro j _ hj
    rw [nth_of_le _ _ (by have := mt mem_range.mpr hj; omega), smul_zero]
  rw [hs]
  by_cases hin : i < n
  · rw [hui i hin]
  · rw [nth_of_le _ _ (by omega)]
    refine Finset.sum_eq_zero fun j hj => ?_
    have := mem_range.mp hj
    by_cases h2 : j + 2 < n
    · rw [mat_zero hk2 h2 (by omega), zero_smul]
    · omega

/-- C107: zeros appended to the coefficients of a composite base are the coefficients of the same function
in the larger base of the same kind: `to_ortho` commutes with the padding, `from_ortho` of the padded
orthogonal coefficients returns the padded coefficients, and `backward` evaluates the same polynomial on the
finer grid. -/
theorem C107_refine_compo (k : CKind)
    (hk : k = .dirichlet ∨ k = .neumann ∨ k = .dirichletNeumann) (n m : ℕ) (hnm : n ≤ m) (hm : k.minSolve ≤ m)
    (b B : Compo ℝ) (hb : Compo.new k n = ok b) (hB : Compo.new k m = ok B) (c : List ℝ)
    (hc : c.length = b.lenSpec) (out out' o1 o2 : List ℝ) (ho : out.length = b.lenOrth)
    (ho' : out'.length = B.lenOrth) (h1 : o1.length = B.lenSpec) (h2 : o2.length = B.lenPhys) :
    ∃ u, b.toOrthoSlice c out = ok u ∧ B.toOrthoSlice (resize B.lenSpec c) out' = ok (resize m u) ∧
      B.fromOrthoSlice (resize m u) o1 = ok (resize B.lenSpec c) ∧
      ∃ x v, B.coords = ok x ∧ B.backwardSlice (resize B.lenSpec c) o2 = ok v ∧ v.length = x.length ∧
        ∀ j < x.length, nth v j = (chebPoly ℝ u).eval (nth x j) := by
  obtain ⟨u, hu, hul, hU⟩ := toOrtho_resize k hk n m hnm b B hb hB c hc out out' ho ho'
  obtain ⟨S, x, v, hS, hx, hv, hvl, hxl, hvj⟩ := C21_backward_evaluates k hk m B hB (resize B.lenSpec c) o2
    (resize_length _ _) h2
  obtain ⟨S', hS', h3⟩ := C11_to_ortho_is_stencil k hk m B hB (resize B.lenSpec c) out' (resize_length _ _) ho'
  obtain rfl : S = S' := Res.ok.inj (hS.symm.trans hS')
  have hSr : mulVec S (resize B.lenSpec c) = resize m u := Res.ok.inj (h3.symm.trans hU)
  obtain ⟨S', hS', h4⟩ := C13_from_ortho_stencil k m B hB hm (resize B.lenSpec c) o1 (resize_length _ _) h1
  obtain rfl : S = S' := Res.ok.inj (hS.symm.trans hS')
  rw [hSr] at h4
  refine ⟨u, hu, hU, h4, x, v, hx, hv, by omega, fun j hj => ?_⟩
  rw [hvj j (by omega), hSr, chebPoly_resize u (by omega)]

/-- The functions with homogeneous Dirichlet, Neumann or Dirichlet-Neumann conditions are closed under
products. -/
private theorem polyBC_mul {k : CKind} (hk : k = .dirichlet ∨ k = .neumann ∨ k = .dirichletNeumann)
    {p q : ℝ[X]} (hp : PolyBC (some k) p) (hq : PolyBC (some k) q) : PolyBC (some k) (p * q) := by
  rcases hk with rfl | rfl | rfl <;> simp only [PolyBC] at hp hq ⊢ <;>
    simp [derivative_mul, eval_mul, hp.1, hp.2, hq.1, hq.2]

/-- C107: the product of two functions of a composite base of size `n`, taken point by point on the grid of
the same kind of base with `m ≥ 2 n - 1` points, and transformed by its `forward`, is exact: the coefficients
`p` are those of the product of the two polynomials, boundary conditions included. -/
theorem C107_product_compo (k : CKind)
    (hk : k = .dirichlet ∨ k = .neumann ∨ k = .dirichletNeumann) (n m : ℕ) (hnm : 2 * n - 1 ≤ m)
    (hm : k.minSolve ≤ m) (b B : Compo ℝ) (hb : Compo.new k n = ok b) (hB : Compo.new k m = ok B) (c d : List ℝ)
    (hc : c.length = b.lenSpec) (hd : d.length = b.lenSpec) (out out' o1 o2 : List ℝ) (ho : out.length = b.lenOrth)
    (ho' : out'.length = B.lenOrth) (h1 : o1.length = B.lenSpec) (h2 : o2.length = B.lenPhys) :
    ∃ e f u v p w, b.toOrthoSlice c out = ok e ∧ b.toOrthoSlice d out = ok f ∧
      B.backwardSlice (resize B.lenSpec c) o2 = ok u ∧ B.backwardSlice (resize B.lenSpec d) o2 = ok v ∧
      B.forwardSlice (pointwise u v) o1 = ok p ∧ p.length = B.lenSpec ∧
      B.toOrthoSlice p out' = ok w ∧ chebPoly ℝ w = chebPoly ℝ e * chebPoly ℝ f := by
  have hw := Compo.wf_of_new hb
  have hW := Compo.wf_of_new hB
  have e1 : b.lenOrth = n := by simp [Compo.lenOrth, Cheb.lenOrth, hw.ortho]
  have e2 : B.lenOrth = m := by simp [Compo.lenOrth, Cheb.lenOrth, hW.ortho]
  have hp : B.lenPhys = m := hW.n_eq
  have hn : 4 ≤ n := le_trans (by cases k <;> decide) hw.le
  obtain ⟨e, he, hel, hE⟩ := toOrtho_resize k hk n m (by omega) b B hb hB c hc out
    (List.replicate B.lenOrth 0) ho (by simp)
  obtain ⟨f, hf, hfl, hF⟩ := toOrtho_resize k hk n m (by omega) b B hb hB d hd out
    (List.replicate B.lenOrth 0) ho (by simp)
  obtain ⟨u, v, p, hu, hv, hpp, hpe⟩ := C107_product_cheb_exact n m hnm ⟨n, n⟩ ⟨m, m⟩
    (cheb_new_ok (by omega)) (cheb_new_ok (by omega)) e f hel hfl o2 (List.replicate B.lenOrth 0) (by rw [h2, hp]; rfl)
    (by rw [List.length_replicate, e2]; rfl)
  have hpl : p.length = m := by
    have hlen : ∀ q z, Cheb.backwardSlice ⟨m, m⟩ (resize m q) o2 = ok z → z.length = m := by
      intro q z hz
      obtain ⟨x, z', hx, hz', hl, -⟩ := C02_backward_evaluates m ⟨m, m⟩ (cheb_new_ok (by omega)) (resize m q) o2
        (resize_length _ _) (by rw [h2, hp]; rfl)
      obtain ⟨x', hx', hl', -⟩ := C01_coords m ⟨m, m⟩ (cheb_new_ok (by omega))
      obtain rfl := Res.ok.inj (hz.symm.trans hz')
      obtain rfl := Res.ok.inj (hx.symm.trans hx')
      rw [hl, hl']
    obtain ⟨p', hp', hl, -⟩ := wp_total.mp (wp_forwardSlice ⟨m, m⟩ m rfl (by omega) (pointwise u v)
      (List.replicate B.lenOrth 0) (by simp [pointwise, hlen e u hu, hlen f v hv]) (by simp [e2]))
    obtain rfl := Res.ok.inj (hpp.symm.trans hp')
    exact hl
  obtain ⟨S, hS, hbc1, hbc2⟩ := C17_boundary_conditions (K := ℝ) (T := ℝ) k m B hB
  have hbc : ∀ (q : List ℝ) (z : List ℝ), q.length = b.lenSpec → b.toOrthoSlice q out = ok z →
      PolyBC (some k) (chebPoly ℝ z) := by
    intro q z hq hz
    obtain ⟨S0, hS0, hb1, -⟩ := C17_boundary_conditions (K := ℝ) (T := ℝ) k n b hb
    obtain ⟨S', hS', h3⟩ := C11_to_ortho_is_stencil k hk n b hb q out hq ho
    obtain rfl : S0 = S' := Res.ok.inj (hS0.symm.trans hS')
    obtain rfl := Res.ok.inj (h3.symm.trans hz)
    exact (polyBC_iff k _).mpr (hb1 q)
  have hpBC : SatisfiesBC ℝ k p := by
    rw [← polyBC_iff, hpe]
    exact polyBC_mul hk (hbc c e hc he) (hbc d f hd hf)
  obtain ⟨y, hyl, hy⟩ := hbc2 p (by rw [hpl, e2]) hpBC
  obtain ⟨S', hS', h4⟩ := C13_from_ortho_stencil k m B hB hm y o1 hyl h1
  obtain rfl : S = S' := Res.ok.inj (hS.symm.trans hS')
  obtain ⟨S', hS', h5⟩ := C11_to_ortho_is_stencil k hk m B hB y out' hyl ho'
  obtain rfl : S = S' := Res.ok.inj (hS.symm.trans hS')
  rw [hy] at h4 h5
  refine ⟨e, f, u, v, y, p, he, hf, ?_, ?_, ?_, hyl, h5, hpe⟩
  · unfold Compo.backwardSlice; dsimp only; rw [hE, bind_ok, hW.ortho, hu]
  · unfold Compo.backwardSlice; dsimp only; rw [hF, bind_ok, hW.ortho, hv]
  · unfold Compo.forwardSlice; dsimp only; rw [hW.ortho, hpp, bind_ok, h4]

-- the hypotheses are met: bases of 6 and 11 points exist for all three kinds
example : ∀ k : CKind, k = .dirichlet ∨ k = .neumann ∨ k = .dirichletNeumann →
    2 * 6 - 1 ≤ 11 ∧ k.minSolve ≤ 11 ∧ (∃ b : Compo ℝ, Compo.new k 6 = ok b) ∧
      ∃ B : Compo ℝ, Compo.new k 11 = ok B := by
  intro k hk
  have h6 : k.minNew ≤ 6 ∧ k.minSolve ≤ 6 := by rcases hk with rfl | rfl | rfl <;> decide
  obtain ⟨b, hb, -⟩ := wp_total.mp (Compo.wp_new (K := ℝ) k 6 h6.1)
  obtain ⟨B, hB, -⟩ := wp_total.mp (Compo.wp_new (K := ℝ) k 11 (by omega))
  exact ⟨by omega, by omega, ⟨b, hb⟩, B, hB⟩

end Verif.Props
