/-
Supporting lemmas for the properties of the space operators.
-/
import Verif.Proof.Tensor
import Verif.Props.Spaces

namespace Verif
open Res Spec Finset

/-! ### the library bases run -/

theorem Spec.IsR2r.runs {T : Type} [CommRing T] [Module ℝ T] [SMulCommClass ℝ T T] {b : Base ℝ ℝ T}
    (h : IsR2r b) : Runs b :=
  ⟨LinOp.computes h.fwdLin, LinOp.computes h.bwdLin, LinOp.computes h.toLin, LinOp.computes h.fromLin⟩

theorem Spec.IsR2c.runs {n : ℕ} {b : Base ℝ ℂ ℂ} (h : IsR2c n b) : Runs b :=
  ⟨LinOp.computes h.fwdLin, LinOp.computes h.bwdLin, LinOp.computes h.toLin, LinOp.computes h.fromLin⟩

theorem Spec.IsC2c.runs {n : ℕ} {b : Base ℂ ℂ ℂ} (h : IsC2c n b) : Runs b :=
  ⟨LinOp.computes h.fwdLin, LinOp.computes h.bwdLin, LinOp.computes h.toLin, LinOp.computes h.fromLin⟩

/-! ### order of the axes -/

section
variable {R : Type} [CommRing R] {st : ℕ → Arr R → Res (Arr R)}

theorem order2 {g0 g1 : List R → List R} {n0 m0 n1 m1 : ℕ} (l0 : IsLinear R n0 g0)
    (k0 : ∀ x, x.length = n0 → (g0 x).length = m0) (l1 : IsLinear R n1 g1)
    (k1 : ∀ x, x.length = n1 → (g1 x).length = m1)
    (r0 : ∀ q x, Good x [n0, q] → st 0 x = ok (mapAx g0 m0 0 x))
    (r1 : ∀ p x, Good x [p, n1] → st 1 x = ok (mapAx g1 m1 1 x))
    {a : Arr R} (ha : Good a [n0, n1]) {σ : List ℕ} (hσ : σ.Perm [0, 1]) :
    inOrder st σ a = ok (mapAx g1 m1 1 (mapAx g0 m0 0 a)) := by
  have hp : σ ∈ [0, 1].permutations' := List.mem_permutations'.mpr hσ
  rw [show ([0, 1] : List ℕ).permutations' = [[0, 1], [1, 0]] by decide] at hp
  have c := Props.comm_good (ax := 1) (ax' := 0) (by decide) l1 k1 l0 k0 ha.2.2 (by decide : 1 < 2) (by decide : 0 < 2) rfl rfl
  simp only [List.mem_cons, List.not_mem_nil, or_false] at hp
  rcases hp with rfl | rfl
  · simp only [inOrder]
    rw [r0 _ _ ha, bind_ok, r1 _ _ (good_mapAx g0 m0 0 ha.2.2)]; rfl
  · simp only [inOrder]
    rw [r1 _ _ ha, bind_ok, r0 _ _ (good_mapAx g1 m1 1 ha.2.2), c]; rfl

theorem order3 {g0 g1 g2 : List R → List R} {n0 m0 n1 m1 n2 m2 : ℕ} (l0 : IsLinear R n0 g0)
    (k0 : ∀ x, x.length = n0 → (g0 x).length = m0) (l1 : IsLinear R n1 g1)
    (k1 : ∀ x, x.length = n1 → (g1 x).length = m1) (l2 : IsLinear R n2 g2)
    (k2 : ∀ x, x.length = n2 → (g2 x).length = m2)
    (r0 : ∀ p q x, Good x [n0, p, q] → st 0 x = ok (mapAx g0 m0 0 x))
    (r1 : ∀ p q x, Good x [p, n1, q] → st 1 x = ok (mapAx g1 m1 1 x))
    (r2 : ∀ p q x, Good x [p, q, n2] → st 2 x = ok (mapAx g2 m2 2 x))
    {a : Arr R} (ha : Good a [n0, n1, n2]) {σ : List ℕ} (hσ : σ.Perm [0, 1, 2]) :
    inOrder st σ a = ok (mapAx g2 m2 2 (mapAx g1 m1 1 (mapAx g0 m0 0 a))) := by
  have hp : σ ∈ [0, 1, 2].permutations' := List.mem_permutations'.mpr hσ
  rw [show ([0, 1, 2] : List ℕ).permutations'
    = [[0, 1, 2], [1, 0, 2], [1, 2, 0], [0, 2, 1], [2, 0, 1], [2, 1, 0]] by decide] at hp
  have c01 : ∀ q x, Good x [n0, n1, q] →
      mapAx g0 m0 0 (mapAx g1 m1 1 x) = mapAx g1 m1 1 (mapAx g0 m0 0 x) := fun q x hx =>
    Props.comm_good (ax := 1) (ax' := 0) (by decide) l1 k1 l0 k0 hx.2.2 (by decide : 1 < 3)
      (by decide : 0 < 3) rfl rfl
  have c02 : ∀ q x, Good x [n0, q, n2] →
      mapAx g0 m0 0 (mapAx g2 m2 2 x) = mapAx g2 m2 2 (mapAx g0 m0 0 x) := fun q x hx =>
    Props.comm_good (ax := 2) (ax' := 0) (by decide) l2 k2 l0 k0 hx.2.2 (by decide : 2 < 3)
      (by decide : 0 < 3) rfl rfl
  have c12 : ∀ q x, Good x [q, n1, n2] →
      mapAx g1 m1 1 (mapAx g2 m2 2 x) = mapAx g2 m2 2 (mapAx g1 m1 1 x) := fun q x hx =>
    Props.comm_good (ax := 2) (ax' := 1) (by decide) l2 k2 l1 k1 hx.2.2 (by decide : 2 < 3)
      (by decide : 1 < 3) rfl rfl
  have g0' : ∀ p q r x, Good x [p, q, r] → Good (mapAx g0 m0 0 x) [m0, q, r] :=
    fun p q r x hx => good_mapAx g0 m0 0 hx.2.2
  have g1' : ∀ p q r x, Good x [p, q, r] → Good (mapAx g1 m1 1 x) [p, m1, r] :=
    fun p q r x hx => good_mapAx g1 m1 1 hx.2.2
  have g2' : ∀ p q r x, Good x [p, q, r] → Good (mapAx g2 m2 2 x) [p, q, m2] :=
    fun p q r x hx => good_mapAx g2 m2 2 hx.2.2
  have b0 := g0' _ _ _ _ ha
  have b1 := g1' _ _ _ _ ha
  have b2 := g2' _ _ _ _ ha
  simp only [List.mem_cons, List.not_mem_nil, or_false] at hp
  rcases hp with rfl | rfl | rfl | rfl | rfl | rfl <;> simp only [inOrder]
  · rw [r0 _ _ _ ha, bind_ok, r1 _ _ _ b0, bind_ok, r2 _ _ _ (g1' _ _ _ _ b0)]; rfl
  · rw [r1 _ _ _ ha, bind_ok, r0 _ _ _ b1, bind_ok, r2 _ _ _ (g0' _ _ _ _ b1), c01 _ _ ha]; rfl
  · rw [r1 _ _ _ ha, bind_ok, r2 _ _ _ b1, bind_ok, r0 _ _ _ (g2' _ _ _ _ b1), c02 _ _ b1,
      c01 _ _ ha]; rfl
  · rw [r0 _ _ _ ha, bind_ok, r2 _ _ _ b0, bind_ok, r1 _ _ _ (g2' _ _ _ _ b0), c12 _ _ b0]; rfl
  · rw [r2 _ _ _ ha, bind_ok, r0 _ _ _ b2, bind_ok, r1 _ _ _ (g0' _ _ _ _ b2), c02 _ _ ha,
      c12 _ _ b0]; rfl
  · rw [r2 _ _ _ ha, bind_ok, r1 _ _ _ b2, bind_ok, r0 _ _ _ (g1' _ _ _ _ b2), c12 _ _ ha,
      c02 _ _ b1, c01 _ _ ha]; rfl

end

/-! ### expansion and projection matrices of the bases -/

section
variable {T : Type} [CommRing T] [Module ℝ T] [SMulCommClass ℝ T T]

theorem r2r_expandsBy {k : Option CKind} {n : ℕ} {b : BaseR2r} (hb : newR2r k n = ok b)
    (hm : RunsMul k) {S : Mat ℝ} (hS : (b.toBase T).stencil = ok S) : ExpandsBy (b.toBase T) S := by
  obtain ⟨g, hg⟩ := LinOp.computes (r2r_toOrtho_lin (R := ℝ) (T := T) hb hm)
  obtain ⟨S', hS', hr, hcs⟩ := r2r_stencil (T := T) hb
  obtain rfl : S = S' := by rw [hS] at hS'; simpa using hS'
  refine ⟨hS, hr, hcs, g, hg, fun v hv i hi => ?_⟩
  have key : g v = mulVec S v := by
    have e := (hg v (List.replicate (b.toBase T).lenOrth 0) hv (List.length_replicate ..)).1
    cases k with
    | none =>
      obtain ⟨hn, rfl⟩ := chebyshev_inv hb
      obtain rfl : S = Mat.eye n := by
        change ok (Mat.eye n) = ok S at hS
        simpa using hS.symm
      have e2 : Cheb.toOrthoSlice ⟨n, n⟩ v (List.replicate n 0) = ok v :=
        identity_slice _ _ (by rw [List.length_replicate]; exact hv)
      have : g v = v := by
        have := e.symm.trans e2
        simpa using this
      rw [this, mulVec_eye v n hv _ rfl rfl (fun i hi j hj => rfl)]
    | some k =>
      obtain ⟨c, hc, rfl⟩ := composite_inv hb
      obtain ⟨S', hS', h1⟩ := Props.C11_to_ortho_is_stencil k hm n c hc v
        (List.replicate c.lenOrth 0) hv (List.length_replicate ..)
      obtain rfl : S = S' := by
        change c.stencilMat = ok S at hS
        rw [hS] at hS'; simpa using hS'
      have := e.symm.trans h1
      simpa using this
  rw [key, nth_mulVec _ _ (by rw [hr]; exact hi), hcs]

theorem normal_of_mulVec (S : Mat ℝ) {n m : ℕ} (hr : S.rows = n) (hc : S.cols = m) (x : List T)
    (j : ℕ) : ∑ i ∈ range n, S.get i j • nth (mulVec S x) i
      = ∑ i ∈ range m, (∑ l ∈ range n, S.get l j * S.get l i) • nth x i := by
  subst hr; subst hc
  have e : ∀ i ∈ range S.rows, S.get i j • nth (mulVec S x) i
      = ∑ l ∈ range S.cols, (S.get i j * S.get i l) • nth x l := fun i hi => by
    rw [nth_mulVec _ _ (Finset.mem_range.mp hi), Finset.smul_sum]
    exact Finset.sum_congr rfl (fun l _ => smul_smul _ _ _)
  rw [Finset.sum_congr rfl e, Finset.sum_comm]
  exact Finset.sum_congr rfl (fun l _ => (Finset.sum_smul).symm)

theorem r2r_projectsBy {k : Option CKind} {n : ℕ} {b : BaseR2r} (hb : newR2r k n = ok b)
    (hs : RunsSolve k n) {S : Mat ℝ} (hS : (b.toBase T).stencil = ok S) :
    ProjectsBy (b.toBase T) S := by
  obtain ⟨g, hg⟩ := LinOp.computes (r2r_fromOrtho_lin (R := ℝ) (T := T) hb hs)
  obtain ⟨S', hS', hr, hcs⟩ := r2r_stencil (T := T) hb
  obtain rfl : S = S' := by rw [hS] at hS'; simpa using hS'
  refine ⟨hS, hr, hcs, g, hg, fun a ha j hj => ?_⟩
  rw [← normal_of_mulVec S hr hcs]
  have e := (hg a (List.replicate (b.toBase T).lenSpec 0) ha (List.length_replicate ..)).1
  cases k with
  | none =>
    obtain ⟨hn, rfl⟩ := chebyshev_inv hb
    obtain rfl : S = Mat.eye n := by
      change ok (Mat.eye n) = ok S at hS
      simpa using hS.symm
    have e2 : Cheb.fromOrthoSlice ⟨n, n⟩ a (List.replicate n 0) = ok a :=
      identity_slice _ _ (by rw [List.length_replicate]; exact ha)
    have : g a = a := by
      have := e.symm.trans e2
      simpa using this
    rw [this, mulVec_eye a n ha _ rfl rfl (fun i hi j hj => rfl)]
  | some k =>
    obtain ⟨c, hc, rfl⟩ := composite_inv hb
    obtain ⟨S', hS', h1⟩ := Props.C14_from_ortho_normal_equations k n c hc hs a
      (List.replicate c.lenSpec 0) ha (List.length_replicate ..)
    obtain rfl : S = S' := by
      change c.stencilMat = ok S at hS
      rw [hS] at hS'; simpa using hS'
    have hw := Compo.wf_of_new hc
    have ho2 : c.lenOrth = n := by simp [Compo.lenOrth, Cheb.lenOrth, hw.ortho]
    have := ((h1 (g a)).mp e).2 j hj
    change ∑ i ∈ range c.lenOrth, S.get i j • nth (mulVec S (g a)) i
      = ∑ i ∈ range c.lenOrth, S.get i j • nth a i
    rw [ho2]
    exact this

end

theorem eye_expandsBy {P S' : Type} {b : Base P S' ℂ} {n : ℕ} (hS : b.stencil = ok (Mat.eye n))
    (ho : b.lenOrth = n) (hs : b.lenSpec = n)
    (hi : ∀ x out : List ℂ, x.length = n → out.length = n → b.toOrthoSlice x out = ok x) :
    ExpandsBy b (Mat.eye n) := by
  refine ⟨hS, ho.symm, hs.symm, id, fun x out h1 h2 => ⟨hi x out (by omega) (by omega), by
    show x.length = _; omega⟩, fun v hv i hi => ?_⟩
  have := nth_mulVec (Mat.eye n : Mat ℝ) v (i := i) (by show i < n; omega)
  rw [mulVec_eye v n (by omega) _ rfl rfl (fun i hi j hj => rfl)] at this
  rw [hs]
  exact this

theorem eye_projectsBy {P S' : Type} {b : Base P S' ℂ} {n : ℕ} (hS : b.stencil = ok (Mat.eye n))
    (ho : b.lenOrth = n) (hs : b.lenSpec = n)
    (hi : ∀ x out : List ℂ, x.length = n → out.length = n → b.fromOrthoSlice x out = ok x) :
    ProjectsBy b (Mat.eye n) := by
  refine ⟨hS, ho.symm, hs.symm, id, fun x out h1 h2 => ⟨hi x out (by omega) (by omega), by
    show x.length = _; omega⟩, fun v hv i hi => ?_⟩
  have := normal_of_mulVec (Mat.eye n : Mat ℝ) (n := n) (m := n) rfl rfl v i
  rw [mulVec_eye v n (by omega) _ rfl rfl (fun i hi j hj => rfl)] at this
  rw [hs, ho]
  exact this.symm

theorem r2c_expandsBy {n : ℕ} {b : Base ℝ ℂ ℂ} (h : IsR2c n b) {S : Mat ℝ} (hS : b.stencil = ok S) :
    ExpandsBy b S := by
  obtain ⟨hn, b0, hb, rfl⟩ := h
  obtain rfl := r2c_inv hb
  obtain rfl : S = Mat.eye (n / 2 + 1) := by
    change ok (Mat.eye (n / 2 + 1)) = ok S at hS
    simpa using hS.symm
  exact eye_expandsBy rfl rfl rfl (fun x out h1 h2 => identity_slice _ _ (by omega))

theorem c2c_expandsBy {n : ℕ} {b : Base ℂ ℂ ℂ} (h : IsC2c n b) {S : Mat ℝ} (hS : b.stencil = ok S) :
    ExpandsBy b S := by
  obtain ⟨hn, b0, hb, rfl⟩ := h
  obtain rfl := c2c_inv hb
  obtain rfl : S = Mat.eye n := by
    change ok (Mat.eye n) = ok S at hS
    simpa using hS.symm
  exact eye_expandsBy rfl rfl rfl (fun x out h1 h2 => identity_slice _ _ (by omega))

theorem r2c_projectsBy {n : ℕ} {b : Base ℝ ℂ ℂ} (h : IsR2c n b) {S : Mat ℝ} (hS : b.stencil = ok S) :
    ProjectsBy b S := by
  obtain ⟨hn, b0, hb, rfl⟩ := h
  obtain rfl := r2c_inv hb
  obtain rfl : S = Mat.eye (n / 2 + 1) := by
    change ok (Mat.eye (n / 2 + 1)) = ok S at hS
    simpa using hS.symm
  exact eye_projectsBy rfl rfl rfl (fun x out h1 h2 => identity_slice _ _ (by omega))

theorem c2c_projectsBy {n : ℕ} {b : Base ℂ ℂ ℂ} (h : IsC2c n b) {S : Mat ℝ} (hS : b.stencil = ok S) :
    ProjectsBy b S := by
  obtain ⟨hn, b0, hb, rfl⟩ := h
  obtain rfl := c2c_inv hb
  obtain rfl : S = Mat.eye n := by
    change ok (Mat.eye n) = ok S at hS
    simpa using hS.symm
  exact eye_projectsBy rfl rfl rfl (fun x out h1 h2 => identity_slice _ _ (by omega))

end Verif
