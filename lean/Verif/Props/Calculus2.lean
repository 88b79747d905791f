/-
Property C59 in two dimensions: differentiation of sampled functions with the spaces of the
examples, and the boundary conditions of the composite bases.
-/
import Verif.Props.Calculus
import Verif.Proof.Sampled
import Verif.Proof.FourSeries

namespace Verif.Props
open Res Spec Finset

/-- The boundary conditions of a real-to-real base, for a polynomial (`none`: `chebyshev`, which
has none). -/
def PolyBC : Option CKind → Polynomial ℝ → Prop
  | none, _ => True
  | some .dirichlet, p => p.eval 1 = 0 ∧ p.eval (-1) = 0
  | some .neumann, p => p.derivative.eval 1 = 0 ∧ p.derivative.eval (-1) = 0
  | some .dirichletNeumann, p => p.eval (-1) = 0 ∧ p.derivative.eval 1 = 0
  | some .biharmonicA, p => (p.eval 1 = 0 ∧ p.eval (-1) = 0) ∧
      p.derivative.eval 1 = 0 ∧ p.derivative.eval (-1) = 0
  | some .biharmonicB, p => (p.eval 1 = 0 ∧ p.eval (-1) = 0) ∧
      p.derivative.derivative.eval 1 = 0 ∧ p.derivative.derivative.eval (-1) = 0

theorem polyBC_iff (k : CKind) (a : List ℝ) :
    PolyBC (some k) (chebPoly ℝ a) ↔ SatisfiesBC ℝ k a := by
  cases k <;> simp only [PolyBC, SatisfiesBC, chebDeriv_eq_eval] <;> rfl

/-- A polynomial of degree `< n` that satisfies the boundary conditions is a combination of the
functions of the base. -/
theorem poly_span {T : Type} [AddCommGroup T] [Module ℝ T] {k : Option CKind} {n : ℕ} {b : BaseR2r}
    (hb : newR2r k n = ok b) {S : Mat ℝ}
    (hS : (b.toBase T).stencil = ok S) (p : Polynomial ℝ) (hp : p.degree < n) (hbc : PolyBC k p) :
    ∃ c : List ℝ, c.length = (b.toBase T).lenSpec ∧ ∀ d x,
      ∑ i ∈ range (b.toBase T).lenSpec, iteratedDeriv d (stencilFn S i) x * nth c i
        = (Polynomial.derivative^[d] p).eval x := by
  obtain ⟨S', hS', hr, hcs⟩ := r2r_stencil (T := T) hb
  obtain rfl : S = S' := by rw [hS] at hS'; exact Res.ok.inj hS'
  suffices h : ∃ c : List ℝ, c.length = (b.toBase T).lenSpec ∧ chebPoly ℝ (mulVec S c) = p by
    obtain ⟨c, hl, rfl⟩ := h
    refine ⟨c, hl, fun d x => ?_⟩
    rw [← chebDeriv_eq_eval]
    unfold chebDeriv
    rw [mulVec_length, ← hl]
    have := sum_mulVec S c (by rw [hl, hcs]) (fun k => iteratedDeriv d (chebFn k) x)
    simp only [iteratedDeriv_chebFn, smul_eq_mul] at this ⊢
    rw [this]
    refine Finset.sum_congr rfl (fun i _ => ?_)
    rw [iteratedDeriv_stencilFn]
    simp only [iteratedDeriv_chebFn]
  cases k with
  | none =>
    obtain ⟨hn, rfl⟩ := chebyshev_inv hb
    obtain ⟨x, a, -, -, hal, ha⟩ := cheb_forward_samples (cheb_new_ok hn) p hp (List.replicate n 0)
      (List.length_replicate ..)
    refine ⟨a, hal, ?_⟩
    obtain rfl : Mat.eye n = S := by
      have : (ok (Mat.eye n) : Res (Mat ℝ)) = ok S := hS
      exact Res.ok.inj this
    rw [mulVec_eye a n hal (Mat.eye n) rfl rfl (fun _ _ _ _ => rfl), ha]
  | some k =>
    obtain ⟨c, hc, rfl⟩ := composite_inv hb
    have hw := Compo.wf_of_new hc
    have hn : 2 ≤ n := le_trans (by cases k <;> decide) hw.le
    have ho2 : c.lenOrth = n := by simp [Compo.lenOrth, Cheb.lenOrth, hw.ortho]
    obtain ⟨x, a, -, -, hal, ha⟩ := cheb_forward_samples (cheb_new_ok hn) p hp (List.replicate n 0)
      (List.length_replicate ..)
    have hS2 : c.stencilMat = ok S := hS
    obtain ⟨S', hS', -, h2⟩ := C17_boundary_conditions (K := ℝ) (T := ℝ) k n c hc
    obtain rfl : S = S' := by rw [hS2] at hS'; exact Res.ok.inj hS'
    have hal' : a.length = n := hal
    obtain ⟨v, hv, hva⟩ := h2 a (by rw [ho2, hal']) ((polyBC_iff k a).mp (by rw [ha]; exact hbc))
    exact ⟨v, hv, by rw [hva, ha]⟩

/-- `∑ⱼ ∑ᵢ` of a separable coefficient array. -/
private theorem sep_sum {T : Type} [AddCommGroup T] [Module ℝ T] (N0 N1 R : ℕ) (μ : ℕ → T →ₗ[ℝ] ℝ)
    (ψ : ℕ → ℝ) (c : ℕ → List T) (d : ℕ → List ℝ) (f g : ℕ → ℝ) (v : ℕ → ℕ → T)
    (hv : ∀ i < N0, ∀ j < N1, v i j = ∑ r ∈ range R, nth (d r) j • nth (c r) i)
    (hf : ∀ r < R, ∑ i ∈ range N0, μ i (nth (c r) i) = f r)
    (hg : ∀ r < R, ∑ j ∈ range N1, ψ j * nth (d r) j = g r) :
    ∑ j ∈ range N1, ψ j * ∑ i ∈ range N0, μ i (v i j) = ∑ r ∈ range R, f r * g r := by
  have e : ∀ j ∈ range N1, ψ j * ∑ i ∈ range N0, μ i (v i j)
      = ∑ r ∈ range R, f r * (ψ j * nth (d r) j) := fun j hj => by
    have e2 : ∀ i ∈ range N0, μ i (v i j) = ∑ r ∈ range R, nth (d r) j * μ i (nth (c r) i) :=
      fun i hi => by
        rw [hv i (mem_range.mp hi) j (mem_range.mp hj), map_sum]
        exact Finset.sum_congr rfl (fun r _ => by rw [map_smul, smul_eq_mul])
    rw [Finset.sum_congr rfl e2, Finset.sum_comm, Finset.mul_sum]
    refine Finset.sum_congr rfl (fun r hr => ?_)
    rw [← Finset.mul_sum, hf r (mem_range.mp hr)]
    ring
  rw [Finset.sum_congr rfl e, Finset.sum_comm]
  refine Finset.sum_congr rfl (fun r hr => ?_)
  rw [← Finset.mul_sum, hg r (mem_range.mp hr)]

theorem good_ext2 {T : Type} [Zero T] {a b : Arr T} {n0 n1 : ℕ} (ha : Good a [n0, n1])
    (hb : Good b [n0, n1]) (h : ∀ p < n0, ∀ q < n1, at_ a [p, q] = at_ b [p, q]) : a = b := by
  rw [eq_mk2 ha, eq_mk2 hb]
  exact mk2_congr h

theorem eye_fn (n i : ℕ) (hi : i < n) : stencilFn (Mat.eye n) i = chebFn i := by
  funext x
  unfold stencilFn
  rw [show (Mat.eye n : Mat ℝ).rows = n from rfl, Finset.sum_eq_single i]
  · simp [Mat.eye]
  · intro k _ hk; simp [Mat.eye, hk]
  · intro h; simp at h; omega

/-- The orthogonal base of a real-to-real base evaluates Chebyshev series. -/
theorem cheb_eval {T : Type} [AddCommGroup T] [Module ℝ T] {n : ℕ} {b : BaseR2r}
    (hb : newR2r none n = ok b) : Evaluates (b.toBase T) (fun k x s => chebFn k x * s) := by
  obtain ⟨hn, rfl⟩ := chebyshev_inv hb
  obtain ⟨x, β, hx, hl, hc, he⟩ := r2r_evaluates (T := T) hb trivial (S := Mat.eye n) rfl
  refine ⟨x, β, hx, hl, hc, fun v hv j hj => (he v hv j hj).trans (Finset.sum_congr rfl (fun i hi => ?_))⟩
  dsimp only
  rw [eye_fn n i (Finset.mem_range.mp hi)]

theorem r2r_coords {T : Type} [AddCommGroup T] [Module ℝ T] {k : Option CKind} {n : ℕ}
    {b o : BaseR2r} (hb : newR2r k n = ok b) (ho : newR2r none n = ok o) :
    (b.toBase T).coords = (o.toBase T).coords ∧ (b.toBase T).lenPhys = n ∧ (o.toBase T).lenPhys = n ∧
      (o.toBase T).lenSpec = n ∧ (b.toBase T).lenOrth = n := by
  obtain ⟨hn, rfl⟩ := chebyshev_inv ho
  cases k with
  | none =>
    obtain ⟨-, rfl⟩ := chebyshev_inv hb
    exact ⟨rfl, rfl, rfl, rfl, rfl⟩
  | some k =>
    obtain ⟨c, hc, rfl⟩ := composite_inv hb
    have hw := Compo.wf_of_new hc
    refine ⟨?_, hw.n_eq, rfl, rfl, ?_⟩
    · show c.coords = Cheb.coords ⟨n, n⟩
      show chebNodes c.n = chebNodes n
      rw [hw.n_eq]
    · show c.lenOrth = n
      simp [Compo.lenOrth, Cheb.lenOrth, hw.ortho]

noncomputable def mulLin (s : ℝ) : ℝ →ₗ[ℝ] ℝ := s • LinearMap.id

theorem mulLin_apply (s u : ℝ) : mulLin s u = s * u := rfl

/-- C59 for all real-to-real bases in one dimension: let `p` be a polynomial of degree below the number
of points that satisfies the boundary conditions of the base.  `forward` of its samples, `gradient` of
order `d`, and `backward` of the corresponding Chebyshev base return the samples of the `d`-th
derivative of `p`. -/
theorem C59_composite (k : Option CKind) (n : ℕ) (b o : BaseR2r) (hb : newR2r k n = ok b)
    (hm : RunsMul k) (hs : RunsSolve k n) (hg : RunsGrad k n) (ho : chebyshev n = ok o)
    (p : Polynomial ℝ) (hp : p.degree < n) (hbc : PolyBC k p) (d : ℕ) (out out' out'' : List ℝ)
    (h : out.length = (b.toBase ℝ).lenSpec) (h' : out'.length = (b.toBase ℝ).lenOrth)
    (h'' : out''.length = (o.toBase ℝ).lenPhys) :
    ∃ x v g, (b.toBase ℝ).coords = ok x ∧ (o.toBase ℝ).coords = ok x ∧
      (b.toBase ℝ).forwardSlice (x.map p.eval) out = ok v ∧ (b.toBase ℝ).gradientSlice v out' d = ok g ∧
      (o.toBase ℝ).backwardSlice g out'' = ok (x.map (Polynomial.derivative^[d] p).eval) := by
  obtain ⟨S, hS, -⟩ := r2r_stencil (T := ℝ) hb
  obtain ⟨e, lp, lo, ls, lt⟩ := r2r_coords (T := ℝ) hb (o := o) ho
  obtain ⟨c, hcl, hc⟩ := poly_span (T := ℝ) hb hS p hp hbc
  obtain ⟨φ, β, hφ, hβ, hr⟩ := (show IsR2r (b.toBase ℝ) from ⟨k, n, b, hb, hm, hs, rfl⟩).fwdBwd
  obtain ⟨x, β', hx, hxl, hβ', he⟩ := r2r_evaluates (T := ℝ) hb hm hS
  obtain ⟨γ, hγ, hgr⟩ := r2r_differentiates (T := ℝ) hb hg d hS
  obtain ⟨x', β2, hx', hxl', hβ2, he2⟩ := cheb_eval (T := ℝ) (n := n) ho
  obtain rfl : x = x' := by rw [e, hx'] at hx; exact (Res.ok.inj hx).symm
  have hββ : β' c = β c := by
    have h1 := (hβ' c x hcl hxl).1
    rw [(hβ c x hcl hxl).1] at h1
    exact (Res.ok.inj h1).symm
  have hsam : β c = x.map p.eval := by
    refine ext_nth (by rw [(hβ c x hcl hxl).2, List.length_map, hxl]) (fun j hj => ?_)
    have hj' : j < (b.toBase ℝ).lenPhys := by rw [← (hβ c x hcl hxl).2]; exact hj
    rw [← hββ, he c hcl j hj', nth_map _ _ _ (by rw [hxl]; exact hj')]
    exact hc 0 _
  refine ⟨x, c, γ c, hx, hx', ?_, (hγ c out' hcl h').1, ?_⟩
  · have h1 := (hφ (β c) out (hβ c x hcl hxl).2 h).1
    rw [hr c hcl, hsam] at h1
    exact h1
  · have hgl : (γ c).length = (o.toBase ℝ).lenSpec := by rw [(hγ c out' hcl h').2, lt, ls]
    obtain ⟨h1, h2⟩ := hβ2 (γ c) out'' hgl h''
    rw [h1]
    congr 1
    refine ext_nth (by rw [h2, List.length_map, hxl']) (fun j hj => ?_)
    rw [h2] at hj
    rw [he2 (γ c) hgl j hj, nth_map _ _ _ (by rw [hxl']; exact hj), ← hc d (nth x j)]
    have := hgr c hcl (nth x j)
    simp only [smul_eq_mul] at this
    rw [← this, ls, lt]

/-- `1 - x²` in the Dirichlet base on eight points -/
example : ∃ b o, newR2r (some .dirichlet) 8 = ok b ∧ RunsMul (some .dirichlet) ∧
    RunsSolve (some .dirichlet) 8 ∧ RunsGrad (some .dirichlet) 8 ∧ chebyshev 8 = ok o ∧
    PolyBC (some .dirichlet) (1 - Polynomial.X ^ 2 : Polynomial ℝ) := by
  obtain ⟨b, hb⟩ := newR2r_exists (some .dirichlet) 8 (by norm_num) (by rintro c ⟨⟩; decide)
  obtain ⟨o, ho⟩ := newR2r_exists none 8 (by norm_num) (by rintro c ⟨⟩)
  exact ⟨b, o, hb, Or.inl rfl, by show (5 : ℕ) ≤ 8; norm_num, Or.inl rfl, ho, by simp [PolyBC]⟩

/-- C59 for BaseR2r×BaseR2r: let `f(x,y) = ∑ᵣ Pᵣ(x) Qᵣ(y)` be a polynomial of degree below the
number of points in each variable that satisfies the boundary conditions of the two bases. Sample
it on the grid; `forward`, `gradient` with orders `d0, d1` and optional scales, and `backward` of
the corresponding Chebyshev space return the samples of `∂ₓ^d0 ∂ᵧ^d1 f`, divided by the scales. -/
theorem C59_space2_r2r (k0 k1 : Option CKind) (n0 n1 : ℕ) (b0 b1 o0 o1 : BaseR2r)
    (hb0 : newR2r k0 n0 = ok b0) (hm0 : RunsMul k0) (hs0 : RunsSolve k0 n0) (hg0 : RunsGrad k0 n0)
    (hb1 : newR2r k1 n1 = ok b1) (hm1 : RunsMul k1) (hs1 : RunsSolve k1 n1) (hg1 : RunsGrad k1 n1)
    (ho0 : chebyshev n0 = ok o0) (ho1 : chebyshev n1 = ok o1)
    (R : ℕ) (P Q : ℕ → Polynomial ℝ)
    (hP : ∀ r < R, (P r).degree < n0 ∧ PolyBC k0 (P r))
    (hQ : ∀ r < R, (Q r).degree < n1 ∧ PolyBC k1 (Q r))
    (d0 d1 : ℕ) (scale : Option (ℝ × ℝ)) (hsc : scale ≠ none → d0 < 2 ^ 31 ∧ d1 < 2 ^ 31)
    (hne : scale2 d0 d1 scale ≠ 0) :
    let sp : Space2 ℝ ℝ ℝ ℝ := ⟨b0.toBase ℝ, b1.toBase ℝ⟩
    let so : Space2 ℝ ℝ ℝ ℝ := ⟨o0.toBase ℝ, o1.toBase ℝ⟩
    ∃ x y, sp.coords = ok [x, y] ∧ so.coords = ok [x, y] ∧ ∀ X : Arr ℝ, Good X [n0, n1] →
      (∀ p < n0, ∀ q < n1, at_ X [p, q]
        = ∑ r ∈ range R, (P r).eval (nth x p) * (Q r).eval (nth y q)) →
      ∃ v g w, sp.forward X = ok v ∧ sp.gradient v d0 d1 scale = ok g ∧ so.backward g = ok w ∧
        Good w [n0, n1] ∧ ∀ p < n0, ∀ q < n1, at_ w [p, q] = (scale2 d0 d1 scale)⁻¹ *
          ∑ r ∈ range R, (Polynomial.derivative^[d0] (P r)).eval (nth x p)
            * (Polynomial.derivative^[d1] (Q r)).eval (nth y q) := by
  intro sp so
  obtain ⟨S0, hS0, -⟩ := r2r_stencil (T := ℝ) hb0
  obtain ⟨S1, hS1, -⟩ := r2r_stencil (T := ℝ) hb1
  obtain ⟨e0, lp0, lo0, ls0, lt0⟩ := r2r_coords (T := ℝ) hb0 (o := o0) ho0
  obtain ⟨e1, lp1, lo1, ls1, lt1⟩ := r2r_coords (T := ℝ) hb1 (o := o1) ho1
  choose! c hcl hc using fun r (hr : r < R) =>
    poly_span (T := ℝ) hb0 hS0 (P r) (hP r hr).1 (hP r hr).2
  choose! d hdl hd using fun r (hr : r < R) =>
    poly_span (T := ℝ) hb1 hS1 (Q r) (hQ r hr).1 (hQ r hr).2
  set v : Arr ℝ := mk2 (b0.toBase ℝ).lenSpec (b1.toBase ℝ).lenSpec
    (fun i j => ∑ r ∈ range R, nth (d r) j • nth (c r) i) with hv
  have hvG : Good v sp.shapeSpectral := good_mk2 ..
  have hva : ∀ i < (b0.toBase ℝ).lenSpec, ∀ j < (b1.toBase ℝ).lenSpec,
      at_ v [i, j] = ∑ r ∈ range R, nth (d r) j • nth (c r) i := fun i hi j hj => at_mk2 _ hi hj
  obtain ⟨X', hX', -, hXG, hfw, -⟩ := C36_forward_backward_r2r_r2r sp ⟨k0, n0, b0, hb0, hm0, hs0, rfl⟩
    ⟨k1, n1, b1, hb1, hm1, hs1, rfl⟩ hvG (good_mk2 (T := ℝ) _ _ (fun _ _ => 0)) hvG
  obtain ⟨x, y, X2, hxy, -, -, hX2, -, hXe⟩ := C54_space2_backward sp
    (r2r_evaluates (T := ℝ) hb0 hm0 hS0) (r2r_evaluates (T := ℝ) hb1 hm1 hS1) hvG
  obtain rfl : X2 = X' := by rw [hX2] at hX'; exact Res.ok.inj hX'
  obtain ⟨x', y', g, w, hxy', hg, hw, hwG, hwe⟩ := sampled2 sp so (d0 := d0) (d1 := d1)
    (ℓ := fun k x => mulLin (chebFn k x))
    (μ' := fun i x => mulLin (iteratedDeriv d0 (stencilFn S0 i) x))
    (e := chebFn) (ψ := stencilFn S1) (ls0.trans lt0.symm) (ls1.trans lt1.symm)
    (cheb_eval (T := ℝ) (n := n0) ho0)
    (by
      obtain ⟨g, h1, h2⟩ := r2r_differentiates (T := ℝ) hb0 hg0 d0 hS0
      exact ⟨g, h1, fun v hv x => by simpa only [mulLin_apply, smul_eq_mul] using h2 v hv x⟩) (cheb_eval (n := n1) ho1)
    (r2r_differentiates hb1 hg1 d1 hS1) hvG hsc hne
  have hcs : sp.coords = so.coords := by
    show (do let c0 ← (b0.toBase ℝ).coords
             let c1 ← (b1.toBase ℝ).coords
             pure [c0, c1]) = (do let c0 ← (o0.toBase ℝ).coords
                                  let c1 ← (o1.toBase ℝ).coords
                                  pure [c0, c1])
    rw [e0, e1]
  rw [← hcs, hxy] at hxy'
  obtain ⟨rfl, h⟩ := List.cons.inj (Res.ok.inj hxy')
  obtain ⟨rfl, -⟩ := List.cons.inj h
  have hsp : sp.shapePhysical = [n0, n1] := by
    show [(b0.toBase ℝ).lenPhys, (b1.toBase ℝ).lenPhys] = _
    rw [lp0, lp1]
  have hso : so.shapePhysical = [n0, n1] := by
    show [(o0.toBase ℝ).lenPhys, (o1.toBase ℝ).lenPhys] = _
    rw [lo0, lo1]
  refine ⟨x, y, hxy, hcs ▸ hxy, fun X hX hXs => ?_⟩
  obtain rfl : X = X2 := by
    refine good_ext2 hX (hsp ▸ hXG) (fun p hp q hq => ?_)
    rw [hXs p hp q hq, hXe p (lt_of_lt_of_eq hp lp0.symm) q (lt_of_lt_of_eq hq lp1.symm)]
    refine (sep_sum _ _ R (fun i => mulLin (stencilFn S0 i (nth x p)))
      (fun j => stencilFn S1 j (nth y q)) c d _ _ _ hva (fun r hr => ?_) (fun r hr => ?_)).symm
    · exact hc r hr 0 (nth x p)
    · exact hd r hr 0 (nth y q)
  refine ⟨v, g, w, hfw, hg, hw, hso ▸ hwG, fun p hp q hq => ?_⟩
  rw [hwe p (lt_of_lt_of_eq hp lo0.symm) q (lt_of_lt_of_eq hq lo1.symm)]
  congr 1
  refine sep_sum _ _ R _ (fun j => iteratedDeriv d1 (stencilFn S1 j) (nth y q)) c d _ _ _ hva
    (fun r hr => ?_) (fun r hr => ?_)
  · exact hc r hr d0 (nth x p)
  · exact hd r hr d1 (nth y q)

/-- `f(x,y) = (1 - x²) y` in Dirichlet×Chebyshev -/
example : (1 - Polynomial.X ^ 2 : Polynomial ℝ).degree < (8 : ℕ) ∧
    PolyBC (some .dirichlet) (1 - Polynomial.X ^ 2 : Polynomial ℝ) ∧
    (Polynomial.X : Polynomial ℝ).degree < (6 : ℕ) ∧ PolyBC none (Polynomial.X : Polynomial ℝ) := by
  refine ⟨?_, by simp [PolyBC], ?_, trivial⟩
  · refine lt_of_le_of_lt (Polynomial.degree_sub_le _ _) ?_
    rw [Polynomial.degree_one, Polynomial.degree_X_pow]
    decide
  · rw [Polynomial.degree_X]; decide

/-- The coefficients of a trigonometric polynomial. -/
theorem trig_span (n M : ℕ) (hn : 1 ≤ n) (hM : 2 * M ≤ n) (A B : ℕ → ℝ) (hB : 2 * M = n → B M = 0) :
    ∃ c : List ℂ, c.length = n / 2 + 1 ∧ (nth c 0).im = 0 ∧ (n % 2 = 0 → (nth c (n / 2)).im = 0) ∧
      ∀ d x, ∑ i ∈ range (n / 2 + 1), r2cTerm n i x ((Complex.I * i) ^ d * nth c i)
        = iteratedDeriv d (trigPoly M A B) x := by
  set A' : ℕ → ℝ := fun m => if m ≤ M then A m else 0 with hA'
  set B' : ℕ → ℝ := fun m => if m ≤ M ∧ m ≠ 0 then B m else 0 with hB'
  set c : List ℂ := (List.range (n / 2 + 1)).map (fun m : ℕ =>
      ⟨n / (if m = 0 ∨ 2 * m = n then 1 else 2) * A' m,
          -(n / (if m = 0 ∨ 2 * m = n then 1 else 2) * B' m)⟩) with hc
  have hcm : ∀ m ≤ n / 2, nth c m = ⟨n / (if m = 0 ∨ 2 * m = n then 1 else 2) * A' m,
          -(n / (if m = 0 ∨ 2 * m = n then 1 else 2) * B' m)⟩ := fun m hm => nth_map_range _ _ _ (by omega)
  have hB0 : B' 0 = 0 := if_neg (by omega)
  have hBN : 2 * (n / 2) = n → B' (n / 2) = 0 := fun h => by
    simp only [hB']
    split
    · next h1 =>
      have h2 : n / 2 = M := by omega
      rw [h2]; exact hB (by omega)
    · rfl
  have hf : trigR n c = trigPoly M A B := by
    rw [trigR_eq_trigPoly n hn A' B' hB0 hBN c hcm]
    funext x
    unfold trigPoly
    rw [← Finset.sum_subset (Finset.range_mono (show M + 1 ≤ n / 2 + 1 by omega))
      (fun m _ hm => by
        have h1 : ¬ m ≤ M := fun h => hm (Finset.mem_range.mpr (by omega))
        simp [hA', hB', h1])]
    refine Finset.sum_congr rfl (fun m hm => ?_)
    have h1 : m ≤ M := by have := Finset.mem_range.mp hm; omega
    by_cases h0 : m = 0
    · subst h0; simp [hA']
    · simp [hA', hB', h1, h0]
  refine ⟨c, by simp [hc], by rw [hcm 0 (by omega)]; simp [hB0], fun h => by
    rw [hcm _ le_rfl]; simp [hBN (by omega)], fun d x => ?_⟩
  rw [← hf, trigR_deriv n c ((List.range (n / 2 + 1)).map (fun j : ℕ => nth c j * (Complex.I * j) ^ d)) d
    (fun j hj => nth_map_range _ _ _ hj)]
  unfold trigR
  rw [Finset.mul_sum]
  clear_value c
  refine Finset.sum_congr rfl (fun i hi => ?_)
  rw [nth_map_range _ _ _ (Finset.mem_range.mp hi), mul_comm (nth c i)]
  rfl

/-- `r2cTerm` is real-linear in the coefficient. -/
noncomputable def r2cLin (n k : ℕ) (x : ℝ) : ℂ →ₗ[ℝ] ℝ where
  toFun := r2cTerm n k x
  map_add' a b := by unfold r2cTerm; rw [add_mul, Complex.add_re]; ring
  map_smul' s a := by
    unfold r2cTerm
    rw [smul_mul_assoc, Complex.smul_re, smul_eq_mul, smul_eq_mul, RingHom.id_apply]; ring

/-- `gradient` of the real-to-complex Fourier base differentiates the functions of the base. -/
theorem r2c_grad_functional {n0 : ℕ} {bx : Base ℝ ℂ ℂ} (hbx : IsR2c n0 bx) (d0 : ℕ) :
    ∃ g, Computes (fun v out => bx.gradientSlice v out d0) bx.lenSpec
      bx.lenOrth g ∧ ∀ v, v.length = bx.lenSpec → ∀ x : ℝ,
        ∑ k ∈ range bx.lenOrth, r2cLin n0 k x (nth (g v) k)
          = ∑ i ∈ range bx.lenSpec,
            ((r2cLin n0 i x).comp ((Complex.I * i) ^ d0 • LinearMap.id)) (nth v i) := by
  obtain ⟨φ, hφ⟩ := LinOp.computes (hbx.gradLin d0)
  obtain ⟨hn, b0, hb, rfl⟩ := hbx
  obtain rfl := r2c_inv hb
  refine ⟨φ, hφ, fun u hu x => Finset.sum_congr rfl (fun k hk => ?_)⟩
  have hk' : k < n0 / 2 + 1 := Finset.mem_range.mp hk
  have h1 := r2c_gradient_eq ⟨n0, n0 / 2 + 1⟩ u (List.replicate (n0 / 2 + 1) 0) d0 hu
    (List.length_replicate ..)
  have h2 : φ u = (List.range (n0 / 2 + 1)).map (fun j => nth u j * (Complex.I * j) ^ d0) := by
    have := (hφ u (List.replicate (n0 / 2 + 1) 0) hu (List.length_replicate ..)).1.symm.trans h1
    simpa using this
  rw [h2, nth_map_range _ _ _ hk', mul_comm]
  rfl

/-- C59 for BaseR2c×BaseR2r (the space of the documentation and of the Navier-Stokes examples): let
`f(x,y) = ∑ᵣ tᵣ(x) Qᵣ(y)`, `tᵣ` real trigonometric polynomials with frequencies up to `n0/2` (without
the sine of frequency `n0/2`, which vanishes on the grid) and `Qᵣ` polynomials of degree below `n1` with the boundary conditions of the second base. `forward`,
`gradient` and the `backward` of the space with the Chebyshev base return the samples of
`∂ₓ^d0 ∂ᵧ^d1 f`, divided by the scales. -/
theorem C59_space2_r2c_r2r (n0 M : ℕ) (hM : 2 * M ≤ n0) (bx : Base ℝ ℂ ℂ) (hbx : IsR2c n0 bx)
    (k1 : Option CKind) (n1 : ℕ) (b1 o1 : BaseR2r)
    (hb1 : newR2r k1 n1 = ok b1) (hm1 : RunsMul k1) (hs1 : RunsSolve k1 n1) (hg1 : RunsGrad k1 n1)
    (ho1 : chebyshev n1 = ok o1)
    (R : ℕ) (A B : ℕ → ℕ → ℝ) (hB : 2 * M = n0 → ∀ r < R, B r M = 0) (Q : ℕ → Polynomial ℝ)
    (hQ : ∀ r < R, (Q r).degree < n1 ∧ PolyBC k1 (Q r))
    (d0 d1 : ℕ) (scale : Option (ℝ × ℝ)) (hsc : scale ≠ none → d0 < 2 ^ 31 ∧ d1 < 2 ^ 31)
    (hne : scale2 d0 d1 scale ≠ 0) :
    let sp : Space2 ℝ ℝ ℂ ℂ := ⟨bx, b1.toBase ℂ⟩
    let so : Space2 ℝ ℝ ℂ ℂ := ⟨bx, o1.toBase ℂ⟩
    ∃ x y, sp.coords = ok [x, y] ∧ so.coords = ok [x, y] ∧ ∀ X : Arr ℝ, Good X [n0, n1] →
      (∀ p < n0, ∀ q < n1, at_ X [p, q]
        = ∑ r ∈ range R, trigPoly M (A r) (B r) (nth x p) * (Q r).eval (nth y q)) →
      ∃ v g w, sp.forward X = ok v ∧ sp.gradient v d0 d1 scale = ok g ∧ so.backward g = ok w ∧
        Good w [n0, n1] ∧ ∀ p < n0, ∀ q < n1, at_ w [p, q] = (scale2 d0 d1 scale)⁻¹ *
          ∑ r ∈ range R, iteratedDeriv d0 (trigPoly M (A r) (B r)) (nth x p)
            * (Polynomial.derivative^[d1] (Q r)).eval (nth y q) := by
  intro sp so
  obtain ⟨S1, hS1, -⟩ := r2r_stencil (T := ℂ) hb1
  obtain ⟨e1, lp1, lo1, ls1, lt1⟩ := r2r_coords (T := ℂ) hb1 (o := o1) ho1
  have hlen : bx.lenSpec = n0 / 2 + 1 ∧ bx.lenOrth = n0 / 2 + 1 ∧ bx.lenPhys = n0 := by
    obtain ⟨hn, b0, hb, rfl⟩ := hbx
    obtain rfl := r2c_inv hb
    exact ⟨rfl, rfl, rfl⟩
  obtain ⟨ls0, lt0, lp0⟩ := hlen
  choose! c hcl hc0 hcn hc using fun r (hr : r < R) =>
    trig_span n0 M hbx.1 hM (A r) (B r) (fun h => hB h r hr)
  choose! d hdl hd using fun r (hr : r < R) =>
    poly_span (T := ℂ) hb1 hS1 (Q r) (hQ r hr).1 (hQ r hr).2
  set v : Arr ℂ := mk2 bx.lenSpec (b1.toBase ℂ).lenSpec
    (fun i j => ∑ r ∈ range R, nth (d r) j • nth (c r) i) with hv
  have hvG : Good v sp.shapeSpectral := good_mk2 ..
  have hva : ∀ i < bx.lenSpec, ∀ j < (b1.toBase ℂ).lenSpec,
      at_ v [i, j] = ∑ r ∈ range R, nth (d r) j • nth (c r) i := fun i hi j hj => at_mk2 _ hi hj
  obtain ⟨X', hX', hXG, hfw⟩ := C36_forward_backward_r2c_r2r n0 sp hbx
    ⟨k1, n1, b1, hb1, hm1, hs1, rfl⟩ hvG
  have hfw := hfw.mpr (by
    intro idx hidx
    obtain ⟨i, j, rfl, hj⟩ : ∃ i j, idx = [i, j] ∧ j < (b1.toBase ℂ).lenSpec := by
      rw [hvG.2.2] at hidx
      cases hidx with
      | cons h1 h2 => cases h2 with
        | cons h3 h4 => cases h4 with
          | nil => exact ⟨_, _, rfl, h3⟩
    have him : ∀ s : ℝ, ∀ z : ℂ, (s • z).im = s * z.im := fun s z => by
      rw [Complex.smul_im, smul_eq_mul]
    refine ⟨?_, fun hev => ?_⟩
    · show (at_ v [0, j]).im = 0
      rw [hva 0 (by omega) j hj, Complex.im_sum]
      exact Finset.sum_eq_zero (fun r hr => by rw [him, hc0 r (mem_range.mp hr), mul_zero])
    · show (at_ v [n0 / 2, j]).im = 0
      rw [hva _ (by omega) j hj, Complex.im_sum]
      exact Finset.sum_eq_zero (fun r hr => by
        rw [him, hcn r (mem_range.mp hr) hev, mul_zero]))
  obtain ⟨x, y, X2, hxy, -, -, hX2, -, hXe⟩ := C54_space2_backward sp
    (r2c_evaluates hbx) (r2r_evaluates (T := ℂ) hb1 hm1 hS1) hvG
  obtain rfl : X2 = X' := by rw [hX2] at hX'; exact Res.ok.inj hX'
  have hgr := r2c_grad_functional hbx d0
  obtain ⟨x', y', g, w, hxy', hg, hw, hwG, hwe⟩ := sampled2 sp so (d0 := d0) (d1 := d1)
    (ℓ := fun k x => r2cLin n0 k x)
    (μ' := fun i x => (r2cLin n0 i x).comp ((Complex.I * i) ^ d0 • LinearMap.id))
    (e := chebFn) (ψ := stencilFn S1) (ls0.trans lt0.symm) (ls1.trans lt1.symm)
    (r2c_evaluates hbx) hgr (cheb_eval (n := n1) ho1)
    (r2r_differentiates hb1 hg1 d1 hS1) hvG hsc hne
  have hcs : sp.coords = so.coords := by
    show (do let c0 ← bx.coords
             let c1 ← (b1.toBase ℂ).coords
             pure [c0, c1]) = (do let c0 ← bx.coords
                                  let c1 ← (o1.toBase ℂ).coords
                                  pure [c0, c1])
    rw [e1]
  rw [← hcs, hxy] at hxy'
  obtain ⟨rfl, h⟩ := List.cons.inj (Res.ok.inj hxy')
  obtain ⟨rfl, -⟩ := List.cons.inj h
  have hsp : sp.shapePhysical = [n0, n1] := by
    show [bx.lenPhys, (b1.toBase ℂ).lenPhys] = _
    rw [lp0, lp1]
  have hso : so.shapePhysical = [n0, n1] := by
    show [bx.lenPhys, (o1.toBase ℂ).lenPhys] = _
    rw [lp0, lo1]
  refine ⟨x, y, hxy, hcs ▸ hxy, fun X hX hXs => ?_⟩
  obtain rfl : X = X2 := by
    refine good_ext2 hX (hsp ▸ hXG) (fun p hp q hq => ?_)
    rw [hXs p hp q hq, hXe p (lt_of_lt_of_eq hp lp0.symm) q (lt_of_lt_of_eq hq lp1.symm)]
    refine (sep_sum _ _ R (fun i => r2cLin n0 i (nth x p))
      (fun j => stencilFn S1 j (nth y q)) c d _ _ _ hva (fun r hr => ?_) (fun r hr => ?_)).symm
    · have := hc r hr 0 (nth x p)
      simp only [pow_zero, one_mul, iteratedDeriv_zero] at this
      show ∑ i ∈ range bx.lenSpec, _ = _
      rw [ls0]
      exact this
    · exact hd r hr 0 (nth y q)
  refine ⟨v, g, w, hfw, hg, hw, hso ▸ hwG, fun p hp q hq => ?_⟩
  rw [hwe p (lt_of_lt_of_eq hp lp0.symm) q (lt_of_lt_of_eq hq lo1.symm)]
  congr 1
  refine sep_sum _ _ R _ (fun j => iteratedDeriv d1 (stencilFn S1 j) (nth y q)) c d _ _ _ hva
    (fun r hr => ?_) (fun r hr => ?_)
  · show ∑ i ∈ range bx.lenSpec, _ = _
    rw [ls0]
    exact hc r hr d0 (nth x p)
  · exact hd r hr d1 (nth y q)

/-- the documented space: `fourier_r2c(16)` × `cheb_dirichlet(8)` -/
example : (∃ bx, IsR2c 16 bx) ∧ (∃ b1, newR2r (some .dirichlet) 8 = ok b1) ∧
    RunsMul (some .dirichlet) ∧ RunsSolve (some .dirichlet) 8 ∧ RunsGrad (some .dirichlet) 8 ∧
    ∃ o1, chebyshev 8 = ok o1 :=
  ⟨(isR2c_exists (n := 16) (by norm_num)).imp fun _ h => h.1, newR2r_exists (some .dirichlet) 8 (by norm_num)
    (by rintro c ⟨⟩; decide), Or.inl rfl, by show (5 : ℕ) ≤ 8; norm_num, Or.inl rfl,
    newR2r_exists none 8 (by norm_num) (by rintro c ⟨⟩)⟩

end Verif.Props
