/-
Property C119: the two-dimensional Poisson and Helmholtz solver converges with a rate for every smooth solution.
-/
import Verif.Proof.Rate2
import Verif.Props.Poisson2
import Verif.Props.Calculus2

namespace Verif.Props
open Res Spec Finset Polynomial

/-- forward transform of `chebyshev × chebyshev`: the coefficients of the interpolant -/
theorem forward2 {n n' : ℕ} {q q' : BaseR2r} (hq : newR2r none n = ok q) (hq' : newR2r none n' = ok q') {x y : List ℝ}
    (hx : (q.toBase ℝ).coords = ok x) (hy : (q'.toBase ℝ).coords = ok y) {G : Arr ℝ} (hG : Good G [n, n']) :
    ∃ f, (⟨q.toBase ℝ, q'.toBase ℝ⟩ : Space2 ℝ ℝ ℝ ℝ).forward G = ok f ∧ Good f [n, n'] ∧
      ∀ i < n, ∀ j < n', chebSum2 n n' (fun k l => at_ f [k, l]) (nth x i) (nth y j) = at_ G [i, j] := by
  obtain ⟨hn, rfl⟩ := chebyshev_inv hq
  obtain ⟨hn', rfl⟩ := chebyshev_inv hq'
  set so : Space2 ℝ ℝ ℝ ℝ := ⟨(BaseR2r.chebyshev ⟨n, n⟩).toBase ℝ, (BaseR2r.chebyshev ⟨n', n'⟩).toBase ℝ⟩ with hso
  obtain ⟨f, hf, -, hfg, hfb, -⟩ := C36_backward_forward so (cheb_bwdFwd hq) (cheb_bwdFwd hq') (x := G) (by exact hG)
    (out := mk2 n n' fun _ _ => 0) (good_mk2 _ _ _) (out' := mk2 n n' fun _ _ => 0) (good_mk2 _ _ _)
  obtain ⟨x', y', r, hc, -, -, hr, -, hat⟩ := C54_space2_backward so
    (r2r_evaluates (T := ℝ) hq trivial (S := Mat.eye n) rfl) (r2r_evaluates (T := ℝ) hq' trivial (S := Mat.eye n') rfl) hfg
  obtain rfl := Res.ok.inj (hfb.symm.trans hr)
  have hc2 : so.coords = ok [x, y] := by
    show (do let c0 ← so.base0.coords
             let c1 ← so.base1.coords
             pure [c0, c1]) = _
    rw [show so.base0.coords = ok x from hx, show so.base1.coords = ok y from hy]; rfl
  have e := Res.ok.inj (hc2.symm.trans hc)
  simp only [List.cons.injEq, and_true] at e
  obtain ⟨rfl, rfl⟩ := e
  refine ⟨f, hf, hfg, fun i hi j hj => ?_⟩
  rw [hat i hi j hj, chebSum2_snd]
  refine Finset.sum_congr rfl fun l hl => ?_
  rw [eye_fn n' l (mem_range.mp hl), mul_comm]
  congr 1
  refine Finset.sum_congr rfl fun k hk => ?_
  rw [eye_fn n k (mem_range.mp hk), mul_comm]

/-- backward transform of `cheb_dirichlet × cheb_dirichlet`: the values of the function -/
theorem backward2 {n n' : ℕ} {b b' : BaseR2r} (hb : newR2r (some .dirichlet) n = ok b) (hb' : newR2r (some .dirichlet) n' = ok b')
    {S S' : Mat ℝ} (hS : (b.toBase ℝ).stencil = ok S) (hS' : (b'.toBase ℝ).stencil = ok S') {x y : List ℝ}
    (hx : (b.toBase ℝ).coords = ok x) (hy : (b'.toBase ℝ).coords = ok y) {v : Arr ℝ}
    (hv : Good v [(b.toBase ℝ).lenSpec, (b'.toBase ℝ).lenSpec]) :
    ∃ w, (⟨b.toBase ℝ, b'.toBase ℝ⟩ : Space2 ℝ ℝ ℝ ℝ).backward v = ok w ∧ Good w [(b.toBase ℝ).lenPhys, (b'.toBase ℝ).lenPhys] ∧
      ∀ i < (b.toBase ℝ).lenPhys, ∀ j < (b'.toBase ℝ).lenPhys,
        at_ w [i, j] = fn2 S S' (coeffMat v (b.toBase ℝ).lenSpec (b'.toBase ℝ).lenSpec) (nth x i) (nth y j) := by
  set sp : Space2 ℝ ℝ ℝ ℝ := ⟨b.toBase ℝ, b'.toBase ℝ⟩ with hsp
  obtain ⟨x', y', r, hc, -, -, hr, hrg, hat⟩ := C54_space2_backward sp
    (r2r_evaluates (T := ℝ) hb (Or.inl rfl) hS) (r2r_evaluates (T := ℝ) hb' (Or.inl rfl) hS') hv
  have hc2 : sp.coords = ok [x, y] := by
    show (do let c0 ← sp.base0.coords
             let c1 ← sp.base1.coords
             pure [c0, c1]) = _
    rw [show sp.base0.coords = ok x from hx, show sp.base1.coords = ok y from hy]; rfl
  have e := Res.ok.inj (hc2.symm.trans hc)
  simp only [List.cons.injEq, and_true] at e
  obtain ⟨rfl, rfl⟩ := e
  refine ⟨r, hr, hrg, fun i hi j hj => ?_⟩
  rw [hat i hi j hj]
  unfold fn2
  obtain ⟨S₂, hS₂, -, hcs⟩ := r2r_stencil (T := ℝ) hb
  obtain rfl := Res.ok.inj (hS.symm.trans hS₂)
  obtain ⟨S₂, hS₂, -, hcs'⟩ := r2r_stencil (T := ℝ) hb'
  obtain rfl := Res.ok.inj (hS'.symm.trans hS₂)
  rw [hcs, hcs', Finset.sum_comm]
  refine Finset.sum_congr rfl fun l _ => ?_
  rw [Finset.mul_sum]
  refine Finset.sum_congr rfl fun k _ => ?_
  show _ = at_ v [k, l] * _
  ring

/-- bounds of the derivatives that control the interpolation error, uniform in the other variable -/
theorem bounds2 {p : ℕ} {Y : ℝ → ℝ → ℝ} (hY : ContDiff ℝ p (Function.uncurry Y)) :
    ∃ M, 0 ≤ M ∧ (∀ y ∈ Set.Icc (-1 : ℝ) 1, ∀ θ, |iteratedDeriv p (fun θ => Y (Real.cos θ) y) θ| ≤ M) ∧
      ∀ x ∈ Set.Icc (-1 : ℝ) 1, ∀ θ, |iteratedDeriv p (fun θ => Y x (Real.cos θ)) θ| ≤ M := by
  have key : ∀ Z : ℝ → ℝ → ℝ, ContDiff ℝ p (Function.uncurry Z) →
      ∃ M, 0 ≤ M ∧ ∀ t ∈ Set.Icc (-1 : ℝ) 1, ∀ θ, |iteratedDeriv p (fun θ => Z t (Real.cos θ)) θ| ≤ M := fun Z hZ => by
    have hH : ContDiff ℝ p (Function.uncurry fun t θ => Z t (Real.cos θ)) :=
      hZ.comp (contDiff_fst.prodMk (Real.contDiff_cos.comp contDiff_snd))
    obtain ⟨M, h0, hM⟩ := bound_iteratedDeriv_snd hH (-1) 1 0 (2 * Real.pi)
    refine ⟨M, h0, fun t ht θ => ?_⟩
    have hper : Function.Periodic (fun θ => Z t (Real.cos θ)) (2 * Real.pi) := fun θ => by dsimp only; rw [Real.cos_add_two_pi]
    obtain ⟨y, hy, e⟩ := (periodic_iteratedDeriv p hper).exists_mem_Ico₀ (by positivity) θ
    rw [e]
    exact hM t ht y ⟨hy.1, hy.2.le⟩
  obtain ⟨M1, h1, k1⟩ := key (fun y x => Y x y) (hY.comp (contDiff_snd.prodMk contDiff_fst))
  obtain ⟨M2, h2, k2⟩ := key Y hY
  exact ⟨max M1 M2, le_max_of_le_left h1, fun y hy θ => (k1 y hy θ).trans (le_max_left _ _), fun x hx θ => (k2 x hx θ).trans (le_max_right _ _)⟩

/-- the resolved coefficients of a function of the two bases -/
theorem fn2_chebSum2 {p s p' s' : ℕ} {S P I S' P' I' : Mat ℝ} {Q : Matrix (Fin p) (Fin p) ℝ}
    {M : Matrix (Fin p) (Fin s) ℝ} {Q' : Matrix (Fin p') (Fin p') ℝ} {M' : Matrix (Fin p') (Fin s') ℝ}
    (h : AxisTau p s S P I Q M) (h' : AxisTau p' s' S' P' I' Q' M') (V : Mat ℝ) :
    ∃ U : ℕ → ℕ → ℝ, (∀ x y, fn2 S S' V x y = chebSum2 (p + 2) (p' + 2) U x y) ∧
      ∀ (i : Fin p) (j : Fin p'), U i j = (toM S p s * toM V s s' * (toM S' p' s').transpose) i j := by
  refine ⟨helmCoeff S S' V M M' 1 0, fun x y => ?_, fun i j => ?_⟩
  · have := helm_eval h h' 1 0 V x y
    rw [one_mul, zero_mul, sub_zero] at this
    exact this
  · rw [helmCoeff_apply, one_smul, zero_smul, sub_zero]

theorem wsum2 (p p' : ℕ) (u : ℕ → ℕ → ℝ) :
    ∑ i : Fin p, ∑ j : Fin p', wInt (Chebyshev.T ℝ ((i : ℕ) : ℤ) ^ 2) * wInt (Chebyshev.T ℝ ((j : ℕ) : ℤ) ^ 2) * u i j ^ 2
      = Real.pi ^ 2 * ∑ i ∈ range p, ∑ j ∈ range p', chebWeight i * chebWeight j * u i j ^ 2 := by
  rw [Finset.mul_sum, Finset.sum_range]
  refine Finset.sum_congr rfl fun i _ => ?_
  rw [Finset.mul_sum, Finset.sum_range]
  refine Finset.sum_congr rfl fun j _ => ?_
  rw [wInt_T_sq, wInt_T_sq]
  ring

/-- C119: let `Y` be any function on the square with `p ≥ 6` continuous derivatives that vanishes on the boundary, and `F = β Y - c ΔY`
(`β ≥ 0`, `c > 0`; Poisson's equation is `β = 0`). For grids of any sizes transform the samples of `F` with the Chebyshev space, solve the
`cheb_dirichlet × cheb_dirichlet` system and transform backward: the solution exists, is unique, and differs from `Y`, at the grid points
and everywhere between, by at most `K √(n n') (1 / n^(p - 5) + 1 / n'^(p - 5))`, with one constant `K` for all sizes. -/
theorem C119_poisson (β c : ℝ) (hβ : 0 ≤ β) (hc : 0 < c) (p : ℕ) (hp : 6 ≤ p) (Y F : ℝ → ℝ → ℝ) (hY : ContDiff ℝ p (Function.uncurry Y))
    (hbc : ∀ t ∈ Set.Icc (-1 : ℝ) 1, Y 1 t = 0 ∧ Y (-1) t = 0 ∧ Y t 1 = 0 ∧ Y t (-1) = 0)
    (hF : ∀ x ∈ Set.Icc (-1 : ℝ) 1, ∀ y ∈ Set.Icc (-1 : ℝ) 1, β * Y x y - c * laplacian2 Y x y = F x y) :
    ∃ K : ℝ, ∀ (o : Mode) (n n' : ℕ) (_ : n ≤ 2642246) (_ : n' ≤ 2642246) (b b' q q' : BaseR2r) (_ : newR2r (some .dirichlet) n = ok b)
      (_ : newR2r (some .dirichlet) n' = ok b') (_ : chebyshev n = ok q) (_ : chebyshev n' = ok q'),
      let sp : Space2 ℝ ℝ ℝ ℝ := ⟨b.toBase ℝ, b'.toBase ℝ⟩
      let so : Space2 ℝ ℝ ℝ ℝ := ⟨q.toBase ℝ, q'.toBase ℝ⟩
      ∃ x y S P I S' P' I', so.coords = ok [x, y] ∧ sp.coords = ok [x, y] ∧
        (b.toBase ℝ).stencil = ok S ∧ (b.toBase ℝ).laplacianPinv o = ok (P, I) ∧
        (b'.toBase ℝ).stencil = ok S' ∧ (b'.toBase ℝ).laplacianPinv o = ok (P', I') ∧
        ∀ G : Arr ℝ, Good G [n, n'] → (∀ i < n, ∀ j < n', at_ G [i, j] = F (nth x i) (nth y j)) →
          ∃ f v w, so.forward G = ok f ∧ Good v [n - 2, n' - 2] ∧
            SolvesHelmholtz2 S P I S' P' I' β c (coeffMat f n n') (coeffMat v (n - 2) (n' - 2)) ∧
            (∀ u, Good u [n - 2, n' - 2] →
              SolvesHelmholtz2 S P I S' P' I' β c (coeffMat f n n') (coeffMat u (n - 2) (n' - 2)) → u = v) ∧
            (∀ s ∈ Set.Icc (-1 : ℝ) 1, ∀ t ∈ Set.Icc (-1 : ℝ) 1, |fn2 S S' (coeffMat v (n - 2) (n' - 2)) s t - Y s t|
              ≤ K * √n * √n' * (1 / (n : ℝ) ^ (p - 5) + 1 / (n' : ℝ) ^ (p - 5))) ∧
            sp.backward v = ok w ∧ Good w [n, n'] ∧ ∀ i < n, ∀ j < n', |at_ w [i, j] - Y (nth x i) (nth y j)|
              ≤ K * √n * √n' * (1 / (n : ℝ) ^ (p - 5) + 1 / (n' : ℝ) ^ (p - 5)) := by
  obtain ⟨M, hM0, hM1, hM2⟩ := bounds2 hY
  refine ⟨9 * (16 * M) + 48 * M, fun o n n' hm hm' b b' q q' hb hb' hq hq' => ?_⟩
  intro sp so
  obtain ⟨B, hB, rfl⟩ := composite_inv hb
  obtain ⟨B', hB', rfl⟩ := composite_inv hb'
  have hq1 : newR2r none n = ok q := hq
  have hq1' : newR2r none n' = ok q' := hq'
  obtain ⟨hn2, rfl⟩ := chebyshev_inv hq1
  obtain ⟨hn2', rfl⟩ := chebyshev_inv hq1'
  have hqn := cheb_new_ok hn2
  have hqn' := cheb_new_ok hn2'
  have hw := Compo.wf_of_new hB
  have hw' := Compo.wf_of_new hB'
  obtain ⟨x, hx, hxl, -⟩ := C01_coords n _ hqn
  obtain ⟨y, hy, hyl, -⟩ := C01_coords n' _ hqn'
  have hpn : B.lenPhys = n := hw.n_eq
  have hpn' : B'.lenPhys = n' := hw'.n_eq
  have hbx : B.coords (K := ℝ) = ok x := by
    rw [← hx]; unfold Compo.coords Cheb.coords; rw [hpn]; rfl
  have hby : B'.coords (K := ℝ) = ok y := by
    rw [← hy]; unfold Compo.coords Cheb.coords; rw [hpn']; rfl
  obtain ⟨S, P, I, h⟩ := tauSetup o hm hB
  obtain ⟨S', P', I', h'⟩ := tauSetup o hm' hB'
  have hn4 := h.hn
  have hn4' := h'.hn
  have hs : B.lenSpec = n - 2 := dirichlet_len hB
  have hs' : B'.lenSpec = n' - 2 := dirichlet_len hB'
  refine ⟨x, y, S, P, I, S', P', I', ?_, ?_, h.hS, h.hP, h'.hS, h'.hP, fun G hG hGF => ?_⟩
  · show (do let c0 ← so.base0.coords
             let c1 ← so.base1.coords
             pure [c0, c1]) = _
    rw [show so.base0.coords = ok x from hx, show so.base1.coords = ok y from hy]; rfl
  · show (do let c0 ← sp.base0.coords
             let c1 ← sp.base1.coords
             pure [c0, c1]) = _
    rw [show sp.base0.coords = ok x from hbx, show sp.base1.coords = ok y from hby]; rfl
  obtain ⟨f, hf, hfg, hfe⟩ := forward2 hq1 hq1' hx hy hG
  -- the solution
  obtain ⟨S₂, P₂, I₂, S₂', P₂', I₂', g1, g2, g3, g4, -, -, hex, hzero⟩ := C104_helmholtz o n n' hm hm' B B' hB hB' β c hc.ne'
    (mul_nonneg hβ hc.le)
  obtain rfl := Res.ok.inj (h.hS.symm.trans g1)
  obtain ⟨rfl, rfl⟩ := Prod.mk.inj (Res.ok.inj (h.hP.symm.trans g2))
  obtain rfl := Res.ok.inj (h'.hS.symm.trans g3)
  obtain ⟨rfl, rfl⟩ := Prod.mk.inj (Res.ok.inj (h'.hP.symm.trans g4))
  obtain ⟨V, hVr, hVc, hVs, hVu⟩ := hex (coeffMat f n n')
  set v : Arr ℝ := mk2 (n - 2) (n' - 2) fun i j => V.get i j with hv
  have hvg : Good v [n - 2, n' - 2] := good_mk2 _ _ _
  have hvV : ∀ k < n - 2, ∀ l < n' - 2, (coeffMat v (n - 2) (n' - 2)).get k l = V.get k l := fun k hk l hl => at_mk2 _ hk hl
  have hvs : SolvesHelmholtz2 S P I S' P' I' β c (coeffMat f n n') (coeffMat v (n - 2) (n' - 2)) := by
    intro i hi j hj
    rw [← hVs i hi j hj]
    refine Finset.sum_congr rfl fun k hk => Finset.sum_congr rfl fun l hl => ?_
    rw [h.r2, hs, Finset.mem_range] at hk
    rw [h'.r2, hs', Finset.mem_range] at hl
    rw [hvV k hk l hl]
  -- the interpolant
  set Gy : Arr ℝ := mk2 n n' fun i j => Y (nth x i) (nth y j) with hGy
  obtain ⟨z, -, -, hze⟩ := forward2 hq1 hq1' hx hy (G := Gy) (good_mk2 _ _ _)
  set A : ℕ → ℕ → ℝ := fun k l => at_ z [k, l] with hA
  have hAe : ∀ i < n, ∀ j < n', chebSum2 n n' A (nth x i) (nth y j) = Y (nth x i) (nth y j) := fun i hi j hj => by
    rw [hze i hi j hj, hGy, at_mk2 _ hi hj]
  obtain ⟨i1, i2, i3⟩ := interp2 hp Y hY hM1 hM2 hbc n n' (by omega) (by omega) _ _ hqn hqn' x y hx hy A hAe
  obtain ⟨W, hWr, hWc, hWe⟩ := dirichlet_coeffs hB hB' h h' A i2
  obtain ⟨r, rfl⟩ : ∃ r, n = r + 2 := ⟨n - 2, by omega⟩
  obtain ⟨r', rfl⟩ : ∃ r', n' = r' + 2 := ⟨n' - 2, by omega⟩
  rw [Nat.add_sub_cancel] at hs hs'
  simp only [Nat.add_sub_cancel] at hvg hvV hvs ⊢
  obtain ⟨Q, N2, ha⟩ := axis_tau h
  obtain ⟨Q', N2', ha'⟩ := axis_tau h'
  set V' := coeffMat v r r' with hV'
  set D : Mat ℝ := ⟨r, r', fun i j => V'.get i j - W.get i j⟩ with hD
  set η := 1 / ((r + 2 : ℕ) : ℝ) ^ (p - 5) with hη
  set η' := 1 / ((r' + 2 : ℕ) : ℝ) ^ (p - 5) with hη'
  have hηη : 0 ≤ η + η' := by positivity
  -- the residual
  set R : ℕ → ℕ → ℝ := fun i j => at_ f [i, j] - helmCoeff S S' W N2 N2' β c i j with hR
  have hRg : ∀ i < r + 2, ∀ j < r' + 2, |chebSum2 (r + 2) (r' + 2) R (nth x i) (nth y j)| ≤ c * (16 * M * (η + η')) := by
    intro i hi j hj
    have e1 : chebSum2 (r + 2) (r' + 2) R (nth x i) (nth y j) = chebSum2 (r + 2) (r' + 2) (fun k l => at_ f [k, l]) (nth x i) (nth y j)
        - chebSum2 (r + 2) (r' + 2) (helmCoeff S S' W N2 N2' β c) (nth x i) (nth y j) := by
      unfold chebSum2
      rw [← Finset.sum_sub_distrib]
      refine Finset.sum_congr rfl fun k _ => ?_
      rw [← Finset.sum_sub_distrib]
      exact Finset.sum_congr rfl fun l _ => by rw [hR]; ring
    have e2 : fn2 S S' W = chebSum2 (r + 2) (r' + 2) A := funext fun s => funext fun t => hWe s t
    have xi := coords_mem hqn hx i hi
    have yj := coords_mem hqn' hy j hj
    rw [e1, hfe i hi j hj, hGF i hi j hj, ← helm_eval ha ha', e2, hAe i hi j hj, ← hF _ xi _ yj]
    rw [show β * Y (nth x i) (nth y j) - c * laplacian2 Y (nth x i) (nth y j) - (β * Y (nth x i) (nth y j)
        - c * laplacian2 (chebSum2 (r + 2) (r' + 2) A) (nth x i) (nth y j))
      = c * (laplacian2 (chebSum2 (r + 2) (r' + 2) A) (nth x i) (nth y j) - laplacian2 Y (nth x i) (nth y j)) by ring, abs_mul, abs_of_pos hc]
    exact mul_le_mul_of_nonneg_left (i1 i hi j hj) hc.le
  have hres := resolved_le2 (r + 2) (r' + 2) _ _ hqn hqn' x y hx hy R hRg
  simp only [Nat.add_sub_cancel] at hres
  -- the error solves the system with the residual
  have hsolve := (solves2_iff ha ha' β c _ _).mp hvs
  have hDm : toM D B.lenSpec B'.lenSpec = toM V' B.lenSpec B'.lenSpec - toM W B.lenSpec B'.lenSpec := by
    ext i j; rfl
  have hDe : β • (toM S r B.lenSpec * toM D B.lenSpec B'.lenSpec * (toM S' r' B'.lenSpec).transpose)
        - c • (toM S r B.lenSpec * toM D B.lenSpec B'.lenSpec * N2'.transpose
          + N2 * toM D B.lenSpec B'.lenSpec * (toM S' r' B'.lenSpec).transpose) = Matrix.of fun (i : Fin r) (j : Fin r') => R i j := by
    ext i j
    have k1 := congrFun (congrFun hsolve i) j
    have k2 := helmCoeff_apply (s := B.lenSpec) (s' := B'.lenSpec) S S' W N2 N2' β c i j
    rw [Matrix.of_apply, hR]
    dsimp only
    rw [k2, show at_ f [(i : ℕ), (j : ℕ)] = toM (coeffMat f (r + 2) (r' + 2)) r r' i j from rfl, ← k1, hDm]
    simp only [Matrix.mul_sub, Matrix.sub_mul, Matrix.sub_apply, Matrix.smul_apply, Matrix.add_apply, smul_eq_mul]
    ring
  have hbound := kron_bound (fun i => wInt_TT_pos i) (fun i => wInt_TT_pos i) (κ := 1 / 2) (κ' := 1 / 2) (axis_coercive h ha)
    (axis_coercive h' ha') hc.le (β := β) (by positivity) hDe
  obtain ⟨U, hU1, hU2⟩ := fn2_chebSum2 ha ha' D
  have hsum : √(∑ i ∈ range r, ∑ j ∈ range r', chebWeight i * chebWeight j * U i j ^ 2) ≤ 16 * M * (η + η') := by
    have t1 : ∑ i : Fin r, ∑ j : Fin r', wInt (Chebyshev.T ℝ ((i : ℕ) : ℤ) ^ 2) * wInt (Chebyshev.T ℝ ((j : ℕ) : ℤ) ^ 2)
        * (toM S r B.lenSpec * toM D B.lenSpec B'.lenSpec * (toM S' r' B'.lenSpec).transpose) i j ^ 2
        = Real.pi ^ 2 * ∑ i ∈ range r, ∑ j ∈ range r', chebWeight i * chebWeight j * U i j ^ 2 := by
      rw [← wsum2]
      exact Finset.sum_congr rfl fun i _ => Finset.sum_congr rfl fun j _ => by rw [hU2]
    have t2 := wsum2 r r' R
    simp only [Matrix.of_apply] at hbound
    rw [t1, t2, Real.sqrt_mul (by positivity), Real.sqrt_mul (by positivity), Real.sqrt_sq Real.pi_pos.le] at hbound
    have t3 := (Real.sqrt_le_sqrt hres).trans_eq (Real.sqrt_sq (by positivity))
    set E := √(∑ i ∈ range r, ∑ j ∈ range r', chebWeight i * chebWeight j * U i j ^ 2)
    have hE : 0 ≤ E := Real.sqrt_nonneg _
    have t4 : (β + c) * E ≤ c * (16 * M * (η + η')) := by
      refine le_of_mul_le_mul_left ?_ Real.pi_pos
      have := mul_le_mul_of_nonneg_left t3 Real.pi_pos.le
      refine le_trans (le_of_eq ?_) (hbound.trans this)
      ring
    refine le_of_mul_le_mul_left (le_trans ?_ t4) hc
    exact mul_le_mul_of_nonneg_right (by linarith) hE
  have main : ∀ s ∈ Set.Icc (-1 : ℝ) 1, ∀ t ∈ Set.Icc (-1 : ℝ) 1, |fn2 S S' V' s t - Y s t|
      ≤ (9 * (16 * M) + 48 * M) * √((r + 2 : ℕ) : ℝ) * √((r' + 2 : ℕ) : ℝ) * (η + η') := by
    intro s hsI t htI
    have p1 := pointwise2 (p := r) (p' := r') (U := U) (fun t => by
      obtain ⟨z1, z2, z3, z4⟩ := hzero D t
      exact ⟨(hU1 _ _).symm.trans z1, (hU1 _ _).symm.trans z2, (hU1 _ _).symm.trans z3, (hU1 _ _).symm.trans z4⟩) hsI htI
    rw [← hU1] at p1
    have p2 := i3 s hsI t htI
    rw [← hWe] at p2
    have e : fn2 S S' V' s t - Y s t = fn2 S S' D s t + (fn2 S S' W s t - Y s t) := by
      have : fn2 S S' D s t = fn2 S S' V' s t - fn2 S S' W s t := by
        unfold fn2
        rw [← Finset.sum_sub_distrib]
        refine Finset.sum_congr rfl fun k _ => ?_
        rw [← Finset.sum_sub_distrib]
        exact Finset.sum_congr rfl fun l _ => by rw [hD]; ring
      rw [this]; ring
    rw [e]
    refine (abs_add_le _ _).trans ((add_le_add (p1.trans (mul_le_mul_of_nonneg_left hsum (by positivity))) p2).trans ?_)
    have q1 : 1 ≤ √((r + 2 : ℕ) : ℝ) := Real.one_le_sqrt.mpr (by exact_mod_cast (by omega : 1 ≤ r + 2))
    have q2 : 0 ≤ M * √((r' + 2 : ℕ) : ℝ) * (η + η') := by positivity
    nlinarith
  obtain ⟨w, hw1, hw2, hw3⟩ := backward2 hb hb' (S := S) (S' := S') h.hS h'.hS (x := x) (y := y) hbx hby (v := v) (by
    show Good v [B.lenSpec, B'.lenSpec]
    rw [hs, hs']; exact hvg)
  have hw2' : Good w [r + 2, r' + 2] := by
    have : Good w [B.lenPhys, B'.lenPhys] := hw2
    rwa [hpn, hpn'] at this
  refine ⟨f, v, w, hf, hvg, hvs, fun u hu hus => ?_, main, hw1, hw2', fun i hi j hj => ?_⟩
  · have := hVu (coeffMat u r r') (by rw [hs]; rfl) (by rw [hs']; rfl) hus
    refine good_ext2 hu hvg fun k hk l hl => ?_
    have k1 := this.2.2 k (by rw [hVr, hs]; exact hk) l (by rw [hVc, hs']; exact hl)
    have k2 := hvV k hk l hl
    exact k1.symm.trans k2.symm
  · have := hw3 i (by show i < B.lenPhys; rw [hpn]; exact hi) j (by show j < B'.lenPhys; rw [hpn']; exact hj)
    have e : fn2 S S' (coeffMat v B.lenSpec B'.lenSpec) (nth x i) (nth y j) = fn2 S S' V' (nth x i) (nth y j) := by
      rw [hs, hs']
    rw [this.trans e]
    exact main _ (coords_mem hqn hx i hi) _ (coords_mem hqn' hy j hj)

/-- C119 applies: `Y = sin (π x) sin (π y)`. -/
example : ContDiff ℝ 6 (Function.uncurry fun x y : ℝ => Real.sin (Real.pi * x) * Real.sin (Real.pi * y)) ∧
    (∀ t ∈ Set.Icc (-1 : ℝ) 1, Real.sin (Real.pi * 1) * Real.sin (Real.pi * t) = 0 ∧ Real.sin (Real.pi * -1) * Real.sin (Real.pi * t) = 0 ∧
      Real.sin (Real.pi * t) * Real.sin (Real.pi * 1) = 0 ∧ Real.sin (Real.pi * t) * Real.sin (Real.pi * -1) = 0) ∧
    (∃ b : BaseR2r, newR2r (some .dirichlet) 8 = ok b) ∧ (∃ q : BaseR2r, chebyshev 8 = ok q) ∧ ∃ G : Arr ℝ, Good G [8, 8] :=
  ⟨by
    have : (Function.uncurry fun x y : ℝ => Real.sin (Real.pi * x) * Real.sin (Real.pi * y))
      = fun z : ℝ × ℝ => Real.sin (Real.pi * z.1) * Real.sin (Real.pi * z.2) := rfl
    rw [this]; fun_prop, fun t _ => by simp, ⟨_, rfl⟩, ⟨_, rfl⟩, ⟨_, good_fill 0 [8, 8]⟩⟩

end Verif.Props
