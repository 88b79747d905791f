/-
Property C120: implicit Euler time stepping with the matrices of `cheb_dirichlet × cheb_dirichlet` converges to the solution of the
two-dimensional heat equation.
-/
import Verif.Proof.Euler2Rate
import Verif.Props.PoissonRate

namespace Verif.Props
open Res Spec Finset Polynomial

/-- C120: for every initial array and every sequence of sources there is exactly one run of implicit Euler steps. -/
theorem C120_run (o : Mode) (n n' : ℕ) (hm : n ≤ 2642246) (hm' : n' ≤ 2642246) (b b' : Compo ℝ) (hb : Compo.new .dirichlet n = ok b)
    (hb' : Compo.new .dirichlet n' = ok b') (ν dt : ℝ) (hν : 0 < ν) (hdt : 0 < dt) :
    ∃ S P I S' P' I', b.stencilMat = ok S ∧ b.laplacianPinv o = ok (P, I) ∧ b'.stencilMat = ok S' ∧ b'.laplacianPinv o = ok (P', I') ∧
      ∀ (G : ℕ → Arr ℝ) (v₀ : Arr ℝ), Good v₀ [n - 2, n' - 2] →
        ∃! v : ℕ → Arr ℝ, v 0 = v₀ ∧ (∀ m, Good (v m) [n - 2, n' - 2]) ∧
          ∀ m, EulerStep2 S P I S' P' I' ν dt (coeffMat (G m) n n') (coeffMat (v m) (n - 2) (n' - 2)) (coeffMat (v (m + 1)) (n - 2) (n' - 2)) := by
  obtain ⟨S, P, I, S', P', I', h1, h2, h3, h4, -, -, hu, -⟩ := C104_helmholtz o n n' hm hm' b b' hb hb'
    1 (dt * ν) (by positivity) (by positivity)
  refine ⟨S, P, I, S', P', I', h1, h2, h3, h4, fun G v₀ hv₀ => ?_⟩
  have hs : b.lenSpec = n - 2 := dirichlet_len hb
  have hs' : b'.lenSpec = n' - 2 := dirichlet_len hb'
  have hc : S.cols = b.lenSpec ∧ S'.cols = b'.lenSpec := by
    obtain ⟨S₂, P₂, I₂, k⟩ := tauSetup o hm hb
    obtain ⟨S₂', P₂', I₂', k'⟩ := tauSetup o hm' hb'
    obtain rfl : S = S₂ := Res.ok.inj (h1.symm.trans k.hS)
    obtain rfl : S' = S₂' := Res.ok.inj (h3.symm.trans k'.hS)
    exact ⟨k.r2, k'.r2⟩
  have step : ∀ g v : Arr ℝ, ∃! v', Good v' [n - 2, n' - 2] ∧
      EulerStep2 S P I S' P' I' ν dt (coeffMat g n n') (coeffMat v (n - 2) (n' - 2)) (coeffMat v' (n - 2) (n' - 2)) := by
    intro g v
    obtain ⟨V, hVr, hVc, hVs, hVu⟩ := hu ⟨S.rows, S'.rows, fun i j =>
      (∑ k ∈ range S.cols, ∑ l ∈ range S'.cols, S.get i k * S'.get j l * (coeffMat v (n - 2) (n' - 2)).get k l) + dt * (coeffMat g n n').get i j⟩
    have hvV : ∀ k < n - 2, ∀ l < n' - 2, (coeffMat (mk2 (n - 2) (n' - 2) fun i j => V.get i j) (n - 2) (n' - 2)).get k l = V.get k l :=
      fun k hk l hl => at_mk2 _ hk hl
    refine ⟨mk2 (n - 2) (n' - 2) fun i j => V.get i j, ⟨good_mk2 _ _ _, fun i hi j hj => ?_⟩, fun u hu => ?_⟩
    · rw [← hVs i hi j hj]
      refine Finset.sum_congr rfl fun k hk => Finset.sum_congr rfl fun l hl => ?_
      rw [hc.1, hs, Finset.mem_range] at hk
      rw [hc.2, hs', Finset.mem_range] at hl
      rw [hvV k hk l hl]
    · have := hVu (coeffMat u (n - 2) (n' - 2)) (by rw [hs]; rfl) (by rw [hs']; rfl) hu.2
      refine good_ext2 hu.1 (good_mk2 _ _ _) fun k hk l hl => ?_
      have k1 := this.2.2 k (by rw [hVr, hs]; exact hk) l (by rw [hVc, hs']; exact hl)
      exact k1.symm.trans (hvV k hk l hl).symm
  let f : ℕ → {v : Arr ℝ // Good v [n - 2, n' - 2]} := fun m => Nat.rec ⟨v₀, hv₀⟩
    (fun m w => ⟨(step (G m) w.1).choose, (step (G m) w.1).choose_spec.1.1⟩) m
  refine ⟨fun m => (f m).1, ⟨rfl, fun m => (f m).2, fun m => (step (G m) (f m).1).choose_spec.1.2⟩, ?_⟩
  rintro w ⟨h0, hl, hs⟩
  funext m
  induction m with
  | zero => exact h0
  | succ m ih =>
    refine (step (G m) (f m).1).unique ⟨hl _, ?_⟩ ((step (G m) (f m).1).choose_spec.1)
    have := hs m
    rwa [show w m = (f m).1 from ih] at this

/-- forward transform of the samples of a function of `cheb_dirichlet × cheb_dirichlet`: its coefficients -/
theorem forward_dirichlet2 {n n' : ℕ} {b b' : BaseR2r} (hb : newR2r (some .dirichlet) n = ok b) (hb' : newR2r (some .dirichlet) n' = ok b')
    (hn : 5 ≤ n) (hn' : 5 ≤ n') {S S' : Mat ℝ} (hS : (b.toBase ℝ).stencil = ok S) (hS' : (b'.toBase ℝ).stencil = ok S') {x y : List ℝ}
    (hx : (b.toBase ℝ).coords = ok x) (hy : (b'.toBase ℝ).coords = ok y) {v f γ : Arr ℝ}
    (hv : Good v [(b.toBase ℝ).lenSpec, (b'.toBase ℝ).lenSpec]) (hγ : Good γ [(b.toBase ℝ).lenPhys, (b'.toBase ℝ).lenPhys])
    (h : ∀ i < (b.toBase ℝ).lenPhys, ∀ j < (b'.toBase ℝ).lenPhys,
        at_ γ [i, j] = fn2 S S' (coeffMat v (b.toBase ℝ).lenSpec (b'.toBase ℝ).lenSpec) (nth x i) (nth y j))
    (hf : (⟨b.toBase ℝ, b'.toBase ℝ⟩ : Space2 ℝ ℝ ℝ ℝ).forward γ = ok f) : f = v := by
  obtain ⟨w, hw, hwg, hwe⟩ := backward2 hb hb' hS hS' hx hy hv
  have e : γ = w := good_ext2 hγ hwg fun i hi j hj => by rw [h i hi j hj, hwe i hi j hj]
  obtain ⟨w', hw', -, -, hfw, -⟩ := C36_forward_backward (⟨b.toBase ℝ, b'.toBase ℝ⟩ : Space2 ℝ ℝ ℝ ℝ)
    (r2r_fwdBwd (T := ℝ) hb (Or.inl rfl) hn) (r2r_fwdBwd (T := ℝ) hb' (Or.inl rfl) hn') (v := v) hv
    (out := mk2 _ _ fun _ _ => 0) (good_mk2 _ _ _) (out' := mk2 _ _ fun _ _ => 0) (good_mk2 _ _ _)
  obtain rfl := Res.ok.inj (hw.symm.trans hw')
  rw [e] at hf
  exact Res.ok.inj (hf.symm.trans hfw)

/-- C120: let `Y(t, x, y)` be any solution of the heat equation `∂Y/∂t = ν ΔY + g` on `[0, T] × [-1, 1]²` with `Y = 0` on the boundary of
the square and with `p ≥ 6` continuous derivatives. Start from the samples of `Y(0, ·, ·)`, transformed with
`cheb_dirichlet × cheb_dirichlet`, and make implicit Euler steps of any length `dt` with the matrices of the bases and the source
transformed from its samples: at every step up to time `T` the function, and the grid values that `backward` returns, differ from `Y`
by at most `K √(n n') (dt + 1 / n^(p - 5) + 1 / n'^(p - 5))`. `K` depends on neither the sizes, `dt` nor the step. -/
theorem C120_heat (ν T : ℝ) (hν : 0 < ν) (hT : 0 ≤ T) (p : ℕ) (hp : 6 ≤ p) (Y g : ℝ → ℝ → ℝ → ℝ)
    (hY : ContDiff ℝ p fun z : ℝ × ℝ × ℝ => Y z.1 z.2.1 z.2.2)
    (hbc : ∀ t ∈ Set.Icc 0 T, ∀ s ∈ Set.Icc (-1 : ℝ) 1, Y t 1 s = 0 ∧ Y t (-1) s = 0 ∧ Y t s 1 = 0 ∧ Y t s (-1) = 0)
    (heq : ∀ t ∈ Set.Icc 0 T, ∀ x ∈ Set.Icc (-1 : ℝ) 1, ∀ y ∈ Set.Icc (-1 : ℝ) 1,
      deriv (fun s => Y s x y) t = ν * laplacian2 (Y t) x y + g t x y) :
    ∃ K : ℝ, ∀ (o : Mode) (n n' : ℕ) (_ : 5 ≤ n) (_ : 5 ≤ n') (_ : n ≤ 2642246) (_ : n' ≤ 2642246) (b b' q q' : BaseR2r)
      (_ : newR2r (some .dirichlet) n = ok b) (_ : newR2r (some .dirichlet) n' = ok b') (_ : chebyshev n = ok q) (_ : chebyshev n' = ok q')
      (dt : ℝ) (_ : 0 < dt),
      let sp : Space2 ℝ ℝ ℝ ℝ := ⟨b.toBase ℝ, b'.toBase ℝ⟩
      let so : Space2 ℝ ℝ ℝ ℝ := ⟨q.toBase ℝ, q'.toBase ℝ⟩
      ∃ x y S P I S' P' I', so.coords = ok [x, y] ∧ sp.coords = ok [x, y] ∧
        (b.toBase ℝ).stencil = ok S ∧ (b.toBase ℝ).laplacianPinv o = ok (P, I) ∧
        (b'.toBase ℝ).stencil = ok S' ∧ (b'.toBase ℝ).laplacianPinv o = ok (P', I') ∧
        ∀ G v : ℕ → Arr ℝ,
          (∀ m : ℕ, (m + 1) * dt ≤ T → ∃ γ, Good γ [n, n'] ∧
            (∀ i < n, ∀ j < n', at_ γ [i, j] = g ((m + 1) * dt) (nth x i) (nth y j)) ∧ so.forward γ = ok (G m)) →
          (∃ γ, Good γ [n, n'] ∧ (∀ i < n, ∀ j < n', at_ γ [i, j] = Y 0 (nth x i) (nth y j)) ∧ sp.forward γ = ok (v 0)) →
          (∀ m, Good (v m) [n - 2, n' - 2]) →
          (∀ m, EulerStep2 S P I S' P' I' ν dt (coeffMat (G m) n n') (coeffMat (v m) (n - 2) (n' - 2))
            (coeffMat (v (m + 1)) (n - 2) (n' - 2))) →
          ∀ m : ℕ, m * dt ≤ T →
            (∀ s ∈ Set.Icc (-1 : ℝ) 1, ∀ t ∈ Set.Icc (-1 : ℝ) 1, |fn2 S S' (coeffMat (v m) (n - 2) (n' - 2)) s t - Y (m * dt) s t|
              ≤ K * √n * √n' * (dt + (1 / (n : ℝ) ^ (p - 5) + 1 / (n' : ℝ) ^ (p - 5)))) ∧
            ∃ w, sp.backward (v m) = ok w ∧ Good w [n, n'] ∧ ∀ i < n, ∀ j < n', |at_ w [i, j] - Y (m * dt) (nth x i) (nth y j)|
              ≤ K * √n * √n' * (dt + (1 / (n : ℝ) ^ (p - 5) + 1 / (n' : ℝ) ^ (p - 5))) := by
  obtain ⟨M, hM0, hM⟩ := bounds3 hY T
  obtain ⟨B, hB0, hB⟩ := bound_time2 (by omega) hY T
  have hYt : ∀ x y, ContDiff ℝ 2 fun s => Y s x y := fun x y =>
    (hY.of_le (by exact_mod_cast (by omega : 2 ≤ p))).comp (contDiff_id.prodMk (contDiff_const.prodMk contDiff_const))
  have hYs : ∀ t, ContDiff ℝ p (Function.uncurry (Y t)) := fun t => hY.comp (contDiff_const.prodMk contDiff_id)
  set K0 := T * (B + ν * (16 * M)) with hK0
  have hK00 : 0 ≤ K0 := by positivity
  refine ⟨9 * K0 + 48 * M, fun o n n' hn5 hn5' hm hm' b b' q q' hb hb' hq hq' dt hdt => ?_⟩
  intro sp so
  have hbn := hb
  have hbn' := hb'
  clear hb hb'
  obtain ⟨b, hb, rfl⟩ := composite_inv hbn
  obtain ⟨b', hb', rfl⟩ := composite_inv hbn'
  have hq1 : newR2r none n = ok q := hq
  have hq1' : newR2r none n' = ok q' := hq'
  obtain ⟨hn2, rfl⟩ := chebyshev_inv hq1
  obtain ⟨hn2', rfl⟩ := chebyshev_inv hq1'
  have hqn := cheb_new_ok hn2
  have hqn' := cheb_new_ok hn2'
  have hw := Compo.wf_of_new hb
  have hw' := Compo.wf_of_new hb'
  obtain ⟨x, hx, hxl, -⟩ := C01_coords n _ hqn
  obtain ⟨y, hy, hyl, -⟩ := C01_coords n' _ hqn'
  have hpn : b.lenPhys = n := hw.n_eq
  have hpn' : b'.lenPhys = n' := hw'.n_eq
  have hbx : b.coords (K := ℝ) = ok x := by
    rw [← hx]; unfold Compo.coords Cheb.coords; rw [hpn]; rfl
  have hby : b'.coords (K := ℝ) = ok y := by
    rw [← hy]; unfold Compo.coords Cheb.coords; rw [hpn']; rfl
  obtain ⟨S, P, I, h⟩ := tauSetup o hm hb
  obtain ⟨S', P', I', h'⟩ := tauSetup o hm' hb'
  have hs : b.lenSpec = n - 2 := dirichlet_len hb
  have hs' : b'.lenSpec = n' - 2 := dirichlet_len hb'
  refine ⟨x, y, S, P, I, S', P', I', ?_, ?_, h.hS, h.hP, h'.hS, h'.hP, fun G v hG hv0 hvg hvs => ?_⟩
  · show (do let c0 ← so.base0.coords
             let c1 ← so.base1.coords
             pure [c0, c1]) = _
    rw [show so.base0.coords = ok x from hx, show so.base1.coords = ok y from hy]; rfl
  · show (do let c0 ← sp.base0.coords
             let c1 ← sp.base1.coords
             pure [c0, c1]) = _
    rw [show sp.base0.coords = ok x from hbx, show sp.base1.coords = ok y from hby]; rfl
  obtain ⟨S₂, P₂, I₂, S₂', P₂', I₂', g1, -, g3, -, -, -, -, hzero⟩ := C104_helmholtz o n n' hm hm' b b' hb hb' 1 1 one_ne_zero
    (by norm_num)
  obtain rfl := Res.ok.inj (h.hS.symm.trans g1)
  obtain rfl := Res.ok.inj (h'.hS.symm.trans g3)
  set η : ℝ := 1 / (n : ℝ) ^ (p - 5) with hη
  set η' : ℝ := 1 / (n' : ℝ) ^ (p - 5) with hη'
  have hηη : 0 ≤ η + η' := by positivity
  have mx := coords_mem hqn hx
  have my := coords_mem hqn' hy
  -- the interpolants
  have interp : ∀ t ∈ Set.Icc 0 T, ∃ W : Mat ℝ, W.rows = b.lenSpec ∧ W.cols = b'.lenSpec ∧
      (∀ i < n, ∀ j < n', fn2 S S' W (nth x i) (nth y j) = Y t (nth x i) (nth y j)) ∧
      (∀ i < n, ∀ j < n', |laplacian2 (fn2 S S' W) (nth x i) (nth y j) - laplacian2 (Y t) (nth x i) (nth y j)| ≤ 16 * M * (η + η')) ∧
      ∀ s ∈ Set.Icc (-1 : ℝ) 1, ∀ r ∈ Set.Icc (-1 : ℝ) 1, |fn2 S S' W s r - Y t s r| ≤ 48 * M * √(n' : ℝ) * (η + η') := by
    intro t ht
    obtain ⟨z, -, -, hze⟩ := forward2 hq1 hq1' hx hy (G := mk2 n n' fun i j => Y t (nth x i) (nth y j)) (good_mk2 _ _ _)
    have hAe : ∀ i < n, ∀ j < n', chebSum2 n n' (fun k l => at_ z [k, l]) (nth x i) (nth y j) = Y t (nth x i) (nth y j) := fun i hi j hj => by
      rw [hze i hi j hj, at_mk2 _ hi hj]
    obtain ⟨i1, i2, i3⟩ := interp2 hp (Y t) (hYs t) (hM t ht).1 (hM t ht).2 (hbc t ht) n n' (by omega) (by omega) _ _ hqn hqn' x y hx hy _ hAe
    obtain ⟨W, hWr, hWc, hWe⟩ := dirichlet_coeffs hb hb' h h' _ i2
    have e2 : fn2 S S' W = chebSum2 n n' fun k l => at_ z [k, l] := funext fun s => funext fun t => hWe s t
    exact ⟨W, hWr, hWc, fun i hi j hj => by rw [e2]; exact hAe i hi j hj, by rw [e2]; exact i1, by rw [e2]; exact i3⟩
  haveI : Nonempty (Mat ℝ) := ⟨S⟩
  choose! W hWr hWc hWe hWl hWp using interp
  obtain ⟨r, rfl⟩ : ∃ r, n = r + 2 := ⟨n - 2, by omega⟩
  obtain ⟨r', rfl⟩ : ∃ r', n' = r' + 2 := ⟨n' - 2, by omega⟩
  rw [Nat.add_sub_cancel] at hs hs'
  simp only [Nat.add_sub_cancel] at hvg hvs ⊢
  obtain ⟨Q, N2, ha⟩ := axis_tau h
  obtain ⟨Q', N2', ha'⟩ := axis_tau h'
  set C : ℕ → Mat ℝ := fun m => coeffMat (v m) r r' with hC
  set X : Mat ℝ → Matrix (Fin r) (Fin r') ℝ := fun V => toM S r b.lenSpec * toM V b.lenSpec b'.lenSpec * (toM S' r' b'.lenSpec).transpose
    with hX
  set R := B * dt + ν * (16 * M * (η + η')) with hR
  have hR0 : 0 ≤ R := by positivity
  set nrm : Matrix (Fin r) (Fin r') ℝ → ℝ := fun E => √(∑ i : Fin r, ∑ j : Fin r',
    wInt (Chebyshev.T ℝ ((i : ℕ) : ℤ) ^ 2) * wInt (Chebyshev.T ℝ ((j : ℕ) : ℤ) ^ 2) * E i j ^ 2) with hnrm
  -- the error after `m` steps
  have main : ∀ m : ℕ, m * dt ≤ T → nrm (X (C m) - X (W (m * dt))) ≤ m * (dt * (Real.pi * R)) := by
    intro m
    induction m with
    | zero =>
      intro _
      obtain ⟨γ, hγ, hγe, hγf⟩ := hv0
      have h0 : (0 : ℝ) ∈ Set.Icc 0 T := ⟨le_rfl, hT⟩
      have hz := forward_dirichlet2 hbn hbn' hn5 hn5' (S := S) (S' := S') h.hS h'.hS (x := x) (y := y) hbx hby
        (v := mk2 r r' fun i j => (W 0).get i j) (f := v 0) (γ := γ) (by
          show Good _ [b.lenSpec, b'.lenSpec]
          rw [hs, hs']; exact good_mk2 _ _ _) (by
          show Good _ [b.lenPhys, b'.lenPhys]
          rw [hpn, hpn']; exact hγ) (fun i hi j hj => by
          have hi' : i < r + 2 := by rw [← hpn]; exact hi
          have hj' : j < r' + 2 := by rw [← hpn']; exact hj
          rw [hγe i hi' j hj', ← hWe 0 h0 i hi' j hj']
          unfold fn2
          refine Finset.sum_congr rfl fun k hk => Finset.sum_congr rfl fun l hl => ?_
          rw [h.r2, hs, Finset.mem_range] at hk
          rw [h'.r2, hs', Finset.mem_range] at hl
          congr 1
          exact (at_mk2 _ hk hl).symm) hγf
      have e : toM (C 0) b.lenSpec b'.lenSpec = toM (W 0) b.lenSpec b'.lenSpec := by
        ext k l
        show at_ (v 0) [(k : ℕ), (l : ℕ)] = (W 0).get k l
        rw [hz]
        exact at_mk2 _ (by rw [← hs]; exact k.2) (by rw [← hs']; exact l.2)
      have e2 : X (C 0) - X (W ((0 : ℕ) * dt)) = 0 := by
        rw [Nat.cast_zero, zero_mul, sub_eq_zero]
        simp only [hX]
        rw [e]
      rw [e2]
      simp [hnrm]
    | succ m ih =>
      intro hmT
      have hmdt : (m : ℝ) * dt ≤ T := by
        refine le_trans ?_ hmT
        exact mul_le_mul_of_nonneg_right (by push_cast; linarith) hdt.le
      have hm0 : (0 : ℝ) ≤ m * dt := by positivity
      have etime : ((m + 1 : ℕ) : ℝ) * dt = m * dt + dt := by push_cast; ring
      have t0 : (m : ℝ) * dt ∈ Set.Icc 0 T := ⟨hm0, hmdt⟩
      have t1 : ((m + 1 : ℕ) : ℝ) * dt ∈ Set.Icc 0 T := ⟨by positivity, hmT⟩
      have hih := ih hmdt
      obtain ⟨γ, hγ, hγe, hγf⟩ := hG m (by push_cast at hmT; exact hmT)
      obtain ⟨f, hf, -, hfe⟩ := forward2 hq1 hq1' hx hy hγ
      obtain rfl := Res.ok.inj (hγf.symm.trans hf)
      have etime' : ((m : ℝ) + 1) * dt = ((m + 1 : ℕ) : ℝ) * dt := by push_cast; ring
      rw [etime'] at hγe
      set W0 := W (m * dt) with hW0
      set W1 := W ((m + 1 : ℕ) * dt) with hW1
      set ρ : ℕ → ℕ → ℝ := fun i j => at_ (G m) [i, j] - helmCoeff S S' W1 N2 N2' (1 / dt) ν i j + helmCoeff S S' W0 N2 N2' (1 / dt) 0 i j
        with hρ
      have hρe : ∀ s t, chebSum2 (r + 2) (r' + 2) ρ s t = chebSum2 (r + 2) (r' + 2) (fun k l => at_ (G m) [k, l]) s t
          - (1 / dt * fn2 S S' W1 s t - ν * laplacian2 (fn2 S S' W1) s t) + 1 / dt * fn2 S S' W0 s t := fun s t => by
        rw [helm_eval ha ha', show 1 / dt * fn2 S S' W0 s t = 1 / dt * fn2 S S' W0 s t - 0 * laplacian2 (fn2 S S' W0) s t by ring,
          helm_eval ha ha']
        unfold chebSum2
        rw [← Finset.sum_sub_distrib, ← Finset.sum_add_distrib]
        refine Finset.sum_congr rfl fun k _ => ?_
        rw [← Finset.sum_sub_distrib, ← Finset.sum_add_distrib]
        exact Finset.sum_congr rfl fun l _ => by rw [hρ]; ring
      have hres := resolved_le2 (r + 2) (r' + 2) _ _ hqn hqn' x y hx hy ρ (M := R) fun i hi j hj => by
        have xi := mx i hi
        have yj := my j hj
        rw [hρe, hfe i hi j hj, hγe i hi j hj, hWe _ t1 i hi j hj, hWe _ t0 i hi j hj]
        have c1 := backward_difference (hYt (nth x i) (nth y j)) (t := m * dt) hdt (B := B) fun τ hτ =>
          hB _ xi _ yj τ ⟨hm0.trans hτ.1, hτ.2.trans (by rw [← etime]; exact hmT)⟩
        rw [← etime, heq _ t1 _ xi _ yj] at c1
        have c2 := hWl _ t1 i hi j hj
        set Y1 := Y ((m + 1 : ℕ) * dt) (nth x i) (nth y j)
        set Y0 := Y (m * dt) (nth x i) (nth y j)
        set Z := laplacian2 (fn2 S S' W1) (nth x i) (nth y j)
        set y2 := laplacian2 (Y ((m + 1 : ℕ) * dt)) (nth x i) (nth y j)
        set γ' := g ((m + 1 : ℕ) * dt) (nth x i) (nth y j)
        rw [show γ' - (1 / dt * Y1 - ν * Z) + 1 / dt * Y0 = -((Y1 - Y0) / dt - (ν * y2 + γ')) + ν * (Z - y2) by ring]
        refine (abs_add_le _ _).trans ?_
        rw [abs_neg, abs_mul, abs_of_pos hν]
        exact add_le_add c1 (mul_le_mul_of_nonneg_left c2 hν.le)
      simp only [Nat.add_sub_cancel] at hres
      -- one step of the error
      have hstep := (step2_iff ha ha' ν dt _ (C m) (C (m + 1))).mp (hvs m)
      set ρM : Matrix (Fin r) (Fin r') ℝ := Matrix.of fun (i : Fin r) (j : Fin r') => dt * ρ i j with hρM
      have hd1 : dt * (1 / dt) = 1 := by field_simp
      have hs2 := euler2_source (fun i => wInt_TT_pos i) (fun i => wInt_TT_pos i) (axis_energy h ha) (axis_energy h' ha')
        (mul_pos hdt hν).le (e := toM (C m) b.lenSpec b'.lenSpec - toM W0 b.lenSpec b'.lenSpec)
        (e' := toM (C (m + 1)) b.lenSpec b'.lenSpec - toM W1 b.lenSpec b'.lenSpec) (r := ρM) (by
          ext i j
          have k1 := congrFun (congrFun hstep i) j
          have k2 := helmCoeff_apply (s := b.lenSpec) (s' := b'.lenSpec) S S' W1 N2 N2' (1 / dt) ν i j
          have k3 := helmCoeff_apply (s := b.lenSpec) (s' := b'.lenSpec) S S' W0 N2 N2' (1 / dt) 0 i j
          simp only [Matrix.mul_sub, Matrix.sub_mul, Matrix.sub_apply, Matrix.smul_apply, Matrix.add_apply, smul_eq_mul] at k1 k2 k3 ⊢
          rw [hρM, Matrix.of_apply, hρ]
          dsimp only
          rw [k2, k3]
          have k4 : toM (coeffMat (G m) (r + 2) (r' + 2)) r r' i j = at_ (G m) [(i : ℕ), (j : ℕ)] := rfl
          rw [k4] at k1
          linear_combination k1 + ((toM S r b.lenSpec * toM W0 b.lenSpec b'.lenSpec * (toM S' r' b'.lenSpec).transpose) i j
            - (toM S r b.lenSpec * toM W1 b.lenSpec b'.lenSpec * (toM S' r' b'.lenSpec).transpose) i j) * (-hd1))
      have hsrc : nrm ρM ≤ dt * (Real.pi * R) := by
        have e := wsum2 r r' fun i j => dt * ρ i j
        have e' : nrm ρM = √(Real.pi ^ 2 * ∑ i ∈ range r, ∑ j ∈ range r', chebWeight i * chebWeight j * (dt * ρ i j) ^ 2) := by
          rw [← e]
          rfl
        rw [e']
        refine Real.sqrt_le_iff.mpr ⟨by positivity, ?_⟩
        have k : ∑ i ∈ range r, ∑ j ∈ range r', chebWeight i * chebWeight j * (dt * ρ i j) ^ 2
            = dt ^ 2 * ∑ i ∈ range r, ∑ j ∈ range r', chebWeight i * chebWeight j * ρ i j ^ 2 := by
          simp only [Finset.mul_sum]
          exact Finset.sum_congr rfl fun i _ => Finset.sum_congr rfl fun j _ => by ring
        rw [k]
        have := mul_le_mul_of_nonneg_left hres (by positivity : 0 ≤ Real.pi ^ 2 * dt ^ 2)
        linarith
      have x0 : ∀ V V' : Mat ℝ, toM S r b.lenSpec * (toM V b.lenSpec b'.lenSpec - toM V' b.lenSpec b'.lenSpec) * (toM S' r' b'.lenSpec).transpose
          = X V - X V' := fun V V' => by simp only [hX, Matrix.mul_sub, Matrix.sub_mul]
      rw [x0, x0] at hs2
      push_cast
      have e1 : nrm (X (C (m + 1)) - X W1) ≤ nrm (X (C m) - X W0) + nrm ρM := hs2
      linarith
  have point : ∀ m : ℕ, m * dt ≤ T → ∀ s ∈ Set.Icc (-1 : ℝ) 1, ∀ t ∈ Set.Icc (-1 : ℝ) 1, |fn2 S S' (C m) s t - Y (m * dt) s t|
      ≤ (9 * K0 + 48 * M) * √((r + 2 : ℕ) : ℝ) * √((r' + 2 : ℕ) : ℝ) * (dt + (η + η')) := by
    intro m hmT s hsI t htI
    have ht : (m : ℝ) * dt ∈ Set.Icc 0 T := ⟨by positivity, hmT⟩
    set W0 := W (m * dt) with hW0
    set D : Mat ℝ := ⟨r, r', fun i j => (C m).get i j - W0.get i j⟩ with hD
    obtain ⟨U, hU1, hU2⟩ := fn2_chebSum2 ha ha' D
    have hXD : toM S r b.lenSpec * toM D b.lenSpec b'.lenSpec * (toM S' r' b'.lenSpec).transpose = X (C m) - X W0 := by
      have : toM D b.lenSpec b'.lenSpec = toM (C m) b.lenSpec b'.lenSpec - toM W0 b.lenSpec b'.lenSpec := by
        ext i j; rfl
      simp only [hX]
      rw [this, Matrix.mul_sub, Matrix.sub_mul]
    have hsum : √(∑ i ∈ range r, ∑ j ∈ range r', chebWeight i * chebWeight j * U i j ^ 2) ≤ K0 * (dt + (η + η')) := by
      have hmain := main m hmT
      have e := wsum2 r r' U
      have e' : nrm (X (C m) - X W0) = √(Real.pi ^ 2 * ∑ i ∈ range r, ∑ j ∈ range r', chebWeight i * chebWeight j * U i j ^ 2) := by
        rw [← e]
        simp only [hnrm]
        congr 1
        exact Finset.sum_congr rfl fun i _ => Finset.sum_congr rfl fun j _ => by rw [hU2, hXD]
      rw [e', Real.sqrt_mul (by positivity), Real.sqrt_sq Real.pi_pos.le] at hmain
      set E := √(∑ i ∈ range r, ∑ j ∈ range r', chebWeight i * chebWeight j * U i j ^ 2)
      have h1 : Real.pi * E ≤ Real.pi * ((m * dt) * R) := by linarith
      refine (le_of_mul_le_mul_left h1 Real.pi_pos).trans ((mul_le_mul_of_nonneg_right hmT hR0).trans ?_)
      rw [hK0, hR, mul_assoc T]
      refine mul_le_mul_of_nonneg_left ?_ hT
      have : 0 ≤ B * (η + η') + ν * (16 * M) * dt := by positivity
      nlinarith
    have p1 := pointwise2 (p := r) (p' := r') (U := U) (fun t => by
      obtain ⟨z1, z2, z3, z4⟩ := hzero D t
      exact ⟨(hU1 _ _).symm.trans z1, (hU1 _ _).symm.trans z2, (hU1 _ _).symm.trans z3, (hU1 _ _).symm.trans z4⟩) hsI htI
    rw [← hU1] at p1
    have p2 := hWp _ ht s hsI t htI
    have e : fn2 S S' (C m) s t - Y (m * dt) s t = fn2 S S' D s t + (fn2 S S' W0 s t - Y (m * dt) s t) := by
      have : fn2 S S' D s t = fn2 S S' (C m) s t - fn2 S S' W0 s t := by
        unfold fn2
        rw [← Finset.sum_sub_distrib]
        refine Finset.sum_congr rfl fun k _ => ?_
        rw [← Finset.sum_sub_distrib]
        exact Finset.sum_congr rfl fun l _ => by rw [hD]; ring
      rw [this]; ring
    rw [e]
    refine (abs_add_le _ _).trans ((add_le_add (p1.trans (mul_le_mul_of_nonneg_left hsum (by positivity))) p2).trans ?_)
    have q1 : 1 ≤ √((r + 2 : ℕ) : ℝ) := Real.one_le_sqrt.mpr (by exact_mod_cast (by omega : 1 ≤ r + 2))
    have q2 : 48 * M * √((r' + 2 : ℕ) : ℝ) * (η + η') ≤ 48 * M * √((r + 2 : ℕ) : ℝ) * √((r' + 2 : ℕ) : ℝ) * (dt + (η + η')) := by
      have a1 : 48 * M * √((r' + 2 : ℕ) : ℝ) * (η + η') ≤ 48 * M * √((r' + 2 : ℕ) : ℝ) * (dt + (η + η')) :=
        mul_le_mul_of_nonneg_left (by linarith) (by positivity)
      have a2 : 0 ≤ 48 * M * √((r' + 2 : ℕ) : ℝ) * (dt + (η + η')) := by positivity
      nlinarith
    calc _ ≤ _ := add_le_add_right q2 _
      _ = _ := by ring
  intro m hmT
  refine ⟨point m hmT, ?_⟩
  obtain ⟨w, hw1, hw2, hw3⟩ := backward2 hbn hbn' (S := S) (S' := S') h.hS h'.hS (x := x) (y := y) hbx hby (v := v m) (by
    show Good (v m) [b.lenSpec, b'.lenSpec]
    rw [hs, hs']; exact hvg m)
  have hw2' : Good w [r + 2, r' + 2] := by
    have : Good w [b.lenPhys, b'.lenPhys] := hw2
    rwa [hpn, hpn'] at this
  refine ⟨w, hw1, hw2', fun i hi j hj => ?_⟩
  have := hw3 i (by show i < b.lenPhys; rw [hpn]; exact hi) j (by show j < b'.lenPhys; rw [hpn']; exact hj)
  have e : fn2 S S' (coeffMat (v m) b.lenSpec b'.lenSpec) (nth x i) (nth y j) = fn2 S S' (C m) (nth x i) (nth y j) := by
    rw [hs, hs']
  rw [this.trans e]
  exact point m hmT _ (mx i hi) _ (my j hj)

/-- C120 applies: `Y = exp(-2 t) sin (π x) sin (π y)` solves the heat equation with `ν = 1 / π²` and no source. -/
example : (ContDiff ℝ 8 fun z : ℝ × ℝ × ℝ => Real.exp (-(2 * z.1)) * (Real.sin (Real.pi * z.2.1) * Real.sin (Real.pi * z.2.2))) ∧
    ∀ t x y : ℝ, deriv (fun s => Real.exp (-(2 * s)) * (Real.sin (Real.pi * x) * Real.sin (Real.pi * y))) t
      = 1 / Real.pi ^ 2 * laplacian2 (fun x y => Real.exp (-(2 * t)) * (Real.sin (Real.pi * x) * Real.sin (Real.pi * y))) x y + 0 := by
  refine ⟨by fun_prop, fun t x y => ?_⟩
  have h1 : HasDerivAt (fun s : ℝ => Real.exp (-(2 * s)) * (Real.sin (Real.pi * x) * Real.sin (Real.pi * y)))
      (Real.exp (-(2 * t)) * (-(2 * 1)) * (Real.sin (Real.pi * x) * Real.sin (Real.pi * y))) t :=
    ((((hasDerivAt_id t).const_mul 2).neg).exp).mul_const _
  have h2 : ∀ c d : ℝ, ∀ x, iteratedDeriv 2 (fun s : ℝ => c * (Real.sin (Real.pi * s) * d)) x = -(Real.pi ^ 2) * (c * (Real.sin (Real.pi * x) * d)) := by
    intro c d x
    rw [iteratedDeriv_succ, iteratedDeriv_one]
    have d1 : deriv (fun s : ℝ => c * (Real.sin (Real.pi * s) * d)) = fun s => c * (Real.cos (Real.pi * s) * Real.pi * d) := funext fun s => by
      have := ((((hasDerivAt_id s).const_mul Real.pi).sin).mul_const d).const_mul c
      refine (this.congr_deriv ?_).deriv
      simp
    rw [d1]
    have := (((((hasDerivAt_id x).const_mul Real.pi).cos).mul_const (Real.pi)).mul_const d).const_mul c
    refine (this.congr_deriv ?_).deriv
    simp only [id]
    ring
  rw [h1.deriv]
  unfold laplacian2
  rw [h2 (Real.exp (-(2 * t))) (Real.sin (Real.pi * y)) x]
  have e : (fun s : ℝ => Real.exp (-(2 * t)) * (Real.sin (Real.pi * x) * Real.sin (Real.pi * s)))
      = fun s => Real.exp (-(2 * t)) * (Real.sin (Real.pi * s) * Real.sin (Real.pi * x)) := funext fun s => by ring
  rw [e, h2]
  have := Real.pi_pos.ne'
  field_simp
  ring

end Verif.Props
