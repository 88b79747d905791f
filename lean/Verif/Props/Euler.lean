/-
Property C106: implicit time stepping with the matrices of the bases runs, is stable for every step
length and number of steps, and converges to the steady state.
-/
import Verif.Proof.Euler
import Verif.Props.Poisson2

namespace Verif.Props
open Res Spec Finset Polynomial Filter Topology

/-- steps that always exist uniquely make exactly one run -/
private theorem run_unique {X : Type} (ok : X → Prop) (step : X → X → Prop)
    (h : ∀ v, ∃! v', ok v' ∧ step v v') {v₀ : X} (h₀ : ok v₀) :
    ∃! v : ℕ → X, v 0 = v₀ ∧ (∀ m, ok (v m)) ∧ ∀ m, step (v m) (v (m + 1)) := by
  choose f hf using fun v => (h v).exists
  have e : ∀ m, f^[m + 1] v₀ = f (f^[m] v₀) := fun m => Function.iterate_succ_apply' f m v₀
  refine ⟨fun m => f^[m] v₀, ⟨rfl, fun m => ?_, fun m => ?_⟩, ?_⟩
  · cases m with
    | zero => exact h₀
    | succ m => show ok (f^[m + 1] v₀); rw [e]; exact (hf _).1
  · show step (f^[m] v₀) (f^[m + 1] v₀)
    rw [e]; exact (hf _).2
  · rintro w ⟨h0, hl, hs⟩
    funext m
    induction m with
    | zero => exact h0
    | succ m ih =>
      show w (m + 1) = f^[m + 1] v₀
      rw [e]
      refine (h (w m)).unique ⟨hl _, hs m⟩ ?_
      rw [show w m = f^[m] v₀ from ih]
      exact hf _

/-! ### one dimension -/

theorem step_iff {p s : ℕ} {S P I : Mat ℝ} {Q : Matrix (Fin p) (Fin p) ℝ}
    {M : Matrix (Fin p) (Fin s) ℝ} (h : AxisTau p s S P I Q M) (ν dt : ℝ) (g v v' : List ℝ) :
    EulerStep S P I ν dt g v v' ↔
      (toM S p s).mulVec (fun k => nth v' k) - (dt * ν) • M.mulVec (fun k => nth v' k)
        = (toM S p s).mulVec (fun k => nth v k) + dt • fun i : Fin p => nth g i := by
  unfold EulerStep
  rw [solves1_iff h, one_smul]
  have : (fun i : Fin p => nth ((List.range S.rows).map fun i => nth (mulVec S v) i + dt * nth g i) i)
      = (toM S p s).mulVec (fun k => nth v k) + dt • fun i : Fin p => nth g i := by
    funext i
    have hi : (i : ℕ) < S.rows := by rw [h.srow]; omega
    rw [nth_map_range _ _ _ hi, nth_mulVec _ _ hi, h.scol, Finset.sum_range]
    rfl
  rw [this]

/-- C106: implicit Euler steps of any length `dt > 0` for `∂u/∂t = ν u'' + g`, `u = 0` at both ends, can be
continued for ever: from every initial function there is exactly one sequence of steps. -/
theorem C106_run (o : Mode) (n : ℕ) (hm : n ≤ 2642246) (b : Compo ℝ) (hb : Compo.new .dirichlet n = ok b)
    (ν dt : ℝ) (hν : 0 < ν) (hdt : 0 < dt) :
    ∃ S P I, b.stencilMat = ok S ∧ b.laplacianPinv o = ok (P, I) ∧ I.rows = b.lenSpec ∧
      ∀ g v₀ : List ℝ, v₀.length = b.lenSpec →
        ∃! v : ℕ → List ℝ, v 0 = v₀ ∧ (∀ m, (v m).length = b.lenSpec) ∧
          ∀ m, EulerStep S P I ν dt g (v m) (v (m + 1)) := by
  obtain ⟨S, P, I, hS, hP, hI, hu⟩ := C102_dirichlet o n hm b hb 1 (dt * ν) zero_le_one (by positivity)
    (by positivity)
  refine ⟨S, P, I, hS, hP, hI, fun g v₀ hv₀ => ?_⟩
  have hrows : S.rows = b.lenOrth := by
    obtain ⟨S₂, P₂, I₂, k⟩ := tauSetup o hm hb
    obtain rfl : S = S₂ := Res.ok.inj (hS.symm.trans k.hS)
    rw [k.r1, k.ho]
  have step : ∀ v : List ℝ, ∃! v', v'.length = b.lenSpec ∧ EulerStep S P I ν dt g v v' := fun v =>
    (hu _ (by rw [List.length_map, List.length_range, hrows])).1
  exact run_unique (fun v => v.length = b.lenSpec) (EulerStep S P I ν dt g) step hv₀

/-- C106: without source no number of steps of whatever length amplifies the solution: the weighted mean
square of the resolved Chebyshev coefficients never grows. -/
theorem C106_stable (o : Mode) (n : ℕ) (hm : n ≤ 2642246) (b : Compo ℝ)
    (hb : Compo.new .dirichlet n = ok b) (ν dt : ℝ) (hν : 0 < ν) (hdt : 0 < dt) :
    ∃ S P I, b.stencilMat = ok S ∧ b.laplacianPinv o = ok (P, I) ∧
      ∀ v : ℕ → List ℝ, (∀ m, (v m).length = b.lenSpec) →
        (∀ m, EulerStep S P I ν dt [] (v m) (v (m + 1))) →
        ∀ m k, m ≤ k → ∑ i ∈ range (n - 2), chebWeight i * nth (mulVec S (v k)) i ^ 2
          ≤ ∑ i ∈ range (n - 2), chebWeight i * nth (mulVec S (v m)) i ^ 2 := by
  obtain ⟨S, P, I, h⟩ := tauSetup o hm hb
  refine ⟨S, P, I, h.hS, h.hP, fun v hl hs => ?_⟩
  have hn := h.hn
  obtain ⟨p, rfl⟩ : ∃ p, n = p + 2 := ⟨n - 2, by omega⟩
  obtain ⟨Q, M, ha⟩ := axis_tau h
  have hd := (euler_decay (Matrix.mulVecLin (toM S p b.lenSpec)) (Matrix.mulVecLin M)
    (fun i : Fin p => wInt_TT_pos i) (axis_energy h ha) (mul_pos hdt hν)
    (fun m (k : Fin b.lenSpec) => nth (v m) k) (fun m => by
      have := (step_iff ha ν dt [] (v m) (v (m + 1))).mp (hs m)
      rw [show (fun i : Fin p => nth ([] : List ℝ) i) = 0 from rfl, smul_zero, add_zero] at this
      exact this)).1
  have key : ∀ m, ∑ i ∈ range p, chebWeight i * nth (mulVec S (v (m + 1))) i ^ 2
      ≤ ∑ i ∈ range p, chebWeight i * nth (mulVec S (v m)) i ^ 2 := by
    intro m
    have e : ∀ m, Real.pi * ∑ i ∈ range p, chebWeight i * nth (mulVec S (v m)) i ^ 2
        = ∑ i : Fin p, wInt (Chebyshev.T ℝ ((i : ℕ) : ℤ) ^ 2) *
          Matrix.mulVecLin (toM S p b.lenSpec) (fun k => nth (v m) k) i ^ 2 := by
      intro m
      rw [Finset.mul_sum, Finset.sum_range]
      refine Finset.sum_congr rfl fun i _ => ?_
      rw [wInt_T_sq, nth_mulVec _ _ (by rw [ha.srow]; omega), ha.scol, Finset.sum_range, mul_assoc]
      rfl
    refine le_of_mul_le_mul_left ?_ Real.pi_pos
    rw [e, e]
    exact hd m
  intro m k hmk
  exact antitone_nat_of_succ_le (f := fun m => ∑ i ∈ range p, chebWeight i * nth (mulVec S (v m)) i ^ 2) key hmk

/-- C106: with a constant source the steps converge, for every step length and every initial function, to
the solution of the steady problem `-ν u'' = g`. -/
theorem C106_converges (o : Mode) (n : ℕ) (hm : n ≤ 2642246) (b : Compo ℝ)
    (hb : Compo.new .dirichlet n = ok b) (ν dt : ℝ) (hν : 0 < ν) (hdt : 0 < dt) :
    ∃ S P I, b.stencilMat = ok S ∧ b.laplacianPinv o = ok (P, I) ∧
      ∀ (g u : List ℝ) (v : ℕ → List ℝ), u.length = b.lenSpec → (∀ m, (v m).length = b.lenSpec) →
        SolvesHelmholtz S P I 0 ν g u → (∀ m, EulerStep S P I ν dt g (v m) (v (m + 1))) →
        ∀ k, Tendsto (fun m => nth (v m) k) atTop (𝓝 (nth u k)) := by
  obtain ⟨S, P, I, h⟩ := tauSetup o hm hb
  refine ⟨S, P, I, h.hS, h.hP, fun g u v hu hl hg hs k => ?_⟩
  have hn := h.hn
  obtain ⟨p, rfl⟩ : ∃ p, n = p + 2 := ⟨n - 2, by omega⟩
  obtain ⟨Q, M, ha⟩ := axis_tau h
  have hg' := (solves1_iff ha 0 ν g u).mp hg
  rw [zero_smul, zero_sub] at hg'
  have hd := (euler_decay (Matrix.mulVecLin (toM S p b.lenSpec)) (Matrix.mulVecLin M)
    (fun i : Fin p => wInt_TT_pos i) (axis_energy h ha) (mul_pos hdt hν)
    (fun m => (fun k : Fin b.lenSpec => nth (v m) k) - fun k : Fin b.lenSpec => nth u k) (fun m => by
      have := (step_iff ha ν dt g (v m) (v (m + 1))).mp (hs m)
      rw [← hg'] at this
      rw [map_sub, map_sub, map_sub, smul_sub]
      simp only [Matrix.mulVecLin_apply]
      rw [smul_neg, smul_smul] at this
      rw [← sub_eq_zero] at this ⊢
      rw [← this]
      abel)).2
  by_cases hk : k < b.lenSpec
  · have := (tendsto_pi_nhds.mp hd) ⟨k, hk⟩
    have h2 := this.add_const (nth u k)
    simpa using h2
  · have z : ∀ l : List ℝ, l.length = b.lenSpec → nth l k = 0 := fun l hl => nth_of_le _ _ (by omega)
    simp only [z u hu, z _ (hl _)]
    exact tendsto_const_nhds

/-! ### two dimensions -/

theorem step2_iff {p s p' s' : ℕ} {S P I S' P' I' : Mat ℝ} {Q : Matrix (Fin p) (Fin p) ℝ}
    {M : Matrix (Fin p) (Fin s) ℝ} {Q' : Matrix (Fin p') (Fin p') ℝ} {M' : Matrix (Fin p') (Fin s') ℝ}
    (h : AxisTau p s S P I Q M) (h' : AxisTau p' s' S' P' I' Q' M') (ν dt : ℝ) (G V V' : Mat ℝ) :
    EulerStep2 S P I S' P' I' ν dt G V V' ↔
      toM S p s * toM V' s s' * (toM S' p' s').transpose
        - (dt * ν) • (toM S p s * toM V' s s' * M'.transpose + M * toM V' s s' * (toM S' p' s').transpose)
        = toM S p s * toM V s s' * (toM S' p' s').transpose + dt • toM G p p' := by
  unfold EulerStep2
  rw [solves2_iff h h', one_smul]
  have : toM (⟨S.rows, S'.rows, fun i j =>
      (∑ k ∈ range S.cols, ∑ l ∈ range S'.cols, S.get i k * S'.get j l * V.get k l) + dt * G.get i j⟩ : Mat ℝ)
        p p' = toM S p s * toM V s s' * (toM S' p' s').transpose + dt • toM G p p' := by
    ext i j
    rw [Matrix.add_apply, kron_apply]
    show (∑ k ∈ range S.cols, ∑ l ∈ range S'.cols, S.get i k * S'.get j l * V.get k l) + dt * G.get i j = _
    rw [h.scol, h'.scol, Finset.sum_range]
    simp only [Finset.sum_range]
    rfl
  rw [this]

/-- the map `X ↦ A X Bᵀ` on coefficient arrays -/
noncomputable def kronLin {p s p' s' : ℕ} (A : Matrix (Fin p) (Fin s) ℝ) (B : Matrix (Fin p') (Fin s') ℝ) :
    (Fin s → Fin s' → ℝ) →ₗ[ℝ] (Fin p × Fin p' → ℝ) where
  toFun X := fun ij => (A * Matrix.of X * B.transpose) ij.1 ij.2
  map_add' X Y := by
    funext ij
    show _ = (A * Matrix.of X * B.transpose) ij.1 ij.2 + (A * Matrix.of Y * B.transpose) ij.1 ij.2
    rw [← Matrix.add_apply, ← Matrix.add_mul, ← Matrix.mul_add]
    rfl
  map_smul' r X := by
    funext ij
    show _ = r * (A * Matrix.of X * B.transpose) ij.1 ij.2
    rw [← smul_eq_mul, ← Matrix.smul_apply, ← Matrix.smul_mul, ← Matrix.mul_smul]
    rfl

/-- energy and decay in two dimensions -/
private theorem euler2 {p s p' s' : ℕ} {N M : Matrix (Fin p) (Fin s) ℝ} {N' M' : Matrix (Fin p') (Fin s') ℝ}
    {w : Fin p → ℝ} {w' : Fin p' → ℝ} (hw : ∀ i, 0 < w i) (hw' : ∀ i, 0 < w' i)
    (h : ∀ x, ∑ i, w i * (N.mulVec x i * M.mulVec x i) ≤ 0 ∧
      (∑ i, w i * (N.mulVec x i * M.mulVec x i) = 0 → x = 0))
    (h' : ∀ x, ∑ i, w' i * (N'.mulVec x i * M'.mulVec x i) ≤ 0 ∧
      (∑ i, w' i * (N'.mulVec x i * M'.mulVec x i) = 0 → x = 0)) {τ : ℝ} (hτ : 0 < τ)
    (e : ℕ → Matrix (Fin s) (Fin s') ℝ)
    (he : ∀ m, N * e (m + 1) * N'.transpose
      - τ • (N * e (m + 1) * M'.transpose + M * e (m + 1) * N'.transpose) = N * e m * N'.transpose) :
    (∀ m, ∑ i, ∑ j, w i * w' j * (N * e (m + 1) * N'.transpose) i j ^ 2
      ≤ ∑ i, ∑ j, w i * w' j * (N * e m * N'.transpose) i j ^ 2) ∧
    ∀ k l, Tendsto (fun m => e m k l) atTop (𝓝 0) := by
  have hd := euler_decay (kronLin N N') (kronLin N M' + kronLin M N') (w := fun ij => w ij.1 * w' ij.2)
    (fun ij => mul_pos (hw _) (hw' _)) (fun X => by
      obtain ⟨E, h0, h1, hE⟩ := kron_energy hw hw' h h' (Matrix.of X)
      have : ∑ ij : Fin p × Fin p', w ij.1 * w' ij.2 *
          (kronLin N N' X ij * (kronLin N M' + kronLin M N') X ij) = E := by
        rw [← hE, Fintype.sum_prod_type]
        rfl
      rw [this]
      exact ⟨h0, fun e => h1 e⟩) hτ (fun m => (e m : Fin s → Fin s' → ℝ)) (fun m => by
      funext ij
      have := congrFun (congrFun (he m) ij.1) ij.2
      exact this)
  refine ⟨fun m => ?_, fun k l => ?_⟩
  · have := hd.1 m
    rw [Fintype.sum_prod_type, Fintype.sum_prod_type] at this
    exact this
  · exact (tendsto_pi_nhds.mp ((tendsto_pi_nhds.mp hd.2) k)) l

/-- C106: in two dimensions, on a `cheb_dirichlet` × `cheb_dirichlet` space, the implicit Euler steps for
`∂u/∂t = ν Δu + g` can be continued for ever, in exactly one way. -/
theorem C106_run2 (o : Mode) (n n' : ℕ) (hm : n ≤ 2642246) (hm' : n' ≤ 2642246) (b b' : Compo ℝ)
    (hb : Compo.new .dirichlet n = ok b) (hb' : Compo.new .dirichlet n' = ok b')
    (ν dt : ℝ) (hν : 0 < ν) (hdt : 0 < dt) :
    ∃ S P I S' P' I', b.stencilMat = ok S ∧ b.laplacianPinv o = ok (P, I) ∧
      b'.stencilMat = ok S' ∧ b'.laplacianPinv o = ok (P', I') ∧
      ∀ G V₀ : Mat ℝ, V₀.rows = b.lenSpec → V₀.cols = b'.lenSpec →
        ∃ V : ℕ → Mat ℝ, V 0 = V₀ ∧ (∀ m, (V m).rows = b.lenSpec ∧ (V m).cols = b'.lenSpec) ∧
          (∀ m, EulerStep2 S P I S' P' I' ν dt G (V m) (V (m + 1))) ∧
          ∀ W : ℕ → Mat ℝ, SameMat V₀ (W 0) → (∀ m, (W m).rows = b.lenSpec ∧ (W m).cols = b'.lenSpec) →
            (∀ m, EulerStep2 S P I S' P' I' ν dt G (W m) (W (m + 1))) → ∀ m, SameMat (V m) (W m) := by
  obtain ⟨S, P, I, S', P', I', h1, h2, h3, h4, -, -, hu, -⟩ := C104_helmholtz o n n' hm hm' b b' hb hb'
    1 (dt * ν) (by positivity) (by positivity)
  refine ⟨S, P, I, S', P', I', h1, h2, h3, h4, fun G V₀ r₀ c₀ => ?_⟩
  have hc : S.cols = b.lenSpec ∧ S'.cols = b'.lenSpec := by
    obtain ⟨S₂, P₂, I₂, k⟩ := tauSetup o hm hb
    obtain ⟨S₂', P₂', I₂', k'⟩ := tauSetup o hm' hb'
    obtain rfl : S = S₂ := Res.ok.inj (h1.symm.trans k.hS)
    obtain rfl : S' = S₂' := Res.ok.inj (h3.symm.trans k'.hS)
    exact ⟨k.r2, k'.r2⟩
  have step : ∀ V : Mat ℝ, ∃ V' : Mat ℝ, V'.rows = b.lenSpec ∧ V'.cols = b'.lenSpec ∧
      EulerStep2 S P I S' P' I' ν dt G V V' ∧ ∀ W : Mat ℝ, W.rows = b.lenSpec → W.cols = b'.lenSpec →
        EulerStep2 S P I S' P' I' ν dt G V W → SameMat V' W := fun V => hu _
  choose f fr fc fs fu using step
  have e : ∀ m, f^[m + 1] V₀ = f (f^[m] V₀) := fun m => Function.iterate_succ_apply' f m V₀
  refine ⟨fun m => f^[m] V₀, rfl, fun m => ?_, fun m => ?_, fun W w0 wd ws m => ?_⟩
  · cases m with
    | zero => exact ⟨r₀, c₀⟩
    | succ m =>
      show (f^[m + 1] V₀).rows = _ ∧ (f^[m + 1] V₀).cols = _
      rw [e]; exact ⟨fr _, fc _⟩
  · show EulerStep2 S P I S' P' I' ν dt G (f^[m] V₀) (f^[m + 1] V₀)
    rw [e]; exact fs _
  · induction m with
    | zero => exact w0
    | succ m ih =>
      show SameMat (f^[m + 1] V₀) _
      rw [e]
      refine fu _ _ (wd _).1 (wd _).2 ?_
      have hs := ws m
      have same : ∀ k < S.cols, ∀ l < S'.cols, (f^[m] V₀).get k l = (W m).get k l := by
        intro k hk l hl
        have hrc : (f^[m] V₀).rows = b.lenSpec ∧ (f^[m] V₀).cols = b'.lenSpec := by
          have := wd m
          exact ⟨ih.1.trans this.1, ih.2.1.trans this.2⟩
        exact ih.2.2 k (by rw [hrc.1, ← hc.1]; exact hk) l (by rw [hrc.2, ← hc.2]; exact hl)
      unfold EulerStep2 at hs ⊢
      have : (fun i j => (∑ k ∈ range S.cols, ∑ l ∈ range S'.cols, S.get i k * S'.get j l *
            (f^[m] V₀).get k l) + dt * G.get i j)
          = fun i j => (∑ k ∈ range S.cols, ∑ l ∈ range S'.cols, S.get i k * S'.get j l *
            (W m).get k l) + dt * G.get i j := by
        funext i j
        congr 1
        exact Finset.sum_congr rfl fun k hk => Finset.sum_congr rfl fun l hl => by
          rw [same k (Finset.mem_range.mp hk) l (Finset.mem_range.mp hl)]
      rw [this]
      exact hs

/-- C106: in two dimensions too, no number of steps of whatever length amplifies the solution. -/
theorem C106_stable2 (o : Mode) (n n' : ℕ) (hm : n ≤ 2642246) (hm' : n' ≤ 2642246) (b b' : Compo ℝ)
    (hb : Compo.new .dirichlet n = ok b) (hb' : Compo.new .dirichlet n' = ok b')
    (ν dt : ℝ) (hν : 0 < ν) (hdt : 0 < dt) :
    ∃ S P I S' P' I', b.stencilMat = ok S ∧ b.laplacianPinv o = ok (P, I) ∧
      b'.stencilMat = ok S' ∧ b'.laplacianPinv o = ok (P', I') ∧
      ∀ (G : Mat ℝ) (V : ℕ → Mat ℝ), (∀ i j, G.get i j = 0) →
        (∀ m, EulerStep2 S P I S' P' I' ν dt G (V m) (V (m + 1))) →
        ∃ U : ℕ → ℕ → ℕ → ℝ, (∀ m x y, fn2 S S' (V m) x y = chebSum2 n n' (U m) x y) ∧
          ∀ m k, m ≤ k →
            ∑ i ∈ range (n - 2), ∑ j ∈ range (n' - 2), chebWeight i * chebWeight j * U k i j ^ 2
              ≤ ∑ i ∈ range (n - 2), ∑ j ∈ range (n' - 2), chebWeight i * chebWeight j * U m i j ^ 2 := by
  obtain ⟨S, P, I, h⟩ := tauSetup o hm hb
  obtain ⟨S', P', I', h'⟩ := tauSetup o hm' hb'
  have hn := h.hn
  have hn' := h'.hn
  refine ⟨S, P, I, S', P', I', h.hS, h.hP, h'.hS, h'.hP, fun G V hG hs => ?_⟩
  obtain ⟨p, rfl⟩ : ∃ p, n = p + 2 := ⟨n - 2, by omega⟩
  obtain ⟨p', rfl⟩ : ∃ p', n' = p' + 2 := ⟨n' - 2, by omega⟩
  obtain ⟨Q, M, ha⟩ := axis_tau h
  obtain ⟨Q', M', ha'⟩ := axis_tau h'
  have hG0 : toM G p p' = 0 := by ext i j; exact hG i j
  have hd := (euler2 (fun i : Fin p => wInt_TT_pos i) (fun i : Fin p' => wInt_TT_pos i)
    (axis_energy h ha) (axis_energy h' ha') (mul_pos hdt hν)
    (fun m => toM (V m) b.lenSpec b'.lenSpec) (fun m => by
      have := (step2_iff ha ha' ν dt G (V m) (V (m + 1))).mp (hs m)
      rwa [hG0, smul_zero, add_zero] at this)).1
  have hU : ∀ (m : ℕ) (i : Fin p) (j : Fin p'), helmCoeff S S' (V m) M M' 1 0 i j
      = (toM S p b.lenSpec * toM (V m) b.lenSpec b'.lenSpec * (toM S' p' b'.lenSpec).transpose) i j :=
    fun m i j => by rw [helmCoeff_apply S S' (V m) M M' 1 0 i j, one_smul, zero_smul, sub_zero]
  refine ⟨fun m => helmCoeff S S' (V m) M M' 1 0, fun m x y => ?_, fun m k hmk => ?_⟩
  · have := helm_eval ha ha' 1 0 (V m) x y
    rwa [one_mul, zero_mul, sub_zero] at this
  · refine antitone_nat_of_succ_le (f := fun m => ∑ i ∈ range (p + 2 - 2), ∑ j ∈ range (p' + 2 - 2),
      chebWeight i * chebWeight j * helmCoeff S S' (V m) M M' 1 0 i j ^ 2) (fun m => ?_) hmk
    simp only [Nat.add_sub_cancel, Finset.sum_range, hU]
    have hπ : 0 < Real.pi ^ 2 := by positivity
    refine le_of_mul_le_mul_left ?_ hπ
    have := hd m
    simp only [wInt_T_sq] at this
    calc _ = _ := ?_
      _ ≤ _ := this
      _ = _ := ?_
    · simp only [Finset.mul_sum]
      exact Finset.sum_congr rfl fun i _ => Finset.sum_congr rfl fun j _ => by ring
    · simp only [Finset.mul_sum]
      exact Finset.sum_congr rfl fun i _ => Finset.sum_congr rfl fun j _ => by ring

/-- C106: in two dimensions the steps converge, with any step length and from any initial function, to the
solution of the steady problem `-ν Δu = g`. -/
theorem C106_converges2 (o : Mode) (n n' : ℕ) (hm : n ≤ 2642246) (hm' : n' ≤ 2642246) (b b' : Compo ℝ)
    (hb : Compo.new .dirichlet n = ok b) (hb' : Compo.new .dirichlet n' = ok b')
    (ν dt : ℝ) (hν : 0 < ν) (hdt : 0 < dt) :
    ∃ S P I S' P' I', b.stencilMat = ok S ∧ b.laplacianPinv o = ok (P, I) ∧
      b'.stencilMat = ok S' ∧ b'.laplacianPinv o = ok (P', I') ∧
      ∀ (G U : Mat ℝ) (V : ℕ → Mat ℝ), SolvesHelmholtz2 S P I S' P' I' 0 ν G U →
        (∀ m, EulerStep2 S P I S' P' I' ν dt G (V m) (V (m + 1))) →
        (∀ k < b.lenSpec, ∀ l < b'.lenSpec, Tendsto (fun m => (V m).get k l) atTop (𝓝 (U.get k l))) ∧
        ∀ x y, Tendsto (fun m => fn2 S S' (V m) x y) atTop (𝓝 (fn2 S S' U x y)) := by
  obtain ⟨S, P, I, h⟩ := tauSetup o hm hb
  obtain ⟨S', P', I', h'⟩ := tauSetup o hm' hb'
  have hn := h.hn
  have hn' := h'.hn
  refine ⟨S, P, I, S', P', I', h.hS, h.hP, h'.hS, h'.hP, fun G U V hU hs => ?_⟩
  obtain ⟨p, rfl⟩ : ∃ p, n = p + 2 := ⟨n - 2, by omega⟩
  obtain ⟨p', rfl⟩ : ∃ p', n' = p' + 2 := ⟨n' - 2, by omega⟩
  obtain ⟨Q, M, ha⟩ := axis_tau h
  obtain ⟨Q', M', ha'⟩ := axis_tau h'
  have hg := (solves2_iff ha ha' 0 ν G U).mp hU
  rw [zero_smul, zero_sub] at hg
  have hd := (euler2 (fun i : Fin p => wInt_TT_pos i) (fun i : Fin p' => wInt_TT_pos i)
    (axis_energy h ha) (axis_energy h' ha') (mul_pos hdt hν)
    (fun m => toM (V m) b.lenSpec b'.lenSpec - toM U b.lenSpec b'.lenSpec) (fun m => by
      have := (step2_iff ha ha' ν dt G (V m) (V (m + 1))).mp (hs m)
      rw [← hg, smul_neg, smul_smul] at this
      simp only [Matrix.mul_sub, Matrix.sub_mul]
      rw [← sub_eq_zero] at this ⊢
      rw [← this]
      simp only [smul_add, smul_sub]
      abel)).2
  have hc : ∀ k < b.lenSpec, ∀ l < b'.lenSpec, Tendsto (fun m => (V m).get k l) atTop (𝓝 (U.get k l)) := by
    intro k hk l hl
    have := (hd ⟨k, hk⟩ ⟨l, hl⟩).add_const (U.get k l)
    rw [zero_add] at this
    refine this.congr fun m => ?_
    rw [Matrix.sub_apply]
    exact sub_add_cancel _ _
  refine ⟨hc, fun x y => ?_⟩
  unfold fn2
  refine tendsto_finset_sum _ fun k hk => tendsto_finset_sum _ fun l hl => ?_
  refine (hc k ?_ l ?_).mul_const _
  · have := Finset.mem_range.mp hk; rwa [ha.scol] at this
  · have := Finset.mem_range.mp hl; rwa [ha'.scol] at this

/-- Non-vacuity: the steady state of C106 exists, and a run from any function converges to it. -/
example (o : Mode) (b b' : Compo ℝ) (hb : Compo.new .dirichlet 33 = ok b)
    (hb' : Compo.new .dirichlet 17 = ok b') (G V₀ : Mat ℝ) (h0 : V₀.rows = b.lenSpec) (h0' : V₀.cols = b'.lenSpec) :
    ∃ (S P I S' P' I' U : Mat ℝ) (V : ℕ → Mat ℝ), V 0 = V₀ ∧ SolvesHelmholtz2 S P I S' P' I' 0 3 G U ∧
      (∀ m, EulerStep2 S P I S' P' I' 3 1000 G (V m) (V (m + 1))) ∧
      ∀ x y, Tendsto (fun m => fn2 S S' (V m) x y) atTop (𝓝 (fn2 S S' U x y)) := by
  obtain ⟨S, P, I, S', P', I', h1, h2, h3, h4, hr⟩ := C106_run2 o 33 17 (by norm_num) (by norm_num) b b' hb hb'
    3 1000 (by norm_num) (by norm_num)
  obtain ⟨S₂, P₂, I₂, S₂', P₂', I₂', g1, g2, g3, g4, hcv⟩ := C106_converges2 o 33 17 (by norm_num) (by norm_num)
    b b' hb hb' 3 1000 (by norm_num) (by norm_num)
  obtain ⟨S₃, P₃, I₃, S₃', P₃', I₃', k1, k2, k3, k4, -, -, hp, -⟩ := C104_helmholtz o 33 17 (by norm_num)
    (by norm_num) b b' hb hb' 0 3 (by norm_num) (by norm_num)
  obtain rfl : S = S₂ := Res.ok.inj (h1.symm.trans g1)
  obtain rfl : S' = S₂' := Res.ok.inj (h3.symm.trans g3)
  obtain ⟨rfl, rfl⟩ : P = P₂ ∧ I = I₂ := Prod.mk.inj (Res.ok.inj (h2.symm.trans g2))
  obtain ⟨rfl, rfl⟩ : P' = P₂' ∧ I' = I₂' := Prod.mk.inj (Res.ok.inj (h4.symm.trans g4))
  obtain rfl : S = S₃ := Res.ok.inj (h1.symm.trans k1)
  obtain rfl : S' = S₃' := Res.ok.inj (h3.symm.trans k3)
  obtain ⟨rfl, rfl⟩ : P = P₃ ∧ I = I₃ := Prod.mk.inj (Res.ok.inj (h2.symm.trans k2))
  obtain ⟨rfl, rfl⟩ : P' = P₃' ∧ I' = I₃' := Prod.mk.inj (Res.ok.inj (h4.symm.trans k4))
  obtain ⟨U, -, -, hU, -⟩ := hp G
  obtain ⟨V, v0, -, vs, -⟩ := hr G V₀ h0 h0'
  exact ⟨S, P, I, S', P', I', U, V, v0, hU, vs, (hcv G U V hU vs).2⟩

end Verif.Props
