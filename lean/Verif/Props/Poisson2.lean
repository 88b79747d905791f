/-
Property C104: the two-dimensional Poisson problem, assembled from the matrices of two bases, is a
tau equation and has exactly one solution.
-/
import Verif.Proof.Poisson2
import Verif.Props.Fourier

namespace Verif.Props
open Res Spec Finset Polynomial

/-- C104: for any two bases with boundary conditions, `V` solves the two-dimensional system if and
only if the function `u` with coefficients `V` satisfies `β u - c Δu = f` up to products of Chebyshev
polynomials of which one has one of the two highest degrees of its axis. -/
theorem C104_tau (o : Mode) (kind kind' : CKind) (n n' : ℕ) (hm : n ≤ 2642246) (hm' : n' ≤ 2642246)
    (b b' : Compo ℝ) (hb : Compo.new kind n = ok b) (hb' : Compo.new kind' n' = ok b') :
    ∃ S P I S' P' I', b.stencilMat = ok S ∧ b.laplacianPinv o = ok (P, I) ∧
      b'.stencilMat = ok S' ∧ b'.laplacianPinv o = ok (P', I') ∧ I.rows = n - 2 ∧ I'.rows = n' - 2 ∧
      ∀ (β c : ℝ) (F V : Mat ℝ), SolvesHelmholtz2 S P I S' P' I' β c F V ↔
        ∃ R : ℕ → ℕ → ℝ, (∀ i < n - 2, ∀ j < n' - 2, R i j = 0) ∧
          ∀ x y, β * fn2 S S' V x y - c * laplacian2 (fn2 S S' V) x y
            = chebSum2 n n' F.get x y + chebSum2 n n' R x y := by
  obtain ⟨S, P, I, h⟩ := tauSetup o hm hb
  obtain ⟨S', P', I', h'⟩ := tauSetup o hm' hb'
  refine ⟨S, P, I, S', P', I', h.hS, h.hP, h'.hS, h'.hP, h.irow, h'.irow, fun β c F V => ?_⟩
  have hn := h.hn
  have hn' := h'.hn
  obtain ⟨p, rfl⟩ : ∃ p, n = p + 2 := ⟨n - 2, by omega⟩
  obtain ⟨p', rfl⟩ : ∃ p', n' = p' + 2 := ⟨n' - 2, by omega⟩
  obtain ⟨Q, M, ha⟩ := axis_tau h
  obtain ⟨Q', M', ha'⟩ := axis_tau h'
  rw [solves2_iff ha ha' β c F V]
  simp only [Nat.add_sub_cancel]
  constructor
  · intro e
    refine ⟨fun i j => helmCoeff S S' V M M' β c i j - F.get i j, fun i hi j hj => ?_, fun x y => ?_⟩
    · have := helmCoeff_apply S S' V M M' β c ⟨i, hi⟩ ⟨j, hj⟩
      rw [e] at this
      exact sub_eq_zero.mpr this
    · rw [helm_eval ha ha']
      unfold chebSum2
      simp only [← Finset.sum_add_distrib]
      exact Finset.sum_congr rfl fun i _ => Finset.sum_congr rfl fun j _ => by ring
  · rintro ⟨R, hR, hu⟩
    ext i j
    rw [← helmCoeff_apply S S' V M M' β c i j]
    have := chebSum2_inj (n := p + 2) (n' := p' + 2) (F := helmCoeff S S' V M M' β c)
      (G := fun i j => F.get i j + R i j) (fun x y => by
        rw [← helm_eval ha ha', hu]
        unfold chebSum2
        simp only [← Finset.sum_add_distrib]
        exact Finset.sum_congr rfl fun i _ => Finset.sum_congr rfl fun j _ => by ring)
      i (by omega) j (by omega)
    rw [this, hR i i.2 j j.2, add_zero]
    rfl

theorem dirichlet_len {n : ℕ} {b : Compo ℝ} (hb : Compo.new .dirichlet n = ok b) :
    b.lenSpec = n - 2 := by
  have hw := Compo.wf_of_new hb
  have : b.lenSpec = b.m := rfl
  have := hw.m_eq
  exact this

/-- C104: the Helmholtz equation `β u - c Δu = f` with `c ≠ 0` and `β` zero or of the sign of `c`, on a
`cheb_dirichlet` × `cheb_dirichlet` space, has, for every right hand side, exactly one solution, and
its function vanishes on the whole boundary of the square. -/
theorem C104_helmholtz (o : Mode) (n n' : ℕ) (hm : n ≤ 2642246) (hm' : n' ≤ 2642246)
    (b b' : Compo ℝ) (hb : Compo.new .dirichlet n = ok b) (hb' : Compo.new .dirichlet n' = ok b')
    (β c : ℝ) (hc : c ≠ 0) (hβ : 0 ≤ β * c) :
    ∃ S P I S' P' I', b.stencilMat = ok S ∧ b.laplacianPinv o = ok (P, I) ∧
      b'.stencilMat = ok S' ∧ b'.laplacianPinv o = ok (P', I') ∧
      I.rows = b.lenSpec ∧ I'.rows = b'.lenSpec ∧
      (∀ F : Mat ℝ, ∃ V : Mat ℝ, V.rows = b.lenSpec ∧ V.cols = b'.lenSpec ∧
        SolvesHelmholtz2 S P I S' P' I' β c F V ∧
        ∀ W : Mat ℝ, W.rows = b.lenSpec → W.cols = b'.lenSpec →
          SolvesHelmholtz2 S P I S' P' I' β c F W → SameMat V W) ∧
      ∀ (V : Mat ℝ) (t : ℝ), fn2 S S' V 1 t = 0 ∧ fn2 S S' V (-1) t = 0 ∧
        fn2 S S' V t 1 = 0 ∧ fn2 S S' V t (-1) = 0 := by
  obtain ⟨S, P, I, h⟩ := tauSetup o hm hb
  obtain ⟨S', P', I', h'⟩ := tauSetup o hm' hb'
  have hn := h.hn
  have hn' := h'.hn
  have hs := dirichlet_len hb
  have hs' := dirichlet_len hb'
  refine ⟨S, P, I, S', P', I', h.hS, h.hP, h'.hS, h'.hP, by rw [h.irow, hs], by rw [h'.irow, hs'], ?_, ?_⟩
  · obtain ⟨p, rfl⟩ : ∃ p, n = p + 2 := ⟨n - 2, by omega⟩
    obtain ⟨p', rfl⟩ : ∃ p', n' = p' + 2 := ⟨n' - 2, by omega⟩
    obtain ⟨Q, M, ha⟩ := axis_tau h
    obtain ⟨Q', M', ha'⟩ := axis_tau h'
    have hz : ∀ X : Matrix (Fin b.lenSpec) (Fin b'.lenSpec) ℝ,
        β • (toM S p b.lenSpec * X * (toM S' p' b'.lenSpec).transpose)
          - c • (toM S p b.lenSpec * X * M'.transpose + M * X * (toM S' p' b'.lenSpec).transpose) = 0 →
        X = 0 :=
      fun X e => kron_unique (fun i => wInt_TT_pos i) (fun i => wInt_TT_pos i) (axis_energy h ha)
        (axis_energy h' ha') hc hβ e
    intro F
    -- the linear map is injective between spaces of equal dimension
    let L : Matrix (Fin b.lenSpec) (Fin b'.lenSpec) ℝ →ₗ[ℝ] Matrix (Fin p) (Fin p') ℝ :=
      { toFun := fun X => β • (toM S p b.lenSpec * X * (toM S' p' b'.lenSpec).transpose)
          - c • (toM S p b.lenSpec * X * M'.transpose + M * X * (toM S' p' b'.lenSpec).transpose)
        map_add' := fun X Y => by simp only [Matrix.mul_add, Matrix.add_mul, smul_add]; abel
        map_smul' := fun r X => by
          simp only [Matrix.mul_smul, Matrix.smul_mul, RingHom.id_apply, smul_add, smul_sub,
            smul_comm r] }
    have hinj : Function.Injective L := by
      rw [← LinearMap.ker_eq_bot, LinearMap.ker_eq_bot']
      exact hz
    have hdim : Module.finrank ℝ (Matrix (Fin b.lenSpec) (Fin b'.lenSpec) ℝ)
        = Module.finrank ℝ (Matrix (Fin p) (Fin p') ℝ) := by
      rw [Module.finrank_matrix, Module.finrank_matrix]
      simp only [Fintype.card_fin]
      rw [hs, hs', Nat.add_sub_cancel, Nat.add_sub_cancel]
    obtain ⟨X, hX⟩ := (LinearMap.injective_iff_surjective_of_finrank_eq_finrank hdim).mp hinj (toM F p p')
    have hsol : ∀ V : Mat ℝ, SolvesHelmholtz2 S P I S' P' I' β c F V ↔
        L (toM V b.lenSpec b'.lenSpec) = toM F p p' := fun V => by
      rw [solves2_iff ha ha' β c F V]; rfl
    have hext : toM ⟨b.lenSpec, b'.lenSpec, extM X⟩ b.lenSpec b'.lenSpec = X := by
      ext i j
      show extM X i j = _
      unfold extM
      rw [dif_pos ⟨i.2, j.2⟩]
    refine ⟨⟨b.lenSpec, b'.lenSpec, extM X⟩, rfl, rfl, (hsol _).mpr (by rw [hext, hX]),
      fun W w1 w2 hW => ⟨w1.symm, w2.symm, fun i hi j hj => ?_⟩⟩
    have : toM W b.lenSpec b'.lenSpec = X := hinj (by rw [(hsol W).mp hW, hX])
    rw [← hext] at this
    exact (congrFun (congrFun this ⟨i, hi⟩) ⟨j, hj⟩).symm
  · have van : ∀ {n : ℕ} {b : Compo ℝ} {S P I : Mat ℝ}, TauSetup o .dirichlet n b S P I →
        ∀ k < S.cols, stencilFn S k 1 = 0 ∧ stencilFn S k (-1) = 0 := by
      intro n b S P I h k hk
      have e : chebPoly ℝ (mulVec S (eVec S.cols k)) = colPoly S k := by
        unfold chebPoly colPoly
        rw [mulVec_length]
        refine Finset.sum_congr rfl fun i hi => ?_
        rw [mulVec_unit S hk (Finset.mem_range.mp hi)]
      have hbc : (chebPoly ℝ (mulVec S (eVec S.cols k))).eval 1 = 0 ∧
        (chebPoly ℝ (mulVec S (eVec S.cols k))).eval (-1) = 0 := h.bc _
      rw [e, colPoly_eval, colPoly_eval] at hbc
      exact hbc
    intro V t
    unfold fn2
    refine ⟨?_, ?_, ?_, ?_⟩ <;>
      refine Finset.sum_eq_zero fun k hk => Finset.sum_eq_zero fun l hl => ?_
    · rw [(van h k (Finset.mem_range.mp hk)).1]; ring
    · rw [(van h k (Finset.mem_range.mp hk)).2]; ring
    · rw [(van h' l (Finset.mem_range.mp hl)).1]; ring
    · rw [(van h' l (Finset.mem_range.mp hl)).2]; ring

/-- C104: Poisson's equation `Δu = f` is the case `β = 0`, `c = -1`: it has, for every right hand side,
exactly one solution, and its function vanishes on the whole boundary of the square. -/
theorem C104_poisson (o : Mode) (n n' : ℕ) (hm : n ≤ 2642246) (hm' : n' ≤ 2642246)
    (b b' : Compo ℝ) (hb : Compo.new .dirichlet n = ok b) (hb' : Compo.new .dirichlet n' = ok b') :
    ∃ S P I S' P' I', b.stencilMat = ok S ∧ b.laplacianPinv o = ok (P, I) ∧
      b'.stencilMat = ok S' ∧ b'.laplacianPinv o = ok (P', I') ∧
      I.rows = b.lenSpec ∧ I'.rows = b'.lenSpec ∧
      (∀ F : Mat ℝ, ∃ V : Mat ℝ, V.rows = b.lenSpec ∧ V.cols = b'.lenSpec ∧
        SolvesHelmholtz2 S P I S' P' I' 0 (-1) F V ∧
        ∀ W : Mat ℝ, W.rows = b.lenSpec → W.cols = b'.lenSpec →
          SolvesHelmholtz2 S P I S' P' I' 0 (-1) F W → SameMat V W) ∧
      ∀ (V : Mat ℝ) (t : ℝ), fn2 S S' V 1 t = 0 ∧ fn2 S S' V (-1) t = 0 ∧
        fn2 S S' V t 1 = 0 ∧ fn2 S S' V t (-1) = 0 :=
  C104_helmholtz o n n' hm hm' b b' hb hb' 0 (-1) (by norm_num) (by norm_num)

/-- C104: stability. The solution of `β u - c Δu = f` with `β, c ≥ 0` is bounded by the right hand side:
in the weighted mean square of the resolved coefficients `β ‖u‖ ≤ ‖f‖`, with no constant that depends on
the sizes. -/
theorem C104_stable (o : Mode) (n n' : ℕ) (hm : n ≤ 2642246) (hm' : n' ≤ 2642246)
    (b b' : Compo ℝ) (hb : Compo.new .dirichlet n = ok b) (hb' : Compo.new .dirichlet n' = ok b')
    (β c : ℝ) (hβ : 0 ≤ β) (hc : 0 ≤ c) :
    ∃ S P I S' P' I', b.stencilMat = ok S ∧ b.laplacianPinv o = ok (P, I) ∧
      b'.stencilMat = ok S' ∧ b'.laplacianPinv o = ok (P', I') ∧
      ∀ F V : Mat ℝ, SolvesHelmholtz2 S P I S' P' I' β c F V →
        ∃ U : ℕ → ℕ → ℝ, (∀ x y, fn2 S S' V x y = chebSum2 n n' U x y) ∧
          β ^ 2 * ∑ i ∈ range (n - 2), ∑ j ∈ range (n' - 2), chebWeight i * chebWeight j * U i j ^ 2
            ≤ ∑ i ∈ range (n - 2), ∑ j ∈ range (n' - 2), chebWeight i * chebWeight j * F.get i j ^ 2 := by
  obtain ⟨S, P, I, h⟩ := tauSetup o hm hb
  obtain ⟨S', P', I', h'⟩ := tauSetup o hm' hb'
  have hn := h.hn
  have hn' := h'.hn
  refine ⟨S, P, I, S', P', I', h.hS, h.hP, h'.hS, h'.hP, fun F V hV => ?_⟩
  obtain ⟨p, rfl⟩ : ∃ p, n = p + 2 := ⟨n - 2, by omega⟩
  obtain ⟨p', rfl⟩ : ∃ p', n' = p' + 2 := ⟨n' - 2, by omega⟩
  obtain ⟨Q, M, ha⟩ := axis_tau h
  obtain ⟨Q', M', ha'⟩ := axis_tau h'
  have hst := kron_stable (fun i : Fin p => wInt_TT_pos i) (fun i : Fin p' => wInt_TT_pos i)
    (axis_energy h ha) (axis_energy h' ha') hc hβ ((solves2_iff ha ha' β c F V).mp hV)
  refine ⟨helmCoeff S S' V M M' 1 0, fun x y => ?_, ?_⟩
  · have := helm_eval ha ha' 1 0 V x y
    rwa [one_mul, zero_mul, sub_zero] at this
  · simp only [Nat.add_sub_cancel, Finset.sum_range]
    have hU : ∀ (i : Fin p) (j : Fin p'), helmCoeff S S' V M M' 1 0 i j
        = (toM S p b.lenSpec * toM V b.lenSpec b'.lenSpec * (toM S' p' b'.lenSpec).transpose) i j :=
      fun i j => by
        rw [helmCoeff_apply S S' V M M' 1 0 i j, one_smul, zero_smul, sub_zero]
    simp only [hU]
    have hπ : 0 < Real.pi ^ 2 := by positivity
    refine le_of_mul_le_mul_left ?_ hπ
    simp only [wInt_T_sq] at hst
    calc _ = _ := ?_
      _ ≤ _ := hst
      _ = _ := ?_
    · simp only [Finset.mul_sum]
      exact Finset.sum_congr rfl fun i _ => Finset.sum_congr rfl fun j _ => by ring
    · simp only [Finset.mul_sum]
      exact Finset.sum_congr rfl fun i _ => Finset.sum_congr rfl fun j _ => by
        show _ = Real.pi ^ 2 * (chebWeight i * chebWeight j * F.get i j ^ 2)
        rw [show toM F p p' i j = F.get i j from rfl]; ring

/-- C104: exactness. If a function of the space satisfies `β u - c Δu = f` everywhere (`c ≠ 0`, `β` zero
or of the sign of `c`; `Δu = f` is `β = 0`, `c = -1`), the system returns its
coefficients and nothing else. -/
theorem C104_exact (o : Mode) (n n' : ℕ) (hm : n ≤ 2642246) (hm' : n' ≤ 2642246)
    (b b' : Compo ℝ) (hb : Compo.new .dirichlet n = ok b) (hb' : Compo.new .dirichlet n' = ok b')
    (β c : ℝ) (hc : c ≠ 0) (hβ : 0 ≤ β * c) :
    ∃ S P I S' P' I', b.stencilMat = ok S ∧ b.laplacianPinv o = ok (P, I) ∧
      b'.stencilMat = ok S' ∧ b'.laplacianPinv o = ok (P', I') ∧
      ∀ F V W : Mat ℝ, V.rows = b.lenSpec → V.cols = b'.lenSpec → W.rows = b.lenSpec →
        W.cols = b'.lenSpec → (∀ x y, β * fn2 S S' W x y - c * laplacian2 (fn2 S S' W) x y = chebSum2 n n' F.get x y) →
        (SolvesHelmholtz2 S P I S' P' I' β c F V ↔ SameMat V W) := by
  obtain ⟨S, P, I, S', P', I', h1, h2, h3, h4, r, r', ht⟩ := C104_tau o _ _ n n' hm hm' b b' hb hb'
  obtain ⟨S₂, P₂, I₂, S₂', P₂', I₂', g1, g2, g3, g4, -, -, hp, -⟩ := C104_helmholtz o n n' hm hm' b b' hb hb'
    β c hc hβ
  obtain rfl : S = S₂ := Res.ok.inj (h1.symm.trans g1)
  obtain rfl : S' = S₂' := Res.ok.inj (h3.symm.trans g3)
  obtain ⟨rfl, rfl⟩ : P = P₂ ∧ I = I₂ := Prod.mk.inj (Res.ok.inj (h2.symm.trans g2))
  obtain ⟨rfl, rfl⟩ : P' = P₂' ∧ I' = I₂' := Prod.mk.inj (Res.ok.inj (h4.symm.trans g4))
  obtain ⟨S₃, P₃, I₃, k⟩ := tauSetup o hm hb
  obtain ⟨S₃', P₃', I₃', k'⟩ := tauSetup o hm' hb'
  obtain rfl : S = S₃ := Res.ok.inj (h1.symm.trans k.hS)
  obtain rfl : S' = S₃' := Res.ok.inj (h3.symm.trans k'.hS)
  refine ⟨S, P, I, S', P', I', h1, h2, h3, h4, fun F V W v1 v2 w1 w2 hW => ?_⟩
  have hWs : SolvesHelmholtz2 S P I S' P' I' β c F W := (ht β c F W).mpr
    ⟨fun _ _ => 0, fun _ _ _ _ => rfl, fun x y => by
      rw [hW]; unfold chebSum2; simp⟩
  constructor
  · intro hV
    obtain ⟨U, u1, u2, -, hu⟩ := hp F
    obtain ⟨a1, a2, a3⟩ := hu V v1 v2 hV
    obtain ⟨c1, c2, c3⟩ := hu W w1 w2 hWs
    refine ⟨by rw [v1, w1], by rw [v2, w2], fun i hi j hj => ?_⟩
    rw [← a3 i (by rw [a1]; exact hi) j (by rw [a2]; exact hj),
      c3 i (by rw [a1]; exact hi) j (by rw [a2]; exact hj)]
  · rintro ⟨-, -, e⟩
    intro i hi j hj
    rw [← hWs i hi j hj]
    refine Finset.sum_congr rfl fun k₁ hk => Finset.sum_congr rfl fun l hl => ?_
    rw [e k₁ (by rw [v1, ← k.r2]; exact Finset.mem_range.mp hk) l
      (by rw [v2, ← k'.r2]; exact Finset.mem_range.mp hl)]

private theorem solve_modes (o : Mode) (kind : CKind) (hk : kind = .dirichlet ∨ kind = .dirichletNeumann)
    (n m : ℕ) (hm : n ≤ 2642246) (b : Compo ℝ) (hb : Compo.new kind n = ok b) (E L : Mat ℝ)
    (κ : ℕ → ℝ) (hE : IsIdentity m E)
    (hL : ∀ i < m, ∀ j < m, L.get i j = if i = j then -(κ i ^ 2) else 0) :
    ∃ S P I, b.stencilMat = ok S ∧ b.laplacianPinv o = ok (P, I) ∧ I.rows = b.lenSpec ∧
      ∀ F : Mat ℂ, ∃ V : Mat ℂ, V.rows = m ∧ V.cols = b.lenSpec ∧ SolvesModes E L S P I F V ∧
        ∀ W : Mat ℂ, W.rows = m → W.cols = b.lenSpec → SolvesModes E L S P I F W → SameMat V W := by
  obtain ⟨S, P, I, h⟩ := tauSetup o hm hb
  have hlen : I.rows = b.lenSpec := by
    rcases hk with rfl | rfl
    · obtain ⟨_, P', I', -, h2, h3, -⟩ := C102_dirichlet o n hm b hb 1 1 (by norm_num) (by norm_num) (by norm_num)
      obtain ⟨rfl, rfl⟩ : P = P' ∧ I = I' := Prod.mk.inj (Res.ok.inj (h.hP.symm.trans h2))
      exact h3
    · obtain ⟨_, P', I', -, h2, h3, -⟩ := C102_mixed o n hm b hb 1 1 (by norm_num) (by norm_num) (by norm_num)
      obtain ⟨rfl, rfl⟩ : P = P' ∧ I = I' := Prod.mk.inj (Res.ok.inj (h.hP.symm.trans h2))
      exact h3
  have huniq : ∀ k, ∀ f : List ℝ, f.length = b.lenOrth →
      ∃! v : List ℝ, v.length = b.lenSpec ∧ SolvesHelmholtz S P I (κ k ^ 2) 1 f v := by
    intro k
    rcases hk with rfl | rfl
    · obtain ⟨S', P', I', h1, h2, -, h3⟩ := C102_dirichlet o n hm b hb (κ k ^ 2) 1 (sq_nonneg _) (by norm_num)
        (by positivity)
      obtain rfl : S = S' := Res.ok.inj (h.hS.symm.trans h1)
      obtain ⟨rfl, rfl⟩ : P = P' ∧ I = I' := Prod.mk.inj (Res.ok.inj (h.hP.symm.trans h2))
      exact fun f hf => (h3 f hf).1
    · obtain ⟨S', P', I', h1, h2, -, h3⟩ := C102_mixed o n hm b hb (κ k ^ 2) 1 (sq_nonneg _) (by norm_num)
        (by positivity)
      obtain rfl : S = S' := Res.ok.inj (h.hS.symm.trans h1)
      obtain ⟨rfl, rfl⟩ : P = P' ∧ I = I' := Prod.mk.inj (Res.ok.inj (h.hP.symm.trans h2))
      exact fun f hf => (h3 f hf).1
  -- one row of the system, real or imaginary part
  have hrow : ∀ (part : ℂ →ₗ[ℝ] ℝ) (F V : Mat ℂ) (k : ℕ), SolvesHelmholtz S P I (κ k ^ 2) 1
      ((List.range n).map fun l => -part (F.get k l)) ((List.range b.lenSpec).map fun l => part (V.get k l)) ↔
      ∀ i < I.rows, part (∑ l ∈ range S.cols,
        ((((matMul I S).get i l - κ k ^ 2 * (matMul (matMul I P) S).get i l : ℝ)) : ℂ) * V.get k l)
        = part (∑ l ∈ range P.cols, ((matMul I P).get i l : ℂ) * F.get k l) := by
    intro part F V k
    unfold SolvesHelmholtz
    refine forall_congr' fun i => forall_congr' fun hi => ?_
    have l1 : nth (mulVec (matMul (matMul I P) S) ((List.range b.lenSpec).map fun l => part (V.get k l))) i
        = ∑ l ∈ range S.cols, (matMul (matMul I P) S).get i l * part (V.get k l) := by
      rw [nth_mulVec (matMul (matMul I P) S) _ hi]
      refine Finset.sum_congr rfl fun l hl => ?_
      have hl' : l < S.cols := Finset.mem_range.mp hl
      rw [nth_map_range _ _ _ (by rw [← h.r2]; exact hl')]; rfl
    have l2 : nth (mulVec (matMul I S) ((List.range b.lenSpec).map fun l => part (V.get k l))) i
        = ∑ l ∈ range S.cols, (matMul I S).get i l * part (V.get k l) := by
      rw [nth_mulVec (matMul I S) _ hi]
      refine Finset.sum_congr rfl fun l hl => ?_
      have hl' : l < S.cols := Finset.mem_range.mp hl
      rw [nth_map_range _ _ _ (by rw [← h.r2]; exact hl')]; rfl
    have l3 : nth (mulVec (matMul I P) ((List.range n).map fun l => -part (F.get k l))) i
        = -∑ l ∈ range P.cols, (matMul I P).get i l * part (F.get k l) := by
      rw [nth_mulVec (matMul I P) _ hi, ← Finset.sum_neg_distrib]
      refine Finset.sum_congr rfl fun l hl => ?_
      have hl' : l < P.cols := Finset.mem_range.mp hl
      rw [nth_map_range _ _ _ (by rw [← h.pcol]; exact hl'), smul_eq_mul, mul_neg]
    have pm : ∀ (r : ℝ) (z : ℂ), part ((r : ℂ) * z) = r * part z := fun r z => by
      rw [← Complex.real_smul, map_smul, smul_eq_mul]
    rw [l1, l2, l3, map_sum, map_sum]
    simp only [pm, sub_mul, Finset.sum_sub_distrib]
    rw [Finset.mul_sum]
    have e : ∑ l ∈ range S.cols, κ k ^ 2 * (matMul (matMul I P) S).get i l * part (V.get k l)
        = ∑ l ∈ range S.cols, κ k ^ 2 * ((matMul (matMul I P) S).get i l * part (V.get k l)) :=
      Finset.sum_congr rfl fun l _ => mul_assoc _ _ _
    rw [e]
    constructor <;> intro hh <;> linarith
  have hsol : ∀ F V : Mat ℂ, SolvesModes E L S P I F V ↔ ∀ k < m,
      SolvesHelmholtz S P I (κ k ^ 2) 1 ((List.range n).map fun l => -Complex.reLm (F.get k l))
        ((List.range b.lenSpec).map fun l => Complex.reLm (V.get k l)) ∧
      SolvesHelmholtz S P I (κ k ^ 2) 1 ((List.range n).map fun l => -Complex.imLm (F.get k l))
        ((List.range b.lenSpec).map fun l => Complex.imLm (V.get k l)) := by
    intro F V
    unfold SolvesModes
    rw [hE.1, hE.2.1]
    refine forall_congr' fun k => forall_congr' fun hk => ?_
    rw [hrow, hrow, ← forall_and]
    refine forall_congr' fun i => ?_
    rw [← forall_and]
    refine forall_congr' fun hi => ?_
    have e : ∑ k' ∈ range m, ∑ l ∈ range S.cols,
        ((E.get k k' * (matMul I S).get i l + L.get k k' * (matMul (matMul I P) S).get i l : ℝ) : ℂ)
          * V.get k' l
        = ∑ l ∈ range S.cols,
          ((((matMul I S).get i l - κ k ^ 2 * (matMul (matMul I P) S).get i l : ℝ)) : ℂ) * V.get k l := by
      rw [Finset.sum_eq_single k]
      · refine Finset.sum_congr rfl fun l _ => ?_
        rw [hE.2.2 k hk k hk, hL k hk k hk, if_pos rfl, if_pos rfl]
        congr 2; ring
      · intro k' hk' hne
        refine Finset.sum_eq_zero fun l _ => ?_
        rw [hE.2.2 k hk k' (Finset.mem_range.mp hk'), hL k hk k' (Finset.mem_range.mp hk'),
          if_neg (Ne.symm hne), if_neg (Ne.symm hne)]
        simp
      · intro hn; exact absurd (Finset.mem_range.mpr hk) hn
    rw [e]
    exact Complex.ext_iff
  refine ⟨S, P, I, h.hS, h.hP, hlen, fun F => ?_⟩
  choose vr hvr hur using fun k => huniq k ((List.range n).map fun l => -Complex.reLm (F.get k l))
    (by rw [h.ho]; simp)
  choose vi hvi hui using fun k => huniq k ((List.range n).map fun l => -Complex.imLm (F.get k l))
    (by rw [h.ho]; simp)
  have back : ∀ v : List ℝ, v.length = b.lenSpec → (List.range b.lenSpec).map (fun l => nth v l) = v :=
    fun v hv => ext_nth (by simp [hv]) fun i hi => by
      rw [nth_map_range _ _ _ (by simpa using hi)]
  refine ⟨⟨m, b.lenSpec, fun k l => ⟨nth (vr k) l, nth (vi k) l⟩⟩, rfl, rfl, (hsol _ _).mpr fun k _ => ?_, ?_⟩
  · show SolvesHelmholtz S P I (κ k ^ 2) 1 _ ((List.range b.lenSpec).map fun l => nth (vr k) l) ∧
      SolvesHelmholtz S P I (κ k ^ 2) 1 _ ((List.range b.lenSpec).map fun l => nth (vi k) l)
    rw [back _ (hvr k).1, back _ (hvi k).1]
    exact ⟨(hvr k).2, (hvi k).2⟩
  · intro W w1 w2 hW
    refine ⟨w1.symm, w2.symm, fun k hk l hl => ?_⟩
    obtain ⟨h1, h2⟩ := (hsol F W).mp hW k hk
    have e1 := hur k _ ⟨by simp, h1⟩
    have e2 := hui k _ ⟨by simp, h2⟩
    show (⟨nth (vr k) l, nth (vi k) l⟩ : ℂ) = W.get k l
    rw [← e1, ← e2, nth_map_range _ _ _ hl, nth_map_range _ _ _ hl]
    rfl

/-- C104: Poisson's equation on a `fourier_r2c` × `cheb_dirichlet` (or `cheb_dirichlet_neumann`)
space has exactly one solution for every right hand side. -/
theorem C104_r2c (o : Mode) (kind : CKind) (hk : kind = .dirichlet ∨ kind = .dirichletNeumann)
    (m n : ℕ) (hm : n ≤ 2642246) (f : R2c) (hf : R2c.new m = ok f) (b : Compo ℝ)
    (hb : Compo.new kind n = ok b) :
    ∃ E L S P I, f.stencil = ok E ∧ f.laplacian = ok L ∧ b.stencilMat = ok S ∧
      b.laplacianPinv o = ok (P, I) ∧ I.rows = b.lenSpec ∧
      ∀ F : Mat ℂ, ∃ V : Mat ℂ, V.rows = f.lenSpec ∧ V.cols = b.lenSpec ∧ SolvesModes E L S P I F V ∧
        ∀ W : Mat ℂ, W.rows = f.lenSpec → W.cols = b.lenSpec → SolvesModes E L S P I F W → SameMat V W := by
  obtain ⟨L, D, hL, -, -, -, hd, -⟩ := C30_laplacian m f hf
  obtain ⟨S, P, I, h1, h2, h3, h4⟩ := solve_modes o kind hk n f.lenSpec hm b hb (Mat.eye f.lenSpec) L
    (fun k => (k : ℝ)) ⟨rfl, rfl, fun _ _ _ _ => rfl⟩ hd
  exact ⟨_, L, S, P, I, rfl, hL, h1, h2, h3, h4⟩

/-- C104: the same with `fourier_c2c`. -/
theorem C104_c2c (o : Mode) (kind : CKind) (hk : kind = .dirichlet ∨ kind = .dirichletNeumann)
    (m n : ℕ) (hm1 : 1 ≤ m) (hm : n ≤ 2642246) (f : C2c) (hf : C2c.new m = ok f) (b : Compo ℝ)
    (hb : Compo.new kind n = ok b) :
    ∃ E L S P I, f.stencil = ok E ∧ f.laplacian = ok L ∧ b.stencilMat = ok S ∧
      b.laplacianPinv o = ok (P, I) ∧ I.rows = b.lenSpec ∧
      ∀ F : Mat ℂ, ∃ V : Mat ℂ, V.rows = f.lenSpec ∧ V.cols = b.lenSpec ∧ SolvesModes E L S P I F V ∧
        ∀ W : Mat ℂ, W.rows = f.lenSpec → W.cols = b.lenSpec → SolvesModes E L S P I F W → SameMat V W := by
  obtain ⟨L, D, hL, -, -, -, hd, -⟩ := C27_laplacian m hm1 f hf
  have hfm : f.lenSpec = m := by rw [c2c_of_new hf]; rfl
  obtain ⟨S, P, I, h1, h2, h3, h4⟩ := solve_modes o kind hk n f.lenSpec hm b hb (Mat.eye f.lenSpec) L
    (fun k => (freq m k : ℝ)) ⟨rfl, rfl, fun _ _ _ _ => rfl⟩ (by rw [hfm]; exact hd)
  exact ⟨_, L, S, P, I, rfl, hL, h1, h2, h3, h4⟩

/-- the hypotheses are satisfiable: on a 8 × 7 grid there is exactly one solution of
`Δu = T_3(x) T_2(y)`. -/
example : ∃ (b b' : Compo ℝ) (S P I S' P' I' V : Mat ℝ), Compo.new .dirichlet 8 = ok b ∧
    Compo.new .dirichlet 7 = ok b' ∧ b.stencilMat = ok S ∧ b'.stencilMat = ok S' ∧
    b.laplacianPinv .release = ok (P, I) ∧ b'.laplacianPinv .release = ok (P', I') ∧
    SolvesHelmholtz2 S P I S' P' I' 0 (-1) ⟨8, 7, fun i j => if i = 3 ∧ j = 2 then 1 else 0⟩ V := by
  obtain ⟨b, hb⟩ : ∃ b : Compo ℝ, Compo.new .dirichlet 8 = ok b := ⟨_, rfl⟩
  obtain ⟨b', hb'⟩ : ∃ b : Compo ℝ, Compo.new .dirichlet 7 = ok b := ⟨_, rfl⟩
  obtain ⟨S, P, I, S', P', I', h1, h2, h3, h4, -, -, hp, -⟩ := C104_poisson .release 8 7 (by norm_num)
    (by norm_num) b b' hb hb'
  obtain ⟨V, -, -, hV, -⟩ := hp ⟨8, 7, fun i j => if i = 3 ∧ j = 2 then 1 else 0⟩
  exact ⟨b, b', S, P, I, S', P', I', V, hb, hb', h1, h3, h2, h4, hV⟩

end Verif.Props
