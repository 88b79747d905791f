/-
Property C106 on Fourier × Chebyshev spaces.
-/
import Verif.Props.Euler

namespace Verif.Props
open Res Spec Finset Polynomial Filter Topology

private theorem part_mul (part : ℂ →ₗ[ℝ] ℝ) (r : ℝ) (z : ℂ) : part ((r : ℂ) * z) = r * part z := by
  rw [← Complex.real_smul, map_smul, smul_eq_mul]

/-- one row of the Helmholtz problem, real or imaginary part -/
theorem modes_iff {p s m : ℕ} {S P I E L : Mat ℝ} {Q : Matrix (Fin p) (Fin p) ℝ}
    {M : Matrix (Fin p) (Fin s) ℝ} (h : AxisTau p s S P I Q M) (κ : ℕ → ℝ) (hE : IsIdentity m E)
    (hL : ∀ i < m, ∀ j < m, L.get i j = if i = j then -(κ i ^ 2) else 0) (β c : ℝ) (F V : Mat ℂ) :
    SolvesModesHelmholtz E L S P I β c F V ↔ ∀ k < m, ∀ part ∈ [Complex.reLm, Complex.imLm],
      (β + c * κ k ^ 2) • (toM S p s).mulVec (fun l : Fin s => part (V.get k l))
        - c • M.mulVec (fun l : Fin s => part (V.get k l)) = fun i : Fin p => part (F.get k i) := by
  have hrow : ∀ (part : ℂ →ₗ[ℝ] ℝ) (k : ℕ),
      (β + c * κ k ^ 2) • (toM S p s).mulVec (fun l : Fin s => part (V.get k l))
        - c • M.mulVec (fun l : Fin s => part (V.get k l)) = (fun i : Fin p => part (F.get k i)) ↔
      ∀ i < I.rows, part (∑ l ∈ range S.cols,
        ((((β + c * κ k ^ 2) * (matMul (matMul I P) S).get i l - c * (matMul I S).get i l : ℝ)) : ℂ) * V.get k l)
        = part (∑ l ∈ range P.cols, ((matMul I P).get i l : ℂ) * F.get k l) := by
    intro part k
    have e1 : (fun l : Fin s => part (V.get k l))
        = fun l : Fin s => nth ((List.range s).map fun l => part (V.get k l)) l := by
      funext l; rw [nth_map_range _ _ _ l.2]
    have e2 : (fun i : Fin p => part (F.get k i))
        = fun i : Fin p => nth ((List.range (p + 2)).map fun l => part (F.get k l)) i := by
      funext l; rw [nth_map_range _ _ _ (by omega)]
    rw [e1, e2, ← solves1_iff h]
    unfold SolvesHelmholtz
    refine forall_congr' fun i => forall_congr' fun hi => ?_
    have l1 : nth (mulVec (matMul (matMul I P) S) ((List.range s).map fun l => part (V.get k l))) i
        = ∑ l ∈ range S.cols, (matMul (matMul I P) S).get i l * part (V.get k l) := by
      rw [nth_mulVec (matMul (matMul I P) S) _ hi]
      refine Finset.sum_congr rfl fun l hl => ?_
      have hl' : l < S.cols := Finset.mem_range.mp hl
      rw [nth_map_range _ _ _ (by rw [← h.scol]; exact hl')]; rfl
    have l2 : nth (mulVec (matMul I S) ((List.range s).map fun l => part (V.get k l))) i
        = ∑ l ∈ range S.cols, (matMul I S).get i l * part (V.get k l) := by
      rw [nth_mulVec (matMul I S) _ hi]
      refine Finset.sum_congr rfl fun l hl => ?_
      have hl' : l < S.cols := Finset.mem_range.mp hl
      rw [nth_map_range _ _ _ (by rw [← h.scol]; exact hl')]; rfl
    have l3 : nth (mulVec (matMul I P) ((List.range (p + 2)).map fun l => part (F.get k l))) i
        = ∑ l ∈ range P.cols, (matMul I P).get i l * part (F.get k l) := by
      rw [nth_mulVec (matMul I P) _ hi]
      refine Finset.sum_congr rfl fun l hl => ?_
      have hl' : l < P.cols := Finset.mem_range.mp hl
      rw [nth_map_range _ _ _ (by rw [← h.pcol]; exact hl'), smul_eq_mul]
    rw [l1, l2, l3, map_sum, map_sum]
    simp only [part_mul, sub_mul, Finset.sum_sub_distrib]
    rw [Finset.mul_sum, Finset.mul_sum]
    simp only [mul_assoc]
  unfold SolvesModesHelmholtz
  rw [hE.1, hE.2.1]
  refine forall_congr' fun k => forall_congr' fun hk => ?_
  simp only [List.forall_mem_cons, hrow]
  simp only [List.not_mem_nil, false_imp_iff, implies_true, and_true]
  rw [← forall_and]
  refine forall_congr' fun i => ?_
  rw [← forall_and]
  refine forall_congr' fun hi => ?_
  have e : ∑ k' ∈ range m, ∑ l ∈ range S.cols,
      ((β * (E.get k k' * (matMul (matMul I P) S).get i l) - c * (E.get k k' * (matMul I S).get i l
        + L.get k k' * (matMul (matMul I P) S).get i l) : ℝ) : ℂ) * V.get k' l
      = ∑ l ∈ range S.cols,
        ((((β + c * κ k ^ 2) * (matMul (matMul I P) S).get i l - c * (matMul I S).get i l : ℝ)) : ℂ) * V.get k l := by
    rw [Finset.sum_eq_single k]
    · refine Finset.sum_congr rfl fun l _ => ?_
      rw [hE.2.2 k hk k hk, hL k hk k hk, if_pos rfl, if_pos rfl]
      congr 2; ring
    · intro k' hk' hne
      refine Finset.sum_eq_zero fun l _ => ?_
      rw [hE.2.2 k hk k' (Finset.mem_range.mp hk'), hL k hk k' (Finset.mem_range.mp hk'),
        if_neg (Ne.symm hne), if_neg (Ne.symm hne)]
      simp
    · intro hn; exact absurd (Finset.mem_range.mpr hk) hn
  rw [e]
  exact Complex.ext_iff

/-- the steps of one mode with frequency `√μ` -/
private theorem damped {o : Mode} {p : ℕ} {b : Compo ℝ} {S P I : Mat ℝ}
    (h : TauSetup o .dirichlet (p + 2) b S P I) {Q : Matrix (Fin p) (Fin p) ℝ}
    {M : Matrix (Fin p) (Fin b.lenSpec) ℝ} (ha : AxisTau p b.lenSpec S P I Q M) {τ μ : ℝ} (hτ : 0 < τ) (hμ : 0 ≤ μ)
    (x : ℕ → Fin b.lenSpec → ℝ)
    (hx : ∀ m, (1 + τ * μ) • (toM S p b.lenSpec).mulVec (x (m + 1)) - τ • M.mulVec (x (m + 1))
      = (toM S p b.lenSpec).mulVec (x m)) :
    (∀ m, ∑ i : Fin p, chebWeight i * (toM S p b.lenSpec).mulVec (x (m + 1)) i ^ 2
      ≤ ∑ i : Fin p, chebWeight i * (toM S p b.lenSpec).mulVec (x m) i ^ 2) ∧
    ∀ l, Tendsto (fun m => x m l) atTop (𝓝 0) := by
  obtain ⟨h1, h2⟩ := euler_decay (Matrix.mulVecLin (toM S p b.lenSpec))
    (Matrix.mulVecLin M - μ • Matrix.mulVecLin (toM S p b.lenSpec))
    (fun i : Fin p => wInt_TT_pos i) (fun x => by
      have hE := axis_energy h ha x
      have e : ∑ i : Fin p, wInt (Chebyshev.T ℝ ((i : ℕ) : ℤ) ^ 2) * (Matrix.mulVecLin (toM S p b.lenSpec) x i *
            (Matrix.mulVecLin M - μ • Matrix.mulVecLin (toM S p b.lenSpec)) x i)
          = ∑ i : Fin p, wInt (Chebyshev.T ℝ ((i : ℕ) : ℤ) ^ 2)
              * ((toM S p b.lenSpec).mulVec x i * M.mulVec x i)
            - μ * ∑ i : Fin p, wInt (Chebyshev.T ℝ ((i : ℕ) : ℤ) ^ 2) * (toM S p b.lenSpec).mulVec x i ^ 2 := by
        rw [Finset.mul_sum, ← Finset.sum_sub_distrib]
        refine Finset.sum_congr rfl fun i _ => ?_
        simp only [LinearMap.sub_apply, LinearMap.smul_apply, Matrix.mulVecLin_apply, Pi.sub_apply, Pi.smul_apply,
          smul_eq_mul]
        ring
      have hs : 0 ≤ μ * ∑ i : Fin p, wInt (Chebyshev.T ℝ ((i : ℕ) : ℤ) ^ 2) * (toM S p b.lenSpec).mulVec x i ^ 2 :=
        mul_nonneg hμ (Finset.sum_nonneg fun i _ => mul_nonneg (wInt_TT_pos i).le (sq_nonneg _))
      rw [e]
      exact ⟨by linarith [hE.1], fun h0 => hE.2 (by linarith [hE.1])⟩) hτ x (fun m => by
      rw [← show _ = Matrix.mulVecLin (toM S p b.lenSpec) (x m) from hx m]
      simp only [LinearMap.sub_apply, LinearMap.smul_apply, Matrix.mulVecLin_apply]
      rw [smul_sub, smul_smul, add_smul, one_smul]
      abel)
  refine ⟨fun m => ?_, fun l => (tendsto_pi_nhds.mp h2) l⟩
  have e : ∀ m, Real.pi * ∑ i : Fin p, chebWeight i * (toM S p b.lenSpec).mulVec (x m) i ^ 2
      = ∑ i : Fin p, wInt (Chebyshev.T ℝ ((i : ℕ) : ℤ) ^ 2) *
        Matrix.mulVecLin (toM S p b.lenSpec) (x m) i ^ 2 := by
    intro m
    rw [Finset.mul_sum]
    refine Finset.sum_congr rfl fun i _ => ?_
    rw [wInt_T_sq, mul_assoc]
    rfl
  refine le_of_mul_le_mul_left ?_ Real.pi_pos
  rw [e, e]
  exact h1 m

private theorem parts_mem : Complex.reLm ∈ [Complex.reLm, Complex.imLm] ∧ Complex.imLm ∈ [Complex.reLm, Complex.imLm] := by
  simp

private theorem euler_modes (o : Mode) (n m : ℕ) (hm : n ≤ 2642246) (b : Compo ℝ)
    (hb : Compo.new .dirichlet n = ok b) (E L : Mat ℝ) (κ : ℕ → ℝ) (hE : IsIdentity m E)
    (hL : ∀ i < m, ∀ j < m, L.get i j = if i = j then -(κ i ^ 2) else 0)
    (ν dt : ℝ) (hν : 0 < ν) (hdt : 0 < dt) :
    ∃ S P I, b.stencilMat = ok S ∧ b.laplacianPinv o = ok (P, I) ∧
      (∀ G V₀ : Mat ℂ, V₀.rows = m → V₀.cols = b.lenSpec →
        ∃ V : ℕ → Mat ℂ, V 0 = V₀ ∧ (∀ t, (V t).rows = m ∧ (V t).cols = b.lenSpec) ∧
          (∀ t, EulerModes E L S P I ν dt G (V t) (V (t + 1))) ∧
          ∀ W : ℕ → Mat ℂ, SameMat V₀ (W 0) → (∀ t, (W t).rows = m ∧ (W t).cols = b.lenSpec) →
            (∀ t, EulerModes E L S P I ν dt G (W t) (W (t + 1))) → ∀ t, SameMat (V t) (W t)) ∧
      (∀ (G : Mat ℂ) (V : ℕ → Mat ℂ), (∀ k i, G.get k i = 0) →
        (∀ t, EulerModes E L S P I ν dt G (V t) (V (t + 1))) → ∀ k < m, ∀ t t', t ≤ t' →
          ∑ i ∈ range (n - 2), chebWeight i * ‖∑ l ∈ range S.cols, (S.get i l : ℂ) * (V t').get k l‖ ^ 2
            ≤ ∑ i ∈ range (n - 2), chebWeight i * ‖∑ l ∈ range S.cols, (S.get i l : ℂ) * (V t).get k l‖ ^ 2) ∧
      ∀ (F G U : Mat ℂ) (V : ℕ → Mat ℂ), (∀ k i, G.get k i = -ν * F.get k i) → SolvesModes E L S P I F U →
        (∀ t, EulerModes E L S P I ν dt G (V t) (V (t + 1))) →
        ∀ k < m, ∀ l < b.lenSpec, Tendsto (fun t => (V t).get k l) atTop (𝓝 (U.get k l)) := by
  obtain ⟨S, P, I, h⟩ := tauSetup o hm hb
  have hn := h.hn
  obtain ⟨p, rfl⟩ : ∃ p, n = p + 2 := ⟨n - 2, by omega⟩
  obtain ⟨Q, M, ha⟩ := axis_tau h
  have hτ : 0 < dt * ν := mul_pos hdt hν
  -- the step as a system of real vectors
  have hstep : ∀ G V V' : Mat ℂ, EulerModes E L S P I ν dt G V V' ↔ ∀ k < m,
      ∀ part ∈ [Complex.reLm, Complex.imLm],
      (1 + dt * ν * κ k ^ 2) • (toM S p b.lenSpec).mulVec (fun l : Fin b.lenSpec => part (V'.get k l))
        - (dt * ν) • M.mulVec (fun l : Fin b.lenSpec => part (V'.get k l))
        = (toM S p b.lenSpec).mulVec (fun l : Fin b.lenSpec => part (V.get k l))
          + dt • fun i : Fin p => part (G.get k i) := by
    intro G V V'
    unfold EulerModes
    rw [modes_iff ha κ hE hL]
    refine forall_congr' fun k => forall_congr' fun _ => forall_congr' fun part => forall_congr' fun _ => ?_
    have e : (fun i : Fin p => part ((∑ l ∈ range S.cols, (S.get i l : ℂ) * V.get k l) + dt * G.get k i))
        = (toM S p b.lenSpec).mulVec (fun l : Fin b.lenSpec => part (V.get k l))
          + dt • fun i : Fin p => part (G.get k i) := by
      funext i
      rw [map_add, map_sum, part_mul, ha.scol, Finset.sum_range]
      simp only [part_mul]
      rfl
    show _ = (fun i : Fin p => part ((∑ l ∈ range S.cols, (S.get i l : ℂ) * V.get k l) + dt * G.get k i)) ↔ _
    rw [e]
  refine ⟨S, P, I, h.hS, h.hP, ?_, ?_, ?_⟩
  · -- existence and uniqueness
    intro G V₀ r₀ c₀
    have huniq : ∀ k, ∀ f : List ℝ, f.length = b.lenOrth →
        ∃! v : List ℝ, v.length = b.lenSpec ∧ SolvesHelmholtz S P I (1 + dt * ν * κ k ^ 2) (dt * ν) f v := by
      intro k
      have hpos : 0 ≤ 1 + dt * ν * κ k ^ 2 := by positivity
      obtain ⟨S', P', I', h1, h2, -, h3⟩ := C102_dirichlet o (p + 2) hm b hb (1 + dt * ν * κ k ^ 2) (dt * ν) hpos
        hτ.le (by positivity)
      obtain rfl : S = S' := Res.ok.inj (h.hS.symm.trans h1)
      obtain ⟨rfl, rfl⟩ : P = P' ∧ I = I' := Prod.mk.inj (Res.ok.inj (h.hP.symm.trans h2))
      exact fun f hf => (h3 f hf).1
    have step : ∀ V : Mat ℂ, ∃ V' : Mat ℂ, V'.rows = m ∧ V'.cols = b.lenSpec ∧
        EulerModes E L S P I ν dt G V V' ∧ ∀ W : Mat ℂ, W.rows = m → W.cols = b.lenSpec →
          EulerModes E L S P I ν dt G V W → SameMat V' W := by
      intro V
      have sol : ∀ k (part : ℂ →ₗ[ℝ] ℝ), ∃ v : List ℝ, v.length = b.lenSpec ∧
          (1 + dt * ν * κ k ^ 2) • (toM S p b.lenSpec).mulVec (fun l : Fin b.lenSpec => nth v l)
            - (dt * ν) • M.mulVec (fun l : Fin b.lenSpec => nth v l)
            = (toM S p b.lenSpec).mulVec (fun l : Fin b.lenSpec => part (V.get k l))
              + (dt • fun i : Fin p => part (G.get k i)) ∧
          ∀ x : ℕ → ℝ, (1 + dt * ν * κ k ^ 2) • (toM S p b.lenSpec).mulVec (fun l : Fin b.lenSpec => x l)
            - (dt * ν) • M.mulVec (fun l : Fin b.lenSpec => x l)
            = (toM S p b.lenSpec).mulVec (fun l : Fin b.lenSpec => part (V.get k l))
              + (dt • fun i : Fin p => part (G.get k i)) → ∀ l < b.lenSpec, nth v l = x l := by
        intro k part
        set rhs := (toM S p b.lenSpec).mulVec (fun l : Fin b.lenSpec => part (V.get k l))
              + (dt • fun i : Fin p => part (G.get k i)) with hrhs
        set f : List ℝ := (List.range (p + 2)).map fun i => if hi : i < p then rhs ⟨i, hi⟩ else 0 with hf
        have hfr : (fun i : Fin p => nth f i) = rhs := by
          funext i
          rw [hf, nth_map_range _ _ _ (by omega), dif_pos i.2]
        obtain ⟨v, ⟨hv, hs⟩, hu⟩ := huniq k f (by rw [h.ho]; simp [hf])
        rw [solves1_iff ha, hfr] at hs
        refine ⟨v, hv, hs, fun x hx l hl => ?_⟩
        have e : (fun l : Fin b.lenSpec => x l) = fun l : Fin b.lenSpec => nth ((List.range b.lenSpec).map x) l := by
          funext l; rw [nth_map_range _ _ _ l.2]
        have := hu ((List.range b.lenSpec).map x) ⟨by simp, by rw [solves1_iff ha, hfr, ← e]; exact hx⟩
        rw [← this, nth_map_range _ _ _ hl]
      choose v hv hs hu using sol
      refine ⟨⟨m, b.lenSpec, fun k l => ⟨nth (v k Complex.reLm) l, nth (v k Complex.imLm) l⟩⟩, rfl, rfl,
        (hstep _ _ _).mpr fun k _ part hp => ?_, fun W w1 w2 hW => ⟨w1.symm, w2.symm, fun k hk l hl => ?_⟩⟩
      · simp only [List.mem_cons, List.not_mem_nil, or_false] at hp
        rcases hp with rfl | rfl
        · exact hs k Complex.reLm
        · exact hs k Complex.imLm
      · have hW' := (hstep G V W).mp hW k hk
        have r1 := hu k Complex.reLm (fun l => Complex.reLm (W.get k l)) (hW' _ parts_mem.1) l hl
        have r2 := hu k Complex.imLm (fun l => Complex.imLm (W.get k l)) (hW' _ parts_mem.2) l hl
        exact Complex.ext r1 r2
    choose f fr fc fs fu using step
    have e : ∀ t, f^[t + 1] V₀ = f (f^[t] V₀) := fun t => Function.iterate_succ_apply' f t V₀
    refine ⟨fun t => f^[t] V₀, rfl, fun t => ?_, fun t => ?_, fun W w0 wd ws t => ?_⟩
    · cases t with
      | zero => exact ⟨r₀, c₀⟩
      | succ t =>
        show (f^[t + 1] V₀).rows = _ ∧ (f^[t + 1] V₀).cols = _
        rw [e]; exact ⟨fr _, fc _⟩
    · show EulerModes E L S P I ν dt G (f^[t] V₀) (f^[t + 1] V₀)
      rw [e]; exact fs _
    · induction t with
      | zero => exact w0
      | succ t ih =>
        show SameMat (f^[t + 1] V₀) _
        rw [e]
        refine fu _ _ (wd _).1 (wd _).2 ?_
        have hs := (hstep _ _ _).mp (ws t)
        refine (hstep _ _ _).mpr fun k hk part hp => ?_
        rw [hs k hk part hp]
        have hr : (f^[t] V₀).rows = m := ih.1.trans (wd t).1
        have hc : (f^[t] V₀).cols = b.lenSpec := ih.2.1.trans (wd t).2
        have : (fun l : Fin b.lenSpec => part ((W t).get k l))
            = fun l : Fin b.lenSpec => part ((f^[t] V₀).get k l) := by
          funext l
          rw [ih.2.2 k (by rw [hr]; exact hk) l (by rw [hc]; exact l.2)]
        rw [this]
  · -- stability
    intro G V hG hs k hk t t' htt
    have key : ∀ t, ∑ i ∈ range p, chebWeight i * ‖∑ l ∈ range S.cols, (S.get i l : ℂ) * (V (t + 1)).get k l‖ ^ 2
        ≤ ∑ i ∈ range p, chebWeight i * ‖∑ l ∈ range S.cols, (S.get i l : ℂ) * (V t).get k l‖ ^ 2 := by
      have hd : ∀ part ∈ [Complex.reLm, Complex.imLm], ∀ t,
          ∑ i : Fin p, chebWeight i * (toM S p b.lenSpec).mulVec (fun l => part ((V (t + 1)).get k l)) i ^ 2
          ≤ ∑ i : Fin p, chebWeight i * (toM S p b.lenSpec).mulVec (fun l => part ((V t).get k l)) i ^ 2 := by
        intro part hp
        exact (damped h ha hτ (sq_nonneg (κ k)) (fun t l => part ((V t).get k l)) (fun t => by
          have := (hstep G (V t) (V (t + 1))).mp (hs t) k hk part hp
          rw [this]
          have z : (fun i : Fin p => part (G.get k i)) = 0 := by
            funext i; rw [hG, map_zero]; rfl
          rw [z, smul_zero, add_zero])).1
      have hsum : ∀ t, ∑ i ∈ range p, chebWeight i * ‖∑ l ∈ range S.cols, (S.get i l : ℂ) * (V t).get k l‖ ^ 2
          = ∑ i : Fin p, chebWeight i * (toM S p b.lenSpec).mulVec (fun l => Complex.reLm ((V t).get k l)) i ^ 2
            + ∑ i : Fin p, chebWeight i * (toM S p b.lenSpec).mulVec (fun l => Complex.imLm ((V t).get k l)) i ^ 2 := by
        intro t
        rw [← Finset.sum_add_distrib, Finset.sum_range]
        refine Finset.sum_congr rfl fun i _ => ?_
        have hp : ∀ part : ℂ →ₗ[ℝ] ℝ, part (∑ l ∈ range S.cols, (S.get i l : ℂ) * (V t).get k l)
            = (toM S p b.lenSpec).mulVec (fun l => part ((V t).get k l)) i := by
          intro part
          rw [map_sum, ha.scol, Finset.sum_range]
          simp only [part_mul]
          rfl
        rw [← hp, ← hp, ← Complex.normSq_eq_norm_sq, Complex.normSq_apply, Complex.reLm_coe, Complex.imLm_coe]
        ring
      intro t
      rw [hsum, hsum]
      exact add_le_add (hd _ parts_mem.1 t) (hd _ parts_mem.2 t)
    exact antitone_nat_of_succ_le (f := fun t => ∑ i ∈ range p, chebWeight i *
      ‖∑ l ∈ range S.cols, (S.get i l : ℂ) * (V t).get k l‖ ^ 2) key htt
  · -- convergence
    intro F G U V hG hU hs k hk l hl
    have hU' : SolvesModesHelmholtz E L S P I 0 (-1) F U := by
      intro k hk i hi
      refine Eq.trans ?_ (hU k hk i hi)
      refine Finset.sum_congr rfl fun k' _ => Finset.sum_congr rfl fun l _ => ?_
      congr 2; ring
    have hUk := (modes_iff ha κ hE hL 0 (-1) F U).mp hU' k hk
    have hc : ∀ part ∈ [Complex.reLm, Complex.imLm],
        Tendsto (fun t => part ((V t).get k l)) atTop (𝓝 (part (U.get k l))) := by
      intro part hp
      have h2 := (damped h ha hτ (sq_nonneg (κ k))
        (fun t => (fun l : Fin b.lenSpec => part ((V t).get k l)) - fun l : Fin b.lenSpec => part (U.get k l))
        (fun t => by
          have h1 := (hstep G (V t) (V (t + 1))).mp (hs t) k hk part hp
          have h3 := hUk part hp
          have z : (fun i : Fin p => part (G.get k i)) = (-ν) • fun i : Fin p => part (F.get k i) := by
            funext i
            rw [hG, ← Complex.ofReal_neg, part_mul]; rfl
          rw [z, ← h3] at h1
          rw [Matrix.mulVec_sub, Matrix.mulVec_sub, Matrix.mulVec_sub]
          rw [← sub_eq_zero] at h1 ⊢
          rw [← h1]
          module)).2 ⟨l, hl⟩
      have h4 := h2.add_const (part (U.get k l))
      simpa using h4
    have h1 := hc _ parts_mem.1
    have h2 := hc _ parts_mem.2
    have h3 := (Complex.continuous_ofReal.tendsto _).comp h1
    have h4 := ((Complex.continuous_ofReal.tendsto _).comp h2).mul_const Complex.I
    have h5 := h3.add h4
    simpa [Function.comp_def, Complex.re_add_im] using h5

/-- C106 on a `fourier_r2c` × `cheb_dirichlet` space, for `∂u/∂t = ν Δu + g`: implicit Euler steps of any length can be
continued for ever in exactly one way; without source no Fourier mode is amplified; with a constant source
`g = -ν f` all coefficients converge to those of the solution of Poisson's equation `Δu = f` (C104). -/
theorem C106_r2c (o : Mode) (m n : ℕ) (hm : n ≤ 2642246) (f : R2c) (hf : R2c.new m = ok f) (b : Compo ℝ)
    (hb : Compo.new .dirichlet n = ok b) (ν dt : ℝ) (hν : 0 < ν) (hdt : 0 < dt) :
    ∃ E L S P I, f.stencil = ok E ∧ f.laplacian = ok L ∧ b.stencilMat = ok S ∧ b.laplacianPinv o = ok (P, I) ∧
      (∀ G V₀ : Mat ℂ, V₀.rows = f.lenSpec → V₀.cols = b.lenSpec →
        ∃ V : ℕ → Mat ℂ, V 0 = V₀ ∧ (∀ t, (V t).rows = f.lenSpec ∧ (V t).cols = b.lenSpec) ∧
          (∀ t, EulerModes E L S P I ν dt G (V t) (V (t + 1))) ∧
          ∀ W : ℕ → Mat ℂ, SameMat V₀ (W 0) → (∀ t, (W t).rows = f.lenSpec ∧ (W t).cols = b.lenSpec) →
            (∀ t, EulerModes E L S P I ν dt G (W t) (W (t + 1))) → ∀ t, SameMat (V t) (W t)) ∧
      (∀ (G : Mat ℂ) (V : ℕ → Mat ℂ), (∀ k i, G.get k i = 0) →
        (∀ t, EulerModes E L S P I ν dt G (V t) (V (t + 1))) → ∀ k < f.lenSpec, ∀ t t', t ≤ t' →
          ∑ i ∈ range (n - 2), chebWeight i * ‖∑ l ∈ range S.cols, (S.get i l : ℂ) * (V t').get k l‖ ^ 2
            ≤ ∑ i ∈ range (n - 2), chebWeight i * ‖∑ l ∈ range S.cols, (S.get i l : ℂ) * (V t).get k l‖ ^ 2) ∧
      ∀ (F G U : Mat ℂ) (V : ℕ → Mat ℂ), (∀ k i, G.get k i = -ν * F.get k i) → SolvesModes E L S P I F U →
        (∀ t, EulerModes E L S P I ν dt G (V t) (V (t + 1))) →
        ∀ k < f.lenSpec, ∀ l < b.lenSpec, Tendsto (fun t => (V t).get k l) atTop (𝓝 (U.get k l)) := by
  obtain ⟨L, D, hL, -, -, -, hd, -⟩ := C30_laplacian m f hf
  obtain ⟨S, P, I, h⟩ := euler_modes o n f.lenSpec hm b hb (Mat.eye f.lenSpec) L
    (fun k => (k : ℝ)) ⟨rfl, rfl, fun _ _ _ _ => rfl⟩ hd ν dt hν hdt
  exact ⟨_, L, S, P, I, rfl, hL, h⟩

/-- C106: the same with `fourier_c2c`. -/
theorem C106_c2c (o : Mode) (m n : ℕ) (hm1 : 1 ≤ m) (hm : n ≤ 2642246) (f : C2c) (hf : C2c.new m = ok f) (b : Compo ℝ)
    (hb : Compo.new .dirichlet n = ok b) (ν dt : ℝ) (hν : 0 < ν) (hdt : 0 < dt) :
    ∃ E L S P I, f.stencil = ok E ∧ f.laplacian = ok L ∧ b.stencilMat = ok S ∧ b.laplacianPinv o = ok (P, I) ∧
      (∀ G V₀ : Mat ℂ, V₀.rows = f.lenSpec → V₀.cols = b.lenSpec →
        ∃ V : ℕ → Mat ℂ, V 0 = V₀ ∧ (∀ t, (V t).rows = f.lenSpec ∧ (V t).cols = b.lenSpec) ∧
          (∀ t, EulerModes E L S P I ν dt G (V t) (V (t + 1))) ∧
          ∀ W : ℕ → Mat ℂ, SameMat V₀ (W 0) → (∀ t, (W t).rows = f.lenSpec ∧ (W t).cols = b.lenSpec) →
            (∀ t, EulerModes E L S P I ν dt G (W t) (W (t + 1))) → ∀ t, SameMat (V t) (W t)) ∧
      (∀ (G : Mat ℂ) (V : ℕ → Mat ℂ), (∀ k i, G.get k i = 0) →
        (∀ t, EulerModes E L S P I ν dt G (V t) (V (t + 1))) → ∀ k < f.lenSpec, ∀ t t', t ≤ t' →
          ∑ i ∈ range (n - 2), chebWeight i * ‖∑ l ∈ range S.cols, (S.get i l : ℂ) * (V t').get k l‖ ^ 2
            ≤ ∑ i ∈ range (n - 2), chebWeight i * ‖∑ l ∈ range S.cols, (S.get i l : ℂ) * (V t).get k l‖ ^ 2) ∧
      ∀ (F G U : Mat ℂ) (V : ℕ → Mat ℂ), (∀ k i, G.get k i = -ν * F.get k i) → SolvesModes E L S P I F U →
        (∀ t, EulerModes E L S P I ν dt G (V t) (V (t + 1))) →
        ∀ k < f.lenSpec, ∀ l < b.lenSpec, Tendsto (fun t => (V t).get k l) atTop (𝓝 (U.get k l)) := by
  obtain ⟨L, D, hL, -, -, -, hd, -⟩ := C27_laplacian m hm1 f hf
  have hfm : f.lenSpec = m := by rw [c2c_of_new hf]; rfl
  obtain ⟨S, P, I, h⟩ := euler_modes o n f.lenSpec hm b hb (Mat.eye f.lenSpec) L
    (fun k => (freq m k : ℝ)) ⟨rfl, rfl, fun _ _ _ _ => rfl⟩ (by rw [hfm]; exact hd) ν dt hν hdt
  exact ⟨_, L, S, P, I, rfl, hL, h⟩

-- the hypotheses are met
example : (8 : ℕ) ≤ 2642246 ∧ (∃ f, R2c.new 16 = ok f) ∧ (∃ f, C2c.new 16 = ok f) ∧
    ∃ b : Compo ℝ, Compo.new .dirichlet 8 = ok b := by
  obtain ⟨b, hb, -⟩ := wp_total.mp (Compo.wp_new (K := ℝ) .dirichlet 8 (by decide))
  exact ⟨by norm_num, ⟨_, rfl⟩, ⟨_, rfl⟩, b, hb⟩

end Verif.Props
