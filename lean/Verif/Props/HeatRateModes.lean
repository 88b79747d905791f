/-
Property C123: the heat equation solver of a Fourier × Chebyshev space converges in space and time.
-/
import Verif.Proof.HeatMode
import Verif.Props.PoissonRateModes

namespace Verif.Props
open Res Spec Finset Polynomial

/-- one implicit Euler step, mode by mode, real or imaginary part -/
theorem euler_modes_iff {p s m : ℕ} {S P I E L : Mat ℝ} {Q : Matrix (Fin p) (Fin p) ℝ}
    {M : Matrix (Fin p) (Fin s) ℝ} (h : AxisTau p s S P I Q M) (κ : ℕ → ℝ) (hE : IsIdentity m E)
    (hL : ∀ i < m, ∀ j < m, L.get i j = if i = j then -(κ i ^ 2) else 0) (ν dt : ℝ) (G V V' : Mat ℂ) :
    EulerModes E L S P I ν dt G V V' ↔ ∀ k < m, ∀ part ∈ [Complex.reLm, Complex.imLm],
      (1 + dt * ν * κ k ^ 2) • (toM S p s).mulVec (fun l : Fin s => part (V'.get k l))
        - (dt * ν) • M.mulVec (fun l : Fin s => part (V'.get k l))
        = (toM S p s).mulVec (fun l : Fin s => part (V.get k l)) + dt • fun i : Fin p => part (G.get k i) := by
  unfold EulerModes
  rw [modes_iff h κ hE hL]
  refine forall_congr' fun k => forall_congr' fun _ => forall_congr' fun part => forall_congr' fun _ => ?_
  have e : (fun i : Fin p => part ((∑ l ∈ range S.cols, (S.get i l : ℂ) * V.get k l) + dt * G.get k i))
      = (toM S p s).mulVec (fun l : Fin s => part (V.get k l)) + dt • fun i : Fin p => part (G.get k i) := by
    funext i
    rw [map_add, map_sum, part_ofReal_mul, h.scol, Finset.sum_range]
    simp only [part_ofReal_mul]
    rfl
  show _ = (fun i : Fin p => part ((∑ l ∈ range S.cols, (S.get i l : ℂ) * V.get k l) + dt * G.get k i)) ↔ _
  rw [e]

/-- forward transform of the samples of a function that vanishes at the walls with `fourier_r2c × cheb_dirichlet`: the modes -/
theorem forward_dirichlet_modes {n0 n1 : ℕ} (hn0 : 1 ≤ n0) (hn5 : 5 ≤ n1) {b : BaseR2r} (hb : newR2r (some .dirichlet) n1 = ok b) {S : Mat ℝ}
    (hS : (b.toBase ℂ).stencil = ok S) {y : List ℝ} (hy : (b.toBase ℂ).coords = ok y) {γ : Arr ℝ} (hγ : Good γ [n0, n1]) (F : ℕ → ℝ → ℝ)
    (hF : ∀ i, F i (-1) = 0 ∧ F i 1 = 0) (hγF : ∀ i < n0, ∀ j < n1, at_ γ [i, j] = F i (nth y j)) :
    ∃ f, (⟨(BaseR2c.fourierR2c ⟨n0, n0 / 2 + 1⟩).toBase, b.toBase ℂ⟩ : Space2 ℝ ℝ ℂ ℂ).forward γ = ok f ∧
      Good f [n0 / 2 + 1, (b.toBase ℂ).lenSpec] ∧
      ∀ k < n0 / 2 + 1, ∀ part : ℂ →ₗ[ℝ] ℝ, ∀ j < n1,
        (chebPoly ℝ (mulVec S ((List.range (b.toBase ℂ).lenSpec).map fun l => part (at_ f [k, l])))).eval (nth y j)
        = ∑ i ∈ range n0, part (twiddle (-1) n0 i k) * F i (nth y j) := by
  have hbx : IsR2c n0 (BaseR2c.fourierR2c ⟨n0, n0 / 2 + 1⟩).toBase := ⟨hn0, _, rfl, rfl⟩
  obtain ⟨φ0, hφ0⟩ := LinOp.computes hbx.fwdLin
  obtain ⟨φ1, hφ1⟩ := LinOp.computes (r2r_forward_lin (T := ℂ) hb hn5)
  have hbn := hb
  obtain ⟨B, hB, rfl⟩ := composite_inv hb
  have hw := Compo.wf_of_new hB
  have hpn : B.lenPhys = n1 := hw.n_eq
  have hlo : B.lenOrth = n1 := by simp [Compo.lenOrth, Cheb.lenOrth, hw.ortho]
  set base := (BaseR2r.chebyshevComposite B).toBase ℂ with hbase
  have hps : base.lenPhys = n1 := hpn
  set so : Space2 ℝ ℝ ℂ ℂ := ⟨(BaseR2c.fourierR2c ⟨n0, n0 / 2 + 1⟩).toBase, base⟩ with hso
  set s := base.lenSpec with hs
  have hgg : Good γ [n0, base.lenPhys] := by rw [hps]; exact hγ
  have g1 : Good (mapAx φ1 s 1 γ) [n0, s] := good_mapAx φ1 s 1 hγ.2.2
  have g0 : Good (mapAx φ0 (n0 / 2 + 1) 0 (mapAx φ1 s 1 γ)) [n0 / 2 + 1, s] := good_mapAx φ0 (n0 / 2 + 1) 0 g1.2.2
  refine ⟨mapAx φ0 (n0 / 2 + 1) 0 (mapAx φ1 s 1 γ), so.forward_eq hφ0 hφ1 hgg, g0, fun k hk part j hj => ?_⟩
  have hqn : Cheb.new n1 = ok ⟨n1, n1⟩ := cheb_new_ok (by omega)
  have hyc : B.coords = ok y := hy
  have hy' : (⟨n1, n1⟩ : Cheb).coords ℝ = ok y := by
    rw [← hyc]; unfold Compo.coords Cheb.coords; rw [hpn]; rfl
  obtain ⟨y', e1, hyl, -⟩ := C01_coords n1 _ hqn
  obtain rfl := Res.ok.inj (hy'.symm.trans e1)
  have row : ∀ i < n0, ∀ j < n1, ∑ l ∈ range s, stencilFn S l (nth y j) * at_ (mapAx φ1 s 1 γ) [i, l] = F i (nth y j) := by
    intro i hi j hj
    have hll : (laneAt γ 1 [i, 0]).length = n1 := by rw [laneAt_length, hγ.2.2]; rfl
    have hlane : laneAt γ 1 [i, 0] = y.map (F i) := ext_nth (by rw [hll, List.length_map, hyl]) fun l hl => by
      rw [hll] at hl
      rw [nth_laneAt _ _ _ (by rw [hγ.2.2]; exact hl), nth_map _ _ _ (by omega), ← hγF i hi l hl]
      rfl
    obtain ⟨a1, a2⟩ := hφ1 (laneAt γ 1 [i, 0]) (List.replicate s 0) (by rw [hll, hps]) (by simp [hs])
    obtain ⟨z, hz, hzl, -⟩ := wp_total.mp (wp_forwardSlice (⟨n1, n1⟩ : Cheb) n1 rfl (by omega) (y.map (F i)) (List.replicate n1 0)
      (by simp [hyl]) (by simp [Cheb.lenSpec]))
    obtain ⟨e0, em, ep⟩ := interp_grid (F i) n1 _ hqn y (List.replicate n1 0) z (by simp [Cheb.lenSpec]) hy' hz
    obtain ⟨S', hS', -, hex⟩ := C17_boundary_conditions (K := ℝ) (T := ℝ) .dirichlet n1 B hB
    obtain rfl := Res.ok.inj ((show B.stencilMat = ok S from hS).symm.trans hS')
    obtain ⟨w, hwl, hwz⟩ := hex z (by rw [hzl, hlo]) (by
      show chebDeriv ℝ 0 z 1 = 0 ∧ chebDeriv ℝ 0 z (-1) = 0
      rw [chebDeriv_eq_eval, chebDeriv_eq_eval]
      exact ⟨by rw [← (hF i).2]; exact ep, by rw [← (hF i).1]; exact em⟩)
    obtain ⟨u, hu, huf⟩ := C21_forward_backward .dirichlet (Or.inl rfl) n1 B hB hn5 w (List.replicate B.lenPhys 0) (List.replicate B.lenSpec 0)
      hwl (by simp) (by simp)
    obtain ⟨S', x', u', hS', hx', hu', hul, hxl', huj⟩ := C21_backward_evaluates .dirichlet (Or.inl rfl) n1 B hB w (List.replicate B.lenPhys 0)
      hwl (by simp)
    obtain rfl := Res.ok.inj ((show B.stencilMat = ok S from hS).symm.trans hS')
    obtain rfl := Res.ok.inj (hyc.symm.trans hx')
    obtain rfl := Res.ok.inj (hu.symm.trans hu')
    have hul' : u = y.map (F i) := ext_nth (by rw [hul, List.length_map, hyl, hpn]) fun j hj => by
      rw [hul, hpn] at hj
      rw [huj j (by rw [hpn]; exact hj), hwz, e0 j hj, nth_map _ _ _ (by omega)]
    rw [hul', ← hlane] at huf
    have hw' : φ1 (laneAt γ 1 [i, 0]) = w := Res.ok.inj (a1.symm.trans huf)
    have k1 := stencil_eval (T := ℂ) hbn hS w hwl (nth y j)
    rw [hwz, e0 j hj] at k1
    rw [← k1]
    refine Finset.sum_congr rfl fun l hl => ?_
    congr 1
    refine (at_mapAx (ax := 1) (m := s) (sh := [n0, n1]) hγ.2.2 (inBounds2 hi (mem_range.mp hl))).trans ?_
    have : laneAt γ 1 [i, l] = laneAt γ 1 [i, 0] := rfl
    rw [this, hw']; rfl
  have ent : ∀ l < s, part (at_ (mapAx φ0 (n0 / 2 + 1) 0 (mapAx φ1 s 1 γ)) [k, l])
      = ∑ i ∈ range n0, part (twiddle (-1) n0 i k) * at_ (mapAx φ1 s 1 γ) [i, l] := by
    intro l hl
    have e := at_mapAx (g := φ0) (ax := 0) (m := n0 / 2 + 1) (sh := [n0, s]) g1.2.2 (inBounds2 hk hl)
    have hll : (laneAt (mapAx φ1 s 1 γ) 0 [k, l]).length = n0 := by rw [laneAt_length, g1.2.2]; rfl
    have h2 : φ0 (laneAt (mapAx φ1 s 1 γ) 0 [k, l]) = rfftFwd (laneAt (mapAx φ1 s 1 γ) 0 [k, l]) := by
      have k1 := (hφ0 (laneAt (mapAx φ1 s 1 γ) 0 [k, l]) (List.replicate (n0 / 2 + 1) 0) hll (by simp; rfl)).1
      have k2 := r2c_forward_eq n0 (laneAt (mapAx φ1 s 1 γ) 0 [k, l]) (List.replicate (n0 / 2 + 1) 0) hll (by simp)
      exact Res.ok.inj (k1.symm.trans k2)
    rw [e, h2]
    show part (nth _ k) = _
    rw [nth_rfftFwd _ (by rw [hll]; exact hk), hll, part_dft]
    refine Finset.sum_congr rfl fun i hi => ?_
    rw [nth_laneAt _ _ _ (by rw [g1.2.2]; exact mem_range.mp hi)]
    rfl
  rw [← stencil_eval (T := ℂ) hbn hS _ (by simp [hs, hbase]) (nth y j)]
  have e1 : ∑ l ∈ range s, stencilFn S l (nth y j) * nth ((List.range s).map fun l => part (at_ (mapAx φ0 (n0 / 2 + 1) 0 (mapAx φ1 s 1 γ)) [k, l])) l
      = ∑ l ∈ range s, ∑ i ∈ range n0, part (twiddle (-1) n0 i k) * (stencilFn S l (nth y j) * at_ (mapAx φ1 s 1 γ) [i, l]) :=
    Finset.sum_congr rfl fun l hl => by
      rw [nth_map_range _ _ _ (mem_range.mp hl), ent l (mem_range.mp hl), Finset.mul_sum]
      exact Finset.sum_congr rfl fun i _ => by ring
  refine e1.trans ?_
  rw [Finset.sum_comm]
  refine Finset.sum_congr rfl fun i hi => ?_
  rw [← Finset.mul_sum, row i (mem_range.mp hi) j hj]

/-- the error of one mode of the heat equation -/
theorem heat_mode_error {ν T : ℝ} (hν : 0 < ν) (hT : 0 ≤ T) {p : ℕ} (hp : 6 ≤ p) {Y g : ℝ → ℝ → ℝ → ℝ}
    (hY : ContDiff ℝ p fun z : ℝ × ℝ × ℝ => Y z.1 z.2.1 z.2.2)
    (hper : ∀ t ∈ Set.Icc 0 T, ∀ y ∈ Set.Icc (-1 : ℝ) 1, Function.Periodic (fun x => Y t x y) (2 * Real.pi))
    (hbc : ∀ t ∈ Set.Icc 0 T, ∀ x, Y t x (-1) = 0 ∧ Y t x 1 = 0)
    (heq : ∀ t ∈ Set.Icc 0 T, ∀ x, ∀ y ∈ Set.Icc (-1 : ℝ) 1, deriv (fun s => Y s x y) t = ν * laplacian2 (Y t) x y + g t x y)
    {M1 M3 B : ℝ} (m1 : 0 ≤ M1) (m3 : 0 ≤ M3) (mB : 0 ≤ B)
    (h1 : ∀ t ∈ Set.Icc 0 T, ∀ x ∈ Set.Icc 0 (2 * Real.pi), ∀ θ, |iteratedDeriv p (fun θ => Y t x (Real.cos θ)) θ| ≤ M1)
    (h3 : ∀ t ∈ Set.Icc 0 T, ∀ y ∈ Set.Icc (-1 : ℝ) 1, ∀ x, |iteratedDeriv p (fun x => Y t x y) x| ≤ M3)
    (h2 : ∀ x ∈ Set.Icc 0 (2 * Real.pi), ∀ y ∈ Set.Icc (-1 : ℝ) 1, ∀ t ∈ Set.Icc 0 T, |iteratedDeriv 2 (fun s => Y s x y) t| ≤ B)
    {n0 : ℕ} (hn0 : 1 ≤ n0) {k : ℕ} (hk : k ≤ n0 / 2) {part : ℂ →ₗ[ℝ] ℝ} (hpart : part ∈ [Complex.reLm, Complex.imLm])
    {o : Mode} {s : ℕ} (hn5 : 5 ≤ s + 2) {b : Compo ℝ} {q : Cheb} (hq : Cheb.new (s + 2) = ok q) {y : List ℝ} (hy : q.coords = ok y)
    {S P I : Mat ℝ} (h : TauSetup o .dirichlet (s + 2) b S P I) (hb : Compo.new .dirichlet (s + 2) = ok b)
    {Q : Matrix (Fin s) (Fin s) ℝ} {A : Matrix (Fin s) (Fin b.lenSpec) ℝ} (ha : AxisTau s b.lenSpec S P I Q A)
    {dt : ℝ} (hdt : 0 < dt) {G v : ℕ → List ℝ} (hGl : ∀ m, (G m).length = s + 2)
    (hGe : ∀ m : ℕ, (m + 1) * dt ≤ T → ∀ j < s + 2, (chebPoly ℝ (G m)).eval (nth y j)
      = ∑ i ∈ range n0, part (twiddle (-1) n0 i k) * g ((m + 1) * dt) (2 * Real.pi * i / n0) (nth y j))
    (hv0 : ∀ j < s + 2, (chebPoly ℝ (mulVec S (v 0))).eval (nth y j)
      = ∑ i ∈ range n0, part (twiddle (-1) n0 i k) * Y 0 (2 * Real.pi * i / n0) (nth y j))
    (hvs : ∀ m : ℕ, (m + 1) * dt ≤ T → (1 + dt * ν * (k : ℝ) ^ 2) • (toM S s b.lenSpec).mulVec (fun l : Fin b.lenSpec => nth (v (m + 1)) l)
        - (dt * ν) • A.mulVec (fun l : Fin b.lenSpec => nth (v (m + 1)) l)
        = (toM S s b.lenSpec).mulVec (fun l : Fin b.lenSpec => nth (v m) l) + dt • fun i : Fin s => nth (G m) i)
    (m : ℕ) (hmT : m * dt ≤ T) {ξ : ℝ} (hξ : ξ ∈ Set.Icc (-1 : ℝ) 1) :
    |(chebPoly ℝ (mulVec S (v m))).eval ξ - ∑ i ∈ range n0, part (twiddle (-1) n0 i k) * Y (m * dt) (2 * Real.pi * i / n0) ξ|
      ≤ 3 * √((s + 2 : ℕ) : ℝ) * (T * (n0 * B * dt + ν * (16 * (n0 * M1) * (1 / ((s + 2 : ℕ) : ℝ) ^ (p - 5)))
          + ν * (n0 * (16 * M3 * 2 ^ (p - 3) / (n0 : ℝ) ^ (p - 3))))) + 16 * (n0 * M1) * (1 / ((s + 2 : ℕ) : ℝ) ^ (p - 5)) := by
  set a : ℕ → ℝ := fun i => part (twiddle (-1) n0 i k) with hadef
  set x : ℕ → ℝ := fun i => 2 * Real.pi * i / n0 with hx
  have ha1 : ∀ i, |a i| ≤ 1 := fun i => (abs_part_le hpart _).trans_eq (twiddle_norm _ _ _)
  have hn0' : (0 : ℝ) < n0 := by exact_mod_cast hn0
  have hxI : ∀ i < n0, x i ∈ Set.Icc 0 (2 * Real.pi) := fun i hi => by
    have hi' : (i : ℝ) ≤ n0 := by exact_mod_cast hi.le
    refine ⟨by rw [hx]; positivity, ?_⟩
    rw [hx]
    dsimp only
    rw [div_le_iff₀ hn0']
    exact mul_le_mul_of_nonneg_left hi' (by positivity)
  have hYy : ∀ t x, ContDiff ℝ p (Y t x) := fun t x => hY.comp (contDiff_const.prodMk (contDiff_const.prodMk contDiff_id))
  have hYc : ∀ t x, ContDiff ℝ p fun θ => Y t x (Real.cos θ) := fun t x => (hYy t x).comp Real.contDiff_cos
  have hYt : ∀ x y, ContDiff ℝ p fun s => Y s x y := fun x y => hY.comp (contDiff_id.prodMk (contDiff_const.prodMk contDiff_const))
  have hYx : ∀ t y, ContDiff ℝ p fun x => Y t x y := fun t y => hY.comp (contDiff_const.prodMk (contDiff_id.prodMk contDiff_const))
  refine heat_mode (Y := fun t y => ∑ i ∈ range n0, a i * Y t (x i) y) (g := fun t y => ∑ i ∈ range n0, a i * g t (x i) y)
    (μ := (k : ℝ) ^ 2) (M := n0 * M1) (B := n0 * B) (ρ₀ := ν * (n0 * (16 * M3 * 2 ^ (p - 3) / (n0 : ℝ) ^ (p - 3)))) hν hT (by positivity) hp
    ?_ (fun t ht => ⟨?_, ?_⟩) (by positivity) (by positivity) (by positivity) (fun t ht θ => ?_) (fun y hy t ht => ?_) (fun t ht y hy => ?_)
    hn5 hq hy h hb ha hdt hGl hGe hv0 hvs m hmT hξ
  · show ContDiff ℝ p fun z : ℝ × ℝ => ∑ i ∈ range n0, a i * Y z.1 (x i) z.2
    exact ContDiff.sum fun i _ => contDiff_const.mul (hY.comp (contDiff_fst.prodMk (contDiff_const.prodMk contDiff_snd)))
  · exact Finset.sum_eq_zero fun i _ => by rw [(hbc t ht _).1, mul_zero]
  · exact Finset.sum_eq_zero fun i _ => by rw [(hbc t ht _).2, mul_zero]
  · rw [wsum_deriv (g := fun i θ => Y t (x i) (Real.cos θ)) (fun i => hYc t _)]
    exact wsum_le ha1 fun i hi => h1 t ht _ (hxI i hi) θ
  · have hY2 : ∀ i, ContDiff ℝ (2 : ℕ) fun s => Y s (x i) y := fun i => (hYt (x i) y).of_le (by exact_mod_cast (by omega : 2 ≤ p))
    rw [wsum_deriv (g := fun i s => Y s (x i) y) hY2]
    exact wsum_le ha1 fun i hi => h2 _ (hxI i hi) y hy t ht
  · have hY2 : ∀ i, ContDiff ℝ (2 : ℕ) (Y t (x i)) := fun i => (hYy t (x i)).of_le (by exact_mod_cast (by omega : 2 ≤ p))
    have hY1 : ∀ i, ContDiff ℝ (1 : ℕ) fun s => Y s (x i) y := fun i => (hYt (x i) y).of_le (by exact_mod_cast (by omega : 1 ≤ p))
    have d1 : deriv (fun s => ∑ i ∈ range n0, a i * Y s (x i) y) t = ∑ i ∈ range n0, a i * (ν * laplacian2 (Y t) (x i) y + g t (x i) y) := by
      rw [← iteratedDeriv_one, wsum_deriv (g := fun i s => Y s (x i) y) hY1]
      exact Finset.sum_congr rfl fun i _ => by rw [iteratedDeriv_one, heq t ht _ y hy]
    rw [d1, wsum_deriv (g := fun i => Y t (x i)) hY2]
    have hd := dft_second (f := fun s => Y t s y) (by omega) (hYx t y) (hper t ht y hy) (h3 t ht y hy) hn0 hk
    have e : ∑ i ∈ range n0, a i * (ν * laplacian2 (Y t) (x i) y + g t (x i) y) - (ν * ∑ i ∈ range n0, a i * iteratedDeriv 2 (Y t (x i)) y
          - ν * (k : ℝ) ^ 2 * ∑ i ∈ range n0, a i * Y t (x i) y + ∑ i ∈ range n0, a i * g t (x i) y)
        = ν * part (dft (-1) n0 (fun j => ((iteratedDeriv 2 (fun s => Y t s y) (2 * Real.pi * j / n0) : ℝ) : ℂ)) k
          + (k : ℂ) ^ 2 * dft (-1) n0 (fun j => ((Y t (2 * Real.pi * j / n0) y : ℝ) : ℂ)) k) := by
      rw [show ((k : ℂ) ^ 2) = (((k : ℝ) ^ 2 : ℝ) : ℂ) by push_cast; ring, map_add, part_ofReal_mul, part_dft, part_dft]
      simp only [Finset.mul_sum, ← Finset.sum_sub_distrib, ← Finset.sum_add_distrib]
      refine Finset.sum_congr rfl fun i _ => ?_
      unfold laplacian2
      rw [hadef, hx]
      dsimp only
      ring
    rw [e, abs_mul, abs_of_pos hν]
    exact mul_le_mul_of_nonneg_left ((abs_part_le hpart _).trans hd) hν.le

private theorem rate_arith {n0 r T B ν M1 M3 dt η : ℝ} {d : ℕ} (h1 : 1 ≤ r) (hn : 1 ≤ n0) (hT : 0 ≤ T) (hB : 0 ≤ B) (hν : 0 < ν) (m1 : 0 ≤ M1)
    (m3 : 0 ≤ M3) (hdt : 0 < dt) (hη : 0 ≤ η) :
    6 * (3 * r * (T * (n0 * B * dt + ν * (16 * (n0 * M1) * η) + ν * (n0 * (16 * M3 * 2 ^ d / n0 ^ d)))) + 16 * (n0 * M1) * η)
      ≤ 6 * (3 * (T * (B + ν * (16 * M1) + ν * (16 * M3 * 2 ^ d))) + 16 * M1) * n0 * r * (dt + 1 / n0 ^ d + η) := by
  set A := 1 / n0 ^ d with hA
  have hA0 : 0 ≤ A := by positivity
  have hc0 : 0 ≤ 16 * M3 * 2 ^ d := by positivity
  rw [show 16 * M3 * 2 ^ d / n0 ^ d = (16 * M3 * 2 ^ d) * A by rw [hA]; ring]
  generalize 16 * M3 * 2 ^ d = c3 at *
  clear_value A
  have t1 : B * dt + ν * (16 * M1) * η + ν * c3 * A ≤ (B + ν * (16 * M1) + ν * c3) * (dt + A + η) := by
    have e1 : 0 ≤ B * (A + η) := by positivity
    have e2 : 0 ≤ ν * (16 * M1) * (dt + A) := by positivity
    have e3 : 0 ≤ ν * c3 * (dt + η) := by positivity
    linarith
  have t2 : η ≤ r * (dt + A + η) := by nlinarith
  have t3 := mul_le_mul_of_nonneg_left t1 (by positivity : 0 ≤ 18 * r * T * n0)
  have t4 := mul_le_mul_of_nonneg_left t2 (by positivity : 0 ≤ 96 * n0 * M1)
  linarith

/-- C123: for every initial function and every sequence of sources there is exactly one run of implicit Euler steps. -/
theorem C123_run (o : Mode) (n0 n1 : ℕ) (hm : n1 ≤ 2642246) (r : BaseR2c) (b : BaseR2r) (hr : fourierR2c n0 = ok r)
    (hb : newR2r (some .dirichlet) n1 = ok b) (ν dt : ℝ) (hν : 0 < ν) (hdt : 0 < dt) :
    ∃ E L S P I, r.toBase.stencil = ok E ∧ r.toBase.laplacian o = ok L ∧ (b.toBase ℂ).stencil = ok S ∧
      (b.toBase ℂ).laplacianPinv o = ok (P, I) ∧
      ∀ (G : ℕ → Arr ℂ) (v₀ : Arr ℂ), Good v₀ [n0 / 2 + 1, n1 - 2] →
        ∃! v : ℕ → Arr ℂ, v 0 = v₀ ∧ (∀ m, Good (v m) [n0 / 2 + 1, n1 - 2]) ∧
          ∀ m, EulerModes E L S P I ν dt (coeffMatC (G m) (n0 / 2 + 1) n1) (coeffMatC (v m) (n0 / 2 + 1) (n1 - 2))
            (coeffMatC (v (m + 1)) (n0 / 2 + 1) (n1 - 2)) := by
  obtain rfl := r2c_inv hr
  obtain ⟨B, hB, rfl⟩ := composite_inv hb
  obtain ⟨E, L, S, P, I, e1, e2, e3, e4, hu, -, -⟩ := C106_r2c o n0 n1 hm ⟨n0, n0 / 2 + 1⟩ rfl B hB ν dt hν hdt
  obtain ⟨L', D, hL', -, -, -, hd, -⟩ := C30_laplacian n0 ⟨n0, n0 / 2 + 1⟩ rfl
  obtain rfl := Res.ok.inj (e2.symm.trans hL')
  have hE : E = Mat.eye (n0 / 2 + 1) := (Res.ok.inj e1).symm
  have hs : B.lenSpec = n1 - 2 := dirichlet_len hB
  have hc : S.cols = n1 - 2 := by
    obtain ⟨S₂, P₂, I₂, k⟩ := tauSetup o hm hB
    obtain rfl : S = S₂ := Res.ok.inj (e3.symm.trans k.hS)
    rw [k.r2, hs]
  have hu' := hu
  rw [hs] at hu'
  refine ⟨E, L, S, P, I, e1, e2, e3, e4, fun G v₀ hv₀ => ?_⟩
  have step : ∀ g v : Arr ℂ, ∃! v', Good v' [n0 / 2 + 1, n1 - 2] ∧ EulerModes E L S P I ν dt (coeffMatC g (n0 / 2 + 1) n1)
      (coeffMatC v (n0 / 2 + 1) (n1 - 2)) (coeffMatC v' (n0 / 2 + 1) (n1 - 2)) := by
    intro g v
    obtain ⟨V, hV0, hVd, hVs, hVu⟩ := hu' (coeffMatC g (n0 / 2 + 1) n1) (coeffMatC v (n0 / 2 + 1) (n1 - 2)) rfl rfl
    have hV1 := hVs 0
    rw [hV0, zero_add] at hV1
    have hvV : ∀ k < n0 / 2 + 1, ∀ l < n1 - 2, (coeffMatC (mk2 (n0 / 2 + 1) (n1 - 2) fun i j => (V 1).get i j) (n0 / 2 + 1) (n1 - 2)).get k l
        = (V 1).get k l := fun k hk l hl => at_mk2 _ hk hl
    refine ⟨mk2 (n0 / 2 + 1) (n1 - 2) fun i j => (V 1).get i j, ⟨good_mk2 _ _ _, fun i hi j hj => ?_⟩, fun u hu => ?_⟩
    · rw [← hV1 i hi j hj]
      refine Finset.sum_congr rfl fun k hk => Finset.sum_congr rfl fun l hl => ?_
      rw [hE] at hk
      rw [hc, Finset.mem_range] at hl
      rw [hvV k (Finset.mem_range.mp hk) l hl]
    · obtain ⟨U, hU0, hUd, hUs, -⟩ := hu' (coeffMatC g (n0 / 2 + 1) n1) (coeffMatC u (n0 / 2 + 1) (n1 - 2)) rfl rfl
      have := hVu (fun t => Nat.casesOn t (coeffMatC v (n0 / 2 + 1) (n1 - 2)) U) ⟨rfl, rfl, fun _ _ _ _ => rfl⟩
        (fun t => by cases t with
          | zero => exact ⟨rfl, rfl⟩
          | succ t => exact hUd t)
        (fun t => by cases t with
          | zero => show EulerModes E L S P I ν dt _ _ (U 0); rw [hU0]; exact hu.2
          | succ t => exact hUs t) 1
      change SameMat (V 1) (U 0) at this
      rw [hU0] at this
      refine good_ext2 hu.1 (good_mk2 _ _ _) fun k hk l hl => ?_
      have k1 := this.2.2 k (by rw [(hVd 1).1]; exact hk) l (by rw [(hVd 1).2]; exact hl)
      exact k1.symm.trans (hvV k hk l hl).symm
  let f : ℕ → {v : Arr ℂ // Good v [n0 / 2 + 1, n1 - 2]} := fun m => Nat.rec ⟨v₀, hv₀⟩
    (fun m w => ⟨(step (G m) w.1).choose, (step (G m) w.1).choose_spec.1.1⟩) m
  refine ⟨fun m => (f m).1, ⟨rfl, fun m => (f m).2, fun m => (step (G m) (f m).1).choose_spec.1.2⟩, ?_⟩
  rintro w ⟨h0, hl, hs⟩
  funext m
  induction m with
  | zero => exact h0
  | succ m ih =>
    refine (step (G m) (f m).1).unique ⟨hl _, ?_⟩ ((step (G m) (f m).1).choose_spec.1)
    have := hs m
    rwa [show w m = (f m).1 from ih] at this

/-- C123: let `Y(t, x, y)` be any solution of the heat equation `∂Y/∂t = ν ΔY + g` for `t` in `[0, T]` in the channel `-1 ≤ y ≤ 1`,
`2π`-periodic in `x`, with `Y = 0` at the walls and with `p ≥ 6` continuous derivatives. Start from the samples of `Y(0, ·, ·)`, transformed with
`fourier_r2c × cheb_dirichlet`, and make implicit Euler steps of any length `dt` with the matrices of the bases and the source
transformed from its samples: at every step up to time `T` the grid values that `backward` returns differ from `Y`
by at most `K n0 √n1 (dt + 1 / n0 ^ (p - 3) + 1 / n1 ^ (p - 5))`. `K` depends on neither the sizes, `dt` nor the step. -/
theorem C123_heat (ν T : ℝ) (hν : 0 < ν) (hT : 0 ≤ T) (p : ℕ) (hp : 6 ≤ p) (Y g : ℝ → ℝ → ℝ → ℝ)
    (hY : ContDiff ℝ p fun z : ℝ × ℝ × ℝ => Y z.1 z.2.1 z.2.2)
    (hper : ∀ t ∈ Set.Icc 0 T, ∀ y ∈ Set.Icc (-1 : ℝ) 1, Function.Periodic (fun x => Y t x y) (2 * Real.pi))
    (hbc : ∀ t ∈ Set.Icc 0 T, ∀ x, Y t x (-1) = 0 ∧ Y t x 1 = 0)
    (heq : ∀ t ∈ Set.Icc 0 T, ∀ x, ∀ y ∈ Set.Icc (-1 : ℝ) 1, deriv (fun s => Y s x y) t = ν * laplacian2 (Y t) x y + g t x y) :
    ∃ K : ℝ, ∀ (o : Mode) (n0 n1 : ℕ) (_ : 1 ≤ n0) (_ : 5 ≤ n1) (_ : n1 ≤ 2642246) (r : BaseR2c) (b q : BaseR2r) (_ : fourierR2c n0 = ok r)
      (_ : newR2r (some .dirichlet) n1 = ok b) (_ : chebyshev n1 = ok q) (dt : ℝ) (_ : 0 < dt),
      let sp : Space2 ℝ ℝ ℂ ℂ := ⟨r.toBase, b.toBase ℂ⟩
      let so : Space2 ℝ ℝ ℂ ℂ := ⟨r.toBase, q.toBase ℂ⟩
      ∃ x y E L S P I, so.coords = ok [x, y] ∧ sp.coords = ok [x, y] ∧ r.toBase.stencil = ok E ∧ r.toBase.laplacian o = ok L ∧
        (b.toBase ℂ).stencil = ok S ∧ (b.toBase ℂ).laplacianPinv o = ok (P, I) ∧
        ∀ G v : ℕ → Arr ℂ,
          (∀ m : ℕ, (m + 1) * dt ≤ T → ∃ γ, Good γ [n0, n1] ∧
            (∀ i < n0, ∀ j < n1, at_ γ [i, j] = g ((m + 1) * dt) (nth x i) (nth y j)) ∧ so.forward γ = ok (G m)) →
          (∃ γ, Good γ [n0, n1] ∧ (∀ i < n0, ∀ j < n1, at_ γ [i, j] = Y 0 (nth x i) (nth y j)) ∧ sp.forward γ = ok (v 0)) →
          (∀ m, Good (v m) [n0 / 2 + 1, n1 - 2]) →
          (∀ m, EulerModes E L S P I ν dt (coeffMatC (G m) (n0 / 2 + 1) n1) (coeffMatC (v m) (n0 / 2 + 1) (n1 - 2))
            (coeffMatC (v (m + 1)) (n0 / 2 + 1) (n1 - 2))) →
          ∀ m : ℕ, m * dt ≤ T → ∃ w, sp.backward (v m) = ok w ∧ Good w [n0, n1] ∧ ∀ i < n0, ∀ j < n1,
            |at_ w [i, j] - Y (m * dt) (nth x i) (nth y j)|
              ≤ K * n0 * √n1 * (dt + 1 / (n0 : ℝ) ^ (p - 3) + 1 / (n1 : ℝ) ^ (p - 5)) := by
  -- bounds of the derivatives
  obtain ⟨M1, m1, h1'⟩ := bound_iteratedDeriv_param (p := p) (H := fun (z : ℝ × ℝ) θ => Y z.1 z.2 (Real.cos θ))
    (hY.comp ((contDiff_fst.comp contDiff_fst).prodMk ((contDiff_snd.comp contDiff_fst).prodMk (Real.contDiff_cos.comp contDiff_snd))))
    ((isCompact_Icc (a := (0 : ℝ)) (b := T)).prod (isCompact_Icc (a := (0 : ℝ)) (b := 2 * Real.pi))) 0 (2 * Real.pi)
  have h1 : ∀ t ∈ Set.Icc 0 T, ∀ x ∈ Set.Icc 0 (2 * Real.pi), ∀ θ, |iteratedDeriv p (fun θ => Y t x (Real.cos θ)) θ| ≤ M1 := by
    intro t ht x hx θ
    have hpr : Function.Periodic (fun θ => Y t x (Real.cos θ)) (2 * Real.pi) := fun θ => by dsimp only; rw [Real.cos_add_two_pi]
    obtain ⟨θ', hθ', e⟩ := (periodic_iteratedDeriv p hpr).exists_mem_Ico₀ (by positivity) θ
    rw [e]
    exact h1' (t, x) ⟨ht, hx⟩ θ' ⟨hθ'.1, hθ'.2.le⟩
  obtain ⟨M3, m3, h3'⟩ := bound_iteratedDeriv_param (p := p) (H := fun (z : ℝ × ℝ) x => Y z.1 x z.2)
    (hY.comp ((contDiff_fst.comp contDiff_fst).prodMk (contDiff_snd.prodMk (contDiff_snd.comp contDiff_fst))))
    ((isCompact_Icc (a := (0 : ℝ)) (b := T)).prod (isCompact_Icc (a := (-1 : ℝ)) (b := 1))) 0 (2 * Real.pi)
  have h3 : ∀ t ∈ Set.Icc 0 T, ∀ y ∈ Set.Icc (-1 : ℝ) 1, ∀ x, |iteratedDeriv p (fun x => Y t x y) x| ≤ M3 := by
    intro t ht y hy x
    obtain ⟨x', hx', e⟩ := (periodic_iteratedDeriv p (hper t ht y hy)).exists_mem_Ico₀ (by positivity) x
    rw [e]
    exact h3' (t, y) ⟨ht, hy⟩ x' ⟨hx'.1, hx'.2.le⟩
  obtain ⟨B0, mB, h2'⟩ := bound_iteratedDeriv_param (p := 2) (H := fun (z : ℝ × ℝ) s => Y s z.1 z.2)
    ((hY.of_le (by exact_mod_cast (by omega : 2 ≤ p))).comp (contDiff_snd.prodMk ((contDiff_fst.comp contDiff_fst).prodMk (contDiff_snd.comp contDiff_fst))))
    ((isCompact_Icc (a := (0 : ℝ)) (b := 2 * Real.pi)).prod (isCompact_Icc (a := (-1 : ℝ)) (b := 1))) 0 T
  have h2 : ∀ x ∈ Set.Icc 0 (2 * Real.pi), ∀ y ∈ Set.Icc (-1 : ℝ) 1, ∀ t ∈ Set.Icc 0 T, |iteratedDeriv 2 (fun s => Y s x y) t| ≤ B0 :=
    fun x hx y hy t ht => h2' (x, y) ⟨hx, hy⟩ t ht
  refine ⟨6 * (3 * (T * (B0 + ν * (16 * M1) + ν * (16 * M3 * 2 ^ (p - 3)))) + 16 * M1),
    fun o n0 n1 hn0 hn5 hm r b q hr hb hq dt hdt => ?_⟩
  intro sp so
  have hbx : IsR2c n0 r.toBase := ⟨hn0, _, hr, rfl⟩
  obtain rfl := r2c_inv hr
  obtain ⟨B, hB, rfl⟩ := composite_inv hb
  obtain ⟨x, hx, hxl, hxj⟩ := C23_r2c_coords n0 hn0 ⟨n0, n0 / 2 + 1⟩ rfl
  obtain ⟨y, hy, hn2, hyj⟩ := coords_point (T := ℂ) hq
  have hqn := cheb_new_ok hn2
  have hw := Compo.wf_of_new hB
  have hpn : B.lenPhys = n1 := hw.n_eq
  have hq1 : newR2r none n1 = ok q := hq
  obtain ⟨-, rfl⟩ := chebyshev_inv hq1
  have hyq : (⟨n1, n1⟩ : Cheb).coords ℝ = ok y := hy
  have hby : B.coords = ok y := by
    rw [← hyq]; unfold Compo.coords Cheb.coords; rw [hpn]; rfl
  obtain ⟨L, D, hL, -, -, -, hd, -⟩ := C30_laplacian n0 ⟨n0, n0 / 2 + 1⟩ rfl
  obtain ⟨S, P, I, h⟩ := tauSetup o hm hB
  have hs : B.lenSpec = n1 - 2 := dirichlet_len hB
  have hco : so.coords = ok [x, y] := by
    show (do let c0 ← so.base0.coords
             let c1 ← so.base1.coords
             pure [c0, c1]) = _
    rw [show so.base0.coords = ok x from hx, show so.base1.coords = ok y from hy]; rfl
  have hcp : sp.coords = ok [x, y] := by
    show (do let c0 ← sp.base0.coords
             let c1 ← sp.base1.coords
             pure [c0, c1]) = _
    rw [show sp.base0.coords = ok x from hx, show sp.base1.coords = ok y from hby]; rfl
  refine ⟨x, y, Mat.eye (n0 / 2 + 1), L, S, P, I, hco, hcp, rfl, hL, h.hS, h.hP, fun G v hG hv0 hvg hvs m hmT => ?_⟩
  have ht : (m : ℝ) * dt ∈ Set.Icc 0 T := ⟨by positivity, hmT⟩
  obtain ⟨p1, rfl⟩ : ∃ p1, n1 = p1 + 2 := ⟨n1 - 2, by omega⟩
  rw [Nat.add_sub_cancel] at hs hvg
  obtain ⟨Q, M, ha⟩ := axis_tau h
  have hyI : ∀ j < p1 + 2, nth y j ∈ Set.Icc (-1 : ℝ) 1 := fun j hj => coords_mem hqn hy j hj
  -- the modes
  set gl : ℕ → (ℂ →ₗ[ℝ] ℝ) → ℕ → List ℝ := fun k part m => (List.range (p1 + 2)).map fun l => part (at_ (G m) [k, l]) with hgl
  set vl : ℕ → (ℂ →ₗ[ℝ] ℝ) → ℕ → List ℝ := fun k part m => (List.range B.lenSpec).map fun l => part (at_ (v m) [k, l]) with hvl
  have hstep : ∀ k < n0 / 2 + 1, ∀ part ∈ [Complex.reLm, Complex.imLm], ∀ m,
      (1 + dt * ν * (k : ℝ) ^ 2) • (toM S p1 B.lenSpec).mulVec (fun l : Fin B.lenSpec => nth (vl k part (m + 1)) l)
        - (dt * ν) • M.mulVec (fun l : Fin B.lenSpec => nth (vl k part (m + 1)) l)
        = (toM S p1 B.lenSpec).mulVec (fun l : Fin B.lenSpec => nth (vl k part m) l) + dt • fun i : Fin p1 => nth (gl k part m) i := by
    intro k hk part hp' m
    have := (euler_modes_iff ha (fun k : ℕ => (k : ℝ)) (m := n0 / 2 + 1) (E := Mat.eye (n0 / 2 + 1)) (L := L) ⟨rfl, rfl, fun _ _ _ _ => rfl⟩ hd
      ν dt _ _ _).mp (hvs m) k hk part hp'
    have e1 : ∀ m, (fun l : Fin B.lenSpec => nth (vl k part m) l)
        = fun l : Fin B.lenSpec => part ((coeffMatC (v m) (n0 / 2 + 1) (p1 + 2 - 2)).get k l) := fun m => by
      funext l; rw [hvl]; dsimp only; rw [nth_map_range _ _ _ l.2]; rfl
    have e2 : (fun i : Fin p1 => nth (gl k part m) i) = fun i : Fin p1 => part ((coeffMatC (G m) (n0 / 2 + 1) (p1 + 2)).get k i) := by
      funext l; rw [hgl]; dsimp only; rw [nth_map_range _ _ _ (by omega)]; rfl
    rw [e1, e1, e2]
    exact this
  have hge : ∀ k < n0 / 2 + 1, ∀ part : ℂ →ₗ[ℝ] ℝ, ∀ m : ℕ, (m + 1) * dt ≤ T → ∀ j < p1 + 2, (chebPoly ℝ (gl k part m)).eval (nth y j)
      = ∑ i ∈ range n0, part (twiddle (-1) n0 i k) * g ((m + 1) * dt) (2 * Real.pi * i / n0) (nth y j) := by
    intro k hk part m hmT j hj
    obtain ⟨γ, hγ, hγe, hγf⟩ := hG m hmT
    obtain ⟨f, hf, -, hfe⟩ := forward_modes hn0 hq hy hγ
    obtain rfl := Res.ok.inj (hγf.symm.trans hf)
    rw [hgl, hfe k hk part j hj]
    refine Finset.sum_congr rfl fun i hi => ?_
    rw [hγe i (mem_range.mp hi) j hj, hxj i (mem_range.mp hi)]
  have hve : ∀ k < n0 / 2 + 1, ∀ part : ℂ →ₗ[ℝ] ℝ, ∀ j < p1 + 2, (chebPoly ℝ (mulVec S (vl k part 0))).eval (nth y j)
      = ∑ i ∈ range n0, part (twiddle (-1) n0 i k) * Y 0 (2 * Real.pi * i / n0) (nth y j) := by
    intro k hk part j hj
    obtain ⟨γ, hγ, hγe, hγf⟩ := hv0
    obtain ⟨f, hf, -, hfe⟩ := forward_dirichlet_modes hn0 hn5 hb h.hS hby hγ (fun i => Y 0 (2 * Real.pi * i / n0))
      (fun i => hbc 0 ⟨le_rfl, hT⟩ _) (fun i hi j hj => by rw [hγe i hi j hj, hxj i hi])
    obtain rfl := Res.ok.inj (hγf.symm.trans hf)
    exact hfe k hk part j hj
  obtain ⟨x', y', w, hc', -, -, hw1, hw2, hw3⟩ := C54_space2_backward sp (r2c_evaluates hbx) (r2r_evaluates (T := ℂ) hb (Or.inl rfl) h.hS)
    (v := v m) (by show Good (v m) [n0 / 2 + 1, B.lenSpec]; rw [hs]; exact hvg m)
  have e := Res.ok.inj (hcp.symm.trans hc')
  simp only [List.cons.injEq, and_true] at e
  obtain ⟨rfl, rfl⟩ := e
  refine ⟨w, hw1, ?_, fun i hi j hj => ?_⟩
  · have : Good w [n0, B.lenPhys] := hw2
    rwa [hpn] at this
  have hn0' : (0 : ℝ) < n0 := by exact_mod_cast hn0
  have h1n : (1 : ℝ) ≤ n0 := by exact_mod_cast hn0
  have hw4 := hw3 i hi j (by show j < B.lenPhys; rw [hpn]; exact hj)
  have hser := series_r2c hbx hx rfl rfl (fun u hu => r2c_forward_eq n0 u _ hu (by simp)) (fun i => Y (m * dt) (2 * Real.pi * i / n0) (nth y j)) hi
  set W : ℕ → ℂ := fun k => ∑ l ∈ range B.lenSpec, (stencilFn S l (nth y j) : ℂ) * at_ (v m) [k, l] with hW
  set Dk : ℕ → ℂ := fun k => dft (-1) n0 (fun i => ((Y (m * dt) (2 * Real.pi * i / n0) (nth y j) : ℝ) : ℂ)) k with hDk
  have e1 : at_ w [i, j] = ∑ k ∈ range (n0 / 2 + 1), r2cTerm n0 k (nth x i) (W k) := by
    rw [hw4]
    show ∑ l ∈ range B.lenSpec, stencilFn S l (nth y j) * (∑ k ∈ range (n0 / 2 + 1), r2cTerm n0 k (nth x i) (at_ (v m) [k, l])) = _
    rw [Finset.sum_congr rfl fun l _ => Finset.mul_sum _ _ _, Finset.sum_comm]
    exact Finset.sum_congr rfl fun k _ => r2cTerm_sum _ _ _
  have e2 : Y (m * dt) (nth x i) (nth y j) = ∑ k ∈ range (n0 / 2 + 1), r2cTerm n0 k (nth x i) (Dk k) := by
    rw [← hser, hxj i hi]
  set η : ℝ := 1 / ((p1 + 2 : ℕ) : ℝ) ^ (p - 5) with hη
  set e0 : ℝ := 3 * √((p1 + 2 : ℕ) : ℝ) * (T * (n0 * B0 * dt + ν * (16 * (n0 * M1) * η)
          + ν * (n0 * (16 * M3 * 2 ^ (p - 3) / (n0 : ℝ) ^ (p - 3))))) + 16 * (n0 * M1) * η with he0
  have hmode : ∀ k < n0 / 2 + 1, ∀ part ∈ [Complex.reLm, Complex.imLm], |part (W k - Dk k)| ≤ e0 := by
    intro k hk part hp'
    have k1 := heat_mode_error hν hT hp hY hper hbc heq m1 m3 mB h1 h3 h2 hn0 (k := k) (by omega) hp' hn5 hqn hyq h hB ha hdt
      (G := gl k part) (v := vl k part) (fun m => by simp [hgl]) (hge k hk part) (hve k hk part) (fun m _ => hstep k hk part hp' m) m hmT (hyI j hj)
    have e3 : part (W k) = (chebPoly ℝ (mulVec S (vl k part m))).eval (nth y j) := by
      rw [← stencil_eval (T := ℂ) hb h.hS (vl k part m) (by simp [hvl]; rfl), hW]
      dsimp only
      rw [map_sum]
      refine Finset.sum_congr rfl fun l hl => ?_
      have hl' : l < B.lenSpec := mem_range.mp hl
      rw [part_ofReal_mul, hvl]
      dsimp only
      rw [nth_map_range _ _ _ hl']
    rw [map_sub, e3, hDk]
    dsimp only
    rw [part_dft]
    exact k1
  have hsum : |at_ w [i, j] - Y (m * dt) (nth x i) (nth y j)| ≤ 6 * e0 := by
    have he0p : 0 ≤ e0 := by rw [he0]; positivity
    rw [e1, e2, ← Finset.sum_sub_distrib]
    refine (Finset.abs_sum_le_sum_abs _ _).trans ((Finset.sum_le_card_nsmul _ _ (2 / n0 * (e0 + e0)) fun k hk => ?_).trans ?_)
    · refine (r2cTerm_sub _ _ _).trans (mul_le_mul_of_nonneg_left ((Complex.norm_le_abs_re_add_abs_im _).trans ?_) (by positivity))
      exact add_le_add (hmode k (mem_range.mp hk) Complex.reLm (by simp)) (hmode k (mem_range.mp hk) Complex.imLm (by simp))
    · rw [card_range, nsmul_eq_mul]
      have q1 : ((n0 / 2 + 1 : ℕ) : ℝ) ≤ 3 / 2 * n0 := by
        have : 2 * (n0 / 2 + 1) ≤ 3 * n0 := by omega
        have : (2 : ℝ) * ((n0 / 2 + 1 : ℕ) : ℝ) ≤ 3 * n0 := by exact_mod_cast this
        linarith
      refine (mul_le_mul_of_nonneg_right q1 (by positivity)).trans (le_of_eq ?_)
      field_simp
      ring
  refine hsum.trans ?_
  exact rate_arith (by rw [Real.one_le_sqrt]; exact_mod_cast (by omega : 1 ≤ p1 + 2)) h1n hT mB hν m1 m3 hdt (by positivity)

/-- C123 applies: `Y(t, x, y) = exp(-t) sin x sin(π y)` solves the heat equation with `ν = 1 / (1 + π²)` and no source. -/
example : ContDiff ℝ 8 (fun z : ℝ × ℝ × ℝ => Real.exp (-z.1) * (Real.sin z.2.1 * Real.sin (Real.pi * z.2.2))) ∧
    (∀ t y : ℝ, Function.Periodic (fun x => Real.exp (-t) * (Real.sin x * Real.sin (Real.pi * y))) (2 * Real.pi)) ∧
    (∀ t x : ℝ, Real.exp (-t) * (Real.sin x * Real.sin (Real.pi * (-1))) = 0 ∧ Real.exp (-t) * (Real.sin x * Real.sin (Real.pi * 1)) = 0) ∧
    (∀ t x y : ℝ, deriv (fun s => Real.exp (-s) * (Real.sin x * Real.sin (Real.pi * y))) t
      = 1 / (1 + Real.pi ^ 2) * laplacian2 (fun x y => Real.exp (-t) * (Real.sin x * Real.sin (Real.pi * y))) x y + 0) ∧
    (∃ r : BaseR2c, fourierR2c 7 = ok r) ∧ (∃ b : BaseR2r, newR2r (some .dirichlet) 8 = ok b) ∧ ∃ q : BaseR2r, chebyshev 8 = ok q := by
  refine ⟨by fun_prop, fun t y x => by simp, fun t x => by simp, fun t x y => ?_, ⟨_, rfl⟩, ⟨_, rfl⟩, ⟨_, rfl⟩⟩
  have d2 : ∀ a c : ℝ, iteratedDeriv 2 (fun s => a * Real.sin (c * s)) = fun s => -(c ^ 2) * (a * Real.sin (c * s)) := fun a c => by
    have q1 : deriv (fun s => a * Real.sin (c * s)) = fun s => a * (c * Real.cos (c * s)) := funext fun s => by
      have : HasDerivAt (fun s => a * Real.sin (c * s)) (a * (Real.cos (c * s) * (c * 1))) s :=
        (((hasDerivAt_id s).const_mul c).sin).const_mul a
      rw [this.deriv]; ring
    funext s
    rw [iteratedDeriv_succ, iteratedDeriv_one, q1]
    have : HasDerivAt (fun s => a * (c * Real.cos (c * s))) (a * (c * (-Real.sin (c * s) * (c * 1)))) s :=
      ((((hasDerivAt_id s).const_mul c).cos).const_mul c).const_mul a
    rw [this.deriv]; ring
  have h1 : HasDerivAt (fun s : ℝ => Real.exp (-s) * (Real.sin x * Real.sin (Real.pi * y)))
      (-Real.exp (-t) * (Real.sin x * Real.sin (Real.pi * y))) t := by
    simpa using ((hasDerivAt_neg t).exp).mul_const (Real.sin x * Real.sin (Real.pi * y))
  unfold laplacian2
  have g1 := congrFun (d2 (Real.exp (-t) * Real.sin (Real.pi * y)) 1) x
  have g2 := congrFun (d2 (Real.exp (-t) * Real.sin x) Real.pi) y
  have f1 : (fun s => Real.exp (-t) * (Real.sin s * Real.sin (Real.pi * y))) = fun s => Real.exp (-t) * Real.sin (Real.pi * y) * Real.sin (1 * s) :=
    funext fun s => by rw [one_mul]; ring
  have f2 : (fun s => Real.exp (-t) * (Real.sin x * Real.sin (Real.pi * s))) = fun s => Real.exp (-t) * Real.sin x * Real.sin (Real.pi * s) :=
    funext fun s => by ring
  rw [h1.deriv, f1, f2, g1, g2]
  have : 1 + Real.pi ^ 2 ≠ 0 := by positivity
  rw [one_mul]
  field_simp
  ring

end Verif.Props
