/-
Property C118: the implicit Euler time stepping with the matrices of `cheb_dirichlet` converges to the solution of the heat equation.
-/
import Verif.Proof.EulerRate
import Verif.Props.SolverRate
import Verif.Props.Euler

namespace Verif.Props
open Res Spec Finset Polynomial

/-- C118: for every initial function and every sequence of sources there is exactly one run of implicit Euler steps. -/
theorem C118_run (o : Mode) (n : ℕ) (hm : n ≤ 2642246) (b : Compo ℝ) (hb : Compo.new .dirichlet n = ok b)
    (ν dt : ℝ) (hν : 0 < ν) (hdt : 0 < dt) :
    ∃ S P I, b.stencilMat = ok S ∧ b.laplacianPinv o = ok (P, I) ∧
      ∀ (G : ℕ → List ℝ) (v₀ : List ℝ), v₀.length = b.lenSpec →
        ∃! v : ℕ → List ℝ, v 0 = v₀ ∧ (∀ m, (v m).length = b.lenSpec) ∧
          ∀ m, EulerStep S P I ν dt (G m) (v m) (v (m + 1)) := by
  obtain ⟨S, P, I, hS, hP, hI, hu⟩ := C106_run o n hm b hb ν dt hν hdt
  refine ⟨S, P, I, hS, hP, fun G v₀ hv₀ => ?_⟩
  have step : ∀ g v : List ℝ, v.length = b.lenSpec → ∃! v', v'.length = b.lenSpec ∧ EulerStep S P I ν dt g v v' := by
    intro g v hv
    obtain ⟨S', P', I', hS', hP', -, hx⟩ := C102_dirichlet o n hm b hb 1 (dt * ν) zero_le_one (by positivity) (by positivity)
    obtain rfl := Res.ok.inj (hS.symm.trans hS')
    obtain ⟨rfl, rfl⟩ := Prod.mk.inj (Res.ok.inj (hP.symm.trans hP'))
    obtain ⟨S₂, P₂, I₂, k⟩ := tauSetup o hm hb
    obtain rfl : S = S₂ := Res.ok.inj (hS.symm.trans k.hS)
    exact (hx _ (by rw [List.length_map, List.length_range, k.r1, k.ho])).1
  let f : ℕ → {v : List ℝ // v.length = b.lenSpec} := fun m => Nat.rec ⟨v₀, hv₀⟩
    (fun m w => ⟨(step (G m) w.1 w.2).choose, (step (G m) w.1 w.2).choose_spec.1.1⟩) m
  refine ⟨fun m => (f m).1, ⟨rfl, fun m => (f m).2, fun m => (step (G m) (f m).1 (f m).2).choose_spec.1.2⟩, ?_⟩
  rintro w ⟨h0, hl, hs⟩
  funext m
  induction m with
  | zero => exact h0
  | succ m ih =>
    refine (step (G m) (f m).1 (f m).2).unique ⟨hl _, ?_⟩ ((step (G m) (f m).1 (f m).2).choose_spec.1)
    have := hs m
    rwa [show w m = (f m).1 from ih] at this

/-- the resolved coefficients of the second derivative -/
theorem second_coeffs {o : Mode} {p : ℕ} {b : Compo ℝ} {S P I : Mat ℝ} (h : TauSetup o .dirichlet (p + 2) b S P I)
    {Q : Matrix (Fin p) (Fin p) ℝ} {M : Matrix (Fin p) (Fin b.lenSpec) ℝ} (ha : AxisTau p b.lenSpec S P I Q M) {w d : List ℝ}
    (hw : w.length = b.lenSpec) (hd : d.length = p + 2) (he : chebPoly ℝ d = derivative^[2] (chebPoly ℝ (mulVec S w))) (i : Fin p) :
    M.mulVec (fun k => nth w k) i = nth d i := by
  set x : Fin b.lenSpec → ℝ := fun k => nth w k with hx
  have hwx : List.ofFn x = w := by
    refine ext_nth (by simp [hw]) fun k hk => ?_
    have hk' : k < b.lenSpec := by simpa using hk
    unfold nth
    rw [List.getD_eq_getElem?_getD, List.getElem?_ofFn]
    simp [hk', hx, nth]
  have hu2 : derivative^[2] (chebPoly ℝ (mulVec S w)) = ∑ i : Fin p, C (M.mulVec x i) * Chebyshev.T ℝ ((i : ℕ) : ℤ) := by
    show derivative (derivative _) = _
    rw [← hwx, chebPoly_mulVec S h.r2, derivative_sum, derivative_sum]
    simp only [derivative_C_mul, ha.der, Finset.mul_sum]
    rw [Finset.sum_comm]
    refine Finset.sum_congr rfl fun i _ => ?_
    show _ = C (∑ k, M i k * x k) * _
    rw [map_sum, Finset.sum_mul]
    exact Finset.sum_congr rfl fun k _ => by rw [C_mul]; ring
  set l : List ℝ := (List.range (p + 2)).map fun i => if hi : i < p then M.mulVec x ⟨i, hi⟩ else 0 with hl
  have hln : ∀ i < p + 2, nth l i = if hi : i < p then M.mulVec x ⟨i, hi⟩ else 0 := fun i hi => nth_map_range _ _ _ hi
  have hlp : chebPoly ℝ l = ∑ i : Fin p, C (M.mulVec x i) * Chebyshev.T ℝ ((i : ℕ) : ℤ) := by
    unfold chebPoly
    rw [show l.length = p + 1 + 1 by simp [hl], Finset.sum_range_succ, Finset.sum_range_succ, hln _ (by omega), hln _ (by omega),
      dif_neg (by omega), dif_neg (by omega), C_0, zero_mul, zero_mul, add_zero, add_zero, Finset.sum_range]
    refine Finset.sum_congr rfl fun i _ => ?_
    rw [hln _ (by omega), dif_pos i.2]
  have : d = l := chebPoly_ext (by simp [hl, hd]) (by rw [he, hu2, hlp])
  rw [this, hln _ (by omega), dif_pos i.2]

/-- a function of `cheb_dirichlet` is small if its resolved coefficients are -/
theorem dirichlet_pointwise {p : ℕ} {d : List ℝ} (hd : d.length = p + 2) (h1 : (chebPoly ℝ d).eval 1 = 0)
    (h2 : (chebPoly ℝ d).eval (-1) = 0) {z : ℝ} (hz : z ∈ Set.Icc (-1 : ℝ) 1) :
    |(chebPoly ℝ d).eval z| ≤ 3 * √((p + 2 : ℕ) : ℝ) * √(∑ i ∈ range p, chebWeight i * nth d i ^ 2) := by
  have ev : ∀ y : ℝ, (chebPoly ℝ d).eval y = ∑ i ∈ range p, nth d i * (Chebyshev.T ℝ (i : ℤ)).eval y
      + nth d p * (Chebyshev.T ℝ (p : ℤ)).eval y + nth d (p + 1) * (Chebyshev.T ℝ ((p + 1 : ℕ) : ℤ)).eval y := fun y => by
    unfold chebPoly
    rw [hd, eval_finset_sum, Finset.sum_range_succ, Finset.sum_range_succ]
    simp only [eval_mul, eval_C]
  have hT : ∀ (k : ℕ) {y : ℝ}, y ∈ Set.Icc (-1 : ℝ) 1 → |(Chebyshev.T ℝ (k : ℤ)).eval y| ≤ 1 := fun k y hy => by
    have := Chebyshev.T_real_cos (Real.arccos y) k
    rw [Real.cos_arccos hy.1 hy.2] at this
    rw [this]
    exact Real.abs_cos_le_one _
  set A := ∑ i ∈ range p, |nth d i| with hA
  have hsum : ∀ {y : ℝ}, y ∈ Set.Icc (-1 : ℝ) 1 → |∑ i ∈ range p, nth d i * (Chebyshev.T ℝ (i : ℤ)).eval y| ≤ A := fun {y} hy => by
    refine (Finset.abs_sum_le_sum_abs _ _).trans (Finset.sum_le_sum fun i _ => ?_)
    rw [abs_mul]
    exact mul_le_of_le_one_right (abs_nonneg _) (hT i hy)
  have s1 := hsum (y := 1) ⟨by norm_num, le_rfl⟩
  have s2 := hsum (y := -1) ⟨le_rfl, by norm_num⟩
  have s3 := hsum hz
  have e1 := ev 1
  have e2 := ev (-1)
  rw [h1] at e1
  rw [h2] at e2
  rw [Chebyshev.T_eval_one, Chebyshev.T_eval_one] at e1
  have top : |nth d p| + |nth d (p + 1)| ≤ A := by
    have n1 : ∀ k : ℕ, (Chebyshev.T ℝ (k : ℤ)).eval (-1) = (-1) ^ k := fun k => by
      rw [Chebyshev.T_eval_neg_one]
      simp
    rw [n1, n1, pow_succ] at e2
    generalize ∑ i ∈ range p, nth d i * (Chebyshev.T ℝ (i : ℤ)).eval 1 = σ at s1 e1
    generalize ∑ i ∈ range p, nth d i * (Chebyshev.T ℝ (i : ℤ)).eval (-1) = ρ at s2 e2
    obtain ⟨a1, a2⟩ := abs_le.mp s1
    obtain ⟨b1, b2⟩ := abs_le.mp s2
    rcases neg_one_pow_eq_or ℝ p with e | e <;> rw [e] at e2 <;>
      rcases abs_cases (nth d p) with ⟨c1, -⟩ | ⟨c1, -⟩ <;> rcases abs_cases (nth d (p + 1)) with ⟨c2, -⟩ | ⟨c2, -⟩ <;> rw [c1, c2] <;> linarith
  have bound : |(chebPoly ℝ d).eval z| ≤ 2 * A := by
    rw [ev]
    refine (abs_add_three _ _ _).trans ?_
    rw [abs_mul, abs_mul]
    have t1 := mul_le_of_le_one_right (abs_nonneg (nth d p)) (hT p hz)
    have t2 := mul_le_of_le_one_right (abs_nonneg (nth d (p + 1))) (hT (p + 1) hz)
    linarith
  have hcs : A ^ 2 ≤ p * (2 * ∑ i ∈ range p, chebWeight i * nth d i ^ 2) := by
    have := sq_sum_le_card_mul_sum_sq (s := range p) (f := fun i => |nth d i|)
    rw [Finset.card_range] at this
    refine this.trans (mul_le_mul_of_nonneg_left ?_ (by positivity))
    rw [Finset.mul_sum]
    refine Finset.sum_le_sum fun i _ => ?_
    rw [sq_abs]
    have : (1 : ℝ) / 2 ≤ chebWeight i := by unfold chebWeight; split <;> norm_num
    nlinarith [sq_nonneg (nth d i)]
  set E := ∑ i ∈ range p, chebWeight i * nth d i ^ 2 with hE
  have hE0 : 0 ≤ E := Finset.sum_nonneg fun i _ => mul_nonneg (by unfold chebWeight; split <;> norm_num) (sq_nonneg _)
  refine bound.trans (abs_le_of_sq_le_sq' ?_ (by positivity)).2
  rw [mul_pow, mul_pow, mul_pow, Real.sq_sqrt hE0, Real.sq_sqrt (by positivity)]
  push_cast
  nlinarith

/-- C118: let `Y(t, x)` be any solution of the heat equation `∂Y/∂t = ν ∂²Y/∂x² + g` on `[0, T] × [-1, 1]` with `Y = 0` at both ends and
with `p ≥ 6` continuous derivatives. Start from the samples of `Y(0, ·)`, transformed with `cheb_dirichlet`, and make implicit Euler steps of
any length `dt` with the matrices of the base and the source transformed from its samples: at every step up to time `T` the
coefficients differ from those of `Y` (weighted mean square of the resolved ones) by at most `K (dt + 1 / n^(p - 5))`, and the function
and the grid values that `backward` returns differ from `Y` by at most `√n` times that. `K` depends on neither `n`, `dt` nor the step. -/
theorem C118_heat (ν T : ℝ) (hν : 0 < ν) (hT : 0 ≤ T) (p : ℕ) (hp : 6 ≤ p) (Y g : ℝ → ℝ → ℝ) (hY : ContDiff ℝ p (Function.uncurry Y))
    (hbc : ∀ t ∈ Set.Icc 0 T, Y t (-1) = 0 ∧ Y t 1 = 0)
    (heq : ∀ t ∈ Set.Icc 0 T, ∀ x ∈ Set.Icc (-1 : ℝ) 1, deriv (fun s => Y s x) t = ν * iteratedDeriv 2 (Y t) x + g t x) :
    ∃ K : ℝ, ∀ (o : Mode) (n : ℕ) (_ : 5 ≤ n) (_ : n ≤ 2642246) (b : Compo ℝ) (_ : Compo.new .dirichlet n = ok b) (q : Cheb) (_ : Cheb.new n = ok q)
      (dt : ℝ) (_ : 0 < dt) (out o1 o2 : List ℝ), out.length = q.lenSpec → o1.length = b.lenSpec → o2.length = b.lenPhys →
      ∃ S P I x, b.stencilMat = ok S ∧ b.laplacianPinv o = ok (P, I) ∧ q.coords = ok x ∧ b.coords = ok x ∧
        ∀ G v : ℕ → List ℝ, (∀ m : ℕ, (m + 1) * dt ≤ T → q.forwardSlice (x.map (g ((m + 1) * dt))) out = ok (G m)) →
          b.forwardSlice (x.map (Y 0)) o1 = ok (v 0) → (∀ m, (v m).length = b.lenSpec) →
          (∀ m, EulerStep S P I ν dt (G m) (v m) (v (m + 1))) →
          ∀ m : ℕ, m * dt ≤ T → ∃ z y, q.forwardSlice (x.map (Y (m * dt))) out = ok z ∧ b.backwardSlice (v m) o2 = ok y ∧ y.length = n ∧
            √(∑ i ∈ range (n - 2), chebWeight i * (nth (mulVec S (v m)) i - nth z i) ^ 2) ≤ K * (dt + 1 / (n : ℝ) ^ (p - 5)) ∧
            (∀ ξ ∈ Set.Icc (-1 : ℝ) 1, |(chebPoly ℝ (mulVec S (v m))).eval ξ - Y (m * dt) ξ| ≤ K * √n * (dt + 1 / (n : ℝ) ^ (p - 5))) ∧
            ∀ j < n, |nth y j - Y (m * dt) (nth x j)| ≤ K * √n * (dt + 1 / (n : ℝ) ^ (p - 5)) := by
  -- bounds of derivatives, uniform in time
  obtain ⟨M, hM0, hM⟩ : ∃ M, 0 ≤ M ∧ ∀ t ∈ Set.Icc 0 T, ∀ θ, |iteratedDeriv p (fun θ => Y t (Real.cos θ)) θ| ≤ M := by
    have hH : ContDiff ℝ p (Function.uncurry fun t θ => Y t (Real.cos θ)) :=
      hY.comp (contDiff_fst.prodMk (Real.contDiff_cos.comp contDiff_snd))
    obtain ⟨M, h0, hM⟩ := bound_iteratedDeriv_snd hH 0 T 0 (2 * Real.pi)
    refine ⟨M, h0, fun t ht θ => ?_⟩
    have hper : Function.Periodic (fun θ => Y t (Real.cos θ)) (2 * Real.pi) := fun θ => by dsimp only; rw [Real.cos_add_two_pi]
    obtain ⟨y, hy, e⟩ := (periodic_iteratedDeriv p hper).exists_mem_Ico₀ (by positivity) θ
    rw [e]
    exact hM t ht y ⟨hy.1, hy.2.le⟩
  obtain ⟨B, hB0, hB⟩ : ∃ B, 0 ≤ B ∧ ∀ x ∈ Set.Icc (-1 : ℝ) 1, ∀ t ∈ Set.Icc 0 T, |iteratedDeriv 2 (fun s => Y s x) t| ≤ B :=
    bound_iteratedDeriv_snd (p := 2) (H := fun x s => Y s x)
      ((hY.of_le (by exact_mod_cast (by omega : 2 ≤ p))).comp (contDiff_snd.prodMk contDiff_fst)) (-1) 1 0 T
  have hYx : ∀ t, ContDiff ℝ p (Y t) := fun t => hY.comp (contDiff_const.prodMk contDiff_id)
  have hYt : ∀ x, ContDiff ℝ 2 fun s => Y s x := fun x =>
    (hY.of_le (by exact_mod_cast (by omega : 2 ≤ p))).comp (contDiff_id.prodMk contDiff_const)
  set K0 := T * (B + ν * (16 * M)) with hK0
  have hK00 : 0 ≤ K0 := by positivity
  refine ⟨3 * K0 + 16 * M, fun o n hn5 hm b hb q hq dt hdt out o1 o2 ho ho1 ho2 => ?_⟩
  obtain ⟨S, P, I, h⟩ := tauSetup o hm hb
  obtain ⟨x, hx, hxl, hxj, -⟩ := C01_coords n q hq
  have hw := Compo.wf_of_new hb
  have hlo : b.lenOrth = n := h.ho
  have hp' : b.lenPhys = n := hw.n_eq
  have hqn : q = ⟨n, n⟩ := (cheb_of_new hq).1
  have hbx : b.coords (K := ℝ) = ok x := by
    rw [← hx, hqn]; unfold Compo.coords Cheb.coords; rw [hp']; rfl
  refine ⟨S, P, I, x, h.hS, h.hP, hx, hbx, fun G v hG hv0 hvl hvs => ?_⟩
  obtain ⟨r, hr⟩ := Nat.exists_eq_add_of_le hp
  have hxm : ∀ j < n, nth x j ∈ Set.Icc (-1 : ℝ) 1 := fun j hj => by
    rw [hxj j hj]
    exact ⟨by linarith [Real.cos_le_one (Real.pi * j / (n - 1 : ℕ))], by linarith [Real.neg_one_le_cos (Real.pi * j / (n - 1 : ℕ))]⟩
  have hn1 : (1 : ℝ) ≤ n := by exact_mod_cast (by omega : 1 ≤ n)
  set η : ℝ := 1 / (n : ℝ) ^ (p - 5) with hη
  have hη0 : 0 ≤ η := by positivity
  -- the interpolants
  have interp : ∀ t ∈ Set.Icc 0 T, ∃ z w : List ℝ, q.forwardSlice (x.map (Y t)) out = ok z ∧ z.length = n ∧ w.length = b.lenSpec ∧
      mulVec S w = z ∧ (∀ j < n, (chebPoly ℝ z).eval (nth x j) = Y t (nth x j)) ∧
      (∀ y ∈ Set.Icc (-1 : ℝ) 1, |(chebPoly ℝ z).eval y - Y t y| ≤ 16 * M * η) ∧
      ∀ y ∈ Set.Icc (-1 : ℝ) 1, |(derivative^[2] (chebPoly ℝ z)).eval y - iteratedDeriv 2 (Y t) y| ≤ 16 * M * η := by
    intro t ht
    obtain ⟨z, hz, hzl, -⟩ := wp_total.mp (wp_forwardSlice q n (by rw [hqn]) (by omega) (x.map (Y t)) out (by simp [hxl]) (by rw [ho, hqn]; rfl))
    obtain ⟨e0, e1, e2⟩ := interp_grid (Y t) n q hq x out z ho hx hz
    obtain ⟨S', hS', -, hex⟩ := C17_boundary_conditions (K := ℝ) (T := ℝ) .dirichlet n b hb
    obtain rfl := Res.ok.inj (h.hS.symm.trans hS')
    obtain ⟨w, hwl, hwz⟩ := hex z (by rw [hzl, hlo]) (by
      show chebDeriv ℝ 0 z 1 = 0 ∧ chebDeriv ℝ 0 z (-1) = 0
      rw [chebDeriv_eq_eval, chebDeriv_eq_eval]
      exact ⟨by rw [← (hbc t ht).2]; exact e2, by rw [← (hbc t ht).1]; exact e1⟩)
    have i0 := (interp_rate_B 0 p (by omega) (Y t) (hYx t).contDiffOn M (hM t ht) n (by omega) q hq x out z ho hx hz).2
    have i2 := (interp_rate_B 2 p (by omega) (Y t) (hYx t).contDiffOn M (hM t ht) n (by omega) q hq x out z ho hx hz).2
    refine ⟨z, w, hz, hzl, hwl, hwz, e0, fun y hy => ?_, fun y hy => ?_⟩
    · have := i0 y hy
      simp only [Function.iterate_zero, id_eq, iteratedDerivWithin_zero] at this
      refine this.trans ?_
      rw [hη, mul_one_div]
      exact div_le_div_of_nonneg_left (by positivity) (by positivity) (pow_le_pow_right₀ hn1 (by omega))
    · have := i2 y hy
      rw [iteratedDerivWithin_eq_iteratedDeriv (uniqueDiffOn_Icc (by norm_num))
        ((hYx t).contDiffAt.of_le (by exact_mod_cast (by omega : 2 ≤ p))) hy] at this
      rw [hη, mul_one_div, show p - 5 = p - 2 * 2 - 1 by omega]
      exact this
  obtain ⟨s, rfl⟩ : ∃ s, n = s + 2 := ⟨n - 2, by omega⟩
  obtain ⟨Q, A, ha⟩ := axis_tau h
  set N := Matrix.mulVecLin (toM S s b.lenSpec) with hN
  set wt : Fin s → ℝ := fun i => wInt (Chebyshev.T ℝ ((i : ℕ) : ℤ) ^ 2) with hwt
  have hNv : ∀ (u : List ℝ) (i : Fin s), N (fun k => nth u k) i = nth (mulVec S u) i := fun u i => by
    rw [nth_mulVec _ _ (by rw [ha.srow]; omega), ha.scol, Finset.sum_range]
    rfl
  have hwtsum : ∀ u : ℕ → ℝ, ∑ i : Fin s, wt i * u i ^ 2 = Real.pi * ∑ i ∈ range s, chebWeight i * u i ^ 2 := fun u => by
    rw [Finset.mul_sum, Finset.sum_range]
    refine Finset.sum_congr rfl fun i _ => ?_
    simp only [hwt]
    rw [wInt_T_sq, mul_assoc]
  set R := B * dt + ν * (16 * M * η) with hR
  have hR0 : 0 ≤ R := by positivity
  -- the error after `m` steps
  have main : ∀ m : ℕ, m * dt ≤ T → ∀ z : List ℝ, q.forwardSlice (x.map (Y (m * dt))) out = ok z →
      √(∑ i : Fin s, wt i * (nth (mulVec S (v m)) i - nth z i) ^ 2) ≤ m * (dt * (√Real.pi * R)) := by
    intro m
    induction m with
    | zero =>
      intro _ z hz
      rw [Nat.cast_zero, zero_mul] at hz ⊢
      obtain ⟨z', w, hz', hzl, hwl, hwz, e0, -, -⟩ := interp 0 ⟨le_rfl, hT⟩
      obtain rfl := Res.ok.inj (hz.symm.trans hz')
      obtain ⟨y, hy, hyf⟩ := C21_forward_backward .dirichlet (Or.inl rfl) (s + 2) b hb hn5 w o2 o1 hwl ho2 ho1
      obtain ⟨S', x', y', hS', hx', hy', hyl, hxl', hyj⟩ := C21_backward_evaluates .dirichlet (Or.inl rfl) (s + 2) b hb w o2 hwl ho2
      obtain rfl := Res.ok.inj (h.hS.symm.trans hS')
      obtain rfl := Res.ok.inj (hbx.symm.trans hx')
      obtain rfl := Res.ok.inj (hy.symm.trans hy')
      have : y = x.map (Y 0) := ext_nth (by rw [hyl, List.length_map, hxl, hp']) fun j hj => by
        have hj' : j < s + 2 := by rw [hyl, hp'] at hj; exact hj
        rw [hyj j (by rw [hp']; exact hj'), hwz, e0 j hj', nth_map _ _ _ (by omega)]
      rw [this] at hyf
      have hvw : v 0 = w := Res.ok.inj (hv0.symm.trans hyf)
      rw [hvw, hwz]
      simp
    | succ m ih =>
      intro hmT z' hz'
      have hmdt : (m : ℝ) * dt ≤ T := by
        refine le_trans ?_ hmT
        exact mul_le_mul_of_nonneg_right (by push_cast; linarith) hdt.le
      have hm0 : (0 : ℝ) ≤ m * dt := by positivity
      have etime : ((m + 1 : ℕ) : ℝ) * dt = m * dt + dt := by push_cast; ring
      obtain ⟨z, w, hz, hzl, hwl, hwz, e0, -, -⟩ := interp (m * dt) ⟨hm0, hmdt⟩
      obtain ⟨z₂, w', hz₂, hzl', hwl', hwz', e0', -, e2'⟩ := interp ((m + 1 : ℕ) * dt) ⟨by positivity, hmT⟩
      obtain rfl := Res.ok.inj (hz'.symm.trans hz₂)
      have hih := ih hmdt z hz
      have hGm := hG m (by push_cast at hmT; exact hmT)
      have hGm' : q.forwardSlice (x.map (g ((m + 1 : ℕ) * dt))) out = ok (G m) := by push_cast; exact hGm
      obtain ⟨g', hg', hgl, -⟩ := wp_total.mp (wp_forwardSlice q (s + 2) (by rw [hqn]) (by omega) (x.map (g ((m + 1 : ℕ) * dt))) out
        (by simp [hxl]) (by rw [ho, hqn]; rfl))
      obtain rfl := Res.ok.inj (hGm'.symm.trans hg')
      have hgj := (interp_grid (g ((m + 1 : ℕ) * dt)) (s + 2) q hq x out (G m) ho hx hGm').1
      obtain ⟨d, -, hdl, hde⟩ := C04_gradient_polynomial (K := ℝ) (s + 2) (by omega) q hq z' (List.replicate q.lenOrth 0)
        (by rw [hqn, hzl']; rfl) (by simp) 2
      have hdl' : d.length = s + 2 := by rw [hdl, hqn]; rfl
      rw [← hwz'] at hde
      have hsec := second_coeffs h ha hwl' hdl' hde
      rw [hwz'] at hde
      set ρ : List ℝ := (List.range (s + 2)).map fun i => nth (G m) i - (nth z' i - nth z i) / dt + ν * nth d i with hρ
      have hρi : ∀ i < s + 2, nth ρ i = nth (G m) i - (nth z' i - nth z i) / dt + ν * nth d i := fun i hi => nth_map_range _ _ _ hi
      have hρe : ∀ y, (chebPoly ℝ ρ).eval y = (chebPoly ℝ (G m)).eval y - ((chebPoly ℝ z').eval y - (chebPoly ℝ z).eval y) / dt
          + ν * (chebPoly ℝ d).eval y := fun y => by
        have ev : ∀ a : List ℝ, a.length = s + 2 → (chebPoly ℝ a).eval y = ∑ i ∈ range (s + 2), nth a i * (Chebyshev.T ℝ (i : ℤ)).eval y :=
          fun a hal => by
            unfold chebPoly
            rw [hal, eval_finset_sum]
            simp only [eval_mul, eval_C]
        rw [ev ρ (by simp [hρ]), ev (G m) hgl, ev z' hzl', ev z hzl, ev d hdl', ← Finset.sum_sub_distrib, Finset.sum_div,
          ← Finset.sum_sub_distrib, Finset.mul_sum, ← Finset.sum_add_distrib]
        refine Finset.sum_congr rfl fun i hi => ?_
        rw [hρi i (Finset.mem_range.mp hi)]
        ring
      have hres := resolved_le (s + 2) q hq x ρ hx (by simp [hρ]) (M := R) fun j hj => by
        have hxI := hxm j hj
        rw [hρe, hgj j hj, e0' j hj, e0 j hj, hde]
        have c1 := backward_difference (hYt (nth x j)) (t := m * dt) hdt (B := B) fun τ hτ =>
          hB _ hxI τ ⟨hm0.trans hτ.1, hτ.2.trans (by rw [← etime]; exact hmT)⟩
        rw [← etime, heq _ ⟨by positivity, hmT⟩ _ hxI] at c1
        have c2 := e2' _ hxI
        set D := (Y ((m + 1 : ℕ) * dt) (nth x j) - Y (m * dt) (nth x j)) / dt
        set Z := (derivative^[2] (chebPoly ℝ z')).eval (nth x j)
        set y2 := iteratedDeriv 2 (Y ((m + 1 : ℕ) * dt)) (nth x j)
        set γ := g ((m + 1 : ℕ) * dt) (nth x j)
        rw [show γ - D + ν * Z = -(D - (ν * y2 + γ)) + ν * (Z - y2) by ring]
        refine (abs_add_le _ _).trans ?_
        rw [abs_neg, abs_mul, abs_of_pos hν]
        exact add_le_add c1 (mul_le_mul_of_nonneg_left c2 hν.le)
      rw [Nat.add_sub_cancel] at hres
      -- one step of the error
      have hstep := (step_iff ha ν dt (G m) (v m) (v (m + 1))).mp (hvs m)
      set e : Fin b.lenSpec → ℝ := (fun k : Fin b.lenSpec => nth (v m) k) - fun k : Fin b.lenSpec => nth w k with he
      set e' : Fin b.lenSpec → ℝ := (fun k : Fin b.lenSpec => nth (v (m + 1)) k) - fun k : Fin b.lenSpec => nth w' k with he'
      have hNe : ∀ i, N e i = nth (mulVec S (v m)) i - nth z i := fun i => by
        rw [he, map_sub, Pi.sub_apply, hNv, hNv, hwz]
      have hNe' : ∀ i, N e' i = nth (mulVec S (v (m + 1))) i - nth z' i := fun i => by
        rw [he', map_sub, Pi.sub_apply, hNv, hNv, hwz']
      have hs := euler_source N (Matrix.mulVecLin A) (fun i => (wInt_TT_pos i).le) (fun y => (axis_energy h ha y).1) (mul_pos hdt hν).le
        (x := e) (x' := e') (s := fun i : Fin s => dt * nth ρ i) (by
          funext i
          have k1 := congrFun hstep i
          simp only [Pi.sub_apply, Pi.add_apply, Pi.smul_apply, smul_eq_mul] at k1
          have k2 := hNv (v m) i
          have k3 := hNv (v (m + 1)) i
          simp only [hN, Matrix.mulVecLin_apply] at k2 k3
          rw [k2, k3] at k1
          show N e' i - dt * ν * Matrix.mulVecLin A e' i = N e i + dt * nth ρ i
          rw [hNe, hNe', hρi i (by omega), he', map_sub, Pi.sub_apply, Matrix.mulVecLin_apply, Matrix.mulVecLin_apply, hsec i]
          have : dt ≠ 0 := hdt.ne'
          field_simp
          linear_combination k1)
      simp only [hNe, hNe'] at hs
      have hsrc : √(∑ i : Fin s, wInt (Chebyshev.T ℝ ((i : ℕ) : ℤ) ^ 2) * (dt * nth ρ i) ^ 2) ≤ dt * (√Real.pi * R) := by
        refine Real.sqrt_le_iff.mpr ⟨by positivity, ?_⟩
        have := hwtsum fun i => dt * nth ρ i
        simp only [hwt] at this
        rw [this, mul_pow, mul_pow, Real.sq_sqrt Real.pi_pos.le]
        have k : ∑ i ∈ range s, chebWeight i * (dt * nth ρ i) ^ 2 = dt ^ 2 * ∑ i ∈ range s, chebWeight i * nth ρ i ^ 2 := by
          rw [Finset.mul_sum]
          exact Finset.sum_congr rfl fun i _ => by ring
        rw [k]
        have := mul_le_mul_of_nonneg_left hres (by positivity : 0 ≤ Real.pi * dt ^ 2)
        linarith
      push_cast
      calc _ ≤ _ := hs
        _ ≤ m * (dt * (√Real.pi * R)) + dt * (√Real.pi * R) := add_le_add hih hsrc
        _ = _ := by ring
  intro m hmT
  have ht : (m : ℝ) * dt ∈ Set.Icc 0 T := ⟨by positivity, hmT⟩
  obtain ⟨z, w, hz, hzl, hwl, hwz, e0, e1, -⟩ := interp _ ht
  obtain ⟨S', x', y, hS', hx', hy, hyl, hxl', hyj⟩ := C21_backward_evaluates .dirichlet (Or.inl rfl) (s + 2) b hb (v m) o2 (hvl m) ho2
  obtain rfl := Res.ok.inj (h.hS.symm.trans hS')
  obtain rfl := Res.ok.inj (hbx.symm.trans hx')
  have hmain := main m hmT z hz
  have hE : √(∑ i ∈ range s, chebWeight i * (nth (mulVec S (v m)) i - nth z i) ^ 2) ≤ K0 * (dt + η) := by
    have e := hwtsum fun i => nth (mulVec S (v m)) i - nth z i
    rw [e, Real.sqrt_mul Real.pi_pos.le] at hmain
    have h1 : √Real.pi * √(∑ i ∈ range s, chebWeight i * (nth (mulVec S (v m)) i - nth z i) ^ 2) ≤ √Real.pi * ((m * dt) * R) := by
      linarith
    refine (le_of_mul_le_mul_left h1 (Real.sqrt_pos.mpr Real.pi_pos)).trans ?_
    refine (mul_le_mul_of_nonneg_right hmT hR0).trans ?_
    rw [hK0, hR, mul_assoc T]
    refine mul_le_mul_of_nonneg_left ?_ hT
    have : 0 ≤ B * η + ν * (16 * M) * dt := by positivity
    nlinarith
  have hsq : 1 ≤ √((s + 2 : ℕ) : ℝ) := by rw [Real.one_le_sqrt]; exact hn1
  have hpt : ∀ ξ ∈ Set.Icc (-1 : ℝ) 1, |(chebPoly ℝ (mulVec S (v m))).eval ξ - Y (m * dt) ξ|
      ≤ (3 * K0 + 16 * M) * √((s + 2 : ℕ) : ℝ) * (dt + η) := fun ξ hξ => by
    set δ : List ℝ := (List.range (s + 2)).map fun i => nth (mulVec S (v m)) i - nth z i with hδ
    have hδi : ∀ i < s + 2, nth δ i = nth (mulVec S (v m)) i - nth z i := fun i hi => nth_map_range _ _ _ hi
    have hδe : ∀ y, (chebPoly ℝ δ).eval y = (chebPoly ℝ (mulVec S (v m))).eval y - (chebPoly ℝ z).eval y := fun y => by
      unfold chebPoly
      rw [show δ.length = s + 2 by simp [hδ], mulVec_length, h.r1, hzl, eval_finset_sum, eval_finset_sum, eval_finset_sum,
        ← Finset.sum_sub_distrib]
      refine Finset.sum_congr rfl fun i hi => ?_
      simp only [eval_mul, eval_C]
      rw [hδi i (Finset.mem_range.mp hi)]
      ring
    have b1 : (chebPoly ℝ (mulVec S (v m))).eval 1 = 0 ∧ (chebPoly ℝ (mulVec S (v m))).eval (-1) = 0 := h.bc (v m)
    have b2 : (chebPoly ℝ (mulVec S w)).eval 1 = 0 ∧ (chebPoly ℝ (mulVec S w)).eval (-1) = 0 := h.bc w
    rw [hwz] at b2
    have k := dirichlet_pointwise (p := s) (d := δ) (by simp [hδ]) (by rw [hδe, b1.1, b2.1, sub_self]) (by rw [hδe, b1.2, b2.2, sub_self]) hξ
    rw [hδe, Finset.sum_congr rfl (fun i hi => by rw [hδi i (by have := Finset.mem_range.mp hi; omega)] :
      ∀ i ∈ range s, chebWeight i * nth δ i ^ 2 = chebWeight i * (nth (mulVec S (v m)) i - nth z i) ^ 2)] at k
    have k2 := k.trans (mul_le_mul_of_nonneg_left hE (by positivity))
    have k3 := e1 ξ hξ
    have k4 := abs_sub_le ((chebPoly ℝ (mulVec S (v m))).eval ξ) ((chebPoly ℝ z).eval ξ) (Y (m * dt) ξ)
    have k5 : 16 * M * η ≤ 16 * M * √((s + 2 : ℕ) : ℝ) * (dt + η) := by
      have : η ≤ √((s + 2 : ℕ) : ℝ) * (dt + η) := by nlinarith
      rw [mul_assoc (16 * M)]
      exact mul_le_mul_of_nonneg_left this (by positivity)
    calc _ ≤ _ := k4
      _ ≤ 3 * √((s + 2 : ℕ) : ℝ) * (K0 * (dt + η)) + 16 * M * √((s + 2 : ℕ) : ℝ) * (dt + η) := add_le_add k2 (k3.trans k5)
      _ = _ := by ring
  refine ⟨z, y, hz, hy, by rw [hyl, hp'], hE.trans ?_, hpt, fun j hj => ?_⟩
  · refine mul_le_mul_of_nonneg_right ?_ (by positivity)
    linarith
  · rw [hyj j (by rw [hp']; exact hj)]
    exact hpt _ (hxm j hj)

/-- C118 applies: `Y(t, x) = exp(-t) sin(π x)` solves the heat equation with `ν = 1 / π²` and no source, and vanishes at both ends. -/
example : ContDiff ℝ 8 (Function.uncurry fun t x : ℝ => Real.exp (-t) * Real.sin (Real.pi * x)) ∧
    (∀ t : ℝ, Real.exp (-t) * Real.sin (Real.pi * (-1)) = 0 ∧ Real.exp (-t) * Real.sin (Real.pi * 1) = 0) ∧
    ∀ t x : ℝ, deriv (fun s => Real.exp (-s) * Real.sin (Real.pi * x)) t
      = 1 / Real.pi ^ 2 * iteratedDeriv 2 (fun x => Real.exp (-t) * Real.sin (Real.pi * x)) x + 0 := by
  refine ⟨by unfold Function.uncurry; fun_prop, fun t => ⟨by simp, by simp⟩, fun t x => ?_⟩
  have h1 : HasDerivAt (fun s : ℝ => Real.exp (-s) * Real.sin (Real.pi * x)) (-Real.exp (-t) * Real.sin (Real.pi * x)) t := by
    simpa using ((hasDerivAt_neg t).exp).mul_const (Real.sin (Real.pi * x))
  have h2 : deriv (fun x => Real.exp (-t) * Real.sin (Real.pi * x)) = fun x => Real.exp (-t) * (Real.pi * Real.cos (Real.pi * x)) := funext fun x => by
    have : HasDerivAt (fun x => Real.exp (-t) * Real.sin (Real.pi * x)) (Real.exp (-t) * (Real.cos (Real.pi * x) * (Real.pi * 1))) x :=
      (((hasDerivAt_id x).const_mul Real.pi).sin).const_mul _
    rw [this.deriv]; ring
  have h3 : deriv (fun x => Real.exp (-t) * (Real.pi * Real.cos (Real.pi * x))) x = Real.exp (-t) * (Real.pi * (-Real.sin (Real.pi * x) * (Real.pi * 1))) :=
    ((((hasDerivAt_id x).const_mul Real.pi).cos).const_mul _ |>.const_mul _).deriv
  rw [h1.deriv, iteratedDeriv_succ, iteratedDeriv_one, h2, h3]
  have := Real.pi_ne_zero
  field_simp
  ring

end Verif.Props
