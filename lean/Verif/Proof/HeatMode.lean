/-
The implicit Euler steps of one Fourier mode of the heat equation, as used by property C123.
-/
import Verif.Props.HeatRate

namespace Verif.Props
open Res Spec Finset Polynomial

/-- implicit Euler for `∂Y/∂t = ν ∂²Y/∂x² - νμ Y + g`, where `Y` solves the equation up to a defect `ρ₀` -/
theorem heat_mode {ν T μ : ℝ} (hν : 0 < ν) (hT : 0 ≤ T) (hμ : 0 ≤ μ) {p : ℕ} (hp : 6 ≤ p) {Y g : ℝ → ℝ → ℝ}
    (hY : ContDiff ℝ p (Function.uncurry Y)) (hbc : ∀ t ∈ Set.Icc 0 T, Y t (-1) = 0 ∧ Y t 1 = 0) {M B ρ₀ : ℝ} (hM0 : 0 ≤ M) (hB0 : 0 ≤ B)
    (hρ0 : 0 ≤ ρ₀) (hM : ∀ t ∈ Set.Icc 0 T, ∀ θ, |iteratedDeriv p (fun θ => Y t (Real.cos θ)) θ| ≤ M)
    (hB : ∀ x ∈ Set.Icc (-1 : ℝ) 1, ∀ t ∈ Set.Icc 0 T, |iteratedDeriv 2 (fun s => Y s x) t| ≤ B)
    (heq : ∀ t ∈ Set.Icc 0 T, ∀ x ∈ Set.Icc (-1 : ℝ) 1,
      |deriv (fun s => Y s x) t - (ν * iteratedDeriv 2 (Y t) x - ν * μ * Y t x + g t x)| ≤ ρ₀)
    {o : Mode} {s : ℕ} (hn5 : 5 ≤ s + 2) {b : Compo ℝ} {q : Cheb} (hq : Cheb.new (s + 2) = ok q) {x : List ℝ} (hx : q.coords = ok x)
    {S P I : Mat ℝ} (h : TauSetup o .dirichlet (s + 2) b S P I) (hb : Compo.new .dirichlet (s + 2) = ok b)
    {Q : Matrix (Fin s) (Fin s) ℝ} {A : Matrix (Fin s) (Fin b.lenSpec) ℝ} (ha : AxisTau s b.lenSpec S P I Q A)
    {dt : ℝ} (hdt : 0 < dt) {G v : ℕ → List ℝ} (hGl : ∀ m, (G m).length = s + 2)
    (hGe : ∀ m : ℕ, (m + 1) * dt ≤ T → ∀ j < s + 2, (chebPoly ℝ (G m)).eval (nth x j) = g ((m + 1) * dt) (nth x j))
    (hv0 : ∀ j < s + 2, (chebPoly ℝ (mulVec S (v 0))).eval (nth x j) = Y 0 (nth x j))
    (hvs : ∀ m : ℕ, (m + 1) * dt ≤ T → (1 + dt * ν * μ) • (toM S s b.lenSpec).mulVec (fun l : Fin b.lenSpec => nth (v (m + 1)) l)
        - (dt * ν) • A.mulVec (fun l : Fin b.lenSpec => nth (v (m + 1)) l)
        = (toM S s b.lenSpec).mulVec (fun l : Fin b.lenSpec => nth (v m) l) + dt • fun i : Fin s => nth (G m) i)
    (m : ℕ) (hmT : m * dt ≤ T) {ξ : ℝ} (hξ : ξ ∈ Set.Icc (-1 : ℝ) 1) :
    |(chebPoly ℝ (mulVec S (v m))).eval ξ - Y (m * dt) ξ| ≤ 3 * √((s + 2 : ℕ) : ℝ)
        * (T * (B * dt + ν * (16 * M * (1 / ((s + 2 : ℕ) : ℝ) ^ (p - 5))) + ρ₀)) + 16 * M * (1 / ((s + 2 : ℕ) : ℝ) ^ (p - 5)) := by
  have hYx : ∀ t, ContDiff ℝ p (Y t) := fun t => hY.comp (contDiff_const.prodMk contDiff_id)
  have hYt : ∀ x, ContDiff ℝ 2 fun s => Y s x := fun x =>
    (hY.of_le (by exact_mod_cast (by omega : 2 ≤ p))).comp (contDiff_id.prodMk contDiff_const)
  have hqn : q = ⟨s + 2, s + 2⟩ := (cheb_of_new hq).1
  obtain ⟨x', hx', hxl, hxj, -⟩ := C01_coords (s + 2) q hq
  obtain rfl := Res.ok.inj (hx'.symm.trans hx)
  have hlo : b.lenOrth = s + 2 := h.ho
  obtain ⟨r, hr⟩ := Nat.exists_eq_add_of_le hp
  set out : List ℝ := List.replicate q.lenSpec 0 with hout
  have ho : out.length = q.lenSpec := by simp [hout]
  have hxm : ∀ j < s + 2, nth x' j ∈ Set.Icc (-1 : ℝ) 1 := fun j hj => by
    rw [hxj j hj]
    exact ⟨by linarith [Real.cos_le_one (Real.pi * j / (s + 2 - 1 : ℕ))], by linarith [Real.neg_one_le_cos (Real.pi * j / (s + 2 - 1 : ℕ))]⟩
  have hn1 : (1 : ℝ) ≤ ((s + 2 : ℕ) : ℝ) := by exact_mod_cast (by omega : 1 ≤ s + 2)
  set η : ℝ := 1 / ((s + 2 : ℕ) : ℝ) ^ (p - 5) with hη
  have hη0 : 0 ≤ η := by positivity
  have interp : ∀ t ∈ Set.Icc 0 T, ∃ z w : List ℝ, q.forwardSlice (x'.map (Y t)) out = ok z ∧ z.length = s + 2 ∧ w.length = b.lenSpec ∧
      mulVec S w = z ∧ (∀ j < s + 2, (chebPoly ℝ z).eval (nth x' j) = Y t (nth x' j)) ∧
      (∀ y ∈ Set.Icc (-1 : ℝ) 1, |(chebPoly ℝ z).eval y - Y t y| ≤ 16 * M * η) ∧
      ∀ y ∈ Set.Icc (-1 : ℝ) 1, |(derivative^[2] (chebPoly ℝ z)).eval y - iteratedDeriv 2 (Y t) y| ≤ 16 * M * η := by
    intro t ht
    obtain ⟨z, hz, hzl, -⟩ := wp_total.mp (wp_forwardSlice q (s + 2) (by rw [hqn]) (by omega) (x'.map (Y t)) out (by simp [hxl]) (by rw [ho, hqn]; rfl))
    obtain ⟨e0, e1, e2⟩ := interp_grid (Y t) (s + 2) q hq x' out z ho hx hz
    obtain ⟨S', hS', -, hex⟩ := C17_boundary_conditions (K := ℝ) (T := ℝ) .dirichlet (s + 2) b hb
    obtain rfl := Res.ok.inj (h.hS.symm.trans hS')
    obtain ⟨w, hwl, hwz⟩ := hex z (by rw [hzl, hlo]) (by
      show chebDeriv ℝ 0 z 1 = 0 ∧ chebDeriv ℝ 0 z (-1) = 0
      rw [chebDeriv_eq_eval, chebDeriv_eq_eval]
      exact ⟨by rw [← (hbc t ht).2]; exact e2, by rw [← (hbc t ht).1]; exact e1⟩)
    have i0 := (interp_rate_B 0 p (by omega) (Y t) (hYx t).contDiffOn M (hM t ht) (s + 2) (by omega) q hq x' out z ho hx hz).2
    have i2 := (interp_rate_B 2 p (by omega) (Y t) (hYx t).contDiffOn M (hM t ht) (s + 2) (by omega) q hq x' out z ho hx hz).2
    refine ⟨z, w, hz, hzl, hwl, hwz, e0, fun y hy => ?_, fun y hy => ?_⟩
    · have := i0 y hy
      simp only [Function.iterate_zero, id_eq, iteratedDerivWithin_zero] at this
      refine this.trans ?_
      rw [hη, mul_one_div]
      exact div_le_div_of_nonneg_left (by positivity) (by positivity) (pow_le_pow_right₀ hn1 (by omega))
    · have := i2 y hy
      rw [iteratedDerivWithin_eq_iteratedDeriv (uniqueDiffOn_Icc (by norm_num))
        ((hYx t).contDiffAt.of_le (by exact_mod_cast (by omega : 2 ≤ p))) hy] at this
      rw [hη, mul_one_div, show p - 5 = p - 2 * 2 - 1 by omega]
      exact this
  set N := Matrix.mulVecLin (toM S s b.lenSpec) with hN
  set wt : Fin s → ℝ := fun i => wInt (Chebyshev.T ℝ ((i : ℕ) : ℤ) ^ 2) with hwt
  have hNv : ∀ (u : List ℝ) (i : Fin s), N (fun k => nth u k) i = nth (mulVec S u) i := fun u i => by
    rw [nth_mulVec _ _ (by rw [ha.srow]; omega), ha.scol, Finset.sum_range]
    rfl
  have hwtsum : ∀ u : ℕ → ℝ, ∑ i : Fin s, wt i * u i ^ 2 = Real.pi * ∑ i ∈ range s, chebWeight i * u i ^ 2 := fun u => by
    rw [Finset.mul_sum, Finset.sum_range]
    refine Finset.sum_congr rfl fun i _ => ?_
    simp only [hwt]
    rw [wInt_T_sq, mul_assoc]
  set R := B * dt + ν * (16 * M * η) + ρ₀ with hR
  have hR0 : 0 ≤ R := by positivity
  have ev : ∀ (y : ℝ) (a : List ℝ), a.length = s + 2 → (chebPoly ℝ a).eval y = ∑ i ∈ range (s + 2), nth a i * (Chebyshev.T ℝ (i : ℤ)).eval y :=
    fun y a hal => by
      unfold chebPoly
      rw [hal, eval_finset_sum]
      simp only [eval_mul, eval_C]
  have hδe : ∀ (u z : List ℝ), z.length = s + 2 → ∀ y, (chebPoly ℝ ((List.range (s + 2)).map fun i => nth (mulVec S u) i - nth z i)).eval y
      = (chebPoly ℝ (mulVec S u)).eval y - (chebPoly ℝ z).eval y := fun u z hzl y => by
    rw [ev _ _ (by simp), ev _ z hzl, ev _ (mulVec S u) (by rw [mulVec_length, h.r1]), ← Finset.sum_sub_distrib]
    refine Finset.sum_congr rfl fun i hi => ?_
    rw [nth_map_range _ _ _ (Finset.mem_range.mp hi)]
    ring
  have main : ∀ m : ℕ, m * dt ≤ T → ∀ z : List ℝ, q.forwardSlice (x'.map (Y (m * dt))) out = ok z →
      √(∑ i : Fin s, wt i * (nth (mulVec S (v m)) i - nth z i) ^ 2) ≤ m * (dt * (√Real.pi * R)) := by
    intro m
    induction m with
    | zero =>
      intro _ z hz
      rw [Nat.cast_zero, zero_mul] at hz ⊢
      obtain ⟨z', w, hz', hzl, hwl, hwz, e0, -, -⟩ := interp 0 ⟨le_rfl, hT⟩
      obtain rfl := Res.ok.inj (hz.symm.trans hz')
      have k := resolved_le (s + 2) q hq x' (r := (List.range (s + 2)).map fun i => nth (mulVec S (v 0)) i - nth z i) (hx := hx) (hr := by simp) (M := 0)
        fun j hj => by rw [hδe _ _ hzl, hv0 j hj, e0 j hj, sub_self, abs_zero]
      rw [Nat.add_sub_cancel, Finset.sum_congr rfl (fun i hi => by rw [nth_map_range _ _ _ (by have := Finset.mem_range.mp hi; omega)] :
        ∀ i ∈ range s, chebWeight i * nth ((List.range (s + 2)).map fun i => nth (mulVec S (v 0)) i - nth z i) i ^ 2
          = chebWeight i * (nth (mulVec S (v 0)) i - nth z i) ^ 2)] at k
      have e := hwtsum fun i => nth (mulVec S (v 0)) i - nth z i
      rw [e]
      refine (Real.sqrt_eq_zero'.mpr ?_).le
      have := mul_le_mul_of_nonneg_left k Real.pi_pos.le
      linarith
    | succ m ih =>
      intro hmT z' hz'
      have hmdt : (m : ℝ) * dt ≤ T := by
        refine le_trans ?_ hmT
        exact mul_le_mul_of_nonneg_right (by push_cast; linarith) hdt.le
      have hm0 : (0 : ℝ) ≤ m * dt := by positivity
      have etime : ((m + 1 : ℕ) : ℝ) * dt = m * dt + dt := by push_cast; ring
      obtain ⟨z, w, hz, hzl, hwl, hwz, e0, -, -⟩ := interp (m * dt) ⟨hm0, hmdt⟩
      obtain ⟨z₂, w', hz₂, hzl', hwl', hwz', e0', -, e2'⟩ := interp ((m + 1 : ℕ) * dt) ⟨by positivity, hmT⟩
      obtain rfl := Res.ok.inj (hz'.symm.trans hz₂)
      have hih := ih hmdt z hz
      have hmT' : ((m : ℝ) + 1) * dt ≤ T := by push_cast at hmT; exact hmT
      have hgl := hGl m
      have hgj : ∀ j < s + 2, (chebPoly ℝ (G m)).eval (nth x' j) = g ((m + 1 : ℕ) * dt) (nth x' j) := by
        push_cast; exact hGe m hmT'
      obtain ⟨d, -, hdl, hde⟩ := C04_gradient_polynomial (K := ℝ) (s + 2) (by omega) q hq z' (List.replicate q.lenOrth 0)
        (by rw [hqn, hzl']; rfl) (by simp) 2
      have hdl' : d.length = s + 2 := by rw [hdl, hqn]; rfl
      rw [← hwz'] at hde
      have hsec := second_coeffs h ha hwl' hdl' hde
      rw [hwz'] at hde
      set ρ : List ℝ := (List.range (s + 2)).map fun i => nth (G m) i - (nth z' i - nth z i) / dt + ν * nth d i - ν * μ * nth z' i with hρ
      have hρi : ∀ i < s + 2, nth ρ i = nth (G m) i - (nth z' i - nth z i) / dt + ν * nth d i - ν * μ * nth z' i := fun i hi => nth_map_range _ _ _ hi
      have hρe : ∀ y, (chebPoly ℝ ρ).eval y = (chebPoly ℝ (G m)).eval y - ((chebPoly ℝ z').eval y - (chebPoly ℝ z).eval y) / dt
          + ν * (chebPoly ℝ d).eval y - ν * μ * (chebPoly ℝ z').eval y := fun y => by
        rw [ev y ρ (by simp [hρ]), ev y (G m) hgl, ev y z' hzl', ev y z hzl, ev y d hdl', ← Finset.sum_sub_distrib, Finset.sum_div,
          ← Finset.sum_sub_distrib, Finset.mul_sum, ← Finset.sum_add_distrib, Finset.mul_sum, ← Finset.sum_sub_distrib]
        refine Finset.sum_congr rfl fun i hi => ?_
        rw [hρi i (Finset.mem_range.mp hi)]
        ring
      have hres := resolved_le (s + 2) q hq x' ρ hx (by simp [hρ]) (M := R) fun j hj => by
        have hxI := hxm j hj
        rw [hρe, hgj j hj, e0' j hj, e0 j hj, hde]
        have c1 := backward_difference (hYt (nth x' j)) (t := m * dt) hdt (B := B) fun τ hτ =>
          hB _ hxI τ ⟨hm0.trans hτ.1, hτ.2.trans (by rw [← etime]; exact hmT)⟩
        rw [← etime] at c1
        have c3 := heq _ ⟨by positivity, hmT⟩ _ hxI
        have c2 := e2' _ hxI
        set D := (Y ((m + 1 : ℕ) * dt) (nth x' j) - Y (m * dt) (nth x' j)) / dt
        set Z := (derivative^[2] (chebPoly ℝ z')).eval (nth x' j)
        set y2 := iteratedDeriv 2 (Y ((m + 1 : ℕ) * dt)) (nth x' j)
        set γ := g ((m + 1 : ℕ) * dt) (nth x' j)
        set y0 := Y ((m + 1 : ℕ) * dt) (nth x' j)
        set D' := deriv (fun s => Y s (nth x' j)) ((m + 1 : ℕ) * dt)
        rw [show γ - D + ν * Z - ν * μ * y0 = -(D - D') + ν * (Z - y2) + -(D' - (ν * y2 - ν * μ * y0 + γ)) by ring]
        refine (abs_add_three _ _ _).trans ?_
        rw [abs_neg, abs_neg, abs_mul, abs_of_pos hν]
        exact add_le_add (add_le_add c1 (mul_le_mul_of_nonneg_left c2 hν.le)) c3
      rw [Nat.add_sub_cancel] at hres
      -- one step of the error
      have hstep := hvs m hmT'
      set e : Fin b.lenSpec → ℝ := (fun k : Fin b.lenSpec => nth (v m) k) - fun k : Fin b.lenSpec => nth w k with he
      set e' : Fin b.lenSpec → ℝ := (fun k : Fin b.lenSpec => nth (v (m + 1)) k) - fun k : Fin b.lenSpec => nth w' k with he'
      have hNe : ∀ i, N e i = nth (mulVec S (v m)) i - nth z i := fun i => by
        rw [he, map_sub, Pi.sub_apply, hNv, hNv, hwz]
      have hNe' : ∀ i, N e' i = nth (mulVec S (v (m + 1))) i - nth z' i := fun i => by
        rw [he', map_sub, Pi.sub_apply, hNv, hNv, hwz']
      have hs := euler_source N (Matrix.mulVecLin A - μ • N) (fun i => (wInt_TT_pos i).le) (fun y => by
          have hE := (axis_energy h ha y).1
          have e : ∑ i : Fin s, wInt (Chebyshev.T ℝ ((i : ℕ) : ℤ) ^ 2) * (N y i * (Matrix.mulVecLin A - μ • N) y i)
              = ∑ i : Fin s, wInt (Chebyshev.T ℝ ((i : ℕ) : ℤ) ^ 2) * ((toM S s b.lenSpec).mulVec y i * A.mulVec y i)
                - μ * ∑ i : Fin s, wInt (Chebyshev.T ℝ ((i : ℕ) : ℤ) ^ 2) * (toM S s b.lenSpec).mulVec y i ^ 2 := by
            rw [Finset.mul_sum, ← Finset.sum_sub_distrib]
            refine Finset.sum_congr rfl fun i _ => ?_
            simp only [hN, LinearMap.sub_apply, LinearMap.smul_apply, Matrix.mulVecLin_apply, Pi.sub_apply, Pi.smul_apply, smul_eq_mul]
            ring
          have hs : 0 ≤ μ * ∑ i : Fin s, wInt (Chebyshev.T ℝ ((i : ℕ) : ℤ) ^ 2) * (toM S s b.lenSpec).mulVec y i ^ 2 :=
            mul_nonneg hμ (Finset.sum_nonneg fun i _ => mul_nonneg (wInt_TT_pos i).le (sq_nonneg _))
          rw [e]
          linarith) (mul_pos hdt hν).le
        (x := e) (x' := e') (s := fun i : Fin s => dt * nth ρ i) (by
          funext i
          have k1 := congrFun hstep i
          simp only [Pi.sub_apply, Pi.add_apply, Pi.smul_apply, smul_eq_mul] at k1
          have k2 := hNv (v m) i
          have k3 := hNv (v (m + 1)) i
          simp only [hN, Matrix.mulVecLin_apply] at k2 k3
          rw [k2, k3] at k1
          show N e' i - dt * ν * (Matrix.mulVecLin A e' i - μ * N e' i) = N e i + dt * nth ρ i
          rw [hNe, hNe', hρi i (by omega), he', map_sub, Pi.sub_apply, Matrix.mulVecLin_apply, Matrix.mulVecLin_apply, hsec i]
          have : dt ≠ 0 := hdt.ne'
          field_simp
          linear_combination k1)
      simp only [hNe, hNe'] at hs
      have hsrc : √(∑ i : Fin s, wInt (Chebyshev.T ℝ ((i : ℕ) : ℤ) ^ 2) * (dt * nth ρ i) ^ 2) ≤ dt * (√Real.pi * R) := by
        refine Real.sqrt_le_iff.mpr ⟨by positivity, ?_⟩
        have := hwtsum fun i => dt * nth ρ i
        simp only [hwt] at this
        rw [this, mul_pow, mul_pow, Real.sq_sqrt Real.pi_pos.le]
        have k : ∑ i ∈ range s, chebWeight i * (dt * nth ρ i) ^ 2 = dt ^ 2 * ∑ i ∈ range s, chebWeight i * nth ρ i ^ 2 := by
          rw [Finset.mul_sum]
          exact Finset.sum_congr rfl fun i _ => by ring
        rw [k]
        have := mul_le_mul_of_nonneg_left hres (by positivity : 0 ≤ Real.pi * dt ^ 2)
        linarith
      push_cast
      calc _ ≤ _ := hs
        _ ≤ m * (dt * (√Real.pi * R)) + dt * (√Real.pi * R) := add_le_add hih hsrc
        _ = _ := by ring
  have ht : (m : ℝ) * dt ∈ Set.Icc 0 T := ⟨by positivity, hmT⟩
  obtain ⟨z, w, hz, hzl, hwl, hwz, e0, e1, -⟩ := interp _ ht
  have hmain := main m hmT z hz
  have hE : √(∑ i ∈ range s, chebWeight i * (nth (mulVec S (v m)) i - nth z i) ^ 2) ≤ T * R := by
    have e := hwtsum fun i => nth (mulVec S (v m)) i - nth z i
    rw [e, Real.sqrt_mul Real.pi_pos.le] at hmain
    have h1 : √Real.pi * √(∑ i ∈ range s, chebWeight i * (nth (mulVec S (v m)) i - nth z i) ^ 2) ≤ √Real.pi * ((m * dt) * R) := by
      linarith
    exact (le_of_mul_le_mul_left h1 (Real.sqrt_pos.mpr Real.pi_pos)).trans (mul_le_mul_of_nonneg_right hmT hR0)
  have b1 : (chebPoly ℝ (mulVec S (v m))).eval 1 = 0 ∧ (chebPoly ℝ (mulVec S (v m))).eval (-1) = 0 := h.bc (v m)
  have b2 : (chebPoly ℝ (mulVec S w)).eval 1 = 0 ∧ (chebPoly ℝ (mulVec S w)).eval (-1) = 0 := h.bc w
  rw [hwz] at b2
  have k := dirichlet_pointwise (p := s) (d := (List.range (s + 2)).map fun i => nth (mulVec S (v m)) i - nth z i) (by simp)
    (by rw [hδe _ _ hzl, b1.1, b2.1, sub_self]) (by rw [hδe _ _ hzl, b1.2, b2.2, sub_self]) hξ
  rw [hδe _ _ hzl, Finset.sum_congr rfl (fun i hi => by rw [nth_map_range _ _ _ (by have := Finset.mem_range.mp hi; omega)] :
    ∀ i ∈ range s, chebWeight i * nth ((List.range (s + 2)).map fun i => nth (mulVec S (v m)) i - nth z i) i ^ 2
      = chebWeight i * (nth (mulVec S (v m)) i - nth z i) ^ 2)] at k
  exact (abs_sub_le _ ((chebPoly ℝ z).eval ξ) _).trans (add_le_add (k.trans (mul_le_mul_of_nonneg_left hE (by positivity))) (e1 ξ hξ))

end Verif.Props
