/-
Property C124: time stepping on the periodic grid with the library's derivatives converges to the solutions of the equations.
-/
import Verif.Proof.ModesRate

namespace Verif.Props
open Res Spec Finset

/-- Differentiating the grid data is a linear function. -/
private theorem gridDeriv_lin {n : ℕ} {b : Base ℝ ℂ ℂ} (hb : IsR2c n b) (d : ℕ) :
    ∃ D : (Fin n → ℝ) →ₗ[ℝ] (Fin n → ℝ), ∀ v, GridDeriv b d (List.ofFn v) (List.ofFn (D v)) := by
  obtain ⟨φ, cφ, lφ⟩ := hb.fwdLin
  obtain ⟨γ, cγ, lγ⟩ := hb.gradLin d
  obtain ⟨β, cβ, lβ⟩ := hb.bwdLin
  have lp : b.lenPhys = n ∧ b.lenSpec = n / 2 + 1 ∧ b.lenOrth = n / 2 + 1 := by
    obtain ⟨-, b0, hb, e⟩ := hb
    obtain rfl := r2c_inv hb
    rw [e]; exact ⟨rfl, rfl, rfl⟩
  rw [lp.1, lp.2.1] at cφ cβ
  rw [lp.2.1, lp.2.2] at cγ
  rw [lp.1] at lφ
  rw [lp.2.1] at lγ lβ
  have lo : ∀ v : Fin n → ℝ, (List.ofFn v).length = n := fun v => List.length_ofFn ..
  have hφ : ∀ v : Fin n → ℝ, (φ (List.ofFn v)).length = n / 2 + 1 := fun v => (cφ _ (List.replicate (n / 2 + 1) 0) (lo v) (by simp)).2
  have hγ : ∀ v : Fin n → ℝ, (γ (φ (List.ofFn v))).length = n / 2 + 1 := fun v => (cγ _ (List.replicate (n / 2 + 1) 0) (hφ v) (by simp)).2
  have hβ : ∀ v : Fin n → ℝ, (β (γ (φ (List.ofFn v)))).length = n := fun v => (cβ _ (List.replicate n 0) (hγ v) (by simp)).2
  have hlin : ∀ (a c : ℝ) (v u : Fin n → ℝ), List.ofFn (a • v + c • u) = linComb ℝ a c (List.ofFn v) (List.ofFn u) :=
    fun a c v u => ext_nth (by simp) fun i hi => by
      rw [List.length_ofFn] at hi
      rw [nth_linComb _ _ _ _ (by rw [lo]; exact hi)]
      simp [nth, hi]
  have key : ∀ (a c : ℝ) (v u : Fin n → ℝ), β (γ (φ (List.ofFn (a • v + c • u))))
      = linComb ℝ a c (β (γ (φ (List.ofFn v)))) (β (γ (φ (List.ofFn u)))) := fun a c v u => by
    rw [hlin, lφ a c _ _ (lo v) (lo u)]
    have e : linComb ℝ a c (φ (List.ofFn v)) (φ (List.ofFn u)) = linComb ℂ (a : ℂ) (c : ℂ) (φ (List.ofFn v)) (φ (List.ofFn u)) := by
      unfold linComb; simp
    rw [e, lγ _ _ _ _ (hφ v) (hφ u)]
    have e : linComb ℂ (a : ℂ) (c : ℂ) (γ (φ (List.ofFn v))) (γ (φ (List.ofFn u))) = linComb ℝ a c (γ (φ (List.ofFn v))) (γ (φ (List.ofFn u))) := by
      unfold linComb; simp
    rw [e, lβ _ _ _ _ (hγ v) (hγ u)]
  refine ⟨{ toFun := fun v i => nth (β (γ (φ (List.ofFn v)))) i, map_add' := fun v u => ?_, map_smul' := fun a v => ?_ }, fun v => ?_⟩
  · funext i
    have := key 1 1 v u
    rw [one_smul, one_smul] at this
    rw [this, nth_linComb _ _ _ _ (by rw [hβ]; exact i.2)]
    simp
  · funext i
    have := key a 0 v v
    rw [zero_smul, add_zero] at this
    rw [this, nth_linComb _ _ _ _ (by rw [hβ]; exact i.2)]
    simp
  · have e : List.ofFn (fun i : Fin n => nth (β (γ (φ (List.ofFn v)))) i) = β (γ (φ (List.ofFn v))) :=
      ext_nth (by rw [hβ]; simp) fun i hi => by
        rw [List.length_ofFn] at hi
        simp [nth, hi]
    refine ⟨φ (List.ofFn v), γ (φ (List.ofFn v)), fun o ho => ?_, fun o ho => ?_, fun o ho => ?_⟩
    · exact (cφ _ _ (lo v) (by rw [ho, lp.2.1])).1
    · exact (cγ _ _ (hφ v) (by rw [ho, lp.2.2])).1
    · dsimp only [LinearMap.coe_mk, AddHom.coe_mk]
      rw [e]
      exact (cβ _ _ (hγ v) (by rw [ho, lp.1])).1

private theorem ofFn_nth {n : ℕ} {x : List ℝ} (hx : x.length = n) : List.ofFn (fun j : Fin n => nth x j) = x :=
  ext_nth (by simp [hx]) fun i hi => by
    rw [List.length_ofFn] at hi
    simp [nth, hi]

private theorem nth_ofFn {n : ℕ} (v : Fin n → ℝ) (j : Fin n) : nth (List.ofFn v) j = v j := by simp [nth]

/-- the derivative of grid data as a linear function, entry by entry -/
private theorem gridDeriv_apply {n : ℕ} {b : Base ℝ ℂ ℂ} (hb : IsR2c n b) (d : ℕ) :
    ∃ D : (Fin n → ℝ) →ₗ[ℝ] (Fin n → ℝ), ∀ x w, x.length = n → GridDeriv b d x w → w.length = n ∧
      ∀ j : Fin n, nth w j = D (fun j => nth x j) j := by
  obtain ⟨D, hD⟩ := gridDeriv_lin hb d
  refine ⟨D, fun x w hx hw => ?_⟩
  obtain ⟨w', -, -, hu⟩ := C112_exists n b hb d x hx
  have h := hD fun j => nth x j
  rw [ofFn_nth hx] at h
  obtain rfl := (hu w hw).trans (hu _ h).symm
  exact ⟨by simp, fun j => nth_ofFn _ j⟩

/-- the root of the sum of the squares -/
private noncomputable def nrm {n : ℕ} (v : Fin n → ℝ) : ℝ := √(∑ j, v j ^ 2)

private theorem nrm_eq {n : ℕ} (v : Fin n → ℝ) : nrm v = ‖(WithLp.toLp 2 v : EuclideanSpace ℝ (Fin n))‖ := by
  rw [EuclideanSpace.norm_eq]; simp [nrm]

private theorem nrm_add {n : ℕ} (v w : Fin n → ℝ) : nrm (v + w) ≤ nrm v + nrm w := by
  rw [nrm_eq, nrm_eq, nrm_eq, WithLp.toLp_add]; exact norm_add_le _ _

private theorem nrm_le {n : ℕ} {v : Fin n → ℝ} {C : ℝ} (hC : 0 ≤ C) (h : ∀ j, |v j| ≤ C) : nrm v ≤ √n * C := by
  refine Real.sqrt_le_iff.mpr ⟨by positivity, ?_⟩
  rw [mul_pow, Real.sq_sqrt (Nat.cast_nonneg _)]
  refine (Finset.sum_le_card_nsmul _ _ (C ^ 2) fun j _ => ?_).trans (le_of_eq (by simp))
  rw [← sq_abs]; exact pow_le_pow_left₀ (abs_nonneg _) (h j) 2

private theorem energy_eq {n : ℕ} {x : List ℝ} (hx : x.length = n) : energy x = ∑ j : Fin n, nth x j ^ 2 := by
  unfold energy; rw [hx, ← Fin.sum_univ_eq_sum_range (fun j => nth x j ^ 2)]

/-- a stable step does not enlarge -/
private theorem contract {n : ℕ} {b : Base ℝ ℂ ℂ} (hb : IsR2c n b) {m : ℕ} {dt : ℝ} (hdt : 0 ≤ dt)
    (hst : dt * ((n / 2 : ℕ) : ℝ) ^ (2 * m) ≤ 2) {D : (Fin n → ℝ) →ₗ[ℝ] (Fin n → ℝ)}
    (hD : ∀ x w, x.length = n → GridDeriv b (2 * m) x w → w.length = n ∧ ∀ j : Fin n, nth w j = D (fun j => nth x j) j)
    (v : Fin n → ℝ) : nrm (v - ((-1) ^ m * dt) • D v) ≤ nrm v := by
  obtain ⟨x, h0, hl, hx⟩ := C114_runs n b hb m dt (List.ofFn v) (by simp)
  have hs := C114_stable n b hb m dt x (hl 0) hx hdt hst (Nat.zero_le 1)
  dsimp only at hs
  rw [energy_eq (hl 0), energy_eq (hl 1)] at hs
  obtain ⟨w, hw, -, hj⟩ := hx 0
  obtain ⟨-, hwj⟩ := hD _ w (hl 0) hw
  have e0 : (fun j : Fin n => nth (x 0) j) = v := funext fun j => by rw [h0, nth_ofFn]
  rw [e0] at hwj
  unfold nrm
  refine Real.sqrt_le_sqrt ((le_of_eq ?_).trans (hs.trans (le_of_eq ?_)))
  · refine Finset.sum_congr rfl fun j _ => ?_
    rw [hj j (by rw [hl]; exact j.2), hwj, congrFun e0 j]
    simp
  · exact Finset.sum_congr rfl fun j _ => by rw [congrFun e0 j]

/-- the library's derivative of the samples of a smooth periodic function -/
private theorem sample_deriv {n : ℕ} {b : Base ℝ ℂ ℂ} (hb : IsR2c n b) {d p : ℕ} (hdp : d + 2 ≤ p) (hd : d < 2 ^ 31) {g : List ℝ}
    (hg : b.coords = ok g) : g.length = n ∧ ∀ (f : ℝ → ℝ), ContDiff ℝ p f → Function.Periodic f (2 * Real.pi) → ∀ M : ℝ,
      (∀ x, |iteratedDeriv p f x| ≤ M) → ∃ w, GridDeriv b d (g.map f) w ∧ w.length = n ∧
      ∀ j < n, |nth w j - iteratedDeriv d f (nth g j)| ≤ 16 * M * 2 ^ (p - d - 1) / (n : ℝ) ^ (p - d - 1) := by
  have hb' := hb
  obtain ⟨hn, b0, hb0, rfl⟩ := hb
  obtain rfl := r2c_inv hb0
  obtain ⟨g', h1, hl, -⟩ := C23_r2c_coords n hn ⟨n, n / 2 + 1⟩ rfl
  have hg' : (⟨n, n / 2 + 1⟩ : R2c).coords = ok g := hg
  obtain rfl := Res.ok.inj (hg'.symm.trans h1)
  refine ⟨hl, fun f hf hper M hM => ?_⟩
  obtain ⟨w, hw, hwl, -⟩ := C112_exists n _ hb' d (g.map f) (by rw [List.length_map, hl])
  obtain ⟨x, c, γ, v, e1, e2, e3, e4, e5, e6⟩ := r2c_rate_B hdp hd hf hper hM hn ⟨n, n / 2 + 1⟩ rfl
    (List.replicate (n / 2 + 1) 0) (List.replicate (n / 2 + 1) 0) (List.replicate n 0) (by simp [R2c.lenSpec]) (by simp [R2c.lenOrth])
    (by simp [R2c.lenPhys])
  obtain rfl := Res.ok.inj (e1.symm.trans hg')
  refine ⟨w, hw, hwl, ?_⟩
  obtain ⟨v1, γ1, k1, k2, k3⟩ := hw
  have k1' := k1 (List.replicate (n / 2 + 1) 0) (List.length_replicate ..)
  obtain rfl := Res.ok.inj (e2.symm.trans k1')
  have k2' := k2 (List.replicate (n / 2 + 1) 0) (List.length_replicate ..)
  obtain rfl := Res.ok.inj (e3.symm.trans k2')
  have k3' := k3 (List.replicate n 0) (List.length_replicate ..)
  obtain rfl := Res.ok.inj (e4.symm.trans k3')
  exact e6

/-- A forward difference differs from the derivative by at most the step times the second derivative. -/
private theorem forward_difference {φ : ℝ → ℝ} (hφ : ContDiff ℝ 2 φ) {t h B : ℝ} (hh : 0 < h)
    (hB : ∀ s ∈ Set.Icc t (t + h), |iteratedDeriv 2 φ s| ≤ B) : |(φ (t + h) - φ t) / h - deriv φ t| ≤ B * h := by
  have hd : Differentiable ℝ φ := hφ.differentiable (by norm_num)
  have hd2 : Differentiable ℝ (deriv φ) := (hφ.iterate_deriv' 1 1).differentiable (by norm_num)
  obtain ⟨ξ, hξ, e⟩ := exists_deriv_eq_slope φ (by linarith : t < t + h) hd.continuous.continuousOn hd.differentiableOn
  rw [show t + h - t = h by ring] at e
  rw [← e]
  have := (convex_Icc t (t + h)).norm_image_sub_le_of_norm_deriv_le (f := deriv φ) (C := B) (fun s _ => hd2 s) (fun s hs => by
    have := hB s hs
    rwa [iteratedDeriv_succ, iteratedDeriv_one] at this) (x := t) (y := ξ) ⟨le_rfl, by linarith⟩ ⟨hξ.1.le, hξ.2.le⟩
  rw [Real.norm_eq_abs, Real.norm_eq_abs] at this
  have h0 : 0 ≤ B := (abs_nonneg _).trans (hB t ⟨le_rfl, by linarith⟩)
  refine this.trans (mul_le_mul_of_nonneg_left ?_ h0)
  rw [abs_le]
  exact ⟨by linarith [hξ.1], by linarith [hξ.2]⟩

/-- the trapezoidal rule -/
private theorem trapezoid {φ : ℝ → ℝ} (hφ : ContDiff ℝ 3 φ) {t h B : ℝ} (hh : 0 < h)
    (hB : ∀ s ∈ Set.Icc t (t + h), |iteratedDeriv 3 φ s| ≤ B) :
    |(φ (t + h) - φ t) / h - (deriv φ t + deriv φ (t + h)) / 2| ≤ B * h ^ 2 / 2 := by
  have h0 : 0 ≤ B := (abs_nonneg _).trans (hB t ⟨le_rfl, by linarith⟩)
  have hd : Differentiable ℝ φ := hφ.differentiable (by norm_num)
  have hφ' : ContDiff ℝ 2 (deriv φ) := hφ.iterate_deriv' 2 1
  have hd2 : Differentiable ℝ (deriv φ) := hφ'.differentiable (by norm_num)
  have hder : ∀ s, HasDerivAt (fun s => φ (t + s) - φ t - s * ((deriv φ t + deriv φ (t + s)) / 2))
      (deriv φ (t + s) - ((deriv φ t + deriv φ (t + s)) / 2 + s * (deriv (deriv φ) (t + s) / 2))) s := fun s => by
    have a1 : HasDerivAt (fun s => φ (t + s)) (deriv φ (t + s)) s := by
      simpa using (hd (t + s)).hasDerivAt.comp_const_add t s
    have a2 : HasDerivAt (fun s => deriv φ (t + s)) (deriv (deriv φ) (t + s)) s := by
      simpa using (hd2 (t + s)).hasDerivAt.comp_const_add t s
    have a3 := (a1.sub_const (φ t)).sub ((hasDerivAt_id s).mul ((a2.const_add (deriv φ t)).div_const 2))
    refine a3.congr_deriv ?_
    rw [one_mul, id]
  have key := (convex_Icc 0 h).norm_image_sub_le_of_norm_hasDerivWithin_le (C := B * h ^ 2 / 2)
    (fun s _ => (hder s).hasDerivWithinAt) (fun s hs => by
      rw [Real.norm_eq_abs, show deriv φ (t + s) - ((deriv φ t + deriv φ (t + s)) / 2 + s * (deriv (deriv φ) (t + s) / 2))
        = (deriv φ (t + s) - deriv φ t - s * deriv (deriv φ) (t + s)) / 2 by ring, abs_div, abs_two]
      refine div_le_div_of_nonneg_right ?_ (by norm_num)
      rcases hs.1.eq_or_lt with rfl | hs0
      · simp; positivity
      · have := backward_difference hφ' (t := t) hs0 (B := B) fun τ hτ => by
          have := hB τ ⟨hτ.1, hτ.2.trans (by linarith [hs.2])⟩
          rwa [iteratedDeriv_succ'] at this
        rw [show deriv φ (t + s) - deriv φ t - s * deriv (deriv φ) (t + s)
          = s * ((deriv φ (t + s) - deriv φ t) / s - deriv (deriv φ) (t + s)) by field_simp, abs_mul, abs_of_pos hs0]
        calc s * |(deriv φ (t + s) - deriv φ t) / s - deriv (deriv φ) (t + s)| ≤ h * (B * h) :=
              mul_le_mul hs.2 (this.trans (mul_le_mul_of_nonneg_left hs.2 h0)) (abs_nonneg _) hh.le
          _ = B * h ^ 2 := by ring) (x := 0) (y := h) ⟨le_rfl, hh.le⟩ ⟨hh.le, le_rfl⟩
  simp only [Real.norm_eq_abs, add_zero, sub_self, zero_mul, sub_zero, abs_of_pos hh] at key
  rw [show (φ (t + h) - φ t) / h - (deriv φ t + deriv φ (t + h)) / 2 = (φ (t + h) - φ t - h * ((deriv φ t + deriv φ (t + h)) / 2)) / h by
    field_simp, abs_div, abs_of_pos hh, div_le_iff₀ hh]
  exact key

private theorem rms {n : ℕ} (hn : 1 ≤ n) {x g : List ℝ} {f : ℝ → ℝ} {C : ℝ} (hC : 0 ≤ C)
    (h : nrm (fun j : Fin n => nth x j - f (nth g j)) ≤ C * √n) :
    √((∑ j ∈ range n, (nth x j - f (nth g j)) ^ 2) / n) ≤ C := by
  have hn' : (0 : ℝ) < √n := Real.sqrt_pos.mpr (by exact_mod_cast hn)
  unfold nrm at h
  rw [Real.sqrt_div' _ (Nat.cast_nonneg _), div_le_iff₀ hn', ← Fin.sum_univ_eq_sum_range (fun j => (nth x j - f (nth g j)) ^ 2)]
  exact h

/-- C124: explicit Euler steps for (hyper-)diffusion, `dt ⌊n/2⌋^(2m) ≤ 2`, converge to the smooth periodic solutions of
`∂Y/∂t = -(-1)^m ∂^{2m}Y/∂x^{2m}`: with first order in time and every order in space. -/
theorem C124_diffusion (n : ℕ) (b : Base ℝ ℂ ℂ) (hb : IsR2c n b) (m p : ℕ) (hp : 2 * m + 2 ≤ p) (hm : 2 * m < 2 ^ 31) (dt T B M : ℝ)
    (hdt : 0 < dt) (hst : dt * ((n / 2 : ℕ) : ℝ) ^ (2 * m) ≤ 2)
    (Y : ℝ → ℝ → ℝ) (hYx : ∀ t ∈ Set.Icc 0 T, ContDiff ℝ p (Y t) ∧ Function.Periodic (Y t) (2 * Real.pi) ∧
      ∀ x, |iteratedDeriv p (Y t) x| ≤ M)
    (hYt : ∀ x, ContDiff ℝ 2 fun t => Y t x) (hYB : ∀ x, ∀ t ∈ Set.Icc 0 T, |iteratedDeriv 2 (fun s => Y s x) t| ≤ B)
    (heq : ∀ t ∈ Set.Icc 0 T, ∀ x, deriv (fun s => Y s x) t = -(-1) ^ m * iteratedDeriv (2 * m) (Y t) x)
    (g : List ℝ) (hg : b.coords = ok g) (x : ℕ → List ℝ) (h0 : x 0 = g.map (Y 0))
    (hx : ∀ i, DiffusionStep b m dt (x i) (x (i + 1))) (i : ℕ) (hi : i * dt ≤ T) :
    √((∑ j ∈ range n, (nth (x i) j - Y (i * dt) (nth g j)) ^ 2) / n)
      ≤ T * (B * dt + 16 * M * 2 ^ (p - 2 * m - 1) / (n : ℝ) ^ (p - 2 * m - 1)) := by
  have hT : 0 ≤ T := le_trans (by positivity) hi
  obtain ⟨hgl, hsamp⟩ := sample_deriv hb hp hm hg
  have hB0 : 0 ≤ B := (abs_nonneg _).trans (hYB 0 0 ⟨le_rfl, hT⟩)
  have hM0 : 0 ≤ M := (abs_nonneg _).trans ((hYx 0 ⟨le_rfl, hT⟩).2.2 0)
  set R := B * dt + 16 * M * 2 ^ (p - 2 * m - 1) / (n : ℝ) ^ (p - 2 * m - 1) with hR
  have hR0 : 0 ≤ R := by positivity
  obtain ⟨D, hD⟩ := gridDeriv_apply hb (2 * m)
  have hl : ∀ i, (x i).length = n := fun i => by
    induction i with
    | zero => rw [h0, List.length_map, hgl]
    | succ i ih => obtain ⟨w, -, hl, -⟩ := hx i; exact hl.trans ih
  have main : ∀ i : ℕ, i * dt ≤ T → nrm (fun j : Fin n => nth (x i) j - Y (i * dt) (nth g j)) ≤ i * dt * R * √n := by
    intro i
    induction i with
    | zero =>
      intro _
      have : (fun j : Fin n => nth (x 0) j - Y ((0 : ℕ) * dt) (nth g j)) = 0 := funext fun j => by
        rw [h0, nth_map _ _ _ (by rw [hgl]; exact j.2)]; simp
      rw [this]; simp [nrm]
    | succ i ih =>
      intro hiT
      have etime : ((i + 1 : ℕ) : ℝ) * dt = i * dt + dt := by push_cast; ring
      have hi0 : (0 : ℝ) ≤ i * dt := by positivity
      have hiT' : (i : ℝ) * dt ≤ T := by linarith
      have hih := ih hiT'
      obtain ⟨c1, c2, c3⟩ := hYx _ ⟨hi0, hiT'⟩
      obtain ⟨y, hy, hyl, hyj⟩ := hsamp _ c1 c2 M c3
      obtain ⟨-, hyD⟩ := hD _ y (by rw [List.length_map, hgl]) hy
      obtain ⟨w, hw, -, hj⟩ := hx i
      obtain ⟨-, hwD⟩ := hD _ w (hl i) hw
      set δ : Fin n → ℝ := fun j => nth (x i) j - Y (i * dt) (nth g j) with hδ
      have hDδ : ∀ j, D δ j = nth w j - nth y j := fun j => by
        have : δ = (fun j : Fin n => nth (x i) j) - fun j : Fin n => nth (g.map (Y (i * dt))) j := funext fun j => by
          rw [Pi.sub_apply, nth_map _ _ _ (by rw [hgl]; exact j.2)]
        rw [this, map_sub, Pi.sub_apply, hwD, hyD]
      set r : Fin n → ℝ := fun j => Y (i * dt) (nth g j) - (-1) ^ m * dt * nth y j - Y ((i + 1 : ℕ) * dt) (nth g j) with hr
      have e : (fun j : Fin n => nth (x (i + 1)) j - Y ((i + 1 : ℕ) * dt) (nth g j)) = (δ - ((-1) ^ m * dt) • D δ) + r := funext fun j => by
        rw [Pi.add_apply, Pi.sub_apply, Pi.smul_apply, smul_eq_mul, hDδ, hj j (by rw [hl]; exact j.2)]
        simp only [hδ, hr]
        ring
      have hrb : nrm r ≤ √n * (dt * R) := nrm_le (by positivity) fun j => by
        have k1 := forward_difference (hYt (nth g j)) (t := i * dt) hdt (B := B) fun τ hτ =>
          hYB _ τ ⟨hi0.trans hτ.1, hτ.2.trans (by rw [← etime]; exact hiT)⟩
        have k2 := hyj j j.2
        rw [heq _ ⟨hi0, hiT'⟩] at k1
        simp only [hr, etime]
        set a := Y (i * dt) (nth g j)
        set a' := Y (i * dt + dt) (nth g j)
        set q := iteratedDeriv (2 * m) (Y (i * dt)) (nth g j)
        rw [show a - (-1) ^ m * dt * nth y j - a' = -(dt * (((a' - a) / dt - -(-1) ^ m * q) + (-1) ^ m * (nth y j - q))) by
          field_simp; ring, abs_neg, abs_mul, abs_of_pos hdt]
        refine mul_le_mul_of_nonneg_left ((abs_add_le _ _).trans (add_le_add k1 ?_)) hdt.le
        rw [abs_mul, abs_pow, abs_neg, abs_one, one_pow, one_mul]
        exact k2
      rw [e]
      calc _ ≤ _ := nrm_add _ _
        _ ≤ i * dt * R * √n + √n * (dt * R) := add_le_add ((contract hb hdt.le hst hD δ).trans hih) hrb
        _ = _ := by rw [etime]; ring
  refine rms hb.1 (by positivity) ((main i hi).trans ?_)
  exact mul_le_mul_of_nonneg_right (mul_le_mul_of_nonneg_right hi hR0) (Real.sqrt_nonneg _)

/-- C124: the implicit midpoint rule for waves converges to the smooth periodic solutions of `∂Y/∂t = -∂^d Y/∂x^d`, `d` odd:
with second order in time and every order in space, at every step length. -/
theorem C124_waves (n : ℕ) (b : Base ℝ ℂ ℂ) (hb : IsR2c n b) (d p : ℕ) (hodd : Odd d) (hp : d + 2 ≤ p) (hd : d < 2 ^ 31)
    (dt T B M : ℝ) (hdt : 0 < dt)
    (Y : ℝ → ℝ → ℝ) (hYx : ∀ t ∈ Set.Icc 0 T, ContDiff ℝ p (Y t) ∧ Function.Periodic (Y t) (2 * Real.pi) ∧
      ∀ x, |iteratedDeriv p (Y t) x| ≤ M)
    (hYt : ∀ x, ContDiff ℝ 3 fun t => Y t x) (hYB : ∀ x, ∀ t ∈ Set.Icc 0 T, |iteratedDeriv 3 (fun s => Y s x) t| ≤ B)
    (heq : ∀ t ∈ Set.Icc 0 T, ∀ x, deriv (fun s => Y s x) t = -iteratedDeriv d (Y t) x)
    (g : List ℝ) (hg : b.coords = ok g) (x : ℕ → List ℝ) (h0 : x 0 = g.map (Y 0))
    (hx : ∀ i, CrankNicolsonStep b d dt (x i) (x (i + 1))) (i : ℕ) (hi : i * dt ≤ T) :
    √((∑ j ∈ range n, (nth (x i) j - Y (i * dt) (nth g j)) ^ 2) / n)
      ≤ T * (B * dt ^ 2 / 2 + 16 * M * 2 ^ (p - d - 1) / (n : ℝ) ^ (p - d - 1)) := by
  have hT : 0 ≤ T := le_trans (by positivity) hi
  obtain ⟨hgl, hsamp⟩ := sample_deriv hb hp hd hg
  have hB0 : 0 ≤ B := (abs_nonneg _).trans (hYB 0 0 ⟨le_rfl, hT⟩)
  have hM0 : 0 ≤ M := (abs_nonneg _).trans ((hYx 0 ⟨le_rfl, hT⟩).2.2 0)
  set ε := 16 * M * 2 ^ (p - d - 1) / (n : ℝ) ^ (p - d - 1) with hε
  set R := B * dt ^ 2 / 2 + ε with hR
  have hR0 : 0 ≤ R := by positivity
  obtain ⟨D, hD⟩ := gridDeriv_apply hb d
  have hskew : ∀ v : Fin n → ℝ, ∑ j, v j * D v j = 0 := fun v => by
    obtain ⟨w, hw, -, -⟩ := C112_exists n b hb d (List.ofFn v) (by simp)
    have k := C112_odd n b hb d hodd _ w (by simp) hw
    obtain ⟨-, hwj⟩ := hD _ w (by simp) hw
    rw [← k, ← Fin.sum_univ_eq_sum_range (fun j => nth (List.ofFn v) j * nth w j)]
    refine Finset.sum_congr rfl fun j _ => ?_
    rw [hwj, nth_ofFn]
    exact congrArg (fun u => v j * D u j) (funext fun j => (nth_ofFn v j).symm)
  have hl : ∀ i, (x i).length = n := fun i => by
    induction i with
    | zero => rw [h0, List.length_map, hgl]
    | succ i ih => obtain ⟨w, w', -, -, hl, -⟩ := hx i; exact hl.trans ih
  have main : ∀ i : ℕ, i * dt ≤ T → nrm (fun j : Fin n => nth (x i) j - Y (i * dt) (nth g j)) ≤ i * dt * R * √n := by
    intro i
    induction i with
    | zero =>
      intro _
      have : (fun j : Fin n => nth (x 0) j - Y ((0 : ℕ) * dt) (nth g j)) = 0 := funext fun j => by
        rw [h0, nth_map _ _ _ (by rw [hgl]; exact j.2)]; simp
      rw [this]; simp [nrm]
    | succ i ih =>
      intro hiT
      have etime : ((i + 1 : ℕ) : ℝ) * dt = i * dt + dt := by push_cast; ring
      have hi0 : (0 : ℝ) ≤ i * dt := by positivity
      have hiT' : (i : ℝ) * dt ≤ T := by linarith
      have hih := ih hiT'
      have t1 : (i : ℝ) * dt ∈ Set.Icc 0 T := ⟨hi0, hiT'⟩
      have t2 : ((i + 1 : ℕ) : ℝ) * dt ∈ Set.Icc 0 T := ⟨by positivity, hiT⟩
      obtain ⟨c1, c2, c3⟩ := hYx _ t1
      obtain ⟨y, hy, hyl, hyj⟩ := hsamp _ c1 c2 M c3
      obtain ⟨-, hyD⟩ := hD _ y (by rw [List.length_map, hgl]) hy
      obtain ⟨c1, c2, c3⟩ := hYx _ t2
      obtain ⟨y', hy', hyl', hyj'⟩ := hsamp _ c1 c2 M c3
      obtain ⟨-, hyD'⟩ := hD _ y' (by rw [List.length_map, hgl]) hy'
      obtain ⟨w, w', hw, hw', -, hj⟩ := hx i
      obtain ⟨-, hwD⟩ := hD _ w (hl i) hw
      obtain ⟨-, hwD'⟩ := hD _ w' (hl (i + 1)) hw'
      set δ : Fin n → ℝ := fun j => nth (x i) j - Y (i * dt) (nth g j) with hδ
      set δ' : Fin n → ℝ := fun j => nth (x (i + 1)) j - Y ((i + 1 : ℕ) * dt) (nth g j) with hδ'
      have hDδ : ∀ j, D δ j = nth w j - nth y j := fun j => by
        have : δ = (fun j : Fin n => nth (x i) j) - fun j : Fin n => nth (g.map (Y (i * dt))) j := funext fun j => by
          rw [Pi.sub_apply, nth_map _ _ _ (by rw [hgl]; exact j.2)]
        rw [this, map_sub, Pi.sub_apply, hwD, hyD]
      have hDδ' : ∀ j, D δ' j = nth w' j - nth y' j := fun j => by
        have : δ' = (fun j : Fin n => nth (x (i + 1)) j) - fun j : Fin n => nth (g.map (Y ((i + 1 : ℕ) * dt))) j := funext fun j => by
          rw [Pi.sub_apply, nth_map _ _ _ (by rw [hgl]; exact j.2)]
        rw [this, map_sub, Pi.sub_apply, hwD', hyD']
      set r : Fin n → ℝ := fun j => Y (i * dt) (nth g j) - dt / 2 * (nth y j + nth y' j) - Y ((i + 1 : ℕ) * dt) (nth g j) with hr
      have e : ∀ j, δ' j = δ j - dt / 2 * D (δ + δ') j + r j := fun j => by
        rw [map_add, Pi.add_apply, hDδ, hDδ']
        simp only [hδ, hδ', hr]
        rw [hj j (by rw [hl]; exact j.2)]
        ring
      have hrb : nrm r ≤ √n * (dt * R) := nrm_le (by positivity) fun j => by
        have k1 := trapezoid (hYt (nth g j)) (t := i * dt) hdt (B := B) fun τ hτ =>
          hYB _ τ ⟨hi0.trans hτ.1, hτ.2.trans (by rw [← etime]; exact hiT)⟩
        have k2 := hyj j j.2
        have k3 := hyj' j j.2
        rw [etime] at t2 k3
        rw [heq _ t1, heq _ t2] at k1
        simp only [hr, etime]
        set a := Y (i * dt) (nth g j)
        set a' := Y (i * dt + dt) (nth g j)
        set q := iteratedDeriv d (Y (i * dt)) (nth g j)
        set q' := iteratedDeriv d (Y (i * dt + dt)) (nth g j)
        rw [show a - dt / 2 * (nth y j + nth y' j) - a'
          = -(dt * (((a' - a) / dt - (-q + -q') / 2) + ((nth y j - q) + (nth y' j - q')) / 2)) by
          field_simp; ring, abs_neg, abs_mul, abs_of_pos hdt]
        refine mul_le_mul_of_nonneg_left ((abs_add_le _ _).trans (add_le_add k1 ?_)) hdt.le
        rw [abs_div, abs_two, div_le_iff₀ (by norm_num)]
        refine (abs_add_le _ _).trans ?_
        linarith
      -- the energy of the error
      have hen : ∑ j, (δ' - (2⁻¹ : ℝ) • r) j ^ 2 = ∑ j, (δ + (2⁻¹ : ℝ) • r) j ^ 2 := by
        have k := hskew (δ + δ')
        rw [← sub_eq_zero, ← Finset.sum_sub_distrib]
        have k2 : -(dt / 2) * ∑ j, (δ + δ') j * D (δ + δ') j = 0 := by rw [k, mul_zero]
        rw [← k2, Finset.mul_sum]
        refine Finset.sum_congr rfl fun j _ => ?_
        have k3 := e j
        simp only [Pi.add_apply, Pi.sub_apply, Pi.smul_apply, smul_eq_mul]
        linear_combination (δ j + δ' j) * k3
      have h3 : nrm δ' ≤ nrm δ + nrm r := by
        have e1 : nrm (δ' - (2⁻¹ : ℝ) • r) = nrm (δ + (2⁻¹ : ℝ) • r) := congrArg Real.sqrt hen
        have e2 : nrm ((2⁻¹ : ℝ) • r) = 2⁻¹ * nrm r := by
          rw [nrm_eq, nrm_eq, WithLp.toLp_smul, norm_smul]; norm_num
        have k1 := nrm_add (δ' - (2⁻¹ : ℝ) • r) ((2⁻¹ : ℝ) • r)
        have k2 := nrm_add δ ((2⁻¹ : ℝ) • r)
        rw [sub_add_cancel] at k1
        linarith
      calc _ ≤ nrm δ + nrm r := h3
        _ ≤ i * dt * R * √n + √n * (dt * R) := add_le_add hih hrb
        _ = _ := by rw [etime]; ring
  refine rms hb.1 (by positivity) ((main i hi).trans ?_)
  exact mul_le_mul_of_nonneg_right (mul_le_mul_of_nonneg_right hi hR0) (Real.sqrt_nonneg _)

/-- C124 applies: a decaying wave solves the diffusion equation, a travelling wave the advection equation. -/
example : (∃ b : Base ℝ ℂ ℂ, IsR2c 8 b ∧ ∃ g : List ℝ, b.coords = ok g ∧ ∃ x x' : ℕ → List ℝ,
    x 0 = g.map (fun y => Real.exp 0 * Real.sin y) ∧ (∀ i, DiffusionStep b 1 (1 / 8) (x i) (x (i + 1))) ∧
    x' 0 = g.map (fun y => Real.sin (y - 0)) ∧ ∀ i, CrankNicolsonStep b 1 (1 / 8) (x' i) (x' (i + 1))) ∧
    (1 / 8 : ℝ) * ((8 / 2 : ℕ) : ℝ) ^ (2 * 1) ≤ 2 ∧
    (∀ t y : ℝ, deriv (fun s => Real.exp (-s) * Real.sin y) t
      = -(-1) ^ 1 * iteratedDeriv (2 * 1) (fun y => Real.exp (-t) * Real.sin y) y) ∧
    (∀ t y : ℝ, deriv (fun s => Real.sin (y - s)) t = -iteratedDeriv 1 (fun y => Real.sin (y - t)) y) := by
  refine ⟨?_, by norm_num, fun t y => ?_, fun t y => ?_⟩
  · obtain ⟨b, hb, -⟩ := isR2c_exists (n := 8) (by norm_num)
    have hc : ∃ g : List ℝ, b.coords = ok g ∧ g.length = 8 := by
      obtain ⟨hn, b0, hb0, rfl⟩ := hb
      obtain rfl := r2c_inv hb0
      obtain ⟨g, h1, hl, -⟩ := C23_r2c_coords 8 hn ⟨8, 5⟩ rfl
      exact ⟨g, h1, hl⟩
    obtain ⟨g, hg, hgl⟩ := hc
    obtain ⟨x, h0, -, hx⟩ := C114_runs 8 b hb 1 (1 / 8) (g.map fun y => Real.exp 0 * Real.sin y) (by simp [hgl])
    obtain ⟨x', h0', hx'⟩ := (C114_waves_run 8 b hb 1 (1 / 8) (g.map fun y => Real.sin (y - 0)) (g.map fun y => Real.sin (y - 0))
      (by simp [hgl]) (by simp [hgl])).2 (by decide)
    exact ⟨b, hb, g, hg, x, x', h0, hx, h0', hx'⟩
  · have e1 : deriv (fun y => Real.exp (-t) * Real.sin y) = fun y => Real.exp (-t) * Real.cos y := funext fun y => by
      simp
    have e2 : HasDerivAt (fun s : ℝ => Real.exp (-s) * Real.sin y) (Real.exp (-t) * -1 * Real.sin y) t :=
      ((hasDerivAt_neg t).exp).mul_const _
    rw [e2.deriv, show 2 * 1 = 1 + 1 from rfl, iteratedDeriv_succ, iteratedDeriv_one, e1]
    simp
  · have e2 : HasDerivAt (fun s : ℝ => Real.sin (y - s)) (Real.cos (y - t) * -1) t := by
      simpa using ((hasDerivAt_id t).const_sub y).sin
    have e3 : HasDerivAt (fun y : ℝ => Real.sin (y - t)) (Real.cos (y - t) * 1) y := by
      simpa using ((hasDerivAt_id y).sub_const t).sin
    rw [iteratedDeriv_one, e2.deriv, e3.deriv]
    ring

end Verif.Props
