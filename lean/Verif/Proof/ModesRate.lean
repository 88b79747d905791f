/-
The Helmholtz problem of one Fourier mode, and the modes of a smooth function sampled on the periodic grid.
-/
import Verif.Props.Smooth2
import Verif.Props.EulerModes
import Verif.Props.Explicit

namespace Verif
open Res Spec Finset Polynomial Props

/-- numerical derivatives of a smooth periodic function, with the constant in terms of a bound of a derivative -/
theorem r2c_rate_B {d p : ℕ} (hdp : d + 2 ≤ p) (hd : d < 2 ^ 31) {f : ℝ → ℝ} (hf : ContDiff ℝ p f)
    (hper : Function.Periodic f (2 * Real.pi)) {M : ℝ} (hB : ∀ x, |iteratedDeriv p f x| ≤ M) {n : ℕ} (hn : 1 ≤ n) (b : R2c)
    (hb : R2c.new n = ok b) (out out' : List ℂ) (out'' : List ℝ) (ho : out.length = b.lenSpec) (ho' : out'.length = b.lenOrth)
    (ho'' : out''.length = b.lenPhys) :
    ∃ x c g v, b.coords = ok x ∧ b.forwardSlice (x.map f) out = ok c ∧ b.gradientSlice c out' d = ok g ∧
      b.backwardSlice g out'' = ok v ∧ v.length = n ∧
      ∀ j < n, |nth v j - iteratedDeriv d f (nth x j)| ≤ 16 * M * 2 ^ (p - d - 1) / (n : ℝ) ^ (p - d - 1) := by
  have h0 : 0 ≤ M := (abs_nonneg _).trans (hB 0)
  obtain ⟨A, B, hM, hsum⟩ := trig_series_B p (by omega) f hf hper M hB
  obtain ⟨q, rfl⟩ := Nat.exists_eq_add_of_le hdp
  rw [show d + 2 + q - d - 1 = q + 1 by omega]
  have ht : ∀ k : ℕ, 1 ≤ k → (k : ℝ) ^ d * (|A k| + |B k|) ≤ 4 * M * (k : ℝ) ^ d / (k : ℝ) ^ (d + 2 + q) := fun k hk => by
    rw [mul_comm (4 * M), mul_div_assoc]
    exact mul_le_mul_of_nonneg_left (hM k hk) (by positivity)
  obtain ⟨hs, htail⟩ := tail_le (p := d + 2 + q) (m := (n + 1) / 2) (by omega) (by positivity : 0 ≤ 4 * M)
    (fun k => by positivity : ∀ k : ℕ, 0 ≤ (k : ℝ) ^ d * (|A k| + |B k|)) ht (by omega)
  obtain ⟨x, c, g, v, e1, e2, e3, e4, e5, e6, e7⟩ := C80_fourier_r2c n hn b hb A B d hd hs f hsum out out' out'' ho ho' ho''
  refine ⟨x, c, g, v, e1, e2, e3, e4, e5, fun j hj => (e7 j hj).trans ?_⟩
  let E : ℕ ≃ {k : ℕ // n ≤ 2 * k} := ⟨fun k => ⟨k + (n + 1) / 2, by omega⟩, fun k => k.1 - (n + 1) / 2, fun k => by simp,
    fun k => by have := k.2; ext; dsimp only; omega⟩
  rw [← E.tsum_eq]
  have h1 : (n : ℝ) / 2 ≤ ((n + 1) / 2 : ℕ) := by
    rw [div_le_iff₀ (by norm_num)]
    exact_mod_cast (by omega : n ≤ (n + 1) / 2 * 2)
  have hn' : (0 : ℝ) < n := by exact_mod_cast hn
  have hm : 1 ≤ (n + 1) / 2 := by omega
  set m := (n + 1) / 2
  have hm' : (0 : ℝ) < m := by exact_mod_cast hm
  have h2 : 2 * (4 * M) * (m : ℝ) ^ (d + 1) / (m : ℝ) ^ (d + 2 + q) = 8 * M / (m : ℝ) ^ (q + 1) := by
    rw [show d + 2 + q = d + 1 + (q + 1) by omega, pow_add (m : ℝ) (d + 1)]
    rw [mul_comm (2 * (4 * M)), mul_div_mul_left _ _ (by positivity)]
    ring
  rw [h2] at htail
  have h3 : 8 * M / (m : ℝ) ^ (q + 1) ≤ 8 * M / ((n : ℝ) / 2) ^ (q + 1) :=
    div_le_div_of_nonneg_left (by positivity) (by positivity) (pow_le_pow_left₀ (by positivity) h1 _)
  have h4 : 2 * (8 * M / ((n : ℝ) / 2) ^ (q + 1)) = 16 * M * 2 ^ (q + 1) / (n : ℝ) ^ (q + 1) := by
    rw [div_pow]; field_simp; ring
  rw [← h4]
  exact mul_le_mul_of_nonneg_left (htail.trans h3) (by norm_num)

theorem twiddle_norm (n j k : ℕ) : ‖twiddle (-1) n j k‖ = 1 := by
  unfold twiddle
  rw [show ((-1 : ℂ) * (2 * Real.pi * Complex.I * j * k / n)) = ((-(2 * Real.pi * j * k / n) : ℝ) : ℂ) * Complex.I by push_cast; ring]
  exact Complex.norm_exp_ofReal_mul_I _

theorem dft_norm_le {n : ℕ} {u : ℕ → ℂ} {E : ℝ} (h : ∀ j < n, ‖u j‖ ≤ E) (k : ℕ) : ‖dft (-1) n u k‖ ≤ n * E := by
  refine (norm_sum_le _ _).trans ((Finset.sum_le_card_nsmul _ _ E fun j hj => ?_).trans (le_of_eq (by simp)))
  rw [norm_mul, twiddle_norm, mul_one]
  exact h j (mem_range.mp hj)

/-- the modes of the second derivative are the modes of the function times `-k²`, up to the interpolation error -/
theorem dft_second {p : ℕ} (hp : 4 ≤ p) {f : ℝ → ℝ} (hf : ContDiff ℝ p f) (hper : Function.Periodic f (2 * Real.pi)) {M : ℝ}
    (hB : ∀ x, |iteratedDeriv p f x| ≤ M) {n : ℕ} (hn : 1 ≤ n) {k : ℕ} (hk : k ≤ n / 2) :
    ‖dft (-1) n (fun j => ((iteratedDeriv 2 f (2 * Real.pi * j / n) : ℝ) : ℂ)) k
      + (k : ℂ) ^ 2 * dft (-1) n (fun j => ((f (2 * Real.pi * j / n) : ℝ) : ℂ)) k‖ ≤ n * (16 * M * 2 ^ (p - 3) / (n : ℝ) ^ (p - 3)) := by
  obtain ⟨x, c, g, v, e1, e2, e3, e4, e5, e6⟩ := r2c_rate_B (d := 2) (by omega : 2 + 2 ≤ p) (by norm_num) hf hper hB hn ⟨n, n / 2 + 1⟩ rfl
    (List.replicate (n / 2 + 1) 0) (List.replicate (n / 2 + 1) 0) (List.replicate n 0) (by simp [R2c.lenSpec]) (by simp [R2c.lenOrth])
    (by simp [R2c.lenPhys])
  obtain ⟨x', h1, hl, hxj⟩ := C23_r2c_coords n hn ⟨n, n / 2 + 1⟩ rfl
  obtain rfl := Res.ok.inj (e1.symm.trans h1)
  have hl' : (x.map f).length = n := by rw [List.length_map, hl]
  obtain rfl := Res.ok.inj (e2.symm.trans (r2c_forward_eq n (x.map f) _ hl' (by simp)))
  have hcl : (rfftFwd (x.map f)).length = n / 2 + 1 := by rw [length_rfftFwd, hl']
  have e3' := e3
  rw [r2c_gradient_eq ⟨n, n / 2 + 1⟩ _ _ 2 hcl (by simp)] at e3'
  have hg : g = (List.range (n / 2 + 1)).map fun j => nth (rfftFwd (x.map f)) j * (Complex.I * (j : ℂ)) ^ 2 := (Res.ok.inj e3').symm
  have hgj : ∀ j ≤ n / 2, nth g j = nth (rfftFwd (x.map f)) j * (Complex.I * (j : ℂ)) ^ 2 := fun j hj => by
    rw [hg, nth_map_range _ _ _ (by omega)]
  have hsq : ∀ j : ℕ, (Complex.I * (j : ℂ)) ^ 2 = ((-(j : ℝ) ^ 2 : ℝ) : ℂ) := fun j => by
    rw [mul_pow, Complex.I_sq]; push_cast; ring
  have hre := rfft_real n hn _ hl'
  obtain ⟨v', f1, -, f3⟩ := C28_forward_backward n hn ⟨n, n / 2 + 1⟩ rfl g (List.replicate (n / 2 + 1) 0) (List.replicate n 0)
    (by rw [hg]; simp [R2c.lenSpec]) (by simp [R2c.lenPhys]) (by simp [R2c.lenSpec])
    (by rw [hgj 0 (by omega)]; simp) (fun h => by rw [hgj _ le_rfl, hsq, mul_comm, Complex.im_ofReal_mul, hre.2 h, mul_zero])
  obtain rfl := Res.ok.inj (e4.symm.trans f1)
  rw [r2c_forward_eq n v _ e5 (by simp)] at f3
  have f4 : nth (rfftFwd v) k = nth g k := by rw [Res.ok.inj f3]
  rw [nth_rfftFwd v (by omega), hgj k hk, nth_rfftFwd _ (by omega), hl', e5, hsq] at f4
  have hfx : dft (-1) n (fun j => ((nth (x.map f) j : ℝ) : ℂ)) k = dft (-1) n (fun j => ((f (2 * Real.pi * j / n) : ℝ) : ℂ)) k := by
    refine Finset.sum_congr rfl fun j hj => ?_
    dsimp only
    rw [nth_map _ _ _ (by rw [hl]; exact mem_range.mp hj), hxj j (mem_range.mp hj)]
  rw [hfx] at f4
  have : dft (-1) n (fun j => ((iteratedDeriv 2 f (2 * Real.pi * j / n) : ℝ) : ℂ)) k
      + (k : ℂ) ^ 2 * dft (-1) n (fun j => ((f (2 * Real.pi * j / n) : ℝ) : ℂ)) k
      = dft (-1) n (fun j => ((iteratedDeriv 2 f (2 * Real.pi * j / n) : ℝ) : ℂ) - ((nth v j : ℝ) : ℂ)) k := by
    have h2 : dft (-1) n (fun j => ((iteratedDeriv 2 f (2 * Real.pi * j / n) : ℝ) : ℂ) - ((nth v j : ℝ) : ℂ)) k
        = dft (-1) n (fun j => ((iteratedDeriv 2 f (2 * Real.pi * j / n) : ℝ) : ℂ)) k - dft (-1) n (fun j => ((nth v j : ℝ) : ℂ)) k := by
      unfold dft
      rw [← Finset.sum_sub_distrib]
      exact Finset.sum_congr rfl fun j _ => by ring
    rw [h2, f4]
    push_cast
    ring
  rw [this]
  refine dft_norm_le (fun j hj => ?_) k
  rw [← Complex.ofReal_sub, Complex.norm_real, Real.norm_eq_abs, abs_sub_comm, ← hxj j hj]
  exact e6 j hj

/-- The discrete Helmholtz problem of one mode, for a right hand side that is only approximately the one of `Y`. -/
theorem helm_mode {o : Mode} {n p : ℕ} (hp : 6 ≤ p) (hm : n ≤ 2642246) {b : Compo ℝ} (hb : Compo.new .dirichlet n = ok b) {S P I : Mat ℝ}
    (hS : b.stencilMat = ok S) (hP : b.laplacianPinv o = ok (P, I)) {β c : ℝ} (hβ : 0 ≤ β) (hc : 0 < c) {Y G : ℝ → ℝ}
    (hY : ContDiff ℝ p Y) (hG : ContDiff ℝ (p - 2 : ℕ) G) {MY MG ρ : ℝ} (hMY : ∀ θ, |iteratedDeriv p (fun θ => Y (Real.cos θ)) θ| ≤ MY)
    (hMG : ∀ θ, |iteratedDeriv (p - 2) (fun θ => G (Real.cos θ)) θ| ≤ MG) (hl : Y (-1) = 0) (hr : Y 1 = 0)
    (hρ : ∀ y ∈ Set.Icc (-1 : ℝ) 1, |β * Y y - c * iteratedDeriv 2 Y y - G y| ≤ ρ) {f v : List ℝ} (hf : f.length = n)
    (hfG : ∀ j < n, (chebPoly ℝ f).eval (chebPoint n j) = G (chebPoint n j)) (hv : v.length = b.lenSpec) (hs : SolvesHelmholtz S P I β c f v)
    {y : ℝ} (hy : y ∈ Set.Icc (-1 : ℝ) 1) :
    |(chebPoly ℝ (mulVec S v)).eval y - Y y| ≤ 16 * MY / (n : ℝ) ^ (p - 1)
      + Real.pi / √8 * ((16 * MG / (n : ℝ) ^ (p - 3) + ρ) + β * (16 * MY / (n : ℝ) ^ (p - 1)) + c * (16 * MY / (n : ℝ) ^ (p - 5))) / c := by
  have hw := Compo.wf_of_new hb
  have hn : 4 ≤ n := hw.le
  have hlo : b.lenOrth = n := by simp [Compo.lenOrth, Cheb.lenOrth, hw.ortho]
  obtain ⟨S', P', I', hS', hP', he⟩ := C102_error o n hm b hb β c hβ hc
  obtain rfl := Res.ok.inj (hS.symm.trans hS')
  obtain ⟨rfl, rfl⟩ := Prod.mk.inj (Res.ok.inj (hP.symm.trans hP'))
  have hq : Cheb.new n = ok ⟨n, n⟩ := cheb_new_ok (by omega)
  obtain ⟨x, hx1, hxl, hxj, -⟩ := C01_coords n _ hq
  have hxj : ∀ j < n, nth x j = chebPoint n j := hxj
  have ho : (List.replicate n (0 : ℝ)).length = Cheb.lenSpec ⟨n, n⟩ := by simp [Cheb.lenSpec]
  obtain ⟨a, ha, hal, -⟩ := wp_total.mp (wp_forwardSlice ⟨n, n⟩ n rfl (by omega) (x.map Y) (List.replicate n 0) (by simp [hxl, Cheb.lenPhys]) ho)
  have hfa := forward_of_values n _ hq x hx1 G hf ho fun j hj => by rw [hxj j hj]; exact hfG j hj
  obtain ⟨-, e1, e2⟩ := interp_grid Y n _ hq x _ a ho hx1 ha
  obtain ⟨S', hS', -, hbc⟩ := C17_boundary_conditions (K := ℝ) (T := ℝ) .dirichlet n b hb
  obtain rfl := Res.ok.inj (hS.symm.trans hS')
  obtain ⟨w, hwl, hwa⟩ := hbc a (by rw [hal, hlo]) (by
    show chebDeriv ℝ 0 a 1 = 0 ∧ chebDeriv ℝ 0 a (-1) = 0
    rw [chebDeriv_eq_eval, chebDeriv_eq_eval]
    exact ⟨by rw [← hr]; exact e2, by rw [← hl]; exact e1⟩)
  have un : ∀ (h : ℝ → ℝ) (d q : ℕ) (_ : ContDiff ℝ q h) (_ : d ≤ q) (t : ℝ) (_ : t ∈ Set.Icc (-1 : ℝ) 1),
      iteratedDerivWithin d h (Set.Icc (-1) 1) t = iteratedDeriv d h t := fun h d q hh hd t ht =>
    iteratedDerivWithin_eq_iteratedDeriv (uniqueDiffOn_Icc (by norm_num)) ((hh.of_le (by exact_mod_cast hd)).contDiffAt) ht
  have i0 := (interp_rate_B 0 (p - 2) (by omega) G hG.contDiffOn MG hMG n (by omega) _ hq x _ f ho hx1 hfa).2
  have i1 := (interp_rate_B 0 p (by omega) Y hY.contDiffOn MY hMY n (by omega) _ hq x _ a ho hx1 ha).2
  have i2 := (interp_rate_B 2 p (by omega) Y hY.contDiffOn MY hMY n (by omega) _ hq x _ a ho hx1 ha).2
  simp only [Function.iterate_zero, id_eq, iteratedDerivWithin_zero] at i0 i1
  refine he v w f hv hwl (by rw [hf, hlo]) hs Y (iteratedDeriv 2 Y) (fun y => β * Y y - c * iteratedDeriv 2 Y y) _ _ _
    (fun t t1 t2 => ⟨rfl, ?_, ?_, ?_⟩) y hy.1 hy.2
  · have k1 := i0 t ⟨t1, t2⟩
    have k2 := hρ t ⟨t1, t2⟩
    rw [abs_sub_comm] at k2
    have k3 := (abs_sub_le ((chebPoly ℝ f).eval t) (G t) (β * Y t - c * iteratedDeriv 2 Y t)).trans (add_le_add k1 k2)
    rwa [show p - 2 - 2 * 0 - 1 = p - 3 by omega] at k3
  · rw [hwa]
    have k1 := i1 t ⟨t1, t2⟩
    rwa [show p - 2 * 0 - 1 = p - 1 by omega] at k1
  · rw [hwa]
    have k1 := i2 t ⟨t1, t2⟩
    rw [un Y 2 p hY (by omega) t ⟨t1, t2⟩] at k1
    rwa [show p - 2 * 2 - 1 = p - 5 by omega] at k1

theorem part_ofReal_mul (part : ℂ →ₗ[ℝ] ℝ) (r : ℝ) (z : ℂ) : part ((r : ℂ) * z) = r * part z := by
  rw [← Complex.real_smul, map_smul, smul_eq_mul]

theorem abs_part_le {part : ℂ →ₗ[ℝ] ℝ} (hp : part ∈ [Complex.reLm, Complex.imLm]) (z : ℂ) : |part z| ≤ ‖z‖ := by
  simp only [List.mem_cons, List.not_mem_nil, or_false] at hp
  rcases hp with rfl | rfl
  · exact Complex.abs_re_le_norm z
  · exact Complex.abs_im_le_norm z

theorem part_dft (part : ℂ →ₗ[ℝ] ℝ) (n : ℕ) (u : ℕ → ℝ) (k : ℕ) :
    part (dft (-1) n (fun j => ((u j : ℝ) : ℂ)) k) = ∑ j ∈ range n, part (twiddle (-1) n j k) * u j := by
  unfold dft
  rw [map_sum]
  exact Finset.sum_congr rfl fun j _ => by rw [part_ofReal_mul, mul_comm]

theorem wsum_deriv {d n : ℕ} {g : ℕ → ℝ → ℝ} (hg : ∀ i, ContDiff ℝ d (g i)) (a : ℕ → ℝ) (t : ℝ) :
    iteratedDeriv d (fun t => ∑ i ∈ range n, a i * g i t) t = ∑ i ∈ range n, a i * iteratedDeriv d (g i) t := by
  rw [iteratedDeriv_fun_sum fun i _ => (contDiff_const.mul (hg i)).contDiffAt]
  exact Finset.sum_congr rfl fun i _ => by rw [iteratedDeriv_const_mul_field]

theorem wsum_le {n : ℕ} {a g : ℕ → ℝ} {M : ℝ} (ha : ∀ i, |a i| ≤ 1) (hg : ∀ i < n, |g i| ≤ M) :
    |∑ i ∈ range n, a i * g i| ≤ n * M := by
  refine (Finset.abs_sum_le_sum_abs _ _).trans ((Finset.sum_le_card_nsmul _ _ M fun i hi => ?_).trans (le_of_eq (by simp)))
  rw [abs_mul]
  exact (mul_le_of_le_one_left (abs_nonneg _) (ha i)).trans (hg i (mem_range.mp hi))

/-- `β Y - c ΔY` is smooth -/
theorem contDiff_helm {p : ℕ} (hp : 2 ≤ p) {Y : ℝ → ℝ → ℝ} (hY : ContDiff ℝ p (Function.uncurry Y)) (β c : ℝ) :
    ContDiff ℝ (p - 2 : ℕ) (Function.uncurry fun x y => β * Y x y - c * laplacian2 Y x y) := by
  have hY' : ContDiff ℝ (p - 2 + 2 : ℕ) (Function.uncurry Y) := by rwa [Nat.sub_add_cancel hp]
  have h1 := contDiff_iteratedDeriv_fst 2 hY'
  have h2 := continuous_iteratedDeriv_snd 2 hY'
  have h0 : ContDiff ℝ (p - 2 : ℕ) (Function.uncurry Y) := hY.of_le (by exact_mod_cast Nat.sub_le _ _)
  exact (contDiff_const.mul h0).sub (contDiff_const.mul (h1.add h2))

/-- the error of one mode -/
theorem mode_error {o : Mode} {n0 n1 p : ℕ} (hp : 6 ≤ p) (hm : n1 ≤ 2642246) {b : Compo ℝ} (hb : Compo.new .dirichlet n1 = ok b)
    {S P I : Mat ℝ} (hS : b.stencilMat = ok S) (hP : b.laplacianPinv o = ok (P, I)) {β c : ℝ} (hβ : 0 ≤ β) (hc : 0 < c) {Y : ℝ → ℝ → ℝ}
    (hY : ContDiff ℝ p (Function.uncurry Y)) (hper : ∀ y, Function.Periodic (fun x => Y x y) (2 * Real.pi))
    (hbc : ∀ x, Y x (-1) = 0 ∧ Y x 1 = 0) {M1 M2 M3 : ℝ}
    (h1 : ∀ x ∈ Set.Icc 0 (2 * Real.pi), ∀ θ, |iteratedDeriv p (fun θ => Y x (Real.cos θ)) θ| ≤ M1)
    (h2 : ∀ x ∈ Set.Icc 0 (2 * Real.pi), ∀ θ,
      |iteratedDeriv (p - 2) (fun θ => β * Y x (Real.cos θ) - c * laplacian2 Y x (Real.cos θ)) θ| ≤ M2)
    (h3 : ∀ y ∈ Set.Icc (-1 : ℝ) 1, ∀ x, |iteratedDeriv p (fun x => Y x y) x| ≤ M3) (hn0 : 1 ≤ n0) {k : ℕ} (hk : k ≤ n0 / 2)
    {part : ℂ →ₗ[ℝ] ℝ} (hpart : part ∈ [Complex.reLm, Complex.imLm]) {f v : List ℝ} (hf : f.length = n1)
    (hfG : ∀ j < n1, (chebPoly ℝ f).eval (chebPoint n1 j) = ∑ i ∈ range n0, part (twiddle (-1) n0 i k) *
      (β * Y (2 * Real.pi * i / n0) (chebPoint n1 j) - c * laplacian2 Y (2 * Real.pi * i / n0) (chebPoint n1 j)))
    (hv : v.length = b.lenSpec) (hs : SolvesHelmholtz S P I (β + c * (k : ℝ) ^ 2) c f v) {y : ℝ} (hy : y ∈ Set.Icc (-1 : ℝ) 1) :
    |(chebPoly ℝ (mulVec S v)).eval y - ∑ i ∈ range n0, part (twiddle (-1) n0 i k) * Y (2 * Real.pi * i / n0) y|
      ≤ 16 * (n0 * M1) / (n1 : ℝ) ^ (p - 1) + Real.pi / √8 * ((16 * (n0 * M2) / (n1 : ℝ) ^ (p - 3)
          + c * (n0 * (16 * M3 * 2 ^ (p - 3) / (n0 : ℝ) ^ (p - 3))))
        + (β + c * (k : ℝ) ^ 2) * (16 * (n0 * M1) / (n1 : ℝ) ^ (p - 1)) + c * (16 * (n0 * M1) / (n1 : ℝ) ^ (p - 5))) / c := by
  set a : ℕ → ℝ := fun i => part (twiddle (-1) n0 i k) with ha
  set x : ℕ → ℝ := fun i => 2 * Real.pi * i / n0 with hx
  have ha1 : ∀ i, |a i| ≤ 1 := fun i => (abs_part_le hpart _).trans_eq (twiddle_norm _ _ _)
  have hn0' : (0 : ℝ) < n0 := by exact_mod_cast hn0
  have hxI : ∀ i < n0, x i ∈ Set.Icc 0 (2 * Real.pi) := fun i hi => by
    have hi' : (i : ℝ) ≤ n0 := by exact_mod_cast hi.le
    refine ⟨by rw [hx]; positivity, ?_⟩
    rw [hx]
    dsimp only
    rw [div_le_iff₀ hn0']
    exact mul_le_mul_of_nonneg_left hi' (by positivity)
  have hH := contDiff_helm (by omega) hY β c
  have sec : ∀ {q : ℕ} {Z : ℝ → ℝ → ℝ}, ContDiff ℝ q (Function.uncurry Z) → ∀ t, ContDiff ℝ q (Z t) := fun hZ t =>
    hZ.comp (contDiff_const.prodMk contDiff_id)
  have seccos : ∀ {q : ℕ} {Z : ℝ → ℝ → ℝ}, ContDiff ℝ q (Function.uncurry Z) → ∀ t, ContDiff ℝ q fun θ => Z t (Real.cos θ) :=
    fun hZ t => hZ.comp (contDiff_const.prodMk Real.contDiff_cos)
  have sumC : ∀ {q : ℕ} {g : ℕ → ℝ → ℝ}, (∀ i, ContDiff ℝ q (g i)) → ContDiff ℝ q fun t => ∑ i ∈ range n0, a i * g i t := fun hg =>
    ContDiff.sum fun i _ => contDiff_const.mul (hg i)
  refine helm_mode (Y := fun y => ∑ i ∈ range n0, a i * Y (x i) y)
    (G := fun y => ∑ i ∈ range n0, a i * (β * Y (x i) y - c * laplacian2 Y (x i) y)) hp hm hb hS hP (by positivity) hc
    (sumC fun i => sec hY _) (sumC fun i => sec hH (x i)) (fun θ => ?_) (fun θ => ?_) ?_ ?_ (fun t ht => ?_) hf hfG hv hs hy
  · rw [wsum_deriv (g := fun i θ => Y (x i) (Real.cos θ)) (fun i => seccos hY _)]
    exact wsum_le ha1 fun i hi => h1 _ (hxI i hi) θ
  · rw [wsum_deriv (g := fun i θ => β * Y (x i) (Real.cos θ) - c * laplacian2 Y (x i) (Real.cos θ)) (fun i => seccos hH (x i))]
    exact wsum_le ha1 fun i hi => h2 _ (hxI i hi) θ
  · exact Finset.sum_eq_zero fun i _ => by rw [(hbc _).1, mul_zero]
  · exact Finset.sum_eq_zero fun i _ => by rw [(hbc _).2, mul_zero]
  · have hY2 : ∀ i, ContDiff ℝ (2 : ℕ) (Y (x i)) := fun i => (sec hY (x i)).of_le (by exact_mod_cast (by omega : 2 ≤ p))
    rw [wsum_deriv hY2]
    have hd := dft_second (f := fun s => Y s t) (by omega) (hY.comp (contDiff_id.prodMk contDiff_const)) (hper t) (h3 t ht) hn0 hk
    have e : (β + c * (k : ℝ) ^ 2) * ∑ i ∈ range n0, a i * Y (x i) t - c * ∑ i ∈ range n0, a i * iteratedDeriv 2 (Y (x i)) t
        - ∑ i ∈ range n0, a i * (β * Y (x i) t - c * laplacian2 Y (x i) t)
        = c * part (dft (-1) n0 (fun j => ((iteratedDeriv 2 (fun s => Y s t) (2 * Real.pi * j / n0) : ℝ) : ℂ)) k
          + (k : ℂ) ^ 2 * dft (-1) n0 (fun j => ((Y (2 * Real.pi * j / n0) t : ℝ) : ℂ)) k) := by
      rw [show ((k : ℂ) ^ 2) = (((k : ℝ) ^ 2 : ℝ) : ℂ) by push_cast; ring, map_add, part_ofReal_mul, part_dft, part_dft]
      simp only [Finset.mul_sum, ← Finset.sum_sub_distrib, ← Finset.sum_add_distrib]
      refine Finset.sum_congr rfl fun i _ => ?_
      unfold laplacian2
      rw [ha, hx]
      dsimp only
      ring
    rw [e, abs_mul, abs_of_pos hc]
    exact mul_le_mul_of_nonneg_left ((abs_part_le hpart _).trans hd) hc.le

end Verif
