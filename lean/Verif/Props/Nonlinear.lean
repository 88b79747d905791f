/-
Property C113: nonlinear terms on a fine enough grid.
-/
import Verif.Spec.Nonlinear
import Verif.Proof.TrigSpan
import Verif.Props.ByParts
import Verif.Props.Product

namespace Verif.Props
open Res Spec Finset Complex

private theorem deriv_fun {P S A : Type} {b : Base P S S A} {d : ℕ} {x w w' : List P} [Inhabited P] [Inhabited S]
    (h : GridDeriv b d x w) (h' : GridDeriv b d x w') : w = w' := by
  obtain ⟨v, g, h1, h2, h3⟩ := h
  obtain ⟨v', g', h1', h2', h3'⟩ := h'
  have l (m : ℕ) : (List.replicate m (default : S)).length = m := List.length_replicate ..
  obtain rfl := Res.ok.inj ((h1 _ (l _)).symm.trans (h1' _ (l _)))
  obtain rfl := Res.ok.inj ((h2 _ (l _)).symm.trans (h2' _ (l _)))
  exact Res.ok.inj ((h3 (List.replicate _ default) (List.length_replicate ..)).symm.trans
    (h3' _ (List.length_replicate ..)))

/-! ### fourier_r2c -/

private noncomputable def nodes (n : ℕ) : List ℝ := (List.range n).map (fun j : ℕ => 2 * Real.pi * j / n)

private theorem nodes_len (n : ℕ) : (nodes n).length = n := by simp [nodes]

private theorem nth_nodes {n j : ℕ} (hj : j < n) : nth (nodes n) j = 2 * Real.pi * j / n := nth_map_range _ _ _ hj

private theorem nth_samples {n j : ℕ} (hj : j < n) (f : ℝ → ℝ) :
    nth ((nodes n).map f) j = f (2 * Real.pi * j / n) := by
  rw [nth_map _ _ _ (by rw [nodes_len]; exact hj), nth_nodes hj]

private theorem samples_len (n : ℕ) (f : ℝ → ℝ) : ((nodes n).map f).length = n := by
  rw [List.length_map, nodes_len]

/-- band-limited data are samples of trigonometric polynomials -/
private theorem samples {n M : ℕ} {b : Base ℝ ℂ ℂ} (hb : IsR2c n b) (hM : 2 * M < n) {x : List ℝ} (hx : x.length = n)
    (h : BandLimited b M x) : ∃ f ∈ TS M, x = (nodes n).map f := by
  obtain ⟨hn, b0, hb, rfl⟩ := hb
  obtain rfl := r2c_inv hb
  obtain ⟨X, hX, hz⟩ := h
  have hl : (List.replicate (n / 2 + 1) (0 : ℂ)).length = n / 2 + 1 := List.length_replicate ..
  obtain rfl := Res.ok.inj ((hX _ hl).symm.trans (r2c_forward_eq n x _ hx hl))
  set X := rfftFwd x with hXd
  have hn' : (n : ℝ) ≠ 0 := by exact_mod_cast (by omega : n ≠ 0)
  have h0 : (nth X 0).im = 0 := by
    rw [hXd, nth_rfftFwd x (by omega), hx]
    unfold dft
    rw [Complex.im_sum]
    refine Finset.sum_eq_zero fun j _ => ?_
    rw [twiddle_comm, twiddle_zero, mul_one, ofReal_im]
  refine ⟨trigPoly M (fun m => (if m = 0 then 1 else 2) / n * (nth X m).re) (fun m => -(2 / n * (nth X m).im)),
    ⟨_, _, rfl⟩, ?_⟩
  have hf := trigR_trigPoly n M hM (fun m => (if m = 0 then 1 else 2) / n * (nth X m).re)
    (fun m => -(2 / n * (nth X m).im)) X
    (by apply Complex.ext
        · rw [ofReal_re, if_pos rfl]; field_simp
        · rw [ofReal_im]; exact h0)
    (fun m h1 _ => by
      rw [if_neg (by omega)]
      apply Complex.ext <;> (dsimp only; field_simp))
    (fun m h1 h2 => hz m h1)
  have hXl : X.length = n / 2 + 1 := by rw [hXd, length_rfftFwd, hx]
  obtain ⟨x', v, hx', hv, hvl, hve⟩ := C28_backward_evaluates n hn ⟨n, n / 2 + 1⟩ rfl X (List.replicate n 0)
    hXl (List.length_replicate ..)
  obtain rfl : nodes n = x' := Res.ok.inj ((fourierNodes_eq n hn).symm.trans hx')
  have e := C28_backward_forward n hn ⟨n, n / 2 + 1⟩ rfl x (List.replicate n 0) (List.replicate (n / 2 + 1) 0) hx
    hl (List.length_replicate ..)
  obtain ⟨c, hc, -, hc'⟩ := e
  obtain rfl := Res.ok.inj (hc.symm.trans (r2c_forward_eq n x _ hx hl))
  obtain rfl := Res.ok.inj (hc'.symm.trans hv)
  refine ext_nth (by rw [samples_len, hx]) fun j hj => ?_
  rw [hve j (by rw [nodes_len]; omega), hf, nth_map _ _ _ (by rw [nodes_len]; omega)]

/-- the derivative of samples -/
private theorem samples_deriv {n K : ℕ} {b : Base ℝ ℂ ℂ} (hb : IsR2c n b) (hK : 2 * K < n) {f : ℝ → ℝ} (hf : f ∈ TS K)
    (d : ℕ) : GridDeriv b d ((nodes n).map f) ((nodes n).map (iteratedDeriv d f)) := by
  obtain ⟨A, B, rfl⟩ := hf
  obtain ⟨x, hx, hxl, h⟩ := C59_returns_r2c n K hK.le b hb
  obtain ⟨v, g, -, -, h1, h2, h3⟩ := h d A B (by omega)
  have lp : b.lenPhys = n ∧ b.coords = ok (nodes n) := by
    obtain ⟨hn, b0, hb, rfl⟩ := hb
    obtain rfl := r2c_inv hb
    exact ⟨rfl, fourierNodes_eq n hn⟩
  obtain rfl := Res.ok.inj (lp.2.symm.trans hx)
  exact ⟨v, g, h1, h2, by rw [lp.1]; exact h3⟩

/-- C113, the product rule of Leibniz on the grid of `fourier_r2c`: if the bands `M`, `N` of the factors fit on the grid
together, `2 (M + N) < n`, then the derivative of order `d` that the library computes of the product of the grid data is
the sum of the products of the derivatives it computes of the factors. -/
theorem C113_leibniz_r2c (n M N : ℕ) (hMN : 2 * (M + N) < n) (b : Base ℝ ℂ ℂ) (hb : IsR2c n b) (d : ℕ)
    (x y w : List ℝ) (dx dy : ℕ → List ℝ) (hx : x.length = n) (hy : y.length = n)
    (bx : BandLimited b M x) (by_ : BandLimited b N y)
    (hdx : ∀ i ≤ d, GridDeriv b i x (dx i)) (hdy : ∀ i ≤ d, GridDeriv b i y (dy i))
    (hw : GridDeriv b d (pointwise x y) w) :
    ∀ j < n, nth w j = ∑ i ∈ range (d + 1), d.choose i * nth (dx i) j * nth (dy (d - i)) j := by
  obtain ⟨f, hf, rfl⟩ := samples hb (by omega) hx bx
  obtain ⟨g, hg, rfl⟩ := samples hb (by omega) hy by_
  have hfg : pointwise ((nodes n).map f) ((nodes n).map g) = (nodes n).map (fun t => f t * g t) := by
    refine ext_nth (by rw [pointwise_length _ _ (by simp)]; simp) fun j hj => ?_
    rw [pointwise_length _ _ (by simp), samples_len] at hj
    rw [nth_pointwise _ _ (by simp), nth_samples hj, nth_samples hj, nth_samples hj]
  rw [hfg] at hw
  obtain rfl := deriv_fun hw (samples_deriv hb hMN (TS_mul hf hg) d)
  intro j hj
  rw [nth_samples hj, iteratedDeriv_fun_mul ((TS_smooth hf).of_le le_top).contDiffAt ((TS_smooth hg).of_le le_top).contDiffAt]
  refine Finset.sum_congr rfl fun i hi => ?_
  rw [mem_range] at hi
  rw [deriv_fun (hdx i (by omega)) (samples_deriv hb (by omega) hf i),
    deriv_fun (hdy (d - i) (by omega)) (samples_deriv hb (by omega) hg (d - i)), nth_samples hj, nth_samples hj]

/-- C113, conservation of powers (the 2/3 rule): if `(p + 1) M < n` then advection by the power `p` of the grid data
themselves has mean zero: `∑ⱼ xⱼ^p (D x)ⱼ = 0`. For `p = 2` this is the conservation of energy by the nonlinear term of the Burgers
equation. -/
theorem C113_powers (n M p : ℕ) (hp : 1 ≤ p) (hM : (p + 1) * M < n) (b : Base ℝ ℂ ℂ) (hb : IsR2c n b) (x dx : List ℝ)
    (hx : x.length = n) (bx : BandLimited b M x) (hdx : GridDeriv b 1 x dx) :
    ∑ j ∈ range n, nth x j ^ p * nth dx j = 0 := by
  have h2 : 2 * M < n := lt_of_le_of_lt (Nat.mul_le_mul_right M (by omega)) hM
  obtain ⟨f, hf, rfl⟩ := samples hb h2 hx bx
  obtain rfl := deriv_fun hdx (samples_deriv hb h2 hf 1)
  have h := TS_sum_deriv hb.1 hM (TS_pow hf (p + 1))
  have e : ∀ j ∈ range n, deriv (fun t => f t ^ (p + 1)) (2 * Real.pi * j / n)
      = (p + 1 : ℝ) * (nth ((nodes n).map f) j ^ p * nth ((nodes n).map (iteratedDeriv 1 f)) j) := fun j hj => by
    rw [mem_range] at hj
    have hd : DifferentiableAt ℝ f (2 * Real.pi * j / n) := (TS_smooth hf).differentiable (by simp) _
    rw [nth_samples hj, nth_samples hj, iteratedDeriv_one, (hd.hasDerivAt.fun_pow (p + 1)).deriv]
    push_cast
    ring
  rw [Finset.sum_congr rfl e, ← Finset.mul_sum] at h
  exact (mul_eq_zero.mp h).resolve_left (by positivity)

/-- C113, conservation of energy by the nonlinear term in conservative form: if `3 M < n` then the grid data are orthogonal to
the derivative that the library computes of their square. -/
theorem C113_conservative (n M : ℕ) (hM : 3 * M < n) (b : Base ℝ ℂ ℂ) (hb : IsR2c n b) (x w : List ℝ)
    (hx : x.length = n) (bx : BandLimited b M x) (hw : GridDeriv b 1 (pointwise x x) w) :
    ∑ j ∈ range n, nth x j * nth w j = 0 := by
  obtain ⟨dx, hdx, -⟩ := C112_exists n b hb 1 x hx
  rw [C112_by_parts n b hb 1 (pointwise x x) x w dx (by rw [pointwise_length _ _ rfl, hx]) hx hw hdx]
  have h2 := C113_powers n M 2 (by norm_num) hM b hb x dx hx bx hdx
  have e : ∀ j ∈ range n, nth (pointwise x x) j * nth dx j = nth x j ^ 2 * nth dx j := fun j _ => by
    rw [nth_pointwise _ _ rfl]; ring
  rw [Finset.sum_congr rfl e, h2, mul_zero]

/-- C113: the data that `backward` computes of coefficients that vanish beyond the index `M` are band-limited. -/
theorem C113_band_limited (n M : ℕ) (b : Base ℝ ℂ ℂ) (hb : IsR2c n b) (c : List ℂ) (hc : c.length = n / 2 + 1)
    (h0 : (nth c 0).im = 0) (hN : n % 2 = 0 → (nth c (n / 2)).im = 0) (hz : ∀ k, M < k → nth c k = 0) :
    ∃ x, Returns b.backwardSlice b.lenPhys c x ∧ x.length = n ∧ BandLimited b M x := by
  obtain ⟨hn, b0, hb, rfl⟩ := hb
  obtain rfl := r2c_inv hb
  obtain ⟨v, hv, hvl, hvf⟩ := C28_forward_backward n hn ⟨n, n / 2 + 1⟩ rfl c (List.replicate (n / 2 + 1) 0)
    (List.replicate n 0) hc (List.length_replicate ..) (List.length_replicate ..) h0 hN
  refine ⟨v, fun out ho => ?_, hvl, c, fun out ho => ?_, hz⟩
  · exact (r2c_backward_eq n hn c out hc ho).trans ((r2c_backward_eq n hn c _ hc (List.length_replicate ..)).symm.trans hv)
  · exact (r2c_forward_eq n v out hvl ho).trans ((r2c_forward_eq n v _ hvl (List.length_replicate ..)).symm.trans hvf)

/-- The hypotheses of C113 are met: band-limited data on 8 points. -/
example : ∃ (b : Base ℝ ℂ ℂ) (x w : List ℝ), IsR2c 8 b ∧ x.length = 8 ∧ BandLimited b 2 x ∧ ¬ BandLimited b 1 x ∧
    GridDeriv b 1 (pointwise x x) w := by
  obtain ⟨b, hb, -⟩ := isR2c_exists (n := 8) (by norm_num)
  obtain ⟨x, h1, h2, h3⟩ := C113_band_limited 8 2 b hb [1, 0, ⟨3, 4⟩, 0, 0] rfl rfl (fun _ => rfl) (fun k hk => by
    match k, hk with
    | 3, _ => rfl
    | 4, _ => rfl
    | (k + 5), _ => rfl)
  obtain ⟨w, hw, -⟩ := C112_exists 8 b hb 1 (pointwise x x) (by rw [pointwise_length _ _ rfl, h2])
  refine ⟨b, x, w, hb, h2, h3, fun ⟨X, hX, hz⟩ => ?_, hw⟩
  obtain ⟨hn, b0, hb, rfl⟩ := hb
  obtain rfl := r2c_inv hb
  obtain ⟨v, hv, hvl, hvf⟩ := C28_forward_backward 8 hn ⟨8, 5⟩ rfl [1, 0, ⟨3, 4⟩, 0, 0] (List.replicate 5 0)
    (List.replicate 8 0) rfl rfl rfl rfl (fun _ => rfl)
  obtain rfl := Res.ok.inj ((h1 _ rfl).symm.trans hv)
  obtain rfl := Res.ok.inj ((hX _ rfl).symm.trans hvf)
  have : (⟨3, 4⟩ : ℂ) = 0 := hz 2 (by norm_num)
  exact absurd (congrArg Complex.re this) (by norm_num)

private theorem sum_cos_sin {n : ℕ} (hn : 1 ≤ n) (m : ℤ) (hm : ¬ (n : ℤ) ∣ m) :
    ∑ j ∈ range n, Real.cos (m * (2 * Real.pi * j / n)) = 0 ∧ ∑ j ∈ range n, Real.sin (m * (2 * Real.pi * j / n)) = 0 := by
  have e := exp_sum n hn m
  rw [if_neg hm] at e
  have e2 : ∀ j : ℕ, Complex.exp (2 * Real.pi * Complex.I * (m : ℂ) * j / n)
      = ⟨Real.cos (m * (2 * Real.pi * j / n)), Real.sin (m * (2 * Real.pi * j / n))⟩ := fun j => by
    rw [show 2 * Real.pi * Complex.I * (m : ℂ) * j / n = ((m * (2 * Real.pi * j / n) : ℝ) : ℂ) * Complex.I by
      push_cast; ring]
    exact Complex.ext (Complex.exp_ofReal_mul_I_re _) (Complex.exp_ofReal_mul_I_im _)
  simp_rw [e2] at e
  have h1 := congrArg Complex.re e
  have h2 := congrArg Complex.im e
  rw [Complex.re_sum] at h1
  rw [Complex.im_sum] at h2
  exact ⟨h1, h2⟩

/-- C113: the 2/3 rule is sharp. With exactly `n = 3 M` points there are grid data with the band `M` whose energy the nonlinear
term does not conserve. -/
theorem C113_powers_sharp (M : ℕ) (hM : 1 ≤ M) (b : Base ℝ ℂ ℂ) (hb : IsR2c (3 * M) b) :
    ∃ x dx, x.length = 3 * M ∧ BandLimited b M x ∧ GridDeriv b 1 x dx ∧
      ∑ j ∈ range (3 * M), nth x j ^ 2 * nth dx j ≠ 0 := by
  set n := 3 * M with hn3
  have hn : 1 ≤ n := by omega
  set f : ℝ → ℝ := fun t => Real.cos (M * t) + Real.sin (M * t) with hf
  have hfT : f ∈ TS M := (TS M).add_mem (cos_mem_nat le_rfl) (sin_mem_nat le_rfl)
  have hd : ∀ t, iteratedDeriv 1 f t = M * (Real.cos (M * t) - Real.sin (M * t)) := fun t => by
    rw [iteratedDeriv_one]
    have h1 : HasDerivAt (fun y : ℝ => (M : ℝ) * y) M t := by simpa using (hasDerivAt_id t).const_mul (M : ℝ)
    have := (h1.cos.fun_add h1.sin).deriv
    rw [hf, this]; ring
  refine ⟨_, _, samples_len n f, ?_, samples_deriv hb (by omega) hfT 1, ?_⟩
  · obtain ⟨-, b0, hb, rfl⟩ := hb
    obtain rfl := r2c_inv hb
    refine ⟨_, fun out ho => r2c_forward_eq n _ out (samples_len n f) ho, fun k hk => ?_⟩
    by_cases hk2 : k < n / 2 + 1
    · rw [nth_rfftFwd _ (by rw [samples_len]; exact hk2), samples_len]
      have e1 := sum_cos_sin hn ((M : ℤ) - k) (by
        rintro ⟨c, hc⟩
        have h1 : c < 0 := by by_contra h; push Not at h; nlinarith
        have : (n : ℤ) * c ≤ -n := by nlinarith
        omega)
      have e2 := sum_cos_sin hn ((M : ℤ) + k) (by
        rintro ⟨c, hc⟩
        have h1 : 0 < c := by by_contra h; push Not at h; nlinarith
        have : (n : ℤ) * c ≥ n := by nlinarith
        omega)
      have e : ∀ j ∈ range n, ((nth ((nodes n).map f) j : ℝ) : ℂ) * twiddle (-1) n j k
          = ⟨(Real.cos ((((M : ℤ) - k : ℤ) : ℝ) * (2 * Real.pi * j / n)) + Real.cos ((((M : ℤ) + k : ℤ) : ℝ) * (2 * Real.pi * j / n))
              + Real.sin ((((M : ℤ) - k : ℤ) : ℝ) * (2 * Real.pi * j / n)) + Real.sin ((((M : ℤ) + k : ℤ) : ℝ) * (2 * Real.pi * j / n))) / 2,
            (Real.sin ((((M : ℤ) - k : ℤ) : ℝ) * (2 * Real.pi * j / n)) - Real.sin ((((M : ℤ) + k : ℤ) : ℝ) * (2 * Real.pi * j / n))
              + Real.cos ((((M : ℤ) + k : ℤ) : ℝ) * (2 * Real.pi * j / n)) - Real.cos ((((M : ℤ) - k : ℤ) : ℝ) * (2 * Real.pi * j / n))) / 2⟩ := by
        intro j hj
        rw [mem_range] at hj
        rw [nth_samples hj]
        have et : twiddle (-1) n j k = ⟨Real.cos (k * (2 * Real.pi * j / n)), -Real.sin (k * (2 * Real.pi * j / n))⟩ := by
          unfold twiddle
          rw [show (-1 : ℂ) * (2 * Real.pi * I * j * k / n) = ((-(k * (2 * Real.pi * j / n)) : ℝ) : ℂ) * Complex.I by
            push_cast; ring]
          rw [← Real.cos_neg (k * (2 * Real.pi * j / n)), ← Real.sin_neg]
          exact Complex.ext (Complex.exp_ofReal_mul_I_re _) (Complex.exp_ofReal_mul_I_im _)
        have eM : (((M : ℤ) - k : ℤ) : ℝ) = M - k ∧ (((M : ℤ) + k : ℤ) : ℝ) = M + k := ⟨by push_cast; rfl, by push_cast; rfl⟩
        rw [et, hf, eM.1, eM.2, sub_mul, add_mul (M : ℝ), Real.cos_sub, Real.cos_add, Real.sin_sub, Real.sin_add]
        apply Complex.ext
        · rw [re_ofReal_mul]; dsimp only; ring
        · rw [im_ofReal_mul]; dsimp only; ring
      unfold dft
      rw [Finset.sum_congr rfl e]
      apply Complex.ext
      · rw [Complex.re_sum]; dsimp only
        rw [← Finset.sum_div, Finset.sum_add_distrib, Finset.sum_add_distrib, Finset.sum_add_distrib, e1.1, e1.2, e2.1, e2.2]
        simp
      · rw [Complex.im_sum]; dsimp only
        rw [← Finset.sum_div, Finset.sum_sub_distrib, Finset.sum_add_distrib, Finset.sum_sub_distrib, e1.1, e1.2, e2.1, e2.2]
        simp
    · exact nth_of_le _ _ (by rw [length_rfftFwd, samples_len]; omega)
  · have e0 := sum_cos_sin hn (M : ℤ) (by
      rintro ⟨c, hc⟩
      rcases le_or_gt c 0 with h | h
      · have : (n : ℤ) * c ≤ 0 := by nlinarith
        omega
      · have : (n : ℤ) * c ≥ n := by nlinarith
        omega)
    have hMr : (M : ℝ) ≠ 0 := by exact_mod_cast (by omega : M ≠ 0)
    have e : ∀ j ∈ range n, nth ((nodes n).map f) j ^ 2 * nth ((nodes n).map (iteratedDeriv 1 f)) j
        = M / 2 * (1 + Real.cos (((M : ℤ) : ℝ) * (2 * Real.pi * j / n)) - Real.sin (((M : ℤ) : ℝ) * (2 * Real.pi * j / n))) := by
      intro j hj
      rw [mem_range] at hj
      rw [nth_samples hj, nth_samples hj, hd, hf]
      push_cast
      have h3 : 3 * ((M : ℝ) * (2 * Real.pi * j / n)) = j * (2 * Real.pi) := by
        rw [hn3]; push_cast; field_simp
      have c3 := Real.cos_three_mul ((M : ℝ) * (2 * Real.pi * j / n))
      have s3 := Real.sin_three_mul ((M : ℝ) * (2 * Real.pi * j / n))
      rw [h3, Real.cos_nat_mul_two_pi] at c3
      rw [h3, show (j : ℝ) * (2 * Real.pi) = ((2 * j : ℕ) : ℝ) * Real.pi by push_cast; ring, Real.sin_nat_mul_pi] at s3
      have sq := Real.sin_sq_add_cos_sq ((M : ℝ) * (2 * Real.pi * j / n))
      set c := Real.cos ((M : ℝ) * (2 * Real.pi * j / n))
      set s := Real.sin ((M : ℝ) * (2 * Real.pi * j / n))
      linear_combination (M : ℝ) * (-c3 / 2 - s3 / 2 + (s - c) * sq)
    rw [Finset.sum_congr rfl e, ← Finset.mul_sum, Finset.sum_sub_distrib, Finset.sum_add_distrib, e0.1, e0.2]
    have : (n : ℝ) ≠ 0 := by exact_mod_cast (by omega : n ≠ 0)
    simp [hMr, this]

/-! ### chebyshev -/

/-- band-limited data are samples of polynomials -/
private theorem samples_cheb {n M : ℕ} {b : Base ℝ ℝ ℝ} (hb : IsCheb n b) {x : List ℝ} (hx : x.length = n)
    (h : BandLimited b M x) {t : List ℝ} (ht : b.coords = ok t) (hl : t.length = n) :
    ∃ f : Polynomial ℝ, f.natDegree ≤ M ∧ f.degree < n ∧ x = t.map f.eval := by
  obtain ⟨b0, hb0, rfl⟩ := hb
  obtain ⟨hn, rfl⟩ := chebyshev_inv (show newR2r none n = ok b0 from hb0)
  obtain ⟨X, hX, hz⟩ := h
  have hc := cheb_new_ok hn
  have lr : (List.replicate n (0 : ℝ)).length = n := List.length_replicate ..
  obtain ⟨c, hc1, hc2⟩ := C03_backward_forward n ⟨n, n⟩ hc x (List.replicate n 0) (List.replicate n 0) hx lr lr
  have e := hX _ lr
  obtain rfl := Res.ok.inj (hc1.symm.trans e)
  have cl : c.length = n := by
    obtain ⟨φ, cφ⟩ := LinOp.computes (r2r_forward_lin (T := ℝ) (k := none) hb0 trivial)
    have := cφ x (List.replicate n 0) hx lr
    obtain rfl := Res.ok.inj (e.symm.trans this.1)
    exact this.2
  obtain ⟨t', v, ht', hv, hvl, hve⟩ := C02_backward_evaluates n ⟨n, n⟩ hc c (List.replicate n 0) cl lr
  obtain rfl := Res.ok.inj (ht.symm.trans ht')
  obtain rfl := Res.ok.inj (hc2.symm.trans hv)
  refine ⟨chebPoly ℝ c, ?_, ?_, ext_nth (by rw [List.length_map]; exact hvl) fun j hj => by
    rw [hve j (by omega), nth_map _ _ _ (by omega)]⟩
  · unfold chebPoly
    refine Polynomial.natDegree_sum_le_of_forall_le _ _ fun i _ => ?_
    by_cases h : M < i
    · rw [hz i h]; simp
    · refine (Polynomial.natDegree_C_mul_le _ _).trans ?_
      rw [Polynomial.Chebyshev.natDegree_T]
      simpa using not_lt.mp h
  · have := chebPoly_degree c
    rwa [cl] at this

/-- C113, the product rule of Leibniz on the grid of `chebyshev`: if the degrees `M`, `N` of the factors fit on the grid together,
`M + N < n`, then the derivative of order `d` that the library computes of the product of the grid data is the sum of the
products of the derivatives it computes of the factors. -/
theorem C113_leibniz_cheb (n M N : ℕ) (hn : 3 ≤ n) (hMN : M + N < n) (b : Base ℝ ℝ ℝ) (hb : IsCheb n b) (d : ℕ)
    (x y w : List ℝ) (dx dy : ℕ → List ℝ) (hx : x.length = n) (hy : y.length = n)
    (bx : BandLimited b M x) (by_ : BandLimited b N y)
    (hdx : ∀ i ≤ d, GridDeriv b i x (dx i)) (hdy : ∀ i ≤ d, GridDeriv b i y (dy i))
    (hw : GridDeriv b d (pointwise x y) w) :
    ∀ j < n, nth w j = ∑ i ∈ range (d + 1), d.choose i * nth (dx i) j * nth (dy (d - i)) j := by
  have hb' := hb
  obtain ⟨b0, hb0, rfl⟩ := hb
  obtain ⟨t, ht, -, tl, h⟩ := C59_returns none n b0 b0 hb0 trivial trivial hn hb0
  have lp : (b0.toBase ℝ).lenPhys = n := by
    obtain ⟨-, rfl⟩ := chebyshev_inv (show newR2r none n = ok b0 from hb0); rfl
  have key : ∀ (d : ℕ) (p : Polynomial ℝ), p.degree < n →
      GridDeriv (b0.toBase ℝ) d (t.map p.eval) (t.map (Polynomial.derivative^[d] p).eval) := fun d p hp => by
    obtain ⟨v, g, -, -, h1, h2, h3⟩ := h d p ⟨hp, trivial⟩
    exact ⟨v, g, h1, h2, by rw [lp]; exact h3⟩
  obtain ⟨f, hf, hf', rfl⟩ := samples_cheb hb' hx bx ht tl
  obtain ⟨g, hg, hg', rfl⟩ := samples_cheb hb' hy by_ ht tl
  have hfg : pointwise (t.map f.eval) (t.map g.eval) = t.map (f * g).eval := by
    refine ext_nth (by rw [pointwise_length _ _ (by simp)]; simp) fun j hj => ?_
    rw [pointwise_length _ _ (by simp), List.length_map] at hj
    rw [nth_pointwise _ _ (by simp), nth_map _ _ _ hj, nth_map _ _ _ hj, nth_map _ _ _ hj, Polynomial.eval_mul]
  rw [hfg] at hw
  obtain rfl := deriv_fun hw (key d (f * g) ((Polynomial.degree_le_natDegree.trans (Nat.cast_le.mpr
    (Polynomial.natDegree_mul_le.trans (add_le_add hf hg)))).trans_lt (Nat.cast_lt.mpr hMN)))
  intro j hj
  rw [← tl] at hj
  rw [nth_map _ _ _ hj, mul_comm f g, Polynomial.iterate_derivative_mul, Polynomial.eval_finset_sum]
  refine Finset.sum_congr rfl fun i hi => ?_
  rw [mem_range] at hi
  rw [deriv_fun (hdx i (by omega)) (key i f hf'), deriv_fun (hdy (d - i) (by omega)) (key (d - i) g hg'),
    nth_map _ _ _ hj, nth_map _ _ _ hj, Polynomial.eval_smul, Polynomial.eval_mul, nsmul_eq_mul]
  ring

end Verif.Props
