/-
Property C112: summation by parts for the derivatives of `fourier_r2c`.
-/
import Verif.Spec.ByParts
import Verif.Spec.Energy
import Verif.Props.Calculus3
import Verif.Props.FourierRel
import Verif.Proof.SpaceEx
import Verif.Proof.Expand
import Verif.Props.Tensor

namespace Verif.Props
open Res Spec Finset Complex

/-- the steps of differentiation on the grid -/
private theorem r2c_deriv {n : ℕ} (hn : 1 ≤ n) (d : ℕ) (x : List ℝ) (hx : x.length = n) :
    GridDeriv (BaseR2c.fourierR2c (A := ℝ) (C := ℂ) ⟨n, n / 2 + 1⟩).toBase d x ((List.range n).map fun j =>
      (1 / n) * ∑ k ∈ range (n / 2 + 1), (if k = 0 ∨ 2 * k = n then 1 else 2)
        * (dft (-1) n (fun j => ((nth x j : ℝ) : ℂ)) k * (I * (k : ℂ)) ^ d * twiddle 1 n k j).re) := by
  refine ⟨rfftFwd x, (List.range (n / 2 + 1)).map (fun j => nth (rfftFwd x) j * (I * (j : ℂ)) ^ d),
    fun out ho => r2c_forward_eq n x out hx ho, fun out ho => ?_, fun out ho => ?_⟩
  · exact r2c_gradient_eq ⟨n, n / 2 + 1⟩ _ _ _ (by simp [hx]) ho
  · refine (r2c_backward_eq n hn _ out (by simp) ho).trans ?_
    congr 1
    refine List.map_congr_left fun j _ => ?_
    rw [r2c_eval n hn]
    congr 1
    refine Finset.sum_congr rfl fun k hk => ?_
    rw [mem_range] at hk
    rw [nth_map_range _ _ _ hk, nth_rfftFwd x (by rw [hx]; exact hk), hx]

/-- differentiation on the grid is a function -/
private theorem deriv_unique {P S A : Type} {b : Base P S S A} {d : ℕ} {x w w' : List P} [Inhabited P] [Inhabited S]
    (h : GridDeriv b d x w) (h' : GridDeriv b d x w') : w = w' := by
  obtain ⟨v, g, h1, h2, h3⟩ := h
  obtain ⟨v', g', h1', h2', h3'⟩ := h'
  have l (m : ℕ) : (List.replicate m (default : S)).length = m := List.length_replicate ..
  obtain rfl := Res.ok.inj ((h1 _ (l _)).symm.trans (h1' _ (l _)))
  obtain rfl := Res.ok.inj ((h2 _ (l _)).symm.trans (h2' _ (l _)))
  exact Res.ok.inj ((h3 (List.replicate _ default) (List.length_replicate ..)).symm.trans
    (h3' _ (List.length_replicate ..)))

/-- C112: grid data have derivatives of every order. -/
theorem C112_exists (n : ℕ) (b : Base ℝ ℂ ℂ) (hb : IsR2c n b) (d : ℕ) (x : List ℝ) (hx : x.length = n) :
    ∃ w, GridDeriv b d x w ∧ w.length = n ∧ ∀ w', GridDeriv b d x w' → w' = w := by
  obtain ⟨hn, b0, hb, rfl⟩ := hb
  obtain rfl := r2c_inv hb
  exact ⟨_, r2c_deriv hn d x hx, by simp, fun w' h => deriv_unique h (r2c_deriv hn d x hx)⟩

/-- C112: the inner product of grid data `y` and the `d`-th derivative of grid data `x`, in terms of the coefficients that
`forward` computes of `x` and `y`. -/
theorem C112_pairing (n : ℕ) (b : Base ℝ ℂ ℂ) (hb : IsR2c n b) (d : ℕ) (x y w : List ℝ) (X Y : List ℂ)
    (hx : x.length = n) (hy : y.length = n) (hw : GridDeriv b d x w)
    (hX : Returns b.forwardSlice b.lenSpec x X) (hY : Returns b.forwardSlice b.lenSpec y Y) :
    ∑ j ∈ range n, nth y j * nth w j
      = ∑ k ∈ range (n / 2 + 1), r2cModeW n k * ((I * k) ^ d * nth X k * (starRingEnd ℂ) (nth Y k)).re := by
  obtain ⟨hn, b0, hb, rfl⟩ := hb
  obtain rfl := r2c_inv hb
  obtain rfl := deriv_unique hw (r2c_deriv hn d x hx)
  have hl : (List.replicate (n / 2 + 1) (0 : ℂ)).length = n / 2 + 1 := List.length_replicate ..
  obtain rfl := Res.ok.inj ((hX _ hl).symm.trans (r2c_forward_eq n x _ hx hl))
  obtain rfl := Res.ok.inj ((hY _ hl).symm.trans (r2c_forward_eq n y _ hy hl))
  have e1 : ∀ j ∈ range n, nth y j * nth ((List.range n).map fun j =>
      (1 / n) * ∑ k ∈ range (n / 2 + 1), (if k = 0 ∨ 2 * k = n then (1 : ℝ) else 2)
        * (dft (-1) n (fun j => ((nth x j : ℝ) : ℂ)) k * (I * (k : ℂ)) ^ d * twiddle 1 n k j).re) j
      = ∑ k ∈ range (n / 2 + 1), r2cModeW n k * ((I * k) ^ d * nth (rfftFwd x) k * (nth y j * twiddle 1 n k j)).re := by
    intro j hj
    rw [mem_range] at hj
    rw [nth_map_range _ _ _ hj, Finset.mul_sum, Finset.mul_sum]
    refine Finset.sum_congr rfl fun k hk => ?_
    rw [mem_range] at hk
    rw [nth_rfftFwd x (by rw [hx]; exact hk), hx,
      show (I * (k : ℂ)) ^ d * dft (-1) n (fun j => ((nth x j : ℝ) : ℂ)) k * (nth y j * twiddle 1 n k j)
        = ((nth y j : ℝ) : ℂ) * (dft (-1) n (fun j => ((nth x j : ℝ) : ℂ)) k * (I * (k : ℂ)) ^ d * twiddle 1 n k j) by ring,
      re_ofReal_mul]
    unfold r2cModeW
    ring
  rw [Finset.sum_congr rfl e1, Finset.sum_comm]
  refine Finset.sum_congr rfl fun k hk => ?_
  rw [mem_range] at hk
  rw [← Finset.mul_sum, ← Complex.re_sum, ← Finset.mul_sum, nth_rfftFwd y (by rw [hy]; exact hk), hy]
  congr 4
  unfold dft
  rw [map_sum]
  refine Finset.sum_congr rfl fun j _ => ?_
  rw [map_mul, conj_ofReal]
  congr 1
  have := conj_twiddle n j k (-1)
  push_cast at this
  rw [this, neg_neg]
  unfold twiddle
  ring_nf

private theorem fwd_exists {n : ℕ} {b : Base ℝ ℂ ℂ} (hb : IsR2c n b) {x : List ℝ} (hx : x.length = n) :
    Returns b.forwardSlice b.lenSpec x (rfftFwd x) := by
  obtain ⟨hn, b0, hb, rfl⟩ := hb
  obtain rfl := r2c_inv hb
  exact fun out ho => r2c_forward_eq n x out hx ho

/-- C112: summation by parts. The derivative moves from one factor of the discrete inner product to the other, with the
sign `(-1)^d`, for all grid data: there is no error of discretisation and no boundary term. -/
theorem C112_by_parts (n : ℕ) (b : Base ℝ ℂ ℂ) (hb : IsR2c n b) (d : ℕ) (x y dx dy : List ℝ)
    (hx : x.length = n) (hy : y.length = n) (hdx : GridDeriv b d x dx) (hdy : GridDeriv b d y dy) :
    ∑ j ∈ range n, nth y j * nth dx j = (-1) ^ d * ∑ j ∈ range n, nth x j * nth dy j := by
  rw [C112_pairing n b hb d x y dx _ _ hx hy hdx (fwd_exists hb hx) (fwd_exists hb hy),
    C112_pairing n b hb d y x dy _ _ hy hx hdy (fwd_exists hb hy) (fwd_exists hb hx), Finset.mul_sum]
  refine Finset.sum_congr rfl fun k _ => ?_
  rw [← Complex.conj_re ((I * k) ^ d * nth (rfftFwd y) k * _)]
  simp only [map_mul, map_pow, conj_I, conj_conj, map_natCast]
  rw [show -I * (k : ℂ) = -(I * k) by ring, neg_pow (I * (k : ℂ)),
    show (-1 : ℂ) ^ d * (I * k) ^ d * (starRingEnd ℂ) (nth (rfftFwd y) k) * nth (rfftFwd x) k
      = (((-1 : ℝ) ^ d : ℝ) : ℂ) * ((I * k) ^ d * nth (rfftFwd x) k * (starRingEnd ℂ) (nth (rfftFwd y) k)) by
      push_cast; ring, re_ofReal_mul]
  have : ((-1 : ℝ) ^ d) * (-1) ^ d = 1 := by rw [← mul_pow]; simp
  linear_combination (-(r2cModeW n k * ((I * k) ^ d * nth (rfftFwd x) k * (starRingEnd ℂ) (nth (rfftFwd y) k)).re)) * this

/-- C112: derivatives have mean zero. -/
theorem C112_mean (n : ℕ) (b : Base ℝ ℂ ℂ) (hb : IsR2c n b) (d : ℕ) (hd : 1 ≤ d) (x dx : List ℝ)
    (hx : x.length = n) (hdx : GridDeriv b d x dx) : ∑ j ∈ range n, nth dx j = 0 := by
  have hn := hb.1
  have h := C112_pairing n b hb d x (List.replicate n 1) dx _ _ hx (by simp) hdx (fwd_exists hb hx)
    (fwd_exists hb (by simp))
  have e : ∑ j ∈ range n, nth (List.replicate n (1 : ℝ)) j * nth dx j = ∑ j ∈ range n, nth dx j :=
    Finset.sum_congr rfl fun j hj => by
      rw [mem_range] at hj
      rw [show nth (List.replicate n (1 : ℝ)) j = 1 by unfold nth; simp [hj], one_mul]
  rw [← e, h]
  refine Finset.sum_eq_zero fun k hk => ?_
  rw [mem_range] at hk
  rcases Nat.eq_zero_or_pos k with rfl | h0
  · simp [show d ≠ 0 by omega]
  · have z : nth (rfftFwd (List.replicate n (1 : ℝ))) k = 0 := by
      rw [nth_rfftFwd _ (by simpa using hk), List.length_replicate]
      have e1 := exp_sum n hn (-(k : ℤ))
      rw [if_neg (by
        rw [dvd_neg, Int.natCast_dvd_natCast]
        exact fun h => absurd (Nat.le_of_dvd h0 h) (by omega))] at e1
      rw [← e1]
      unfold dft
      refine Finset.sum_congr rfl fun j hj => ?_
      rw [mem_range] at hj
      dsimp only
      rw [show nth (List.replicate n (1 : ℝ)) j = 1 by unfold nth; simp [hj]]
      unfold twiddle
      push_cast
      rw [one_mul]
      congr 1; ring
    rw [z]; simp

/-- C112: advection and dispersion do not change the energy: grid data are orthogonal to their derivatives of odd order. -/
theorem C112_odd (n : ℕ) (b : Base ℝ ℂ ℂ) (hb : IsR2c n b) (d : ℕ) (hd : Odd d) (x dx : List ℝ)
    (hx : x.length = n) (hdx : GridDeriv b d x dx) : ∑ j ∈ range n, nth x j * nth dx j = 0 := by
  have h := C112_by_parts n b hb d x x dx dx hx hx hdx hdx
  rw [hd.neg_one_pow] at h
  linarith

/-- C112: the energy that derivatives of even order take out of the grid data, mode by mode. -/
theorem C112_even (n : ℕ) (b : Base ℝ ℂ ℂ) (hb : IsR2c n b) (m : ℕ) (x dx : List ℝ) (X : List ℂ)
    (hx : x.length = n) (hdx : GridDeriv b (2 * m) x dx) (hX : Returns b.forwardSlice b.lenSpec x X) :
    (-1) ^ m * ∑ j ∈ range n, nth x j * nth dx j
      = ∑ k ∈ range (n / 2 + 1), r2cModeW n k * ((k : ℝ) ^ (2 * m) * ‖nth X k‖ ^ 2) := by
  rw [C112_pairing n b hb (2 * m) x x dx _ _ hx hx hdx hX hX, Finset.mul_sum]
  refine Finset.sum_congr rfl fun k _ => ?_
  rw [mul_assoc ((I * (k : ℂ)) ^ (2 * m)), Complex.mul_conj, Complex.normSq_eq_norm_sq,
    show (I * (k : ℂ)) ^ (2 * m) * ((‖nth X k‖ ^ 2 : ℝ) : ℂ) = (((-1) ^ m * ((k : ℝ) ^ (2 * m) * ‖nth X k‖ ^ 2) : ℝ) : ℂ) by
      rw [mul_pow, pow_mul I, I_sq]; push_cast; ring, ofReal_re]
  have : ((-1 : ℝ) ^ m) * (-1) ^ m = 1 := by rw [← mul_pow]; simp
  linear_combination (r2cModeW n k * ((k : ℝ) ^ (2 * m) * ‖nth X k‖ ^ 2)) * this

private theorem r2cModeW_nonneg (n k : ℕ) : 0 ≤ r2cModeW n k := by
  unfold r2cModeW; split <;> positivity

/-- the energy of grid data in terms of the coefficients -/
theorem r2c_energy_eq {n : ℕ} (hn : 1 ≤ n) {x : List ℝ} (hx : x.length = n) :
    ∑ j ∈ range n, nth x j ^ 2 = ∑ k ∈ range (n / 2 + 1), r2cModeW n k * ‖nth (rfftFwd x) k‖ ^ 2 := by
  have hn' : (n : ℝ) ≠ 0 := by exact_mod_cast (by omega : n ≠ 0)
  obtain ⟨c, hc, h⟩ := C67_r2c_energy n hn ⟨n, n / 2 + 1⟩ rfl x (List.replicate (n / 2 + 1) 0) hx
    (List.length_replicate ..)
  obtain rfl := Res.ok.inj (hc.symm.trans (r2c_forward_eq n x _ hx (List.length_replicate ..)))
  have : ∑ k ∈ range (n / 2 + 1), r2cModeW n k * ‖nth (rfftFwd x) k‖ ^ 2
      = (1 / n) * ∑ k ∈ range (n / 2 + 1), (if k = 0 ∨ 2 * k = n then 1 else 2) * Complex.normSq (nth (rfftFwd x) k) := by
    rw [Finset.mul_sum]
    refine Finset.sum_congr rfl fun k _ => ?_
    rw [Complex.normSq_eq_norm_sq]; unfold r2cModeW; ring
  rw [this, h, ← mul_assoc, one_div, inv_mul_cancel₀ hn', one_mul]

/-- the energy of the deviation from the mean -/
theorem r2c_energy_dev {n : ℕ} (hn : 1 ≤ n) {x : List ℝ} (hx : x.length = n) :
    ∑ j ∈ range n, (nth x j - (∑ i ∈ range n, nth x i) / n) ^ 2
      = ∑ k ∈ range (n / 2), r2cModeW n (k + 1) * ‖nth (rfftFwd x) (k + 1)‖ ^ 2 := by
  have hn' : (n : ℝ) ≠ 0 := by exact_mod_cast (by omega : n ≠ 0)
  have h0 : nth (rfftFwd x) 0 = ((∑ i ∈ range n, nth x i : ℝ) : ℂ) := by
    rw [nth_rfftFwd x (by omega), hx]
    unfold dft
    push_cast
    refine Finset.sum_congr rfl fun j _ => ?_
    rw [twiddle_comm, twiddle_zero, mul_one]
  set s := ∑ i ∈ range n, nth x i with hs
  have e1 : ∑ j ∈ range n, (nth x j - s / n) ^ 2 = ∑ j ∈ range n, nth x j ^ 2 - 2 * (s / n) * s + n * (s / n) ^ 2 := by
    rw [show 2 * (s / n) * s = ∑ j ∈ range n, 2 * (s / n) * nth x j by rw [← Finset.mul_sum],
      show (n : ℝ) * (s / n) ^ 2 = ∑ j ∈ range n, (s / n) ^ 2 by simp, ← Finset.sum_sub_distrib, ← Finset.sum_add_distrib]
    exact Finset.sum_congr rfl fun j _ => by ring
  rw [e1, r2c_energy_eq hn hx, Finset.sum_range_succ', h0, Complex.norm_real, Real.norm_eq_abs, sq_abs]
  unfold r2cModeW
  simp only [true_or, if_true]
  field_simp
  ring

/-- C112: bounds for the derivatives of even order. The derivative of order `2m`, with the sign `(-1)^m`, takes at least
the energy of the deviation from the mean out of the grid data (Poincaré inequality), and at most `(n/2)^(2m)` times
their energy (which limits the time steps of explicit schemes). -/
theorem C112_bounds (n : ℕ) (b : Base ℝ ℂ ℂ) (hb : IsR2c n b) (m : ℕ) (x dx : List ℝ)
    (hx : x.length = n) (hdx : GridDeriv b (2 * m) x dx) :
    ∑ j ∈ range n, (nth x j - (∑ i ∈ range n, nth x i) / n) ^ 2 ≤ (-1) ^ m * ∑ j ∈ range n, nth x j * nth dx j ∧
    (-1) ^ m * ∑ j ∈ range n, nth x j * nth dx j ≤ (n / 2 : ℝ) ^ (2 * m) * ∑ j ∈ range n, nth x j ^ 2 := by
  have hn := hb.1
  have hX := fwd_exists hb hx
  rw [C112_even n b hb m x dx _ hx hdx hX]
  refine ⟨?_, ?_⟩
  · rw [r2c_energy_dev hn hx, Finset.sum_range_succ']
    refine le_add_of_le_of_nonneg (Finset.sum_le_sum fun k _ => ?_) ?_
    · refine mul_le_mul_of_nonneg_left ?_ (r2cModeW_nonneg ..)
      have : (1 : ℝ) ≤ ((k + 1 : ℕ) : ℝ) ^ (2 * m) := one_le_pow₀ (by push_cast; linarith [(Nat.cast_nonneg k : (0 : ℝ) ≤ k)])
      nlinarith [sq_nonneg ‖nth (rfftFwd x) (k + 1)‖]
    · exact mul_nonneg (r2cModeW_nonneg ..) (by positivity)
  · rw [r2c_energy_eq hn hx, Finset.mul_sum]
    refine Finset.sum_le_sum fun k hk => ?_
    rw [mem_range] at hk
    have h1 : (k : ℝ) ≤ n / 2 := by
      have : 2 * k ≤ n := by omega
      rw [le_div_iff₀ (by norm_num)]
      exact_mod_cast (by omega : k * 2 ≤ n)
    have h2 : (k : ℝ) ^ (2 * m) ≤ (n / 2 : ℝ) ^ (2 * m) := pow_le_pow_left₀ (by positivity) h1 _
    have := mul_nonneg (r2cModeW_nonneg n k) (sq_nonneg ‖nth (rfftFwd x) k‖)
    nlinarith

/-- C112 applies to every size. -/
example : ∃ b, IsR2c 8 b ∧ ∃ w, GridDeriv b 2 [1, 0, 0, 2, 0, 0, 0, 3] w :=
  have ⟨b, hb, _⟩ := isR2c_exists (n := 8) (by norm_num)
  ⟨b, hb, (C112_exists 8 b hb 2 _ rfl).imp fun _ h => h.1⟩

/-- C112 in two dimensions: in a space of `fourier_r2c` and `chebyshev`, `forward`, `gradient` of order `d` along the first
axis, and `backward` differentiate every column of the grid data on its own (with the factor of the scale): all of the above
holds of every column. -/
theorem C112_space2 (n0 n1 : ℕ) (hn1 : 3 ≤ n1) (sp : Space2 ℝ ℝ ℂ ℂ) (h0 : IsR2c n0 sp.base0) (h1 : IsCheb n1 sp.base1)
    (d : ℕ) (s : Option (ℝ × ℝ)) (hs : s ≠ none → d < 2 ^ 31) (hne : scale2 d 0 s ≠ 0) (x : Arr ℝ) (hx : Good x [n0, n1]) :
    ∃ v g w, sp.forward x = ok v ∧ sp.gradient v d 0 s = ok g ∧ sp.backward g = ok w ∧ Good w [n0, n1] ∧
      ∀ j < n1, GridDeriv sp.base0 d ((List.range n0).map fun i => at_ x [i, j])
        ((List.range n0).map fun i => scale2 d 0 s * at_ w [i, j]) := by
  obtain ⟨c0, hc0, e1⟩ := h1
  have f1 : IsFullR2r sp.base1 := ⟨none, n1, c0, hc0, trivial, trivial, hn1, e1⟩
  have r1 := isFull_isR2r f1
  obtain ⟨hc2, hcc⟩ := chebyshev_inv (show newR2r none n1 = ok c0 from hc0)
  obtain ⟨hfw, hbw, hsp⟩ := (C110_spaces2 n0 0).2.1 sp h0 f1
  obtain ⟨φ, β, cφ, cβ, hβφ⟩ := Spec.IsCheb.bwdFwd (n := n1) (b := sp.base1) ⟨c0, hc0, e1⟩
  have lp0 : sp.base0.lenPhys = n0 ∧ sp.base0.lenSpec = n0 / 2 + 1 ∧ sp.base0.lenOrth = n0 / 2 + 1 := by
    obtain ⟨-, b0, hb, e⟩ := h0
    obtain rfl := r2c_inv hb
    rw [e]; exact ⟨rfl, rfl, rfl⟩
  have lp1 : sp.base1.lenPhys = n1 ∧ sp.base1.lenSpec = n1 ∧ sp.base1.lenOrth = n1 := by
    rw [e1, hcc]; exact ⟨rfl, rfl, rfl⟩
  -- the columns of the data
  set col : ℕ → List ℝ := fun r => (List.range n0).map fun i => at_ x [i, r] with hcol
  set e : ℕ → List ℝ := fun r => (List.range n1).map fun j => if r = j then 1 else 0 with he
  have lcol : ∀ r, (col r).length = n0 := fun r => by simp [hcol]
  have le : ∀ r, (e r).length = n1 := fun r => by simp [he]
  choose W hW lW _ using fun r => C112_exists n0 sp.base0 h0 d (col r) (lcol r)
  choose V G hV hG hB using hW
  have lV : ∀ r, (V r).length = sp.base0.lenSpec := fun r => by
    obtain ⟨f, cf, -⟩ := h0.fwdLin
    rw [returns_of cf ((lcol r).trans lp0.1.symm) (hV r)]
    exact cf.len _ ((lcol r).trans lp0.1.symm)
  have lG : ∀ r, (G r).length = sp.base0.lenOrth := fun r => by
    obtain ⟨f, cf, -⟩ := h0.gradLin d
    rw [returns_of cf (lV r) (hG r)]
    exact cf.len _ (lV r)
  have hφ : ∀ r, Returns sp.base1.forwardSlice sp.base1.lenSpec (e r) (φ (e r)) := fun r out ho =>
    (cφ (e r) out ((le r).trans lp1.1.symm) ho).1
  have lφ : ∀ r, (φ (e r)).length = sp.base1.lenSpec := fun r => cφ.len _ ((le r).trans lp1.1.symm)
  have hmap : ∀ l : List ℝ, l.map (algebraMap ℝ ℝ) = l := fun l => by simp [Algebra.algebraMap_self]
  obtain ⟨v, hv, sv⟩ := hfw n1 col e V (fun r => φ (e r)) (fun r _ => ⟨(lcol r).trans lp0.1.symm,
    (le r).trans lp1.1.symm, by rw [hmap]; exact hV r, hφ r⟩) x (by
      rw [lp0.1, lp1.1]
      refine ⟨hx, fun i hi j hj => ?_⟩
      rw [Finset.sum_eq_single j]
      · rw [hcol, he]; dsimp only
        rw [nth_map_range _ _ _ hi, nth_map_range _ _ _ hj, if_pos rfl, smul_eq_mul, mul_one]
      · intro r _ hr
        rw [he]; dsimp only
        rw [nth_map_range _ _ _ hj, if_neg hr, smul_zero]
      · intro h; exact absurd (mem_range.mpr hj) h)
  obtain ⟨g, hg, sg⟩ := hsp.gradient d 0 s (fun h => ⟨hs h, by norm_num⟩) hne n1 V (fun r => (φ (e r)).map Complex.ofReal)
    G (fun r => (φ (e r)).map Complex.ofReal) (fun r _ => ⟨lV r, by rw [List.length_map]; exact lφ r, hG r, fun out ho => by
      rw [e1, hcc] at ho ⊢
      have l := lφ r
      rw [lp1.2.1] at l
      exact C05_gradient_order_zero (K := ℝ) (T := ℂ) n1 ⟨n1, n1⟩ (cheb_new_ok hc2) _ out
        (by rw [List.length_map]; exact l) ho⟩) v
    (sv.congr fun r _ k _ l hl => by
      rw [nth_map _ _ _ (by rw [lφ r]; exact hl), Complex.real_smul, mul_comm])
  set c := (scale2 d 0 s)⁻¹ with hc
  obtain ⟨w, hw, sw⟩ := hbw n1 W (fun r => (e r).map (c * ·)) G (fun r => (φ (e r)).map (c * ·)) (fun r _ => ⟨by
      rw [lG r, lp0.2.1, lp0.2.2], by rw [List.length_map]; exact lφ r, by rw [hmap]; exact hB r, fun out ho => by
      obtain ⟨β', cβ', lin⟩ := r1.bwdLin
      have ez : (φ (e r)).map (c * ·) = linComb ℝ c 0 (φ (e r)) (φ (e r)) := by
        refine ext_nth (by simp [linComb]) fun i hi => ?_
        have hi' : i < (φ (e r)).length := by simpa using hi
        rw [nth_map _ _ _ hi', linComb, nth_map_range _ _ _ hi']; simp
      have eβ : β' (φ (e r)) = e r := by
        have h1 := (cβ' (φ (e r)) out (lφ r) ho).1
        rw [(cβ (φ (e r)) out (lφ r) ho).1, hβφ _ ((le r).trans lp1.1.symm)] at h1
        exact (Res.ok.inj h1).symm
      have e2 : (e r).map (c * ·) = β' ((φ (e r)).map (c * ·)) := by
        rw [ez, lin _ _ _ _ (lφ r) (lφ r), eβ]
        refine ext_nth (by simp [linComb]) fun i hi => ?_
        have hi' : i < (e r).length := by simpa using hi
        rw [nth_map _ _ _ hi', linComb, nth_map_range _ _ _ hi']; simp
      rw [(cβ' _ out (by rw [List.length_map]; exact lφ r) ho).1, e2]⟩) g (by
        rw [lp0.2.1, lp1.2.1]
        rw [lp0.2.2, lp1.2.2] at sg
        refine sg.congr fun r _ k _ l hl => ?_
        rw [nth_map _ _ _ (by rw [lφ r, lp1.2.1]; exact hl), nth_map _ _ _ (by rw [lφ r, lp1.2.1]; exact hl), Complex.real_smul,
          Complex.real_smul]
        push_cast
        ring)
  rw [lp0.1, lp1.1] at sw
  refine ⟨v, g, w, hv, hg, hw, sw.1, fun j hj => ?_⟩
  have : (List.range n0).map (fun i => scale2 d 0 s * at_ w [i, j]) = W j := by
    refine ext_nth (by simp [lW]) fun i hi => ?_
    rw [List.length_map, List.length_range] at hi
    rw [nth_map_range _ _ _ hi, sw.2 i hi j hj, Finset.sum_eq_single j]
    · dsimp only
      rw [nth_map _ _ _ (by rw [le]; exact hj), he]
      dsimp only
      rw [nth_map_range _ _ _ hj, if_pos rfl, smul_eq_mul, hc]
      field_simp
    · intro r _ hr
      dsimp only
      rw [nth_map _ _ _ (by rw [le]; exact hj), he]
      dsimp only
      rw [nth_map_range _ _ _ hj, if_neg hr, mul_zero, smul_zero]
    · intro h; exact absurd (mem_range.mpr hj) h
  rw [this]
  exact ⟨V j, G j, hV j, hG j, hB j⟩

/-- C112 applies to spaces of every size, with scales. -/
example : ∃ (sp : Space2 ℝ ℝ ℂ ℂ) (x : Arr ℝ), IsR2c 8 sp.base0 ∧ IsCheb 5 sp.base1 ∧ Good x [8, 5] ∧ at_ x [0, 0] = 1 ∧
    scale2 2 0 (some (3, 2)) ≠ 0 := by
  obtain ⟨b, hb, -⟩ := isR2c_exists (n := 8) (by norm_num)
  obtain ⟨c, hc, -⟩ := isCheb_exists (T := ℂ) (n := 5) (by norm_num)
  exact ⟨⟨b, c⟩, _, hb, hc, good_fill (1 : ℝ) [8, 5], by rfl, by simp [scale2]⟩

end Verif.Props
