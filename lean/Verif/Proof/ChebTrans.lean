/- Chebyshev nodes and transforms. -/
import Verif.Proof.ChebGrad
import Verif.Proof.Fill
import Mathlib.Analysis.SpecialFunctions.Trigonometric.Chebyshev.Basic
import Mathlib.Tactic.Positivity
import Mathlib.Tactic.Linarith

namespace Verif
open Res Spec Finset
variable {Q : Err → Prop}

/-! ### DCT-I algebra -/

/-- end points count half -/
noncomputable def cw (N i : ℕ) : ℝ := if i = 0 ∨ i = N then 1 / 2 else 1

theorem cw_ne (N i : ℕ) : cw N i ≠ 0 := by unfold cw; split <;> norm_num
theorem cw_symm {N i : ℕ} (h : i ≤ N) : cw N (N - i) = cw N i := by
  unfold cw; congr 1; exact propext (by omega)

theorem cw_sum (M : ℕ) (f : ℕ → ℝ) :
    ∑ i ∈ range (M + 2), cw (M + 1) i * f i
      = f 0 / 2 + f (M + 1) / 2 + ∑ i ∈ range M, f (i + 1) := by
  rw [sum_range_succ, sum_range_succ']
  have : ∑ i ∈ range M, cw (M + 1) (i + 1) * f (i + 1) = ∑ i ∈ range M, f (i + 1) := by
    refine Finset.sum_congr rfl (fun i hi => ?_)
    rw [mem_range] at hi
    rw [cw, if_neg (by omega), one_mul]
  rw [this, cw, cw, if_pos (by omega), if_pos (by omega)]
  ring

theorem trapz (N : ℕ) (hN : 1 ≤ N) (f : ℕ → ℝ) :
    ∑ i ∈ range (N + 1), cw N i * f i = (∑ i ∈ range N, (f i + f (i + 1))) / 2 := by
  obtain ⟨M, rfl⟩ : ∃ M, N = M + 1 := ⟨N - 1, by omega⟩
  rw [cw_sum, Finset.sum_add_distrib, sum_range_succ', sum_range_succ (fun i => f (i + 1))]
  ring

theorem cos_sum_zero (N : ℕ) (hN : 1 ≤ N) (θ : ℝ) (h1 : Real.sin (N * θ) = 0)
    (h2 : Real.sin (θ / 2) ≠ 0) : ∑ i ∈ range (N + 1), cw N i * Real.cos (i * θ) = 0 := by
  rw [trapz N hN (fun i : ℕ => Real.cos (i * θ))]
  have key : ∀ M : ℕ, (∑ i ∈ range M, (Real.cos (i * θ) + Real.cos ((i + 1 : ℕ) * θ)))
      * Real.sin (θ / 2) = Real.cos (θ / 2) * Real.sin (M * θ) := by
    intro M
    induction M with
    | zero => simp
    | succ M ih =>
      rw [sum_range_succ, add_mul, ih]
      have e : ∀ φ : ℝ, (Real.cos φ + Real.cos (φ + θ)) * Real.sin (θ / 2)
          = Real.cos (θ / 2) * (Real.sin (φ + θ) - Real.sin φ) := by
        intro φ
        have : θ = θ / 2 + θ / 2 := by ring
        rw [Real.cos_add, Real.sin_add]
        have hs : Real.sin θ = 2 * Real.sin (θ / 2) * Real.cos (θ / 2) := by
          rw [← Real.sin_two_mul]; congr 1; ring
        have hc : Real.cos θ = 2 * Real.cos (θ / 2) ^ 2 - 1 := by
          rw [← Real.cos_two_mul]; congr 1; ring
        have hp := Real.sin_sq_add_cos_sq (θ / 2)
        rw [hs, hc]
        linear_combination (-2 * Real.sin φ * Real.cos (θ / 2)) * hp
      have := e (M * θ)
      push_cast
      rw [show ((M : ℝ) + 1) * θ = M * θ + θ by ring]
      linear_combination this
  have := key N
  rw [h1, mul_zero] at this
  rw [(mul_eq_zero.mp this).resolve_right h2, zero_div]

theorem cw_total (N : ℕ) (hN : 1 ≤ N) : ∑ i ∈ range (N + 1), cw N i = N := by
  have := trapz N hN (fun _ => 1)
  simp only [mul_one] at this
  rw [this]
  simp

/-- `Σ'' cos(π i j / N)` vanishes for `0 < j < 2N` -/
theorem cos_sum_nat (N j : ℕ) (hj : 0 < j) (hj2 : j < 2 * N) :
    ∑ i ∈ range (N + 1), cw N i * Real.cos (i * (Real.pi * j / N)) = 0 := by
  have hN : 1 ≤ N := by omega
  have hN' : (0 : ℝ) < N := by exact_mod_cast hN
  refine cos_sum_zero N hN _ ?_ ?_
  · rw [show (N : ℝ) * (Real.pi * j / N) = j * Real.pi by field_simp]
    exact Real.sin_nat_mul_pi j
  · apply ne_of_gt
    apply Real.sin_pos_of_pos_of_lt_pi
    · have : (0 : ℝ) < j := by exact_mod_cast hj
      have := Real.pi_pos
      positivity
    · rw [div_div, div_lt_iff₀ (by positivity)]
      have h1 : (j : ℝ) < 2 * N := by exact_mod_cast hj2
      nlinarith [Real.pi_pos]

/-- discrete orthogonality -/
theorem dct_orth (N k l : ℕ) (hN : 1 ≤ N) (hk : k ≤ N) (hl : l ≤ N) :
    ∑ i ∈ range (N + 1), cw N i * (Real.cos (Real.pi * k * i / N) * Real.cos (Real.pi * i * l / N))
      = if k = l then N / 2 / cw N l else 0 := by
  have prod : ∀ i : ℕ, cw N i * (Real.cos (Real.pi * k * i / N) * Real.cos (Real.pi * i * l / N))
      = (cw N i * Real.cos (i * (Real.pi * ((max k l - min k l : ℕ) : ℝ) / N))
        + cw N i * Real.cos (i * (Real.pi * ((k + l : ℕ) : ℝ) / N))) / 2 := by
    intro i
    have e : Real.cos (i * (Real.pi * ((max k l - min k l : ℕ) : ℝ) / N))
        = Real.cos (Real.pi * k * i / N - Real.pi * i * l / N) := by
      rcases le_total k l with h | h
      · rw [max_eq_right h, min_eq_left h, Nat.cast_sub h, ← Real.cos_neg]
        congr 1; ring
      · rw [max_eq_left h, min_eq_right h, Nat.cast_sub h]
        congr 1; ring
    rw [e, show (i : ℝ) * (Real.pi * ((k + l : ℕ) : ℝ) / N)
      = Real.pi * k * i / N + Real.pi * i * l / N by push_cast; ring, Real.cos_sub, Real.cos_add]
    ring
  have one : ∀ j : ℕ, j = 0 ∨ j = 2 * N →
      ∑ i ∈ range (N + 1), cw N i * Real.cos (i * (Real.pi * j / N)) = N := by
    intro j hj
    refine Eq.trans ?_ (cw_total N hN)
    refine Finset.sum_congr rfl (fun i _ => ?_)
    have : Real.cos (i * (Real.pi * j / N)) = 1 := by
      rcases hj with rfl | rfl
      · simp
      · have hN' : (N : ℝ) ≠ 0 := by positivity
        rw [show (i : ℝ) * (Real.pi * ((2 * N : ℕ) : ℝ) / N) = i * (2 * Real.pi) by
          push_cast; field_simp]
        exact Real.cos_nat_mul_two_pi i
    rw [this, mul_one]
  simp only [prod]
  simp only [div_eq_mul_inv (_ + _) (2 : ℝ)]
  rw [← Finset.sum_mul, Finset.sum_add_distrib]
  by_cases h : k = l
  · subst h
    rw [if_pos rfl, one _ (Or.inl (by omega))]
    by_cases h0 : k = 0 ∨ k = N
    · have e : cw N k = 1 / 2 := by unfold cw; rw [if_pos h0]
      rw [e, one (k + k) (by omega)]; ring
    · have e : cw N k = 1 := by unfold cw; rw [if_neg h0]
      rw [e, cos_sum_nat N (k + k) (by omega) (by omega)]; ring
  · rw [if_neg h, cos_sum_nat N _ (by omega) (by omega), cos_sum_nat N _ (by omega) (by omega)]
    simp

theorem list_sum_range' (M : ℕ) (f : ℕ → ℝ) :
    ((List.range' 1 M).map f).sum = ∑ i ∈ range M, f (i + 1) := by
  induction M with
  | zero => simp
  | succ M ih =>
    rw [List.range'_concat, List.map_append, List.sum_append, ih, sum_range_succ]
    simp [add_comm]

/-- the DCT as a weighted sum -/
theorem nth_dct1 (x : List ℝ) (N : ℕ) (hN : 1 ≤ N) (hx : x.length = N + 1) (k : ℕ) (hk : k ≤ N) :
    nth (dct1 x) k = ∑ i ∈ range (N + 1), cw N i * (nth x i * Real.cos (Real.pi * i * k / N)) := by
  obtain ⟨M, rfl⟩ : ∃ M, N = M + 1 := ⟨N - 1, by omega⟩
  unfold dct1
  rw [hx]
  simp only [Nat.add_sub_cancel]
  have h1 : nth (List.map (fun k : ℕ => nth x 0 / 2 + (-1) ^ k * nth x (M + 1) / 2
      + ((List.range' 1 M).map (fun i : ℕ => nth x i
        * Real.cos (Real.pi * i * k / ((M + 1 : ℕ) : ℝ)))).sum) (List.range (M + 1 + 1))) k = _ :=
    nth_map_range _ _ _ (by omega)
  rw [h1, cw_sum]
  have hN' : ((M + 1 : ℕ) : ℝ) ≠ 0 := by positivity
  rw [show Real.pi * ((M + 1 : ℕ) : ℝ) * k / ((M + 1 : ℕ) : ℝ) = k * Real.pi by field_simp,
    Real.cos_nat_mul_pi]
  congr 1
  · simp; ring
  · rw [list_sum_range']

@[simp] theorem dct1_length (x : List ℝ) : (dct1 x).length = x.length := by simp [dct1]

/-- the DCT-I is its own inverse up to `N/2` -/
theorem dct1_dct1 (x : List ℝ) (N : ℕ) (hN : 1 ≤ N) (hx : x.length = N + 1) (k : ℕ) (hk : k ≤ N) :
    nth (dct1 (dct1 x)) k = N / 2 * nth x k := by
  rw [nth_dct1 _ N hN (by simpa using hx) k hk]
  have : ∀ i ∈ range (N + 1), cw N i * (nth (dct1 x) i * Real.cos (Real.pi * i * k / N))
      = ∑ l ∈ range (N + 1), (cw N l * nth x l) * (cw N i *
        (Real.cos (Real.pi * l * i / N) * Real.cos (Real.pi * i * k / N))) := by
    intro i hi
    rw [nth_dct1 x N hN hx i (by rw [mem_range] at hi; omega), Finset.sum_mul, Finset.mul_sum]
    exact Finset.sum_congr rfl (fun l _ => by ring)
  rw [Finset.sum_congr rfl this, Finset.sum_comm]
  have e : ∀ l ∈ range (N + 1), ∑ i ∈ range (N + 1), (cw N l * nth x l) * (cw N i *
        (Real.cos (Real.pi * l * i / N) * Real.cos (Real.pi * i * k / N)))
      = if l = k then N / 2 * nth x k else 0 := by
    intro l hl
    rw [mem_range] at hl
    rw [← Finset.mul_sum, dct_orth N l k hN (by omega) hk]
    split
    · rename_i h
      subst h
      have := cw_ne N l
      field_simp
    · rw [mul_zero]
  rw [Finset.sum_congr rfl e, Finset.sum_ite_eq' , if_pos (by rw [mem_range]; omega)]

/-- reversing the input alternates the signs of the output -/
theorem dct1_alt (x y : List ℝ) (N : ℕ) (hN : 1 ≤ N) (hx : x.length = N + 1)
    (hy : y.length = N + 1) (h : ∀ i ≤ N, nth y i = nth x (N - i)) (k : ℕ) (hk : k ≤ N) :
    nth (dct1 y) k = (-1) ^ k * nth (dct1 x) k := by
  rw [nth_dct1 _ N hN hy k hk, nth_dct1 _ N hN hx k hk, ← Finset.sum_range_reflect, Finset.mul_sum]
  refine Finset.sum_congr rfl (fun i hi => ?_)
  rw [mem_range] at hi
  have hN' : (N : ℝ) ≠ 0 := by positivity
  rw [show N + 1 - 1 - i = N - i by omega, cw_symm (by omega), h _ (by omega),
    show N - (N - i) = i by omega, Nat.cast_sub (by omega),
    show Real.pi * ((N : ℝ) - i) * k / N = k * Real.pi - Real.pi * i * k / N by field_simp,
    Real.cos_sub, Real.cos_nat_mul_pi, Real.sin_nat_mul_pi]
  ring

/-- alternating the signs of the input reverses the output -/
theorem dct1_rev (x y : List ℝ) (N : ℕ) (hN : 1 ≤ N) (hx : x.length = N + 1)
    (hy : y.length = N + 1) (h : ∀ i ≤ N, nth y i = (-1) ^ i * nth x i) (k : ℕ) (hk : k ≤ N) :
    nth (dct1 y) k = nth (dct1 x) (N - k) := by
  rw [nth_dct1 _ N hN hy k hk, nth_dct1 _ N hN hx _ (by omega)]
  refine Finset.sum_congr rfl (fun i hi => ?_)
  rw [mem_range] at hi
  have hN' : (N : ℝ) ≠ 0 := by positivity
  rw [h _ (by omega), Nat.cast_sub (by omega),
    show Real.pi * i * ((N : ℝ) - k) / N = i * Real.pi - Real.pi * i * k / N by field_simp,
    Real.cos_sub, Real.cos_nat_mul_pi, Real.sin_nat_mul_pi]
  ring

/-! ### nodes -/

/-- the Chebyshev points -/
noncomputable def chebPt (n j : ℕ) : ℝ := -Real.cos (Real.pi * j / (n - 1 : ℕ))

theorem wp_chebNodes {n : ℕ} (hn : 2 ≤ n) :
    wp Q (chebNodes n) (fun xs => xs = (List.range n).map (chebPt n)) := by
  unfold chebNodes
  simp only [libm_pi, libm_sin]
  wprun
  have hN : ((n - 1 : ℕ) : ℝ) ≠ 0 := by
    have : 1 ≤ n - 1 := by omega
    positivity
  refine wp_forRange (fun k acc => acc = (List.range k).map (chebPt n)) (by simp) ?_ ?_
  · rintro k acc - hk rfl
    wprun
    · rw [List.range_succ, List.map_append]
      congr 1
      simp only [List.map_cons, List.map_nil, chebPt]
      congr 1
      rw [smul_eq_mul, show (2 * ((n - 1 : ℕ) : ℝ))⁻¹ * (Real.pi * (((n - 1 : ℕ) : ℝ) - 2 * (k : ℝ)))
        = Real.pi / 2 - Real.pi * k / ((n - 1 : ℕ) : ℝ) by field_simp, Real.sin_pi_div_two_sub]
      ring
    · intro h
      exact absurd h (by positivity)
  · rintro acc rfl
    rw [show max 0 n = n by omega]

theorem chebPt_T (n j i : ℕ) : (Polynomial.Chebyshev.T ℝ (i : ℤ)).eval (chebPt n j)
    = (-1) ^ i * Real.cos (Real.pi * i * j / (n - 1 : ℕ)) := by
  unfold chebPt
  rw [Polynomial.Chebyshev.T_eval_neg, Polynomial.Chebyshev.T_real_cos]
  congr 1
  · rw [Int.negOnePow_def]; simp
  · congr 1; push_cast; ring

/-! ### transforms -/

theorem wp_backwardSlice (b : Cheb) (n : ℕ) (hb : b = ⟨n, n⟩) (hn : 2 ≤ n) (a out : List ℝ)
    (ha : a.length = n) (ho : out.length = n) :
    wp Q (b.backwardSlice a out) (fun v => ∃ y : List ℝ, v = dct1 y ∧ y.length = n ∧
      ∀ i < n, nth y i = (-1) ^ i * nth a i / cw (n - 1) i) := by
  subst hb
  unfold Cheb.backwardSlice Cheb.lenSpec
  dsimp only
  wprun
  rw [ha, ho, min_self]
  refine wp_fill (fun i => (-1) ^ i * nth a i) ho ?_ ?_
  · intro i hi v hv
    refine wp_ite_i (fun h => ?_) (fun h => ?_)
    · wprun
      rw [Even.neg_one_pow (Nat.even_iff.mpr h), one_mul]
    · wprun
      rw [Odd.neg_one_pow (Nat.odd_iff.mpr (by omega))]
      congr 1
      ring
  set y0 := List.map (fun i => (-1) ^ i * nth a i) (List.range n) with hy0
  have y0l : y0.length = n := by simp [hy0]
  have y0i : ∀ i < n, nth y0 i = (-1) ^ i * nth a i := fun i hi => by
    rw [hy0, nth_map_range _ _ _ hi]
  clear_value y0
  wprun
  refine ⟨_, rfl, by simp [y0l], fun i hi => ?_⟩
  rw [nth_set_ne _ _ _ _ (show 0 ≠ n - 1 by omega)]
  unfold cw
  have : i = 0 ∨ i = n - 1 ∨ (0 < i ∧ i < n - 1) := by omega
  rcases this with rfl | rfl | h
  · rw [nth_set_ne _ _ _ _ (by omega), nth_set_self _ _ _ (by omega), y0i _ (by omega), if_pos (by omega)]
    ring
  · rw [nth_set_self _ _ _ (by simp; omega), y0i _ (by omega), if_pos (by omega)]
    ring
  · rw [nth_set_ne _ _ _ _ (by omega), nth_set_ne _ _ _ _ (by omega), y0i _ (by omega),
      if_neg (by omega)]
    ring

theorem nth_reverse {T : Type} [Zero T] (l : List T) (i : ℕ) (h : i < l.length) :
    nth l.reverse i = nth l (l.length - 1 - i) := by
  rw [nth_eq_getElem _ _ (by simpa using h), nth_eq_getElem _ _ (by omega), List.getElem_reverse]

theorem wp_forwardSlice (b : Cheb) (n : ℕ) (hb : b = ⟨n, n⟩) (hn : 2 ≤ n) (v out : List ℝ)
    (hv : v.length = n) (ho : out.length = n) :
    wp Q (b.forwardSlice v out) (fun a => a.length = n ∧ ∃ y : List ℝ, y.length = n ∧
      (∀ i < n, nth y i = nth v (n - 1 - i) * (2 / (n - 1 : ℕ))) ∧
      ∀ i < n, nth a i = nth (dct1 y) i * cw (n - 1) i) := by
  subst hb
  unfold Cheb.forwardSlice Cheb.lenPhys
  dsimp only
  have hN : ((n - 1 : ℕ) : ℝ) ≠ 0 := by
    have : 1 ≤ n - 1 := by omega
    positivity
  wprun
  swap
  · exact fun h => absurd h hN
  rw [zipSet_eq_map _ _ _ (by simp; omega)]
  set y := List.map (fun x => x * (((n - 1 : ℕ) : ℝ)⁻¹ • ((1 + 1 : ℝ) * 1))) v.reverse with hy
  have yl : y.length = n := by simp [hy, hv]
  have yi : ∀ i < n, nth y i = nth v (n - 1 - i) * (2 / (n - 1 : ℕ)) := fun i hi => by
    have hr : nth (List.map (fun x => x * (((n - 1 : ℕ) : ℝ)⁻¹ • ((1 + 1 : ℝ) * 1))) v.reverse) i = _ :=
      nth_map _ _ i (by simp; omega)
    rw [hy, hr, nth_reverse _ _ (by omega), hv, smul_eq_mul]
    ring
  clear_value y
  rw [dct_real]
  have dl : (dct1 y).length = n := by simpa using yl
  wprun
  refine ⟨by simpa using yl, y, yl, yi, fun i hi => ?_⟩
  rw [nth_set_ne _ _ _ _ (show 0 ≠ n - 1 by omega)]
  unfold cw
  have : i = 0 ∨ i = n - 1 ∨ (0 < i ∧ i < n - 1) := by omega
  rcases this with rfl | rfl | h
  · rw [nth_set_ne _ _ _ _ (by omega), nth_set_self _ _ _ (by omega), if_pos (by omega)]
  · rw [nth_set_self _ _ _ (by simp; omega), if_pos (by omega)]
  · rw [nth_set_ne _ _ _ _ (by omega), nth_set_ne _ _ _ _ (by omega), if_neg (by omega)]
    ring

/-- backward evaluates on the nodes -/
theorem backward_eval {n : ℕ} (hn : 2 ≤ n) (a y : List ℝ) (ha : a.length = n) (hy : y.length = n)
    (h : ∀ i < n, nth y i = (-1) ^ i * nth a i / cw (n - 1) i) (j : ℕ) (hj : j < n) :
    nth (dct1 y) j = chebVal ℝ a (chebPt n j) := by
  rw [nth_dct1 y (n - 1) (by omega) (by omega) j (by omega)]
  unfold chebVal
  rw [ha, show n - 1 + 1 = n by omega]
  refine Finset.sum_congr rfl (fun i hi => ?_)
  rw [mem_range] at hi
  rw [h i hi, chebPt_T, smul_eq_mul]
  have := cw_ne (n - 1) i
  field_simp

theorem wp_forward_backward (b : Cheb) (n : ℕ) (hb : b = ⟨n, n⟩) (hn : 2 ≤ n) (a v out : List ℝ)
    (ha : a.length = n) (ho : out.length = n)
    (hv : ∃ y : List ℝ, v = dct1 y ∧ y.length = n ∧
      ∀ i < n, nth y i = (-1) ^ i * nth a i / cw (n - 1) i) :
    wp Q (b.forwardSlice v out) (fun a' => a' = a) := by
  obtain ⟨y, rfl, hy, hyi⟩ := hv
  refine wp_mono (wp_forwardSlice b n hb hn (dct1 y) out (by simpa using hy) ho) ?_
  rintro a' ⟨ha', z, hz, hzi, hai⟩
  refine ext_nth (by omega) (fun i hi => ?_)
  rw [hai i (by omega)]
  have hN : ((n - 1 : ℕ) : ℝ) ≠ 0 := by
    have : 1 ≤ n - 1 := by omega
    positivity
  -- z = (2/N) * reverse of dct1 y = (2/N) * dct1 (alternating y)
  set y' := (List.range n).map (fun i => (2 / (n - 1 : ℕ)) * ((-1) ^ i * nth y i)) with hy'
  have y'l : y'.length = n := by simp [hy']
  have y'i : ∀ i < n, nth y' i = (2 / (n - 1 : ℕ)) * ((-1) ^ i * nth y i) := fun i hi => by
    rw [hy', nth_map_range _ _ _ hi]
  clear_value y'
  have hzd : z = dct1 y' := by
    refine ext_nth (by simp; omega) (fun j hj => ?_)
    rw [hzi j (by omega), nth_dct1 y (n - 1) (by omega) (by omega) _ (by omega),
      nth_dct1 y' (n - 1) (by omega) (by omega) _ (by omega), Finset.sum_mul]
    refine Finset.sum_congr rfl (fun l hl => ?_)
    rw [mem_range] at hl
    rw [y'i l (by omega), Nat.cast_sub (show j ≤ n - 1 by omega),
      show Real.pi * l * (((n - 1 : ℕ) : ℝ) - j) / ((n - 1 : ℕ) : ℝ)
        = l * Real.pi - Real.pi * l * j / ((n - 1 : ℕ) : ℝ) by field_simp,
      Real.cos_sub, Real.cos_nat_mul_pi, Real.sin_nat_mul_pi]
    ring
  rw [hzd, dct1_dct1 y' (n - 1) (by omega) (by omega) i (by omega), y'i i (by omega),
    hyi i (by omega)]
  have := cw_ne (n - 1) i
  have e : ((-1 : ℝ) ^ i) * (-1) ^ i = 1 := by rw [← mul_pow]; simp
  field_simp
  linear_combination (nth a i) * e

theorem wp_backward_forward (b : Cheb) (n : ℕ) (hb : b = ⟨n, n⟩) (hn : 2 ≤ n) (v a out : List ℝ)
    (hv : v.length = n) (ha : a.length = n) (ho : out.length = n)
    (hy : ∃ y : List ℝ, y.length = n ∧
      (∀ i < n, nth y i = nth v (n - 1 - i) * (2 / (n - 1 : ℕ))) ∧
      ∀ i < n, nth a i = nth (dct1 y) i * cw (n - 1) i) :
    wp Q (b.backwardSlice a out) (fun v' => v' = v) := by
  obtain ⟨y, hyl, hyi, hai⟩ := hy
  refine wp_mono (wp_backwardSlice b n hb hn a out ha ho) ?_
  rintro v' ⟨z, rfl, hz, hzi⟩
  refine ext_nth (by simp; omega) (fun i hi => ?_)
  simp only [dct1_length] at hi
  have hN : ((n - 1 : ℕ) : ℝ) ≠ 0 := by
    have : 1 ≤ n - 1 := by omega
    positivity
  rw [dct1_rev (dct1 y) z (n - 1) (by omega) (by simp; omega) (by omega) (fun j hj => ?_) i
    (by omega), dct1_dct1 y (n - 1) (by omega) (by omega) _ (by omega), hyi _ (by omega),
    show n - 1 - (n - 1 - i) = i by omega]
  · field_simp
  · rw [hzi j (by omega), hai j (by omega)]
    have := cw_ne (n - 1) j
    field_simp

end Verif
