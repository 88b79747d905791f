/-
Property C107: moving a function to a finer base, and products of functions without aliasing
(the "3/2 rule").
-/
import Verif.Proof.Product
import Verif.Props.Accuracy

namespace Verif.Props
open Res Spec Finset Polynomial

/-! ### Chebyshev -/

/-- C107: the coefficients of `chebyshev(n)`, with zeros appended, are the coefficients of the same function
in `chebyshev(m)`: `backward` evaluates the same polynomial on the finer grid, and `gradient` commutes with
the change of size. -/
theorem C107_refine_cheb (n m : ℕ) (hnm : n ≤ m) (b B : Cheb) (hb : Cheb.new n = ok b) (hB : Cheb.new m = ok B)
    (c : List ℝ) (hc : c.length = b.lenSpec) (out out' o2 : List ℝ) (ho : out.length = B.lenPhys)
    (ho' : out'.length = b.lenOrth) (ho2 : o2.length = B.lenOrth) (d : ℕ) (hd : 3 ≤ n) :
    (∃ x v, B.coords = ok x ∧ B.backwardSlice (resize m c) out = ok v ∧ v.length = x.length ∧
      ∀ j < x.length, nth v j = (chebPoly ℝ c).eval (nth x j)) ∧
    ∃ g, b.gradientSlice ℝ c out' d = ok g ∧ B.gradientSlice ℝ (resize m c) o2 d = ok (resize m g) := by
  have el : b.lenSpec = n ∧ b.lenOrth = n := by obtain ⟨rfl, -⟩ := cheb_of_new hb; exact ⟨rfl, rfl⟩
  have eL : B.lenSpec = m ∧ B.lenOrth = m := by obtain ⟨rfl, -⟩ := cheb_of_new hB; exact ⟨rfl, rfl⟩
  have hr : chebPoly ℝ (resize m c) = chebPoly ℝ c := chebPoly_resize c (by rw [hc, el.1]; exact hnm)
  refine ⟨?_, ?_⟩
  · obtain ⟨x, v, h1, h2, h3, h4⟩ := C02_backward_evaluates m B hB (resize m c) out
      (by rw [resize_length, eL.1]) ho
    exact ⟨x, v, h1, h2, h3, fun j hj => by rw [h4 j hj, hr]⟩
  · obtain ⟨g, hg, hl, hp⟩ := C04_gradient_polynomial n hd b hb c out' hc ho' d
    obtain ⟨g', hg', hl', hp'⟩ := C04_gradient_polynomial m (by omega) B hB (resize m c) o2
      (by rw [resize_length, eL.1]) ho2 d
    refine ⟨g, hg, ?_⟩
    rw [hg']
    congr 1
    refine chebPoly_ext (by rw [resize_length, hl', eL.2]) ?_
    rw [chebPoly_resize g (by rw [hl, el.2]; exact hnm), hp, hp', hr]

private theorem cheb_product {n m : ℕ} (hn : 2 ≤ n) {B : Cheb} (hB : Cheb.new m = ok B)
    (c d : List ℝ) (hc : c.length = n) (hd : d.length = n) (hnm : n ≤ m)
    (out out' : List ℝ) (ho : out.length = B.lenPhys) (ho' : out'.length = B.lenSpec) :
    ∃ q u v, q.length = 2 * n - 1 ∧ chebPoly ℝ q = chebPoly ℝ c * chebPoly ℝ d ∧
      B.backwardSlice (resize m c) out = ok u ∧ B.backwardSlice (resize m d) out = ok v ∧
      B.forwardSlice (pointwise u v) out' = ok ((List.range m).map fun j =>
        ∑ k ∈ range (2 * n - 1), if chebAlias m k = j then nth q k else 0) := by
  have eL : B.lenSpec = m := by obtain ⟨rfl, -⟩ := cheb_of_new hB; rfl
  obtain ⟨q, hq, hqp⟩ := cheb_coeffs (n := 2 * n - 1) (by omega) (chebPoly ℝ c * chebPoly ℝ d) (by
    have h1 := chebPoly_degree c
    have h2 := chebPoly_degree d
    rw [hc] at h1; rw [hd] at h2
    by_cases z : chebPoly ℝ c * chebPoly ℝ d = 0
    · rw [z, degree_zero]; exact WithBot.bot_lt_coe _
    · have z1 := left_ne_zero_of_mul z
      have z2 := right_ne_zero_of_mul z
      rw [degree_eq_natDegree z1] at h1
      rw [degree_eq_natDegree z2] at h2
      rw [degree_eq_natDegree z, natDegree_mul z1 z2]
      have h1 : (chebPoly ℝ c).natDegree < n := by exact_mod_cast h1
      have h2 : (chebPoly ℝ d).natDegree < n := by exact_mod_cast h2
      exact_mod_cast (by omega : (chebPoly ℝ c).natDegree + (chebPoly ℝ d).natDegree < 2 * n - 1))
  obtain ⟨x, u, hx, hu, hul, huj⟩ := C02_backward_evaluates m B hB (resize m c) out
    (by rw [resize_length, eL]) ho
  obtain ⟨x', v, hx', hv, hvl, hvj⟩ := C02_backward_evaluates m B hB (resize m d) out
    (by rw [resize_length, eL]) ho
  obtain rfl : x = x' := Res.ok.inj (hx.symm.trans hx')
  refine ⟨q, u, v, hq, hqp, hu, hv, ?_⟩
  rw [pointwise_eq_map (f := (chebPoly ℝ c).eval) (g := (chebPoly ℝ d).eval) hul hvl
    (fun j hj => by rw [huj j hj, chebPoly_resize c (by omega)])
    (fun j hj => by rw [hvj j hj, chebPoly_resize d (by omega)])]
  rw [show (fun t => (chebPoly ℝ c).eval t * (chebPoly ℝ d).eval t) = (chebPoly ℝ q).eval by
    funext t; rw [hqp, eval_mul], cheb_forward_alias hB hx q out' ho', hq]

/-- C107, the 3/2 rule for Chebyshev series: multiply two functions of `chebyshev(n)` on a grid of `m`
points with `m - 1 > 3 (n - 1) / 2`: the first `n` coefficients of the result are exactly those of the
product. -/
theorem C107_product_cheb (n m : ℕ) (h : 3 * (n - 1) < 2 * (m - 1)) (b B : Cheb) (hb : Cheb.new n = ok b)
    (hB : Cheb.new m = ok B) (c d : List ℝ) (hc : c.length = b.lenSpec) (hd : d.length = b.lenSpec)
    (out out' : List ℝ) (ho : out.length = B.lenPhys) (ho' : out'.length = B.lenSpec) :
    ∃ q u v p, chebPoly ℝ q = chebPoly ℝ c * chebPoly ℝ d ∧
      B.backwardSlice (resize m c) out = ok u ∧ B.backwardSlice (resize m d) out = ok v ∧
      B.forwardSlice (pointwise u v) out' = ok p ∧ p.length = m ∧ ∀ j < n, nth p j = nth q j := by
  obtain ⟨rfl, hn⟩ := cheb_of_new hb
  obtain ⟨q, u, v, hq, hqp, hu, hv, hp⟩ := cheb_product hn hB c d hc hd (by omega) out out' ho ho'
  refine ⟨q, u, v, _, hqp, hu, hv, hp, by simp, fun j hj => ?_⟩
  rw [nth_map_range _ _ _ (by omega), Finset.sum_eq_single_of_mem j (Finset.mem_range.mpr (by omega))]
  · rw [if_pos ((chebAlias_clean (by omega) h (by omega) hj).mpr rfl)]
  · intro k hk hkj
    rw [if_neg fun e => hkj ((chebAlias_clean (by omega) h
      (by have := Finset.mem_range.mp hk; omega) hj).mp e)]

/-- C107: with at least `2 n - 1` points the whole product is exact. -/
theorem C107_product_cheb_exact (n m : ℕ) (h : 2 * n - 1 ≤ m) (b B : Cheb) (hb : Cheb.new n = ok b)
    (hB : Cheb.new m = ok B) (c d : List ℝ) (hc : c.length = b.lenSpec) (hd : d.length = b.lenSpec)
    (out out' : List ℝ) (ho : out.length = B.lenPhys) (ho' : out'.length = B.lenSpec) :
    ∃ u v p, B.backwardSlice (resize m c) out = ok u ∧ B.backwardSlice (resize m d) out = ok v ∧
      B.forwardSlice (pointwise u v) out' = ok p ∧ chebPoly ℝ p = chebPoly ℝ c * chebPoly ℝ d := by
  obtain ⟨rfl, hn⟩ := cheb_of_new hb
  obtain ⟨-, hm⟩ := cheb_of_new hB
  obtain ⟨q, u, v, hq, hqp, hu, hv, hp⟩ := cheb_product hn hB c d hc hd (by omega) out out' ho ho'
  refine ⟨u, v, _, hu, hv, hp, ?_⟩
  rw [← hqp, ← chebPoly_resize (m := m) q (by omega)]
  congr 1
  unfold resize
  refine List.map_congr_left fun j hj => ?_
  have hj := List.mem_range.mp hj
  have e : ∀ k ∈ range (2 * n - 1), (if chebAlias m k = j then nth q k else 0) = if k = j then nth q k else 0 := by
    intro k hk
    rw [chebAlias_of_lt hm (by have := Finset.mem_range.mp hk; omega)]
  rw [Finset.sum_congr rfl e, Finset.sum_ite_eq' (range (2 * n - 1)) j (nth q)]
  split
  · rfl
  · next hn' => rw [nth_of_le q _ (by rw [hq]; simpa using hn')]

/-- C107: the bound of the 3/2 rule cannot be weakened: with `m - 1 ≤ 3 (n - 1) / 2` there are functions
whose product comes out wrong in the first `n` coefficients. -/
theorem C107_product_cheb_sharp (n m : ℕ) (hnm : n ≤ m) (h : 2 * (m - 1) ≤ 3 * (n - 1)) (b B : Cheb)
    (hb : Cheb.new n = ok b) (hB : Cheb.new m = ok B)
    (out out' : List ℝ) (ho : out.length = B.lenPhys) (ho' : out'.length = B.lenSpec) :
    ∃ (c : List ℝ) (u p : List ℝ), c.length = b.lenSpec ∧ B.backwardSlice (resize m c) out = ok u ∧
      B.forwardSlice (pointwise u u) out' = ok p ∧
      ∀ q, chebPoly ℝ q = chebPoly ℝ c * chebPoly ℝ c → ∃ j < n, nth p j ≠ nth q j := by
  obtain ⟨rfl, hn⟩ := cheb_of_new hb
  obtain ⟨-, hm⟩ := cheb_of_new hB
  set c : List ℝ := (List.range n).map fun j => if j = n - 1 then 1 else 0 with hcd
  have hc : c.length = n := by simp [hcd]
  have hcT : chebPoly ℝ c = Chebyshev.T ℝ ((n - 1 : ℕ) : ℤ) := by
    unfold chebPoly
    rw [hc, Finset.sum_eq_single_of_mem (n - 1) (Finset.mem_range.mpr (by omega))]
    · rw [hcd, nth_map_range _ _ _ (by omega), if_pos rfl]; simp
    · intro i hi hne
      rw [hcd, nth_map_range _ _ _ (Finset.mem_range.mp hi), if_neg hne]; simp
  obtain ⟨q, u, v, hq, hqp, hu, hv, hp⟩ := cheb_product hn hB c c hc hc hnm out out' ho ho'
  obtain rfl : u = v := Res.ok.inj (hu.symm.trans hv)
  refine ⟨c, u, _, hc, hu, hp, fun q' hq' => ?_⟩
  -- the coefficients of the square
  have hqj : ∀ j, nth q j = if j = 0 ∨ j = 2 * n - 2 then 1 / 2 else 0 := by
    set r : List ℝ := (List.range (2 * n - 1)).map fun j => if j = 0 ∨ j = 2 * n - 2 then (1 / 2 : ℝ) else 0 with hr
    have hrp : chebPoly ℝ r = chebPoly ℝ q := by
      rw [hqp, hcT]
      have hT := Chebyshev.T_mul_T ℝ ((n - 1 : ℕ) : ℤ) ((n - 1 : ℕ) : ℤ)
      rw [sub_self, Chebyshev.T_zero, mul_assoc] at hT
      have h2 : (2 : ℝ[X]) ≠ 0 := two_ne_zero
      refine mul_left_cancel₀ h2 ?_
      rw [hT]
      unfold chebPoly
      rw [show r.length = (2 * n - 3) + 1 + 1 by simp [hr]; omega, Finset.sum_range_succ, Finset.sum_range_succ']
      rw [Finset.sum_eq_zero, zero_add]
      · rw [hr, nth_map_range _ _ _ (by omega), nth_map_range _ _ _ (by omega), if_pos (Or.inl rfl),
          if_pos (Or.inr (by omega)), show ((2 * n - 3 + 1 : ℕ) : ℤ) = ((n - 1 : ℕ) : ℤ) + ((n - 1 : ℕ) : ℤ) by omega]
        simp only [Nat.cast_zero, Chebyshev.T_zero, mul_one]
        rw [mul_add, ← mul_assoc, show (2 : ℝ[X]) * C (1 / 2) = 1 by
          rw [show (2 : ℝ[X]) = C 2 from rfl, ← C_mul]; norm_num]
        ring
      · intro i hi
        have hi := Finset.mem_range.mp hi
        rw [hr, nth_map_range _ _ _ (by omega), if_neg (by omega)]; simp
    intro j
    rw [← chebPoly_nth hrp j]
    by_cases hj : j < 2 * n - 1
    · rw [hr, nth_map_range _ _ _ hj]
    · rw [nth_of_le r _ (by simp [hr]; omega), if_neg (by omega)]
  have hal : chebAlias m (2 * n - 2) < n := by
    unfold chebAlias
    rcases Nat.lt_or_ge (2 * n - 2) (2 * (m - 1)) with h1 | h1
    · rw [Nat.mod_eq_of_lt h1]; omega
    · rw [show 2 * n - 2 = 2 * (m - 1) by omega, Nat.mod_self]; omega
  refine ⟨chebAlias m (2 * n - 2), hal, ?_⟩
  rw [chebPoly_nth (hq'.trans hqp.symm), nth_map_range _ _ _ (by omega)]
  set a := chebAlias m (2 * n - 2) with ha
  have h0 : chebAlias m 0 = 0 := chebAlias_of_lt hm (by omega)
  have hsum : ∑ k ∈ range (2 * n - 1), (if chebAlias m k = a then nth q k else 0)
      = (if a = 0 then 1 / 2 else 0) + 1 / 2 := by
    rw [show 2 * n - 1 = (2 * n - 3) + 1 + 1 by omega, Finset.sum_range_succ, Finset.sum_range_succ']
    rw [Finset.sum_eq_zero, zero_add]
    · rw [show 2 * n - 3 + 1 = 2 * n - 2 by omega, ← ha, if_pos rfl, hqj, hqj, if_pos (Or.inl rfl),
        if_pos (Or.inr rfl), h0]
      simp only [eq_comm]
    · intro i hi
      have hi := Finset.mem_range.mp hi
      rw [hqj, if_neg (show ¬(i + 1 = 0 ∨ i + 1 = 2 * n - 2) by omega), ite_self]
  rw [hsum, hqj]
  by_cases a0 : a = 0
  · rw [if_pos a0, if_pos (Or.inl a0)]; norm_num
  · rw [if_neg a0, if_neg (by omega)]; norm_num

/-! ### Fourier, complex -/

/-- C107: the coefficients of `fourier_c2c(n)`, moved to the same frequencies of `fourier_c2c(m)`, represent the
same function. -/
theorem C107_refine_c2c (n m : ℕ) (hn : 1 ≤ n) (hnm : n ≤ m) (B : C2c) (hB : C2c.new m = ok B)
    (c : List ℂ) (out : List ℂ) (ho : out.length = B.lenPhys) :
    ∃ x v, B.coords = ok x ∧ B.backwardSlice (refineC n m c) out = ok v ∧ v.length = x.length ∧
      ∀ j < x.length, nth v j = trigC n c (nth x j) := by
  obtain ⟨x, v, h1, h2, h3, h4⟩ := C25_backward_evaluates m (by omega) B hB (refineC n m c) out
    (by rw [c2c_of_new hB]; simp [refineC, C2c.lenSpec]) ho
  exact ⟨x, v, h1, h2, h3, fun j hj => by rw [h4 j hj, trigC_refine hn hnm]⟩

/-- C107, the 3/2 rule for complex Fourier series: multiply two functions of `fourier_c2c(n)` on a grid of
`m ≥ (3 n - 1) / 2` points: for all frequencies `K` of `fourier_c2c(n)` the result has exactly the
coefficient of the product, whose coefficients `q` refer to `N = 2 n` (`2 n - 1` if `n` is odd)
frequencies. -/
theorem C107_product_c2c (n m : ℕ) (hn : 1 ≤ n) (h : 3 * n ≤ 2 * m + 1) (B : C2c) (hB : C2c.new m = ok B)
    (c d : List ℂ) (out out' : List ℂ) (ho : out.length = B.lenPhys) (ho' : out'.length = B.lenSpec) :
    ∃ q u v p, (∀ x, trigC (2 * n - n % 2) q x = trigC n c x * trigC n d x) ∧
      B.backwardSlice (refineC n m c) out = ok u ∧ B.backwardSlice (refineC n m d) out = ok v ∧
      B.forwardSlice (pointwise u v) out' = ok p ∧ p.length = m ∧
      ∀ K : ℤ, -n ≤ 2 * K → 2 * K < n →
        nth p (fourierAlias m K) / m = nth q (fourierAlias (2 * n - n % 2) K) / ((2 * n - n % 2 : ℕ) : ℂ) := by
  have hm' : (m : ℂ) ≠ 0 := by exact_mod_cast (by omega : m ≠ 0)
  set N := 2 * n - n % 2 with hN
  have hfr : ∀ i < n, -(n : ℤ) + (n % 2 : ℕ) ≤ 2 * freq n i ∧ 2 * freq n i < n := by
    intro i hi
    unfold freq
    split <;> constructor <;> omega
  obtain ⟨q, hq, hqp⟩ := trigC_mul (n := n) (N := N) (by omega) (fun i hi j hj => by
    have h1 := hfr i hi
    have h2 := hfr j hj
    constructor <;> omega) c d
  obtain ⟨x, u, hx, hu, hul, huj⟩ := C107_refine_c2c n m hn (by omega) B hB c out ho
  obtain ⟨x', v, hx', hv, hvl, hvj⟩ := C107_refine_c2c n m hn (by omega) B hB d out ho
  obtain rfl : x = x' := Res.ok.inj (hx.symm.trans hx')
  have hp := c2c_forward_alias (N := N) (by omega) hB hx q out' ho'
  rw [show trigC N q = fun t => trigC n c t * trigC n d t from funext hqp, ← pointwise_eq_map hul hvl huj hvj] at hp
  refine ⟨q, u, v, _, hqp, hu, hv, hp, by simp, fun K k1 k2 => ?_⟩
  rw [nth_map_range _ _ _ (fourierAlias_lt (by omega) _)]
  have hK1 : fourierAlias N K < N := fourierAlias_lt (by omega) _
  have hK2 : freq N (fourierAlias N K) = K := freq_fourierAlias_of (by omega) (by omega)
  rw [Finset.sum_eq_single_of_mem (fourierAlias N K) (Finset.mem_range.mpr hK1)]
  · rw [hK2, if_pos rfl]
    field_simp
  · intro k hk hne
    have hk := Finset.mem_range.mp hk
    have hb := freq_band hk
    rw [if_neg]
    intro e
    have := (fourierAlias_iff (by omega) (by rw [abs_lt]; constructor <;> omega)).mp e
    exact hne (by rw [← this, fourierAlias_freq hk])

/-- C107: the bound of the 3/2 rule cannot be weakened: on fewer points the square of a single exponential
appears at a wrong frequency of `fourier_c2c(n)`. -/
theorem C107_product_c2c_sharp (n m : ℕ) (hn : 1 ≤ n) (hnm : n ≤ m) (h : 2 * m + 1 < 3 * n) (B : C2c)
    (hB : C2c.new m = ok B) (out out' : List ℂ) (ho : out.length = B.lenPhys) (ho' : out'.length = B.lenSpec) :
    ∃ (c u p : List ℂ) (L K : ℤ), c.length = n ∧ (∀ x, trigC n c x * trigC n c x = Complex.exp (Complex.I * L * x)) ∧
      B.backwardSlice (refineC n m c) out = ok u ∧ B.forwardSlice (pointwise u u) out' = ok p ∧
      -n ≤ 2 * K ∧ 2 * K < n ∧ K ≠ L ∧ nth p (fourierAlias m K) ≠ 0 := by
  have hn' : (n : ℂ) ≠ 0 := by exact_mod_cast (by omega : n ≠ 0)
  have hm' : (m : ℂ) ≠ 0 := by exact_mod_cast (by omega : m ≠ 0)
  set F : ℤ := -((n / 2 : ℕ) : ℤ) with hF
  set c : List ℂ := (List.range n).map fun j => if j = fourierAlias n F then (n : ℂ) else 0 with hc
  have hcx : ∀ x, trigC n c x = Complex.exp (Complex.I * F * x) := by
    intro x
    unfold trigC
    have hlt : fourierAlias n F < n := fourierAlias_lt hn _
    rw [Finset.sum_eq_single_of_mem (fourierAlias n F) (Finset.mem_range.mpr hlt)]
    · rw [hc, nth_map_range _ _ _ hlt, if_pos rfl, freq_fourierAlias_of (by omega) (by omega)]
      field_simp
    · intro j hj hne
      rw [hc, nth_map_range _ _ _ (Finset.mem_range.mp hj), if_neg hne, zero_mul]
  obtain ⟨x, u, hx, hu, hul, huj⟩ := C107_refine_c2c n m hn hnm B hB c out ho
  have hsq : ∀ x : ℝ, trigC n c x * trigC n c x = Complex.exp (Complex.I * ((2 * F : ℤ) : ℂ) * x) := by
    intro x
    rw [hcx, ← Complex.exp_add]
    congr 1; push_cast; ring
  obtain ⟨x', hx', hp⟩ := C79_fourier_c2c m (by omega) B hB (2 * F) out' ho'
  obtain rfl : x = x' := Res.ok.inj (hx.symm.trans hx')
  rw [← show (fun t : ℝ => trigC n c t * trigC n c t) = fun t : ℝ => Complex.exp (Complex.I * ((2 * F : ℤ) : ℂ) * t) from
    funext hsq, ← pointwise_eq_map hul hul huj huj] at hp
  refine ⟨c, u, _, 2 * F, 2 * F + m, by simp [hc], hsq, hu, hp, by omega, by omega, by omega, ?_⟩
  have e : fourierAlias m (2 * F + m) = fourierAlias m (2 * F) := by
    unfold fourierAlias; rw [Int.add_emod_right]
  rw [nth_map_range _ _ _ (fourierAlias_lt (by omega) _), if_pos e]
  exact hm'

/-! ### Fourier, real -/

/-- C107: the coefficients of `fourier_r2c(n)` represent the same function in `fourier_r2c(m)`, where the
coefficient of frequency `n / 2` of an even `n` is halved. -/
theorem C107_refine_r2c (n m : ℕ) (hn : 1 ≤ n) (hnm : n ≤ m) (B : R2c) (hB : R2c.new m = ok B)
    (c : List ℂ) (hc : c.length = n / 2 + 1) (out : List ℝ) (ho : out.length = B.lenPhys) :
    ∃ x v, B.coords = ok x ∧ B.backwardSlice (refineR n m c) out = ok v ∧ v.length = x.length ∧
      ∀ j < x.length, nth v j = trigR n c (nth x j) := by
  obtain ⟨x, v, h1, h2, h3, h4⟩ := C28_backward_evaluates m (by omega) B hB (refineR n m c) out
    (by rw [r2c_of_new hB]; simp [refineR, R2c.lenSpec]) ho
  exact ⟨x, v, h1, h2, h3, fun j hj => by rw [h4 j hj, trigR_refine hn hnm c hc]⟩

/-- C107, the 3/2 rule for real Fourier series: multiply two functions of `fourier_r2c(n)` on a grid of
`m > 3 ⌊n/2⌋` points: the frequencies `0, …, n/2` of the result are exactly those of the product, whose
coefficients `q` refer to `4 ⌊n/2⌋ + 1` points. -/
theorem C107_product_r2c (n m : ℕ) (hn : 1 ≤ n) (h : 3 * (n / 2) < m) (b B : R2c) (hb : R2c.new n = ok b)
    (hB : R2c.new m = ok B) (c d : List ℂ) (hc : c.length = b.lenSpec) (hd : d.length = b.lenSpec)
    (out : List ℝ) (out' : List ℂ) (ho : out.length = B.lenPhys) (ho' : out'.length = B.lenSpec) :
    ∃ q u v p, (∀ x, trigR (4 * (n / 2) + 1) q x = trigR n c x * trigR n d x) ∧
      B.backwardSlice (refineR n m c) out = ok u ∧ B.backwardSlice (refineR n m d) out = ok v ∧
      B.forwardSlice (pointwise u v) out' = ok p ∧ p.length = m / 2 + 1 ∧
      ∀ j ≤ n / 2, nth p j / m = nth q j / ((4 * (n / 2) + 1 : ℕ) : ℂ) := by
  obtain rfl := r2c_of_new hb
  change c.length = n / 2 + 1 at hc
  change d.length = n / 2 + 1 at hd
  have hm' : (m : ℂ) ≠ 0 := by exact_mod_cast (by omega : m ≠ 0)
  set k := n / 2 with hk
  set N := 4 * k + 1 with hN
  have hN' : (N : ℂ) ≠ 0 := by exact_mod_cast (by omega : N ≠ 0)
  -- the product as a complex series
  obtain ⟨C, hC⟩ := trigR_as_trigC hn c hc
  obtain ⟨D, hD⟩ := trigR_as_trigC hn d hd
  obtain ⟨Q, hQl, hQ⟩ := trigC_mul (n := 2 * k + 1) (N := N) (by omega) (fun i hi j hj => by
    have h1 := freq_band hi
    have h2 := freq_band hj
    constructor <;> omega) C D
  have hQf : ∀ x, trigC N Q x = ((trigR n c x * trigR n d x : ℝ) : ℂ) := fun x => by
    rw [hQ, hC, hD, Complex.ofReal_mul]
  -- it is Hermitian
  have hbN : R2c.new N = ok ⟨N, N / 2 + 1⟩ := rfl
  have hbN' : C2c.new N = ok ⟨N, N⟩ := rfl
  obtain ⟨x, hx, hxl, -⟩ := C23_c2c_coords N (by omega) _ hbN'
  obtain ⟨q, Q', -, hq2, hq3, h0, hs⟩ := C66_forward N (by omega) _ hbN _ hbN'
    (x.map fun t => trigR n c t * trigR n d t) (List.replicate (N / 2 + 1) 0) (List.replicate N 0)
    (by simp [hxl, R2c.lenPhys]) (by simp [R2c.lenSpec]) (by simp [C2c.lenSpec])
  have hfw := c2c_forward_of_grid (by omega) hbN' hx (trigC N Q) Q (List.replicate N 0)
    (by rw [hQl]; rfl) (by simp [C2c.lenSpec]) (fun _ _ => rfl)
  have hmap : ∀ y : List ℝ, (y.map fun t => trigR n c t * trigR n d t).map Complex.ofReal = y.map (trigC N Q) := by
    intro y
    rw [List.map_map]
    exact List.map_congr_left fun t _ => (hQf t).symm
  rw [hmap] at hq2
  obtain rfl : Q = Q' := Res.ok.inj (hfw.symm.trans hq2)
  have hNk : N = 2 * (2 * k) + 1 := by omega
  have htr : ∀ y, trigR N (Q.take (2 * k + 1)) y = trigR n c y * trigR n d y := by
    intro y
    have := trigC_herm (2 * k) Q h0 (fun j j1 j2 => by rw [← hNk]; exact hs j j1 (by omega)) y
    rw [← hNk, hQf] at this
    exact_mod_cast this.symm
  -- the grid of `m` points
  obtain ⟨y, u, hy, hu, hul, huj⟩ := C107_refine_r2c n m hn (by omega) B hB c hc out ho
  obtain ⟨y', v, hy', hv, hvl, hvj⟩ := C107_refine_r2c n m hn (by omega) B hB d hd out ho
  obtain rfl : y = y' := Res.ok.inj (hy.symm.trans hy')
  have hbm : C2c.new m = ok ⟨m, m⟩ := rfl
  obtain ⟨z, hz, hzl, -⟩ := C23_c2c_coords m (by omega) _ hbm
  obtain rfl : y = z := by
    obtain rfl := r2c_of_new hB
    exact Res.ok.inj (hy.symm.trans hz)
  obtain ⟨p, p', hp1, hp2, hp3, -, -⟩ := C66_forward m (by omega) B hB _ hbm
    (y.map fun t => trigR n c t * trigR n d t) out' (List.replicate m 0)
    (by rw [r2c_of_new hB]; simp [hzl, R2c.lenPhys]) ho' (by simp [C2c.lenSpec])
  rw [hmap, c2c_forward_alias (N := N) (by omega) hbm hz Q _ (by simp [C2c.lenSpec])] at hp2
  rw [← pointwise_eq_map hul hvl huj hvj] at hp1
  have hp2 := Res.ok.inj hp2
  refine ⟨Q.take (2 * k + 1), u, v, p, htr, hu, hv, hp1, ?_, fun j hj => ?_⟩
  · rw [hp3, ← hp2]; simp; omega
  rw [hp3, nth_take_lt p' (show j < m / 2 + 1 by omega), nth_take_lt Q (show j < 2 * k + 1 by omega), ← hp2, nth_map_range _ _ _ (by omega)]
  have hjm : fourierAlias m (j : ℤ) = j := by
    unfold fourierAlias; rw [Int.emod_eq_of_lt (by omega) (by omega)]; simp
  have hfj : freq N j = j := by unfold freq; rw [if_pos (by omega)]
  rw [Finset.sum_eq_single_of_mem j (Finset.mem_range.mpr (by omega))]
  · rw [hfj, hjm, if_pos rfl]
    field_simp
  · intro i hi hne
    have hi := Finset.mem_range.mp hi
    have hb := freq_band hi
    rw [if_neg]
    intro e
    have e := e.trans hjm.symm
    have := (fourierAlias_iff (m := m) (by omega) (K := freq N i) (L := (j : ℤ)) (by rw [abs_lt]; constructor <;> omega)).mp e
    rw [← hfj] at this
    exact hne (by rw [← fourierAlias_freq hi, this, fourierAlias_freq (by omega)])

/-- Non-vacuity: 22 points are enough for products of functions of `fourier_r2c(15)`, 17 for `chebyshev(11)`,
and the hypotheses of the sharpness theorems are met with 21 and 16. -/
example : 3 * (15 / 2) < 22 ∧ 3 * (11 - 1) < 2 * (17 - 1) ∧ 2 * (16 - 1) ≤ 3 * (11 - 1) ∧ 3 * 15 ≤ 2 * 22 + 1 ∧
    2 * 21 + 1 < 3 * 15 := by decide

example : ∃ (b B : Cheb) (b' B' : R2c), Cheb.new 11 = ok b ∧ Cheb.new 17 = ok B ∧ R2c.new 15 = ok b' ∧
    R2c.new 22 = ok B' := ⟨⟨11, 11⟩, ⟨17, 17⟩, ⟨15, 8⟩, ⟨22, 12⟩, rfl, rfl, rfl, rfl⟩

end Verif.Props
