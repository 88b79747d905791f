/-
Products of Chebyshev and Fourier series, and their aliases on a grid.
-/
import Verif.Spec.Product
import Verif.Proof.Alias
import Verif.Proof.FourSeries
import Verif.Proof.Poisson
import Verif.Props.FourierRel

namespace Verif
open Res Spec Finset Polynomial

/-! ### lists -/

theorem nth_resize {T : Type} [Zero T] {m : ℕ} (c : List T) {j : ℕ} (hj : j < m) : nth (resize m c) j = nth c j :=
  nth_map_range _ _ _ hj

@[simp] theorem resize_length {T : Type} [Zero T] (m : ℕ) (c : List T) : (resize m c).length = m := by
  simp [resize]

theorem chebPoly_resize {m : ℕ} (c : List ℝ) (h : c.length ≤ m) : chebPoly ℝ (resize m c) = chebPoly ℝ c := by
  unfold chebPoly
  rw [resize_length, ← Finset.sum_subset (Finset.range_mono h)]
  · exact Finset.sum_congr rfl fun i hi => by
      rw [nth_resize c (by have := Finset.mem_range.mp hi; omega)]
  · intro i hi hn
    rw [nth_resize c (Finset.mem_range.mp hi), nth_of_le _ _ (by simpa using hn)]
    simp

theorem pointwise_length {T : Type} [Mul T] (u v : List T) (h : u.length = v.length) :
    (pointwise u v).length = u.length := by simp [pointwise, h]

theorem nth_pointwise {T : Type} [MulZeroClass T] (u v : List T) (h : u.length = v.length) (j : ℕ) :
    nth (pointwise u v) j = nth u j * nth v j := by
  by_cases hj : j < u.length
  · rw [nth_eq_getElem _ _ (by rw [pointwise_length _ _ h]; exact hj), nth_eq_getElem _ _ hj,
      nth_eq_getElem _ _ (h ▸ hj)]
    simp [pointwise]
  · rw [nth_of_le _ _ (by rw [pointwise_length _ _ h]; omega), nth_of_le u _ (by omega), zero_mul]

/-- values of two functions on a grid, multiplied -/
theorem pointwise_eq_map {A T : Type} [Zero A] [MulZeroClass T] {x : List A} {u v : List T} {f g : A → T}
    (hu : u.length = x.length) (hv : v.length = x.length) (hf : ∀ j < x.length, nth u j = f (nth x j))
    (hg : ∀ j < x.length, nth v j = g (nth x j)) : pointwise u v = x.map fun t => f t * g t := by
  refine ext_nth (by rw [pointwise_length _ _ (hu.trans hv.symm), List.length_map, hu]) fun j hj => ?_
  rw [pointwise_length _ _ (hu.trans hv.symm), hu] at hj
  rw [nth_pointwise _ _ (hu.trans hv.symm), hf j hj, hg j hj, nth_map _ _ _ hj]

/-! ### Chebyshev -/

/-- `forward` on `m` points of the samples of a polynomial of any degree: every coefficient goes to the
alias of its degree -/
theorem cheb_forward_alias {m : ℕ} {B : Cheb} (hB : Cheb.new m = ok B) {x : List ℝ} (hx : B.coords = ok x)
    (q out : List ℝ) (ho : out.length = B.lenSpec) :
    B.forwardSlice (x.map (chebPoly ℝ q).eval) out
      = ok ((List.range m).map fun j => ∑ k ∈ range q.length, if chebAlias m k = j then nth q k else 0) := by
  obtain ⟨x', hx', hxl, hxj, -⟩ := Props.C01_coords m B hB
  obtain rfl : x = x' := Res.ok.inj (hx.symm.trans hx')
  obtain ⟨e, hm⟩ := Props.cheb_of_new hB
  refine cheb_forward_of_grid hB hx _ _ out ?_ ho (fun i hi => ?_)
  · rw [e]; simp [Cheb.lenSpec]
  · rw [hxj i hi]
    unfold chebPoly
    rw [eval_finset_sum, eval_finset_sum, List.length_map, List.length_range]
    have h1 : ∀ k ∈ range q.length, (C (nth q k) * Chebyshev.T ℝ k).eval (-Real.cos (Real.pi * i / (m - 1 : ℕ)))
        = ∑ j ∈ range m, (if chebAlias m k = j then nth q k else 0)
          * (Chebyshev.T ℝ j).eval (-Real.cos (Real.pi * i / (m - 1 : ℕ))) := by
      intro k _
      rw [eval_mul, eval_C, ← T_chebAlias hm,
        Finset.sum_eq_single_of_mem (chebAlias m k) (Finset.mem_range.mpr (chebAlias_lt hm k))]
      · rw [if_pos rfl]
      · intro j _ hj
        rw [if_neg (Ne.symm hj), zero_mul]
    rw [Finset.sum_congr rfl h1, Finset.sum_comm]
    refine Finset.sum_congr rfl fun j hj => ?_
    rw [nth_map_range _ _ _ (Finset.mem_range.mp hj), eval_mul, eval_C, Finset.sum_mul]

/-- degrees up to `2 (n - 1)` on more than `3 (n - 1) / 2` intervals do not disturb the degrees below `n` -/
theorem chebAlias_clean {n m k j : ℕ} (hn : 1 ≤ n) (h : 3 * (n - 1) < 2 * (m - 1)) (hk : k ≤ 2 * (n - 1)) (hj : j < n) :
    chebAlias m k = j ↔ k = j := by
  unfold chebAlias
  rw [Nat.mod_eq_of_lt (show k < 2 * (m - 1) by omega)]
  omega

/-! ### Fourier -/

theorem fourierAlias_iff {m : ℕ} (hm : 1 ≤ m) {K L : ℤ} (h : |K - L| < m) :
    fourierAlias m K = fourierAlias m L ↔ K = L := by
  constructor
  · intro e
    unfold fourierAlias at e
    have h1 := Int.emod_nonneg K (show (m : ℤ) ≠ 0 by omega)
    have h2 := Int.emod_nonneg L (show (m : ℤ) ≠ 0 by omega)
    have e' : K % m = L % m := by omega
    have : (m : ℤ) ∣ K - L := Int.ModEq.dvd (show L % m = K % m from e'.symm)
    have := Int.eq_zero_of_abs_lt_dvd this h
    omega
  · intro e; rw [e]

theorem freq_band {n j : ℕ} (hj : j < n) : -(n : ℤ) ≤ 2 * freq n j ∧ 2 * freq n j < n := by
  unfold freq
  split <;> constructor <;> omega

theorem fourierAlias_freq {n j : ℕ} (hj : j < n) : fourierAlias n (freq n j) = j := by
  have hb := freq_band hj
  have h1 : (fourierAlias n (freq n j) : ℕ) < n := fourierAlias_lt (by omega) _
  have h2 := freq_fourierAlias_of hb.1 hb.2
  have : ∀ i < n, ∀ j < n, freq n i = freq n j → i = j := by
    intro i hi j hj e
    unfold freq at e
    split at e <;> split at e <;> omega
  exact this _ h1 _ hj h2

/-- sums over positions are sums over frequencies -/
theorem trigC_refine {n m : ℕ} (hn : 1 ≤ n) (hm : n ≤ m) (c : List ℂ) (x : ℝ) :
    trigC m (refineC n m c) x = trigC n c x := by
  have hn' : (n : ℂ) ≠ 0 := by exact_mod_cast (by omega : n ≠ 0)
  have hm' : (m : ℂ) ≠ 0 := by exact_mod_cast (by omega : m ≠ 0)
  unfold trigC
  have inj : Set.InjOn (fun j => fourierAlias m (freq n j)) (range n : Finset ℕ) := by
    intro i hi j hj e
    have hi := freq_band (Finset.mem_range.mp (Finset.mem_coe.mp hi))
    have hj' := freq_band (Finset.mem_range.mp (Finset.mem_coe.mp hj))
    have := (fourierAlias_iff (m := m) (by omega) (K := freq n i) (L := freq n j)
      (by rw [abs_lt]; constructor <;> omega)).mp e
    have h1 := fourierAlias_freq (Finset.mem_range.mp (Finset.mem_coe.mp ‹i ∈ _›))
    rw [this, fourierAlias_freq (Finset.mem_range.mp (Finset.mem_coe.mp hj))] at h1
    exact h1.symm
  have key : ∑ j ∈ range m, nth (refineC n m c) j * Complex.exp (Complex.I * freq m j * x)
      = ∑ j ∈ range n, (m / n : ℂ) * nth c j * Complex.exp (Complex.I * freq n j * x) := by
    rw [← Finset.sum_subset (s₁ := (range n).image fun j => fourierAlias m (freq n j))]
    · rw [Finset.sum_image inj]
      refine Finset.sum_congr rfl fun j hj => ?_
      have hb := freq_band (Finset.mem_range.mp hj)
      have hlt : fourierAlias m (freq n j) < m := fourierAlias_lt (by omega) _
      have hf : freq m (fourierAlias m (freq n j)) = freq n j := freq_fourierAlias_of (by omega) (by omega)
      unfold refineC
      rw [nth_map_range _ _ _ hlt, hf, if_pos hb, fourierAlias_freq (Finset.mem_range.mp hj)]
    · intro i hi
      obtain ⟨j, -, rfl⟩ := Finset.mem_image.mp hi
      exact Finset.mem_range.mpr (fourierAlias_lt (by omega) _)
    · intro i hi hni
      have hi := Finset.mem_range.mp hi
      unfold refineC
      rw [nth_map_range _ _ _ hi, if_neg, zero_mul]
      intro hb
      refine hni (Finset.mem_image.mpr ⟨fourierAlias n (freq m i),
        Finset.mem_range.mpr (fourierAlias_lt hn _), ?_⟩)
      rw [freq_fourierAlias_of hb.1 hb.2, fourierAlias_freq hi]
  rw [key, Finset.mul_sum, Finset.mul_sum]
  refine Finset.sum_congr rfl fun j _ => ?_
  field_simp

/-- `forward` on `m` points of a trigonometric polynomial with any frequencies -/
theorem c2c_forward_alias {N m : ℕ} (hm : 1 ≤ m) {B : C2c} (hB : C2c.new m = ok B) {x : List ℝ}
    (hx : B.coords = ok x) (q out : List ℂ) (ho : out.length = B.lenSpec) :
    B.forwardSlice (x.map (trigC N q)) out
      = ok ((List.range m).map fun j =>
        (m / N : ℂ) * ∑ k ∈ range N, if fourierAlias m (freq N k) = j then nth q k else 0) := by
  have hm' : (m : ℂ) ≠ 0 := by exact_mod_cast (by omega : m ≠ 0)
  obtain ⟨x', hx', hxl, hxj⟩ := Props.C23_c2c_coords m hm B hB
  obtain rfl : x = x' := Res.ok.inj (hx.symm.trans hx')
  refine c2c_forward_of_grid hm hB hx _ _ out ?_ ho (fun i hi => ?_)
  · rw [Props.c2c_of_new hB]; simp [C2c.lenSpec]
  · rw [hxj i hi]
    unfold trigC
    have h1 : ∀ k ∈ range N, nth q k * Complex.exp (Complex.I * freq N k * ((2 * Real.pi * i / m : ℝ) : ℂ))
        = ∑ j ∈ range m, (if fourierAlias m (freq N k) = j then nth q k else 0)
          * Complex.exp (Complex.I * freq m j * ((2 * Real.pi * i / m : ℝ) : ℂ)) := by
      intro k _
      rw [← exp_fourierAlias hm, Finset.sum_eq_single_of_mem (fourierAlias m (freq N k))
        (Finset.mem_range.mpr (fourierAlias_lt hm _))]
      · rw [if_pos rfl]
      · intro j _ hj
        rw [if_neg (Ne.symm hj), zero_mul]
    rw [Finset.sum_congr rfl h1, Finset.sum_comm, Finset.mul_sum, Finset.mul_sum]
    refine Finset.sum_congr rfl fun j hj => ?_
    rw [nth_map_range _ _ _ (Finset.mem_range.mp hj), ← Finset.sum_mul]
    field_simp

/-- the product of two trigonometric polynomials -/
theorem trigC_mul {n N : ℕ} (hN : 1 ≤ N)
    (hb : ∀ i < n, ∀ j < n, -(N : ℤ) ≤ 2 * (freq n i + freq n j) ∧ 2 * (freq n i + freq n j) < N) (c d : List ℂ) :
    ∃ q : List ℂ, q.length = N ∧ ∀ x, trigC N q x = trigC n c x * trigC n d x := by
  have hN' : (N : ℂ) ≠ 0 := by exact_mod_cast (by omega : N ≠ 0)
  refine ⟨(List.range N).map fun k => (N / (n * n) : ℂ) * ∑ i ∈ range n, ∑ j ∈ range n,
    if fourierAlias N (freq n i + freq n j) = k then nth c i * nth d j else 0, by simp, fun x => ?_⟩
  unfold trigC
  have h1 : ∀ i ∈ range n, ∀ j ∈ range n,
      (nth c i * Complex.exp (Complex.I * freq n i * x)) * (nth d j * Complex.exp (Complex.I * freq n j * x))
      = ∑ k ∈ range N, (if fourierAlias N (freq n i + freq n j) = k then nth c i * nth d j else 0)
          * Complex.exp (Complex.I * freq N k * x) := by
    intro i hi j hj
    have h := hb i (Finset.mem_range.mp hi) j (Finset.mem_range.mp hj)
    rw [Finset.sum_eq_single_of_mem (fourierAlias N (freq n i + freq n j))
        (Finset.mem_range.mpr (fourierAlias_lt hN _))]
    · rw [if_pos rfl, freq_fourierAlias_of h.1 h.2]
      push_cast
      rw [show Complex.I * ((freq n i : ℂ) + freq n j) * x
        = Complex.I * freq n i * x + Complex.I * freq n j * x by ring, Complex.exp_add]
      ring
    · intro k _ hk
      rw [if_neg (Ne.symm hk), zero_mul]
  have h2 : (∑ i ∈ range n, nth c i * Complex.exp (Complex.I * freq n i * x))
      * (∑ j ∈ range n, nth d j * Complex.exp (Complex.I * freq n j * x))
      = ∑ k ∈ range N, (∑ i ∈ range n, ∑ j ∈ range n,
        if fourierAlias N (freq n i + freq n j) = k then nth c i * nth d j else 0)
          * Complex.exp (Complex.I * freq N k * x) := by
    rw [Finset.sum_mul_sum]
    rw [Finset.sum_congr rfl fun i hi => Finset.sum_congr rfl fun j hj => h1 i hi j hj]
    rw [Finset.sum_congr rfl fun i _ => Finset.sum_comm, Finset.sum_comm]
    refine Finset.sum_congr rfl fun k _ => ?_
    rw [Finset.sum_mul]
    refine Finset.sum_congr rfl fun i _ => ?_
    rw [Finset.sum_mul]
  rw [show ∀ a b : ℂ, (1 / n : ℂ) * a * ((1 / n) * b) = (1 / (n * n)) * (a * b) by intro a b; ring, h2,
    Finset.mul_sum, Finset.mul_sum]
  refine Finset.sum_congr rfl fun k hk => ?_
  rw [nth_map_range _ _ _ (Finset.mem_range.mp hk)]
  field_simp

/-! ### real functions -/

theorem nth_take_lt {T : Type} [Zero T] (l : List T) {r j : ℕ} (h : j < r) : nth (l.take r) j = nth l j := by
  unfold nth; rw [List.getD_eq_getElem?_getD, List.getD_eq_getElem?_getD, List.getElem?_take_of_lt h]

/-- an odd number of Hermitian coefficients -/
theorem trigC_herm (h : ℕ) (q : List ℂ) (h0 : (nth q 0).im = 0)
    (hs : ∀ k, 1 ≤ k → k < 2 * h + 1 → nth q (2 * h + 1 - k) = (starRingEnd ℂ) (nth q k)) (x : ℝ) :
    trigC (2 * h + 1) q x = ((trigR (2 * h + 1) (q.take (h + 1)) x : ℝ) : ℂ) := by
  have ht : ∀ k < h + 1, nth (q.take (h + 1)) k = nth q k := fun k hk => by
    unfold nth; rw [List.getD_eq_getElem?_getD, List.getD_eq_getElem?_getD, List.getElem?_take_of_lt hk]
  unfold trigC trigR
  rw [show (2 * h + 1) / 2 + 1 = h + 1 by omega, Complex.ofReal_mul]
  congr 1
  · push_cast; rfl
  · rw [show 2 * h + 1 = (h + 1) + h by omega, Finset.sum_range_add, Finset.sum_range_succ']
    rw [← Finset.sum_range_reflect (fun i => nth q (h + 1 + i) *
      Complex.exp (Complex.I * freq (h + 1 + h) (h + 1 + i) * x)) h]
    rw [show ∀ a b c : ℂ, a + b + c = (a + c) + b by intro a b c; ring, ← Finset.sum_add_distrib,
      Finset.sum_range_succ']
    rw [Complex.ofReal_add, Complex.ofReal_sum]
    congr 1
    · refine Finset.sum_congr rfl fun k hk => ?_
      have hk := Finset.mem_range.mp hk
      have e1 : freq (h + 1 + h) (k + 1) = (k + 1 : ℤ) := by
        unfold freq; rw [if_pos (by omega)]; push_cast; rfl
      have e2 : freq (h + 1 + h) (h + 1 + (h - 1 - k)) = -(k + 1 : ℤ) := by
        unfold freq; rw [if_neg (by omega)]; omega
      rw [e1, e2, show h + 1 + (h - 1 - k) = 2 * h + 1 - (k + 1) by omega, hs (k + 1) (by omega) (by omega),
        ht (k + 1) (by omega), if_neg (by omega)]
      have : Complex.exp (Complex.I * ((-(k + 1 : ℤ) : ℤ) : ℂ) * x)
          = (starRingEnd ℂ) (Complex.exp (Complex.I * (k + 1) * x)) := by
        rw [← Complex.exp_conj]
        congr 1
        simp only [map_mul, Complex.conj_I, map_add, Complex.conj_natCast, map_one, Complex.conj_ofReal]
        push_cast; ring
      rw [this, ← map_mul]
      push_cast
      rw [Complex.add_conj]
      push_cast; ring
    · rw [ht 0 (by omega), if_pos (Or.inl rfl)]
      unfold freq
      rw [if_pos (by omega)]
      simp only [CharP.cast_eq_zero, Int.cast_zero, mul_zero, zero_mul, Complex.exp_zero, mul_one, one_mul,
        Nat.cast_zero]
      refine Complex.ext ?_ ?_ <;> simp [h0]

theorem refineR_length (n m : ℕ) (c : List ℂ) : (refineR n m c).length = m / 2 + 1 := by simp [refineR]

theorem trigR_refine {n m : ℕ} (hn : 1 ≤ n) (hm : n ≤ m) (c : List ℂ) (hc : c.length = n / 2 + 1) (x : ℝ) :
    trigR m (refineR n m c) x = trigR n c x := by
  have hn' : (n : ℝ) ≠ 0 := by exact_mod_cast (by omega : n ≠ 0)
  have hm' : (m : ℝ) ≠ 0 := by exact_mod_cast (by omega : m ≠ 0)
  unfold trigR
  rw [← Finset.sum_subset (Finset.range_mono (show n / 2 + 1 ≤ m / 2 + 1 by omega))]
  · rw [Finset.mul_sum, Finset.mul_sum]
    refine Finset.sum_congr rfl fun j hj => ?_
    have hj := Finset.mem_range.mp hj
    unfold refineR
    rw [nth_map_range _ _ _ (by omega)]
    by_cases h : 2 * j = n ∧ n < m
    · rw [if_pos h, if_neg (show ¬(j = 0 ∨ 2 * j = m) by omega), if_pos (show j = 0 ∨ 2 * j = n from Or.inr h.1)]
      rw [show (m / n : ℂ) * (1 / 2) * nth c j * Complex.exp (Complex.I * j * x)
        = ((m / n * (1 / 2) : ℝ) : ℂ) * (nth c j * Complex.exp (Complex.I * j * x)) by push_cast; ring,
        Complex.re_ofReal_mul]
      field_simp
    · rw [if_neg h]
      have e : (j = 0 ∨ 2 * j = m) ↔ (j = 0 ∨ 2 * j = n) := by
        rw [not_and_or] at h
        constructor <;> intro e <;> rcases e with e | e <;> rcases h with h | h <;> omega
      rw [show (m / n : ℂ) * 1 * nth c j * Complex.exp (Complex.I * j * x)
        = ((m / n : ℝ) : ℂ) * (nth c j * Complex.exp (Complex.I * j * x)) by push_cast; ring,
        Complex.re_ofReal_mul]
      simp only [e]
      field_simp
  · intro j hj hnj
    have hj := Finset.mem_range.mp hj
    have hnj : ¬(j < n / 2 + 1) := fun h => hnj (Finset.mem_range.mpr h)
    unfold refineR
    rw [nth_map_range _ _ _ hj, nth_of_le c _ (by omega)]
    simp

/-- a real series as a complex one with an odd number of coefficients -/
theorem trigR_as_trigC {n : ℕ} (hn : 1 ≤ n) (c : List ℂ) (hc : c.length = n / 2 + 1) :
    ∃ C : List ℂ, ∀ x, trigC (2 * (n / 2) + 1) C x = ((trigR n c x : ℝ) : ℂ) := by
  set h := n / 2 with hh
  set r := refineR n (2 * h + 1) c with hr
  have hrl : r.length = h + 1 := by rw [hr, refineR_length]; omega
  refine ⟨(List.range (2 * h + 1)).map fun k => if k = 0 then ((nth r 0).re : ℂ) else
    if k ≤ h then nth r k else (starRingEnd ℂ) (nth r (2 * h + 1 - k)), fun x => ?_⟩
  rw [trigC_herm]
  · congr 1
    rw [← trigR_refine (m := 2 * h + 1) hn (by omega) c hc x, ← hr]
    unfold trigR
    congr 1
    refine Finset.sum_congr rfl fun j hj => ?_
    have hj : j < h + 1 := by have := Finset.mem_range.mp hj; omega
    have e : nth (((List.range (2 * h + 1)).map fun k => if k = 0 then ((nth r 0).re : ℂ) else
        if k ≤ h then nth r k else (starRingEnd ℂ) (nth r (2 * h + 1 - k))).take (h + 1)) j
        = if j = 0 then ((nth r 0).re : ℂ) else nth r j := by
      rw [nth_take_lt _ hj, nth_map_range _ _ _ (by omega), if_pos (show j ≤ h by omega)]
    rw [e]
    by_cases h0 : j = 0
    · subst h0; simp
    · rw [if_neg h0]
  · rw [nth_map_range _ _ _ (by omega), if_pos rfl]; simp
  · intro k hk1 hk2
    rw [nth_map_range _ _ _ (by omega), nth_map_range _ _ _ hk2, if_neg (show ¬(2 * h + 1 - k = 0) by omega),
      if_neg (show ¬(k = 0) by omega)]
    by_cases hk : k ≤ h
    · rw [if_pos hk, if_neg (show ¬(2 * h + 1 - k ≤ h) by omega)]
      congr 2; omega
    · rw [if_neg hk, if_pos (show 2 * h + 1 - k ≤ h by omega), Complex.conj_conj]

theorem chebPoly_nth {a b : List ℝ} (h : chebPoly ℝ a = chebPoly ℝ b) (j : ℕ) : nth a j = nth b j := by
  set m := max (max a.length b.length) (j + 1) with hm
  have e : resize m a = resize m b := chebPoly_ext (by simp) (by
    rw [chebPoly_resize a (by omega), chebPoly_resize b (by omega), h])
  rw [← nth_resize a (show j < m by omega), e, nth_resize b (by omega)]

end Verif
