/- Fourier gradients, matrices and the real-to-complex transforms. -/
import Verif.Proof.Fourier
import Verif.Spec.Mat

namespace Verif
open Res Spec Finset Complex
variable {Q : Err → Prop}

/-! ### c2c gradient, as coded -/

/-- the factor the code applies to entry `j` per pass -/
def c2cCodeK (n j : ℕ) : ℕ := if j < (n + 1) / 2 then j else n - 1 - j

theorem wp_c2c_gradPass (n : ℕ) (hn : 1 ≤ n) (x : List ℂ) (hx : x.length = n) :
    wp Q (C2c.gradPass n x) (fun y => y.length = n ∧
      ∀ j < n, nth y j = nth x j * (I * (c2cCodeK n j : ℂ))) := by
  unfold C2c.gradPass
  wprun
  rw [show min ((n - 1) / 2 + 1) x.length = (n + 1) / 2 by omega]
  refine wp_forRange (fun i k => k.length = n ∧ (∀ j < i, nth k j = nth x j * (I * (j : ℂ))) ∧
      ∀ j, i ≤ j → nth k j = nth x j) ⟨hx, fun _ h => by omega, fun j _ => rfl⟩ ?_ ?_
  · rintro i k - hi ⟨hl, h1, h2⟩
    wprun
    refine ⟨by simpa using hl, fun j hj => ?_, fun j hj => ?_⟩
    · rcases Nat.lt_succ_iff_lt_or_eq.mp hj with h | rfl
      · rw [nth_set_ne _ _ _ _ (by omega), h1 j h]
      · rw [nth_set_self _ _ _ (by omega), h2 j le_rfl]
        congr 1; apply Complex.ext <;> simp
    · rw [nth_set_ne _ _ _ _ (by omega), h2 j (by omega)]
  · rintro k ⟨hl, h1, h2⟩
    rw [show max 0 ((n + 1) / 2) = (n + 1) / 2 by omega] at h1 h2
    rw [show min (n / 2) k.length = n / 2 by omega]
    refine wp_forRange (fun i k => k.length = n ∧
        (∀ j < (n + 1) / 2, nth k j = nth x j * (I * (j : ℂ))) ∧
        (∀ j, (n + 1) / 2 ≤ j → j < n - i → nth k j = nth x j) ∧
        (∀ j, n - i ≤ j → j < n → nth k j = nth x j * (I * ((n - 1 - j : ℕ) : ℂ))))
      ⟨hl, h1, fun j h _ => h2 j h, fun j h h' => by omega⟩ ?_ ?_
    · rintro i k - hi ⟨hl, h1, h2, h3⟩
      wprun
      refine ⟨by simpa using hl, fun j hj => ?_, fun j hj hj' => ?_, fun j hj hj' => ?_⟩
      · rw [nth_set_ne _ _ _ _ (by omega), h1 j hj]
      · rw [nth_set_ne _ _ _ _ (by omega), h2 j hj (by omega)]
      · by_cases h : j = n - 1 - i
        · subst h
          rw [hl, nth_set_self _ _ _ (by omega), h2 _ (by omega) (by omega),
            show n - 1 - (n - 1 - i) = i by omega]
          congr 1; apply Complex.ext <;> simp
        · rw [nth_set_ne _ _ _ _ (by omega), h3 j (by omega) hj']
    · rintro k ⟨hl, h1, -, h3⟩
      rw [show max 0 (n / 2) = n / 2 by omega] at h3
      refine ⟨hl, fun j hj => ?_⟩
      unfold c2cCodeK
      split
      · next h => rw [h1 j h]
      · next h => rw [h3 j (by omega) (by omega)]

theorem wp_iterate_mul (pass : List ℂ → Res (List ℂ)) (n : ℕ) (w : ℕ → ℂ)
    (hpass : ∀ x, x.length = n → wp Q (pass x) (fun y => y.length = n ∧
      ∀ j < n, nth y j = nth x j * w j)) (k : ℕ) (x : List ℂ) (hx : x.length = n) :
    wp Q (forRange 0 k (fun _ out => pass out) x) (fun y => y.length = n ∧
      ∀ j < n, nth y j = nth x j * w j ^ k) := by
  refine wp_forRange (fun i y => y.length = n ∧ ∀ j < n, nth y j = nth x j * w j ^ i)
    ⟨hx, fun j _ => by simp⟩ ?_ ?_
  · rintro i y - - ⟨hl, hy⟩
    refine wp_mono (hpass y hl) ?_
    rintro z ⟨hz, hz'⟩
    refine ⟨hz, fun j hj => ?_⟩
    rw [hz' j hj, hy j hj, pow_succ, mul_assoc]
  · rintro y h
    simpa using h

theorem c2c_gradient_eq (n : ℕ) (hn : 1 ≤ n) (x out : List ℂ) (k : ℕ) (hx : x.length = n)
    (ho : out.length = n) :
    C2c.gradientSlice ⟨n, n⟩ x out k
      = ok ((List.range n).map (fun j => nth x j * (I * (c2cCodeK n j : ℂ)) ^ k)) := by
  suffices h : wp (fun _ => False) (C2c.gradientSlice ⟨n, n⟩ x out k)
      (fun y => y.length = n ∧ ∀ j < n, nth y j = nth x j * (I * (c2cCodeK n j : ℂ)) ^ k) by
    obtain ⟨a, h1, h2, h3⟩ := wp_total.mp h
    rw [h1]; congr 1
    refine ext_nth (by simpa using h2) (fun j hj => ?_)
    rw [h3 j (by omega), nth_map_range _ _ _ (by omega)]
  unfold C2c.gradientSlice C2c.lenSpec
  dsimp only
  wprun
  rw [zipSet_eq_map _ _ _ (by omega), List.map_id]
  exact wp_iterate_mul _ n _ (fun y hy => wp_c2c_gradPass n hn y hy) k x hx

/-! ### r2c gradient -/

theorem wp_r2c_gradPass (m : ℕ) (x : List ℂ) (hx : x.length = m) :
    wp Q (R2c.gradPass x) (fun y => y.length = m ∧
      ∀ j < m, nth y j = nth x j * (I * (j : ℂ))) := by
  unfold R2c.gradPass
  refine wp_forRange (fun i k => k.length = m ∧ (∀ j < i, nth k j = nth x j * (I * (j : ℂ))) ∧
      ∀ j, i ≤ j → nth k j = nth x j) ⟨hx, fun _ h => by omega, fun j _ => rfl⟩ ?_ ?_
  · rintro i k - hi ⟨hl, h1, h2⟩
    wprun
    refine ⟨by simpa using hl, fun j hj => ?_, fun j hj => ?_⟩
    · rcases Nat.lt_succ_iff_lt_or_eq.mp hj with h | rfl
      · rw [nth_set_ne _ _ _ _ (by omega), h1 j h]
      · rw [nth_set_self _ _ _ (by omega), h2 j le_rfl]
        congr 1; apply Complex.ext <;> simp
    · rw [nth_set_ne _ _ _ _ (by omega), h2 j (by omega)]
  · rintro k ⟨hl, h1, -⟩
    exact ⟨hl, fun j hj => h1 j (by omega)⟩

theorem r2c_gradient_eq (b : R2c) (x out : List ℂ) (k : ℕ) (hx : x.length = b.m)
    (ho : out.length = b.m) :
    R2c.gradientSlice b x out k
      = ok ((List.range b.m).map (fun j => nth x j * (I * (j : ℂ)) ^ k)) := by
  suffices h : wp (fun _ => False) (R2c.gradientSlice b x out k)
      (fun y => y.length = b.m ∧ ∀ j < b.m, nth y j = nth x j * (I * (j : ℂ)) ^ k) by
    obtain ⟨a, h1, h2, h3⟩ := wp_total.mp h
    rw [h1]; congr 1
    refine ext_nth (by simpa using h2) (fun j hj => ?_)
    rw [h3 j (by omega), nth_map_range _ _ _ (by omega)]
  unfold R2c.gradientSlice R2c.lenSpec
  wprun
  rw [zipSet_eq_map _ _ _ (by omega), List.map_id]
  exact wp_iterate_mul _ b.m (fun j => I * (j : ℂ)) (fun y hy => wp_r2c_gradPass b.m y hy) k x hx

theorem r2c_wavenumber_eq (n : ℕ) :
    R2c.wavenumber n = (List.range (n / 2 + 1)).map (fun j : ℕ => I * (j : ℂ)) := by
  unfold R2c.wavenumber
  refine List.map_congr_left (fun j _ => ?_)
  apply Complex.ext <;> simp

/-! ### diagonal matrices -/

/-- `D` is the `m × m` diagonal matrix with entries `d`. -/
def IsDiag {K : Type} [Zero K] (m : ℕ) (d : ℕ → K) (D : Mat K) : Prop :=
  D.rows = m ∧ D.cols = m ∧ ∀ i < m, ∀ j < m, D.get i j = if i = j then d i else 0

theorem wp_invDiag {K : Type} [Field K] [DecidableEq K] {m : ℕ} (hm : 1 ≤ m) {d : ℕ → K}
    {D : Mat K} (hD : IsDiag m d D) (hd : ∀ i, 1 ≤ i → i < m → d i ≠ 0) :
    wp Q (invDiag D) (fun P => IsDiag m (fun i => if i = 0 then d 0 else (d i)⁻¹) P) := by
  obtain ⟨hr, hc, hg⟩ := hD
  unfold invDiag
  wprun
  refine wp_forRange (fun i P => P.rows = m ∧ P.cols = m ∧ ∀ a < m, ∀ b < m,
      P.get a b = if a = b then (if a = 0 ∨ i ≤ a then d a else (d a)⁻¹) else 0)
    ⟨hr, hc, fun a ha b hb => ?_⟩ ?_ ?_
  · rw [hg a ha b hb]
    by_cases h : a = b
    · rw [if_pos h, if_pos h, if_pos (by omega)]
    · rw [if_neg h, if_neg h]
  · rintro i P h1 h2 ⟨hr', hc', hP⟩
    mprun
    · refine ⟨hr', hc', fun a ha b hb => ?_⟩
      rw [Mat.upd_get, hP i (by omega) i (by omega), hP a ha b hb]
      by_cases h : a = b
      · subst h
        by_cases h' : a = i
        · subst h'
          rw [if_pos ⟨rfl, rfl⟩, if_pos rfl, if_pos rfl, if_pos (by omega), if_neg (by omega),
            smul_eq_mul, mul_one]
        · rw [if_neg (by omega), if_pos rfl, if_pos rfl]
          by_cases h3 : a = 0 ∨ i ≤ a
          · rw [if_pos h3, if_pos (by omega)]
          · rw [if_neg h3, if_neg (by omega)]
      · rw [if_neg (by omega), if_neg h, if_neg h]
    · intro h
      rw [hP i (by omega) i (by omega), if_pos rfl, if_pos (by omega)] at h
      exact absurd h (hd i h1 (by omega))
  · rintro P ⟨hr', hc', hP⟩
    refine ⟨hr', hc', fun a ha b hb => ?_⟩
    rw [hP a ha b hb]
    by_cases h : a = b
    · rw [if_pos h, if_pos h]
      by_cases h0 : a = 0
      · subst h0; simp
      · rw [if_neg (by omega)]; exact (if_neg h0).symm
    · rw [if_neg h, if_neg h]

/-- product of diagonal matrices -/
theorem matMul_diag {K : Type} [Field K] {m : ℕ} {d e : ℕ → K} {A B : Mat K} (hA : IsDiag m d A)
    (hB : IsDiag m e B) : IsDiag m (fun i => d i * e i) (matMul A B) := by
  obtain ⟨h1, h2, h3⟩ := hA
  obtain ⟨g1, g2, g3⟩ := hB
  refine ⟨h1, g2, fun i hi j hj => ?_⟩
  show ∑ k ∈ range A.cols, A.get i k * B.get k j = _
  rw [h2, Finset.sum_eq_single_of_mem i (mem_range.mpr hi)]
  · rw [h3 i hi i hi, g3 i hi j hj, if_pos rfl]
    by_cases h : i = j
    · rw [if_pos h, if_pos h]
    · rw [if_neg h, if_neg h, mul_zero]
  · intro k hk hne
    rw [h3 i hi k (mem_range.mp hk), if_neg (Ne.symm hne), zero_mul]

theorem mulVec_diag {K T : Type} [Field K] [AddCommGroup T] [Module K T] {m : ℕ} {d : ℕ → K}
    {A : Mat K} (hA : IsDiag m d A) (v : List T) :
    mulVec A v = (List.range m).map (fun i => d i • nth v i) := by
  obtain ⟨h1, h2, h3⟩ := hA
  refine ext_nth (by simp [h1]) (fun i hi => ?_)
  rw [mulVec_length, h1] at hi
  rw [nth_mulVec _ _ (by omega), nth_map_range _ _ _ hi, h2,
    Finset.sum_eq_single_of_mem i (mem_range.mpr hi)]
  · rw [h3 i hi i hi, if_pos rfl]
  · intro k hk hne
    rw [h3 i hi k (mem_range.mp hk), if_neg (Ne.symm hne), zero_smul]

theorem isDiag_mapDiag {K : Type} [Zero K] (m : ℕ) (f : ℕ → K) (d : ℕ → K)
    (h : ∀ i < m, f i = d i) :
    IsDiag m d ((Mat.zeros m m : Mat K).mapDiag 0 m (fun i _ => f i)) := by
  refine ⟨rfl, rfl, fun i hi j hj => ?_⟩
  show (if i = j ∧ 0 ≤ i ∧ i < m then f i else (0 : K)) = _
  by_cases hij : i = j
  · rw [if_pos ⟨hij, by omega, hi⟩, if_pos hij, h i hi]
  · rw [if_neg (fun h => hij h.1), if_neg hij]

theorem c2c_diffmat_eq (n : ℕ) (hn : 1 ≤ n) (k : ℕ) (hk : 1 ≤ k) (hk2 : k < 2 ^ 31) :
    ∃ D, C2c.diffmat ⟨n, n⟩ k = ok D ∧ IsDiag n (fun j => (I * (c2cK n j : ℂ)) ^ k) D := by
  apply wp_total.mp
  unfold C2c.diffmat C2c.lenSpec C2c.lenPhys
  dsimp only
  rw [c2c_wavenumber_eq n hn]
  refine wp_bind_i (wp_assert_i hk ?_)
  refine wp_bind_i (wp_ok_i ?_)
  refine wp_bind_i (wp_assert_i hk2 ?_)
  refine wp_pure_i ?_
  rw [List.length_map, List.length_range, min_self]
  exact isDiag_mapDiag n _ _ (fun i hi => by rw [nth_map_range _ _ _ hi])

theorem r2c_diffmat_eq (n : ℕ) (k : ℕ) (hk : 1 ≤ k) (hk2 : k < 2 ^ 31) :
    ∃ D, R2c.diffmat ⟨n, n / 2 + 1⟩ k = ok D ∧
      IsDiag (n / 2 + 1) (fun j => (I * (j : ℂ)) ^ k) D := by
  apply wp_total.mp
  unfold R2c.diffmat R2c.lenSpec R2c.lenPhys
  dsimp only
  rw [r2c_wavenumber_eq n]
  refine wp_bind_i (wp_assert_i hk ?_)
  refine wp_bind_i (wp_assert_i hk2 ?_)
  refine wp_pure_i ?_
  rw [List.length_map, List.length_range, min_self]
  exact isDiag_mapDiag _ _ _ (fun i hi => by rw [nth_map_range _ _ _ hi])

theorem c2c_laplacian_eq (n : ℕ) (hn : 1 ≤ n) :
    ∃ D, C2c.laplacian ⟨n, n⟩ = ok D ∧ IsDiag n (fun j => -((c2cK n j : ℝ) ^ 2)) D := by
  apply wp_total.mp
  unfold C2c.laplacian C2c.lenPhys
  dsimp only
  rw [c2c_wavenumber_eq n hn]
  refine wp_bind_i (wp_ok_i ?_)
  refine wp_pure_i ?_
  rw [List.length_map, List.length_range, min_self]
  refine isDiag_mapDiag _ _ _ (fun i hi => ?_)
  rw [nth_map_range _ _ _ hi]; simp; ring

theorem r2c_laplacian_eq (n : ℕ) :
    ∃ D, R2c.laplacian ⟨n, n / 2 + 1⟩ = ok D ∧ IsDiag (n / 2 + 1) (fun j => -((j : ℝ) ^ 2)) D := by
  apply wp_total.mp
  unfold R2c.laplacian R2c.lenPhys
  dsimp only
  rw [r2c_wavenumber_eq n]
  refine wp_pure_i ?_
  rw [List.length_map, List.length_range, min_self]
  refine isDiag_mapDiag _ _ _ (fun i hi => ?_)
  rw [nth_map_range _ _ _ hi]; simp; ring

/-! ### real-to-complex transforms -/

theorem twiddle_reflect (n k j : ℕ) (hk : k ≤ n) (hn : 1 ≤ n) (s : ℤ) :
    twiddle s n (n - k) j = twiddle (-s) n k j := by
  unfold twiddle
  have hn' : (n : ℂ) ≠ 0 := by exact_mod_cast (by omega : n ≠ 0)
  rw [Nat.cast_sub hk, Complex.exp_eq_exp_iff_exists_int]
  refine ⟨s * j, ?_⟩
  push_cast; field_simp; ring

theorem twiddle_zero (s : ℂ) (n j : ℕ) : twiddle s n 0 j = 1 := by
  unfold twiddle; simp

theorem conj_twiddle (n k j : ℕ) (s : ℤ) :
    (starRingEnd ℂ) (twiddle s n k j) = twiddle (-s) n k j := by
  unfold twiddle
  rw [← Complex.exp_conj]
  congr 1
  simp only [map_mul, map_div₀, map_natCast, Complex.conj_I, Complex.conj_ofReal, map_intCast,
    map_ofNat]
  ring

/-- at the Nyquist frequency the rotation factors are real -/
theorem twiddle_nyquist (n j : ℕ) (hn : 1 ≤ n) (he : n % 2 = 0) (s : ℤ) :
    (starRingEnd ℂ) (twiddle s n (n / 2) j) = twiddle s n (n / 2) j := by
  rw [conj_twiddle, ← twiddle_reflect n (n / 2) j (by omega) hn s, show n - n / 2 = n / 2 by omega]

/-- sum over one period split at index 0 -/
theorem sum_reflect (n : ℕ) (hn : 1 ≤ n) {M : Type} [AddCommMonoid M] (f g : ℕ → M)
    (h0 : f 0 = g 0) (h : ∀ k, 1 ≤ k → k < n → f k = g (n - k)) :
    ∑ k ∈ range n, f k = ∑ k ∈ range n, g k := by
  obtain ⟨N, rfl⟩ : ∃ N, n = N + 1 := ⟨n - 1, by omega⟩
  rw [sum_range_succ', sum_range_succ', h0]
  congr 1
  rw [← Finset.sum_range_reflect (fun k => g (k + 1)) N]
  refine Finset.sum_congr rfl (fun k hk => ?_)
  rw [mem_range] at hk
  rw [h (k + 1) (by omega) (by omega)]
  congr 1; omega

/-- `h` is the spectrum of a real signal of length `n` -/
def Herm (n : ℕ) (h : ℕ → ℂ) : Prop :=
  (starRingEnd ℂ) (h 0) = h 0 ∧ ∀ k, 1 ≤ k → k < n → (starRingEnd ℂ) (h (n - k)) = h k

theorem herm_real {n : ℕ} (hn : 1 ≤ n) {h : ℕ → ℂ} (hh : Herm n h) (j : ℕ) :
    (starRingEnd ℂ) (dft 1 n h j) = dft 1 n h j := by
  unfold dft
  rw [map_sum]
  refine sum_reflect n hn _ _ ?_ (fun k h1 h2 => ?_)
  · rw [map_mul, hh.1, twiddle_zero, map_one]
  · have e := twiddle_reflect n k j (by omega) hn 1
    have e' := conj_twiddle n k j 1
    push_cast at e e'
    have := hh.2 (n - k) (by omega) (by omega)
    rw [show n - (n - k) = k by omega] at this
    rw [map_mul, e', e, this]

/-- the forward transform of a real signal is Hermitian -/
theorem real_herm {n : ℕ} (hn : 1 ≤ n) (v : ℕ → ℝ) : Herm n (dft (-1) n (fun j => (v j : ℂ))) := by
  have hc : ∀ k, (starRingEnd ℂ) (dft (-1) n (fun j => (v j : ℂ)) k)
      = dft 1 n (fun j => (v j : ℂ)) k := by
    intro k
    unfold dft
    rw [map_sum]
    refine Finset.sum_congr rfl (fun j _ => ?_)
    have := conj_twiddle n j k (-1)
    push_cast at this
    rw [map_mul, Complex.conj_ofReal, this, neg_neg]
  refine ⟨?_, fun k h1 h2 => ?_⟩
  · rw [hc]; unfold dft
    refine Finset.sum_congr rfl (fun j _ => ?_)
    rw [twiddle_comm, twiddle_zero, twiddle_comm, twiddle_zero]
  · rw [hc]; unfold dft
    refine Finset.sum_congr rfl (fun j _ => ?_)
    have := twiddle_reflect n k j (by omega) hn 1
    push_cast at this
    rw [twiddle_comm, this, twiddle_comm]

/-- what `backward_slice` hands to the inverse real transform -/
noncomputable def r2cPrep (n : ℕ) (c : List ℂ) (k : ℕ) : ℂ :=
  if k = 0 ∨ 2 * k = n then (((n : ℝ)⁻¹ * (nth c k).re : ℝ) : ℂ) else (n : ℂ)⁻¹ * nth c k

theorem nth_rfftFwd (x : List ℝ) {k : ℕ} (hk : k < x.length / 2 + 1) :
    nth (rfftFwd x) k = dft (-1) x.length (fun j => ((nth x j : ℝ) : ℂ)) k := by
  unfold rfftFwd
  rw [nth_map_range _ _ _ hk, list_sum_range]; rfl

@[simp] theorem length_rfftFwd (x : List ℝ) : (rfftFwd x).length = x.length / 2 + 1 := by
  simp [rfftFwd]

theorem r2c_forward_eq (n : ℕ) (x : List ℝ) (out : List ℂ) (hx : x.length = n)
    (ho : out.length = n / 2 + 1) :
    R2c.forwardSlice ⟨n, n / 2 + 1⟩ x out = ok (rfftFwd x) := by
  suffices h : wp (fun _ => False) (R2c.forwardSlice ⟨n, n / 2 + 1⟩ x out)
      (fun r => r = rfftFwd x) by
    obtain ⟨a, h1, rfl⟩ := wp_total.mp h; exact h1
  unfold R2c.forwardSlice R2c.lenPhys R2c.lenSpec
  dsimp only
  wprun
  rw [zipSet_eq_map _ _ _ (by simp), List.map_id, fft_rfwd]

/-- Hermitian extension of `r2cPrep` -/
noncomputable def r2cHerm (n : ℕ) (c : List ℂ) (k : ℕ) : ℂ :=
  if k ≤ n / 2 then r2cPrep n c k else (starRingEnd ℂ) (r2cPrep n c (n - k))

theorem r2c_backward_eq (n : ℕ) (hn : 1 ≤ n) (c : List ℂ) (out : List ℝ)
    (hc : c.length = n / 2 + 1) (ho : out.length = n) :
    R2c.backwardSlice ⟨n, n / 2 + 1⟩ c out
      = ok ((List.range n).map (fun j => (dft 1 n (r2cHerm n c) j).re)) := by
  suffices h : wp (fun _ => False) (R2c.backwardSlice ⟨n, n / 2 + 1⟩ c out)
      (fun r => r = (List.range n).map (fun j => (dft 1 n (r2cHerm n c) j).re)) by
    obtain ⟨a, h1, rfl⟩ := wp_total.mp h; exact h1
  have hn' : (n : ℝ) ≠ 0 := by exact_mod_cast (by omega : n ≠ 0)
  have key : ∀ y : List ℂ, y.length = n / 2 + 1 → (∀ k < n / 2 + 1, nth y k = r2cPrep n c k) →
      wp (fun _ => False) (rfftInv n y)
        (fun r => r = (List.range n).map (fun j => (dft 1 n (r2cHerm n c) j).re)) := by
    intro y hy hk
    unfold rfftInv
    refine wp_bind_i (wp_assert_i hy ?_)
    refine wp_bind_i (wp_assert_i ?_ ?_)
    · rw [hk 0 (by omega), r2cPrep, if_pos (Or.inl rfl)]; exact Complex.ofReal_im _
    refine wp_bind_i (wp_assert_i ?_ ?_)
    · intro he
      rw [hk _ (by omega), r2cPrep, if_pos (Or.inr (by omega))]; exact Complex.ofReal_im _
    refine wp_pure_i ?_
    refine List.map_congr_left (fun j _ => ?_)
    rw [list_sum_range]
    congr 1
    refine Finset.sum_congr rfl (fun k hkn => ?_)
    rw [mem_range] at hkn
    congr 1
    unfold hermExt r2cHerm
    by_cases h : k ≤ n / 2
    · rw [if_pos h, if_pos h, hk k (by omega)]
    · rw [if_neg h, if_neg h, hk (n - k) (by omega)]
  unfold R2c.backwardSlice R2c.lenPhys R2c.lenSpec
  simp only [cplx_pair, cplx_re, cplx_im, fft_rinv]
  refine wp_bind_i (wp_assert_i hc ?_)
  refine wp_bind_i (wp_assert_i ho ?_)
  refine wp_bind_i (wp_div_i (fun _ => ?_) (fun h => hn' h))
  rw [zipSet_eq_map _ _ _ (by simp)]
  have hs : ∀ k < n / 2 + 1, nth (c.map (fun z : ℂ =>
      (⟨((n : ℝ)⁻¹ • (1 : ℝ)) * z.re, ((n : ℝ)⁻¹ • (1 : ℝ)) * z.im⟩ : ℂ))) k
        = ⟨(n : ℝ)⁻¹ * (nth c k).re, (n : ℝ)⁻¹ * (nth c k).im⟩ := by
    intro k hk
    rw [nth_map _ _ _ (by omega)]; simp
  set y := c.map (fun z : ℂ =>
      (⟨((n : ℝ)⁻¹ • (1 : ℝ)) * z.re, ((n : ℝ)⁻¹ • (1 : ℝ)) * z.im⟩ : ℂ)) with hy
  have hyl : y.length = n / 2 + 1 := by simp [hy, hc]
  clear_value y
  wprun
  have hprep : ∀ k < n / 2 + 1, ¬ (k = 0 ∨ 2 * k = n) → r2cPrep n c k = nth y k := by
    intro k hk h
    rw [r2cPrep, if_neg h, hs k hk]
    apply Complex.ext <;> simp
  have hprep' : ∀ k < n / 2 + 1, (k = 0 ∨ 2 * k = n) → r2cPrep n c k = ⟨(nth y k).re, 0⟩ := by
    intro k hk h
    rw [r2cPrep, if_pos h, hs k hk]
    apply Complex.ext <;> simp
  refine wp_ite_i (fun he => ?_) (fun he => ?_)
  · wprun
    rw [Nat.add_sub_cancel]
    refine key _ (by simpa using hyl) (fun k hk => ?_)
    rw [nth_set]
    by_cases h : n / 2 = k ∧ n / 2 < (y.set 0 ⟨(nth y 0).re, 0⟩).length
    · rw [if_pos h, hprep' k hk (by omega), h.1, nth_set]
      by_cases h0 : 0 = k ∧ 0 < y.length
      · rw [if_pos h0, h0.1]
      · rw [if_neg h0]
    · rw [if_neg h, nth_set]
      have hlen : n / 2 < (y.set 0 ⟨(nth y 0).re, 0⟩).length := by simp [hyl]
      by_cases h0 : 0 = k ∧ 0 < y.length
      · rw [if_pos h0, hprep' k hk (by omega), ← h0.1]
      · rw [if_neg h0, hprep k hk (by omega)]
  · wprun
    refine key _ (by simpa using hyl) (fun k hk => ?_)
    rw [nth_set]
    by_cases h0 : 0 = k ∧ 0 < y.length
    · rw [if_pos h0, hprep' k hk (by omega), ← h0.1]
    · rw [if_neg h0, hprep k hk (by omega)]

theorem r2cHerm_herm (n : ℕ) (hn : 1 ≤ n) (c : List ℂ) : Herm n (r2cHerm n c) := by
  have hd : ∀ k, r2cHerm n c k
      = if k ≤ n / 2 then r2cPrep n c k else (starRingEnd ℂ) (r2cPrep n c (n - k)) := fun _ => rfl
  refine ⟨?_, fun k h1 h2 => ?_⟩ <;> simp only [hd]
  · rw [if_pos (by omega), r2cPrep, if_pos (Or.inl rfl), Complex.conj_ofReal]
  · by_cases h : k ≤ n / 2
    · rw [if_pos h]
      by_cases h' : n - k ≤ n / 2
      · rw [if_pos h', show n - k = k by omega, r2cPrep, if_pos (by omega), Complex.conj_ofReal]
      · rw [if_neg h', Complex.conj_conj, show n - (n - k) = k by omega]
    · rw [if_neg h, if_pos (by omega)]

/-- folding the sum of a symmetric sequence -/
theorem fold_sum (n : ℕ) (hn : 1 ≤ n) (r : ℕ → ℝ) (hr : ∀ k, 1 ≤ k → k < n → r (n - k) = r k) :
    ∑ k ∈ range n, r k
      = ∑ k ∈ range (n / 2 + 1), (if k = 0 ∨ 2 * k = n then 1 else 2) * r k := by
  rcases Nat.even_or_odd' n with ⟨m, hm | hm⟩
  · subst hm
    obtain ⟨M, rfl⟩ : ∃ M, m = M + 1 := ⟨m - 1, by omega⟩
    rw [show 2 * (M + 1) / 2 + 1 = (M + 1) + 1 by omega, sum_range_succ,
      show 2 * (M + 1) = (M + 1) + 1 + M by omega, sum_range_add, sum_range_succ,
      sum_range_succ', sum_range_succ', if_pos (Or.inl rfl),
      if_pos (show M + 1 = 0 ∨ M + 1 + 1 + M = M + 1 + 1 + M from Or.inr rfl)]
    have e1 : ∑ k ∈ range M, r (M + 1 + 1 + k) = ∑ k ∈ range M, r (k + 1) := by
      rw [← Finset.sum_range_reflect (fun k => r (k + 1)) M]
      refine Finset.sum_congr rfl (fun k hk => ?_)
      rw [mem_range] at hk
      rw [← hr (M - 1 - k + 1) (by omega) (by omega)]
      congr 1; omega
    have e2 : ∑ k ∈ range M, (if k + 1 = 0 ∨ 2 * (k + 1) = M + 1 + 1 + M then (1 : ℝ) else 2)
        * r (k + 1) = 2 * ∑ k ∈ range M, r (k + 1) := by
      rw [Finset.mul_sum]
      refine Finset.sum_congr rfl (fun k hk => ?_)
      rw [mem_range] at hk
      rw [if_neg (by omega)]
    rw [e1, e2]; ring
  · subst hm
    rw [show (2 * m + 1) / 2 + 1 = m + 1 by omega,
      show 2 * m + 1 = (m + 1) + m by omega, sum_range_add, sum_range_succ',
      sum_range_succ', if_pos (Or.inl rfl)]
    have e1 : ∑ k ∈ range m, r (m + 1 + k) = ∑ k ∈ range m, r (k + 1) := by
      rw [← Finset.sum_range_reflect (fun k => r (k + 1)) m]
      refine Finset.sum_congr rfl (fun k hk => ?_)
      rw [mem_range] at hk
      rw [← hr (m - 1 - k + 1) (by omega) (by omega)]
      congr 1; omega
    have e2 : ∑ k ∈ range m, (if k + 1 = 0 ∨ 2 * (k + 1) = m + 1 + m then (1 : ℝ) else 2)
        * r (k + 1) = 2 * ∑ k ∈ range m, r (k + 1) := by
      rw [Finset.mul_sum]
      refine Finset.sum_congr rfl (fun k hk => ?_)
      rw [mem_range] at hk
      rw [if_neg (by omega)]
    rw [e1, e2]; ring

/-- evaluation of the backward transform -/
theorem r2c_eval (n : ℕ) (hn : 1 ≤ n) (c : List ℂ) (j : ℕ) :
    (dft 1 n (r2cHerm n c) j).re
      = (1 / n) * ∑ k ∈ range (n / 2 + 1), (if k = 0 ∨ 2 * k = n then 1 else 2)
          * (nth c k * twiddle 1 n k j).re := by
  unfold dft
  rw [Complex.re_sum, fold_sum n hn (fun k => (r2cHerm n c k * twiddle 1 n k j).re) ?_,
    Finset.mul_sum]
  · refine Finset.sum_congr rfl (fun k hk => ?_)
    rw [mem_range] at hk
    have hh : (r2cHerm n c k * twiddle 1 n k j).re
        = (n : ℝ)⁻¹ * (nth c k * twiddle 1 n k j).re := by
      unfold r2cHerm
      rw [if_pos (by omega)]
      unfold r2cPrep
      split
      · next h =>
        have hre : (twiddle 1 n k j).im = 0 := by
          rcases h with rfl | h
          · rw [twiddle_zero]; simp
          · have := twiddle_nyquist n j hn (by omega) 1
            rw [show n / 2 = k by omega] at this
            push_cast at this
            exact Complex.conj_eq_iff_im.mp this
        simp [hre]; ring
      · have : (n : ℂ)⁻¹ = (((n : ℝ)⁻¹ : ℝ) : ℂ) := by simp
        rw [mul_assoc, this, Complex.re_ofReal_mul]
    rw [hh]; ring
  · intro k h1 h2
    have e := twiddle_reflect n k j (by omega) hn 1
    have e' := conj_twiddle n k j 1
    push_cast at e e'
    have hh := (r2cHerm_herm n hn c).2 k h1 h2
    rw [e, ← e', ← hh, ← Complex.conj_re (r2cHerm n c (n - k) * _), map_mul, Complex.conj_conj]

theorem r2c_bwd_fwd (n : ℕ) (hn : 1 ≤ n) (v : List ℝ) (hv : v.length = n) :
    (List.range n).map (fun j => (dft 1 n (r2cHerm n (rfftFwd v)) j).re) = v := by
  have hn' : (n : ℂ) ≠ 0 := by exact_mod_cast (by omega : n ≠ 0)
  have hH := real_herm hn (fun j => nth v j)
  have hp : ∀ k ≤ n / 2, r2cPrep n (rfftFwd v) k
      = (n : ℂ)⁻¹ * dft (-1) n (fun j => ((nth v j : ℝ) : ℂ)) k := by
    intro k hk
    unfold r2cPrep
    rw [nth_rfftFwd v (by omega), hv]
    split
    · next h =>
      have hre : (((dft (-1) n (fun j => ((nth v j : ℝ) : ℂ)) k).re : ℝ) : ℂ)
          = dft (-1) n (fun j => ((nth v j : ℝ) : ℂ)) k := by
        apply Complex.conj_eq_iff_re.mp
        rcases h with rfl | h
        · exact hH.1
        · have := hH.2 k (by omega) (by omega)
          rwa [show n - k = k by omega] at this
      rw [Complex.ofReal_mul, hre]; simp
    · rfl
  have hh : ∀ k < n, r2cHerm n (rfftFwd v) k
      = (n : ℂ)⁻¹ * dft (-1) n (fun j => ((nth v j : ℝ) : ℂ)) k := by
    intro k hk
    unfold r2cHerm
    by_cases h : k ≤ n / 2
    · rw [if_pos h, hp k h]
    · rw [if_neg h, hp (n - k) (by omega), map_mul, hH.2 k (by omega) hk]
      simp
  refine ext_nth (by simp [hv]) (fun j hj => ?_)
  simp only [List.length_map, List.length_range] at hj
  rw [nth_map_range _ _ _ hj, dft_congr j hh, dft_smul]
  have := dft_inv (-1) (Or.inr rfl) n hn (fun j => ((nth v j : ℝ) : ℂ)) j hj
  push_cast at this
  rw [neg_neg] at this
  rw [this, inv_mul_cancel_left₀ hn', Complex.ofReal_re]

theorem r2c_fwd_bwd (n : ℕ) (hn : 1 ≤ n) (c : List ℂ) (hc : c.length = n / 2 + 1)
    (h0 : (nth c 0).im = 0) (hN : n % 2 = 0 → (nth c (n / 2)).im = 0) :
    rfftFwd ((List.range n).map (fun j => (dft 1 n (r2cHerm n c) j).re)) = c := by
  have hn' : (n : ℂ) ≠ 0 := by exact_mod_cast (by omega : n ≠ 0)
  refine ext_nth (by simp [hc]) (fun k hk => ?_)
  simp only [length_rfftFwd, List.length_map, List.length_range] at hk
  rw [nth_rfftFwd _ (by simpa using hk), List.length_map, List.length_range,
    dft_congr (y := dft 1 n (r2cHerm n c)) k (fun j hj => by
      rw [nth_map_range _ _ _ hj]
      exact Complex.conj_eq_iff_re.mp (herm_real hn (r2cHerm_herm n hn c) j))]
  have := dft_inv 1 (Or.inl rfl) n hn (r2cHerm n c) k (by omega)
  push_cast at this
  rw [this]
  unfold r2cHerm
  rw [if_pos (by omega)]
  unfold r2cPrep
  split
  · next h =>
    have : (((nth c k).re : ℝ) : ℂ) = nth c k := by
      apply Complex.ext
      · simp
      · rcases h with rfl | h
        · simp [h0]
        · have := hN (by omega)
          rw [show n / 2 = k by omega] at this
          simp [this]
    rw [Complex.ofReal_mul, this]
    push_cast
    rw [mul_inv_cancel_left₀ hn']
  · rw [mul_inv_cancel_left₀ hn']

end Verif
