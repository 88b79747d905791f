/-
Properties that relate the two Fourier bases (C66) and the energies of the two representations (C67).
-/
import Verif.Props.Fourier

namespace Verif.Props
open Res Spec Finset Complex

/-! ### C66 -/

/-- C66: of the same real data, `fourier_r2c` keeps the first `n/2+1` coefficients `fourier_c2c` computes,
and the ones it drops are the complex conjugates of those. -/
theorem C66_forward (n : ℕ) (hn : 1 ≤ n) (b : R2c) (hb : R2c.new n = ok b) (b' : C2c)
    (hb' : C2c.new n = ok b') (v : List ℝ) (out out' : List ℂ) (hv : v.length = b.lenPhys)
    (ho : out.length = b.lenSpec) (ho' : out'.length = b'.lenSpec) :
    ∃ c c', b.forwardSlice v out = ok c ∧ b'.forwardSlice (v.map Complex.ofReal) out' = ok c' ∧
      c = c'.take (n / 2 + 1) ∧ (nth c' 0).im = 0 ∧
      ∀ k, 1 ≤ k → k < n → nth c' (n - k) = (starRingEnd ℂ) (nth c' k) := by
  obtain rfl := r2c_of_new hb
  obtain rfl := c2c_of_new hb'
  change v.length = n at hv
  have hvc : (v.map Complex.ofReal).length = n := by simpa using hv
  have e : ∀ k < n, nth (fftFwd (v.map Complex.ofReal)) k
      = dft (-1) n (fun j => ((nth v j : ℝ) : ℂ)) k := by
    intro k hk
    rw [nth_fftFwd _ (by omega), hvc]
    refine dft_congr k (fun j hj => ?_)
    rw [nth_map _ _ _ (by omega)]
  have hh := real_herm hn (fun j => nth v j)
  refine ⟨_, _, r2c_forward_eq n v out hv ho, wp_c2c_forward n _ out' hvc ho', ?_, ?_, ?_⟩
  · refine ext_nth (by rw [length_rfftFwd, List.length_take, length_fftFwd, hv, hvc]; omega)
      (fun k hk => ?_)
    have hk' : k < n / 2 + 1 := by rw [length_rfftFwd, hv] at hk; exact hk
    have hkn : k < n ∨ k = n := by omega
    rcases hkn with hkn | rfl
    · rw [nth_rfftFwd _ (by omega), hv, ← e k hkn]
      unfold nth
      rw [List.getD_eq_getElem?_getD, List.getD_eq_getElem?_getD, List.getElem?_take_of_lt hk']
    · omega
  · rw [e 0 (by omega)]
    exact Complex.conj_eq_iff_im.1 hh.1
  · intro k h1 h2
    rw [e k h2, e (n - k) (by omega), ← hh.2 k h1 h2, Complex.conj_conj]

/-- C66: of the coefficients of real data, both bases compute the same grid values: `fourier_c2c` of all
`n` coefficients (its values are real), `fourier_r2c` of the first `n/2+1`. -/
theorem C66_backward (n : ℕ) (hn : 1 ≤ n) (b : R2c) (hb : R2c.new n = ok b) (b' : C2c)
    (hb' : C2c.new n = ok b') (c' out' : List ℂ) (out : List ℝ) (hc : c'.length = b'.lenSpec)
    (ho : out.length = b.lenPhys) (ho' : out'.length = b'.lenPhys) (h0 : (nth c' 0).im = 0)
    (hsym : ∀ k, 1 ≤ k → k < n → nth c' (n - k) = (starRingEnd ℂ) (nth c' k)) :
    ∃ v, b.backwardSlice (c'.take (n / 2 + 1)) out = ok v ∧
      b'.backwardSlice c' out' = ok (v.map Complex.ofReal) := by
  obtain rfl := r2c_of_new hb
  obtain rfl := c2c_of_new hb'
  change c'.length = n at hc
  have ht : ∀ k < n / 2 + 1, nth (c'.take (n / 2 + 1)) k = nth c' k := by
    intro k hk
    unfold nth
    rw [List.getD_eq_getElem?_getD, List.getD_eq_getElem?_getD, List.getElem?_take_of_lt hk]
  rcases Nat.lt_or_ge (n / 2) n with h2 | h2
  swap
  · omega
  have hl : (c'.take (n / 2 + 1)).length = n / 2 + 1 := by rw [List.length_take]; omega
  refine ⟨_, r2c_backward_eq n hn _ out hl ho, ?_⟩
  rw [wp_c2c_backward n hn c' out' hc ho']
  congr 1
  have key : ∀ k < n, r2cHerm n (c'.take (n / 2 + 1)) k = (n : ℂ)⁻¹ * nth c' k := by
    have hp : ∀ k < n / 2 + 1, r2cPrep n (c'.take (n / 2 + 1)) k = (n : ℂ)⁻¹ * nth c' k := by
      intro k hk
      unfold r2cPrep
      rw [ht k hk]
      by_cases h : k = 0 ∨ 2 * k = n
      · rw [if_pos h]
        have him : (nth c' k).im = 0 := by
          rcases h with rfl | h
          · exact h0
          · have := hsym k (by omega) (by omega)
            rw [show n - k = k by omega] at this
            exact Complex.conj_eq_iff_im.1 this.symm
        apply Complex.ext <;> simp [him]
      · rw [if_neg h]
    intro k hk
    unfold r2cHerm
    by_cases h : k ≤ n / 2
    · rw [if_pos h, hp k (by omega)]
    · rw [if_neg h, hp (n - k) (by omega), map_mul, map_inv₀, Complex.conj_natCast,
        hsym k (by omega) hk, Complex.conj_conj]
  have hreal := fun j => herm_real hn (r2cHerm_herm n hn (c'.take (n / 2 + 1))) j
  refine ext_nth (by simp [hc]) (fun j hj => ?_)
  have hj' : j < n := by simpa [hc] using hj
  rw [nth_fftInv _ (by simpa [hc] using hj'), List.length_map, hc, List.map_map,
    nth_map_range _ _ _ hj']
  change _ = (((dft 1 n (r2cHerm n (c'.take (n / 2 + 1))) j).re : ℝ) : ℂ)
  rw [Complex.conj_eq_iff_re.1 (hreal j)]
  refine dft_congr j (fun k hk => ?_)
  rw [key k hk, nth_map _ _ _ (by omega)]

/-- the hypotheses of `C66_backward` hold for the spectra of real data, by `C66_forward` -/
example (v : List ℝ) (hv : v.length = 7) : ∃ (b : R2c) (b' : C2c) (c' : List ℂ),
    R2c.new 7 = ok b ∧ C2c.new 7 = ok b' ∧ c'.length = b'.lenSpec ∧ (nth c' 0).im = 0 ∧
    ∀ k, 1 ≤ k → k < 7 → nth c' (7 - k) = (starRingEnd ℂ) (nth c' k) := by
  obtain ⟨c, c', -, h, -, h0, hk⟩ := C66_forward 7 (by omega) ⟨7, 4⟩ rfl ⟨7, 7⟩ rfl v
    (List.replicate 4 0) (List.replicate 7 0) hv rfl rfl
  refine ⟨⟨7, 4⟩, ⟨7, 7⟩, c', rfl, rfl, ?_, h0, hk⟩
  rw [wp_c2c_forward 7 _ _ (by simpa using hv) rfl] at h
  rw [← Res.ok.inj h, length_fftFwd, List.length_map, hv]; rfl

/-! ### C67 -/

theorem dft_inner (n : ℕ) (hn : 1 ≤ n) (x y : ℕ → ℂ) :
    ∑ k ∈ range n, dft (-1) n x k * (starRingEnd ℂ) (dft (-1) n y k)
      = n * ∑ j ∈ range n, x j * (starRingEnd ℂ) (y j) := by
  have hc : ∀ k, (starRingEnd ℂ) (dft (-1) n y k) = ∑ j ∈ range n, (starRingEnd ℂ) (y j) * twiddle 1 n j k := by
    intro k
    unfold dft
    rw [map_sum]
    refine Finset.sum_congr rfl (fun j _ => ?_)
    have := conj_twiddle n j k (-1)
    push_cast at this
    rw [map_mul, this, neg_neg]
  simp_rw [hc, Finset.mul_sum]
  rw [Finset.sum_comm]
  refine Finset.sum_congr rfl (fun j hj => ?_)
  have hi := dft_inv (-1) (.inr rfl) n hn x j (mem_range.1 hj)
  push_cast at hi
  rw [neg_neg] at hi
  calc ∑ k ∈ range n, dft (-1) n x k * ((starRingEnd ℂ) (y j) * twiddle 1 n j k)
      = (starRingEnd ℂ) (y j) * dft 1 n (dft (-1) n x) j := by
        unfold dft
        rw [Finset.mul_sum]
        refine Finset.sum_congr rfl (fun k _ => ?_)
        rw [twiddle_comm 1 n j k]; ring
    _ = _ := by rw [hi]; ring

/-- C67: the complex Fourier transform preserves inner products up to the factor `n`. -/
theorem C67_c2c_inner (n : ℕ) (hn : 1 ≤ n) (b : C2c) (hb : C2c.new n = ok b) (v w o o' : List ℂ)
    (hv : v.length = b.lenPhys) (hw : w.length = b.lenPhys) (ho : o.length = b.lenSpec)
    (ho' : o'.length = b.lenSpec) :
    ∃ c d, b.forwardSlice v o = ok c ∧ b.forwardSlice w o' = ok d ∧
      ∑ k ∈ range n, nth c k * (starRingEnd ℂ) (nth d k)
        = n * ∑ j ∈ range n, nth v j * (starRingEnd ℂ) (nth w j) := by
  obtain rfl := c2c_of_new hb
  change v.length = n at hv
  change w.length = n at hw
  refine ⟨_, _, wp_c2c_forward n v o hv ho, wp_c2c_forward n w o' hw ho', ?_⟩
  rw [← dft_inner n hn (nth v) (nth w)]
  refine Finset.sum_congr rfl (fun k hk => ?_)
  have hk := mem_range.1 hk
  rw [nth_fftFwd _ (by omega), nth_fftFwd _ (by omega), hv, hw]

/-- C67 (Parseval): `∑ₖ |cₖ|² = n ∑ⱼ |vⱼ|²` for `c = forward(v)`. -/
theorem C67_c2c_energy (n : ℕ) (hn : 1 ≤ n) (b : C2c) (hb : C2c.new n = ok b) (v o : List ℂ)
    (hv : v.length = b.lenPhys) (ho : o.length = b.lenSpec) :
    ∃ c, b.forwardSlice v o = ok c ∧
      ∑ k ∈ range n, normSq (nth c k) = n * ∑ j ∈ range n, normSq (nth v j) := by
  obtain ⟨c, d, h1, h2, h3⟩ := C67_c2c_inner n hn b hb v v o o hv hv ho ho
  rw [h1] at h2
  obtain rfl := Res.ok.inj h2
  refine ⟨c, h1, ?_⟩
  simp_rw [Complex.mul_conj] at h3
  exact_mod_cast h3

/-- C67 (Parseval) for real data: every coefficient of `fourier_r2c` counts twice except the mean and,
for even `n`, the Nyquist coefficient. -/
theorem C67_r2c_energy (n : ℕ) (hn : 1 ≤ n) (b : R2c) (hb : R2c.new n = ok b) (v : List ℝ) (o : List ℂ)
    (hv : v.length = b.lenPhys) (ho : o.length = b.lenSpec) :
    ∃ c, b.forwardSlice v o = ok c ∧
      ∑ k ∈ range (n / 2 + 1), (if k = 0 ∨ 2 * k = n then 1 else 2) * normSq (nth c k)
        = n * ∑ j ∈ range n, nth v j ^ 2 := by
  obtain rfl := r2c_of_new hb
  change v.length = n at hv
  refine ⟨_, r2c_forward_eq n v o hv ho, ?_⟩
  have hh := real_herm hn (fun j => nth v j)
  have h3 := dft_inner n hn (fun j => ((nth v j : ℝ) : ℂ)) (fun j => ((nth v j : ℝ) : ℂ))
  simp_rw [Complex.mul_conj] at h3
  have h4 : ∑ k ∈ range n, normSq (dft (-1) n (fun j => ((nth v j : ℝ) : ℂ)) k)
      = n * ∑ j ∈ range n, normSq ((nth v j : ℝ) : ℂ) := by exact_mod_cast h3
  rw [fold_sum n hn _ (fun k h1 h2 => by rw [← hh.2 k h1 h2, Complex.normSq_conj])] at h4
  calc _ = ∑ k ∈ range (n / 2 + 1), (if k = 0 ∨ 2 * k = n then 1 else 2)
          * normSq (dft (-1) n (fun j => ((nth v j : ℝ) : ℂ)) k) := by
        refine Finset.sum_congr rfl (fun k hk => ?_)
        rw [nth_rfftFwd _ (by rw [hv]; exact mem_range.1 hk), hv]
    _ = _ := by
        rw [h4]
        refine congrArg _ (Finset.sum_congr rfl (fun j _ => ?_))
        rw [Complex.normSq_ofReal, sq]

/-- C67: the mean of the data is the first coefficient over `n`. -/
theorem C67_mean (n : ℕ) (hn : 1 ≤ n) (b : R2c) (hb : R2c.new n = ok b) (b' : C2c)
    (hb' : C2c.new n = ok b') (v : List ℝ) (w o o' : List ℂ)
    (hv : v.length = b.lenPhys) (hw : w.length = b'.lenPhys) (ho : o.length = b.lenSpec)
    (ho' : o'.length = b'.lenSpec) :
    ∃ c d, b.forwardSlice v o = ok c ∧ b'.forwardSlice w o' = ok d ∧
      nth c 0 = ((∑ j ∈ range n, nth v j : ℝ) : ℂ) ∧ nth d 0 = ∑ j ∈ range n, nth w j := by
  obtain rfl := r2c_of_new hb
  obtain rfl := c2c_of_new hb'
  change v.length = n at hv
  change w.length = n at hw
  refine ⟨_, _, r2c_forward_eq n v o hv ho, wp_c2c_forward n w o' hw ho', ?_, ?_⟩
  · rw [nth_rfftFwd _ (by omega), hv]
    unfold dft
    push_cast
    refine Finset.sum_congr rfl (fun j _ => ?_)
    rw [twiddle_comm, twiddle_zero, mul_one]
  · rw [nth_fftFwd _ (by omega), hw]
    unfold dft
    refine Finset.sum_congr rfl (fun j _ => ?_)
    rw [twiddle_comm, twiddle_zero, mul_one]

end Verif.Props
