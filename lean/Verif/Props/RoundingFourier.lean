/-
Properties C83-C86: rounding errors of the Fourier bases.
-/
import Verif.Proof.RndFourier
import Verif.Proof.RndGrid
import Verif.Proof.RndForm
import Verif.Props.Fourier
import Verif.Props.Accuracy

namespace Verif.Props
open Res Spec Finset

variable {R : Rounding}

/-! ### C83 -/

/-- C83: in arithmetic with rounding to nearest, `gradient` of order `d` of `fourier_r2c(n)` multiplies every
coefficient by `(i k)^d` with a relative error of at most `γ_d` in the real and in the imaginary part. -/
theorem C83_r2c_gradient (hR : R.Nearest) {n : ℕ} (hN : R.Integers n) {d : ℕ} (hd : d * R.u < 1) (hu : R.u < 1) (b : R2c)
    (hb : R2c.new n = ok b) (c out : List (RndC R)) (hc : c.length = b.lenSpec) (ho : out.length = b.lenOrth) :
    ∃ g, b.gradientSlice (A := Rnd R) c out d = ok g ∧ g.length = b.lenOrth ∧ ∀ k < g.length,
      |(nth g k).val.re - ((Complex.I * k) ^ d * (nth c k).val).re| ≤ R.γ d * |((Complex.I * k) ^ d * (nth c k).val).re| ∧
      |(nth g k).val.im - ((Complex.I * k) ^ d * (nth c k).val).im| ≤ R.γ d * |((Complex.I * k) ^ d * (nth c k).val).im| := by
  obtain rfl := r2c_of_new hb
  obtain ⟨g, e, hl, h⟩ := r2c_gradient_form (A := Rnd R) ⟨n, n / 2 + 1⟩ c out d hc ho
  refine ⟨g, e, hl, fun k hk => ?_⟩
  change g.length = n / 2 + 1 at hl
  have hk' : k < n / 2 + 1 := by omega
  rw [h k hk', mul_comm ((Complex.I * (k : ℂ)) ^ d)]
  rcases Nat.lt_or_ge k (n + 1) with h' | h'
  · exact (CloseC.iterate hR hu (hN k (by omega)) (nth c k) d).re_im hd
  · omega

/-- C83: `gradient` of `fourier_c2c(n)` with rounding differs from its exact run by a relative error of at most `γ_d`,
in the real and in the imaginary part of every coefficient. -/
theorem C83_c2c_gradient (hR : R.Nearest) {n : ℕ} (hn : 1 ≤ n) (hN : R.Integers n) {d : ℕ} (hd : d * R.u < 1) (hu : R.u < 1)
    (b : C2c) (hb : C2c.new n = ok b) (c out : List (RndC R)) (out' : List ℂ) (hc : c.length = b.lenSpec)
    (ho : out.length = b.lenOrth) (ho' : out'.length = b.lenOrth) :
    ∃ g gR, b.gradientSlice (A := Rnd R) c out d = ok g ∧ b.gradientSlice (valsC c) out' d = ok gR ∧
      g.length = gR.length ∧ ∀ k < g.length,
        |(nth g k).val.re - (nth gR k).re| ≤ R.γ d * |(nth gR k).re| ∧
        |(nth g k).val.im - (nth gR k).im| ≤ R.γ d * |(nth gR k).im| := by
  obtain rfl := c2c_of_new hb
  change c.length = n at hc
  obtain ⟨g, e, hl, h⟩ := c2c_gradient_form (A := Rnd R) n hn c out d hc ho
  refine ⟨g, _, e, c2c_gradient_eq n hn (valsC c) out' d (by rw [valsC_length, hc]) ho', by simpa using hl, fun k hk => ?_⟩
  have ek : ∀ {f : ℕ → ℂ}, nth ((List.range n).map f) k = f k := nth_map_range _ _ _ (by omega)
  rw [h k (by omega), ek, nth_valsC]
  refine (CloseC.iterate hR hu (hN _ ?_) (nth c k) d).re_im hd
  unfold c2cCodeK
  split <;> omega

/-! ### C84 -/

section transforms
variable [HasFft (Rnd R) (RndC R)] {n : ℕ} {η : ℝ}

/-- scaled coefficients -/
private theorem scale_near (hu : R.u < 1) (h2 : 2 * R.u < 1) {cor : Rnd R} {θ : ℝ} (f : Fac R.u 1 θ)
    (h : cor.val = (n : ℝ)⁻¹ * θ) (z : RndC R) :
    ‖(Cplx.pair (cor * Cplx.re z) (cor * Cplx.im z) : RndC R).val - (n : ℂ)⁻¹ * z.val‖ ≤ R.γ 2 * ‖(n : ℂ)⁻¹ * z.val‖ :=
  (CloseC.scale hu f h z).norm (by exact_mod_cast h2)

/-- C84: `forward` of `fourier_c2c(n)` in arithmetic with rounding has the relative error `η` of the Fourier
transform. -/
theorem C84_c2c_forward (hF : FftError R n η) (b : C2c) (hb : C2c.new n = ok b) (v out : List (RndC R)) (out' : List ℂ)
    (hv : v.length = b.lenPhys) (ho : out.length = b.lenSpec) (ho' : out'.length = b.lenSpec) :
    ∃ c cR, b.forwardSlice (A := Rnd R) v out = ok c ∧ b.forwardSlice (valsC v) out' = ok cR ∧ c.length = n ∧ cR.length = n ∧
      norm2 n (fun k => nth (valsC c) k - nth cR k) ≤ η * norm2 n (nth cR) := by
  obtain rfl := c2c_of_new hb
  change v.length = n at hv
  have hvl : (valsC v).length = n := by rw [valsC_length, hv]
  exact ⟨_, _, c2c_forward_rnd v out hv ho, wp_c2c_forward n _ _ hvl ho', (hF.fwd v hv).1, by rw [length_fftFwd, hvl],
    (hF.fwd v hv).2⟩

/-- C84: `backward` of `fourier_c2c(n)` in arithmetic with rounding has a relative error of at most
`(1+η)(1+γ₂)-1` in the Euclidean norm. -/
theorem C84_c2c_backward (h0 : 0 ≤ η) (hF : FftError R n η) (hn : 1 ≤ n) (hN : R.Integers n) (h2 : 2 * R.u < 1) (b : C2c)
    (hb : C2c.new n = ok b) (c out : List (RndC R)) (out' : List ℂ) (hc : c.length = b.lenSpec)
    (ho : out.length = b.lenPhys) (ho' : out'.length = b.lenPhys) :
    ∃ v vR, b.backwardSlice (A := Rnd R) c out = ok v ∧ b.backwardSlice (valsC c) out' = ok vR ∧ v.length = n ∧ vR.length = n ∧
      norm2 n (fun k => nth (valsC v) k - nth vR k) ≤ ((1 + η) * (1 + R.γ 2) - 1) * norm2 n (nth vR) := by
  obtain rfl := c2c_of_new hb
  change c.length = n at hc
  have hu : R.u < 1 := by linarith [R.u_nonneg]
  have hg := R.γ_nonneg (k := 2) (by exact_mod_cast h2)
  have hcl : (valsC c).length = n := by rw [valsC_length, hc]
  obtain ⟨cor, θ, hcor, f, hcv⟩ := cor_ok hu hn (hN n le_rfl)
  refine ⟨_, _, c2c_backward_rnd hcor c out hc ho, wp_c2c_backward n hn _ _ hcl ho', ?_⟩
  set x := c.map fun z : RndC R => (Cplx.pair (cor * Cplx.re z) (cor * Cplx.im z) : RndC R) with hx
  set y := (valsC c).map (fun z => (n : ℂ)⁻¹ * z) with hy
  have hxl : x.length = n := by rw [hx, List.length_map, hc]
  have hxvl : (valsC x).length = n := by rw [valsC_length, hxl]
  have hyl : y.length = n := by rw [hy, List.length_map, hcl]
  obtain ⟨hl, he⟩ := hF.inv x hxl
  refine ⟨hl, by rw [length_fftInv, hyl], ?_⟩
  have h1 : norm2 n (fun k => nth (fftInv (valsC x)) k - nth (fftInv y) k) ≤ R.γ 2 * norm2 n (nth (fftInv y)) := by
    rw [fftInv_sub hn _ _ hxvl hyl, fftInv_norm hn _ hyl, mul_left_comm]
    refine mul_le_mul_of_nonneg_left (norm2_le hg fun k hk => ?_) (Real.sqrt_nonneg _)
    rw [nth_valsC, hx, hy, nth_map _ _ _ (by omega), nth_map _ _ _ (by omega), nth_valsC]
    exact scale_near hu h2 f hcv _
  have h3 := norm2_le_add n (nth (fftInv (valsC x))) (nth (fftInv y))
  have h4 := norm2_tri n (nth (valsC (HasFft.inv x))) (nth (fftInv (valsC x))) (nth (fftInv y))
  nlinarith [mul_le_mul_of_nonneg_left (h3.trans (add_le_add_right h1 _)) h0]

/-- C84: `forward` of `fourier_r2c(n)`, with the norm of the full spectrum. -/
theorem C84_r2c_forward (hF : FftError R n η) (b : R2c) (hb : R2c.new n = ok b) (v : List (Rnd R)) (out : List (RndC R))
    (out' : List ℂ) (hv : v.length = b.lenPhys) (ho : out.length = b.lenSpec) (ho' : out'.length = b.lenSpec) :
    ∃ c cR, b.forwardSlice v out = ok c ∧ b.forwardSlice (vals v) out' = ok cR ∧ c.length = n / 2 + 1 ∧
      cR.length = n / 2 + 1 ∧ normH n (fun k => nth (valsC c) k - nth cR k) ≤ η * normH n (nth cR) := by
  obtain rfl := r2c_of_new hb
  change v.length = n at hv
  have hvl : (vals v).length = n := by rw [vals_length, hv]
  exact ⟨_, _, r2c_forward_rnd v out hv ho, r2c_forward_eq n _ _ hvl ho', (hF.rfwd v hv).1, by rw [length_rfftFwd, hvl],
    (hF.rfwd v hv).2⟩

/-- C84: `backward` of `fourier_r2c(n)` has a relative error of at most `(1+η)(1+γ₂)-1` in the Euclidean norm. -/
theorem C84_r2c_backward (h0 : 0 ≤ η) (hF : FftError R n η) (hn : 1 ≤ n) (hN : R.Integers n) (h2 : 2 * R.u < 1) (b : R2c)
    (hb : R2c.new n = ok b) (c : List (RndC R)) (out : List (Rnd R)) (out' : List ℝ) (hc : c.length = b.lenSpec)
    (ho : out.length = b.lenPhys) (ho' : out'.length = b.lenPhys) :
    ∃ v vR, b.backwardSlice c out = ok v ∧ b.backwardSlice (valsC c) out' = ok vR ∧ v.length = n ∧ vR.length = n ∧
      norm2 n (fun k => nth (vals v) k - nth vR k) ≤ ((1 + η) * (1 + R.γ 2) - 1) * norm2 n (nth vR) := by
  obtain rfl := r2c_of_new hb
  change c.length = n / 2 + 1 at hc
  have hu : R.u < 1 := by linarith [R.u_nonneg]
  have hg := R.γ_nonneg (k := 2) (by exact_mod_cast h2)
  have hcl : (valsC c).length = n / 2 + 1 := by rw [valsC_length, hc]
  obtain ⟨cor, θ, hcor, f, hcv⟩ := cor_ok hu hn (hN n le_rfl)
  obtain ⟨x, ex, hxl, hxk⟩ := r2c_backward_rnd hcor c out hc ho
  have hxvl : (valsC x).length = n / 2 + 1 := by rw [valsC_length, hxl]
  have him : ∀ k, k = 0 ∨ 2 * k = n → (nth (valsC x) k).im = 0 := fun k hk => by
    rw [nth_valsC, hxk k (by omega), if_pos hk]; rfl
  have eY : rfftInv n (valsC x) = ok ((List.range n).map fun j => (dft 1 n (hermF n (nth (valsC x))) j).re) := by
    unfold rfftInv
    rw [show assertR ((valsC x).length = n / 2 + 1) = ok () from if_pos hxvl, bind_ok,
      show assertR ((nth (valsC x) 0).im = 0) = ok () from if_pos (him 0 (Or.inl rfl)), bind_ok,
      show assertR (n % 2 = 0 → (nth (valsC x) (n / 2)).im = 0) = ok () from if_pos (fun h => him _ (Or.inr (by omega))), bind_ok]
    show ok _ = ok _
    refine congrArg ok (List.map_congr_left fun j _ => ?_)
    rw [list_sum_range]; rfl
  obtain ⟨v, ev, hvl, he⟩ := hF.rinv x _ eY
  refine ⟨v, _, ex.trans ev, r2c_backward_eq n hn _ _ hcl ho', hvl, by simp, ?_⟩
  set Y := (List.range n).map fun j => (dft 1 n (hermF n (nth (valsC x))) j).re with hY
  set Z := (List.range n).map fun j => (dft 1 n (r2cHerm n (valsC c)) j).re with hZ
  have imP : ∀ k, k = 0 ∨ 2 * k = n → (r2cPrep n (valsC c) k).im = 0 := fun k hk => by
    rw [r2cPrep, if_pos hk]; exact Complex.ofReal_im _
  have hpk : ∀ k < n / 2 + 1, ‖nth (valsC x) k - r2cPrep n (valsC c) k‖ ≤ R.γ 2 * ‖r2cPrep n (valsC c) k‖ := by
    intro k hk
    have hs := CloseC.scale hu f hcv (nth c k)
    rw [nth_valsC, hxk k hk, r2cPrep, nth_valsC]
    by_cases h : k = 0 ∨ 2 * k = n
    · rw [if_pos h, if_pos h]
      have h' := (hs.re_im (by exact_mod_cast h2)).1
      have e : ((n : ℂ)⁻¹ * (nth c k).val).re = (n : ℝ)⁻¹ * (nth c k).val.re := by
        rw [show (n : ℂ)⁻¹ = (((n : ℝ)⁻¹ : ℝ) : ℂ) by simp, Complex.re_ofReal_mul]
      rw [e] at h'
      refine norm_le_of_re_im hg ?_ ?_
      · rw [Complex.sub_re, Complex.ofReal_re]; exact h'
      · rw [Complex.sub_im, Complex.ofReal_im]
        show |(0 : ℝ) - 0| ≤ _
        simp
    · rw [if_neg h, if_neg h]
      exact hs.norm (by exact_mod_cast h2)
  have h1 : norm2 n (fun j => nth Y j - nth Z j) ≤ R.γ 2 * norm2 n (nth Z) := by
    have e1 : norm2 n (fun j => nth Y j - nth Z j)
        = norm2 n (fun j => (dft 1 n (hermF n (fun k => nth (valsC x) k - r2cPrep n (valsC c) k)) j).re) := by
      refine norm2_congr fun j hj => ?_
      have ej : ∀ {f : ℕ → ℝ}, nth ((List.range n).map f) j = f j := nth_map_range _ _ _ hj
      rw [hY, hZ, ej, ej, ← Complex.sub_re, ← dft_sub]
      exact congrArg Complex.re (dft_congr j fun k _ => (hermF_sub _ _ k).symm)
    have e2 : norm2 n (nth Z) = norm2 n (fun j => (dft 1 n (hermF n (r2cPrep n (valsC c))) j).re) :=
      norm2_congr fun j hj => by
        have ej : ∀ {f : ℕ → ℝ}, nth ((List.range n).map f) j = f j := nth_map_range _ _ _ hj
        rw [hZ, ej]; rfl
    rw [e1, e2, hermF_norm hn (fun k hk => by rw [Complex.sub_im, him k hk, imP k hk, sub_zero]), hermF_norm hn imP,
      mul_left_comm]
    exact mul_le_mul_of_nonneg_left (normH_le hg hpk) (Real.sqrt_nonneg _)
  have h3 := norm2_le_add n (nth Y) (nth Z)
  have h4 := norm2_tri n (nth (vals v)) (nth Y) (nth Z)
  nlinarith [mul_le_mul_of_nonneg_left (h3.trans (add_le_add_right h1 _)) h0]

/-! ### C85 -/

/-- C85: in arithmetic with rounding `backward` after `forward` returns the data up to a relative error of
`(1+η)²(1+γ₂)-1` in the Euclidean norm: `fourier_c2c`. -/
theorem C85_c2c_backward_forward (h0 : 0 ≤ η) (hF : FftError R n η) (hn : 1 ≤ n) (hN : R.Integers n) (h2 : 2 * R.u < 1)
    (b : C2c) (hb : C2c.new n = ok b) (v w out : List (RndC R)) (hv : v.length = b.lenPhys) (hw : w.length = b.lenSpec)
    (ho : out.length = b.lenPhys) :
    ∃ c z, b.forwardSlice (A := Rnd R) v w = ok c ∧ b.backwardSlice (A := Rnd R) c out = ok z ∧ z.length = n ∧
      norm2 n (fun k => nth (valsC z) k - nth (valsC v) k) ≤ ((1 + η) ^ 2 * (1 + R.γ 2) - 1) * norm2 n (nth (valsC v)) := by
  have hg := R.γ_nonneg (k := 2) (by exact_mod_cast h2)
  have hb' := hb
  obtain rfl := c2c_of_new hb
  change v.length = n at hv
  have z0 : (List.replicate n (0 : ℂ)).length = n := by simp
  have hvl : (valsC v).length = n := by rw [valsC_length, hv]
  have hs : 0 < √(n : ℝ) := Real.sqrt_pos.mpr (by exact_mod_cast hn)
  obtain ⟨c, cR, e1, e2, l1, l2, h1⟩ := C84_c2c_forward hF ⟨n, n⟩ hb' v w (List.replicate n 0) hv hw z0
  have hcl : (valsC c).length = n := by rw [valsC_length, l1]
  obtain ⟨z, zR, e3, e4, l3, l4, h3⟩ := C84_c2c_backward h0 hF hn hN h2 ⟨n, n⟩ hb' c out (List.replicate n 0) l1 ho z0
  refine ⟨c, z, e1, e3, l3, ?_⟩
  obtain ⟨cR', a1, -, a2⟩ := C24_backward_forward n hn ⟨n, n⟩ hb' (valsC v) (List.replicate n 0) (List.replicate n 0) hvl z0 z0
  obtain rfl := Res.ok.inj (e2.symm.trans a1)
  have h4 := c2c_bwd_sub hn hcl l2 z0 z0 e4 a2
  have h5 := c2c_fwd_norm hn hvl z0 e2
  have h6 : norm2 n (fun k => nth zR k - nth (valsC v) k) ≤ η * norm2 n (nth (valsC v)) := by
    refine le_of_mul_le_mul_left ?_ hs
    rw [h4, mul_left_comm, ← h5]; exact h1
  have h7 := norm2_le_add n (nth zR) (nth (valsC v))
  have h8 := norm2_tri n (nth (valsC z)) (nth zR) (nth (valsC v))
  have hk : 0 ≤ (1 + η) * (1 + R.γ 2) - 1 := by nlinarith
  nlinarith [mul_le_mul_of_nonneg_left (h7.trans (add_le_add_right h6 _)) hk]

/-- C85: `forward` after `backward`: `fourier_c2c`. -/
theorem C85_c2c_forward_backward (h0 : 0 ≤ η) (hF : FftError R n η) (hn : 1 ≤ n) (hN : R.Integers n) (h2 : 2 * R.u < 1)
    (b : C2c) (hb : C2c.new n = ok b) (c w out : List (RndC R)) (hc : c.length = b.lenSpec) (hw : w.length = b.lenPhys)
    (ho : out.length = b.lenSpec) :
    ∃ v z, b.backwardSlice (A := Rnd R) c w = ok v ∧ b.forwardSlice (A := Rnd R) v out = ok z ∧ z.length = n ∧
      norm2 n (fun k => nth (valsC z) k - nth (valsC c) k) ≤ ((1 + η) ^ 2 * (1 + R.γ 2) - 1) * norm2 n (nth (valsC c)) := by
  have hg := R.γ_nonneg (k := 2) (by exact_mod_cast h2)
  have hb' := hb
  obtain rfl := c2c_of_new hb
  change c.length = n at hc
  have z0 : (List.replicate n (0 : ℂ)).length = n := by simp
  have hcl : (valsC c).length = n := by rw [valsC_length, hc]
  obtain ⟨v, vR, e1, e2, l1, l2, h1⟩ := C84_c2c_backward h0 hF hn hN h2 ⟨n, n⟩ hb' c w (List.replicate n 0) hc hw z0
  have hvl : (valsC v).length = n := by rw [valsC_length, l1]
  obtain ⟨z, zR, e3, e4, l3, l4, h3⟩ := C84_c2c_forward hF ⟨n, n⟩ hb' v out (List.replicate n 0) l1 ho z0
  refine ⟨v, z, e1, e3, l3, ?_⟩
  obtain ⟨vR', a1, -, a2⟩ := C24_forward_backward n hn ⟨n, n⟩ hb' (valsC c) (List.replicate n 0) (List.replicate n 0) hcl z0 z0
  obtain rfl := Res.ok.inj (e2.symm.trans a1)
  have h4 := c2c_fwd_sub hn hvl l2 z0 z0 e4 a2
  have h5 := c2c_bwd_norm hn hcl z0 e2
  have h6 : norm2 n (fun k => nth zR k - nth (valsC c) k) ≤ ((1 + η) * (1 + R.γ 2) - 1) * norm2 n (nth (valsC c)) := by
    rw [h4, ← h5, mul_left_comm]
    exact mul_le_mul_of_nonneg_left h1 (Real.sqrt_nonneg _)
  have h7 := norm2_le_add n (nth zR) (nth (valsC c))
  have h8 := norm2_tri n (nth (valsC z)) (nth zR) (nth (valsC c))
  nlinarith [mul_le_mul_of_nonneg_left (h7.trans (add_le_add_right h6 _)) h0]

/-- C85: `backward` after `forward`: `fourier_r2c`. -/
theorem C85_r2c_backward_forward (h0 : 0 ≤ η) (hF : FftError R n η) (hn : 1 ≤ n) (hN : R.Integers n) (h2 : 2 * R.u < 1)
    (b : R2c) (hb : R2c.new n = ok b) (v out : List (Rnd R)) (w : List (RndC R)) (hv : v.length = b.lenPhys)
    (hw : w.length = b.lenSpec) (ho : out.length = b.lenPhys) :
    ∃ c z, b.forwardSlice v w = ok c ∧ b.backwardSlice c out = ok z ∧ z.length = n ∧
      norm2 n (fun k => nth (vals z) k - nth (vals v) k) ≤ ((1 + η) ^ 2 * (1 + R.γ 2) - 1) * norm2 n (nth (vals v)) := by
  have hg := R.γ_nonneg (k := 2) (by exact_mod_cast h2)
  have hb' := hb
  obtain rfl := r2c_of_new hb
  change v.length = n at hv
  have z0 : (List.replicate (n / 2 + 1) (0 : ℂ)).length = n / 2 + 1 := by simp
  have y0 : (List.replicate n (0 : ℝ)).length = n := by simp
  have hvl : (vals v).length = n := by rw [vals_length, hv]
  have hs : 0 < √(n : ℝ) := Real.sqrt_pos.mpr (by exact_mod_cast hn)
  obtain ⟨c, cR, e1, e2, l1, l2, h1⟩ := C84_r2c_forward hF ⟨n, n / 2 + 1⟩ hb' v w (List.replicate (n / 2 + 1) 0) hv hw z0
  have hcl : (valsC c).length = n / 2 + 1 := by rw [valsC_length, l1]
  obtain ⟨z, zR, e3, e4, l3, l4, h3⟩ := C84_r2c_backward h0 hF hn hN h2 ⟨n, n / 2 + 1⟩ hb' c out (List.replicate n 0) l1 ho y0
  refine ⟨c, z, e1, e3, l3, ?_⟩
  obtain ⟨cR', a1, -, a2⟩ := C28_backward_forward n hn ⟨n, n / 2 + 1⟩ hb' (vals v) (List.replicate n 0)
    (List.replicate (n / 2 + 1) 0) hvl z0 y0
  obtain rfl := Res.ok.inj (e2.symm.trans a1)
  have h4 := r2c_bwd_sub hn hcl l2 y0 y0 e4 a2
  have h5 := r2c_fwd_norm hn hvl z0 e2
  have h6 : norm2 n (fun k => nth zR k - nth (vals v) k) ≤ η * norm2 n (nth (vals v)) := by
    refine le_of_mul_le_mul_left ?_ hs
    rw [mul_left_comm, ← h5]; exact h4.trans h1
  have h7 := norm2_le_add n (nth zR) (nth (vals v))
  have h8 := norm2_tri n (nth (vals z)) (nth zR) (nth (vals v))
  have hk : 0 ≤ (1 + η) * (1 + R.γ 2) - 1 := by nlinarith
  nlinarith [mul_le_mul_of_nonneg_left (h7.trans (add_le_add_right h6 _)) hk]

/-- C85: `forward` after `backward`: `fourier_r2c`, coefficients with a real mean and, for even `n`, a real last
coefficient. -/
theorem C85_r2c_forward_backward (h0 : 0 ≤ η) (hF : FftError R n η) (hn : 1 ≤ n) (hN : R.Integers n) (h2 : 2 * R.u < 1)
    (b : R2c) (hb : R2c.new n = ok b) (c out : List (RndC R)) (w : List (Rnd R)) (hc : c.length = b.lenSpec)
    (hw : w.length = b.lenPhys) (ho : out.length = b.lenSpec) (hc0 : (nth c 0).val.im = 0)
    (hcN : n % 2 = 0 → (nth c (n / 2)).val.im = 0) :
    ∃ v z, b.backwardSlice c w = ok v ∧ b.forwardSlice v out = ok z ∧ z.length = n / 2 + 1 ∧
      normH n (fun k => nth (valsC z) k - nth (valsC c) k) ≤ ((1 + η) ^ 2 * (1 + R.γ 2) - 1) * normH n (nth (valsC c)) := by
  have hg := R.γ_nonneg (k := 2) (by exact_mod_cast h2)
  have hb' := hb
  obtain rfl := r2c_of_new hb
  change c.length = n / 2 + 1 at hc
  have z0 : (List.replicate (n / 2 + 1) (0 : ℂ)).length = n / 2 + 1 := by simp
  have y0 : (List.replicate n (0 : ℝ)).length = n := by simp
  have hcl : (valsC c).length = n / 2 + 1 := by rw [valsC_length, hc]
  obtain ⟨v, vR, e1, e2, l1, l2, h1⟩ := C84_r2c_backward h0 hF hn hN h2 ⟨n, n / 2 + 1⟩ hb' c w (List.replicate n 0) hc hw y0
  have hvl : (vals v).length = n := by rw [vals_length, l1]
  obtain ⟨z, zR, e3, e4, l3, l4, h3⟩ := C84_r2c_forward hF ⟨n, n / 2 + 1⟩ hb' v out (List.replicate (n / 2 + 1) 0) l1 ho z0
  refine ⟨v, z, e1, e3, l3, ?_⟩
  obtain ⟨vR', a1, -, a2⟩ := C28_forward_backward n hn ⟨n, n / 2 + 1⟩ hb' (valsC c) (List.replicate (n / 2 + 1) 0)
    (List.replicate n 0) hcl y0 z0 (by rw [nth_valsC]; exact hc0) (fun h => by rw [nth_valsC]; exact hcN h)
  obtain rfl := Res.ok.inj (e2.symm.trans a1)
  have h4 := r2c_fwd_sub hn hvl l2 z0 z0 e4 a2
  have h5 := r2c_fwd_norm hn l2 z0 a2
  have h6 : normH n (fun k => nth zR k - nth (valsC c) k) ≤ ((1 + η) * (1 + R.γ 2) - 1) * normH n (nth (valsC c)) := by
    rw [h4, h5, mul_left_comm]
    exact mul_le_mul_of_nonneg_left h1 (Real.sqrt_nonneg _)
  have h7 := normH_le_add n (nth zR) (nth (valsC c))
  have h8 := normH_tri n (nth (valsC z)) (nth zR) (nth (valsC c))
  nlinarith [mul_le_mul_of_nonneg_left (h7.trans (add_le_add_right h6 _)) h0]

/-! ### C86 -/

private theorem norm2_const {n : ℕ} {f : ℕ → ℝ} {B : ℝ} (h : ∀ j < n, |f j| ≤ B) : norm2 n f ≤ √n * B := by
  have h1 : norm2 n f ≤ 1 * norm2 n (fun _ => max B 0) := norm2_le zero_le_one fun k hk => by
    rw [one_mul, Real.norm_eq_abs, Real.norm_eq_abs, abs_of_nonneg (le_max_right B 0)]
    exact (h k hk).trans (le_max_left _ _)
  rw [one_mul] at h1
  rcases Nat.eq_zero_or_pos n with rfl | hn
  · simp [norm2]
  have hB : 0 ≤ B := (abs_nonneg _).trans (h 0 hn)
  rw [max_eq_left hB] at h1
  refine h1.trans (le_of_eq ?_)
  unfold norm2
  rw [Finset.sum_const, card_range, nsmul_eq_mul, Real.sqrt_mul (by positivity), Real.norm_eq_abs, sq_abs, Real.sqrt_sq hB]

private theorem grad_norm {n d : ℕ} {x y : ℕ → ℂ} (h : ∀ k < n / 2 + 1, x k = (Complex.I * k) ^ d * y k) :
    normH n x ≤ ((n : ℝ) / 2) ^ d * normH n y := by
  refine normH_le (by positivity) fun k hk => ?_
  rw [h k hk, norm_mul, norm_pow, norm_mul, Complex.norm_I, one_mul, Complex.norm_natCast]
  refine mul_le_mul_of_nonneg_right (pow_le_pow_left₀ (by positivity) ?_ d) (norm_nonneg _)
  have : 2 * k ≤ n := by omega
  have : 2 * (k : ℝ) ≤ n := by exact_mod_cast this
  linarith

set_option maxHeartbeats 1600000 in
/-- C86: let `f` be the sum of a real Fourier series with `∑ k^d (|Aₖ| + |Bₖ|) < ∞`, `|f| ≤ F` on the grid, and `v` its
samples on the exact grid `2πj/n` of `fourier_r2c(n)` up to `ε`.  In arithmetic with rounding to nearest and with
Fourier transforms of relative accuracy `η`, `forward`, `gradient` of order `d` and `backward` compute the `d`-th
derivative of `f` at the grid points with a root mean square error of at most twice the tail of the series and
`(n/2)^d (((1+η)²(1+γ_{d+2})-1)(F+ε) + ε)`. -/
theorem C86_r2c_derivative (hR : R.Nearest) (h0 : 0 ≤ η) (hF : FftError R n η) (hn : 1 ≤ n) (hN : R.Integers n) (d : ℕ)
    (hd31 : d < 2 ^ 31) (hd : ((d + 2 : ℕ) : ℝ) * R.u < 1) (b : R2c) (hb : R2c.new n = ok b) (A B : ℕ → ℝ)
    (hs : Summable (fun k : ℕ => (k : ℝ) ^ d * (|A k| + |B k|))) (f : ℝ → ℝ)
    (hf : ∀ x, HasSum (fun k : ℕ => A k * Real.cos (k * x) + B k * Real.sin (k * x)) (f x)) (F ε : ℝ)
    (hFf : ∀ j < n, |f (2 * Real.pi * j / n)| ≤ F) (v : List (Rnd R)) (hv : v.length = b.lenPhys)
    (hvf : ∀ j < n, |(nth v j).val - f (2 * Real.pi * j / n)| ≤ ε) (out out' : List (RndC R)) (out'' : List (Rnd R))
    (ho : out.length = b.lenSpec) (ho' : out'.length = b.lenOrth) (ho'' : out''.length = b.lenPhys) :
    ∃ c g w, b.forwardSlice v out = ok c ∧ b.gradientSlice (A := Rnd R) c out' d = ok g ∧ b.backwardSlice g out'' = ok w ∧
      w.length = n ∧ norm2 n (fun j => (nth w j).val - iteratedDeriv d f (2 * Real.pi * j / n))
        ≤ √n * (2 * (∑' k : {k : ℕ // n ≤ 2 * k}, (k : ℝ) ^ d * (|A k| + |B k|))
          + ((n : ℝ) / 2) ^ d * (((1 + η) ^ 2 * (1 + R.γ (d + 2)) - 1) * (F + ε) + ε)) := by
  have hu0 := R.u_nonneg
  have lt : ∀ {j : ℕ}, j ≤ d + 2 → (j : ℝ) * R.u < 1 := fun hj =>
    lt_of_le_of_lt (mul_le_mul_of_nonneg_right (by exact_mod_cast hj) hu0) hd
  have hu : R.u < 1 := by have := lt (j := 1) (by omega); simpa using this
  have h2 : 2 * R.u < 1 := by have := lt (j := 2) (by omega); exact_mod_cast this
  have hg2 := R.γ_nonneg (k := 2) (lt (by omega))
  have hgd := R.γ_nonneg (k := d) (lt (by omega))
  have hs0 : 0 < √(n : ℝ) := Real.sqrt_pos.mpr (by exact_mod_cast hn)
  obtain ⟨xg, hxg, hxl, hxj⟩ := C23_r2c_coords n hn b hb
  have hb' := hb
  obtain rfl := r2c_of_new hb
  change v.length = n at hv
  have z0 : (List.replicate (n / 2 + 1) (0 : ℂ)).length = n / 2 + 1 := by simp
  have y0 : (List.replicate n (0 : ℝ)).length = n := by simp
  have hvl : (vals v).length = n := by rw [vals_length, hv]
  -- exact run
  obtain ⟨xg', ce, ge, we, hx', hce, hge, hwe, hwel, -, hacc⟩ := C80_fourier_r2c n hn ⟨n, n / 2 + 1⟩ hb' A B d hd31 hs f hf
    (List.replicate (n / 2 + 1) 0) (List.replicate (n / 2 + 1) 0) (List.replicate n 0) z0 z0 y0
  obtain rfl : xg = xg' := by rw [hxg] at hx'; exact Res.ok.inj hx'
  have hFe : 0 ≤ F := (abs_nonneg _).trans (hFf 0 (by omega))
  have hε : 0 ≤ ε := (abs_nonneg _).trans (hvf 0 (by omega))
  set S := √(n : ℝ) with hS
  set M := ((n : ℝ) / 2) ^ d with hM
  have hM0 : 0 ≤ M := by positivity
  have hvn : norm2 n (nth (vals v)) ≤ S * (F + ε) := norm2_const fun j hj => by
    rw [Rnd.nth_vals]
    have := abs_add_le ((nth v j).val - f (2 * Real.pi * j / n)) (f (2 * Real.pi * j / n))
    rw [sub_add_cancel] at this
    linarith [hvf j hj, hFf j hj]
  -- coefficients
  obtain ⟨c, cR, e1, e2, l1, l2, h1⟩ := C84_r2c_forward hF ⟨n, n / 2 + 1⟩ hb' v out (List.replicate (n / 2 + 1) 0) hv ho z0
  have hcR := r2c_fwd_norm hn hvl z0 e2
  have hcRb : normH n (nth cR) ≤ S * (S * (F + ε)) := by
    rw [hcR]; exact mul_le_mul_of_nonneg_left hvn hs0.le
  have hcd : normH n (fun k => nth cR k - nth ce k) ≤ S * (S * ε) := by
    rw [r2c_fwd_sub hn hvl (by rw [List.length_map, hxl]) z0 z0 e2 hce]
    refine mul_le_mul_of_nonneg_left (norm2_const fun j hj => ?_) hs0.le
    rw [Rnd.nth_vals, nth_map _ _ _ (by omega), hxj j hj]
    exact hvf j hj
  have hc1 : normH n (fun k => nth (valsC c) k - nth cR k) ≤ η * (S * (S * (F + ε))) :=
    h1.trans (mul_le_mul_of_nonneg_left hcRb h0)
  have hcn : normH n (nth (valsC c)) ≤ (1 + η) * (S * (S * (F + ε))) := by
    have := normH_le_add n (nth (valsC c)) (nth cR)
    linarith
  have hce' : normH n (fun k => nth (valsC c) k - nth ce k) ≤ η * (S * (S * (F + ε))) + S * (S * ε) :=
    (normH_tri n _ (nth cR) _).trans (add_le_add hc1 hcd)
  -- gradient
  obtain ⟨g, e3, l3, h3⟩ := r2c_gradient_form (A := Rnd R) ⟨n, n / 2 + 1⟩ c out' d l1 ho'
  change g.length = n / 2 + 1 at l3
  have hgl : (valsC g).length = n / 2 + 1 := by rw [valsC_length, l3]
  have hDn : normH n (fun k => (Complex.I * k) ^ d * nth (valsC c) k) ≤ M * ((1 + η) * (S * (S * (F + ε)))) :=
    (grad_norm fun k _ => rfl).trans (mul_le_mul_of_nonneg_left hcn hM0)
  have hgD : normH n (fun k => nth (valsC g) k - (Complex.I * k) ^ d * nth (valsC c) k)
      ≤ R.γ d * (M * ((1 + η) * (S * (S * (F + ε))))) := by
    refine (normH_le hgd (g := fun k => (Complex.I * k) ^ d * nth (valsC c) k) fun k hk => ?_).trans
      (mul_le_mul_of_nonneg_left hDn hgd)
    rw [nth_valsC, h3 k hk, nth_valsC, mul_comm ((Complex.I * (k : ℂ)) ^ d)]
    exact (CloseC.iterate hR hu (hN k (by omega)) (nth c k) d).norm (lt (by omega))
  have hcel : ce.length = n / 2 + 1 := by
    have := Res.ok.inj ((r2c_forward_eq n _ _ (by rw [List.length_map, hxl]) z0).symm.trans hce)
    rw [← this, length_rfftFwd, List.length_map, hxl]
  have hgek := Res.ok.inj ((r2c_gradient_eq ⟨n, n / 2 + 1⟩ ce _ d hcel z0).symm.trans hge)
  have hgel : ge.length = n / 2 + 1 := by rw [← hgek]; simp
  have hDg : normH n (fun k => (Complex.I * k) ^ d * nth (valsC c) k - nth ge k)
      ≤ M * (η * (S * (S * (F + ε))) + S * (S * ε)) := by
    refine (grad_norm (y := fun k => nth (valsC c) k - nth ce k) fun k hk => ?_).trans (mul_le_mul_of_nonneg_left hce' hM0)
    have ek : ∀ {f : ℕ → ℂ}, nth ((List.range (n / 2 + 1)).map f) k = f k := nth_map_range _ _ _ hk
    rw [← hgek, ek]; ring
  have hgn : normH n (nth (valsC g)) ≤ (1 + R.γ d) * (M * ((1 + η) * (S * (S * (F + ε))))) := by
    have := normH_le_add n (nth (valsC g)) (fun k => (Complex.I * k) ^ d * nth (valsC c) k)
    linarith
  have hgg : normH n (fun k => nth (valsC g) k - nth ge k) ≤ R.γ d * (M * ((1 + η) * (S * (S * (F + ε)))))
      + M * (η * (S * (S * (F + ε))) + S * (S * ε)) :=
    (normH_tri n _ (fun k => (Complex.I * k) ^ d * nth (valsC c) k) _).trans (add_le_add hgD hDg)
  -- back
  obtain ⟨w, wR, e5, e6, l5, l6, h5⟩ := C84_r2c_backward h0 hF hn hN h2 ⟨n, n / 2 + 1⟩ hb' g out'' (List.replicate n 0) l3 ho'' y0
  refine ⟨c, g, w, e1, e3, e5, l5, ?_⟩
  have hwR : norm2 n (nth wR) ≤ (1 + R.γ d) * (M * ((1 + η) * (S * (F + ε)))) := by
    refine le_of_mul_le_mul_left ((r2c_bwd_norm hn hgl y0 e6).trans (hgn.trans (le_of_eq ?_))) hs0
    ring
  have hwd : norm2 n (fun k => nth wR k - nth we k) ≤ R.γ d * (M * ((1 + η) * (S * (F + ε))))
      + M * (η * (S * (F + ε)) + S * ε) := by
    refine le_of_mul_le_mul_left ((r2c_bwd_sub hn hgl hgel y0 y0 e6 hwe).trans (hgg.trans (le_of_eq ?_))) hs0
    ring
  have hwe' : norm2 n (fun j => nth we j - iteratedDeriv d f (2 * Real.pi * j / n))
      ≤ S * (2 * ∑' k : {k : ℕ // n ≤ 2 * k}, (k : ℝ) ^ d * (|A k| + |B k|)) := norm2_const fun j hj => by
    rw [← hxj j hj]; exact hacc j hj
  have ht1 := norm2_tri n (nth (vals w)) (nth wR) (nth we)
  have ht2 := norm2_tri n (nth (vals w)) (nth we) (fun j => iteratedDeriv d f (2 * Real.pi * j / n))
  simp only [Rnd.nth_vals] at ht1 ht2 h5
  have hk : 0 ≤ (1 + η) * (1 + R.γ 2) - 1 := by nlinarith
  have h6 := mul_le_mul_of_nonneg_left hwR hk
  have k1 := R.γ_add (j := d) (k := 2) hd
  have k2 : (1 + η) ^ 2 * ((1 + R.γ 2) * (1 + R.γ d)) ≤ (1 + η) ^ 2 * (1 + R.γ (d + 2)) :=
    mul_le_mul_of_nonneg_left (by nlinarith) (sq_nonneg _)
  have k3 : S * (M * (((1 + η) ^ 2 * ((1 + R.γ 2) * (1 + R.γ d)) - 1) * (F + ε) + ε))
      ≤ S * (M * (((1 + η) ^ 2 * (1 + R.γ (d + 2)) - 1) * (F + ε) + ε)) := by
    refine mul_le_mul_of_nonneg_left (mul_le_mul_of_nonneg_left ?_ hM0) hs0.le
    have := mul_le_mul_of_nonneg_right k2 (show 0 ≤ F + ε by linarith)
    linarith
  have k4 : S * (M * (((1 + η) ^ 2 * ((1 + R.γ 2) * (1 + R.γ d)) - 1) * (F + ε) + ε))
      = ((1 + η) * (1 + R.γ 2) - 1) * ((1 + R.γ d) * (M * ((1 + η) * (S * (F + ε)))))
        + (R.γ d * (M * ((1 + η) * (S * (F + ε)))) + M * (η * (S * (F + ε)) + S * ε)) := by ring
  rw [mul_add]
  linarith

end transforms

/-! The hypotheses are met: Fourier transforms with correctly rounded results, numbers with 53 binary digits. -/

/-- rounding of a complex number -/
noncomputable def rndC (R : Rounding) (z : ℂ) : RndC R := ⟨⟨R.fl z.re⟩, ⟨R.fl z.im⟩⟩

/-- the exact transforms, rounded -/
noncomputable def roundedFft (R : Rounding) : HasFft (Rnd R) (RndC R) where
  fwd x := (fftFwd (valsC x)).map (rndC R)
  inv x := (fftInv (valsC x)).map (rndC R)
  rfwd x := (rfftFwd (vals x)).map (rndC R)
  rinv n x := do
    let y ← rfftInv n (valsC x)
    pure (y.map fun t => ⟨R.fl t⟩)

attribute [local instance] roundedFft

theorem rndC_err (z : ℂ) : ‖(rndC R z).val - z‖ ≤ R.u * ‖z‖ :=
  norm_le_of_re_im R.u_nonneg (R.err _) (R.err _)

private theorem assert_bind {T : Type} {p : Prop} [Decidable p] {f : Unit → Res T} {y : T} (h : (assertR p >>= f) = ok y) :
    f () = ok y := by
  unfold assertR at h
  split at h
  · exact h
  · cases h

theorem roundedFft_error (n : ℕ) : FftError R n R.u where
  fwd x hx := by
    have hl : (fftFwd (valsC x)).length = n := by rw [length_fftFwd, valsC_length, hx]
    refine ⟨(List.length_map _).trans hl, norm2_le R.u_nonneg fun k hk => ?_⟩
    rw [nth_valsC, show nth (HasFft.fwd x) k = rndC R (nth (fftFwd (valsC x)) k) from nth_map _ _ _ (by omega)]
    exact rndC_err _
  inv x hx := by
    have hl : (fftInv (valsC x)).length = n := by rw [length_fftInv, valsC_length, hx]
    refine ⟨(List.length_map _).trans hl, norm2_le R.u_nonneg fun k hk => ?_⟩
    rw [nth_valsC, show nth (HasFft.inv x) k = rndC R (nth (fftInv (valsC x)) k) from nth_map _ _ _ (by omega)]
    exact rndC_err _
  rfwd x hx := by
    have hl : (rfftFwd (vals x)).length = n / 2 + 1 := by rw [length_rfftFwd, vals_length, hx]
    refine ⟨(List.length_map _).trans hl, normH_le R.u_nonneg fun k hk => ?_⟩
    rw [nth_valsC, show nth (HasFft.rfwd x) k = rndC R (nth (rfftFwd (vals x)) k) from nth_map _ _ _ (by omega)]
    exact rndC_err _
  rinv x y hy := by
    have hl : y.length = n := by
      unfold rfftInv at hy
      have hy := assert_bind (assert_bind (assert_bind hy))
      rw [← Res.ok.inj hy]; simp
    refine ⟨y.map fun t => ⟨R.fl t⟩, ?_, by rw [List.length_map, hl], norm2_le R.u_nonneg fun k hk => ?_⟩
    · show (rfftInv n (valsC x) >>= _) = _
      rw [hy, bind_ok]; rfl
    · rw [Rnd.nth_vals, nth_map _ _ _ (by omega)]
      exact R.err _

private theorem u52 : (binary 52).u = 1 / 9007199254740992 := by show (2⁻¹ : ℝ) ^ 53 = _; norm_num

private theorem gam52 (k : ℕ) : (binary 52).γ k = k * (1 / 9007199254740992) / (1 - k * (1 / 9007199254740992)) := by
  unfold Rounding.γ; rw [u52]

/-- 1000 points: the round trip returns the data up to a relative error of `10⁻¹⁵`; every coefficient of the second
derivative has a relative error of at most `10⁻¹⁵`. -/
example : ∃ b : R2c, R2c.new 1000 = ok b ∧
    (∀ (v out : List (Rnd (binary 52))) (w : List (RndC (binary 52))), v.length = b.lenPhys → w.length = b.lenSpec →
      out.length = b.lenPhys → ∃ c z, b.forwardSlice v w = ok c ∧ b.backwardSlice c out = ok z ∧
        norm2 1000 (fun k => nth (vals z) k - nth (vals v) k) ≤ 1 / 10 ^ 15 * norm2 1000 (nth (vals v))) ∧
    ∀ c out : List (RndC (binary 52)), c.length = b.lenSpec → out.length = b.lenOrth →
      ∃ g, b.gradientSlice (A := Rnd (binary 52)) c out 2 = ok g ∧ ∀ k < g.length,
        |(nth g k).val.re - ((Complex.I * k) ^ 2 * (nth c k).val).re| ≤ 1 / 10 ^ 15 * |((Complex.I * k) ^ 2 * (nth c k).val).re| := by
  have hN : (binary 52).Integers 1000 := fun k hk => binary_integers 52 k (by omega)
  refine ⟨_, rfl, fun v out w hv hw ho => ?_, fun c out hc ho => ?_⟩
  · obtain ⟨c, z, h1, h2, -, h3⟩ := C85_r2c_backward_forward (R := binary 52) (η := (binary 52).u) (binary 52).u_nonneg
      (roundedFft_error 1000) (by norm_num) hN (by rw [u52]; norm_num) _ rfl v out w hv hw ho
    refine ⟨c, z, h1, h2, h3.trans (mul_le_mul_of_nonneg_right ?_ (norm2_nonneg _ _))⟩
    rw [gam52, u52]; norm_num
  · obtain ⟨g, h1, -, h3⟩ := C83_r2c_gradient (R := binary 52) (binary_nearest 52) hN (d := 2) (by rw [u52]; norm_num)
      (by rw [u52]; norm_num) _ rfl c out hc ho
    refine ⟨g, h1, fun k hk => (h3 k hk).1.trans (mul_le_mul_of_nonneg_right ?_ (abs_nonneg _))⟩
    rw [gam52]; norm_num

/-- the derivative of `f(x) = cos(3x) + sin(5x)/2` from its rounded samples at 64 points, up to `10⁻¹³` -/
example : ∃ b : R2c, R2c.new 64 = ok b ∧ ∀ (v out'' : List (Rnd (binary 52))) (out out' : List (RndC (binary 52))),
    v.length = b.lenPhys → out.length = b.lenSpec → out'.length = b.lenOrth → out''.length = b.lenPhys →
    (∀ j < 64, nth v j = ⟨(binary 52).fl (Real.cos (3 * (2 * Real.pi * j / (64 : ℕ)))
      + 1 / 2 * Real.sin (5 * (2 * Real.pi * j / (64 : ℕ))))⟩) →
    ∃ c g w, b.forwardSlice v out = ok c ∧ b.gradientSlice (A := Rnd (binary 52)) c out' 1 = ok g ∧
      b.backwardSlice g out'' = ok w ∧
      norm2 64 (fun j => (nth w j).val - iteratedDeriv 1 (fun x => Real.cos (3 * x) + 1 / 2 * Real.sin (5 * x))
        (2 * Real.pi * j / (64 : ℕ))) ≤ √(64 : ℕ) * (1 / 10 ^ 13) := by
  have hN : (binary 52).Integers 64 := fun k hk => binary_integers 52 k (by omega)
  refine ⟨_, rfl, fun v out'' out out' hv ho ho' ho'' hvj => ?_⟩
  have hF : ∀ x : ℝ, |Real.cos (3 * x) + 1 / 2 * Real.sin (5 * x)| ≤ 3 / 2 := fun x => by
    have h1 := Real.abs_cos_le_one (3 * x)
    have h2 := Real.abs_sin_le_one (5 * x)
    rw [abs_le] at h1 h2 ⊢
    constructor <;> linarith [h1.1, h1.2, h2.1, h2.2]
  have hA : ∀ k ∉ ({3, 5} : Finset ℕ), k ≠ 3 ∧ k ≠ 5 := fun k hk => by
    simpa only [Finset.mem_insert, Finset.mem_singleton, not_or] using hk
  have hS : ∀ x : ℝ, HasSum (fun k : ℕ => (if k = 3 then (1 : ℝ) else 0) * Real.cos (k * x)
      + (if k = 5 then (1 / 2 : ℝ) else 0) * Real.sin (k * x)) (Real.cos (3 * x) + 1 / 2 * Real.sin (5 * x)) := fun x => by
    have := hasSum_sum_of_ne_finset_zero (L := .unconditional ℕ) (s := {3, 5}) (f := fun k : ℕ => (if k = 3 then (1 : ℝ) else 0)
      * Real.cos (k * x) + (if k = 5 then (1 / 2 : ℝ) else 0) * Real.sin (k * x)) (fun k hk => by
      rw [if_neg (hA k hk).1, if_neg (hA k hk).2]; simp)
    rw [Finset.sum_pair (by norm_num)] at this
    norm_num at this
    norm_num
    exact this
  obtain ⟨c, g, w, h1, h2, h3, -, h4⟩ := C86_r2c_derivative (R := binary 52) (n := 64) (η := (binary 52).u) (binary_nearest 52)
    (binary 52).u_nonneg (roundedFft_error 64) (by norm_num) hN 1 (by norm_num) (by rw [u52]; norm_num) _ rfl
    (fun k => if k = 3 then 1 else 0) (fun k => if k = 5 then 1 / 2 else 0)
    (summable_of_ne_finset_zero (s := {3, 5}) fun k hk => by
      show ((k : ℝ) ^ 1) * (|if k = 3 then (1 : ℝ) else 0| + |if k = 5 then (1 / 2 : ℝ) else 0|) = 0
      rw [if_neg (hA k hk).1, if_neg (hA k hk).2]; simp)
    (fun x => Real.cos (3 * x) + 1 / 2 * Real.sin (5 * x)) hS
    (3 / 2) (3 / 2 * (binary 52).u) (fun j _ => hF _) v hv (fun j hj => by
      rw [hvj j hj]
      refine ((binary 52).err _).trans ?_
      rw [mul_comm]
      exact mul_le_mul_of_nonneg_right (hF _) (binary 52).u_nonneg) out out' out'' ho ho' ho''
  refine ⟨c, g, w, h1, h2, h3, h4.trans (mul_le_mul_of_nonneg_left ?_ (Real.sqrt_nonneg _))⟩
  have ht : ∑' k : {k : ℕ // 64 ≤ 2 * k}, ((k : ℕ) : ℝ) ^ 1 * (|if (k : ℕ) = 3 then (1 : ℝ) else 0|
      + |if (k : ℕ) = 5 then (1 / 2 : ℝ) else 0|) = 0 := by
    refine (tsum_congr fun k => ?_).trans tsum_zero
    have := k.2
    rw [if_neg (by omega), if_neg (by omega)]; simp
  rw [ht, gam52, u52]; norm_num

end Verif.Props
