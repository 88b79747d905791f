/- Scaling of arrays with rounding (for C96 and C97). -/
import Verif.Spec.Scale
import Verif.Proof.Total2
import Verif.Proof.SpaceGrad
import Verif.Proof.RndFourier

namespace Verif
open Res Spec

section
variable {R : Rounding} {T E : Type} [NormedAddCommGroup E] [NormedSpace ℝ E] [DivBy (Rnd R) T] {v : T → E}

theorem divError_real : DivError R (Rnd.val : Rnd R → ℝ) := by
  intro x s hs
  refine ⟨_, Rnd.div_ok hs, ?_⟩
  have := R.err (x.val / s.val)
  rw [smul_eq_mul, Real.norm_eq_abs, Real.norm_eq_abs, mul_comm, ← div_eq_mul_inv]
  exact this

theorem divError_complex : DivError R (RndC.val : RndC R → ℂ) := by
  intro x s hs
  refine ⟨⟨⟨R.fl (x.re.val / s.val)⟩, ⟨R.fl (x.im.val / s.val)⟩⟩, ?_, ?_⟩
  · show (do let re ← divR x.re s; let im ← divR x.im s; ok (⟨re, im⟩ : RndC R)) = _
    rw [Rnd.div_ok hs, bind_ok, Rnd.div_ok hs, bind_ok]
  · refine abs_le_of_sq_le_sq' ?_ (mul_nonneg R.u_nonneg (norm_nonneg _)) |>.2
    rw [mul_pow, Complex.sq_norm, Complex.sq_norm, Complex.normSq_apply, Complex.normSq_apply]
    have e1 := R.err (x.re.val / s.val)
    have e2 := R.err (x.im.val / s.val)
    have p := R.u_nonneg
    have q1 := mul_self_le_mul_self (abs_nonneg _) e1
    have q2 := mul_self_le_mul_self (abs_nonneg _) e2
    rw [abs_mul_abs_self] at q1 q2
    have r1 : (R.u * |x.re.val / s.val|) * (R.u * |x.re.val / s.val|) = R.u ^ 2 * ((x.re.val / s.val) * (x.re.val / s.val)) := by
      rw [← abs_mul_abs_self (x.re.val / s.val)]; ring
    have r2 : (R.u * |x.im.val / s.val|) * (R.u * |x.im.val / s.val|) = R.u ^ 2 * ((x.im.val / s.val) * (x.im.val / s.val)) := by
      rw [← abs_mul_abs_self (x.im.val / s.val)]; ring
    rw [r1] at q1
    rw [r2] at q2
    simp only [RndC.val, Complex.sub_re, Complex.sub_im, Complex.smul_re, Complex.smul_im, smul_eq_mul]
    rw [mul_comm s.val⁻¹ x.re.val, mul_comm s.val⁻¹ x.im.val, ← div_eq_mul_inv, ← div_eq_mul_inv, mul_add]
    linarith

/-- Division of an array by a divisor known up to `k` roundings. -/
theorem divAll_accurate [Zero T] (hv : DivError R v) (z : v 0 = 0) {k : ℕ} (hk : ((k + 1 : ℕ) : ℝ) * R.u < 1) {σ θ : ℝ} (hσ : σ ≠ 0)
    (hθ : Fac R.u k θ) {s : Rnd R} (hs : s.val = σ * θ) (sh : List ℕ) :
    AccurateOn v v (divAll s) (fun a => ok (scaleArr σ⁻¹ a)) sh sh |σ⁻¹| (R.γ (k + 1) * |σ⁻¹|) := by
  have hu : R.u < 1 := by
    push_cast at hk
    nlinarith [R.u_nonneg, mul_nonneg (Nat.cast_nonneg (α := ℝ) k) R.u_nonneg]
  have hθ0 := hθ.pos hu
  have hs0 : s.val ≠ 0 := by rw [hs]; exact mul_ne_zero hσ hθ0.ne'
  -- one element
  have one : ∀ x : T, ∃ y, divR x s = ok y ∧ ‖v y - σ⁻¹ • v x‖ ≤ R.γ (k + 1) * |σ⁻¹| * ‖v x‖ := by
    intro x
    obtain ⟨y, e, h⟩ := hv x s hs0
    refine ⟨y, e, ?_⟩
    have hi := hθ.inv hu
    set φ := θ⁻¹ with hφ
    have hφ0 := hi.pos hu
    have e1 : s.val⁻¹ = φ * σ⁻¹ := by rw [hs, mul_inv, hφ, mul_comm]
    rw [e1, mul_smul] at h
    set z := σ⁻¹ • v x with hz
    have nz : ‖z‖ = |σ⁻¹| * ‖v x‖ := by rw [hz, norm_smul, Real.norm_eq_abs]
    have key : R.u * φ + |φ - 1| ≤ R.γ (k + 1) := by
      rcases le_total 1 φ with h1 | h1
      · have f := R.fac_dist ((Fac.of_err hu (δ := R.u) (by rw [abs_of_nonneg R.u_nonneg])).mul hu hi) (by rw [Nat.add_comm]; exact hk)
        rw [Nat.add_comm 1 k] at f
        rw [abs_of_nonneg (by linarith)]
        refine le_trans (le_of_eq ?_) ((le_abs_self _).trans f)
        ring
      · have f := R.fac_dist ((Fac.of_err hu (δ := -R.u) (by rw [abs_neg, abs_of_nonneg R.u_nonneg])).mul hu hi)
          (by rw [Nat.add_comm]; exact hk)
        rw [Nat.add_comm 1 k] at f
        rw [abs_of_nonpos (by linarith)]
        have t := neg_abs_le ((1 + -R.u) * φ - 1)
        have e : R.u * φ + -(φ - 1) = -((1 + -R.u) * φ - 1) := by ring
        rw [e]
        linarith
    have t1 : ‖v y - z‖ ≤ ‖v y - φ • z‖ + ‖φ • z - z‖ := by
      have := norm_add_le (v y - φ • z) (φ • z - z)
      rwa [sub_add_sub_cancel] at this
    have t2 : ‖φ • z - z‖ = |φ - 1| * ‖z‖ := by
      rw [show φ • z - z = (φ - 1) • z by rw [sub_smul, one_smul], norm_smul, Real.norm_eq_abs]
    have t3 : ‖φ • z‖ = φ * ‖z‖ := by rw [norm_smul, Real.norm_eq_abs, abs_of_pos hφ0]
    rw [t3] at h
    rw [t2] at t1
    rw [mul_assoc, ← nz]
    have := mul_le_mul_of_nonneg_right key (norm_nonneg z)
    linarith
  have all : ∀ l : List T, ∃ m, mapR (fun x => divR x s) l = ok m ∧ m.length = l.length ∧
      ∀ i < l.length, ‖v (nth m i) - σ⁻¹ • v (nth l i)‖ ≤ R.γ (k + 1) * |σ⁻¹| * ‖v (nth l i)‖ := by
    intro l
    induction l with
    | nil => exact ⟨[], rfl, rfl, fun i hi => absurd hi (by simp)⟩
    | cons x l ih =>
      obtain ⟨m, e, hl, h⟩ := ih
      obtain ⟨y, e', h'⟩ := one x
      refine ⟨y :: m, ?_, by simp [hl], fun i hi => ?_⟩
      · simp only [mapR]
        rw [e', bind_ok, e, bind_ok]; rfl
      · cases i with
        | zero => exact h'
        | succ i => exact h i (by simpa using hi)
  intro a aR X δ ga gaR hX hδ hb hd
  obtain ⟨m, e, hl, h⟩ := all a.data
  have hg : Good (⟨a.shape, m, a.std⟩ : Arr T) sh := ⟨by have := ga.1; unfold Arr.WF at *; rw [hl]; exact this, ga.2.1, ga.2.2⟩
  refine ⟨⟨a.shape, m, a.std⟩, scaleArr σ⁻¹ aR, ?_, rfl, hg, good_scaleArr gaR, ?_, ?_⟩
  · unfold divAll; rw [e]; rfl
  · intro y hy
    obtain ⟨x, hx, rfl⟩ := List.mem_map.mp (show y ∈ aR.data.map _ from hy)
    rw [norm_smul, Real.norm_eq_abs]
    exact mul_le_mul_of_nonneg_left (hb x hx) (abs_nonneg _)
  · obtain ⟨dl, dd⟩ := hd
    rw [List.length_map] at dl dd
    refine ⟨?_, fun i hi => ?_⟩
    · show (m.map v).length = (aR.data.map _).length
      rw [List.length_map, List.length_map]; omega
    · rw [List.length_map] at hi
      have hi' : i < a.data.length := by rw [← hl]; exact hi
      have hiR : i < aR.data.length := by omega
      show ‖nth (m.map v) i - nth (aR.data.map (σ⁻¹ • ·)) i‖ ≤ _
      rw [nth_mapv z, nth_map _ _ _ hiR]
      have h1 := h i hi'
      have h2 := dd i hi'
      rw [nth_mapv z] at h2
      have h3 : ‖nth aR.data i‖ ≤ X := by rw [nth_eq_getElem _ _ hiR]; exact hb _ (List.getElem_mem _)
      have h4 : ‖v (nth a.data i)‖ ≤ X + δ := by
        have := norm_add_le (v (nth a.data i) - nth aR.data i) (nth aR.data i)
        rw [sub_add_cancel] at this
        linarith
      have h5 := norm_add_le (v (nth m i) - σ⁻¹ • v (nth a.data i)) (σ⁻¹ • (v (nth a.data i) - nth aR.data i))
      rw [smul_sub, sub_add_sub_cancel, ← smul_sub, norm_smul σ⁻¹, Real.norm_eq_abs] at h5
      have g0 : 0 ≤ R.γ (k + 1) * |σ⁻¹| := mul_nonneg (R.γ_nonneg hk) (abs_nonneg _)
      have h6 := mul_le_mul_of_nonneg_left h4 g0
      have h7 := mul_le_mul_of_nonneg_left h2 (abs_nonneg σ⁻¹)
      linarith

end

section
variable {R : Rounding} [Powi (Rnd R)]

/-- the divisor of `Space1` -/
theorem scale1_fac (hp : PowiError R) (c : Rnd R) {d : ℕ} (hd : d < 2 ^ 31) :
    ∃ p θ, powi c (toI32 d) = ok p ∧ p.val = c.val ^ d * θ ∧ Fac R.u d θ := by
  obtain ⟨p, θ, e, h, h1, h2⟩ := hp c d hd
  exact ⟨p, θ, by rw [toI32_of_lt hd]; exact e, h, h1, h2⟩

/-- the divisor of `Space2` -/
theorem scale2_fac (hp : PowiError R) (hu : R.u < 1) (c0 c1 : Rnd R) {d0 d1 : ℕ} (h0 : d0 < 2 ^ 31) (h1 : d1 < 2 ^ 31) :
    ∃ p0 p1 θ, powi c0 (toI32 d0) = ok p0 ∧ powi c1 (toI32 d1) = ok p1 ∧
      (p0 * p1).val = c0.val ^ d0 * c1.val ^ d1 * θ ∧ Fac R.u (d0 + d1 + 1) θ := by
  obtain ⟨p0, θ0, e0, v0, f0⟩ := scale1_fac hp c0 h0
  obtain ⟨p1, θ1, e1, v1, f1⟩ := scale1_fac hp c1 h1
  obtain ⟨φ, fφ, hφ⟩ := R.fl_fac hu (p0.val * p1.val)
  refine ⟨p0, p1, θ0 * θ1 * φ, e0, e1, ?_, (f0.mul hu f1).mul hu fφ⟩
  show R.fl (p0.val * p1.val) = _
  rw [hφ, v0, v1]; ring

end
end Verif
