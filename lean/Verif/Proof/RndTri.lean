/- Rounding errors of the tridiagonal solver: the computed solution solves a nearby system exactly. -/
import Verif.Proof.Rounding
import Verif.Proof.RndTdma
import Verif.Spec.Banded

namespace Verif
open Res Spec

namespace Spec.Rounding.Nearest
variable {R : Rounding} (h : R.Nearest)
include h

theorem abs_fl (x : ℝ) : |R.fl x| = R.fl |x| := by
  rcases abs_cases x with ⟨e, hx⟩ | ⟨e, hx⟩ <;> rw [e]
  · rw [abs_of_nonneg]
    have := h.mono hx
    rwa [R.fl_zero] at this
  · rw [h.odd, abs_of_nonpos]
    have := h.mono hx.le
    rwa [R.fl_zero] at this

theorem abs_le {x y : ℝ} (hxy : |x| ≤ |y|) (hy : R.IsFloat y) : |R.fl x| ≤ |y| := by
  have h1 := h.mono hxy
  rw [← h.abs_fl, ← h.abs_fl, hy] at h1
  exact h1

theorem le_abs {x y : ℝ} (hxy : |y| ≤ |x|) (hy : R.IsFloat y) : |y| ≤ |R.fl x| := by
  have h1 := h.mono hxy
  rw [← h.abs_fl, ← h.abs_fl, hy] at h1
  exact h1

theorem neg {x : ℝ} (hx : R.IsFloat x) : R.IsFloat (-x) := by
  rw [Rounding.IsFloat, h.odd, hx]

end Spec.Rounding.Nearest

section
variable {R : Rounding}

/-- Entry `(i, i-2)` resp. `(i, i+2)`, zero outside the matrix. -/
def lowAt (l : ℕ → ℝ) (i : ℕ) : ℝ := if 2 ≤ i then l (i - 2) else 0
def upAt (n : ℕ) (u : ℕ → ℝ) (i : ℕ) : ℝ := if i + 2 < n then u i else 0

theorem triMat_row (n : ℕ) (l d u x : ℕ → ℝ) {i : ℕ} (hi : i < n) :
    matVec n (triMat l d u) x i = lowAt l i * x (i - 2) + d i * x i + upAt n u i * x (i + 2) := by
  unfold matVec triMat lowAt upAt
  simp only [smul_eq_mul, add_mul, Finset.sum_add_distrib, ite_mul, zero_mul]
  rw [Finset.sum_ite_eq' (Finset.range n) i, if_pos (Finset.mem_range.mpr hi),
    Finset.sum_ite_eq' (Finset.range n) (i + 2)]
  have : ∑ j ∈ Finset.range n, (if j + 2 = i then l j * x j else 0) = if 2 ≤ i then l (i - 2) * x (i - 2) else 0 := by
    split
    · rename_i h
      rw [Finset.sum_eq_single (i - 2)]
      · rw [if_pos (by omega)]
      · intro j _ hj; rw [if_neg (by omega)]
      · intro h'; exact absurd (Finset.mem_range.mpr (by omega)) h'
    · rename_i h
      exact Finset.sum_eq_zero fun j _ => if_neg (by omega)
  rw [this]
  simp only [Finset.mem_range]
  ring

/-- The perturbed matrix solved by the computed solution. -/
theorem tri_backward {n : ℕ} {l d u r x w g : ℕ → Rnd R} (h4 : 4 * R.u < 1)
    (h : TriRec n l d u r x w g) :
    ∃ l' d' u' : ℕ → ℝ, Solves n (triMat l' d' u') (fun i => (x i).val) (fun i => (r i).val) ∧
      (∀ i < n - 2, |l' i - (l i).val| ≤ R.γ 2 * |(l i).val|) ∧
      (∀ i < n - 2, |u' i - (u i).val| ≤ R.γ 4 * |(u i).val|) ∧
      (∀ i < n, |d' i - (d i).val| ≤ R.γ 4 * |(anyPiv l d w i).val|
        + R.γ 3 * |lowAt (fun j => (l j).val * (w j).val) i|) := by
  have h0 := R.u_nonneg
  have hu : R.u < 1 := by linarith
  set p := anyPiv l d w with hp
  -- factors
  have hP : ∀ i < n, ∃ θ θ', Fac R.u 1 θ ∧ Fac R.u 1 θ' ∧
      (d i).val = (p i).val * θ + lowAt (fun j => (l j).val * (w j).val) i * θ' := by
    intro i _
    by_cases hi : i < 2
    · refine ⟨1, 1, Fac.one.mono h0 hu (by omega), Fac.one.mono h0 hu (by omega), ?_⟩
      rw [hp, anyPiv, if_pos hi, lowAt, if_neg (by omega)]; ring
    · obtain ⟨θ, f, e⟩ := R.fl_fac hu ((d i).val - R.fl ((l (i - 2)).val * (w (i - 2)).val))
      obtain ⟨θ', f', e'⟩ := R.fl_fac hu ((l (i - 2)).val * (w (i - 2)).val)
      refine ⟨θ⁻¹, θ', f.inv hu, f', ?_⟩
      rw [hp, anyPiv, if_neg hi, lowAt, if_pos (by omega), Rnd.val_sub, Rnd.val_mul, e, e',
        mul_assoc, mul_inv_cancel₀ (f.pos hu).ne']
      ring
  have hW : ∀ i < n - 2, ∃ θ, Fac R.u 1 θ ∧ (u i).val = (p i).val * (w i).val * θ := by
    intro i hi
    obtain ⟨hne, e⟩ := Rnd.div_eq (h.w_eq i hi)
    rw [← hp] at hne e
    obtain ⟨θ, f, e'⟩ := R.fl_fac hu ((u i).val / (p i).val)
    refine ⟨θ⁻¹, f.inv hu, ?_⟩
    rw [e, e']
    have := (f.pos hu).ne'
    field_simp
  have hG : ∀ i < n, ∃ θ θ', Fac R.u 2 θ ∧ Fac R.u 1 θ' ∧
      (r i).val = (g i).val * (p i).val * θ + lowAt (fun j => (l j).val * (g j).val) i * θ' := by
    intro i hi
    obtain ⟨hne, e⟩ := Rnd.div_eq (h.g_eq i hi)
    rw [← hp] at hne e
    by_cases h2 : i < 2
    · rw [if_pos h2] at e
      obtain ⟨θ, f, e'⟩ := R.fl_fac hu ((r i).val / (p i).val)
      refine ⟨θ⁻¹, 1, (f.inv hu).mono h0 hu (by omega), Fac.one.mono h0 hu (by omega), ?_⟩
      rw [lowAt, if_neg (by omega), e, e']
      have := (f.pos hu).ne'
      field_simp; ring
    · rw [if_neg h2, Rnd.val_sub, Rnd.val_smul] at e
      obtain ⟨θ', f', e'⟩ := R.fl_fac hu ((l (i - 2)).val * (g (i - 2)).val)
      obtain ⟨θ, f, e1⟩ := R.fl_fac hu ((r i).val - R.fl ((l (i - 2)).val * (g (i - 2)).val))
      obtain ⟨φ, q, e2⟩ := R.fl_fac hu (R.fl ((r i).val - R.fl ((l (i - 2)).val * (g (i - 2)).val)) / (p i).val)
      refine ⟨φ⁻¹ * θ⁻¹, θ', (q.inv hu).mul hu (f.inv hu), f', ?_⟩
      rw [lowAt, if_pos (by omega), e, e2, e1, e']
      have := (f.pos hu).ne'
      have := (q.pos hu).ne'
      field_simp; ring
  have hX : ∀ i < n, ∃ θ θ', Fac R.u 1 θ ∧ Fac R.u 1 θ' ∧
      (g i).val = (x i).val * θ + upAt n (fun j => (w j).val) i * (x (i + 2)).val * θ' := by
    intro i hi
    by_cases h2 : i + 2 < n
    · obtain ⟨θ', f', e'⟩ := R.fl_fac hu ((w i).val * (x (i + 2)).val)
      obtain ⟨θ, f, e⟩ := R.fl_fac hu ((g i).val - R.fl ((w i).val * (x (i + 2)).val))
      refine ⟨θ⁻¹, θ', f.inv hu, f', ?_⟩
      have hb := congrArg Rnd.val (h.back i (by omega))
      rw [Rnd.val_sub, Rnd.val_smul, e, e'] at hb
      rw [upAt, if_pos h2, hb]
      have := (f.pos hu).ne'
      field_simp; ring
    · refine ⟨1, 1, Fac.one.mono h0 hu (by omega), Fac.one.mono h0 hu (by omega), ?_⟩
      rw [upAt, if_neg h2, h.last i (by omega) hi]; ring
  choose! a a' fa fa' ha using hP
  choose! b fb hb using hW
  choose! c c' fc fc' hc using hG
  choose! e e' fe fe' he using hX
  refine ⟨fun i => (l i).val * (c' (i + 2) * e i), fun i => (p i).val * (c i * e i)
      + lowAt (fun j => (l j).val * (w j).val * e' j) i * c' i,
    fun i => (p i).val * (w i).val * (c i * e' i), ?_, ?_, ?_, ?_⟩
  · intro i hi
    rw [triMat_row _ _ _ _ _ hi]
    beta_reduce
    rw [hc i hi, he i hi]
    by_cases h2 : 2 ≤ i
    · simp only [lowAt, if_pos h2, he (i - 2) (by omega), upAt, if_pos (show i - 2 + 2 < n by omega),
        Nat.sub_add_cancel h2]
      split <;> ring
    · simp only [lowAt, if_neg h2, upAt]
      split <;> ring
  · intro i hi
    have : (l i).val * (c' (i + 2) * e i) - (l i).val = (c' (i + 2) * e i - 1) * (l i).val := by ring
    rw [this, abs_mul]
    exact mul_le_mul_of_nonneg_right (R.fac_dist ((fc' _ (by omega)).mul hu (fe _ (by omega)))
      (by push_cast; linarith)) (abs_nonneg _)
  · intro i hi
    have : (p i).val * (w i).val * (c i * e' i) - (u i).val = (c i * e' i * (b i)⁻¹ - 1) * (u i).val := by
      rw [hb i hi]
      have := (((fb i hi)).pos hu).ne'
      field_simp
    rw [this, abs_mul]
    exact mul_le_mul_of_nonneg_right (R.fac_dist (((fc _ (by omega)).mul hu (fe' _ (by omega))).mul hu
      ((fb i hi).inv hu)) (by push_cast; linarith)) (abs_nonneg _)
  · intro i hi
    by_cases h2 : 2 ≤ i
    · have hd : (p i).val * (c i * e i) + lowAt (fun j => (l j).val * (w j).val * e' j) i * c' i - (d i).val
          = (c i * e i - a i) * (p i).val
            + (e' (i - 2) * c' i - a' i) * lowAt (fun j => (l j).val * (w j).val) i := by
        rw [ha i hi]
        simp only [lowAt, if_pos h2]
        ring
      rw [hd]
      refine (abs_add_le _ _).trans ?_
      rw [abs_mul, abs_mul]
      refine add_le_add (mul_le_mul_of_nonneg_right ?_ (abs_nonneg _))
        (mul_le_mul_of_nonneg_right ?_ (abs_nonneg _))
      · exact R.fac_sub ((fc i hi).mul hu (fe i hi)) (fa i hi) (by push_cast; linarith)
      · exact R.fac_sub ((fe' (i - 2) (by omega)).mul hu (fc' i hi)) (fa' i hi) (by push_cast; linarith)
    · have hd : (p i).val * (c i * e i) + lowAt (fun j => (l j).val * (w j).val * e' j) i * c' i - (d i).val
          = (c i * e i - a i) * (p i).val := by
        rw [ha i hi]
        simp only [lowAt, if_neg h2]
        ring
      rw [hd, abs_mul]
      simp only [lowAt, if_neg h2, abs_zero, mul_zero, add_zero]
      exact mul_le_mul_of_nonneg_right (R.fac_sub ((fc i hi).mul hu (fe i hi)) (fa i hi)
        (by push_cast; linarith)) (abs_nonneg _)

/-- The elimination on a row diagonally dominant matrix of floating-point numbers. -/
theorem tri_dominant {Q : Err → Prop} (hR : R.Nearest) (h5 : 5 * R.u < 1) (l2 d0 u2 rhs : List (Rnd R)) {n : ℕ}
    (hn : 3 ≤ n) (hr : rhs.length = n) (hl : l2.length = n - 2) (hd : d0.length = n) (hu2 : u2.length = n - 2)
    (fl2 : ∀ i < n - 2, R.IsFloat (nth (vals l2) i)) (fu2 : ∀ i < n - 2, R.IsFloat (nth (vals u2) i))
    (hdom : ∀ i < n, |lowAt (nth (vals l2)) i| + |upAt n (nth (vals u2)) i| ≤ |nth (vals d0) i|)
    (hstrict : ∀ i < n, |lowAt (nth (vals l2)) i| < |nth (vals d0) i|) :
    wp Q (tdma l2 d0 u2 rhs) (fun x => x.length = n ∧ ∃ l' d' u' : ℕ → ℝ,
      Solves n (triMat l' d' u') (nth (vals x)) (nth (vals rhs)) ∧
      (∀ i < n - 2, |l' i - nth (vals l2) i| ≤ R.γ 2 * |nth (vals l2) i|) ∧
      (∀ i < n - 2, |u' i - nth (vals u2) i| ≤ R.γ 4 * |nth (vals u2) i|) ∧
      (∀ i < n, |d' i - nth (vals d0) i| ≤ R.γ 5 * (|nth (vals d0) i| + 2 * |lowAt (nth (vals l2)) i|))) := by
  have h0 := R.u_nonneg
  have hu : R.u < 1 := by linarith
  simp only [Rnd.nth_vals] at fl2 fu2 hdom hstrict ⊢
  have evals : ∀ v : List (Rnd R), nth (vals v) = fun i => (nth v i).val := fun v => funext (Rnd.nth_vals v)
  rw [evals] at hdom hstrict
  rw [evals] at hdom
  simp only [evals]
  -- properties of one step of the elimination
  have step : ∀ i < n - 2, ∀ p w : Rnd R, |upAt n (fun i => (nth u2 i).val) i| ≤ |p.val| →
      divR (nth u2 i) p = ok w → |w.val| ≤ 1 := by
    intro i hi p w hp hw
    obtain ⟨hne, e⟩ := Rnd.div_eq hw
    rw [e, ← abs_one (α := ℝ)]
    refine hR.abs_le ?_ hR.one
    rw [abs_one, abs_div, div_le_one (abs_pos.mpr hne)]
    rwa [upAt, if_pos (by omega)] at hp
  have prod : ∀ i < n - 2, ∀ w : Rnd R, |w.val| ≤ 1 → |(nth l2 i * w).val| ≤ |(nth l2 i).val| := by
    intro i hi w hw
    rw [Rnd.val_mul]
    refine hR.abs_le ?_ (fl2 i hi)
    rw [abs_mul]
    exact mul_le_of_le_one_right (abs_nonneg _) hw
  refine wp_mono (wp_tdma_any l2 d0 u2 rhs hn hr hl hd hu2
    (fun i p => p.val ≠ 0 ∧ |upAt n (fun i => (nth u2 i).val) i| ≤ |p.val|) ?_ ?_ ?_ ?_) ?_
  · intro i hi
    have h1 := hdom i (by omega)
    have h2 := hstrict i (by omega)
    rw [lowAt, if_neg (by omega), abs_zero] at h1 h2
    exact ⟨abs_pos.mp h2, by simpa using h1⟩
  · intro i _ p hp x; exact ⟨_, Rnd.div_ok hp.1⟩
  · intro i _ p hp x; exact ⟨_, Rnd.div_ok hp.1⟩
  · rintro i hi p w ⟨hp, hp'⟩ hw
    have hq := prod i hi w (step i hi p w hp' hw)
    have h1 := hdom (i + 2) (by omega)
    have h2 := hstrict (i + 2) (by omega)
    rw [lowAt, if_pos (by omega), Nat.add_sub_cancel] at h1 h2
    have h3 : |(nth d0 (i + 2)).val| - |(nth l2 i * w).val| ≤ |(nth d0 (i + 2)).val - (nth l2 i * w).val| :=
      abs_sub_abs_le_abs_sub _ _
    refine ⟨?_, ?_⟩
    · rw [Rnd.val_sub]
      exact R.fl_ne_zero hu (abs_pos.mp (by linarith))
    · rw [Rnd.val_sub]
      have : R.IsFloat (upAt n (fun i => (nth u2 i).val) (i + 2)) := by
        unfold upAt
        split
        · exact fu2 _ (by omega)
        · exact R.fl_zero
      exact hR.le_abs (by linarith) this
  · rintro x ⟨hx, w, g, hrec, hinv⟩
    obtain ⟨l', d', u', hs, a1, a2, a3⟩ := tri_backward (by linarith) hrec
    refine ⟨hx, l', d', u', hs, a1, a2, fun i hi => (a3 i hi).trans ?_⟩
    have hg1 : R.γ 4 * (1 + R.u) ≤ R.γ 5 := by
      have g1 : R.u ≤ R.γ 1 := by
        rw [Rounding.γ, Nat.cast_one, one_mul, le_div_iff₀ (by linarith)]
        nlinarith
      have := R.γ_add (j := 4) (k := 1) (by push_cast; linarith)
      have g4 := R.γ_nonneg (k := 4) (by push_cast; linarith)
      nlinarith
    have hg3 : R.γ 3 ≤ R.γ 5 := R.γ_mono (by omega) (by push_cast; linarith)
    have g4 := R.γ_nonneg (k := 4) (by push_cast; linarith)
    have g5 := R.γ_nonneg (k := 5) (by push_cast; linarith)
    by_cases h2 : 2 ≤ i
    · have hw : |(w (i - 2)).val| ≤ 1 := step (i - 2) (by omega) _ _ (hinv (i - 2) (by omega)).2 (hrec.w_eq _ (by omega))
      have hq := prod (i - 2) (by omega) _ hw
      have b1 : |(anyPiv (nth l2) (nth d0) w i).val| ≤ (1 + R.u) * (|(nth d0 i).val| + |(nth l2 (i - 2)).val|) := by
        rw [anyPiv, if_neg (by omega), Rnd.val_sub]
        refine (R.abs_fl_le _).trans (mul_le_mul_of_nonneg_left ?_ (by linarith))
        exact (abs_sub _ _).trans (add_le_add le_rfl hq)
      have b2 : |lowAt (fun j => (nth l2 j).val * (w j).val) i| ≤ |(nth l2 (i - 2)).val| := by
        rw [lowAt, if_pos h2, abs_mul]
        exact mul_le_of_le_one_right (abs_nonneg _) hw
      have e2 : |lowAt (fun i => (nth l2 i).val) i| = |(nth l2 (i - 2)).val| := by rw [lowAt, if_pos h2]
      rw [e2]
      have c1 := mul_le_mul_of_nonneg_left b1 g4
      have c2 := mul_le_mul_of_nonneg_left b2 (hg3.trans' (R.γ_nonneg (k := 3) (by push_cast; linarith)))
      have c3 := mul_le_mul_of_nonneg_right hg3 (abs_nonneg (lowAt (fun j => (nth l2 j).val * (w j).val) i))
      have c4 := mul_le_mul_of_nonneg_right hg1 (add_nonneg (abs_nonneg (nth d0 i).val) (abs_nonneg (nth l2 (i - 2)).val))
      linarith
    · rw [anyPiv, if_pos (by omega), lowAt, if_neg h2, lowAt, if_neg h2]
      have := R.γ_mono (j := 4) (k := 5) (by omega) (by push_cast; linarith)
      have := mul_le_mul_of_nonneg_right this (abs_nonneg (nth d0 i).val)
      simp only [abs_zero, mul_zero, add_zero]
      exact this

end
end Verif
