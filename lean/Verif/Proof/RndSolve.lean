/- Rounding errors of `from_ortho` for the two-diagonal stencils. -/
import Verif.Proof.RndTri
import Verif.Proof.RndStencil

namespace Verif
open Res Spec

section
variable {R : Rounding}

theorem Spec.Rounding.rel (R : Rounding) {j k : ℕ} {z' z a θ : ℝ} (hz : |z' - z| ≤ R.γ j * |z|) (e : z = a * θ) (hθ : Fac R.u k θ)
    (h : ((j + k : ℕ) : ℝ) * R.u < 1) : |z' - a| ≤ R.γ (j + k) * |a| := by
  have h0 := R.u_nonneg
  have hj : (j:ℝ) * R.u < 1 := lt_of_le_of_lt (mul_le_mul_of_nonneg_right (by simp) h0) h
  have hk : (k:ℝ) * R.u < 1 := lt_of_le_of_lt (mul_le_mul_of_nonneg_right (by simp) h0) h
  have hd := R.fac_dist hθ hk
  have hab : |θ| ≤ 1 + R.γ k := by
    have := abs_add_le (θ - 1) 1
    rw [sub_add_cancel, abs_one] at this
    linarith
  have hza : |z - a| ≤ R.γ k * |a| := by
    rw [e, show a * θ - a = (θ - 1) * a by ring, abs_mul]
    exact mul_le_mul_of_nonneg_right hd (abs_nonneg _)
  have hz2 : R.γ j * |z| ≤ R.γ j * ((1 + R.γ k) * |a|) := by
    rw [e, abs_mul, mul_comm |a|]
    exact mul_le_mul_of_nonneg_left (mul_le_mul_of_nonneg_right hab (abs_nonneg _)) (R.γ_nonneg hj)
  have h3 : |z' - a| ≤ |z' - z| + |z - a| := by
    have := abs_add_le (z' - z) (z - a)
    rwa [sub_add_sub_cancel] at this
  have h4 := mul_le_mul_of_nonneg_right (R.γ_add h) (abs_nonneg a)
  calc |z' - a| ≤ R.γ j * ((1 + R.γ k) * |a|) + R.γ k * |a| := by linarith
    _ = (R.γ j + R.γ k + R.γ j * R.γ k) * |a| := by ring
    _ ≤ _ := h4

/-- convex combinations of factors -/
theorem Spec.Fac.mix {u : ℝ} {k : ℕ} {a b θ φ : ℝ} (ha : 0 ≤ a) (hb : 0 ≤ b) (hab : 0 < a + b) (h : Fac u k θ) (h' : Fac u k φ) :
    ∃ ψ, Fac u k ψ ∧ a * θ + b * φ = (a + b) * ψ := by
  refine ⟨(a * θ + b * φ) / (a + b), ⟨?_, ?_⟩, by field_simp⟩
  · rw [le_div_iff₀ hab]
    have := mul_le_mul_of_nonneg_left h.lo ha
    have := mul_le_mul_of_nonneg_left h'.lo hb
    linarith
  · rw [div_mul_eq_mul_div, div_le_one hab]
    have := mul_le_mul_of_nonneg_left h.hi ha
    have := mul_le_mul_of_nonneg_left h'.hi hb
    linarith

set_option maxHeartbeats 1000000 in
/-- `from_ortho` by rounded arithmetic: the residual of the exact normal equations. -/
theorem stencil2_residual (hR : R.Nearest) {s : Stencil2 (Rnd R)} {m κ κ1 κ2 K : ℕ} {l : ℕ → Rnd R} {a : ℕ → ℝ}
    (hs : s.Form m (fun _ => 1) l) (hm : 3 ≤ m) (ha : ∀ i, 0 ≤ a i)
    (hK1 : κ1 + 5 ≤ K) (hK2 : κ2 + 5 ≤ K) (hK3 : κ + 2 ≤ K) (hK : K * R.u < 1)
    (hl : ∀ i < m, ∃ θ, Fac R.u κ θ ∧ (l i).val = -(a i) * θ)
    (hoff : ∀ i < m - 2, ∃ θ, Fac R.u κ1 θ ∧ (1 * l i).val = -(a i) * θ)
    (hdg : ∀ i < m, ∃ θ, Fac R.u κ2 θ ∧ (1 * 1 + l i * l i).val = (1 + a i ^ 2) * θ)
    (hdom : ∀ i < m, |lowAt (nth (vals s.tdmaOff2)) i| + |upAt m (nth (vals s.tdmaOff2)) i| ≤ |nth (vals s.tdmaDiag) i|)
    (hstrict : ∀ i < m, |lowAt (nth (vals s.tdmaOff2)) i| < |nth (vals s.tdmaDiag) i|)
    (u v : List (Rnd R)) (hu : u.length = m + 2) (hv : v.length = m) :
    ∃ x, s.solve u v = ok x ∧ x.length = m ∧ ∀ i < m,
      |lowAt (fun j => -a j) i * nth (vals x) (i - 2) + (1 + a i ^ 2) * nth (vals x) i
          + upAt m (fun j => -a j) i * nth (vals x) (i + 2)
          - (nth (vals u) i - a i * nth (vals u) (i + 2))|
        ≤ R.γ K * (lowAt a i * |nth (vals x) (i - 2)| + (1 + a i ^ 2 + 2 * lowAt a i) * |nth (vals x) i|
            + upAt m a i * |nth (vals x) (i + 2)|)
          + R.γ (κ + 2) * (|nth (vals u) i| + a i * |nth (vals u) (i + 2)|) := by
  have h0 := R.u_nonneg
  have hlt : ∀ j ≤ K, (j:ℝ) * R.u < 1 := fun j hj =>
    lt_of_le_of_lt (mul_le_mul_of_nonneg_right (by exact_mod_cast hj) h0) hK
  have hu1 : R.u < 1 := by have := hlt 1 (by omega); simpa using this
  have h5 : 5 * R.u < 1 := by have := hlt 5 (by omega); simpa using this
  have mono : ∀ j ≤ K, R.γ j ≤ R.γ K := fun j hj => R.γ_mono hj hK
  set rhs := (List.range m).map (fun i => (1 : Rnd R) • nth u i + l i • nth u (i + 2)) with hrhs
  have eo : ∀ i < m - 2, nth (vals s.tdmaOff2) i = (1 * l i).val := fun i hi => by
    rw [Rnd.nth_vals, hs.toff, nth_map_range _ _ _ hi]
  have ed : ∀ i < m, nth (vals s.tdmaDiag) i = (1 * 1 + l i * l i).val := fun i hi => by
    rw [Rnd.nth_vals, hs.tdiag, nth_map_range _ _ _ hi]
  have fo : ∀ i < m - 2, R.IsFloat (nth (vals s.tdmaOff2) i) := fun i hi => by
    rw [eo i hi, Rnd.val_mul]; exact hR.float _
  obtain ⟨x, hx, hxl, l', d', u', hsol, pl, pu, pd⟩ := wp_total.mp (tri_dominant (Q := fun _ => False) hR h5
    s.tdmaOff2 s.tdmaDiag s.tdmaOff2 rhs hm (by simp [hrhs]) hs.sized.toff hs.sized.tdiag hs.sized.toff fo fo hdom hstrict)
  refine ⟨x, (hs.solve_eq u v hu hv).trans hx, hxl, fun i hi => ?_⟩
  -- the rounded right-hand side
  have hrow := hsol i hi
  rw [triMat_row _ _ _ _ _ hi, Rnd.nth_vals rhs, hrhs, nth_map_range _ _ _ hi, Rnd.val_add, Rnd.val_smul, Rnd.val_smul,
    Rnd.val_one, one_mul] at hrow
  simp only [← Rnd.nth_vals] at hrow
  obtain ⟨t1, f1, e1⟩ := R.fl_fac hu1 (nth (vals u) i)
  obtain ⟨t2, f2, e2⟩ := R.fl_fac hu1 ((l i).val * nth (vals u) (i + 2))
  obtain ⟨t3, f3, e3⟩ := R.fl_fac hu1 (R.fl (nth (vals u) i) + R.fl ((l i).val * nth (vals u) (i + 2)))
  obtain ⟨t4, f4, e4⟩ := hl i hi
  set X0 := nth (vals x) (i - 2); set X1 := nth (vals x) i; set X2 := nth (vals x) (i + 2)
  set U0 := nth (vals u) i; set U2 := nth (vals u) (i + 2)
  have hb : |(U0 * (t1 * t3) - a i * U2 * (t4 * (t2 * t3))) - (U0 - a i * U2)| ≤ R.γ (κ + 2) * (|U0| + a i * |U2|) := by
    have g1 : |t1 * t3 - 1| ≤ R.γ (κ + 2) :=
      (R.fac_dist (f1.mul hu1 f3) (hlt _ (by omega))).trans (R.γ_mono (by omega) (hlt _ (by omega)))
    have g2 : |t4 * (t2 * t3) - 1| ≤ R.γ (κ + 2) := R.fac_dist (f4.mul hu1 (f2.mul hu1 f3)) (hlt _ (by omega))
    have : (U0 * (t1 * t3) - a i * U2 * (t4 * (t2 * t3))) - (U0 - a i * U2)
        = (t1 * t3 - 1) * U0 - (t4 * (t2 * t3) - 1) * (a i * U2) := by ring
    rw [this]
    refine (abs_sub _ _).trans ?_
    rw [abs_mul, abs_mul, abs_mul, abs_of_nonneg (ha i), mul_add]
    exact add_le_add (mul_le_mul_of_nonneg_right g1 (abs_nonneg _))
      (mul_le_mul_of_nonneg_right g2 (mul_nonneg (ha i) (abs_nonneg _)))
  have hrow' : lowAt l' i * X0 + d' i * X1 + upAt m u' i * X2
      = U0 * (t1 * t3) - a i * U2 * (t4 * (t2 * t3)) := by
    rw [hrow, e3, e1, e2, e4]; ring
  -- the perturbed matrix
  have q1 : |lowAt l' i - lowAt (fun j => -a j) i| ≤ R.γ K * lowAt a i := by
    unfold lowAt
    split
    · obtain ⟨θ, f, e⟩ := hoff (i - 2) (by omega)
      have hp := pl (i - 2) (by omega)
      rw [eo _ (by omega)] at hp
      have := R.rel hp e f (hlt _ (by omega))
      rw [abs_neg, abs_of_nonneg (ha _)] at this
      exact this.trans (mul_le_mul_of_nonneg_right (mono _ (by omega)) (ha _))
    · simp
  have q2 : |upAt m u' i - upAt m (fun j => -a j) i| ≤ R.γ K * upAt m a i := by
    unfold upAt
    split
    · obtain ⟨θ, f, e⟩ := hoff i (by omega)
      have hp := pu i (by omega)
      rw [eo _ (by omega)] at hp
      have := R.rel hp e f (hlt _ (by omega))
      rw [abs_neg, abs_of_nonneg (ha _)] at this
      exact this.trans (mul_le_mul_of_nonneg_right (mono _ (by omega)) (ha _))
    · simp
  have q3 : |d' i - (1 + a i ^ 2)| ≤ R.γ K * (1 + a i ^ 2 + 2 * lowAt a i) := by
    obtain ⟨θ, f, e⟩ := hdg i hi
    have hp := pd i hi
    rw [ed i hi] at hp
    have hpos : 0 < 1 + a i ^ 2 := by positivity
    have g5 := R.γ_nonneg (hlt 5 (by omega))
    have gk2 := R.γ_nonneg (hlt κ2 (by omega))
    have gk1 := R.γ_nonneg (hlt κ1 (by omega))
    have hd := R.fac_dist f (hlt _ (by omega))
    have hθ : |θ| ≤ 1 + R.γ κ2 := by
      have := abs_add_le (θ - 1) 1
      rw [sub_add_cancel, abs_one] at this
      linarith
    have hlow : |lowAt (nth (vals s.tdmaOff2)) i| ≤ (1 + R.γ κ1) * lowAt a i := by
      unfold lowAt
      split
      · obtain ⟨φ, f', e'⟩ := hoff (i - 2) (by omega)
        have hd' := R.fac_dist f' (hlt _ (by omega))
        have hφ : |φ| ≤ 1 + R.γ κ1 := by
          have := abs_add_le (φ - 1) 1
          rw [sub_add_cancel, abs_one] at this
          linarith
        rw [eo _ (by omega), e', abs_mul, abs_neg, abs_of_nonneg (ha _), mul_comm]
        exact mul_le_mul_of_nonneg_right hφ (ha _)
      · simp
    have hla : 0 ≤ lowAt a i := by unfold lowAt; split; exacts [ha _, le_rfl]
    set D := (1 * 1 + l i * l i).val with hD
    have h1 : |D - (1 + a i ^ 2)| ≤ R.γ κ2 * (1 + a i ^ 2) := by
      rw [e, show (1 + a i ^ 2) * θ - (1 + a i ^ 2) = (θ - 1) * (1 + a i ^ 2) by ring, abs_mul, abs_of_pos hpos]
      exact mul_le_mul_of_nonneg_right hd hpos.le
    have h2 : |D| ≤ (1 + R.γ κ2) * (1 + a i ^ 2) := by
      rw [e, abs_mul, abs_of_pos hpos, mul_comm]
      exact mul_le_mul_of_nonneg_right hθ hpos.le
    have h3 : |d' i - (1 + a i ^ 2)| ≤ |d' i - D| + |D - (1 + a i ^ 2)| := by
      have := abs_add_le (d' i - D) (D - (1 + a i ^ 2))
      rwa [sub_add_sub_cancel] at this
    have c1 := mul_le_mul_of_nonneg_left h2 g5
    have c2 := mul_le_mul_of_nonneg_left hlow g5
    have s1 := mul_le_mul_of_nonneg_right ((R.γ_add (j := 5) (k := κ2) (hlt _ (by omega))).trans (mono _ (by omega))) hpos.le
    have s2 := mul_le_mul_of_nonneg_right ((R.γ_add (j := 5) (k := κ1) (hlt _ (by omega))).trans (mono _ (by omega))) hla
    have s3 := mul_nonneg gk1 hla
    nlinarith
  -- together
  have key : lowAt (fun j => -a j) i * X0 + (1 + a i ^ 2) * X1 + upAt m (fun j => -a j) i * X2 - (U0 - a i * U2)
      = -((lowAt l' i - lowAt (fun j => -a j) i) * X0 + (d' i - (1 + a i ^ 2)) * X1
          + (upAt m u' i - upAt m (fun j => -a j) i) * X2)
        + ((U0 * (t1 * t3) - a i * U2 * (t4 * (t2 * t3))) - (U0 - a i * U2)) := by
    rw [← hrow']; ring
  rw [key]
  refine (abs_add_le _ _).trans (add_le_add ?_ hb)
  rw [abs_neg]
  refine (abs_add_le _ _).trans ?_
  have p1 := mul_le_mul_of_nonneg_right q1 (abs_nonneg X0)
  have p2 := mul_le_mul_of_nonneg_right q2 (abs_nonneg X2)
  have p3 := mul_le_mul_of_nonneg_right q3 (abs_nonneg X1)
  have p4 := abs_add_le ((lowAt l' i - lowAt (fun j => -a j) i) * X0) ((d' i - (1 + a i ^ 2)) * X1)
  rw [abs_mul, abs_mul] at p4
  rw [abs_mul]
  linarith

/-- Comparison: the error of an approximate solution from its residual. -/
theorem tri_compare {n : ℕ} {l d u φ e : ℕ → ℝ} {ρ : ℝ} (hφ : ∀ i < n, 0 < φ i)
    (hdom : ∀ i < n, |lowAt l i| * φ (i - 2) + |upAt n u i| * φ (i + 2) + 1 ≤ |d i| * φ i)
    (hres : ∀ i < n, |lowAt l i * e (i - 2) + d i * e i + upAt n u i * e (i + 2)| ≤ ρ) :
    ∀ i < n, |e i| ≤ ρ * φ i := by
  intro i hi
  obtain ⟨k, hk, hmax⟩ := Finset.exists_max_image (Finset.range n) (fun i => |e i| / φ i) ⟨i, Finset.mem_range.mpr hi⟩
  rw [Finset.mem_range] at hk
  set t := |e k| / φ k with ht
  have hb : ∀ j < n, |e j| ≤ t * φ j := fun j hj => by
    have := hmax j (Finset.mem_range.mpr hj)
    rwa [div_le_iff₀ (hφ j hj)] at this
  have h1 : |lowAt l k| * |e (k - 2)| ≤ t * (|lowAt l k| * φ (k - 2)) := by
    have := mul_le_mul_of_nonneg_left (hb (k - 2) (by omega)) (abs_nonneg (lowAt l k))
    linarith
  have h2 : |upAt n u k| * |e (k + 2)| ≤ t * (|upAt n u k| * φ (k + 2)) := by
    by_cases h : k + 2 < n
    · have := mul_le_mul_of_nonneg_left (hb (k + 2) h) (abs_nonneg (upAt n u k))
      linarith
    · rw [upAt, if_neg h]; simp
  have h3 : |d k| * |e k| ≤ ρ + |lowAt l k| * |e (k - 2)| + |upAt n u k| * |e (k + 2)| := by
    have := hres k hk
    rw [← abs_mul, ← abs_mul, ← abs_mul]
    have e3 : d k * e k = (lowAt l k * e (k - 2) + d k * e k + upAt n u k * e (k + 2))
      - lowAt l k * e (k - 2) - upAt n u k * e (k + 2) := by ring
    calc |d k * e k| = _ := congrArg abs e3
      _ ≤ _ := abs_sub _ _
      _ ≤ _ := add_le_add (abs_sub _ _) le_rfl
      _ ≤ _ := by linarith
  have ht0 : 0 ≤ t := div_nonneg (abs_nonneg _) (hφ k hk).le
  have hek : |e k| = t * φ k := by rw [ht, div_mul_cancel₀ _ (hφ k hk).ne']
  have h4 := mul_le_mul_of_nonneg_left (hdom k hk) ht0
  rw [hek] at h3
  have : t ≤ ρ := by nlinarith
  exact (hb i hi).trans (mul_le_mul_of_nonneg_right this (hφ i hi).le)

end
end Verif
