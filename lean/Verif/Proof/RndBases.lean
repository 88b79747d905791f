/- Rounding errors of `from_ortho` of the Dirichlet and Neumann bases, from the residual. -/
import Verif.Proof.RndSolve
import Verif.Proof.Tdma

namespace Verif
open Res Spec

section
variable {R : Rounding}

theorem Spec.Bounded.nth {X : ℝ} {l : List ℝ} (h : Bounded X l) (hX : 0 ≤ X) (i : ℕ) : |Verif.nth l i| ≤ X := by
  by_cases hi : i < l.length
  · rw [nth_eq_getElem _ _ hi]; exact h _ (List.getElem_mem hi)
  · rw [nth_of_le _ _ (by omega), abs_zero]; exact hX

theorem Spec.bounded_iff {X : ℝ} {l : List ℝ} : Bounded X l ↔ ∀ i < l.length, |Verif.nth l i| ≤ X := by
  constructor
  · intro h i hi
    rw [nth_eq_getElem _ _ hi]; exact h _ (List.getElem_mem hi)
  · intro h x hx
    obtain ⟨i, hi, rfl⟩ := List.mem_iff_getElem.mp hx
    have := h i hi
    rwa [nth_eq_getElem _ _ hi] at this

theorem exists_bound (l : List ℝ) (h : 0 < l.length) : ∃ i < l.length, Bounded |nth l i| l := by
  obtain ⟨k, hk, hmax⟩ := Finset.exists_max_image (Finset.range l.length) (fun i => |nth l i|)
    ⟨0, Finset.mem_range.mpr h⟩
  exact ⟨k, Finset.mem_range.mp hk, Spec.bounded_iff.mpr fun i hi => hmax i (Finset.mem_range.mpr hi)⟩

/-- Rounding errors of `to_ortho`. -/
theorem stencil_dot_err {s : Stencil2 (Rnd R)} {l : ℕ → Rnd R} {a : ℕ → ℝ} {m κ : ℕ} (hf : s.Form m (fun _ => 1) l)
    (low : ∀ i < m, ∃ θ, Fac R.u κ θ ∧ (l i).val = -(a i) * θ) (hk2 : ((κ + 2 : ℕ) : ℝ) * R.u < 1) (hm : 2 ≤ m) (v u : List (Rnd R)) (hv : v.length = m)
    (hu : u.length = m + 2) : ∃ w, s.dot v u = ok w ∧ w.length = m + 2 ∧ ∀ i < m + 2,
      |nth (vals w) i - (nth (vals v) i - lowAt (fun j => a j * nth (vals v) j) i)|
        ≤ R.γ (κ + 2) * (|nth (vals v) i| + |lowAt (fun j => a j * nth (vals v) j) i|) := by
  have lt : ∀ {j : ℕ}, j ≤ κ + 2 → (j:ℝ) * R.u < 1 := fun hj =>
    lt_of_le_of_lt (mul_le_mul_of_nonneg_right (by exact_mod_cast hj) R.u_nonneg) hk2
  have hu1 : R.u < 1 := by have := lt (j := 1) (by omega); simpa using this
  refine ⟨_, hf.dot_eq hm v u hv hu, by simp, fun i hi => ?_⟩
  rw [Rnd.nth_vals, nth_map_range _ _ _ hi, dot2At]
  have hv0 : m ≤ i → nth (vals v) i = 0 := fun h => nth_of_le _ _ (by simp [vals, hv]; exact h)
  have g0 := R.γ_nonneg hk2
  split
  · rename_i h2
    obtain ⟨t, f, e⟩ := R.fl_fac hu1 ((nth v i).val)
    rw [lowAt, if_neg (by omega), Rnd.val_smul, Rnd.val_one, one_mul, e, Rnd.nth_vals,
      show (nth v i).val * t - ((nth v i).val - 0) = (t - 1) * (nth v i).val by ring, abs_mul, abs_zero, add_zero]
    exact mul_le_mul_of_nonneg_right ((R.fac_dist f (by simpa using hu1)).trans
      (R.γ_mono (by omega) hk2)) (abs_nonneg _)
  · rename_i h2
    obtain ⟨t2, f2, e2⟩ := low (i - 2) (by omega)
    obtain ⟨t3, f3, e3⟩ := R.fl_fac hu1 ((l (i - 2)).val * (nth v (i - 2)).val)
    have hlow : lowAt (fun j => a j * nth (vals v) j) i = a (i - 2) * nth (vals v) (i - 2) := if_pos (by omega)
    rw [hlow]
    split
    · obtain ⟨t1, f1, e1⟩ := R.fl_fac hu1 ((nth v i).val)
      obtain ⟨t4, f4, e4⟩ := R.fl_fac hu1 (R.fl ((nth v i).val) + R.fl ((l (i - 2)).val * (nth v (i - 2)).val))
      rw [Rnd.val_add, Rnd.val_smul, Rnd.val_smul, Rnd.val_one, one_mul, e4, e3, e2, e1]
      simp only [Rnd.nth_vals]
      have : ((nth v i).val * t1 + -a (i - 2) * t2 * (nth v (i - 2)).val * t3) * t4
            - ((nth v i).val - a (i - 2) * (nth v (i - 2)).val)
          = (t1 * t4 - 1) * (nth v i).val - (t2 * (t3 * t4) - 1) * (a (i - 2) * (nth v (i - 2)).val) := by ring
      rw [this]
      refine (abs_sub _ _).trans ?_
      rw [abs_mul, abs_mul (t2 * (t3 * t4) - 1), mul_add]
      refine add_le_add (mul_le_mul_of_nonneg_right ?_ (abs_nonneg _)) (mul_le_mul_of_nonneg_right ?_ (abs_nonneg _))
      · exact (R.fac_dist (f1.mul hu1 f4) (lt (by omega))).trans (R.γ_mono (by omega) hk2)
      · exact R.fac_dist (f2.mul hu1 (f3.mul hu1 f4)) hk2
    · rw [hv0 (by omega), Rnd.val_smul, e3, e2]
      simp only [Rnd.nth_vals, abs_zero, zero_add]
      have : -a (i - 2) * t2 * (nth v (i - 2)).val * t3 - (0 - a (i - 2) * (nth v (i - 2)).val)
          = -((t2 * t3 - 1) * (a (i - 2) * (nth v (i - 2)).val)) := by ring
      rw [this, abs_neg, abs_mul]
      exact mul_le_mul_of_nonneg_right ((R.fac_dist (f2.mul hu1 f3) (lt (by omega))).trans
        (R.γ_mono (by omega) hk2)) (abs_nonneg _)

/-- The rows of the normal equations of a stencil with unit diagonal and subdiagonal `-a`. -/
def normRow (m : ℕ) (a x : ℕ → ℝ) (i : ℕ) : ℝ :=
  lowAt (fun j => -a j) i * x (i - 2) + (1 + a i ^ 2) * x i + upAt m (fun j => -a j) i * x (i + 2)

/-- What is known of a rounded stencil with unit diagonal and subdiagonal `≈ -a`. -/
structure Near2 (R : Rounding) (s : Stencil2 (Rnd R)) (l : ℕ → Rnd R) (a : ℕ → ℝ) (m κ K : ℕ) (Φ : ℝ) : Prop where
  form : s.Form m (fun _ => 1) l
  a0 : ∀ i, 0 ≤ a i
  a1 : ∀ i, a i ≤ 1
  low : ∀ i < m, ∃ θ, Fac R.u κ θ ∧ (l i).val = -(a i) * θ
  kK : κ + 2 ≤ K
  small : K * R.u < 1
  resid : ∀ u v : List (Rnd R), u.length = m + 2 → v.length = m →
    ∃ x, s.solve u v = ok x ∧ x.length = m ∧ ∀ i < m,
      |normRow m a (nth (vals x)) i - (nth (vals u) i - a i * nth (vals u) (i + 2))|
        ≤ R.γ K * (lowAt a i * |nth (vals x) (i - 2)| + (1 + a i ^ 2 + 2 * lowAt a i) * |nth (vals x) i|
            + upAt m a i * |nth (vals x) (i + 2)|)
          + R.γ (κ + 2) * (|nth (vals u) i| + a i * |nth (vals u) (i + 2)|)
  stable : ∀ (e : ℕ → ℝ) (ρ : ℝ), (∀ i < m, |normRow m a e i| ≤ ρ) → ∀ i < m, |e i| ≤ ρ * Φ

namespace Near2
variable {s : Stencil2 (Rnd R)} {l : ℕ → Rnd R} {a : ℕ → ℝ} {m κ K : ℕ} {Φ : ℝ}

theorem lt (h : Near2 R s l a m κ K Φ) {j : ℕ} (hj : j ≤ K) : (j:ℝ) * R.u < 1 :=
  lt_of_le_of_lt (mul_le_mul_of_nonneg_right (by exact_mod_cast hj) R.u_nonneg) h.small

theorem sum_le (h : Near2 R s l a m κ K Φ) {x : ℕ → ℝ} {X : ℝ} (hx : ∀ i, |x i| ≤ X) (i : ℕ) :
    lowAt a i * |x (i - 2)| + (1 + a i ^ 2 + 2 * lowAt a i) * |x i| + upAt m a i * |x (i + 2)| ≤ 6 * X := by
  have hX : 0 ≤ X := (abs_nonneg _).trans (hx 0)
  have l0 : 0 ≤ lowAt a i := by unfold lowAt; split; exacts [h.a0 _, le_rfl]
  have l1 : lowAt a i ≤ 1 := by unfold lowAt; split; exacts [h.a1 _, zero_le_one]
  have u0 : 0 ≤ upAt m a i := by unfold upAt; split; exacts [h.a0 _, le_rfl]
  have u1 : upAt m a i ≤ 1 := by unfold upAt; split; exacts [h.a1 _, zero_le_one]
  have s1 : a i ^ 2 ≤ 1 := by have := h.a0 i; have := h.a1 i; nlinarith
  have p1 := mul_le_mul l1 (hx (i - 2)) (abs_nonneg _) zero_le_one
  have p2 := mul_le_mul u1 (hx (i + 2)) (abs_nonneg _) zero_le_one
  have p3 := mul_le_mul (show 1 + a i ^ 2 + 2 * lowAt a i ≤ 4 by linarith) (hx i) (abs_nonneg _) (by norm_num)
  linarith

/-- The result of `from_ortho` against an exact solution for a nearby right-hand side. -/
theorem forward (h : Near2 R s l a m κ K Φ) (u v : List (Rnd R)) (hu : u.length = m + 2)
    (hv : v.length = m) : ∃ x, s.solve u v = ok x ∧ x.length = m ∧
      ∀ (X U ζ : ℝ) (z : ℕ → ℝ), 0 ≤ X → 0 ≤ U → Bounded X (vals x) → Bounded U (vals u) →
        (∀ i < m, |(nth (vals u) i - a i * nth (vals u) (i + 2)) - normRow m a z i| ≤ ζ) →
        ∀ i < m, |nth (vals x) i - z i| ≤ (6 * R.γ K * X + 2 * R.γ (κ + 2) * U + ζ) * Φ := by
  obtain ⟨x, e, hl, hr⟩ := h.resid u v hu hv
  refine ⟨x, e, hl, fun X U ζ z hX hU bX bU hζ => ?_⟩
  refine h.stable (fun i => nth (vals x) i - z i) _ fun i hi => ?_
  have hd : normRow m a (fun i => nth (vals x) i - z i) i
      = (normRow m a (nth (vals x)) i - (nth (vals u) i - a i * nth (vals u) (i + 2)))
        + ((nth (vals u) i - a i * nth (vals u) (i + 2)) - normRow m a z i) := by
    unfold normRow; ring
  rw [hd]
  refine (abs_add_le _ _).trans (add_le_add ((hr i hi).trans (add_le_add ?_ ?_)) (hζ i hi))
  · have := mul_le_mul_of_nonneg_left (h.sum_le (bX.nth hX) i) (R.γ_nonneg h.small)
    linarith
  · have g := R.γ_nonneg (h.lt h.kK)
    have p := mul_le_mul (h.a1 i) (bU.nth hU (i + 2)) (abs_nonneg _) zero_le_one
    have := mul_le_mul_of_nonneg_left (show |nth (vals u) i| + a i * |nth (vals u) (i + 2)| ≤ 2 * U by
      linarith [bU.nth hU i]) g
    linarith

/-- Rounding errors of `to_ortho`. -/
theorem dot_err (h : Near2 R s l a m κ K Φ) (hm : 2 ≤ m) (v u : List (Rnd R)) (hv : v.length = m)
    (hu : u.length = m + 2) : ∃ w, s.dot v u = ok w ∧ w.length = m + 2 ∧ ∀ i < m + 2,
      |nth (vals w) i - (nth (vals v) i - lowAt (fun j => a j * nth (vals v) j) i)|
        ≤ R.γ (κ + 2) * (|nth (vals v) i| + |lowAt (fun j => a j * nth (vals v) j) i|) :=
  stencil_dot_err h.form h.low (h.lt h.kK) hm v u hv hu

end Near2

/-- The exact `to_ortho`. -/
theorem exact_dot {s : Stencil2 ℝ} {m : ℕ} {l a : ℕ → ℝ} (hs : s.Form m (fun _ => 1) l) (hl : ∀ i < m, l i = -a i)
    (hm : 2 ≤ m) (v u : List ℝ) (hv : v.length = m) (hu : u.length = m + 2) :
    ∃ w, s.dot v u = ok w ∧ w.length = m + 2 ∧ ∀ i < m + 2, nth w i = nth v i - lowAt (fun j => a j * nth v j) i := by
  refine ⟨_, hs.dot_eq hm v u hv hu, by simp, fun i hi => ?_⟩
  rw [nth_map_range _ _ _ hi, dot2At, lowAt]
  have hv0 : m ≤ i → nth v i = 0 := fun h => nth_of_le _ _ (by omega)
  by_cases h2 : i < 2
  · rw [if_pos h2, if_neg (by omega)]; simp
  · rw [if_neg h2]
    by_cases hm' : i < m
    · rw [if_pos hm', if_pos (by omega), hl _ (by omega)]; simp [sub_eq_add_neg]
    · rw [if_neg hm', if_pos (by omega), hl _ (by omega), hv0 (by omega)]; simp

/-- The exact solver obeys the rows of the normal equations. -/
theorem exact_rows {s : Stencil2 ℝ} {m : ℕ} {l a : ℕ → ℝ} (hs : s.Form m (fun _ => 1) l) (hl : ∀ i < m, l i = -a i)
    (hm : 3 ≤ m) {u v y : List ℝ} (hu : u.length = m + 2) (hv : v.length = m) (hy : s.solve u v = ok y) :
    y.length = m ∧ ∀ i < m, normRow m a (nth y) i = nth u i - a i * nth u (i + 2) := by
  rw [hs.solve_eq u v hu hv] at hy
  obtain ⟨hp, hlen, h1, h2⟩ := of_wp_ok (wp_tdma (Q := fun _ => True) s.tdmaOff2 s.tdmaDiag s.tdmaOff2 _ m hm
    (by simp) hs.sized.toff hs.sized.tdiag hs.sized.toff (fun _ _ _ => trivial)) hy
  refine ⟨hlen, fun i hi => ?_⟩
  have := tri_solves _ _ _ _ _ _ hp h1 h2 i hi
  rw [nth_map_range _ _ _ hi, hl i hi] at this
  simp only [smul_eq_mul] at this
  unfold normRow lowAt upAt
  rw [hs.tdiag, nth_map_range _ _ _ hi, hl i hi] at this
  have e1 : (if 2 ≤ i then -a (i - 2) else 0) * nth y (i - 2)
      = if 2 ≤ i then nth s.tdmaOff2 (i - 2) * nth y (i - 2) else 0 := by
    split
    · rw [hs.toff, nth_map_range _ _ _ (by omega), hl _ (by omega)]; ring
    · ring
  have e2 : (if i + 2 < m then -a i else 0) * nth y (i + 2)
      = if i + 2 < m then nth s.tdmaOff2 i * nth y (i + 2) else 0 := by
    split
    · rw [hs.toff, nth_map_range _ _ _ (by omega), hl _ (by omega)]; ring
    · ring
  rw [e1, e2]
  linarith

end
end Verif
