/- From the rounded stencils to statements about `from_ortho`, `to_ortho` and their composition. -/
import Verif.Proof.RndInst

namespace Verif
open Res Spec Finset

section
variable {R : Rounding}

/-! ### dominance in terms of the matrix -/

theorem leftSum_tri (l d u : ℕ → ℝ) (i : ℕ) : leftSum (triMat l d u) i = |lowAt l i| := by
  unfold leftSum lowAt
  split
  · rename_i h
    rw [Finset.sum_eq_single (i - 2)]
    · unfold triMat
      rw [if_neg (by omega), if_pos (by omega), if_neg (by omega)]; simp
    · intro j hj hj'
      rw [mem_range] at hj
      unfold triMat
      rw [if_neg (by omega), if_neg (by omega), if_neg (by omega)]; simp
    · intro h'; exact absurd (mem_range.mpr (by omega)) h'
  · rw [abs_zero]
    refine Finset.sum_eq_zero fun j hj => ?_
    rw [mem_range] at hj
    unfold triMat
    rw [if_neg (by omega), if_neg (by omega), if_neg (by omega)]; simp

theorem rightSum_tri (n : ℕ) (l d u : ℕ → ℝ) (i : ℕ) : rightSum n (triMat l d u) i = |upAt n u i| := by
  unfold rightSum upAt
  split
  · rename_i h
    rw [Finset.sum_eq_single (i + 2)]
    · unfold triMat
      rw [if_neg (by omega), if_neg (by omega), if_pos rfl]; simp
    · intro j hj hj'
      rw [mem_Ico] at hj
      unfold triMat
      rw [if_neg (by omega), if_neg (by omega), if_neg (by omega)]; simp
    · intro h'; exact absurd (mem_Ico.mpr ⟨by omega, h⟩) h'
  · rw [abs_zero]
    refine Finset.sum_eq_zero fun j hj => ?_
    rw [mem_Ico] at hj
    unfold triMat
    rw [if_neg (by omega), if_neg (by omega), if_neg (by omega)]; simp

theorem triMat_diag (l d u : ℕ → ℝ) (i : ℕ) : triMat l d u i i = d i := by
  unfold triMat
  rw [if_pos rfl, if_neg (by omega), if_neg (by omega)]; ring

/-! ### from_ortho against the exact program -/

variable {s : Stencil2 (Rnd R)} {l : ℕ → Rnd R} {a : ℕ → ℝ} {m κ K : ℕ} {Φ : ℝ}

theorem Near2.Phi (h : Near2 R s l a m κ K Φ) (hm : 3 ≤ m) : 0 ≤ Φ := by
  have := h.stable (fun _ => 0) 1 (fun i _ => by unfold normRow; simp) 0 (by omega)
  simpa using this

/-- absorb the unknown bound of the computed result -/
theorem absorb {m : ℕ} {x y : ℕ → ℝ} {A B Y : ℝ} (hA : 0 ≤ A) (hA2 : A ≤ 1 / 2) (hm : 0 < m)
    (hY : ∀ i < m, |y i| ≤ Y)
    (h : ∀ X, 0 ≤ X → (∀ i < m, |x i| ≤ X) → ∀ i < m, |x i - y i| ≤ A * X + B) :
    ∀ i < m, |x i - y i| ≤ 2 * (A * Y + B) := by
  obtain ⟨k, hk, hmax⟩ := Finset.exists_max_image (range m) (fun i => |x i|) ⟨0, mem_range.mpr hm⟩
  rw [mem_range] at hk
  have h1 := h |x k| (abs_nonneg _) (fun i hi => hmax i (mem_range.mpr hi))
  have hX : |x k| ≤ Y + (A * |x k| + B) := by
    have e := abs_add_le (x k - y k) (y k)
    rw [sub_add_cancel] at e
    linarith [hY k hk, h1 k hk]
  intro i hi
  have := h1 i hi
  set E := A * |x k| + B with hE
  have h2 : E ≤ A * (Y + E) + B := by
    have := mul_le_mul_of_nonneg_left hX hA
    rw [hE]; linarith
  have hE0 : 0 ≤ E := (abs_nonneg _).trans this
  have h3 : A * E ≤ E / 2 := by nlinarith
  linarith

theorem vals_length {R : Rounding} (l : List (Rnd R)) : (vals l).length = l.length := by simp [vals]

theorem Near2.from_ortho (h : Near2 R s l a m κ K Φ) (hm : 3 ≤ m) {sR : Stencil2 ℝ} {lR : ℕ → ℝ}
    (hsR : sR.Form m (fun _ => 1) lR) (hlR : ∀ i < m, lR i = -a i) {u out : List (Rnd R)} {outR y : List ℝ}
    (hu : u.length = m + 2) (ho : out.length = m) (hoR : outR.length = m) (hy : sR.solve (vals u) outR = ok y) :
    ∃ x, s.solve u out = ok x ∧ x.length = m ∧
      (∀ X U, Bounded X (vals x) → Bounded U (vals u) →
        Within (Φ * (6 * R.γ K * X + 2 * R.γ (κ + 2) * U)) (vals x) y) ∧
      (12 * Φ * R.γ K ≤ 1 → ∀ Y U, Bounded Y y → Bounded U (vals u) →
        Within (2 * (Φ * (6 * R.γ K * Y + 2 * R.γ (κ + 2) * U))) (vals x) y) := by
  obtain ⟨hyl, hyr⟩ := exact_rows hsR hlR hm (by rw [vals_length]; exact hu) hoR hy
  obtain ⟨x, e, hl, hf⟩ := h.forward u out hu ho
  have hlen : (vals x).length = y.length := by rw [vals_length, hl, hyl]
  have base : ∀ X U, 0 ≤ X → 0 ≤ U → Bounded X (vals x) → Bounded U (vals u) → ∀ i < m,
      |nth (vals x) i - nth y i| ≤ Φ * (6 * R.γ K * X + 2 * R.γ (κ + 2) * U) := by
    intro X U hX hU bX bU i hi
    have := hf X U 0 (nth y) hX hU bX bU (fun i hi => by rw [hyr i hi, sub_self, abs_zero]) i hi
    linarith
  have hU0 : ∀ U, Bounded U (vals u) → 0 ≤ U := fun U bU =>
    (abs_nonneg _).trans (bounded_iff.mp bU 0 (by rw [vals_length]; omega))
  refine ⟨x, e, hl, fun X U bX bU => ⟨hlen, fun i hi => ?_⟩, fun hs Y U bY bU => ⟨hlen, fun i hi => ?_⟩⟩
  · rw [vals_length, hl] at hi
    exact base X U ((abs_nonneg _).trans (bounded_iff.mp bX 0 (by rw [vals_length]; omega))) (hU0 U bU) bX bU i hi
  · rw [vals_length, hl] at hi
    have hP := h.Phi hm
    have gK := R.γ_nonneg h.small
    have := absorb (m := m) (x := nth (vals x)) (y := nth y) (A := Φ * (6 * R.γ K))
      (B := Φ * (2 * R.γ (κ + 2) * U)) (Y := Y) (by positivity) (by linarith) (by omega)
      (fun i hi => bounded_iff.mp bY i (by omega)) (fun X hX hb i hi => by
        have := base X U hX (hU0 U bU) (bounded_iff.mpr fun i hi => hb i (by rw [vals_length] at hi; omega)) bU i hi
        linarith) i hi
    linarith

/-- `from_ortho` of inexact data. -/
theorem Near2.from_near (h : Near2 R s l a m κ K Φ) (hm : 3 ≤ m) {sR : Stencil2 ℝ} {lR : ℕ → ℝ}
    (hsR : sR.Form m (fun _ => 1) lR) (hlR : ∀ i < m, lR i = -a i) {u out : List (Rnd R)} {c outR y : List ℝ}
    (hu : u.length = m + 2) (hc : c.length = m + 2) (ho : out.length = m) (hoR : outR.length = m)
    (hy : sR.solve c outR = ok y) :
    ∃ x, s.solve u out = ok x ∧ x.length = m ∧ y.length = m ∧
      (∀ X U δ, Bounded X (vals x) → Bounded U (vals u) → Within δ (vals u) c →
        Within (Φ * (6 * R.γ K * X + 2 * R.γ (κ + 2) * U + 2 * δ)) (vals x) y) ∧
      (12 * Φ * R.γ K ≤ 1 → ∀ Y U δ, Bounded Y y → Bounded U (vals u) → Within δ (vals u) c →
        Within (2 * (Φ * (6 * R.γ K * Y + 2 * R.γ (κ + 2) * U + 2 * δ))) (vals x) y) := by
  obtain ⟨hyl, hyr⟩ := exact_rows hsR hlR hm hc hoR hy
  obtain ⟨x, e, hl, hf⟩ := h.forward u out hu ho
  have hlen : (vals x).length = y.length := by rw [vals_length, hl, hyl]
  have base : ∀ X U δ, 0 ≤ X → 0 ≤ U → Bounded X (vals x) → Bounded U (vals u) → Within δ (vals u) c → ∀ i < m,
      |nth (vals x) i - nth y i| ≤ Φ * (6 * R.γ K * X + 2 * R.γ (κ + 2) * U + 2 * δ) := by
    intro X U δ hX hU bX bU hδ i hi
    have := hf X U (2 * δ) (nth y) hX hU bX bU (fun i hi => by
      rw [hyr i hi]
      have d1 := hδ.2 i (by rw [vals_length]; omega)
      have d2 := hδ.2 (i + 2) (by rw [vals_length]; omega)
      rw [show nth (vals u) i - a i * nth (vals u) (i + 2) - (nth c i - a i * nth c (i + 2))
        = (nth (vals u) i - nth c i) - a i * (nth (vals u) (i + 2) - nth c (i + 2)) by ring]
      refine (abs_sub _ _).trans ?_
      rw [abs_mul, abs_of_nonneg (h.a0 i)]
      have := mul_le_mul (h.a1 i) d2 (abs_nonneg _) zero_le_one
      linarith) i hi
    linarith
  have hU0 : ∀ U, Bounded U (vals u) → 0 ≤ U := fun U bU =>
    (abs_nonneg _).trans (bounded_iff.mp bU 0 (by rw [vals_length]; omega))
  refine ⟨x, e, hl, hyl, fun X U δ bX bU hδ => ⟨hlen, fun i hi => ?_⟩, fun hs Y U δ bY bU hδ => ⟨hlen, fun i hi => ?_⟩⟩
  · rw [vals_length, hl] at hi
    exact base X U δ ((abs_nonneg _).trans (bounded_iff.mp bX 0 (by rw [vals_length]; omega))) (hU0 U bU) bX bU hδ i hi
  · rw [vals_length, hl] at hi
    have hP := h.Phi hm
    have gK := R.γ_nonneg h.small
    have := absorb (m := m) (x := nth (vals x)) (y := nth y) (A := Φ * (6 * R.γ K))
      (B := Φ * (2 * R.γ (κ + 2) * U + 2 * δ)) (Y := Y) (by positivity) (by linarith) (by omega)
      (fun i hi => bounded_iff.mp bY i (by omega)) (fun X hX hb i hi => by
        have := base X U δ hX (hU0 U bU) (bounded_iff.mpr fun i hi => hb i (by rw [vals_length] at hi; omega)) bU hδ i hi
        linarith) i hi
    linarith

/-- `to_ortho`, then `from_ortho`. -/
theorem Near2.round_trip (h : Near2 R s l a m κ K Φ) (hm : 3 ≤ m) {v w out : List (Rnd R)}
    (hv : v.length = m) (hw : w.length = m + 2) (ho : out.length = m) :
    ∃ u x, s.dot v w = ok u ∧ s.solve u out = ok x ∧ x.length = m ∧ u.length = m + 2 ∧
      (12 * Φ * R.γ K ≤ 1 → ∀ V, Bounded V (vals v) →
        Within (2 * (Φ * (6 * R.γ K * V + 4 * (2 + R.γ (κ + 2)) * R.γ (κ + 2) * V))) (vals x) (vals v)) := by
  obtain ⟨u, eu, hul, hd⟩ := h.dot_err (by omega) v w hv hw
  obtain ⟨x, e, hl, hf⟩ := h.forward u out hul ho
  refine ⟨u, x, eu, e, hl, hul, fun hs V bV => ⟨by rw [vals_length, vals_length, hl, hv], fun i hi => ?_⟩⟩
  have hV : 0 ≤ V := (abs_nonneg _).trans (bounded_iff.mp bV 0 (by rw [vals_length]; omega))
  have g := R.γ_nonneg (h.lt h.kK)
  have lowV : ∀ i, |lowAt (fun j => a j * nth (vals v) j) i| ≤ V := fun i => by
    unfold lowAt
    split
    · rw [abs_mul, abs_of_nonneg (h.a0 _)]
      have := mul_le_mul (h.a1 (i - 2)) (bV.nth hV (i - 2)) (abs_nonneg _) zero_le_one
      linarith
    · rw [abs_zero]; exact hV
  have hδ : ∀ i < m + 2, |nth (vals u) i - (nth (vals v) i - lowAt (fun j => a j * nth (vals v) j) i)|
      ≤ 2 * R.γ (κ + 2) * V := fun i hi => by
    refine (hd i hi).trans ?_
    have := mul_le_mul_of_nonneg_left (add_le_add (bV.nth hV i) (lowV i)) g
    linarith
  have bU : Bounded (2 * (1 + R.γ (κ + 2)) * V) (vals u) := bounded_iff.mpr fun i hi => by
    rw [vals_length, hul] at hi
    have e := abs_add_le (nth (vals u) i - (nth (vals v) i - lowAt (fun j => a j * nth (vals v) j) i))
      (nth (vals v) i - lowAt (fun j => a j * nth (vals v) j) i)
    rw [sub_add_cancel] at e
    have e2 := abs_sub (nth (vals v) i) (lowAt (fun j => a j * nth (vals v) j) i)
    linarith [hδ i hi, bV.nth hV i, lowV i]
  have hζ : ∀ i < m, |(nth (vals u) i - a i * nth (vals u) (i + 2)) - normRow m a (nth (vals v)) i|
      ≤ 4 * R.γ (κ + 2) * V := fun i hi => by
    have d0 := hδ i (by omega)
    have d2 := hδ (i + 2) (by omega)
    have hrow : normRow m a (nth (vals v)) i = (nth (vals v) i - lowAt (fun j => a j * nth (vals v) j) i)
        - a i * (nth (vals v) (i + 2) - lowAt (fun j => a j * nth (vals v) j) (i + 2)) := by
      unfold normRow lowAt upAt
      rw [if_pos (show 2 ≤ i + 2 by omega), Nat.add_sub_cancel]
      have hz : ¬ i + 2 < m → nth (vals v) (i + 2) = 0 := fun h' => nth_of_le _ _ (by rw [vals_length]; omega)
      split <;> split
      · ring
      · rw [hz ‹_›]; ring
      · ring
      · rw [hz ‹_›]; ring
    rw [hrow]
    have e : (nth (vals u) i - a i * nth (vals u) (i + 2)) - ((nth (vals v) i - lowAt (fun j => a j * nth (vals v) j) i)
        - a i * (nth (vals v) (i + 2) - lowAt (fun j => a j * nth (vals v) j) (i + 2)))
      = (nth (vals u) i - (nth (vals v) i - lowAt (fun j => a j * nth (vals v) j) i))
        - a i * (nth (vals u) (i + 2) - (nth (vals v) (i + 2) - lowAt (fun j => a j * nth (vals v) j) (i + 2))) := by ring
    rw [e]
    refine (abs_sub _ _).trans ?_
    rw [abs_mul, abs_of_nonneg (h.a0 i)]
    have := mul_le_mul (h.a1 i) d2 (abs_nonneg _) zero_le_one
    linarith
  rw [vals_length, hl] at hi
  have hP := h.Phi hm
  have gK := R.γ_nonneg h.small
  have := absorb (m := m) (x := nth (vals x)) (y := nth (vals v)) (A := Φ * (6 * R.γ K))
    (B := Φ * (4 * (2 + R.γ (κ + 2)) * R.γ (κ + 2) * V)) (Y := V) (by positivity) (by linarith) (by omega)
    (fun i _ => bV.nth hV i) (fun X hX hb i hi => by
      have := hf X (2 * (1 + R.γ (κ + 2)) * V) (4 * R.γ (κ + 2) * V) (nth (vals v)) hX (by positivity)
        (bounded_iff.mpr fun i hi => hb i (by rw [vals_length] at hi; omega)) bU hζ i hi
      refine this.trans (le_of_eq ?_)
      ring) i hi
  linarith

end
end Verif
