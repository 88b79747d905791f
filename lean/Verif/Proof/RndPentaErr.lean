/- The pentadiagonal solvers in arithmetic with rounding: backward error. -/
import Verif.Proof.RndPenta4
import Verif.Proof.Banded
import Verif.Proof.RndForm

namespace Verif
open Res Spec Finset

namespace Spec.Rounding
variable {R : Rounding}

theorem fl_mul_sub (hu : R.u < 1) (a b : ℝ) : ∃ θ, Fac R.u 1 θ ∧ R.fl (a * b) = a * b * θ := R.fl_fac hu _

/-- `fl (fl (r - fl (a b)) / m)`, undone -/
theorem undo1 (hu : R.u < 1) {c a b y : ℝ} (h : y = R.fl (c - R.fl (a * b))) :
    ∃ t1 t2, Fac R.u 1 t1 ∧ Fac R.u 1 t2 ∧ c = y * t1 + a * b * t2 := by
  obtain ⟨p, hp, ep⟩ := R.fl_fac hu (a * b)
  obtain ⟨q, hq, eq⟩ := R.fl_fac hu (c - R.fl (a * b))
  have h0 := (hq.pos hu).ne'
  refine ⟨q⁻¹, p, hq.inv hu, hp, ?_⟩
  rw [h, eq, ep]; field_simp; ring

theorem undo2 (hu : R.u < 1) {c a b a' b' y : ℝ} (h : y = R.fl (R.fl (c - R.fl (a * b)) - R.fl (a' * b'))) :
    ∃ t1 t2 t3, Fac R.u 2 t1 ∧ Fac R.u 2 t2 ∧ Fac R.u 1 t3 ∧ c = y * t1 + a' * b' * t2 + a * b * t3 := by
  obtain ⟨p1, p2, h1, h2, e⟩ := undo1 hu h
  obtain ⟨q1, q2, g1, g2, e'⟩ := undo1 (R := R) hu (y := R.fl (c - R.fl (a * b))) rfl
  refine ⟨p1 * q1, p2 * q1, q2, h1.mul hu g1, h2.mul hu g1, g2, ?_⟩
  rw [e', e]; ring

theorem undo_div (hu : R.u < 1) {x m y : ℝ} (hm : m ≠ 0) (h : y = R.fl (x / m)) :
    ∃ t, Fac R.u 1 t ∧ x = m * y * t := by
  obtain ⟨q, hq, e⟩ := R.fl_fac hu (x / m)
  have h0 := (hq.pos hu).ne'
  refine ⟨q⁻¹, hq.inv hu, ?_⟩
  rw [h, e]; field_simp

end Spec.Rounding

variable {R : Rounding} {s : ℕ} {b c d e f r : ℕ → Rnd R}

open Spec.Rounding

/-- relations between the bands and the computed factors -/
theorem rLU_c (hu : R.u < 1) (hs : 0 < s) (i : ℕ) (h : s ≤ i) :
    ∃ t1 t2, Fac R.u 1 t1 ∧ Fac R.u 1 t2 ∧ (c (i - s)).val = (rLU s b c d e f i).ga.val * t1 +
      if 2 * s ≤ i then (b (i - 2 * s)).val * (rLU s b c d e f (i - 2 * s)).al.val * t2 else 0 := by
  have o := (Fac.one (u := R.u)).mono R.u_nonneg hu (j := 1) (by omega)
  rcases lt_or_ge i (2 * s) with h2 | h2
  · obtain ⟨j, rfl⟩ : ∃ j, i = j + s := ⟨i - s, by omega⟩
    rw [rLU_mid hs (by omega)]
    exact ⟨1, 1, o, o, by simp [show ¬ 2 * s ≤ j + s by omega]⟩
  · obtain ⟨j, rfl⟩ : ∃ j, i = j + 2 * s := ⟨i - 2 * s, by omega⟩
    simp only [rLU_hi hs, if_pos h2, show j + 2 * s - s = j + s by omega, Nat.add_sub_cancel]
    obtain ⟨t1, t2, h1, h2, e⟩ := undo1 (R := R) hu (c := (c (j + s)).val) (a := (rLU s b c d e f j).al.val) (b := (b j).val) rfl
    exact ⟨t1, t2, h1, h2, by simp only [Rnd.val_sub, Rnd.val_mul]; linarith⟩

theorem rLU_d (hu : R.u < 1) (hs : 0 < s) (i : ℕ) :
    ∃ t1 t2 t3, Fac R.u 2 t1 ∧ Fac R.u 2 t2 ∧ Fac R.u 2 t3 ∧ (d i).val = (rLU s b c d e f i).mu.val * t1
      + (if s ≤ i then (rLU s b c d e f i).ga.val * (rLU s b c d e f (i - s)).al.val * t2 else 0)
      + (if 2 * s ≤ i then (b (i - 2 * s)).val * (rLU s b c d e f (i - 2 * s)).be.val * t3 else 0) := by
  have o := (Fac.one (u := R.u)).mono R.u_nonneg hu (j := 2) (by omega)
  rcases lt_or_ge i s with h1 | h1
  · rw [rLU_lo h1]
    exact ⟨1, 1, 1, o, o, o, by simp [show ¬ 2 * s ≤ i by omega, show ¬ s ≤ i by omega]⟩
  rcases lt_or_ge i (2 * s) with h2 | h2
  · obtain ⟨j, rfl⟩ : ∃ j, i = j + s := ⟨i - s, by omega⟩
    simp only [rLU_mid (i := j) hs (by omega), if_pos h1, if_neg (show ¬ 2 * s ≤ j + s by omega), Nat.add_sub_cancel]
    obtain ⟨t1, t2, h1, h2, e⟩ := undo1 (R := R) hu (c := (d (j + s)).val) (a := (rLU s b c d e f j).al.val)
      (b := (c j).val) rfl
    exact ⟨t1, t2, 1, h1.mono R.u_nonneg hu (by omega), h2.mono R.u_nonneg hu (by omega), o,
      by simp only [Rnd.val_sub, Rnd.val_mul]; linarith⟩
  · obtain ⟨j, rfl⟩ : ∃ j, i = j + 2 * s := ⟨i - 2 * s, by omega⟩
    simp only [rLU_hi hs, if_pos h2, if_pos h1, show j + 2 * s - s = j + s by omega, Nat.add_sub_cancel]
    obtain ⟨t1, t2, t3, h1, h2, h3, e⟩ := undo2 (R := R) hu (c := (d (j + 2 * s)).val)
      (a := (rLU s b c d e f j).be.val) (b := (b j).val) (a' := (rLU s b c d e f (j + s)).al.val)
      (b' := ((c (j + s)) - (rLU s b c d e f j).al * b j).val) rfl
    refine ⟨t1, t2, t3, h1, h2, h3.mono R.u_nonneg hu (by omega), ?_⟩
    simp only [Rnd.val_sub, Rnd.val_mul] at e ⊢; linarith

theorem rLU_e (hu : R.u < 1) (hs : 0 < s) (i : ℕ) (hm : (rLU s b c d e f i).mu.val ≠ 0) :
    ∃ t1 t2, Fac R.u 2 t1 ∧ Fac R.u 1 t2 ∧ (e i).val = (rLU s b c d e f i).mu.val * (rLU s b c d e f i).al.val * t1
      + (if s ≤ i then (rLU s b c d e f i).ga.val * (rLU s b c d e f (i - s)).be.val * t2 else 0) := by
  have o := (Fac.one (u := R.u)).mono R.u_nonneg hu (j := 1) (by omega)
  rcases lt_or_ge i s with h1 | h1
  · rw [rLU_lo h1] at hm ⊢
    obtain ⟨t, h, e'⟩ := undo_div (R := R) hu (x := (e i).val) hm rfl
    exact ⟨t, 1, h.mono R.u_nonneg hu (by omega), o, by simpa [show ¬ s ≤ i by omega] using e'⟩
  have key : (rLU s b c d e f i).al = (e i - (rLU s b c d e f (i - s)).be * (rLU s b c d e f i).ga)
      / (rLU s b c d e f i).mu := by
    rcases lt_or_ge i (2 * s) with h2 | h2
    · obtain ⟨j, rfl⟩ : ∃ j, i = j + s := ⟨i - s, by omega⟩
      rw [rLU_mid hs (by omega), Nat.add_sub_cancel]
    · obtain ⟨j, rfl⟩ : ∃ j, i = j + 2 * s := ⟨i - 2 * s, by omega⟩
      rw [rLU_hi hs, show j + 2 * s - s = j + s by omega]
  simp only [if_pos h1, key]
  generalize (rLU s b c d e f i).ga = ga, (rLU s b c d e f i).mu = mu, (rLU s b c d e f (i - s)).be = be at *
  obtain ⟨t1, t2, h1, h2, e1⟩ := undo1 (R := R) hu (c := (e i).val) (a := be.val) (b := ga.val) rfl
  obtain ⟨t, h, e'⟩ := undo_div (R := R) hu (x := R.fl ((e i).val - R.fl (be.val * ga.val))) hm rfl
  refine ⟨t * t1, t2, h.mul hu h1, h2, ?_⟩
  simp only [Rnd.val_sub, Rnd.val_mul, Rnd.val_div]
  rw [e'] at e1
  linarith

theorem rLU_f (hu : R.u < 1) (hs : 0 < s) (i : ℕ) (hm : (rLU s b c d e f i).mu.val ≠ 0) :
    ∃ t, Fac R.u 1 t ∧ (f i).val = (rLU s b c d e f i).mu.val * (rLU s b c d e f i).be.val * t := by
  have key : (rLU s b c d e f i).be = f i / (rLU s b c d e f i).mu := by
    rcases lt_or_ge i s with h1 | h1
    · rw [rLU_lo h1]
    rcases lt_or_ge i (2 * s) with h2 | h2
    · obtain ⟨j, rfl⟩ : ∃ j, i = j + s := ⟨i - s, by omega⟩
      rw [rLU_mid hs (by omega)]
    · obtain ⟨j, rfl⟩ : ∃ j, i = j + 2 * s := ⟨i - 2 * s, by omega⟩
      rw [rLU_hi hs]
  rw [key]
  exact undo_div (R := R) hu hm rfl

theorem rZe_r (hu : R.u < 1) (hs : 0 < s) (i : ℕ) (hm : (rLU s b c d e f i).mu.val ≠ 0) :
    ∃ t1 t2 t3, Fac R.u 3 t1 ∧ Fac R.u 3 t2 ∧ Fac R.u 3 t3 ∧
      (r i).val = (rLU s b c d e f i).mu.val * (t1 * (rZe s b c d e f r i).val)
      + (if s ≤ i then (rLU s b c d e f i).ga.val * (t2 * (rZe s b c d e f r (i - s)).val) else 0)
      + (if 2 * s ≤ i then (b (i - 2 * s)).val * (t3 * (rZe s b c d e f r (i - 2 * s)).val) else 0) := by
  have o := (Fac.one (u := R.u)).mono R.u_nonneg hu (j := 3) (by omega)
  rcases lt_or_ge i s with h1 | h1
  · rw [rZe_lo h1]
    rw [rLU_lo h1] at hm ⊢
    obtain ⟨t, h, e'⟩ := undo_div (R := R) hu (x := (r i).val) hm rfl
    refine ⟨t, 1, 1, h.mono R.u_nonneg hu (by omega), o, o, ?_⟩
    rw [if_neg (by omega), if_neg (by omega), e']; simp only [Rnd.val_div]; ring
  rcases lt_or_ge i (2 * s) with h2 | h2
  · obtain ⟨j, rfl⟩ : ∃ j, i = j + s := ⟨i - s, by omega⟩
    simp only [rZe_mid (i := j) hs (by omega), if_pos h1, if_neg (show ¬ 2 * s ≤ j + s by omega), Nat.add_sub_cancel]
    generalize (rLU s b c d e f (j + s)).ga = ga, (rLU s b c d e f (j + s)).mu = mu, rZe s b c d e f r j = z at *
    obtain ⟨t1, t2, h1, h2, e1⟩ := undo1 (R := R) hu (c := (r (j + s)).val) (a := ga.val) (b := z.val) rfl
    obtain ⟨t, h, e'⟩ := undo_div (R := R) hu (x := R.fl ((r (j + s)).val - R.fl (ga.val * z.val))) hm rfl
    refine ⟨t * t1, t2, 1, (h.mul hu h1).mono R.u_nonneg hu (by omega), h2.mono R.u_nonneg hu (by omega), o, ?_⟩
    simp only [Rnd.val_sub, Rnd.val_smul, Rnd.val_div]
    rw [e'] at e1
    linarith
  · obtain ⟨j, rfl⟩ : ∃ j, i = j + 2 * s := ⟨i - 2 * s, by omega⟩
    simp only [rZe_hi hs, if_pos h2, if_pos h1, show j + 2 * s - s = j + s by omega, Nat.add_sub_cancel]
    generalize (rLU s b c d e f (j + 2 * s)).ga = ga, (rLU s b c d e f (j + 2 * s)).mu = mu, rZe s b c d e f r j = z,
      rZe s b c d e f r (j + s) = y at *
    obtain ⟨t1, t2, t3, h1, h2, h3, e1⟩ := undo2 (R := R) hu (c := (r (j + 2 * s)).val)
      (a := (b j).val) (b := z.val) (a' := ga.val) (b' := y.val) rfl
    obtain ⟨t, h, e'⟩ := undo_div (R := R) hu
      (x := R.fl (R.fl ((r (j + 2 * s)).val - R.fl ((b j).val * z.val)) - R.fl (ga.val * y.val))) hm rfl
    refine ⟨t * t1, t2, t3, h.mul hu h1, h2.mono R.u_nonneg hu (by omega), h3.mono R.u_nonneg hu (by omega), ?_⟩
    simp only [Rnd.val_sub, Rnd.val_smul, Rnd.val_div]
    rw [e'] at e1
    linarith

theorem rBack_z (hu : R.u < 1) {n : ℕ} {L : ℕ → LU4 (Rnd R)} {Z x : ℕ → Rnd R} {i : ℕ}
    (hx : x i = rBack s n L Z x i) :
    ∃ t1 t2 t3, Fac R.u 2 t1 ∧ Fac R.u 2 t2 ∧ Fac R.u 2 t3 ∧
      (Z i).val = t1 * (x i).val
      + (if i + s < n then (L i).al.val * (t2 * (x (i + s)).val) else 0)
      + (if i + 2 * s < n then (L i).be.val * (t3 * (x (i + 2 * s)).val) else 0) := by
  have o := (Fac.one (u := R.u)).mono R.u_nonneg hu (j := 2) (by omega)
  have hx' := congrArg Rnd.val hx
  unfold rBack at hx'
  by_cases h2 : i + 2 * s < n
  · rw [if_pos h2] at hx'
    obtain ⟨t1, t2, t3, h1, h2', h3, e1⟩ := undo2 (R := R) hu hx'
    refine ⟨t1, t3, t2, h1, h3.mono R.u_nonneg hu (by omega), h2', ?_⟩
    rw [if_pos h2, if_pos (by omega)]; linarith
  simp only [if_neg h2] at hx' ⊢
  by_cases h1 : i + s < n
  · simp only [if_pos h1] at hx' ⊢
    obtain ⟨t1, t2, h1, h2', e1⟩ := undo1 (R := R) hu hx'
    refine ⟨t1, t2, 1, h1.mono R.u_nonneg hu (by omega), h2'.mono R.u_nonneg hu (by omega), o, ?_⟩
    linarith
  · simp only [if_neg h1] at hx' ⊢
    exact ⟨1, 1, 1, o, o, o, by rw [hx']; ring⟩

/-- The comparison of the three sums. -/
theorem backward_of_factors {R : Rounding} (h7 : 7 * R.u < 1) {n : ℕ} {A L U : ℕ → ℕ → ℝ} {r z x : ℕ → ℝ}
    (hA : ∀ i < n, ∀ j < n, ∃ χ : ℕ → ℝ, (∀ k, Fac R.u 2 (χ k)) ∧ A i j = ∑ k ∈ range n, L i k * (χ k * U k j))
    (hr : ∀ i < n, ∃ φ : ℕ → ℝ, (∀ k, Fac R.u 3 (φ k)) ∧ r i = ∑ k ∈ range n, L i k * (φ k * z k))
    (hz : ∀ k < n, ∃ ψ : ℕ → ℝ, (∀ j, Fac R.u 2 (ψ j)) ∧ z k = ∑ j ∈ range n, U k j * (ψ j * x j)) :
    (∀ i < n, ∀ j < n, |A i j - ∑ k ∈ range n, L i k * U k j| ≤ R.γ 2 * ∑ k ∈ range n, |L i k| * |U k j|) ∧
    ∃ A' : ℕ → ℕ → ℝ, Solves n A' x r ∧
      ∀ i < n, ∀ j < n, |A' i j - A i j| ≤ R.γ 7 * ∑ k ∈ range n, |L i k| * |U k j| := by
  have h0 := R.u_nonneg
  have hu : R.u < 1 := by linarith
  have main : ∀ {m : ℕ} {L U : ℕ → ℝ} {θ : ℕ → ℝ}, (∀ k, |θ k| ≤ R.γ m) →
      |∑ k ∈ range n, L k * (θ k * U k)| ≤ R.γ m * ∑ k ∈ range n, |L k| * |U k| := by
    intro m L U θ h
    rw [mul_sum]
    refine (abs_sum_le_sum_abs _ _).trans (sum_le_sum fun k _ => ?_)
    rw [abs_mul, abs_mul]
    nlinarith [mul_le_mul_of_nonneg_right (h k) (mul_nonneg (abs_nonneg (L k)) (abs_nonneg (U k)))]
  refine ⟨fun i hi j hj => ?_, ?_⟩
  · obtain ⟨χ, hχ, e⟩ := hA i hi j hj
    rw [e, ← sum_sub_distrib, sum_congr rfl (fun k _ => show _ = L i k * ((χ k - 1) * U k j) by ring)]
    exact main fun k => R.fac_dist (hχ k) (by push_cast; linarith)
  · choose! φ hφ er using hr
    choose! ψ hψ ez using hz
    refine ⟨fun i j => ∑ k ∈ range n, L i k * (φ i k * ψ k j * U k j), fun i hi => ?_, fun i hi j hj => ?_⟩
    · rw [er i hi, matVec]
      simp only [smul_eq_mul, sum_mul]
      rw [sum_comm]
      refine sum_congr rfl fun k hk => ?_
      rw [ez k (mem_range.mp hk), mul_sum, mul_sum]
      exact sum_congr rfl fun j _ => by ring
    · obtain ⟨χ, hχ, e⟩ := hA i hi j hj
      show |∑ k ∈ range n, L i k * (φ i k * ψ k j * U k j) - A i j| ≤ _
      rw [e, ← sum_sub_distrib,
        sum_congr rfl (fun k _ => show _ = L i k * ((φ i k * ψ k j - χ k) * U k j) by ring)]
      refine main (m := 7) (L := L i) (U := fun k => U k j) (θ := fun k => if k < n then φ i k * ψ k j - χ k else 0) ?_ |>.trans' ?_
      · intro k
        by_cases hk : k < n
        · simp only [if_pos hk]
          exact R.fac_sub (j := 5) (k := 2) ((hφ i hi k).mul hu (hψ k hk j)) (hχ k) (by push_cast; linarith)
        · simp only [if_neg hk, abs_zero]; exact R.γ_nonneg (by push_cast; linarith)
      · refine le_of_eq (congrArg _ (sum_congr rfl fun k hk => ?_))
        rw [if_pos (mem_range.mp hk)]

/-- the computed factors, as matrices -/
theorem penta_backward (h7 : 7 * R.u < 1) (hs : 0 < s) {n : ℕ} {x : ℕ → Rnd R}
    (hm : ∀ i < n, (rLU s b c d e f i).mu.val ≠ 0)
    (hx : ∀ i < n, x i = rBack s n (rLU s b c d e f) (rZe s b c d e f r) x i) :
    let ga := fun j => (rLU s b c d e f (j + s)).ga.val
    let mu := fun i => (rLU s b c d e f i).mu.val
    let al := fun i => (rLU s b c d e f i).al.val
    let be := fun i => (rLU s b c d e f i).be.val
    (∀ i < n, ∀ j < n, |pentaMat s (fun k => (b k).val) (fun k => (c k).val) (fun k => (d k).val) (fun k => (e k).val)
          (fun k => (f k).val) i j
        - ∑ k ∈ range n, pentaMat s (fun k => (b k).val) ga mu 0 0 i k * pentaMat s 0 0 1 al be k j|
          ≤ R.γ 2 * ∑ k ∈ range n, |pentaMat s (fun k => (b k).val) ga mu 0 0 i k| * |pentaMat s 0 0 1 al be k j|) ∧
      ∃ A' : ℕ → ℕ → ℝ, Solves n A' (fun i => (x i).val) (fun i => (r i).val) ∧
      ∀ i < n, ∀ j < n, |A' i j - pentaMat s (fun k => (b k).val) (fun k => (c k).val) (fun k => (d k).val)
          (fun k => (e k).val) (fun k => (f k).val) i j|
        ≤ R.γ 7 * ∑ k ∈ range n, |pentaMat s (fun k => (b k).val) ga mu 0 0 i k| * |pentaMat s 0 0 1 al be k j| := by
  have h0 := R.u_nonneg
  have hu : R.u < 1 := by linarith
  intro ga mu al be
  refine backward_of_factors (z := fun i => (rZe s b c d e f r i).val) h7 ?_ ?_ ?_
  · intro i hi j hj
    have o := (Fac.one (u := R.u)).mono R.u_nonneg hu (j := 2) (by omega)
    obtain ⟨c1, c2, hc1, hc2, ec⟩ : ∃ t1 t2, Fac R.u 1 t1 ∧ Fac R.u 1 t2 ∧ (s ≤ i → (c (i - s)).val =
        (rLU s b c d e f i).ga.val * t1 +
        if 2 * s ≤ i then (b (i - 2 * s)).val * (rLU s b c d e f (i - 2 * s)).al.val * t2 else 0) := by
      by_cases h : s ≤ i
      · obtain ⟨c1, c2, h1, h2, h3⟩ := rLU_c (b := b) (c := c) (d := d) (e := e) (f := f) hu hs i h
        exact ⟨c1, c2, h1, h2, fun _ => h3⟩
      · have o := (Fac.one (u := R.u)).mono R.u_nonneg hu (j := 1) (by omega)
        exact ⟨1, 1, o, o, fun h' => absurd h' h⟩
    obtain ⟨d1, d2, d3, hd1, hd2, hd3, ed⟩ := rLU_d (b := b) (c := c) (d := d) (e := e) (f := f) hu hs i
    obtain ⟨e1, e2, he1, he2, ee⟩ := rLU_e hu hs i (hm i hi)
    obtain ⟨f1, hf1, ef⟩ := rLU_f hu hs i (hm i hi)
    have m12 : ∀ {t}, Fac R.u 1 t → Fac R.u 2 t := fun h => h.mono R.u_nonneg hu (by omega)
    refine ⟨fun k =>
      if j = i + 2 * s then f1
      else if j = i + s then (if k = i then e1 else e2)
      else if j = i then (if k = i then d1 else if k + s = i then d2 else d3)
      else if j + s = i then (if k + s = i then c1 else c2)
      else 1, fun k => ?_, ?_⟩
    · dsimp only
      split_ifs <;> first | assumption | exact m12 ‹_› | skip
    · have := matVec_pentaMat n s (fun k => (b k).val) (fun j => (rLU s b c d e f (j + s)).ga.val)
        (fun i => (rLU s b c d e f i).mu.val) 0 0
        (fun k => (if j = i + 2 * s then f1
          else if j = i + s then (if k = i then e1 else e2)
          else if j = i then (if k = i then d1 else if k + s = i then d2 else d3)
          else if j + s = i then (if k + s = i then c1 else c2)
          else 1) * pentaMat s 0 0 1 (fun i => (rLU s b c d e f i).al.val) (fun i => (rLU s b c d e f i).be.val) k j) i hi
      simp only [matVec, smul_eq_mul] at this
      rw [this]
      simp only [Pi.zero_apply, zero_mul, ite_self, add_zero, if_pos]
      unfold pentaMat
      simp only [Pi.zero_apply, Pi.one_apply, ite_self, add_zero, zero_add]
      rcases Nat.lt_trichotomy i j with hij | rfl | hij
      · by_cases j2 : j = i + 2 * s
        · subst j2
          rw [ef]
          simp (disch := omega) only [if_true, if_pos, if_neg, zero_add, add_zero, mul_zero, ite_self]
          ring
        by_cases j1 : j = i + s
        · subst j1
          rw [ee]
          by_cases g1 : s ≤ i
          · simp (disch := omega) only [if_true, if_pos, if_neg, zero_add, add_zero, mul_zero, ite_self,
              show i - s + s = i by omega]
            ring
          · simp (disch := omega) only [if_true, if_pos, if_neg, zero_add, add_zero, mul_zero, ite_self]
            ring
        · simp (disch := omega) only [if_neg, zero_add, add_zero, mul_zero, ite_self]
      · rw [ed]
        by_cases g1 : s ≤ i
        · by_cases g2 : 2 * s ≤ i
          · simp (disch := omega) only [if_true, if_pos, if_neg, zero_add, add_zero, mul_zero, ite_self,
              show i - s + s = i by omega]
            ring
          · simp (disch := omega) only [if_true, if_pos, if_neg, zero_add, add_zero, mul_zero, ite_self,
              show i - s + s = i by omega]
            ring
        · simp (disch := omega) only [if_true, if_pos, if_neg, zero_add, add_zero, mul_zero, ite_self]
          ring
      · by_cases j1 : j + s = i
        · subst j1
          have ec := ec (by omega)
          rw [Nat.add_sub_cancel] at ec
          rw [ec]
          by_cases g2 : 2 * s ≤ j + s
          · simp (disch := omega) only [if_true, if_pos, if_neg, zero_add, add_zero, mul_zero, ite_self, Nat.add_sub_cancel]
            ring
          · simp (disch := omega) only [if_true, if_pos, if_neg, zero_add, add_zero, mul_zero, ite_self, Nat.add_sub_cancel]
            ring
        by_cases j2 : j + 2 * s = i
        · subst j2
          simp (disch := omega) only [if_true, if_pos, if_neg, zero_add, add_zero, mul_zero, ite_self, Nat.add_sub_cancel]
          ring
        · simp (disch := omega) only [if_neg, zero_add, add_zero, mul_zero, ite_self]
  · intro i hi
    obtain ⟨t1, t2, t3, h1, h2, h3, er⟩ := rZe_r (r := r) hu hs i (hm i hi)
    refine ⟨fun k => if k = i then t1 else if k + s = i then t2 else t3, fun k => ?_, ?_⟩
    · dsimp only; split_ifs <;> assumption
    · have := matVec_pentaMat n s (fun k => (b k).val) (fun j => (rLU s b c d e f (j + s)).ga.val)
        (fun i => (rLU s b c d e f i).mu.val) 0 0
        (fun k => (if k = i then t1 else if k + s = i then t2 else t3) * (rZe s b c d e f r k).val) i hi
      simp only [matVec, smul_eq_mul] at this
      rw [this, er]
      simp only [Pi.zero_apply, zero_mul, ite_self, add_zero, if_pos]
      by_cases g1 : s ≤ i
      · by_cases g2 : 2 * s ≤ i
        · simp only [if_true, if_pos g1, if_pos g2, if_neg (show ¬ i - s = i by omega), if_neg (show ¬ i - 2 * s = i by omega),
            if_neg (show ¬ i - 2 * s + s = i by omega), if_pos (show i - s + s = i by omega), show i - s + s = i by omega]
          ring
        · simp only [if_true, if_pos g1, if_neg g2, if_neg (show ¬ i - s = i by omega), if_pos (show i - s + s = i by omega),
            show i - s + s = i by omega]
          ring
      · simp only [if_neg g1, if_neg (show ¬ 2 * s ≤ i by omega)]
        ring
  · intro i hi
    obtain ⟨t1, t2, t3, h1, h2, h3, er⟩ := rBack_z hu (hx i hi)
    refine ⟨fun k => if k = i then t1 else if k = i + s then t2 else t3, fun k => ?_, ?_⟩
    · dsimp only; split_ifs <;> assumption
    · have := matVec_pentaMat n s (0 : ℕ → ℝ) 0 1 (fun i => (rLU s b c d e f i).al.val)
        (fun i => (rLU s b c d e f i).be.val)
        (fun k => (if k = i then t1 else if k = i + s then t2 else t3) * (x k).val) i hi
      simp only [matVec, smul_eq_mul] at this
      rw [this, er]
      simp only [Pi.zero_apply, Pi.one_apply, zero_mul, one_mul, ite_self, zero_add, if_pos,
        if_neg (show ¬ i + s = i by omega), if_neg (show ¬ i + 2 * s = i by omega),
        if_neg (show ¬ i + 2 * s = i + s by omega)]

section growth
variable {σ b c d e f al1 be1 al2 be2 ga mu al be c1 c2 d1 d2 d3 e1 e2 f1 : ℝ}

/-- `|ga| σ² ≤ |c| + |b| |al2|` -/
theorem ga_le (h0 : 0 < σ) (h1 : σ ≤ 1) (hc : c = ga * c1 + b * al2 * c2) (g1 : σ ≤ c1) (g2 : c2 * σ ≤ 1) (g3 : 0 ≤ c2) :
    |ga| * σ ^ 2 ≤ |c| + |b| * |al2| := by
  have e : ga * c1 = c - b * al2 * c2 := by rw [hc]; ring
  have k : |ga| * c1 ≤ |c| + |b| * |al2| * c2 := by
    rw [← abs_of_nonneg (h0.le.trans g1), ← abs_mul, e]
    refine (abs_sub _ _).trans (le_of_eq ?_)
    rw [abs_mul, abs_mul, abs_of_nonneg g3]
  have n1 := abs_nonneg ga
  have n2 := mul_nonneg (abs_nonneg b) (abs_nonneg al2)
  calc |ga| * σ ^ 2 = (|ga| * σ) * σ := by ring
    _ ≤ (|ga| * c1) * σ := by gcongr
    _ ≤ (|c| + |b| * |al2| * c2) * σ := by gcongr
    _ = |c| * σ + |b| * |al2| * (c2 * σ) := by ring
    _ ≤ |c| * 1 + |b| * |al2| * 1 := by gcongr
    _ = _ := by ring

/-- `|mu| ≥ σ² |d| - |ga| |al1| - |b| |be2|` -/
theorem mu_ge (h0 : 0 < σ) (hd : d = mu * d1 + ga * al1 * d2 + b * be2 * d3)
    (g1 : d1 * σ ^ 2 ≤ 1) (g1' : 0 ≤ d1) (g2 : d2 * σ ^ 2 ≤ 1) (g2' : 0 ≤ d2) (g3 : d3 * σ ^ 2 ≤ 1) (g3' : 0 ≤ d3) :
    |d| * σ ^ 2 ≤ |mu| + |ga| * |al1| + |b| * |be2| := by
  have k : |d| ≤ |mu| * d1 + |ga| * |al1| * d2 + |b| * |be2| * d3 := by
    rw [hd]
    refine (abs_add_three _ _ _).trans (le_of_eq ?_)
    simp only [abs_mul, abs_of_nonneg g1', abs_of_nonneg g2', abs_of_nonneg g3']
  have n1 := abs_nonneg mu
  have n2 := mul_nonneg (abs_nonneg ga) (abs_nonneg al1)
  have n3 := mul_nonneg (abs_nonneg b) (abs_nonneg be2)
  calc |d| * σ ^ 2 ≤ (|mu| * d1 + |ga| * |al1| * d2 + |b| * |be2| * d3) * σ ^ 2 := by gcongr
    _ = |mu| * (d1 * σ ^ 2) + |ga| * |al1| * (d2 * σ ^ 2) + |b| * |be2| * (d3 * σ ^ 2) := by ring
    _ ≤ |mu| * 1 + |ga| * |al1| * 1 + |b| * |be2| * 1 := by gcongr
    _ = _ := by ring

/-- `|mu| σ⁴ ≤ |d| σ² + |ga| |al1| + |b| |be2|` -/
theorem mu_le (h0 : 0 < σ) (hd : d = mu * d1 + ga * al1 * d2 + b * be2 * d3)
    (g1 : σ ^ 2 ≤ d1) (g2 : d2 * σ ^ 2 ≤ 1) (g2' : 0 ≤ d2) (g3 : d3 * σ ^ 2 ≤ 1) (g3' : 0 ≤ d3) :
    |mu| * σ ^ 4 ≤ |d| * σ ^ 2 + |ga| * |al1| + |b| * |be2| := by
  have g1' : 0 ≤ d1 := le_trans (by positivity) g1
  have k : |mu| * d1 ≤ |d| + |ga| * |al1| * d2 + |b| * |be2| * d3 := by
    have e : mu * d1 = d + -(ga * al1 * d2) + -(b * be2 * d3) := by rw [hd]; ring
    rw [← abs_of_nonneg g1', ← abs_mul, e]
    refine (abs_add_three _ _ _).trans (le_of_eq ?_)
    simp only [abs_neg, abs_mul, abs_of_nonneg g2', abs_of_nonneg g3']
  have n2 := mul_nonneg (abs_nonneg ga) (abs_nonneg al1)
  have n3 := mul_nonneg (abs_nonneg b) (abs_nonneg be2)
  calc |mu| * σ ^ 4 = |mu| * σ ^ 2 * σ ^ 2 := by ring
    _ ≤ |mu| * d1 * σ ^ 2 := by gcongr
    _ ≤ (|d| + |ga| * |al1| * d2 + |b| * |be2| * d3) * σ ^ 2 := by gcongr
    _ = |d| * σ ^ 2 + |ga| * |al1| * (d2 * σ ^ 2) + |b| * |be2| * (d3 * σ ^ 2) := by ring
    _ ≤ |d| * σ ^ 2 + |ga| * |al1| * 1 + |b| * |be2| * 1 := by gcongr
    _ = _ := by ring

/-- `(|al| + |be|) |mu| σ³ ≤ |e| + |f| + |ga| |be1|` -/
theorem row_le (h0 : 0 < σ) (h1 : σ ≤ 1) (he : e = mu * al * e1 + ga * be1 * e2) (hf : f = mu * be * f1)
    (g1 : σ ^ 2 ≤ e1) (g2 : e2 * σ ≤ 1) (g2' : 0 ≤ e2) (g3 : σ ≤ f1) :
    (|al| + |be|) * |mu| * σ ^ 3 ≤ |e| + |f| + |ga| * |be1| := by
  have g1' : 0 ≤ e1 := le_trans (by positivity) g1
  have g3' : 0 ≤ f1 := h0.le.trans g3
  have k : |al| * |mu| * e1 ≤ |e| + |ga| * |be1| * e2 := by
    have e' : al * mu * e1 = e - ga * be1 * e2 := by rw [he]; ring
    rw [← abs_of_nonneg g1', ← abs_mul, ← abs_mul, e']
    refine (abs_sub _ _).trans (le_of_eq ?_)
    simp only [abs_mul, abs_of_nonneg g2']
  have k' : |be| * |mu| * f1 = |f| := by rw [hf, abs_mul, abs_mul, abs_of_nonneg g3']; ring
  have n2 := mul_nonneg (abs_nonneg ga) (abs_nonneg be1)
  have n3 := abs_nonneg e
  have p1 : |al| * |mu| * σ ^ 3 ≤ |e| + |ga| * |be1| := by
    calc |al| * |mu| * σ ^ 3 = |al| * |mu| * σ ^ 2 * σ := by ring
      _ ≤ |al| * |mu| * e1 * σ := by gcongr
      _ ≤ (|e| + |ga| * |be1| * e2) * σ := by gcongr
      _ = |e| * σ + |ga| * |be1| * (e2 * σ) := by ring
      _ ≤ |e| * 1 + |ga| * |be1| * 1 := by gcongr
      _ = _ := by ring
  have p2 : |be| * |mu| * σ ^ 3 ≤ |f| := by
    rw [← k']
    have : σ ^ 3 ≤ f1 := (pow_le_of_le_one h0.le h1 (by omega)).trans g3
    gcongr
  linarith [show (|al| + |be|) * |mu| * σ ^ 3 = |al| * |mu| * σ ^ 3 + |be| * |mu| * σ ^ 3 by ring]

/-- one row of the elimination: the pivot -/
theorem row_pivot (h0 : 0 < σ) (h1 : σ ≤ 1) (hg : |ga| * σ ^ 2 ≤ |c| + |b| * |al2|)
    (hm : |d| * σ ^ 2 ≤ |mu| + |ga| * |al1| + |b| * |be2|) (a1 : |al1| ≤ 1) (a2 : |al2| + |be2| ≤ 1)
    (hdom : |b| + |c| < σ ^ 7 * |d|) : mu ≠ 0 := by
  rintro rfl
  rw [abs_zero, zero_add] at hm
  have n1 := abs_nonneg ga
  have n2 := abs_nonneg b
  have n3 := abs_nonneg be2
  have n4 := abs_nonneg d
  have k : |d| * σ ^ 4 ≤ |b| + |c| := by
    calc |d| * σ ^ 4 = |d| * σ ^ 2 * σ ^ 2 := by ring
      _ ≤ (|ga| * |al1| + |b| * |be2|) * σ ^ 2 := by gcongr
      _ = |ga| * σ ^ 2 * |al1| + |b| * |be2| * σ ^ 2 := by ring
      _ ≤ |ga| * σ ^ 2 * 1 + |b| * |be2| * 1 := by
        have : σ ^ 2 ≤ 1 := pow_le_one₀ h0.le h1
        gcongr
      _ ≤ |c| + |b| * (|al2| + |be2|) := by linarith
      _ ≤ |c| + |b| * 1 := by gcongr
      _ = _ := by ring
  have : σ ^ 7 * |d| ≤ |d| * σ ^ 4 := by
    rw [mul_comm]
    exact mul_le_mul_of_nonneg_left (pow_le_pow_of_le_one h0.le h1 (by omega)) n4
  linarith

/-- one row of the elimination: the factors stay small -/
theorem row_small (h0 : 0 < σ) (h1 : σ ≤ 1) (hg : |ga| * σ ^ 2 ≤ |c| + |b| * |al2|)
    (hm : |d| * σ ^ 2 ≤ |mu| + |ga| * |al1| + |b| * |be2|)
    (hr : (|al| + |be|) * |mu| * σ ^ 3 ≤ |e| + |f| + |ga| * |be1|) (hmu : mu ≠ 0)
    (a1 : |al1| + |be1| ≤ 1) (a2 : |al2| + |be2| ≤ 1)
    (hdom : |b| + |c| + |e| + |f| < σ ^ 7 * |d|) : |al| + |be| ≤ 1 := by
  have n1 := abs_nonneg ga
  have n2 := abs_nonneg b
  have n3 := abs_nonneg be2
  have n4 := abs_nonneg al1
  have n5 := abs_nonneg e
  have n6 := abs_nonneg f
  have s2 : σ ^ 2 ≤ 1 := pow_le_one₀ h0.le h1
  have s3 : σ ^ 3 ≤ 1 := pow_le_one₀ h0.le h1
  -- the sum of the two estimates, times σ²
  have k1 : (|e| + |f| + |ga| * (|al1| + |be1|) + |b| * |be2|) * σ ^ 2 ≤ |b| + |c| + |e| + |f| := by
    calc (|e| + |f| + |ga| * (|al1| + |be1|) + |b| * |be2|) * σ ^ 2
        = (|e| + |f|) * σ ^ 2 + |ga| * σ ^ 2 * (|al1| + |be1|) + |b| * |be2| * σ ^ 2 := by ring
      _ ≤ (|e| + |f|) * 1 + |ga| * σ ^ 2 * 1 + |b| * |be2| * 1 := by gcongr
      _ ≤ |e| + |f| + |c| + |b| * (|al2| + |be2|) := by linarith
      _ ≤ |e| + |f| + |c| + |b| * 1 := by gcongr
      _ = _ := by ring
  have k2 : |e| + |f| + |ga| * (|al1| + |be1|) + |b| * |be2| ≤ |d| * σ ^ 5 := by
    have : (|e| + |f| + |ga| * (|al1| + |be1|) + |b| * |be2|) * σ ^ 2 ≤ |d| * σ ^ 5 * σ ^ 2 := by
      refine (k1.trans hdom.le).trans (le_of_eq (by ring))
    exact le_of_mul_le_mul_right this (by positivity)
  have k3 : |d| * σ ^ 5 ≤ |mu| * σ ^ 3 + |ga| * |al1| + |b| * |be2| := by
    calc |d| * σ ^ 5 = |d| * σ ^ 2 * σ ^ 3 := by ring
      _ ≤ (|mu| + |ga| * |al1| + |b| * |be2|) * σ ^ 3 := by gcongr
      _ = |mu| * σ ^ 3 + (|ga| * |al1| + |b| * |be2|) * σ ^ 3 := by ring
      _ ≤ |mu| * σ ^ 3 + (|ga| * |al1| + |b| * |be2|) * 1 := by gcongr
      _ = _ := by ring
  have p : 0 < |mu| * σ ^ 3 := mul_pos (abs_pos.mpr hmu) (by positivity)
  refine le_of_mul_le_mul_right (a := |mu| * σ ^ 3) ?_ p
  linarith [show (|al| + |be|) * (|mu| * σ ^ 3) = (|al| + |be|) * |mu| * σ ^ 3 by ring]

/-- one row of the elimination: the size of the lower factor -/
theorem row_size (h0 : 6 / 7 ≤ σ) (h1 : σ ≤ 1) (hg : |ga| * σ ^ 2 ≤ |c| + |b| * |al2|)
    (hm : |mu| * σ ^ 4 ≤ |d| * σ ^ 2 + |ga| * |al1| + |b| * |be2|)
    (a1 : |al1| ≤ 1) (a2 : |al2| + |be2| ≤ 1)
    (hdom : |b| + |c| < σ ^ 7 * |d|) : |b| + |ga| + |mu| ≤ 9 / 2 * |d| := by
  have h0' : (0:ℝ) < σ := by linarith
  have n1 := abs_nonneg ga
  have n2 := abs_nonneg b
  have n3 := abs_nonneg be2
  have n4 := abs_nonneg d
  have n5 := abs_nonneg c
  have n6 := abs_nonneg al2
  have s2 : σ ^ 2 ≤ 1 := pow_le_one₀ h0'.le h1
  have s2' : 36 / 49 ≤ σ ^ 2 := by nlinarith
  have hS : |b| + |c| ≤ σ ^ 2 * |d| := hdom.le.trans (mul_le_mul_of_nonneg_right
    (pow_le_pow_of_le_one h0'.le h1 (by omega)) n4)
  have g' : |ga| ≤ |d| := by
    refine le_of_mul_le_mul_right (a := σ ^ 2) ?_ (by positivity)
    have : |b| * |al2| ≤ |b| * 1 := by gcongr; linarith
    linarith
  have m' : |mu| * σ ^ 6 ≤ |d| * σ ^ 4 + |d| * σ ^ 6 := by
    calc |mu| * σ ^ 6 = |mu| * σ ^ 4 * σ ^ 2 := by ring
      _ ≤ (|d| * σ ^ 2 + |ga| * |al1| + |b| * |be2|) * σ ^ 2 := by gcongr
      _ = |d| * σ ^ 4 + |ga| * σ ^ 2 * |al1| + |b| * |be2| * σ ^ 2 := by ring
      _ ≤ |d| * σ ^ 4 + |ga| * σ ^ 2 * 1 + |b| * |be2| * 1 := by gcongr
      _ ≤ |d| * σ ^ 4 + |c| + |b| * (|al2| + |be2|) := by linarith
      _ ≤ |d| * σ ^ 4 + |c| + |b| * 1 := by gcongr
      _ ≤ |d| * σ ^ 4 + σ ^ 7 * |d| := by linarith
      _ ≤ |d| * σ ^ 4 + σ ^ 6 * |d| := by
        have : σ ^ 7 ≤ σ ^ 6 := pow_le_pow_of_le_one h0'.le h1 (by omega)
        gcongr
      _ = _ := by ring
  have m'' : |mu| * σ ^ 2 ≤ |d| + |d| * σ ^ 2 := by
    refine le_of_mul_le_mul_right (a := σ ^ 4) ?_ (by positivity)
    calc |mu| * σ ^ 2 * σ ^ 4 = |mu| * σ ^ 6 := by ring
      _ ≤ _ := m'
      _ = _ := by ring
  have m3 : |mu| ≤ 5 / 2 * |d| := by
    refine le_of_mul_le_mul_right (a := σ ^ 2) ?_ (by positivity)
    nlinarith [mul_le_mul_of_nonneg_left s2' n4]
  have b' : |b| ≤ |d| := by nlinarith [mul_le_mul_of_nonneg_right s2 n4]
  linarith

end growth

end Verif
