/- The Dirichlet and Neumann stencils in arithmetic with rounding. -/
import Verif.Proof.RndBases

namespace Verif
open Res Spec

section
variable {R : Rounding}

/-- subdiagonal of the Neumann stencil, up to sign -/
noncomputable def neuA (k : ℕ) : ℝ := (k : ℝ) ^ 2 / ((k : ℝ) + 2) ^ 2

theorem neuA_nonneg (k : ℕ) : 0 ≤ neuA k := by unfold neuA; positivity

theorem neuA_le (k : ℕ) : neuA k ≤ 1 := by
  unfold neuA
  rw [div_le_one (by positivity)]
  have : (0:ℝ) ≤ k := Nat.cast_nonneg k
  nlinarith

theorem neuA_mono (k : ℕ) : neuA k ≤ neuA (k + 2) := by
  unfold neuA
  rw [div_le_div_iff₀ (by positivity) (by positivity)]
  push_cast
  have : (0:ℝ) ≤ k := Nat.cast_nonneg k
  have h : (k:ℝ) * ((k:ℝ) + 2 + 2) ≤ ((k:ℝ) + 2) * ((k:ℝ) + 2) := by nlinarith
  have h2 := mul_self_le_mul_self (by positivity) h
  nlinarith

theorem neuA_gap {n k : ℕ} (hk : k + 3 ≤ n) : 4 / ((n:ℝ) - 1) ^ 2 ≤ (1 - neuA k) ^ 2 := by
  have hk' : (k:ℝ) + 3 ≤ n := by exact_mod_cast hk
  have h0 : (0:ℝ) ≤ k := Nat.cast_nonneg k
  have hp : (0:ℝ) < (n:ℝ) - 1 := by linarith
  have e : 2 / ((n:ℝ) - 1) ≤ 1 - neuA k := by
    have h1 : 1 - neuA k = 4 * (k + 1) / ((k:ℝ) + 2) ^ 2 := by unfold neuA; field_simp; ring
    rw [h1, div_le_div_iff₀ hp (by positivity)]
    have : ((k:ℝ) + 2) ^ 2 ≤ (2 * ((k:ℝ) + 1)) * ((n:ℝ) - 1) := by nlinarith
    linarith
  have h2 : (2 / ((n:ℝ) - 1)) ^ 2 ≤ (1 - neuA k) ^ 2 := pow_le_pow_left₀ (by positivity) e 2
  calc 4 / ((n:ℝ) - 1) ^ 2 = (2 / ((n:ℝ) - 1)) ^ 2 := by rw [div_pow]; norm_num
    _ ≤ _ := h2

/-- rows of the exact Neumann system are diagonally dominant -/
theorem neuA_row {n i : ℕ} (m : ℕ) (hi : i + 3 ≤ n) :
    lowAt neuA i + upAt m neuA i + 4 / ((n:ℝ) - 1) ^ 2 ≤ 1 + neuA i ^ 2 := by
  have g := neuA_gap hi
  have l1 : lowAt neuA i ≤ neuA i := by
    unfold lowAt
    split
    · have := neuA_mono (i - 2)
      rwa [Nat.sub_add_cancel ‹_›] at this
    · exact neuA_nonneg i
  have u1 : upAt m neuA i ≤ neuA i := by
    unfold upAt
    split
    exacts [le_rfl, neuA_nonneg i]
  nlinarith

theorem abs_lowAt_neg (a : ℕ → ℝ) (ha : ∀ i, 0 ≤ a i) (i : ℕ) : |lowAt (fun j => -a j) i| = lowAt a i := by
  unfold lowAt
  split
  · rw [abs_neg, abs_of_nonneg (ha _)]
  · exact abs_zero

theorem abs_upAt_neg (m : ℕ) (a : ℕ → ℝ) (ha : ∀ i, 0 ≤ a i) (i : ℕ) :
    |upAt m (fun j => -a j) i| = upAt m a i := by
  unfold upAt
  split
  · rw [abs_neg, abs_of_nonneg (ha _)]
  · exact abs_zero

theorem dirichlet_stable {n : ℕ} (hn : 5 ≤ n) (e : ℕ → ℝ) (ρ : ℝ)
    (h : ∀ i < n - 2, |normRow (n - 2) (fun _ => 1) e i| ≤ ρ) :
    ∀ i < n - 2, |e i| ≤ ρ * (((n:ℝ) + 1) ^ 2 / 32) := by
  have hρ : 0 ≤ ρ := (abs_nonneg _).trans (h 0 (by omega))
  obtain ⟨m, rfl⟩ : ∃ m, n = m + 2 := ⟨n - 2, by omega⟩
  simp only [Nat.add_sub_cancel] at h ⊢
  have key := tri_compare (n := m) (l := fun _ => -1) (d := fun _ => 1 + 1 ^ 2) (u := fun _ => -1)
    (φ := fun i => ((i:ℝ) + 2) * ((m:ℝ) + 1 - i) / 8) (e := e) (ρ := ρ) ?_ ?_ h
  · intro i hi
    refine (key i hi).trans (mul_le_mul_of_nonneg_left ?_ hρ)
    push_cast
    nlinarith [sq_nonneg ((i:ℝ) * 2 + 1 - m)]
  · intro i hi
    have hi' : (i:ℝ) + 1 ≤ m := by exact_mod_cast hi
    have h0 : (0:ℝ) ≤ i := Nat.cast_nonneg i
    have : (0:ℝ) < ((i:ℝ) + 2) * ((m:ℝ) + 1 - i) := mul_pos (by linarith) (by linarith)
    positivity
  · intro i hi
    have hi' : (i:ℝ) + 1 ≤ m := by exact_mod_cast hi
    have h0 : (0:ℝ) ≤ i := Nat.cast_nonneg i
    rw [abs_lowAt_neg (fun _ => 1) (fun _ => zero_le_one), abs_upAt_neg m (fun _ => 1) (fun _ => zero_le_one),
      show |(1:ℝ) + 1 ^ 2| = 2 by norm_num]
    have q1 : lowAt (fun _ => 1) i * (((i - 2 : ℕ) : ℝ) + 2) * ((m:ℝ) + 1 - ((i - 2 : ℕ) : ℝ)) ≤ i * ((m:ℝ) + 3 - i) := by
      unfold lowAt
      split
      · rename_i h2
        rw [Nat.cast_sub h2]
        push_cast
        nlinarith
      · have : 0 ≤ (i:ℝ) * ((m:ℝ) + 3 - i) := mul_nonneg h0 (by linarith)
        linarith
    have q2 : upAt m (fun _ => 1) i * (((i + 2 : ℕ) : ℝ) + 2) * ((m:ℝ) + 1 - ((i + 2 : ℕ) : ℝ))
        ≤ (i + 4) * ((m:ℝ) - 1 - i) := by
      unfold upAt
      push_cast
      split
      · nlinarith
      · have : 0 ≤ ((i:ℝ) + 4) * ((m:ℝ) - 1 - i) := mul_nonneg (by linarith) (by linarith)
        linarith
    nlinarith
  
theorem neumann_stable {n : ℕ} (hn : 5 ≤ n) (e : ℕ → ℝ) (ρ : ℝ)
    (h : ∀ i < n - 2, |normRow (n - 2) neuA e i| ≤ ρ) :
    ∀ i < n - 2, |e i| ≤ ρ * (((n:ℝ) - 1) ^ 2 / 4) := by
  have hn' : (5:ℝ) ≤ n := by exact_mod_cast hn
  have hp : (0:ℝ) < ((n:ℝ) - 1) ^ 2 := by have : (0:ℝ) < (n:ℝ) - 1 := by linarith
                                          positivity
  refine tri_compare (n := n - 2) (l := fun j => -neuA j) (d := fun i => 1 + neuA i ^ 2) (u := fun j => -neuA j)
    (φ := fun _ => ((n:ℝ) - 1) ^ 2 / 4) (e := e) (ρ := ρ) (fun _ _ => by positivity) ?_ h
  intro i hi
  rw [abs_lowAt_neg _ neuA_nonneg, abs_upAt_neg _ _ neuA_nonneg, abs_of_pos (by positivity)]
  have := mul_le_mul_of_nonneg_right (neuA_row (n := n) (i := i) (n - 2) (by omega)) (show 0 ≤ ((n:ℝ) - 1) ^ 2 / 4 by positivity)
  have e1 : 4 / ((n:ℝ) - 1) ^ 2 * (((n:ℝ) - 1) ^ 2 / 4) = 1 := by
    have := hp.ne'
    generalize ((n:ℝ) - 1) ^ 2 = z at *
    field_simp
  nlinarith

/-- The Dirichlet stencil: `1`, `2` and `-1` are exact. -/
theorem dirichlet_near (hR : R.Nearest) (h5 : 5 * R.u < 1) {n : ℕ} (hn : 5 ≤ n) {s : Stencil2 (Rnd R)}
    (hs : s.Form (n - 2) (fun _ => 1) (fun _ => -1)) :
    Near2 R s (fun _ => -1) (fun _ => 1) (n - 2) 0 5 (((n:ℝ) + 1) ^ 2 / 32) := by
  have o1 : (1 * -1 : Rnd R).val = -1 := by
    rw [Rnd.val_mul, Rnd.val_neg, Rnd.val_one, one_mul]; exact hR.neg hR.one
  have o2 : (1 * 1 + -1 * -1 : Rnd R).val = 2 := by
    rw [Rnd.val_add, Rnd.val_mul, Rnd.val_mul, Rnd.val_neg, Rnd.val_one, one_mul, show (-1:ℝ) * -1 = 1 by norm_num,
      hR.one, show (1:ℝ) + 1 = 2 by norm_num, hR.two]
  have eo : ∀ i < n - 2 - 2, nth (vals s.tdmaOff2) i = -1 := fun i hi => by
    rw [Rnd.nth_vals, hs.toff, nth_map_range _ _ _ hi, o1]
  have ed : ∀ i < n - 2, nth (vals s.tdmaDiag) i = 2 := fun i hi => by
    rw [Rnd.nth_vals, hs.tdiag, nth_map_range _ _ _ hi, o2]
  have lo : ∀ i < n - 2, |lowAt (nth (vals s.tdmaOff2)) i| ≤ 1 := fun i hi => by
    unfold lowAt
    split
    · rw [eo _ (by omega)]; norm_num
    · simp
  have up : ∀ i < n - 2, |upAt (n - 2) (nth (vals s.tdmaOff2)) i| ≤ 1 := fun i hi => by
    unfold upAt
    split
    · rw [eo _ (by omega)]; norm_num
    · simp
  refine ⟨hs, fun _ => zero_le_one, fun _ => le_rfl, fun i _ => ⟨1, Fac.one, by simp⟩, by omega,
    by push_cast; exact h5, ?_, dirichlet_stable hn⟩
  intro u v hu hv
  refine stencil2_residual hR (κ1 := 0) (κ2 := 0) hs (by omega) (fun _ => zero_le_one) (by omega) (by omega) (by omega)
    (by push_cast; exact h5) (fun i _ => ⟨1, Fac.one, by simp⟩)
    (fun i _ => ⟨1, Fac.one, by rw [o1]; ring⟩) (fun i _ => ⟨1, Fac.one, by rw [o2]; norm_num⟩) ?_ ?_ u v hu hv
  · intro i hi
    rw [ed i hi]
    have := lo i hi; have := up i hi
    rw [abs_two]; linarith
  · intro i hi
    rw [ed i hi, abs_two]
    have := lo i hi
    linarith

/-- The entries of the Neumann stencil. -/
theorem neumann_low (hR : R.Nearest) (hu : R.u < 1) {n : ℕ} {l : ℕ → Rnd R}
    (hl : ∀ k < n - 2, divR ((-1 : Rnd R) * ((k ^ 2 : ℕ) : Rnd R)) (((k + 2) ^ 2 : ℕ) : Rnd R) = ok (l k)) :
    ∀ k < n - 2, ∃ θ, Fac R.u 3 θ ∧ (l k).val = -(neuA k) * θ ∧ R.IsFloat (l k).val := by
    intro k hk
    obtain ⟨hne, e⟩ := Rnd.div_eq (hl k hk)
    rw [Rnd.val_mul, Rnd.val_neg, Rnd.val_one, neg_one_mul, hR.odd, Rnd.val_cast, Rnd.val_cast, hR.float] at e
    rw [Rnd.val_cast] at hne
    obtain ⟨t1, f1, e1⟩ := R.fl_fac hu ((k ^ 2 : ℕ) : ℝ)
    obtain ⟨t2, f2, e2⟩ := R.fl_fac hu (((k + 2) ^ 2 : ℕ) : ℝ)
    obtain ⟨t3, f3, e3⟩ := R.fl_fac hu (-R.fl ((k ^ 2 : ℕ) : ℝ) / R.fl (((k + 2) ^ 2 : ℕ) : ℝ))
    refine ⟨t1 * t2⁻¹ * t3, (f1.mul hu (f2.inv hu)).mul hu f3, ?_, ?_⟩
    · rw [e, e3, e1, e2]
      unfold neuA
      push_cast
      have := (f2.pos hu).ne'
      field_simp
    · rw [e]; exact hR.float _

/-- The Neumann stencil. -/
theorem neumann_near (hR : R.Nearest) (h13 : 13 * R.u < 1) {n : ℕ} (hn : 5 ≤ n)
    (hs8 : ((n:ℝ) - 1) ^ 2 * R.γ 8 ≤ 1) {s : Stencil2 (Rnd R)} {l : ℕ → Rnd R}
    (hs : s.Form (n - 2) (fun _ => 1) l)
    (hl : ∀ k < n - 2, divR ((-1 : Rnd R) * ((k ^ 2 : ℕ) : Rnd R)) (((k + 2) ^ 2 : ℕ) : Rnd R) = ok (l k)) :
    Near2 R s l neuA (n - 2) 3 13 (((n:ℝ) - 1) ^ 2 / 4) := by
  have h0 := R.u_nonneg
  have hu : R.u < 1 := by linarith
  have hn' : (5:ℝ) ≤ n := by exact_mod_cast hn
  have g8 := R.γ_nonneg (k := 8) (by push_cast; linarith)
  have g3 := R.γ_mono (j := 3) (k := 8) (by omega) (by push_cast; linarith)
  have g30 := R.γ_nonneg (k := 3) (by push_cast; linarith)
  -- the entries
  have hlow := neumann_low hR hu hl
  have o1 : ∀ k < n - 2, (1 * l k : Rnd R).val = (l k).val := by
    intro k hk
    obtain ⟨_, _, _, hf⟩ := hlow k hk
    rw [Rnd.val_mul, Rnd.val_one, one_mul]; exact hf
  have hdg : ∀ k < n - 2, ∃ θ, Fac R.u 8 θ ∧ (1 * 1 + l k * l k : Rnd R).val = (1 + neuA k ^ 2) * θ := by
    intro k hk
    obtain ⟨θ, f, e, _⟩ := hlow k hk
    rw [Rnd.val_add, Rnd.val_mul, Rnd.val_mul, Rnd.val_one, one_mul, hR.one]
    obtain ⟨t1, f1, e1⟩ := R.fl_fac hu ((l k).val * (l k).val)
    obtain ⟨t2, f2, e2⟩ := R.fl_fac hu (1 + R.fl ((l k).val * (l k).val))
    have f7 : Fac R.u 7 (θ * θ * t1) := (f.mul hu f).mul hu f1
    obtain ⟨ψ, fψ, eψ⟩ := Fac.mix zero_le_one (sq_nonneg (neuA k)) (by positivity)
      (Fac.one.mono h0 hu (show 0 ≤ 7 by omega)) f7
    refine ⟨ψ * t2, fψ.mul hu f2, ?_⟩
    rw [e2, e1, e, ← mul_assoc (1 + neuA k ^ 2) ψ t2, ← eψ]; ring
  have hab : ∀ {j : ℕ} {θ : ℝ}, Fac R.u j θ → j ≤ 13 → 1 - R.γ j ≤ θ ∧ θ ≤ 1 + R.γ j := by
    intro j θ f hj
    have hj' : (j:ℝ) * R.u < 1 := lt_of_le_of_lt (mul_le_mul_of_nonneg_right (by exact_mod_cast hj) h0) h13
    have := abs_le.mp (R.fac_dist f hj')
    constructor <;> linarith [this.1, this.2]
  have eo : ∀ i < n - 2 - 2, |nth (vals s.tdmaOff2) i| ≤ (1 + R.γ 3) * neuA i := fun i hi => by
    obtain ⟨θ, f, e, _⟩ := hlow i (by omega)
    rw [Rnd.nth_vals, hs.toff, nth_map_range _ _ _ hi, o1 _ (by omega), e, abs_mul, abs_neg, abs_of_nonneg (neuA_nonneg i),
      abs_of_pos (f.pos hu), mul_comm]
    exact mul_le_mul_of_nonneg_right (hab f (by omega)).2 (neuA_nonneg i)
  have ed : ∀ i < n - 2, (1 - R.γ 8) * (1 + neuA i ^ 2) ≤ |nth (vals s.tdmaDiag) i| := fun i hi => by
    obtain ⟨θ, f, e⟩ := hdg i hi
    rw [Rnd.nth_vals, hs.tdiag, nth_map_range _ _ _ hi, e, abs_mul, abs_of_pos (f.pos hu), abs_of_pos (by positivity),
      mul_comm]
    exact mul_le_mul_of_nonneg_left (hab f (by omega)).1 (by positivity)
  have lo : ∀ i < n - 2, |lowAt (nth (vals s.tdmaOff2)) i| ≤ (1 + R.γ 3) * lowAt neuA i := fun i hi => by
    unfold lowAt
    split
    · exact eo _ (by omega)
    · simp
  have up : ∀ i < n - 2, |upAt (n - 2) (nth (vals s.tdmaOff2)) i| ≤ (1 + R.γ 3) * upAt (n - 2) neuA i := fun i hi => by
    unfold upAt
    split
    · exact eo _ (by omega)
    · simp
  have g16 : R.γ 8 ≤ 1 / 16 := by
    have : (16:ℝ) ≤ ((n:ℝ) - 1) ^ 2 := by nlinarith
    nlinarith
  have gs : 4 * R.γ 8 ≤ 4 / ((n:ℝ) - 1) ^ 2 := by
    rw [le_div_iff₀ (by nlinarith)]; linarith
  have l0 : ∀ i, 0 ≤ lowAt neuA i := fun i => by unfold lowAt; split; exacts [neuA_nonneg _, le_rfl]
  have l1 : ∀ i, lowAt neuA i ≤ neuA i := fun i => by
    unfold lowAt
    split
    · have := neuA_mono (i - 2)
      rwa [Nat.sub_add_cancel ‹_›] at this
    · exact neuA_nonneg i
  have u0 : ∀ i, upAt (n - 2) neuA i ≤ 1 := fun i => by unfold upAt; split; exacts [neuA_le _, zero_le_one]
  refine ⟨hs, neuA_nonneg, neuA_le, fun i hi => ?_, by omega, by push_cast; exact h13, ?_, neumann_stable hn⟩
  · obtain ⟨θ, f, e, _⟩ := hlow i hi
    exact ⟨θ, f, e⟩
  intro u v hu hv
  refine stencil2_residual hR (κ := 3) (κ1 := 3) (κ2 := 8) hs (by omega) neuA_nonneg (by omega) (by omega) (by omega)
    (by push_cast; exact h13) (fun i hi => ?_) (fun i hi => ?_) (fun i hi => hdg i hi) ?_ ?_ u v hu hv
  · obtain ⟨θ, f, e, _⟩ := hlow i hi
    exact ⟨θ, f, e⟩
  · obtain ⟨θ, f, e, _⟩ := hlow i (by omega)
    exact ⟨θ, f, by rw [o1 _ (by omega), e]⟩
  · intro i hi
    have r := neuA_row (n := n) (i := i) (n - 2) (by omega)
    have := lo i hi; have := up i hi; have := ed i hi
    have := l1 i; have := neuA_le i; have := neuA_nonneg i; have := u0 i
    have q1 : R.γ 3 * lowAt neuA i ≤ R.γ 8 * 1 := mul_le_mul g3 (by linarith) (l0 i) g8
    have q2 : R.γ 3 * upAt (n - 2) neuA i ≤ R.γ 8 * 1 :=
      mul_le_mul g3 (u0 i) (by unfold upAt; split; exacts [neuA_nonneg _, le_rfl]) g8
    have q3 : R.γ 8 * (1 + neuA i ^ 2) ≤ R.γ 8 * 2 := mul_le_mul_of_nonneg_left (by nlinarith) g8
    linarith
  · intro i hi
    have := lo i hi; have := ed i hi
    have := l1 i; have := neuA_le i; have := neuA_nonneg i
    have q1 : R.γ 3 * lowAt neuA i ≤ R.γ 8 * 1 := mul_le_mul g3 (by linarith) (l0 i) g8
    have q3 : R.γ 8 * (1 + neuA i ^ 2) ≤ R.γ 8 * 2 := mul_le_mul_of_nonneg_left (by nlinarith) g8
    have : (3:ℝ) / 4 ≤ 1 + neuA i ^ 2 - neuA i := by nlinarith [sq_nonneg (neuA i - 1 / 2)]
    linarith

end
end Verif
