/-
The grids in arithmetic with rounding.
-/
import Verif.Spec.Libm
import Verif.Proof.Rounding
import Verif.Props.Ortho
import Verif.Props.Fourier
import Mathlib.Analysis.Real.Pi.Bounds

namespace Verif
open Res Spec

/-! ### rounding to binary digits -/

theorem exactLibm_error {R : Rounding} (hR : R.Nearest) :
    @LibmError R (exactLibm R) R.u := by
  letI := exactLibm R
  refine ⟨rfl, fun _ => rfl, fun a => ?_, fun a => hR.float _, fun a => ?_, fun a => ?_⟩
  · refine (R.err _).trans ?_
    exact mul_le_of_le_one_right R.u_nonneg (Real.abs_sin_le_one _)
  · show R.fl (Real.sin (-a.val)) = -R.fl (Real.sin a.val)
    rw [Real.sin_neg, hR.odd]
  · show |R.fl (Real.sin a.val)| ≤ 1
    rw [abs_le]
    constructor
    · have := hR.mono (Real.neg_one_le_sin a.val)
      rwa [hR.odd, show R.fl 1 = 1 from hR.one] at this
    · have := hR.mono (Real.sin_le_one a.val)
      rwa [show R.fl 1 = 1 from hR.one] at this

theorem int_log_eq {x : ℝ} {e : ℤ} (h1 : (2 : ℝ) ^ e ≤ x) (h2 : x < 2 ^ (e + 1)) : Int.log 2 x = e := by
  have hx : 0 < x := lt_of_lt_of_le (zpow_pos (by norm_num) _) h1
  apply le_antisymm
  · have := (Int.lt_zpow_iff_log_lt (b := 2) (by norm_num) (x := e + 1) hx).mp (by exact_mod_cast h2)
    omega
  · exact (Int.zpow_le_iff_le_log (b := 2) (by norm_num) hx).mp (by exact_mod_cast h1)

/-- The value of a rounding. -/
theorem near_eq {q : ℕ} {x : ℝ} (e m : ℤ) (h1 : (2 : ℝ) ^ (e + q) ≤ x) (h2 : x < 2 ^ (e + q + 1))
    (h3 : (m - 1 / 2) * (2 : ℝ) ^ e ≤ x) (h4 : x < (m + 1 / 2) * (2 : ℝ) ^ e) :
    near q x = m * 2 ^ e := by
  have hx : 0 < x := lt_of_lt_of_le (zpow_pos (by norm_num) _) h1
  have hp : (0 : ℝ) < 2 ^ e := zpow_pos (by norm_num) _
  have hu : ulp q x = 2 ^ e := by rw [ulp, int_log_eq h1 h2]; congr 1; ring
  rw [near, if_pos hx.le, nearPos, hu]
  have : ⌊x / (2 : ℝ) ^ e + 1 / 2⌋ = m := by
    rw [Int.floor_eq_iff]
    constructor
    · have := (le_div_iff₀ hp).mpr h3
      linarith
    · have := (div_lt_iff₀ hp).mpr h4
      linarith
  rw [this, mul_comm]

theorem near_scale {q : ℕ} (x : ℝ) (t : ℤ) : near q (x * 2 ^ t) = near q x * 2 ^ t := by
  have hp : (0 : ℝ) < 2 ^ t := zpow_pos (by norm_num) _
  have key : ∀ y : ℝ, 0 < y → nearPos q (y * 2 ^ t) = nearPos q y * 2 ^ t := by
    intro y hy
    have hl : Int.log 2 (y * (2 : ℝ) ^ t) = Int.log 2 y + t := by
      refine int_log_eq ?_ ?_
      · rw [zpow_add₀ (by norm_num)]
        refine mul_le_mul_of_nonneg_right ?_ hp.le
        exact_mod_cast Int.zpow_log_le_self (b := 2) (by norm_num) hy
      · rw [show Int.log 2 y + t + 1 = (Int.log 2 y + 1) + t by ring, zpow_add₀ (by norm_num)]
        refine mul_lt_mul_of_pos_right ?_ hp
        exact_mod_cast Int.lt_zpow_succ_log_self (b := 2) (by norm_num) y
    have hu : ulp q (y * 2 ^ t) = ulp q y * 2 ^ t := by
      rw [ulp, ulp, hl, ← zpow_add₀ (by norm_num)]; congr 1; ring
    rw [nearPos, nearPos, hu, mul_div_mul_right _ _ hp.ne']
    ring
  rcases lt_trichotomy x 0 with h | rfl | h
  · have h' : x * 2 ^ t < 0 := mul_neg_of_neg_of_pos h hp
    rw [near, if_neg (by linarith), near, if_neg (by linarith), ← neg_mul, key _ (by linarith)]
    ring
  · rw [zero_mul, near, if_pos le_rfl, nearPos_zero, zero_mul]
  · rw [near, if_pos (by positivity), near, if_pos h.le, key _ h]

theorem f64_pi : f64.fl Real.pi = 884279719003555 / 2 ^ 48 := by
  have h := near_eq (q := 52) (x := Real.pi) (-51) (8 * 884279719003555)
    (by have := Real.pi_gt_three; norm_num; linarith) (by have := Real.pi_le_four; have := Real.pi_lt_d2; norm_num; linarith)
    (by have := Real.pi_gt_d20; norm_num at this ⊢; linarith) (by have := Real.pi_lt_d20; norm_num at this ⊢; linarith)
  show near 52 Real.pi = _
  rw [h]
  norm_num

theorem binary_integers (q : ℕ) : (binary q).Integers (2 ^ (q + 1)) := by
  intro k hk
  show near q k = k
  rcases Nat.eq_zero_or_pos k with rfl | h0
  · simp [near, nearPos_zero]
  have hk0 : (0 : ℝ) < k := by exact_mod_cast h0
  rcases hk.eq_or_lt with rfl | hlt
  · rw [near, if_pos (by positivity)]
    have := nearPos_zpow (q := q) (q + 1 : ℕ)
    rw [zpow_natCast] at this
    push_cast
    exact this
  rw [near, if_pos hk0.le]
  have hl : Int.log 2 (k : ℝ) = Nat.log 2 k := by
    rw [Int.log_natCast]
  have hle : Nat.log 2 k ≤ q := by
    have := (Nat.log_lt_iff_lt_pow (b := 2) (by norm_num) (by omega : k ≠ 0)).mpr hlt
    omega
  refine nearPos_of_multiple (k := k * 2 ^ (q - Nat.log 2 k)) ?_
  rw [ulp, hl]
  push_cast
  rw [show ((Nat.log 2 k : ℕ) : ℤ) - q = -((q - Nat.log 2 k : ℕ) : ℤ) by omega, zpow_neg, zpow_natCast]
  field_simp

/-! ### Fourier grid -/

theorem fourierNodes_rnd {R : Rounding} (hR : R.Nearest) (hu : R.u < 1) [Libm (Rnd R)] {σ : ℝ}
    (hL : LibmError R σ) {n : ℕ} (h1 : 1 ≤ n) (hn : R.IsFloat n) :
    fourierNodes n (Rnd R) = ok ((List.range ⌈R.fl (R.fl (2 * R.fl Real.pi)
        / R.fl (R.fl (2 * R.fl Real.pi) / n))⌉₊).map (fun i : ℕ =>
          (0 : Rnd R) + (i : Rnd R) * ⟨R.fl (R.fl (2 * R.fl Real.pi) / n)⟩)) := by
  have hn0 : (n : ℝ) ≠ 0 := by exact_mod_cast (by omega : n ≠ 0)
  have h2 : ((2 : ℕ) : Rnd R).val = 2 := hR.two
  have hT : (2 * Libm.pi : Rnd R).val = R.fl (2 * R.fl Real.pi) := by
    show R.fl (((2 : ℕ) : Rnd R).val * (Libm.pi : Rnd R).val) = _
    rw [h2, hL.pi]
  have hT0 : (2 * Libm.pi - 0 : Rnd R).val = R.fl (2 * R.fl Real.pi) := by
    show R.fl ((2 * Libm.pi : Rnd R).val - (0 : Rnd R).val) = _
    rw [hT, Rnd.val_zero, sub_zero]
    exact hR.float _
  have hcn : (n : Rnd R).val = n := hn
  have hTne : R.fl (2 * R.fl Real.pi) ≠ 0 :=
    R.fl_ne_zero hu (mul_ne_zero two_ne_zero (R.fl_ne_zero hu Real.pi_ne_zero))
  unfold fourierNodes
  rw [Rnd.div_ok (by rw [hcn]; exact hn0), bind_ok, hT, hcn,
    Rnd.div_ok (R.fl_ne_zero hu (div_ne_zero hTne hn0)), bind_ok, hT0, hL.ceil]
  rfl

/-- Nodes and their number. -/
theorem fourierNodes_near {R : Rounding} (hR : R.Nearest) [Libm (Rnd R)] {σ : ℝ}
    (hL : LibmError R σ) {n : ℕ} (h1 : 1 ≤ n) (hN : R.Integers (n + 1)) (hu : R.γ 2 * n < 1) (h4 : 4 * R.u < 1) :
    ∃ x, fourierNodes n (Rnd R) = ok x ∧ n ≤ x.length ∧ x.length ≤ n + 1 ∧
      ∀ j < x.length, |(nth x j).val - 2 * Real.pi * j / n| ≤ R.γ 4 * (2 * Real.pi * j / n) := by
  have hu0 := R.u_nonneg
  have hu1 : R.u < 1 := by linarith
  have hn0 : (0 : ℝ) < n := by exact_mod_cast h1
  have hpi := Real.pi_pos
  obtain ⟨θ1, f1, e1⟩ := R.fl_fac hu1 Real.pi
  obtain ⟨θ2, f2, e2⟩ := R.fl_fac hu1 (2 * R.fl Real.pi)
  have p1 := f1.pos hu1
  have p2 := f2.pos hu1
  set T := R.fl (2 * R.fl Real.pi) with hT
  have hTp : 0 < T := by rw [e2, e1]; positivity
  obtain ⟨θ3, f3, e3⟩ := R.fl_fac hu1 (T / n)
  have p3 := f3.pos hu1
  set s := R.fl (T / n) with hs
  obtain ⟨θ4, f4, e4⟩ := R.fl_fac hu1 (T / s)
  have hsp : 0 < s := by rw [e3]; positivity
  have hlen : R.fl (T / s) = n * (θ4 * θ3⁻¹) := by
    rw [e4, e3]; field_simp
  have hd := R.fac_dist (f4.mul hu1 (f3.inv hu1)) (by push_cast; linarith)
  have hd' : |R.fl (T / s) - n| < 1 := by
    rw [hlen, show (n : ℝ) * (θ4 * θ3⁻¹) - n = (θ4 * θ3⁻¹ - 1) * n by ring, abs_mul, abs_of_pos hn0]
    exact lt_of_le_of_lt (mul_le_mul_of_nonneg_right hd hn0.le) hu
  obtain ⟨hd1, hd2⟩ := abs_lt.mp hd'
  have hc1 : n ≤ ⌈R.fl (T / s)⌉₊ := by
    by_contra h
    have : ⌈R.fl (T / s)⌉₊ ≤ n - 1 := by omega
    rw [Nat.ceil_le, Nat.cast_sub h1] at this
    push_cast at this
    linarith
  have hc2 : ⌈R.fl (T / s)⌉₊ ≤ n + 1 := by
    rw [Nat.ceil_le]; push_cast; linarith
  refine ⟨_, fourierNodes_rnd hR hu1 hL h1 (hN n (by omega)), by simpa using hc1, by simpa using hc2, fun j hj => ?_⟩
  have hj' : j < ⌈R.fl (T / s)⌉₊ := by simpa using hj
  have ev : ∀ {f : ℕ → Rnd R}, nth ((List.range ⌈R.fl (T / s)⌉₊).map f) j = f j := nth_map_range _ _ _ hj'
  rw [ev, Rnd.val_add, Rnd.val_mul, Rnd.val_cast, Rnd.val_zero, zero_add,
    show R.fl (j : ℝ) = j from hN j (by omega), show ∀ z, R.fl (R.fl z) = R.fl z from hR.float]
  show |R.fl (j * s) - _| ≤ _
  obtain ⟨θ5, f5, e5⟩ := R.fl_fac hu1 (j * s)
  have hd5 := R.fac_dist (((f1.mul hu1 f2).mul hu1 f3).mul hu1 f5) (by push_cast; linarith)
  rw [e5, e3, e2, e1]
  rw [show (j : ℝ) * (2 * (Real.pi * θ1) * θ2 / n * θ3) * θ5 - 2 * Real.pi * j / n
    = (θ1 * θ2 * θ3 * θ5 - 1) * (2 * Real.pi * j / n) by ring, abs_mul,
    abs_of_nonneg (show (0 : ℝ) ≤ 2 * Real.pi * j / n by positivity)]
  exact mul_le_mul_of_nonneg_right hd5 (by positivity)

/-- `61 · 2ᵗ` points are one more. -/
theorem fourierNodes_61 [Libm (Rnd f64)] {σ : ℝ} (hL : LibmError f64 σ) {t : ℕ} (ht : t ≤ 47) :
    ∃ x, fourierNodes (61 * 2 ^ t) (Rnd f64) = ok x ∧ x.length = 61 * 2 ^ t + 1 := by
  have hu : f64.u < 1 := by show (2⁻¹ : ℝ) ^ 53 < 1; norm_num
  have hp := Nat.pow_le_pow_right (show 0 < 2 by norm_num) ht
  have hn : f64.IsFloat ((61 * 2 ^ t : ℕ) : ℝ) := binary_integers 52 _ (by omega)
  refine ⟨_, fourierNodes_rnd (binary_nearest 52) hu hL (Nat.mul_pos (by norm_num) (Nat.pow_pos (by norm_num))) hn, ?_⟩
  rw [List.length_map, List.length_range, f64_pi]
  have e1 : f64.fl (2 * (884279719003555 / 2 ^ 48)) = 884279719003555 / 2 ^ 47 := by
    show near 52 _ = _
    rw [near_eq (q := 52) (-50) (8 * 884279719003555) (by norm_num) (by norm_num) (by norm_num) (by norm_num)]
    norm_num
  have e2 : f64.fl (884279719003555 / 2 ^ 47 / (61 * 2 ^ t : ℕ)) = 7422151084095412 / 2 ^ 56 / 2 ^ t := by
    have := near_scale (q := 52) (884279719003555 / 2 ^ 47 / 61) (-(t : ℤ))
    rw [zpow_neg, zpow_natCast, ← div_eq_mul_inv, ← div_eq_mul_inv] at this
    push_cast
    rw [← div_div]
    refine this.trans ?_
    rw [near_eq (q := 52) (-56) 7422151084095412 (by norm_num) (by norm_num) (by norm_num) (by norm_num)]
    norm_num
  have e3 : f64.fl (884279719003555 / 2 ^ 47 / (7422151084095412 / 2 ^ 56 / 2 ^ t)) = (61 + 1 / 2 ^ 47) * 2 ^ t := by
    have := near_scale (q := 52) (884279719003555 / 2 ^ 47 / (7422151084095412 / 2 ^ 56)) (t : ℤ)
    rw [zpow_natCast] at this
    rw [div_div_eq_mul_div, mul_comm, mul_div_assoc, mul_comm]
    refine this.trans ?_
    rw [near_eq (q := 52) (-47) 8584986789675009 (by norm_num) (by norm_num) (by norm_num) (by norm_num)]
    norm_num
  have hp' : (2 : ℝ) ^ t ≤ 2 ^ 47 := pow_le_pow_right₀ (by norm_num) ht
  have hp0 : (0 : ℝ) < 2 ^ t := by positivity
  rw [e1, e2, e3, Nat.ceil_eq_iff (by omega)]
  push_cast
  constructor <;> nlinarith

/-- Powers of two are divided exactly. -/
theorem fourierNodes_pow (q t : ℕ) [Libm (Rnd (binary q))] {σ : ℝ} (hL : LibmError (binary q) σ) :
    ∃ x, fourierNodes (2 ^ t) (Rnd (binary q)) = ok x ∧ x.length = 2 ^ t := by
  have hu : (binary q).u < 1 := by
    show (2⁻¹ : ℝ) ^ (q + 1) < 1
    exact pow_lt_one₀ (by norm_num) (by norm_num) (by omega)
  have hpow : ∀ t : ℤ, near q ((2 : ℝ) ^ t) = 2 ^ t := fun t => by
    rw [near, if_pos (by positivity), nearPos_zpow]
  have hn : (binary q).IsFloat ((2 ^ t : ℕ) : ℝ) := by
    show near q _ = _
    have := hpow (t : ℤ)
    rw [zpow_natCast] at this
    push_cast
    exact this
  refine ⟨_, fourierNodes_rnd (binary_nearest q) hu hL Nat.one_le_two_pow hn, ?_⟩
  have hT := (binary_nearest q).float (2 * (binary q).fl Real.pi)
  set T := (binary q).fl (2 * (binary q).fl Real.pi) with hTd
  have hTne : T ≠ 0 := Rounding.fl_ne_zero _ hu
    (mul_ne_zero two_ne_zero (Rounding.fl_ne_zero _ hu Real.pi_ne_zero))
  have h1 : (binary q).fl (T / ((2 ^ t : ℕ) : ℝ)) = T / 2 ^ t := by
    have := near_scale (q := q) T (-(t : ℤ))
    rw [zpow_neg, zpow_natCast, ← div_eq_mul_inv, ← div_eq_mul_inv] at this
    push_cast
    exact this.trans (by rw [show near q T = T from hT])
  rw [h1, show T / (T / 2 ^ t) = (2 : ℝ) ^ (t : ℤ) by rw [zpow_natCast]; field_simp,
    show (binary q).fl ((2 : ℝ) ^ (t : ℤ)) = _ from hpow t, zpow_natCast, List.length_map, List.length_range]
  have := Nat.ceil_natCast (R := ℝ) (2 ^ t)
  push_cast at this
  exact this

/-! ### Chebyshev grid -/

theorem chebNodes_near {R : Rounding} (hR : R.Nearest) [Libm (Rnd R)] {σ : ℝ}
    (hL : LibmError R σ) {n : ℕ} (h2 : 2 ≤ n) (hN : R.Integers (2 * n)) (h3 : 3 * R.u < 1) :
    ∃ x, chebNodes n (Rnd R) = ok x ∧ x.length = n ∧
      (∀ j < n, |(nth x j).val + Real.cos (Real.pi * j / (n - 1 : ℕ))| ≤ R.γ 3 * (Real.pi / 2) + σ) ∧
      (∀ j < n, |(nth x j).val| ≤ 1) ∧ ∀ j < n, (nth x (n - 1 - j)).val = -(nth x j).val := by
  have hu1 : R.u < 1 := by linarith [R.u_nonneg]
  have hm0 : (0 : ℝ) < (n - 1 : ℕ) := by exact_mod_cast (show 0 < n - 1 by omega)
  have h2v : ((2 : ℕ) : Rnd R).val = 2 := hR.two
  have hmv : (((n - 1 : ℕ) : ℕ) : Rnd R).val = (n - 1 : ℕ) := hN _ (by omega)
  have h2m : (2 * ((n - 1 : ℕ) : Rnd R)).val = 2 * (n - 1 : ℕ) := by
    show R.fl (((2 : ℕ) : Rnd R).val * (((n - 1 : ℕ) : ℕ) : Rnd R).val) = _
    rw [h2v, hmv]
    have := hN (2 * (n - 1)) (by omega)
    push_cast at this ⊢
    exact this
  -- the argument of the sine
  set A : ℕ → Rnd R := fun k => ⟨R.fl (R.fl (R.fl Real.pi * (((n - 1 : ℕ) : ℝ) - 2 * k)) / (2 * (n - 1 : ℕ)))⟩ with hA
  have hdiv : ∀ k < n, divR (Libm.pi * (((n - 1 : ℕ) : Rnd R) - 2 * (k : Rnd R))) (2 * ((n - 1 : ℕ) : Rnd R))
      = ok (A k) := by
    intro k hk
    rw [Rnd.div_ok (by rw [h2m]; positivity), h2m]
    have e1 : (2 * (k : Rnd R)).val = 2 * k := by
      show R.fl (((2 : ℕ) : Rnd R).val * (k : Rnd R).val) = _
      rw [h2v, show (k : Rnd R).val = k from hN k (by omega)]
      have := hN (2 * k) (by omega)
      push_cast at this
      exact this
    have e2 : (((n - 1 : ℕ) : Rnd R) - 2 * (k : Rnd R)).val = ((n - 1 : ℕ) : ℝ) - 2 * k := by
      rw [Rnd.val_sub, hmv, e1]
      rcases le_total (2 * k) (n - 1) with h | h
      · have := hN (n - 1 - 2 * k) (by omega)
        rw [Rounding.IsFloat, Nat.cast_sub h] at this
        push_cast at this
        exact this
      · have := hN (2 * k - (n - 1)) (by omega)
        rw [Rounding.IsFloat, Nat.cast_sub h] at this
        rw [show ((n - 1 : ℕ) : ℝ) - 2 * k = -(((2 * k : ℕ) : ℝ) - (n - 1 : ℕ)) by push_cast; ring, hR.odd, this]
    rw [Rnd.val_mul, e2, hL.pi]
  have hrun : chebNodes n (Rnd R) = ok ((List.range n).map (fun k => -1 * Libm.sin (A k))) := by
    suffices h : wp (fun _ => False) (chebNodes n (Rnd R))
        (fun r => r = (List.range n).map (fun k => -1 * Libm.sin (A k))) by
      obtain ⟨a, h1, rfl⟩ := wp_total.mp h; exact h1
    unfold chebNodes
    refine wp_bind_i (wp_usub_i (by omega) ?_)
    refine wp_forRange (fun k acc => acc = (List.range k).map (fun k => -1 * Libm.sin (A k))) (by simp) ?_ ?_
    · rintro k acc - hk rfl
      rw [hdiv k hk, bind_ok]
      show _ = _
      rw [List.range_succ, List.map_append]
      rfl
    · rintro acc rfl
      rw [show max 0 n = n by omega]
  have hval : ∀ k < n, (nth ((List.range n).map (fun k => -1 * Libm.sin (A k))) k).val
      = -(Libm.sin (A k)).val := by
    intro k hk
    have ev : ∀ {f : ℕ → Rnd R}, nth ((List.range n).map f) k = f k := nth_map_range _ _ _ hk
    rw [ev, Rnd.val_mul, Rnd.val_neg, Rnd.val_one, neg_one_mul, hR.odd, hL.sin_float]
  refine ⟨_, hrun, by simp, fun j hj => ?_, fun j hj => ?_, fun j hj => ?_⟩
  · rw [hval j hj]
    obtain ⟨θ1, f1, e1⟩ := R.fl_fac hu1 Real.pi
    obtain ⟨θ2, f2, e2⟩ := R.fl_fac hu1 (R.fl Real.pi * (((n - 1 : ℕ) : ℝ) - 2 * j))
    obtain ⟨θ3, f3, e3⟩ := R.fl_fac hu1 (R.fl (R.fl Real.pi * (((n - 1 : ℕ) : ℝ) - 2 * j)) / (2 * (n - 1 : ℕ)))
    have hd := R.fac_dist ((f1.mul hu1 f2).mul hu1 f3) (by push_cast; linarith)
    set t : ℝ := Real.pi * (((n - 1 : ℕ) : ℝ) - 2 * j) / (2 * (n - 1 : ℕ)) with ht
    have hAv : (A j).val = t * (θ1 * θ2 * θ3) := by
      show R.fl _ = _
      rw [e3, e2, e1, ht]
      ring
    have htb : |t| ≤ Real.pi / 2 := by
      have hj' : (j : ℝ) ≤ (n - 1 : ℕ) := by exact_mod_cast (show j ≤ n - 1 by omega)
      have hj0 : (0 : ℝ) ≤ j := Nat.cast_nonneg j
      have hp := Real.pi_pos
      rw [abs_le]
      constructor
      · rw [ht, le_div_iff₀ (by positivity)]
        nlinarith
      · rw [ht, div_le_iff₀ (by positivity)]
        nlinarith
    have hcos : Real.cos (Real.pi * j / (n - 1 : ℕ)) = Real.sin t := by
      rw [show t = Real.pi / 2 - Real.pi * j / (n - 1 : ℕ) by rw [ht]; field_simp, Real.sin_pi_div_two_sub]
    rw [hcos]
    have h5 := hL.sin_err (A j)
    have h6 : |Real.sin (A j).val - Real.sin t| ≤ |(A j).val - t| := by
      have := Real.abs_sin_sub_sin_le (A j).val t
      exact this
    have h7 : |(A j).val - t| ≤ R.γ 3 * (Real.pi / 2) := by
      rw [hAv, show t * (θ1 * θ2 * θ3) - t = (θ1 * θ2 * θ3 - 1) * t by ring, abs_mul]
      exact mul_le_mul hd htb (abs_nonneg _) ((abs_nonneg _).trans hd)
    rw [show -(Libm.sin (A j)).val + Real.sin t
      = -(((Libm.sin (A j)).val - Real.sin (A j).val) + (Real.sin (A j).val - Real.sin t)) by ring, abs_neg]
    refine (abs_add_le _ _).trans ?_
    linarith
  · rw [hval j hj, abs_neg]; exact hL.sin_le _
  · have hAA : A (n - 1 - j) = -A j := by
      refine Rnd.ext ?_
      show R.fl _ = -R.fl _
      rw [← hR.odd, ← neg_div, ← hR.odd, Nat.cast_sub (show j ≤ n - 1 by omega)]
      congr 3
      ring
    rw [hval j hj, hval _ (by omega), hAA, hL.sin_odd]

end Verif
