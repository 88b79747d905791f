/-
Chebyshev series in three variables.
-/
import Verif.Proof.Alias2

namespace Verif
open Res Spec Finset Polynomial

/-- A series, summed by the values of `k`. -/
theorem hasSum_fibers {ι : Type} (k : ι → ℕ) {g : ι → ℝ} {s : ℝ} (h : HasSum g s) :
    HasSum (fun K => ∑' p : {p // k p = K}, g p.1) s := by
  have h' := (Equiv.sigmaFiberEquiv k).hasSum_iff.mpr h
  exact h'.sigma fun K => (h'.summable.sigma_factor K).hasSum

theorem summable_fiber {ι : Type} (k : ι → ℕ) {g : ι → ℝ} (h : Summable g) (K : ℕ) :
    Summable (fun p : {p // k p = K} => g p.1) := h.comp_injective Subtype.val_injective

/-- Termwise differentiation of a multiple Chebyshev series in the variable whose degree is `k`. -/
theorem cheb_fiber_deriv {ι : Type} (k : ι → ℕ) {g : ι → ℝ} {d : ℕ} (h0 : Summable (fun p => |g p|))
    (hg : Summable (fun p => |g p| * (k p : ℝ) ^ (2 * d))) {F : ℝ → ℝ}
    (hF : ∀ y ∈ Set.Icc (-1 : ℝ) 1, HasSum (fun p => g p * (Chebyshev.T ℝ (k p)).eval y) (F y)) :
    ∀ y ∈ Set.Icc (-1 : ℝ) 1, HasSum (fun p => g p * (derivative^[d] (Chebyshev.T ℝ (k p))).eval y)
      (iteratedDerivWithin d F (Set.Icc (-1) 1) y) := by
  intro y hy
  have hsum : Summable (fun p => g p * (derivative^[d] (Chebyshev.T ℝ (k p))).eval y) :=
    Summable.of_norm_bounded hg (fun p => by
      rw [Real.norm_eq_abs, abs_mul]
      exact mul_le_mul_of_nonneg_left (abs_iterate_derivative_T_le (k p) d (abs_le.mpr hy)) (abs_nonneg _))
  have hfac : ∀ (q : ℕ → ℝ) (K : ℕ), ∑' p : {p // k p = K}, g p.1 * q (k p.1)
      = (∑' p : {p // k p = K}, g p.1) * q K := fun q K => by
    rw [← tsum_mul_right]
    exact tsum_congr fun p => by rw [p.2]
  have hb : Summable (fun K : ℕ => |∑' p : {p // k p = K}, g p.1| * (K : ℝ) ^ (2 * d)) := by
    refine Summable.of_nonneg_of_le (fun K => by positivity) (fun K => ?_) (hasSum_fibers k hg.hasSum).summable
    show _ ≤ ∑' p : {p // k p = K}, |g p.1| * (k p.1 : ℝ) ^ (2 * d)
    have e : ∑' p : {p // k p = K}, |g p.1| * (k p.1 : ℝ) ^ (2 * d)
        = (∑' p : {p // k p = K}, |g p.1|) * (K : ℝ) ^ (2 * d) := by
      rw [← tsum_mul_right]
      exact tsum_congr fun p => by rw [p.2]
    rw [e]
    refine mul_le_mul_of_nonneg_right ?_ (by positivity)
    rw [← Real.norm_eq_abs]
    exact tsum_of_norm_bounded (summable_fiber k h0 K).hasSum (fun J => le_rfl)
  have h1 := iteratedDerivWithin_chebSeries hb (f := F) (fun z hz => by
    have := hasSum_fibers k (hF z hz)
    convert! this using 1
    funext K
    exact (hfac (fun n => (Chebyshev.T ℝ n).eval z) K).symm) y hy
  have h2 := hasSum_fibers k hsum.hasSum
  have h3 : HasSum (fun K : ℕ => (∑' p : {p // k p = K}, g p.1) * (derivative^[d] (Chebyshev.T ℝ K)).eval y)
      (∑' p, g p * (derivative^[d] (Chebyshev.T ℝ (k p))).eval y) := by
    convert! h2 using 1
    funext K
    exact (hfac (fun n => (derivative^[d] (Chebyshev.T ℝ n)).eval y) K).symm
  rw [h1, show chebSeries (fun K => ∑' p : {p // k p = K}, g p.1) d y
    = ∑' p, g p * (derivative^[d] (Chebyshev.T ℝ (k p))).eval y from h3.tsum_eq]
  exact hsum.hasSum

theorem summable_weight3 {a : ℕ × ℕ × ℕ → ℝ} {d0 d1 d2 : ℕ}
    (hs : Summable (fun p : ℕ × ℕ × ℕ => |a p| * ((p.1 : ℝ) + 1) ^ d0 * ((p.2.1 : ℝ) + 1) ^ d1
      * ((p.2.2 : ℝ) + 1) ^ d2)) {e0 e1 e2 : ℕ} (h0 : e0 ≤ d0) (h1 : e1 ≤ d1) (h2 : e2 ≤ d2) :
    Summable (fun p : ℕ × ℕ × ℕ => |a p| * (p.1 : ℝ) ^ e0 * (p.2.1 : ℝ) ^ e1 * (p.2.2 : ℝ) ^ e2) :=
  Summable.of_nonneg_of_le (fun p => by positivity) (fun p => by
    have hp : ∀ (w e d : ℕ), e ≤ d → (w : ℝ) ^ e ≤ ((w : ℝ) + 1) ^ d := fun w e d h =>
      (pow_le_pow_left₀ (Nat.cast_nonneg _) (by linarith) e).trans
        (pow_le_pow_right₀ (by have := Nat.cast_nonneg (α := ℝ) w; linarith) h)
    have := hp p.1 e0 d0 h0
    have := hp p.2.1 e1 d1 h1
    have := hp p.2.2 e2 d2 h2
    gcongr) hs

private theorem hasSum_of_eq {ι : Type} {f g : ι → ℝ} {s : ℝ} (h : ∀ p, f p = g p) (hf : HasSum f s) : HasSum g s :=
  (funext h : f = g) ▸ hf

private theorem T_le (k d : ℕ) {x : ℝ} (hx : x ∈ Set.Icc (-1 : ℝ) 1) :
    |(derivative^[d] (Chebyshev.T ℝ k)).eval x| ≤ (k : ℝ) ^ (2 * d) :=
  abs_iterate_derivative_T_le k d (abs_le.mpr hx)

private theorem T_le_one (k : ℕ) {x : ℝ} (hx : x ∈ Set.Icc (-1 : ℝ) 1) : |(Chebyshev.T ℝ k).eval x| ≤ 1 := by
  simpa using T_le k 0 hx

/-- The mixed derivatives of an absolutely convergent triple Chebyshev series. -/
theorem mixed_cheb3 {a : ℕ × ℕ × ℕ → ℝ} {d0 d1 d2 : ℕ}
    (hs : Summable (fun p : ℕ × ℕ × ℕ => |a p| * ((p.1 : ℝ) + 1) ^ (2 * d0) * ((p.2.1 : ℝ) + 1) ^ (2 * d1)
      * ((p.2.2 : ℝ) + 1) ^ (2 * d2)))
    {f : ℝ → ℝ → ℝ → ℝ} (hf : ∀ x ∈ Set.Icc (-1 : ℝ) 1, ∀ y ∈ Set.Icc (-1 : ℝ) 1, ∀ z ∈ Set.Icc (-1 : ℝ) 1,
      HasSum (fun p : ℕ × ℕ × ℕ => a p * (Chebyshev.T ℝ p.1).eval x * (Chebyshev.T ℝ p.2.1).eval y
        * (Chebyshev.T ℝ p.2.2).eval z) (f x y z))
    {x y z : ℝ} (hx : x ∈ Set.Icc (-1 : ℝ) 1) (hy : y ∈ Set.Icc (-1 : ℝ) 1) (hz : z ∈ Set.Icc (-1 : ℝ) 1) :
    HasSum (fun p : ℕ × ℕ × ℕ => a p * (derivative^[d0] (Chebyshev.T ℝ p.1)).eval x
        * (derivative^[d1] (Chebyshev.T ℝ p.2.1)).eval y * (derivative^[d2] (Chebyshev.T ℝ p.2.2)).eval z)
      (iteratedDerivWithin d0 (fun x => iteratedDerivWithin d1 (fun y =>
        iteratedDerivWithin d2 (f x y) (Set.Icc (-1) 1) z) (Set.Icc (-1) 1) y) (Set.Icc (-1) 1) x) := by
  have hw := fun {e0 e1 e2 : ℕ} (h0 : e0 ≤ 2 * d0) (h1 : e1 ≤ 2 * d1) (h2 : e2 ≤ 2 * d2) =>
    summable_weight3 hs h0 h1 h2
  -- in `z`
  have h1 : ∀ u ∈ Set.Icc (-1 : ℝ) 1, ∀ v ∈ Set.Icc (-1 : ℝ) 1, HasSum (fun p : ℕ × ℕ × ℕ =>
      a p * (Chebyshev.T ℝ p.1).eval u * (Chebyshev.T ℝ p.2.1).eval v
        * (derivative^[d2] (Chebyshev.T ℝ p.2.2)).eval z) (iteratedDerivWithin d2 (f u v) (Set.Icc (-1) 1) z) := by
    intro u hu v hv
    have hle : ∀ p : ℕ × ℕ × ℕ, |a p * (Chebyshev.T ℝ p.1).eval u * (Chebyshev.T ℝ p.2.1).eval v| ≤ |a p| := fun p => by
      rw [abs_mul, abs_mul]
      exact (mul_le_of_le_one_right (by positivity) (T_le_one _ hv)).trans
        (mul_le_of_le_one_right (by positivity) (T_le_one _ hu))
    refine cheb_fiber_deriv (fun p : ℕ × ℕ × ℕ => p.2.2) ?_ ?_ (hf u hu v hv) z hz
    · exact Summable.of_nonneg_of_le (fun _ => abs_nonneg _) hle
        (by simpa using hw (Nat.zero_le _) (Nat.zero_le _) (Nat.zero_le _))
    · refine Summable.of_nonneg_of_le (fun _ => by positivity)
        (fun p => mul_le_mul_of_nonneg_right (hle p) (by positivity)) ?_
      simpa using hw (Nat.zero_le _) (Nat.zero_le _) le_rfl
  -- in `y`
  have h2 : ∀ u ∈ Set.Icc (-1 : ℝ) 1, HasSum (fun p : ℕ × ℕ × ℕ =>
      a p * (Chebyshev.T ℝ p.1).eval u * (derivative^[d2] (Chebyshev.T ℝ p.2.2)).eval z
        * (derivative^[d1] (Chebyshev.T ℝ p.2.1)).eval y)
      (iteratedDerivWithin d1 (fun y => iteratedDerivWithin d2 (f u y) (Set.Icc (-1) 1) z) (Set.Icc (-1) 1) y) := by
    intro u hu
    have hle : ∀ p : ℕ × ℕ × ℕ, |a p * (Chebyshev.T ℝ p.1).eval u * (derivative^[d2] (Chebyshev.T ℝ p.2.2)).eval z|
        ≤ |a p| * (p.2.2 : ℝ) ^ (2 * d2) := fun p => by
      rw [abs_mul, abs_mul]
      exact mul_le_mul (mul_le_of_le_one_right (by positivity) (T_le_one _ hu)) (T_le _ _ hz) (abs_nonneg _)
        (abs_nonneg _)
    refine cheb_fiber_deriv (fun p : ℕ × ℕ × ℕ => p.2.1) ?_ ?_ (fun v hv => ?_) y hy
    · exact Summable.of_nonneg_of_le (fun _ => abs_nonneg _) hle
        (by simpa using hw (Nat.zero_le _) (Nat.zero_le _) le_rfl)
    · refine Summable.of_nonneg_of_le (fun _ => by positivity)
        (fun p => mul_le_mul_of_nonneg_right (hle p) (by positivity)) ?_
      refine (hw (Nat.zero_le _) le_rfl le_rfl).congr fun p => ?_
      rw [pow_zero]; ring
    · refine hasSum_of_eq (fun p => ?_) (h1 u hu v hv)
      ring
  -- in `x`
  have hle : ∀ p : ℕ × ℕ × ℕ, |a p * (derivative^[d2] (Chebyshev.T ℝ p.2.2)).eval z
      * (derivative^[d1] (Chebyshev.T ℝ p.2.1)).eval y| ≤ |a p| * (p.2.2 : ℝ) ^ (2 * d2) * (p.2.1 : ℝ) ^ (2 * d1) :=
    fun p => by
      rw [abs_mul, abs_mul]
      exact mul_le_mul (mul_le_mul_of_nonneg_left (T_le _ _ hz) (abs_nonneg _)) (T_le _ _ hy) (abs_nonneg _)
        (by positivity)
  have h3 := cheb_fiber_deriv (fun p : ℕ × ℕ × ℕ => p.1) (d := d0) (g := fun p => a p
      * (derivative^[d2] (Chebyshev.T ℝ p.2.2)).eval z * (derivative^[d1] (Chebyshev.T ℝ p.2.1)).eval y)
    (Summable.of_nonneg_of_le (fun _ => abs_nonneg _) hle
      ((hw (Nat.zero_le _) le_rfl le_rfl).congr fun p => by rw [pow_zero]; ring))
    (Summable.of_nonneg_of_le (fun _ => by positivity)
      (fun p => mul_le_mul_of_nonneg_right (hle p) (by positivity))
      ((hw le_rfl le_rfl le_rfl).congr fun p => by ring))
    (fun u hu => hasSum_of_eq (fun p => by ring) (h2 u hu)) x hx
  exact hasSum_of_eq (fun p => by ring) h3

/-! ### Fourier–Chebyshev series -/

private theorem fiber_tterm {ι : Type} (k : ι → ℕ) {A B : ι → ℝ} (h : Summable (fun p => |A p| + |B p|))
    (a : ℕ → ℝ) (b : ℕ → ℝ) (J : ℕ) :
    a J * (∑' p : {p // k p = J}, A p.1) + b J * (∑' p : {p // k p = J}, B p.1)
      = ∑' p : {p // k p = J}, (a (k p.1) * A p.1 + b (k p.1) * B p.1) := by
  have hA : Summable A := Summable.of_norm_bounded h fun p => le_add_of_nonneg_right (abs_nonneg _)
  have hB : Summable B := Summable.of_norm_bounded h fun p => le_add_of_nonneg_left (abs_nonneg _)
  rw [← (((summable_fiber k hA J).hasSum.mul_left (a J)).add ((summable_fiber k hB J).hasSum.mul_left (b J))).tsum_eq]
  exact tsum_congr fun p => by rw [p.2]

private theorem fiber_abs {ι : Type} (k : ι → ℕ) {A B w : ι → ℝ} (h : Summable (fun p => |A p| + |B p|))
    (J : ℕ) : |∑' p : {p // k p = J}, A p.1| + |∑' p : {p // k p = J}, B p.1|
      ≤ ∑' p : {p // k p = J}, (|A p.1| + |B p.1|) := by
  have hA : Summable (fun p => |A p|) :=
    Summable.of_nonneg_of_le (fun _ => abs_nonneg _) (fun p => le_add_of_nonneg_right (abs_nonneg _)) h
  have hB : Summable (fun p => |B p|) :=
    Summable.of_nonneg_of_le (fun _ => abs_nonneg _) (fun p => le_add_of_nonneg_left (abs_nonneg _)) h
  rw [((summable_fiber k hA J).hasSum.add (summable_fiber k hB J).hasSum).tsum_eq]
  refine add_le_add ?_ ?_ <;> rw [← Real.norm_eq_abs]
  · exact tsum_of_norm_bounded (summable_fiber k hA J).hasSum fun _ => le_rfl
  · exact tsum_of_norm_bounded (summable_fiber k hB J).hasSum fun _ => le_rfl

/-- Termwise differentiation of a multiple series in the variable whose frequency is `k`. -/
theorem four_fiber_deriv {ι : Type} (k : ι → ℕ) {A B : ι → ℝ} {d : ℕ} (h0 : Summable (fun p => |A p| + |B p|))
    (hs : Summable (fun p => (|A p| + |B p|) * (k p : ℝ) ^ d)) {F : ℝ → ℝ}
    (hF : ∀ x, HasSum (fun p => tterm (A p) (B p) (k p) 0 x) (F x)) (x : ℝ) :
    HasSum (fun p => tterm (A p) (B p) (k p) d x) (iteratedDeriv d F x) := by
  have hsum : Summable (fun p => tterm (A p) (B p) (k p) d x) := Summable.of_norm_bounded hs fun p => by
    rw [mul_comm]; exact tterm_abs _ _ _ _ _
  have hrow : ∀ J d z, tterm (∑' p : {p // k p = J}, A p.1) (∑' p : {p // k p = J}, B p.1) J d z
      = ∑' p : {p // k p = J}, tterm (A p.1) (B p.1) (k p.1) d z := by
    intro J d z
    rw [tterm_lin, fiber_tterm k h0 (fun j => tterm 1 0 j d z) (fun j => tterm 0 1 j d z)]
    exact tsum_congr fun p => (tterm_lin _ _ _ _ _).symm
  have hSr : Summable (fun J : ℕ => (J : ℝ) ^ d *
      (|∑' p : {p // k p = J}, A p.1| + |∑' p : {p // k p = J}, B p.1|)) := by
    refine Summable.of_nonneg_of_le (fun J => by positivity) (fun J => ?_) (hasSum_fibers k hs.hasSum).summable
    have e : ∑' p : {p // k p = J}, (|A p.1| + |B p.1|) * (k p.1 : ℝ) ^ d
        = (J : ℝ) ^ d * ∑' p : {p // k p = J}, (|A p.1| + |B p.1|) := by
      rw [← tsum_mul_left]
      exact tsum_congr fun p => by rw [p.2, mul_comm]
    rw [e]
    exact mul_le_mul_of_nonneg_left (fiber_abs (w := A) k h0 J) (by positivity)
  have h2 := iteratedDeriv_fourSeries hSr (f := F) (fun z => by
    have := hasSum_fibers k (hF z)
    convert! this using 1
    funext J
    rw [← hrow J 0 z, tterm_zero]) x
  simp only [hrow] at h2
  rw [h2.unique (hasSum_fibers k hsum.hasSum)]
  exact hsum.hasSum

/-- The trigonometric interpolant of a multiple series whose terms have the frequencies `k`: it is the series with
every term replaced by its alias, and vanishes if the series vanishes on the grid. -/
theorem four_fiber_interp {ι : Type} (k : ι → ℕ) (n : ℕ) (hn : 1 ≤ n) (A B : ι → ℝ)
    (hs : Summable (fun p => |A p| + |B p|)) :
    ∃ A' B' : ℕ → ℝ, (2 * (n / 2) = n → B' (n / 2) = 0) ∧
      (∀ d x, HasSum (fun p => tterm (A p) (sinSign n (k p) * B p) (cosAlias n (k p)) d x)
        (iteratedDeriv d (Props.trigPoly (n / 2) A' B') x)) ∧
      ((∀ j < n, Props.trigPoly (n / 2) A' B' (2 * Real.pi * j / n) = 0) →
        Props.trigPoly (n / 2) A' B' = fun _ => 0) := by
  obtain ⟨A', B', h1, h2, h3⟩ := four_interp n hn (fun J => ∑' p : {p // k p = J}, A p.1)
    (fun J => ∑' p : {p // k p = J}, B p.1)
    (Summable.of_nonneg_of_le (fun J => by positivity) (fiber_abs (w := A) k hs) (hasSum_fibers k hs.hasSum).summable)
  refine ⟨A', B', h1, fun d x => ?_, h3⟩
  have hsum : Summable (fun p => tterm (A p) (sinSign n (k p) * B p) (cosAlias n (k p)) d x) := by
    refine Summable.of_norm_bounded (hs.mul_left (((n / 2 : ℕ) : ℝ) ^ d)) fun p => (tterm_abs _ _ _ _ _).trans ?_
    have h4 : ((cosAlias n (k p) : ℕ) : ℝ) ^ d ≤ ((n / 2 : ℕ) : ℝ) ^ d :=
      pow_le_pow_left₀ (Nat.cast_nonneg _) (Nat.cast_le.mpr (cosAlias_le hn _)) _
    have h5 : |(sinSign n (k p) : ℝ) * B p| ≤ |B p| := by
      rw [abs_mul]; exact mul_le_of_le_one_left (abs_nonneg _) (sinSign_abs n _)
    exact mul_le_mul h4 (by linarith) (by positivity) (by positivity)
  have h6 := hasSum_fibers k hsum.hasSum
  have h7 : (fun J => ∑' p : {p // k p = J}, tterm (A p.1) (sinSign n (k p.1) * B p.1) (cosAlias n (k p.1)) d x)
      = fun J => tterm (∑' p : {p // k p = J}, A p.1) (sinSign n J * ∑' p : {p // k p = J}, B p.1) (cosAlias n J) d x := by
    funext J
    rw [tterm_lin, ← mul_assoc, fiber_tterm k hs (fun j => tterm 1 0 (cosAlias n j) d x)
      (fun j => tterm 0 1 (cosAlias n j) d x * (sinSign n j : ℝ))]
    exact tsum_congr fun p => by rw [tterm_lin (A p.1), mul_assoc]
  rw [h7] at h6
  rw [(h2 d x).unique h6]
  exact hsum.hasSum

/-- The mixed derivatives of an absolutely convergent Fourier–Chebyshev–Chebyshev series. -/
theorem mixed_four3 {A B : ℕ × ℕ × ℕ → ℝ} {d0 d1 d2 : ℕ}
    (hs : Summable (fun p : ℕ × ℕ × ℕ => |(|A p| + |B p|)| * ((p.1 : ℝ) + 1) ^ d0 * ((p.2.1 : ℝ) + 1) ^ (2 * d1)
      * ((p.2.2 : ℝ) + 1) ^ (2 * d2)))
    {f : ℝ → ℝ → ℝ → ℝ} (hf : ∀ x, ∀ y ∈ Set.Icc (-1 : ℝ) 1, ∀ z ∈ Set.Icc (-1 : ℝ) 1, HasSum (fun p : ℕ × ℕ × ℕ =>
      (A p * Real.cos (p.1 * x) + B p * Real.sin (p.1 * x)) * (Chebyshev.T ℝ p.2.1).eval y
        * (Chebyshev.T ℝ p.2.2).eval z) (f x y z))
    {x y z : ℝ} (hy : y ∈ Set.Icc (-1 : ℝ) 1) (hz : z ∈ Set.Icc (-1 : ℝ) 1) :
    HasSum (fun p : ℕ × ℕ × ℕ => tterm (A p) (B p) p.1 d0 x * (derivative^[d1] (Chebyshev.T ℝ p.2.1)).eval y
        * (derivative^[d2] (Chebyshev.T ℝ p.2.2)).eval z)
      (iteratedDeriv d0 (fun x => iteratedDerivWithin d1 (fun y =>
        iteratedDerivWithin d2 (f x y) (Set.Icc (-1) 1) z) (Set.Icc (-1) 1) y) x) := by
  have habs : ∀ p, |(|A p| + |B p|)| = |A p| + |B p| := fun p => abs_of_nonneg (by positivity)
  have hw := fun {e0 e1 e2 : ℕ} (h0 : e0 ≤ d0) (h1 : e1 ≤ 2 * d1) (h2 : e2 ≤ 2 * d2) =>
    summable_weight3 (a := fun p => |A p| + |B p|) hs h0 h1 h2
  simp only [habs] at hw
  have ht : ∀ u (p : ℕ × ℕ × ℕ), |tterm (A p) (B p) p.1 0 u| ≤ |A p| + |B p| := fun u p => by
    simpa using tterm_abs (A p) (B p) p.1 0 u
  -- in `z`
  have h1 : ∀ u, ∀ v ∈ Set.Icc (-1 : ℝ) 1, HasSum (fun p : ℕ × ℕ × ℕ =>
      tterm (A p) (B p) p.1 0 u * (Chebyshev.T ℝ p.2.1).eval v
        * (derivative^[d2] (Chebyshev.T ℝ p.2.2)).eval z) (iteratedDerivWithin d2 (f u v) (Set.Icc (-1) 1) z) := by
    intro u v hv
    have hle : ∀ p : ℕ × ℕ × ℕ, |tterm (A p) (B p) p.1 0 u * (Chebyshev.T ℝ p.2.1).eval v| ≤ |A p| + |B p| := fun p => by
      rw [abs_mul]
      exact (mul_le_of_le_one_right (by positivity) (T_le_one _ hv)).trans (ht u p)
    refine cheb_fiber_deriv (fun p : ℕ × ℕ × ℕ => p.2.2) ?_ ?_
      (fun t ht' => by simpa only [tterm_zero] using hf u v hv t ht') z hz
    · exact Summable.of_nonneg_of_le (fun _ => abs_nonneg _) hle
        (by simpa using hw (Nat.zero_le _) (Nat.zero_le _) (Nat.zero_le _))
    · refine Summable.of_nonneg_of_le (fun _ => by positivity)
        (fun p => mul_le_mul_of_nonneg_right (hle p) (by positivity)) ?_
      simpa using hw (Nat.zero_le _) (Nat.zero_le _) le_rfl
  -- in `y`
  have h2 : ∀ u, HasSum (fun p : ℕ × ℕ × ℕ =>
      tterm (A p) (B p) p.1 0 u * (derivative^[d2] (Chebyshev.T ℝ p.2.2)).eval z
        * (derivative^[d1] (Chebyshev.T ℝ p.2.1)).eval y)
      (iteratedDerivWithin d1 (fun y => iteratedDerivWithin d2 (f u y) (Set.Icc (-1) 1) z) (Set.Icc (-1) 1) y) := by
    intro u
    have hle : ∀ p : ℕ × ℕ × ℕ, |tterm (A p) (B p) p.1 0 u * (derivative^[d2] (Chebyshev.T ℝ p.2.2)).eval z|
        ≤ (|A p| + |B p|) * (p.2.2 : ℝ) ^ (2 * d2) := fun p => by
      rw [abs_mul]
      exact mul_le_mul (ht u p) (T_le _ _ hz) (abs_nonneg _) (by positivity)
    refine cheb_fiber_deriv (fun p : ℕ × ℕ × ℕ => p.2.1) ?_ ?_ (fun v hv => ?_) y hy
    · exact Summable.of_nonneg_of_le (fun _ => abs_nonneg _) hle
        (by simpa using hw (Nat.zero_le _) (Nat.zero_le _) le_rfl)
    · refine Summable.of_nonneg_of_le (fun _ => by positivity)
        (fun p => mul_le_mul_of_nonneg_right (hle p) (by positivity)) ?_
      refine (hw (Nat.zero_le _) le_rfl le_rfl).congr fun p => ?_
      rw [pow_zero]; ring
    · refine hasSum_of_eq (fun p => ?_) (h1 u v hv)
      ring
  -- in `x`
  have hmul : ∀ (a b c e : ℝ) (k d : ℕ) (t : ℝ), tterm (a * c * e) (b * c * e) k d t = tterm a b k d t * c * e :=
    fun a b c e k d t => by unfold tterm; ring
  have hle : ∀ p : ℕ × ℕ × ℕ, |A p * (derivative^[d2] (Chebyshev.T ℝ p.2.2)).eval z
      * (derivative^[d1] (Chebyshev.T ℝ p.2.1)).eval y| + |B p * (derivative^[d2] (Chebyshev.T ℝ p.2.2)).eval z
      * (derivative^[d1] (Chebyshev.T ℝ p.2.1)).eval y|
      ≤ (|A p| + |B p|) * (p.2.2 : ℝ) ^ (2 * d2) * (p.2.1 : ℝ) ^ (2 * d1) :=
    fun p => by
      rw [abs_mul, abs_mul, abs_mul, abs_mul, ← add_mul, ← add_mul]
      exact mul_le_mul (mul_le_mul_of_nonneg_left (T_le _ _ hz) (by positivity)) (T_le _ _ hy) (abs_nonneg _)
        (by positivity)
  have h3 := four_fiber_deriv (fun p : ℕ × ℕ × ℕ => p.1) (d := d0)
    (A := fun p => A p * (derivative^[d2] (Chebyshev.T ℝ p.2.2)).eval z * (derivative^[d1] (Chebyshev.T ℝ p.2.1)).eval y)
    (B := fun p => B p * (derivative^[d2] (Chebyshev.T ℝ p.2.2)).eval z * (derivative^[d1] (Chebyshev.T ℝ p.2.1)).eval y)
    (Summable.of_nonneg_of_le (fun _ => by positivity) hle
      ((hw (Nat.zero_le _) le_rfl le_rfl).congr fun p => by rw [pow_zero]; ring))
    (Summable.of_nonneg_of_le (fun _ => by positivity)
      (fun p => mul_le_mul_of_nonneg_right (hle p) (by positivity))
      ((hw le_rfl le_rfl le_rfl).congr fun p => by ring))
    (fun u => hasSum_of_eq (fun p => (hmul _ _ _ _ _ _ _).symm) (h2 u)) x
  exact hasSum_of_eq (fun p => by rw [hmul]; ring) h3

end Verif
