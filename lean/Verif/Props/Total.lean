/-
Property C82: numerical differentiation from samples to derivative, truncation and rounding together.
-/
import Verif.Props.RoundingCheb
import Verif.Props.Accuracy

namespace Verif.Props
open Res Spec Finset Polynomial

/-- The exact gradient is Lipschitz. -/
theorem cheb_gradient_sub {n : ℕ} (hn : 3 ≤ n) (d : ℕ) {x y out out' X Y : List ℝ} (hx : x.length = n)
    (hy : y.length = n) (ho : out.length = n) (ho' : out'.length = n)
    (eX : Cheb.gradientSlice ℝ ⟨n, n⟩ x out d = ok X) (eY : Cheb.gradientSlice ℝ ⟨n, n⟩ y out' d = ok Y)
    {δ : ℝ} (hδ : ∀ i < n, |nth x i - nth y i| ≤ δ) :
    X.length = n ∧ Y.length = n ∧ ∀ i < n, |nth X i - nth Y i| ≤ ((n : ℝ) ^ 2 / 2) ^ d * δ := by
  obtain ⟨g, hg, hlin⟩ := cheb_gradient_lin (R := ℝ) (T := ℝ) hn d
  obtain ⟨e1, l1⟩ := hg x out hx ho
  obtain ⟨e2, l2⟩ := hg y out' hy ho'
  obtain rfl := Res.ok.inj (eX.symm.trans e1)
  obtain rfl := Res.ok.inj (eY.symm.trans e2)
  refine ⟨l1, l2, fun i hi => ?_⟩
  set w := linComb ℝ 1 (-1) x y with hw
  have hwl : w.length = n := by rw [hw, linComb_length, hx]
  obtain ⟨e3, l3⟩ := hg w out hwl ho
  have e4 : nth (g w) i = nth (g x) i - nth (g y) i := by
    rw [hlin 1 (-1) x y hx hy, nth_linComb _ _ _ _ (by rw [l1]; exact hi), one_smul, neg_one_smul,
      sub_eq_add_neg]
  rw [← e4]
  let R0 : Rounding := ⟨id, 0, fun x => by simp⟩
  let v : List (Rnd R0) := w.map Rnd.mk
  have hvw : vals v = w := by
    simp only [v, vals, List.map_map]
    exact List.map_id w
  obtain ⟨bb, bR, bZ, -, f2, -, -, -, -, h1, h2⟩ := gradient_near (R := R0) (p := 0) hn d (by simp [R0])
    (show (0 : ℝ) < 1 by norm_num) v w (w.map (|·|)) (by simp [v, hwl]) hwl (by simp [hwl]) (fun j hj => by
      rw [hvw, nth_map _ _ _ (by omega)]
      exact NearV.self _)
  rw [← Cheb.gradient_eq (n := n) (K := ℝ) w out hwl ho d] at f2
  obtain rfl := Res.ok.inj (f2.symm.trans e3)
  refine ((h1 i hi).le).trans (h2 δ (fun j hj => ?_) i hi)
  rw [nth_map _ _ _ (by omega), hw, nth_linComb _ _ _ _ (by omega), one_smul, neg_one_smul, ← sub_eq_add_neg]
  exact hδ j hj

/-- C82: let `f` be the sum of a Chebyshev series with `∑ |aₖ| k^{2d} < ∞`, bounded by `F` on `[-1, 1]`,
and `v` its samples on the grid of `chebyshev(n)` up to `ε`.  In arithmetic with rounding and with a cosine
transform of accuracy `η`, `forward`, `gradient` of order `d` and `backward` compute the `d`-th derivative
of `f` at the grid points, up to twice the tail of the series and
`8 n (n²/2)^d (((1+η)²(1+γ)-1)(F+ε) + ε)`, with `γ = γ_{11 + d(n/2+6)}`. -/
theorem C82_chebyshev {R : Rounding} [HasDct (Rnd R)] {n : ℕ} {η : ℝ} (h0 : 0 ≤ η) (hD : DctError R n η)
    (hn : 3 ≤ n) (d : ℕ) (hu : ((11 + d * (n / 2 + 6) : ℕ) : ℝ) * R.u < 1) (b : Cheb)
    (hb : Cheb.new n = ok b) (a : ℕ → ℝ) (hs : Summable (fun k : ℕ => |a k| * (k : ℝ) ^ (2 * d)))
    (f : ℝ → ℝ)
    (hf : ∀ x ∈ Set.Icc (-1 : ℝ) 1, HasSum (fun k : ℕ => a k * (Chebyshev.T ℝ k).eval x) (f x))
    (F ε : ℝ) (hF : ∀ x ∈ Set.Icc (-1 : ℝ) 1, |f x| ≤ F) (v : List (Rnd R)) (hv : v.length = b.lenPhys)
    (hvf : ∀ j < n, |(nth v j).val - f (-Real.cos (Real.pi * j / (n - 1 : ℕ)))| ≤ ε)
    (out out' out'' : List (Rnd R)) (ho : out.length = b.lenSpec) (ho' : out'.length = b.lenOrth)
    (ho'' : out''.length = b.lenPhys) :
    ∃ c g w, b.forwardSlice v out = ok c ∧ b.gradientSlice (Rnd R) c out' d = ok g ∧
      b.backwardSlice g out'' = ok w ∧ w.length = n ∧ ∀ j < n,
        |(nth w j).val - iteratedDerivWithin d f (Set.Icc (-1) 1) (-Real.cos (Real.pi * j / (n - 1 : ℕ)))|
          ≤ 2 * ∑' k : ℕ, |a (k + n)| * ((k + n : ℕ) : ℝ) ^ (2 * d)
            + 8 * n * ((n : ℝ) ^ 2 / 2) ^ d
              * (((1 + η) ^ 2 * (1 + R.γ (11 + d * (n / 2 + 6))) - 1) * (F + ε) + ε) := by
  have hu0 := R.u_nonneg
  have lt : ∀ {j : ℕ}, j ≤ 11 + d * (n / 2 + 6) → (j : ℝ) * R.u < 1 := fun hj =>
    lt_of_le_of_lt (mul_le_mul_of_nonneg_right (by exact_mod_cast hj) hu0) hu
  have h1 : R.u < 1 := by have := lt (j := 1) (by omega); simpa using this
  have h8 : 8 * R.u < 1 := by have := lt (j := 8) (by omega); exact_mod_cast this
  have h3 : 3 * R.u < 1 := by have := lt (j := 3) (by omega); exact_mod_cast this
  obtain ⟨xg, hxg, hxl, hxj, -⟩ := C01_coords n b hb
  have hb' := hb
  obtain ⟨rfl, hn2⟩ := cheb_of_new hb
  change v.length = n at hv
  change out.length = n at ho
  change out'.length = n at ho'
  change out''.length = n at ho''
  have z0 : (List.replicate n (0 : ℝ)).length = n := by simp
  have hnr : (2 : ℝ) ≤ n := by exact_mod_cast hn2
  have hgrid : ∀ j < n, nth xg j ∈ Set.Icc (-1 : ℝ) 1 := fun j hj => by
    rw [hxj j hj]
    exact ⟨by linarith [Real.cos_le_one (Real.pi * j / (n - 1 : ℕ))],
      by linarith [Real.neg_one_le_cos (Real.pi * j / (n - 1 : ℕ))]⟩
  -- exact run
  obtain ⟨xg', ce, ge, we, hx', hce, hcel, hge, hwe, hwel, -, -, hacc⟩ := C80_chebyshev n hn ⟨n, n⟩ hb' a d hs f hf
    (List.replicate n 0) (List.replicate n 0) (List.replicate n 0) z0 z0 z0
  obtain rfl : xg = xg' := by rw [hxg] at hx'; exact Res.ok.inj hx'
  -- rounded run
  obtain ⟨c, cR, ec, ecR, hc, hcb⟩ := C76_forward h0 h8 hD ⟨n, n⟩ hb' v out (List.replicate n 0) hv ho z0
  obtain ⟨-, hcRl, -⟩ := Cheb.forward_sub hn2 (show (vals v).length = n by rw [vals_length, hv])
    (show (vals v).length = n by rw [vals_length, hv]) z0 z0 ecR ecR
  have hcl : c.length = n := by have := hc.1; rwa [vals_length, hcRl] at this
  obtain ⟨g, gR, eg, egR, hg⟩ := C75_gradient_uniform hn d h1 (lt (by omega)) ⟨n, n⟩ hb' c out'
    (List.replicate n 0) hcl ho' z0
  obtain ⟨-, hgRl, -⟩ := cheb_gradient_sub hn d (show (vals c).length = n by rw [vals_length, hcl])
    (show (vals c).length = n by rw [vals_length, hcl]) z0 z0 egR egR (δ := 0) (fun i _ => by simp)
  have hFe : 0 ≤ F := (abs_nonneg _).trans (hF 0 (by simp))
  have hε : 0 ≤ ε := (abs_nonneg _).trans (hvf 0 (by omega))
  have hvb : Bounded (F + ε) (vals v) := bounded_iff.mpr (fun i hi => by
    rw [vals_length, hv] at hi
    have t1 := hvf i hi
    rw [← hxj i hi] at t1
    have t2 := hF _ (hgrid i hi)
    rw [Rnd.nth_vals]
    have := abs_add_le ((nth v i).val - f (nth xg i)) (f (nth xg i))
    rw [sub_add_cancel] at this
    linarith)
  have hS : 2 / ((n : ℝ) - 1) * absSum (vals v) ≤ 4 * (F + ε) := by
    have := absSum_le hvb
    rw [vals_length, hv] at this
    rw [div_mul_eq_mul_div, div_le_iff₀ (by linarith)]
    nlinarith
  have hS0 : 0 ≤ 2 / ((n : ℝ) - 1) * absSum (vals v) :=
    mul_nonneg (div_nonneg (by norm_num) (by linarith)) (absSum_nonneg _)
  set μ8 := (1 + η) * (1 + R.γ 8) - 1 with hμ8
  set μ3 := (1 + η) * (1 + R.γ 3) - 1 with hμ3
  have g8 := R.γ_nonneg (k := 8) (lt (by omega))
  have g3 := R.γ_nonneg (k := 3) (lt (by omega))
  set Γ := R.γ (d * (n / 2 + 6)) with hΓ
  have gΓ : 0 ≤ Γ := R.γ_nonneg (lt (by omega))
  have m8 : 0 ≤ μ8 := by rw [hμ8]; nlinarith
  have m3 : 0 ≤ μ3 := by rw [hμ3]; nlinarith
  -- coefficients
  have hcb' : Bounded ((1 + μ8) * (4 * (F + ε))) (vals c) := by
    intro z hz
    refine (bounded_within hc hcb z hz).trans ?_
    nlinarith
  have hfs := Cheb.forward_sub hn2 (show (vals v).length = n by rw [vals_length, hv])
    (show (xg.map f).length = n by rw [List.length_map, hxl]) z0 z0 ecR hce
  have hce' : ∀ i < n, |nth (vals c) i - nth ce i| ≤ μ8 * (4 * (F + ε)) + 4 * ε := by
    intro i hi
    have t1 := hc.2 i (by rw [vals_length, hcl]; exact hi)
    have t2 := hfs.2.2 i hi
    have t3 : ∑ j ∈ range n, |nth (vals v) j - nth (xg.map f) j| ≤ n * ε := by
      refine (Finset.sum_le_sum (fun j hj => ?_)).trans (le_of_eq (by simp : ∑ _j ∈ range n, ε = n * ε))
      have hj' := mem_range.mp hj
      rw [Rnd.nth_vals, nth_map _ _ _ (by omega), hxj j hj']
      exact hvf j hj'
    have t4 : 2 / ((n : ℝ) - 1) * ∑ j ∈ range n, |nth (vals v) j - nth (xg.map f) j| ≤ 4 * ε := by
      rw [div_mul_eq_mul_div, div_le_iff₀ (by linarith)]
      nlinarith
    have t5 := abs_sub_le (nth (vals c) i) (nth cR i) (nth ce i)
    nlinarith [mul_le_mul_of_nonneg_left hS m8]
  -- gradient
  have hgw := hg _ hcb'
  have hgl : g.length = n := by have := hgw.1; rwa [vals_length, hgRl] at this
  set D := ((n : ℝ) ^ 2 / 2) ^ d with hDd
  have hDp : 0 ≤ D := by positivity
  have hgs := cheb_gradient_sub hn d (show (vals c).length = n by rw [vals_length, hcl]) hcel z0 z0 egR hge hce'
  have hge' : ∀ i < n, |nth (vals g) i - nth ge i|
      ≤ Γ * (D * ((1 + μ8) * (4 * (F + ε)))) + D * (μ8 * (4 * (F + ε)) + 4 * ε) := by
    intro i hi
    have t1 := hgw.2 i (by rw [vals_length, hgl]; exact hi)
    have t2 := hgs.2.2 i hi
    have t5 := abs_sub_le (nth (vals g) i) (nth gR i) (nth ge i)
    linarith
  have hgRb : Bounded (D * ((1 + μ8) * (4 * (F + ε)))) gR := by
    have hzero : Cheb.gradientSlice ℝ ⟨n, n⟩ (List.replicate n (0 : ℝ)) (List.replicate n (0 : ℝ)) d
        = ok (List.replicate n (0 : ℝ)) := by
      obtain ⟨gg, hgg, hlin⟩ := cheb_gradient_lin (R := ℝ) (T := ℝ) hn d
      obtain ⟨e1, l1⟩ := hgg (List.replicate n (0 : ℝ)) (List.replicate n (0 : ℝ)) z0 z0
      have e2 := hlin 0 0 (List.replicate n (0 : ℝ)) (List.replicate n (0 : ℝ)) z0 z0
      have e3 : ∀ y : List ℝ, y.length = n → linComb ℝ 0 0 y y = List.replicate n 0 := by
        intro y hy
        refine List.ext_getElem (by simp [linComb, hy]) (fun i _ _ => ?_)
        simp [linComb]
      rw [e3 _ z0, e3 _ l1] at e2
      exact e1.trans (by rw [e2])
    have hz := cheb_gradient_sub hn d (show (vals c).length = n by rw [vals_length, hcl]) z0 z0 z0 egR hzero
      (δ := (1 + μ8) * (4 * (F + ε))) (fun i hi => by
        rw [nth_eq_getElem (List.replicate n (0 : ℝ)) i (by simpa using hi), List.getElem_replicate, sub_zero]
        exact bounded_iff.mp hcb' i (by rw [vals_length, hcl]; exact hi))
    refine bounded_iff.mpr (fun i hi => ?_)
    have hi' : i < n := by omega
    have := hz.2.2 i hi'
    rwa [nth_eq_getElem (List.replicate n (0 : ℝ)) i (by simpa using hi'), List.getElem_replicate, sub_zero] at this
  have hgb : Bounded ((1 + Γ) * (D * ((1 + μ8) * (4 * (F + ε))))) (vals g) := by
    intro z hz
    refine (bounded_within hgw hgRb z hz).trans (le_of_eq (by ring))
  -- backward
  obtain ⟨w, wR, ew, ewR, hw⟩ := C76_backward h0 h3 hD ⟨n, n⟩ hb' g out'' (List.replicate n 0) hgl ho'' z0
  have hbs := Cheb.backward_sub hn2 (show (vals g).length = n by rw [vals_length, hgl])
    (by obtain ⟨-, h, -⟩ := hgs; exact h) z0 z0 ewR hwe
  have hwl : w.length = n := by have := hw.1; rw [vals_length, hbs.1] at this; exact this
  refine ⟨c, g, w, ec, eg, ew, hwl, fun j hj => ?_⟩
  have t1 := hw.2 j (by rw [vals_length, hwl]; exact hj)
  rw [Rnd.nth_vals] at t1
  have t2 := hbs.2.2 j hj
  have t3 := hacc j hj
  rw [hxj j hj] at t3
  have t4 : ∑ i ∈ range n, |nth (vals g) i - nth ge i|
      ≤ n * (Γ * (D * ((1 + μ8) * (4 * (F + ε)))) + D * (μ8 * (4 * (F + ε)) + 4 * ε)) :=
    (Finset.sum_le_sum (fun i hi => hge' i (mem_range.mp hi))).trans (le_of_eq (by rw [Finset.sum_const, card_range, nsmul_eq_mul]))
  have t5 := absSum_le hgb
  rw [vals_length, hgl] at t5
  have t6 := mul_le_mul_of_nonneg_left (mul_le_mul_of_nonneg_left t5 (show (0 : ℝ) ≤ 2 by norm_num)) m3
  have t7 := abs_sub_le ((nth w j).val) (nth wR j)
    (iteratedDerivWithin d f (Set.Icc (-1) 1) (-Real.cos (Real.pi * j / (n - 1 : ℕ))))
  have t8 := abs_sub_le (nth wR j) (nth we j)
    (iteratedDerivWithin d f (Set.Icc (-1) 1) (-Real.cos (Real.pi * j / (n - 1 : ℕ))))
  -- constants
  have k1 := R.γ_add (j := 3) (k := 8) (lt (by omega))
  have k2 := R.γ_add (j := 3 + 8) (k := d * (n / 2 + 6)) (lt (by omega))
  have k3 : (1 + R.γ 3) * (1 + R.γ 8) * (1 + Γ) ≤ 1 + R.γ (11 + d * (n / 2 + 6)) := by
    have : (1 + R.γ 3) * (1 + R.γ 8) ≤ 1 + R.γ (3 + 8) := by linarith
    refine (mul_le_mul_of_nonneg_right this (by linarith)).trans ?_
    have e : (1 + R.γ (3 + 8)) * (1 + Γ) = 1 + (R.γ (3 + 8) + Γ + R.γ (3 + 8) * Γ) := by ring
    rw [e]
    have e' : 3 + 8 + d * (n / 2 + 6) = 11 + d * (n / 2 + 6) := rfl
    rw [e'] at k2
    linarith
  have k4 : (1 + μ3) * (1 + μ8) * (1 + Γ) ≤ (1 + η) ^ 2 * (1 + R.γ (11 + d * (n / 2 + 6))) := by
    have := mul_le_mul_of_nonneg_left k3 (sq_nonneg (1 + η))
    have e : (1 + μ3) * (1 + μ8) * (1 + Γ) = (1 + η) ^ 2 * ((1 + R.γ 3) * (1 + R.γ 8) * (1 + Γ)) := by
      rw [hμ3, hμ8]; ring
    rw [e]; exact this
  have k5 : 8 * n * D * (((1 + μ3) * (1 + μ8) * (1 + Γ) - 1) * (F + ε) + ε)
      ≤ 8 * n * D * (((1 + η) ^ 2 * (1 + R.γ (11 + d * (n / 2 + 6))) - 1) * (F + ε) + ε) := by
    refine mul_le_mul_of_nonneg_left ?_ (by positivity)
    have := mul_le_mul_of_nonneg_right k4 (show 0 ≤ F + ε by linarith)
    linarith
  have k6 : 8 * n * D * (((1 + μ3) * (1 + μ8) * (1 + Γ) - 1) * (F + ε) + ε)
      = μ3 * (2 * (n * ((1 + Γ) * (D * ((1 + μ8) * (4 * (F + ε)))))))
        + 2 * (n * (Γ * (D * ((1 + μ8) * (4 * (F + ε)))) + D * (μ8 * (4 * (F + ε)) + 4 * ε))) := by
    ring
  linarith

/-! The hypotheses are met: the derivative of `(1 - x/2) / (5/4 - x) = ∑ 2⁻ᵏ Tₖ(x)` from its samples at 65
points, rounded to 53 binary digits, with a correctly rounded cosine transform. -/

attribute [local instance] roundedDct

private theorem gen_tail : ∑' k : ℕ, |(1 / 2 : ℝ) ^ (k + 65)| * ((k + 65 : ℕ) : ℝ) ^ (2 * 1) ≤ 1 / 10 ^ 15 := by
  have hr : |(133 / 256 : ℝ)| < 1 := by rw [abs_of_pos (by norm_num)]; norm_num
  have hg := (hasSum_geometric_of_abs_lt_one hr).mul_left ((1 / 2 : ℝ) ^ 65 * 65 ^ 2)
  have hle : ∀ k : ℕ, |(1 / 2 : ℝ) ^ (k + 65)| * ((k + 65 : ℕ) : ℝ) ^ (2 * 1)
      ≤ (1 / 2 : ℝ) ^ 65 * 65 ^ 2 * (133 / 256) ^ k := by
    intro k
    have h1 : 1 + (k : ℝ) * (1 / 65) ≤ (1 + 1 / 65) ^ k := one_add_mul_le_pow (by norm_num) k
    have h2 : (1 + (k : ℝ) * (1 / 65)) ^ 2 ≤ ((1 + 1 / 65 : ℝ) ^ k) ^ 2 := pow_le_pow_left₀ (by positivity) h1 2
    have h5 : ((1 + 1 / 65 : ℝ) ^ k) ^ 2 * (1 / 2) ^ k ≤ (133 / 256 : ℝ) ^ k := by
      rw [← pow_mul, mul_comm k 2, pow_mul, ← mul_pow]
      exact pow_le_pow_left₀ (by norm_num) (by norm_num) k
    rw [abs_of_pos (by positivity), pow_add]
    push_cast
    have h4 : ((k : ℝ) + 65) ^ (2 * 1) = 65 ^ 2 * (1 + (k : ℝ) * (1 / 65)) ^ 2 := by ring
    have h6 := mul_le_mul_of_nonneg_right h2 (show (0 : ℝ) ≤ (1 / 2) ^ k by positivity)
    rw [h4]
    calc (1 / 2 : ℝ) ^ k * (1 / 2) ^ 65 * (65 ^ 2 * (1 + (k : ℝ) * (1 / 65)) ^ 2)
        = (1 / 2 : ℝ) ^ 65 * 65 ^ 2 * ((1 + (k : ℝ) * (1 / 65)) ^ 2 * (1 / 2) ^ k) := by ring
      _ ≤ _ := mul_le_mul_of_nonneg_left (h6.trans h5) (by positivity)
  have hs := Summable.of_nonneg_of_le (fun k => by positivity) hle hg.summable
  refine (hs.tsum_le_tsum hle hg.summable).trans ?_
  rw [hg.tsum_eq]
  norm_num

example : ∃ b : Cheb, Cheb.new 65 = ok b ∧ ∀ v out out' out'' : List (Rnd (binary 52)),
    v.length = 65 → out.length = 65 → out'.length = 65 → out''.length = 65 →
    (∀ j < 65, nth v j = ⟨(binary 52).fl ((1 - (-Real.cos (Real.pi * j / (65 - 1 : ℕ))) / 2)
      / (5 / 4 - (-Real.cos (Real.pi * j / (65 - 1 : ℕ)))))⟩) →
    ∃ c g w, b.forwardSlice v out = ok c ∧ b.gradientSlice (Rnd (binary 52)) c out' 1 = ok g ∧
      b.backwardSlice g out'' = ok w ∧ ∀ j < 65, |(nth w j).val - iteratedDerivWithin 1
        (fun x : ℝ => (1 - x / 2) / (5 / 4 - x)) (Set.Icc (-1) 1) (-Real.cos (Real.pi * j / (65 - 1 : ℕ)))|
          ≤ 2 / 10 ^ 8 := by
  have hF : ∀ x ∈ Set.Icc (-1 : ℝ) 1, |(1 - x / 2) / (5 / 4 - x)| ≤ 2 := fun x hx => by
    have h1 : 0 < 5 / 4 - x := by linarith [hx.2]
    rw [abs_of_nonneg (div_nonneg (by linarith [hx.2]) h1.le), div_le_iff₀ h1]
    linarith [hx.2]
  refine ⟨⟨65, 65⟩, cheb_new_ok (by omega), fun v out out' out'' hv ho ho' ho'' hvj => ?_⟩
  obtain ⟨c, g, w, h1, h2, h3, -, h4⟩ := C82_chebyshev (R := binary 52) (n := 65) (η := (binary 52).u)
    (binary 52).u_nonneg (rounded_error (by omega)) (by omega) 1 (by rw [u52']; norm_num) ⟨65, 65⟩
    (cheb_new_ok (by omega)) (fun k => (1 / 2) ^ k)
    ((summable_pow_mul_geometric_of_norm_lt_one 2 (show ‖(1 / 2 : ℝ)‖ < 1 by norm_num)).congr (fun k => by
      rw [abs_of_pos (by positivity)]; ring))
    (fun x => (1 - x / 2) / (5 / 4 - x)) cheb_generating 2 (2 * (binary 52).u) hF v hv (fun j hj => by
      rw [hvj j hj]
      refine ((binary 52).err _).trans ?_
      rw [mul_comm]
      refine mul_le_mul_of_nonneg_right (hF _ ⟨?_, ?_⟩) (binary 52).u_nonneg
      · linarith [Real.cos_le_one (Real.pi * j / (65 - 1 : ℕ))]
      · linarith [Real.neg_one_le_cos (Real.pi * j / (65 - 1 : ℕ))])
    out out' out'' ho ho' ho''
  refine ⟨c, g, w, h1, h2, h3, fun j hj => (h4 j hj).trans ?_⟩
  have ht := gen_tail
  have e : 8 * ((65 : ℕ) : ℝ) * (((65 : ℕ) : ℝ) ^ 2 / 2) ^ 1
      * (((1 + (binary 52).u) ^ 2 * (1 + (binary 52).γ (11 + 1 * (65 / 2 + 6))) - 1) * (2 + 2 * (binary 52).u)
        + 2 * (binary 52).u) ≤ 19 / 10 ^ 9 := by
    rw [gam52', u52']; norm_num
  linarith

end Verif.Props
