/-
Property C122: the Poisson and Helmholtz solver of a Fourier × Chebyshev space converges with a rate for every smooth solution.
-/
import Verif.Proof.ModesRate
import Verif.Props.PoissonRate

namespace Verif.Props
open Res Spec Finset Polynomial

theorem stencil_eval {T : Type} [AddCommGroup T] [Module ℝ T] {k : Option CKind} {n : ℕ} {b : BaseR2r}
    (hb : newR2r k n = ok b) {S : Mat ℝ} (hS : (b.toBase T).stencil = ok S) (v : List ℝ)
    (hv : v.length = (b.toBase T).lenSpec) (y : ℝ) :
    ∑ i ∈ range (b.toBase T).lenSpec, stencilFn S i y * nth v i = (chebPoly ℝ (mulVec S v)).eval y := by
  obtain ⟨S', hS', hr, hcs⟩ := r2r_stencil (T := T) hb
  obtain rfl : S = S' := by rw [hS] at hS'; exact Res.ok.inj hS'
  have h0 : chebDeriv ℝ 0 (mulVec S v) y = (chebPoly ℝ (mulVec S v)).eval y := by rw [chebDeriv_eq_eval]; rfl
  rw [← h0]
  unfold chebDeriv
  rw [mulVec_length, ← hv]
  have := sum_mulVec S v (by rw [hv, hcs]) (fun k => chebFn k y)
  simp only [smul_eq_mul] at this
  refine Eq.trans ?_ (Eq.trans this.symm ?_)
  · exact Finset.sum_congr rfl fun i _ => rfl
  · refine Finset.sum_congr rfl fun i _ => ?_
    simp [chebFn]

private theorem chebPoly_eval_range (n : ℕ) (a : ℕ → ℝ) (y : ℝ) :
    (chebPoly ℝ ((List.range n).map a)).eval y = ∑ l ∈ range n, a l * chebFn l y := by
  unfold chebPoly
  rw [List.length_map, List.length_range, eval_finsetSum]
  exact Finset.sum_congr rfl fun l hl => by rw [nth_map_range _ _ _ (mem_range.mp hl), eval_mul, eval_C]; rfl

private theorem chebPoly_eval_list {n : ℕ} {a : List ℝ} (ha : a.length = n) (y : ℝ) :
    (chebPoly ℝ a).eval y = ∑ l ∈ range n, nth a l * chebFn l y := by
  unfold chebPoly
  rw [ha, eval_finsetSum]
  exact Finset.sum_congr rfl fun l hl => by rw [eval_mul, eval_C]; rfl

theorem r2cTerm_sum {n k m : ℕ} (x : ℝ) (g : ℕ → ℝ) (z : ℕ → ℂ) :
    ∑ l ∈ range m, g l * r2cTerm n k x (z l) = r2cTerm n k x (∑ l ∈ range m, (g l : ℂ) * z l) := by
  unfold r2cTerm
  rw [Finset.sum_mul, Complex.re_sum, Finset.mul_sum, Finset.mul_sum]
  refine Finset.sum_congr rfl fun l _ => ?_
  rw [mul_assoc (g l : ℂ), Complex.re_ofReal_mul]
  ring

theorem r2cTerm_sub {n k : ℕ} (x : ℝ) (z w : ℂ) : |r2cTerm n k x z - r2cTerm n k x w| ≤ 2 / n * ‖z - w‖ := by
  unfold r2cTerm
  rw [← mul_sub, ← mul_sub, ← Complex.sub_re, ← sub_mul, abs_mul, abs_mul, abs_of_nonneg (by positivity : (0 : ℝ) ≤ 1 / n)]
  have h1 : |((z - w) * expFn k x).re| ≤ ‖z - w‖ := by
    refine (Complex.abs_re_le_norm _).trans_eq ?_
    rw [norm_mul]
    have : ‖expFn k x‖ = 1 := by
      unfold expFn
      rw [show Complex.I * k * x = ((k * x : ℝ) : ℂ) * Complex.I by push_cast; ring]
      exact Complex.norm_exp_ofReal_mul_I _
    rw [this, mul_one]
  have h2 : |(if k = 0 ∨ 2 * k = n then (1 : ℝ) else 2)| ≤ 2 := by split <;> norm_num
  calc 1 / (n : ℝ) * (|(if k = 0 ∨ 2 * k = n then (1 : ℝ) else 2)| * |((z - w) * expFn k x).re|)
      ≤ 1 / (n : ℝ) * (2 * ‖z - w‖) := mul_le_mul_of_nonneg_left (mul_le_mul h2 h1 (abs_nonneg _) (by norm_num)) (by positivity)
    _ = 2 / n * ‖z - w‖ := by ring

/-- the values of a function are those of its Fourier series -/
theorem series_r2c {n : ℕ} {bx : Base ℝ ℂ ℂ} (hbx : IsR2c n bx) {x : List ℝ} (hx : bx.coords = ok x)
    (hlen : bx.lenPhys = n) (hspec : bx.lenSpec = n / 2 + 1)
    (hfw : ∀ u : List ℝ, u.length = n → bx.forwardSlice u (List.replicate (n / 2 + 1) 0) = ok (rfftFwd u)) (u : ℕ → ℝ) {j : ℕ} (hj : j < n) :
    u j = ∑ k ∈ range (n / 2 + 1), r2cTerm n k (nth x j) (dft (-1) n (fun i => ((u i : ℝ) : ℂ)) k) := by
  obtain ⟨-, φ, β, hφ, hβ, -, hbf, -⟩ := hbx.laws
  obtain ⟨x', β', hx', hxl, hβ', he⟩ := r2c_evaluates hbx
  obtain rfl := Res.ok.inj (hx.symm.trans hx')
  set l : List ℝ := (List.range n).map u with hl
  have hll : l.length = n := by simp [hl]
  have h1 := hbf l (by rw [hlen, hll])
  have h2 : φ l = rfftFwd l := by
    have := (hφ l (List.replicate (n / 2 + 1) 0) (by rw [hlen, hll]) (by rw [hspec]; simp)).1
    rw [hfw l hll] at this
    exact (Res.ok.inj this).symm
  have hcl : (rfftFwd l).length = bx.lenSpec := by rw [length_rfftFwd, hll, hspec]
  have h3 : β (rfftFwd l) = β' (rfftFwd l) := by
    have k1 := (hβ (rfftFwd l) (List.replicate bx.lenPhys 0) hcl (by simp)).1
    have k2 := (hβ' (rfftFwd l) (List.replicate bx.lenPhys 0) hcl (by simp)).1
    exact Res.ok.inj (k1.symm.trans k2)
  have h4 := he (rfftFwd l) hcl j (by rw [hlen]; exact hj)
  rw [← h3, ← h2, h1, h2] at h4
  have h5 : nth l j = u j := nth_map_range _ _ _ hj
  rw [← h5, h4, hspec]
  refine Finset.sum_congr rfl fun k hk => ?_
  rw [nth_rfftFwd _ (by rw [hll]; exact mem_range.mp hk), hll]
  congr 1
  unfold dft
  refine Finset.sum_congr rfl fun i hi => ?_
  dsimp only
  rw [nth_map_range _ _ _ (mem_range.mp hi)]


/-- the entries of a complex array, as a matrix -/
def coeffMatC (a : Arr ℂ) (r c : ℕ) : Mat ℂ := ⟨r, c, fun i j => at_ a [i, j]⟩

/-- forward transform of `fourier_r2c × chebyshev`: the interpolants of the modes -/
theorem forward_modes {n0 n1 : ℕ} (hn0 : 1 ≤ n0) {q : BaseR2r} (hq : chebyshev n1 = ok q) {y : List ℝ}
    (hy : (q.toBase ℂ).coords = ok y) {G : Arr ℝ} (hG : Good G [n0, n1]) :
    ∃ f, (⟨(BaseR2c.fourierR2c ⟨n0, n0 / 2 + 1⟩).toBase, q.toBase ℂ⟩ : Space2 ℝ ℝ ℂ ℂ).forward G = ok f ∧ Good f [n0 / 2 + 1, n1] ∧
      ∀ k < n0 / 2 + 1, ∀ part : ℂ →ₗ[ℝ] ℝ, ∀ j < n1, (chebPoly ℝ ((List.range n1).map fun l => part (at_ f [k, l]))).eval (nth y j)
        = ∑ i ∈ range n0, part (twiddle (-1) n0 i k) * at_ G [i, j] := by
  have hbx : IsR2c n0 (BaseR2c.fourierR2c ⟨n0, n0 / 2 + 1⟩).toBase := ⟨hn0, _, rfl, rfl⟩
  obtain ⟨φ0, hφ0⟩ := LinOp.computes hbx.fwdLin
  have hq1 : newR2r none n1 = ok q := hq
  obtain ⟨φ1, hφ1⟩ := LinOp.computes (r2r_forward_lin (T := ℂ) hq1 trivial)
  obtain ⟨hn1, rfl⟩ := chebyshev_inv hq1
  have hqn := cheb_new_ok hn1
  set so : Space2 ℝ ℝ ℂ ℂ := ⟨(BaseR2c.fourierR2c ⟨n0, n0 / 2 + 1⟩).toBase, (BaseR2r.chebyshev ⟨n1, n1⟩).toBase ℂ⟩ with hso
  have g1 : Good (mapAx φ1 n1 1 G) [n0, n1] := good_mapAx φ1 n1 1 hG.2.2
  have g0 : Good (mapAx φ0 (n0 / 2 + 1) 0 (mapAx φ1 n1 1 G)) [n0 / 2 + 1, n1] := good_mapAx φ0 (n0 / 2 + 1) 0 g1.2.2
  refine ⟨mapAx φ0 (n0 / 2 + 1) 0 (mapAx φ1 n1 1 G), so.forward_eq hφ0 hφ1 hG, g0, fun k hk part j hj => ?_⟩
  have hy' : (⟨n1, n1⟩ : Cheb).coords ℝ = ok y := hy
  obtain ⟨y', e1, hyl, -⟩ := C01_coords n1 _ hqn
  obtain rfl := Res.ok.inj (hy'.symm.trans e1)
  have row : ∀ i < n0, ∑ l ∈ range n1, at_ (mapAx φ1 n1 1 G) [i, l] * chebFn l (nth y j) = at_ G [i, j] := by
    intro i hi
    have hll : (laneAt G 1 [i, 0]).length = n1 := by rw [laneAt_length, hG.2.2]; rfl
    obtain ⟨a1, a2⟩ := hφ1 (laneAt G 1 [i, 0]) (List.replicate n1 0) hll (by simp; rfl)
    obtain ⟨c, c1, c2⟩ := C03_backward_forward n1 _ hqn (laneAt G 1 [i, 0]) (List.replicate n1 0) (List.replicate n1 0) hll (by simp [Cheb.lenSpec])
      (by simp [Cheb.lenPhys])
    obtain rfl : φ1 (laneAt G 1 [i, 0]) = c := Res.ok.inj (a1.symm.trans c1)
    obtain ⟨y', v, d1, d2, d3, d4⟩ := C02_backward_evaluates n1 _ hqn (φ1 (laneAt G 1 [i, 0])) (List.replicate n1 0) a2 (by simp [Cheb.lenPhys])
    obtain rfl := Res.ok.inj (hy'.symm.trans d1)
    obtain rfl := Res.ok.inj (c2.symm.trans d2)
    have d5 := d4 j (by rw [hyl]; exact hj)
    rw [nth_laneAt _ _ _ (by rw [hG.2.2]; exact hj)] at d5
    refine Eq.trans ?_ d5.symm
    rw [chebPoly_eval_list a2]
    refine Finset.sum_congr rfl fun l hl => ?_
    congr 1
    refine (at_mapAx (ax := 1) (m := n1) (sh := [n0, n1]) hG.2.2 (inBounds2 hi (mem_range.mp hl))).trans ?_
    have : laneAt G 1 [i, l] = laneAt G 1 [i, 0] := rfl
    rw [this]; rfl
  rw [chebPoly_eval_range]
  have ent : ∀ l < n1, part (at_ (mapAx φ0 (n0 / 2 + 1) 0 (mapAx φ1 n1 1 G)) [k, l])
      = ∑ i ∈ range n0, part (twiddle (-1) n0 i k) * at_ (mapAx φ1 n1 1 G) [i, l] := by
    intro l hl
    have e := at_mapAx (g := φ0) (ax := 0) (m := n0 / 2 + 1) (sh := [n0, n1]) g1.2.2 (inBounds2 hk hl)
    have hll : (laneAt (mapAx φ1 n1 1 G) 0 [k, l]).length = n0 := by rw [laneAt_length, g1.2.2]; rfl
    have h2 : φ0 (laneAt (mapAx φ1 n1 1 G) 0 [k, l]) = rfftFwd (laneAt (mapAx φ1 n1 1 G) 0 [k, l]) := by
      have k1 := (hφ0 (laneAt (mapAx φ1 n1 1 G) 0 [k, l]) (List.replicate (n0 / 2 + 1) 0) hll (by simp; rfl)).1
      have k2 := r2c_forward_eq n0 (laneAt (mapAx φ1 n1 1 G) 0 [k, l]) (List.replicate (n0 / 2 + 1) 0) hll (by simp)
      exact Res.ok.inj (k1.symm.trans k2)
    rw [e, h2]
    show part (nth _ k) = _
    rw [nth_rfftFwd _ (by rw [hll]; exact hk), hll, part_dft]
    refine Finset.sum_congr rfl fun i hi => ?_
    rw [nth_laneAt _ _ _ (by rw [g1.2.2]; exact mem_range.mp hi)]
    rfl
  have e1 : ∑ l ∈ range n1, part (at_ (mapAx φ0 (n0 / 2 + 1) 0 (mapAx φ1 n1 1 G)) [k, l]) * chebFn l (nth y j)
      = ∑ l ∈ range n1, ∑ i ∈ range n0, part (twiddle (-1) n0 i k) * (at_ (mapAx φ1 n1 1 G) [i, l] * chebFn l (nth y j)) :=
    Finset.sum_congr rfl fun l hl => by
      rw [ent l (mem_range.mp hl), Finset.sum_mul]
      exact Finset.sum_congr rfl fun i _ => by ring
  rw [e1, Finset.sum_comm]
  refine Finset.sum_congr rfl fun i hi => ?_
  rw [← Finset.mul_sum, row i (mem_range.mp hi)]


private theorem rate_arith {n0 N M1 M2 M3 β c : ℝ} {p : ℕ} (h1n : 1 ≤ n0) (hN1 : 1 ≤ N) (m1 : 0 ≤ M1) (m2 : 0 ≤ M2) (m3 : 0 ≤ M3)
    (hβ : 0 ≤ β) (hc : 0 < c) :
    6 * (16 * (n0 * M1) / N ^ (p - 1) + 2 * ((16 * (n0 * M2) / N ^ (p - 3) + c * (n0 * (16 * M3 * 2 ^ (p - 3) / n0 ^ (p - 3))))
        + (β + c * n0 ^ 2) * (16 * (n0 * M1) / N ^ (p - 1)) + c * (16 * (n0 * M1) / N ^ (p - 5))) / c)
      ≤ 6 * (16 * M1 + 2 * (16 * M2 + c * (16 * M3 * 2 ^ (p - 3)) + (β + c) * (16 * M1) + c * (16 * M1)) / c) * n0
        * (1 / n0 ^ (p - 3) + 1 / N ^ (p - 5) + n0 ^ 2 / N ^ (p - 1)) := by
  have hn0' : 0 < n0 := by linarith
  have hNp : 0 < N := by linarith
  set A := 1 / n0 ^ (p - 3) with hA
  set Bq := 1 / N ^ (p - 5) with hBq
  set Dq := n0 ^ 2 / N ^ (p - 1) with hDq
  have a0 : 0 ≤ A := by rw [hA]; positivity
  have b0 : 0 ≤ Bq := by rw [hBq]; positivity
  have d0 : 0 ≤ Dq := by rw [hDq]; positivity
  have t1 : 1 / N ^ (p - 1) ≤ Dq := div_le_div_of_nonneg_right (one_le_pow₀ h1n) (by positivity)
  have t2 : 1 / N ^ (p - 3) ≤ Bq := one_div_le_one_div_of_le (by positivity) (pow_le_pow_right₀ hN1 (by omega))
  have s1 : 16 * (n0 * M1) / N ^ (p - 1) ≤ 16 * M1 * n0 * (A + Bq + Dq) := by
    rw [show 16 * (n0 * M1) / N ^ (p - 1) = 16 * M1 * n0 * (1 / N ^ (p - 1)) by ring]
    exact mul_le_mul_of_nonneg_left (by linarith) (by positivity)
  have s2 : 16 * (n0 * M2) / N ^ (p - 3) ≤ 16 * M2 * n0 * (A + Bq + Dq) := by
    rw [show 16 * (n0 * M2) / N ^ (p - 3) = 16 * M2 * n0 * (1 / N ^ (p - 3)) by ring]
    exact mul_le_mul_of_nonneg_left (by linarith) (by positivity)
  have s3 : c * (n0 * (16 * M3 * 2 ^ (p - 3) / n0 ^ (p - 3))) ≤ c * (16 * M3 * 2 ^ (p - 3)) * n0 * (A + Bq + Dq) := by
    rw [show c * (n0 * (16 * M3 * 2 ^ (p - 3) / n0 ^ (p - 3))) = c * (16 * M3 * 2 ^ (p - 3)) * n0 * A by rw [hA]; ring]
    exact mul_le_mul_of_nonneg_left (by linarith) (by positivity)
  have s4 : (β + c * n0 ^ 2) * (16 * (n0 * M1) / N ^ (p - 1)) ≤ (β + c) * (16 * M1) * n0 * (A + Bq + Dq) := by
    have g1 : β + c * n0 ^ 2 ≤ (β + c) * n0 ^ 2 := by nlinarith [one_le_pow₀ h1n (n := 2)]
    refine (mul_le_mul_of_nonneg_right g1 (by positivity)).trans ?_
    rw [show (β + c) * n0 ^ 2 * (16 * (n0 * M1) / N ^ (p - 1)) = (β + c) * (16 * M1) * n0 * Dq by rw [hDq]; ring]
    exact mul_le_mul_of_nonneg_left (by linarith) (by positivity)
  have s5 : c * (16 * (n0 * M1) / N ^ (p - 5)) ≤ c * (16 * M1) * n0 * (A + Bq + Dq) := by
    rw [show c * (16 * (n0 * M1) / N ^ (p - 5)) = c * (16 * M1) * n0 * Bq by rw [hBq]; ring]
    exact mul_le_mul_of_nonneg_left (by linarith) (by positivity)
  have s6 : 2 * ((16 * (n0 * M2) / N ^ (p - 3) + c * (n0 * (16 * M3 * 2 ^ (p - 3) / n0 ^ (p - 3))))
      + (β + c * n0 ^ 2) * (16 * (n0 * M1) / N ^ (p - 1)) + c * (16 * (n0 * M1) / N ^ (p - 5))) / c
      ≤ 2 * (16 * M2 + c * (16 * M3 * 2 ^ (p - 3)) + (β + c) * (16 * M1) + c * (16 * M1)) / c * n0 * (A + Bq + Dq) := by
    rw [show 2 * (16 * M2 + c * (16 * M3 * 2 ^ (p - 3)) + (β + c) * (16 * M1) + c * (16 * M1)) / c * n0 * (A + Bq + Dq)
      = 2 * ((16 * M2 + c * (16 * M3 * 2 ^ (p - 3)) + (β + c) * (16 * M1) + c * (16 * M1)) * n0 * (A + Bq + Dq)) / c by ring]
    refine (div_le_div_iff_of_pos_right hc).mpr (mul_le_mul_of_nonneg_left ?_ (by norm_num))
    exact (add_le_add (add_le_add (add_le_add s2 s3) s4) s5).trans (le_of_eq (by ring))
  have s7 := add_le_add s1 s6
  have s8 := mul_le_mul_of_nonneg_left s7 (by norm_num : (0 : ℝ) ≤ 6)
  refine s8.trans (le_of_eq ?_)
  ring

/-- C122: let `Y(x, y)` be any function with `p ≥ 6` continuous derivatives, `2π`-periodic in `x`, that vanishes at `y = ±1`, and let
`F = β Y - c ΔY` (`β ≥ 0`, `c > 0`; Poisson's equation is `β = 0`). For grids of any sizes `n0`, `n1` transform the samples of `F` with
`fourier_r2c × chebyshev`, solve the system of `fourier_r2c × cheb_dirichlet` (built from `stencil`, `laplacian`, `laplacian_pinv`) and
transform backward: the solution exists, is unique, and the grid values differ from those of `Y` by at most
`K n0 (1 / n0 ^ (p - 3) + 1 / n1 ^ (p - 5) + n0² / n1 ^ (p - 1))`, with one constant `K` for all sizes. -/
theorem C122_poisson (β c : ℝ) (hβ : 0 ≤ β) (hc : 0 < c) (p : ℕ) (hp : 6 ≤ p) (Y F : ℝ → ℝ → ℝ) (hY : ContDiff ℝ p (Function.uncurry Y))
    (hper : ∀ y, Function.Periodic (fun x => Y x y) (2 * Real.pi)) (hbc : ∀ x, Y x (-1) = 0 ∧ Y x 1 = 0)
    (hF : ∀ x, ∀ y ∈ Set.Icc (-1 : ℝ) 1, β * Y x y - c * laplacian2 Y x y = F x y) :
    ∃ K : ℝ, ∀ (o : Mode) (n0 n1 : ℕ) (_ : 1 ≤ n0) (_ : n1 ≤ 2642246) (r : BaseR2c) (b q : BaseR2r) (_ : fourierR2c n0 = ok r)
      (_ : newR2r (some .dirichlet) n1 = ok b) (_ : chebyshev n1 = ok q),
      let sp : Space2 ℝ ℝ ℂ ℂ := ⟨r.toBase, b.toBase ℂ⟩
      let so : Space2 ℝ ℝ ℂ ℂ := ⟨r.toBase, q.toBase ℂ⟩
      ∃ x y E L S P I, so.coords = ok [x, y] ∧ sp.coords = ok [x, y] ∧ r.toBase.stencil = ok E ∧ r.toBase.laplacian o = ok L ∧
        (b.toBase ℂ).stencil = ok S ∧ (b.toBase ℂ).laplacianPinv o = ok (P, I) ∧
        ∀ G : Arr ℝ, Good G [n0, n1] → (∀ i < n0, ∀ j < n1, at_ G [i, j] = F (nth x i) (nth y j)) →
          ∃ f v w, so.forward G = ok f ∧ Good v [n0 / 2 + 1, n1 - 2] ∧
            SolvesModesHelmholtz E L S P I β c (coeffMatC f (n0 / 2 + 1) n1) (coeffMatC v (n0 / 2 + 1) (n1 - 2)) ∧
            (∀ u, Good u [n0 / 2 + 1, n1 - 2] →
              SolvesModesHelmholtz E L S P I β c (coeffMatC f (n0 / 2 + 1) n1) (coeffMatC u (n0 / 2 + 1) (n1 - 2)) → u = v) ∧
            sp.backward v = ok w ∧ Good w [n0, n1] ∧ ∀ i < n0, ∀ j < n1, |at_ w [i, j] - Y (nth x i) (nth y j)|
              ≤ K * n0 * (1 / (n0 : ℝ) ^ (p - 3) + 1 / (n1 : ℝ) ^ (p - 5) + (n0 : ℝ) ^ 2 / (n1 : ℝ) ^ (p - 1)) := by
  -- bounds of the derivatives
  obtain ⟨M1, m1, h1⟩ := bounds_cos hY 0 (2 * Real.pi)
  obtain ⟨M2, m2, h2⟩ := bounds_cos (contDiff_helm (by omega : 2 ≤ p) hY β c) 0 (2 * Real.pi)
  obtain ⟨M3, m3, h3'⟩ := bound_iteratedDeriv_snd (H := fun y x => Y x y) (hY.comp (contDiff_snd.prodMk contDiff_fst)) (-1) 1 0 (2 * Real.pi)
  have h3 : ∀ y ∈ Set.Icc (-1 : ℝ) 1, ∀ x, |iteratedDeriv p (fun x => Y x y) x| ≤ M3 := fun y hy x => by
    obtain ⟨x', hx', e⟩ := (periodic_iteratedDeriv p (hper y)).exists_mem_Ico₀ (by positivity) x
    rw [e]
    exact h3' y hy x' ⟨hx'.1, hx'.2.le⟩
  refine ⟨6 * (16 * M1 + 2 * (16 * M2 + c * (16 * M3 * 2 ^ (p - 3)) + (β + c) * (16 * M1) + c * (16 * M1)) / c),
    fun o n0 n1 hn0 hm r b q hr hb hq => ?_⟩
  intro sp so
  have hbx : IsR2c n0 r.toBase := ⟨hn0, _, hr, rfl⟩
  obtain rfl := r2c_inv hr
  obtain ⟨B, hB, rfl⟩ := composite_inv hb
  obtain ⟨x, hx, hxl, hxj⟩ := C23_r2c_coords n0 hn0 ⟨n0, n0 / 2 + 1⟩ rfl
  obtain ⟨y, hy, hn2, hyj⟩ := coords_point (T := ℂ) hq
  have hqn := cheb_new_ok hn2
  have hw := Compo.wf_of_new hB
  have hpn : B.lenPhys = n1 := hw.n_eq
  have hq1 : newR2r none n1 = ok q := hq
  obtain ⟨-, rfl⟩ := chebyshev_inv hq1
  have hby : B.coords = ok y := by
    have : (⟨n1, n1⟩ : Cheb).coords ℝ = ok y := hy
    rw [← this]; unfold Compo.coords Cheb.coords; rw [hpn]; rfl
  obtain ⟨L, D, hL, -, -, -, hd, -⟩ := C30_laplacian n0 ⟨n0, n0 / 2 + 1⟩ rfl
  obtain ⟨S, P, I, h⟩ := tauSetup o hm hB
  have hn4 := h.hn
  have hs : B.lenSpec = n1 - 2 := dirichlet_len hB
  have hco : so.coords = ok [x, y] := by
    show (do let c0 ← so.base0.coords
             let c1 ← so.base1.coords
             pure [c0, c1]) = _
    rw [show so.base0.coords = ok x from hx, show so.base1.coords = ok y from hy]; rfl
  have hcp : sp.coords = ok [x, y] := by
    show (do let c0 ← sp.base0.coords
             let c1 ← sp.base1.coords
             pure [c0, c1]) = _
    rw [show sp.base0.coords = ok x from hx, show sp.base1.coords = ok y from hby]; rfl
  refine ⟨x, y, Mat.eye (n0 / 2 + 1), L, S, P, I, hco, hcp, rfl, hL, h.hS, h.hP, fun G hG hGF => ?_⟩
  obtain ⟨f, hf, hfg, hfe⟩ := forward_modes hn0 hq hy hG
  obtain ⟨p1, rfl⟩ : ∃ p1, n1 = p1 + 2 := ⟨n1 - 2, by omega⟩
  rw [Nat.add_sub_cancel] at hs ⊢
  obtain ⟨Q, M, ha⟩ := axis_tau h
  -- the modes
  set fl : ℕ → (ℂ →ₗ[ℝ] ℝ) → List ℝ := fun k part => (List.range (p1 + 2)).map fun l => part (at_ f [k, l]) with hfl
  have hfll : ∀ k part, (fl k part).length = p1 + 2 := fun k part => by simp [hfl]
  have hiff := modes_iff ha (fun k : ℕ => (k : ℝ)) (m := n0 / 2 + 1) (E := Mat.eye (n0 / 2 + 1)) (L := L) ⟨rfl, rfl, fun _ _ _ _ => rfl⟩ hd β c
    (coeffMatC f (n0 / 2 + 1) (p1 + 2))
  have hsol : ∀ (k : ℕ) (part : ℂ →ₗ[ℝ] ℝ), ∃! v : List ℝ, v.length = B.lenSpec ∧ SolvesHelmholtz S P I (β + c * (k : ℝ) ^ 2) c (fl k part) v := by
    intro k part
    obtain ⟨S', P', I', e1, e2, -, e3⟩ := C102_dirichlet o (p1 + 2) hm B hB (β + c * (k : ℝ) ^ 2) c (by positivity) hc.le (by positivity)
    obtain rfl := Res.ok.inj (h.hS.symm.trans e1)
    obtain ⟨rfl, rfl⟩ := Prod.mk.inj (Res.ok.inj (h.hP.symm.trans e2))
    exact (e3 _ (by rw [h.ho, hfll])).1
  have hpart : ∀ (u : Arr ℂ) (k : ℕ) (part : ℂ →ₗ[ℝ] ℝ), k < n0 / 2 + 1 →
      ((β + c * (k : ℝ) ^ 2) • (toM S p1 B.lenSpec).mulVec (fun l : Fin B.lenSpec => part ((coeffMatC u (n0 / 2 + 1) p1).get k l))
        - c • M.mulVec (fun l : Fin B.lenSpec => part ((coeffMatC u (n0 / 2 + 1) p1).get k l))
        = (fun i : Fin p1 => part ((coeffMatC f (n0 / 2 + 1) (p1 + 2)).get k i)) ↔
      SolvesHelmholtz S P I (β + c * (k : ℝ) ^ 2) c (fl k part) ((List.range B.lenSpec).map fun l => part (at_ u [k, l]))) := by
    intro u k part hk
    rw [solves1_iff ha]
    have e1 : (fun l : Fin B.lenSpec => nth ((List.range B.lenSpec).map fun l => part (at_ u [k, l])) l)
        = fun l : Fin B.lenSpec => part ((coeffMatC u (n0 / 2 + 1) p1).get k l) := by
      funext l; rw [nth_map_range _ _ _ l.2]; rfl
    have e2 : (fun i : Fin p1 => nth (fl k part) i) = fun i : Fin p1 => part ((coeffMatC f (n0 / 2 + 1) (p1 + 2)).get k i) := by
      funext l; rw [hfl]; dsimp only; rw [nth_map_range _ _ _ (by omega)]; rfl
    rw [e1, e2]
  choose V hV hVu using fun k part => hsol k part
  set v : Arr ℂ := mk2 (n0 / 2 + 1) p1 fun k l => ⟨nth (V k Complex.reLm) l, nth (V k Complex.imLm) l⟩ with hv
  have hvg : Good v [n0 / 2 + 1, p1] := good_mk2 _ _ _
  have hvV : ∀ k < n0 / 2 + 1, ∀ part ∈ [Complex.reLm, Complex.imLm], ((List.range B.lenSpec).map fun l => part (at_ v [k, l])) = V k part := by
    intro k hk part hp'
    refine ext_nth (by rw [List.length_map, List.length_range, (hV k part).1]) fun l hl => ?_
    rw [List.length_map, List.length_range] at hl
    rw [nth_map_range _ _ _ hl, hv, at_mk2 _ hk (by omega)]
    simp only [List.mem_cons, List.not_mem_nil, or_false] at hp'
    rcases hp' with rfl | rfl <;> rfl
  have hvs : SolvesModesHelmholtz (Mat.eye (n0 / 2 + 1)) L S P I β c (coeffMatC f (n0 / 2 + 1) (p1 + 2)) (coeffMatC v (n0 / 2 + 1) p1) := by
    refine (hiff _).mpr fun k hk part hp' => (hpart v k part hk).mpr ?_
    rw [hvV k hk part hp']
    exact (hV k part).2
  obtain ⟨x', y', w, hc', -, -, hw1, hw2, hw3⟩ := C54_space2_backward sp (r2c_evaluates hbx) (r2r_evaluates (T := ℂ) hb (Or.inl rfl) h.hS)
    (v := v) (by show Good v [n0 / 2 + 1, B.lenSpec]; rw [hs]; exact hvg)
  have e := Res.ok.inj (hcp.symm.trans hc')
  simp only [List.cons.injEq, and_true] at e
  obtain ⟨rfl, rfl⟩ := e
  refine ⟨f, v, w, hf, hvg, hvs, fun u hu hus => good_ext2 hu hvg fun k hk l hl => ?_, hw1, ?_, fun i hi j hj => ?_⟩
  · have hk' := (hiff _).mp hus k hk
    have key : ∀ part ∈ [Complex.reLm, Complex.imLm], part (at_ u [k, l]) = nth (V k part) l := fun part hp' => by
      rw [← hVu k part _ ⟨by simp, (hpart u k part hk).mp (hk' part hp')⟩, nth_map_range _ _ _ (by omega)]
    rw [hv, at_mk2 _ hk hl]
    exact Complex.ext (key Complex.reLm (by simp)) (key Complex.imLm (by simp))
  · have : Good w [n0, B.lenPhys] := hw2
    rwa [hpn] at this
  · have hyI : nth y j ∈ Set.Icc (-1 : ℝ) 1 := coords_mem hqn hy j hj
    have hn0' : (0 : ℝ) < n0 := by exact_mod_cast hn0
    have h1n : (1 : ℝ) ≤ n0 := by exact_mod_cast hn0
    have hw4 := hw3 i hi j (by show j < B.lenPhys; rw [hpn]; exact hj)
    have hser := series_r2c hbx hx rfl rfl (fun u hu => r2c_forward_eq n0 u _ hu (by simp)) (fun i => Y (2 * Real.pi * i / n0) (nth y j)) hi
    set W : ℕ → ℂ := fun k => ∑ l ∈ range B.lenSpec, (stencilFn S l (nth y j) : ℂ) * at_ v [k, l] with hW
    set Dk : ℕ → ℂ := fun k => dft (-1) n0 (fun i => ((Y (2 * Real.pi * i / n0) (nth y j) : ℝ) : ℂ)) k with hDk
    have e1 : at_ w [i, j] = ∑ k ∈ range (n0 / 2 + 1), r2cTerm n0 k (nth x i) (W k) := by
      rw [hw4]
      show ∑ l ∈ range B.lenSpec, stencilFn S l (nth y j) * (∑ k ∈ range (n0 / 2 + 1), r2cTerm n0 k (nth x i) (at_ v [k, l])) = _
      rw [Finset.sum_congr rfl fun l _ => Finset.mul_sum _ _ _, Finset.sum_comm]
      exact Finset.sum_congr rfl fun k _ => r2cTerm_sum _ _ _
    have e2 : Y (nth x i) (nth y j) = ∑ k ∈ range (n0 / 2 + 1), r2cTerm n0 k (nth x i) (Dk k) := by
      rw [← hser, hxj i hi]
    set N : ℝ := ((p1 + 2 : ℕ) : ℝ) with hN
    set e0 : ℝ := 16 * (n0 * M1) / N ^ (p - 1) + 2 * ((16 * (n0 * M2) / N ^ (p - 3)
          + c * (n0 * (16 * M3 * 2 ^ (p - 3) / (n0 : ℝ) ^ (p - 3))))
        + (β + c * (n0 : ℝ) ^ 2) * (16 * (n0 * M1) / N ^ (p - 1)) + c * (16 * (n0 * M1) / N ^ (p - 5))) / c with he0
    have hpi : Real.pi / √8 ≤ 2 := by
      rw [div_le_iff₀ (by positivity)]
      have q1 : (2 : ℝ) ≤ √8 := Real.le_sqrt_of_sq_le (by norm_num)
      have := Real.pi_lt_four
      linarith
    have hNp : 0 < N := by rw [hN]; positivity
    have hmode : ∀ k < n0 / 2 + 1, ∀ part ∈ [Complex.reLm, Complex.imLm], |part (W k - Dk k)| ≤ e0 := by
      intro k hk part hp'
      have hkn : (k : ℝ) ^ 2 ≤ (n0 : ℝ) ^ 2 := pow_le_pow_left₀ (by positivity) (by exact_mod_cast (by omega : k ≤ n0)) 2
      have k1 := mode_error (o := o) (n0 := n0) hp hm hB h.hS h.hP hβ hc hY hper hbc h1 h2 h3 hn0 (k := k) (by omega) hp' (hfll k part)
        (fun j' hj' => by
          have := hfe k hk part j' hj'
          rw [hyj j' hj'] at this
          rw [this]
          refine Finset.sum_congr rfl fun i' hi' => ?_
          rw [hGF i' (mem_range.mp hi') j' hj', hxj i' (mem_range.mp hi'), hyj j' hj', hF]
          rw [← hyj j' hj']
          exact coords_mem hqn hy j' hj') (hV k part).1 (hV k part).2 hyI
      have e3 : part (W k) = (chebPoly ℝ (mulVec S (V k part))).eval (nth y j) := by
        rw [← stencil_eval (T := ℂ) hb h.hS (V k part) (hV k part).1, hW]
        dsimp only
        rw [map_sum]
        refine Finset.sum_congr rfl fun l hl => ?_
        have hl' : l < B.lenSpec := mem_range.mp hl
        rw [part_ofReal_mul, ← hvV k hk part hp', nth_map_range _ _ _ hl']
      rw [map_sub, e3, hDk]
      dsimp only
      rw [part_dft]
      refine k1.trans ?_
      rw [he0]
      refine add_le_add le_rfl ((div_le_div_iff_of_pos_right hc).mpr ?_)
      refine mul_le_mul hpi ?_ (by positivity) (by norm_num)
      refine add_le_add (add_le_add le_rfl ?_) le_rfl
      exact mul_le_mul_of_nonneg_right (by nlinarith) (by positivity)
    have he0p : 0 ≤ e0 := by rw [he0]; positivity
    have hsum : |at_ w [i, j] - Y (nth x i) (nth y j)| ≤ 6 * e0 := by
      rw [e1, e2, ← Finset.sum_sub_distrib]
      refine (Finset.abs_sum_le_sum_abs _ _).trans ((Finset.sum_le_card_nsmul _ _ (2 / n0 * (e0 + e0)) fun k hk => ?_).trans ?_)
      · refine (r2cTerm_sub _ _ _).trans (mul_le_mul_of_nonneg_left ((Complex.norm_le_abs_re_add_abs_im _).trans ?_) (by positivity))
        exact add_le_add (hmode k (mem_range.mp hk) Complex.reLm (by simp)) (hmode k (mem_range.mp hk) Complex.imLm (by simp))
      · rw [card_range, nsmul_eq_mul]
        have q1 : ((n0 / 2 + 1 : ℕ) : ℝ) ≤ 3 / 2 * n0 := by
          have : 2 * (n0 / 2 + 1) ≤ 3 * n0 := by omega
          have : (2 : ℝ) * ((n0 / 2 + 1 : ℕ) : ℝ) ≤ 3 * n0 := by exact_mod_cast this
          linarith
        refine (mul_le_mul_of_nonneg_right q1 (by positivity)).trans (le_of_eq ?_)
        field_simp
        ring
    refine hsum.trans ?_
    exact rate_arith h1n (by rw [hN]; exact_mod_cast (by omega : 1 ≤ p1 + 2)) m1 m2 m3 hβ hc

/-- C122 applies: `Y = sin x (1 - y²)`. -/
example : ContDiff ℝ 6 (Function.uncurry fun x y : ℝ => Real.sin x * (1 - y ^ 2)) ∧
    (∀ y : ℝ, Function.Periodic (fun x => Real.sin x * (1 - y ^ 2)) (2 * Real.pi)) ∧
    (∀ x : ℝ, Real.sin x * (1 - (-1) ^ 2) = 0 ∧ Real.sin x * (1 - 1 ^ 2) = 0) ∧ (∃ r : BaseR2c, fourierR2c 7 = ok r) ∧
    (∃ b : BaseR2r, newR2r (some .dirichlet) 8 = ok b) ∧ (∃ q : BaseR2r, chebyshev 8 = ok q) ∧ ∃ G : Arr ℝ, Good G [7, 8] :=
  ⟨by
    have : (Function.uncurry fun x y : ℝ => Real.sin x * (1 - y ^ 2)) = fun z : ℝ × ℝ => Real.sin z.1 * (1 - z.2 ^ 2) := rfl
    rw [this]; fun_prop, fun y x => by simp, fun x => by norm_num, ⟨_, rfl⟩, ⟨_, rfl⟩, ⟨_, rfl⟩, ⟨_, good_fill 0 [7, 8]⟩⟩

end Verif.Props
