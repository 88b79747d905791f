/-
Property C117: the Poisson and Helmholtz solver converges with a rate for every smooth solution.
-/
import Verif.Proof.Interp
import Verif.Props.Tau

namespace Verif.Props
open Res Spec Finset Polynomial

theorem contDiffOn_iteratedDerivWithin {f : ℝ → ℝ} {s : Set ℝ} (hs : UniqueDiffOn ℝ s) : ∀ (d : ℕ) {p : ℕ}, ContDiffOn ℝ (p + d : ℕ) f s →
    ContDiffOn ℝ p (iteratedDerivWithin d f s) s
  | 0, p, h => by rw [iteratedDerivWithin_zero]; exact h
  | d + 1, p, h => by
    have h1 := contDiffOn_iteratedDerivWithin hs d (p := p + 1) (by rw [show p + 1 + d = p + (d + 1) by omega]; exact h)
    have h2 := h1.derivWithin (m := p) hs (by exact_mod_cast le_rfl)
    refine h2.congr fun x hx => ?_
    rw [iteratedDerivWithin_succ]

/-- C117: let `Y` be any function with `p ≥ 6` continuous derivatives on `[-1, 1]` that vanishes at both ends, and `F = β Y - c Y''` (`β ≥ 0`,
`c > 0`). For a grid of any size transform the samples of `F` with the Chebyshev base, solve the `cheb_dirichlet` system and transform
backward: the solution exists, is unique, and differs from `Y`, at the grid points and everywhere between, by at most `K / n^(p - 5)`,
with one constant `K` for all sizes. -/
theorem C117_dirichlet (β c : ℝ) (hβ : 0 ≤ β) (hc : 0 < c) (p : ℕ) (hp : 6 ≤ p) (Y : ℝ → ℝ)
    (hY : ContDiffOn ℝ p Y (Set.Icc (-1) 1)) (hl : Y (-1) = 0) (hr : Y 1 = 0) (F : ℝ → ℝ)
    (hF : ∀ z ∈ Set.Icc (-1 : ℝ) 1, β * Y z - c * iteratedDerivWithin 2 Y (Set.Icc (-1) 1) z = F z) :
    ∃ K : ℝ, ∀ (o : Mode) (n : ℕ) (_ : n ≤ 2642246) (b : Compo ℝ) (_ : Compo.new .dirichlet n = ok b) (q : Cheb) (_ : Cheb.new n = ok q)
      (out out' : List ℝ), out.length = q.lenSpec → out'.length = b.lenPhys →
      ∃ S P I x f v y, b.stencilMat = ok S ∧ b.laplacianPinv o = ok (P, I) ∧ q.coords = ok x ∧ b.coords = ok x ∧
        q.forwardSlice (x.map F) out = ok f ∧ v.length = b.lenSpec ∧ SolvesHelmholtz S P I β c f v ∧
        (∀ w : List ℝ, w.length = b.lenSpec → SolvesHelmholtz S P I β c f w → w = v) ∧
        (∀ z ∈ Set.Icc (-1 : ℝ) 1, |(chebPoly ℝ (mulVec S v)).eval z - Y z| ≤ K / (n : ℝ) ^ (p - 5)) ∧
        b.backwardSlice v out' = ok y ∧ y.length = n ∧ ∀ j < n, |nth y j - Y (nth x j)| ≤ K / (n : ℝ) ^ (p - 5) := by
  have hu : UniqueDiffOn ℝ (Set.Icc (-1 : ℝ) 1) := uniqueDiffOn_Icc (by norm_num)
  obtain ⟨r, rfl⟩ := Nat.exists_eq_add_of_le hp
  have hFs : ContDiffOn ℝ (4 + r : ℕ) F (Set.Icc (-1) 1) := by
    have h1 := contDiffOn_iteratedDerivWithin hu 2 (p := 4 + r) (by rw [show 4 + r + 2 = 6 + r by omega]; exact hY)
    have h2 : ContDiffOn ℝ (4 + r : ℕ) Y (Set.Icc (-1) 1) := hY.of_le (by exact_mod_cast (by omega : 4 + r ≤ 6 + r))
    exact ((contDiffOn_const.mul h2).sub (contDiffOn_const.mul h1)).congr fun z hz => (hF z hz).symm
  obtain ⟨K0, hK0⟩ := interp_rate 0 (4 + r) (by omega) F hFs
  obtain ⟨K1, hK1⟩ := interp_rate 0 (6 + r) (by omega) Y hY
  obtain ⟨K2, hK2⟩ := interp_rate 2 (6 + r) (by omega) Y hY
  refine ⟨|K1| + Real.pi / √8 * (|K0| + β * |K1| + c * |K2|) / c, fun o n hm b hb q hq out out' ho ho' => ?_⟩
  have hw := Compo.wf_of_new hb
  have hn : 4 ≤ n := hw.le
  have hlo : b.lenOrth = n := by simp [Compo.lenOrth, Cheb.lenOrth, hw.ortho]
  obtain ⟨S, P, I, hS, hP, -, hx⟩ := C102_dirichlet o n hm b hb β c hβ hc.le (by linarith)
  obtain ⟨S', P', I', hS', hP', he⟩ := C102_error o n hm b hb β c hβ hc
  obtain rfl := Res.ok.inj (hS.symm.trans hS')
  obtain ⟨rfl, rfl⟩ := Prod.mk.inj (Res.ok.inj (hP.symm.trans hP'))
  obtain ⟨x, hx1, hxl, -⟩ := C01_coords n q hq
  obtain ⟨rfl, hn2⟩ := cheb_of_new hq
  obtain ⟨f, hf, hfl, -⟩ := wp_total.mp (wp_forwardSlice ⟨n, n⟩ n rfl hn2 (x.map F) out (by simp [hxl, Cheb.lenPhys]) ho)
  obtain ⟨a, ha, hal, -⟩ := wp_total.mp (wp_forwardSlice ⟨n, n⟩ n rfl hn2 (x.map Y) out (by simp [hxl, Cheb.lenPhys]) ho)
  obtain ⟨⟨v, ⟨hvl, hvs⟩, hvu⟩, -⟩ := hx f (by rw [hfl, hlo])
  obtain ⟨-, e1, e2⟩ := interp_grid Y n _ hq x out a ho hx1 ha
  obtain ⟨S', hS', -, hbc⟩ := C17_boundary_conditions (K := ℝ) (T := ℝ) .dirichlet n b hb
  obtain rfl := Res.ok.inj (hS.symm.trans hS')
  obtain ⟨w, hwl, hwa⟩ := hbc a (by rw [hal, hlo]) (by
    show chebDeriv ℝ 0 a 1 = 0 ∧ chebDeriv ℝ 0 a (-1) = 0
    rw [chebDeriv_eq_eval, chebDeriv_eq_eval]
    exact ⟨by rw [← hr]; exact e2, by rw [← hl]; exact e1⟩)
  have i0 := (hK0 n (by omega) _ hq x out f ho hx1 hf).2
  have i1 := (hK1 n (by omega) _ hq x out a ho hx1 ha).2
  have i2 := (hK2 n (by omega) _ hq x out a ho hx1 ha).2
  simp only [Function.iterate_zero, id_eq, iteratedDerivWithin_zero] at i0 i1
  have hn1 : (1 : ℝ) ≤ n := by exact_mod_cast (by omega : 1 ≤ n)
  have weak : ∀ (K : ℝ) (e : ℕ), r + 1 ≤ e → K / (n : ℝ) ^ e ≤ |K| / (n : ℝ) ^ (r + 1) := fun K e h => by
    refine (div_le_div_of_nonneg_right (le_abs_self K) (by positivity)).trans ?_
    exact div_le_div_of_nonneg_left (abs_nonneg K) (by positivity) (pow_le_pow_right₀ hn1 h)
  have main : ∀ z ∈ Set.Icc (-1 : ℝ) 1, |(chebPoly ℝ (mulVec S v)).eval z - Y z|
      ≤ (|K1| + Real.pi / √8 * (|K0| + β * |K1| + c * |K2|) / c) / (n : ℝ) ^ (6 + r - 5) := fun z hz => by
    have := he v w f hvl hwl (by rw [hfl, hlo]) hvs Y (iteratedDerivWithin 2 Y (Set.Icc (-1) 1)) F
      (|K0| / (n : ℝ) ^ (r + 1)) (|K1| / (n : ℝ) ^ (r + 1)) (|K2| / (n : ℝ) ^ (r + 1)) (fun t t1 t2 => ?_) z hz.1 hz.2
    · refine this.trans (le_of_eq ?_)
      rw [show 6 + r - 5 = r + 1 by omega]
      have : (n : ℝ) ≠ 0 := by linarith
      field_simp
    · rw [hwa]
      exact ⟨hF t ⟨t1, t2⟩, (i0 t ⟨t1, t2⟩).trans (weak K0 _ (by omega)), (i1 t ⟨t1, t2⟩).trans (weak K1 _ (by omega)),
        (i2 t ⟨t1, t2⟩).trans (weak K2 _ (by omega))⟩
  obtain ⟨S', x', y, hS', hx', hy, hyl, hxl', hyj⟩ := C21_backward_evaluates .dirichlet (Or.inl rfl) n b hb v out' hvl ho'
  obtain rfl := Res.ok.inj (hS.symm.trans hS')
  have hp' : b.lenPhys = n := hw.n_eq
  obtain rfl : x = x' := by
    have : b.coords (K := ℝ) = Cheb.coords ⟨n, n⟩ := by unfold Compo.coords Cheb.coords; rw [hp']; rfl
    rw [this] at hx'
    exact Res.ok.inj (hx1.symm.trans hx')
  refine ⟨S, P, I, x, f, v, y, hS, hP, hx1, hx', hf, hvl, hvs, fun u hul hus => hvu u ⟨hul, hus⟩, main, hy, by rw [hyl, hp'], fun j hj => ?_⟩
  rw [hyj j (by rw [hp']; exact hj)]
  refine main _ ?_
  obtain ⟨x2, hx2, -, hxj, -⟩ := C01_coords n _ hq
  obtain rfl := Res.ok.inj (hx1.symm.trans hx2)
  rw [hxj j hj]
  exact ⟨by linarith [Real.cos_le_one (Real.pi * j / (n - 1 : ℕ))], by linarith [Real.neg_one_le_cos (Real.pi * j / (n - 1 : ℕ))]⟩

/-- C117 applies: `Y = sin (π x)`. -/
example : ContDiffOn ℝ 6 (fun x : ℝ => Real.sin (Real.pi * x)) (Set.Icc (-1) 1) ∧ Real.sin (Real.pi * (-1)) = 0 ∧
    Real.sin (Real.pi * 1) = 0 ∧ ∃ b : Compo ℝ, Compo.new .dirichlet 8 = ok b :=
  ⟨by fun_prop, by simp, by simp, ⟨_, rfl⟩⟩

end Verif.Props
