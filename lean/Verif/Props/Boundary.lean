/-
Property C98: spectral accuracy of the composite bases for functions that satisfy the boundary conditions.
-/
import Verif.Spec.Boundary
import Verif.Proof.Correct
import Verif.Props.Accuracy
import Verif.Props.Compo
import Verif.Props.Axis
import Mathlib.Algebra.Order.Chebyshev

namespace Verif.Props
open Res Spec Finset Polynomial

private theorem chebTail_nonneg (a : ℕ → ℝ) (n d : ℕ) : 0 ≤ chebTail a n d :=
  tsum_nonneg (fun _ => by positivity)

private theorem chebTail_mono {a : ℕ → ℝ} {n d e : ℕ} (hn : 1 ≤ n)
    (hs : Summable (fun k : ℕ => |a k| * (k : ℝ) ^ (2 * d))) (h : e ≤ d) : chebTail a n e ≤ chebTail a n d := by
  have hst : ∀ {g : ℕ → ℝ}, Summable g → Summable (fun k => g (k + n)) := fun h =>
    (summable_nat_add_iff n).mpr h
  refine Summable.tsum_le_tsum (fun k => ?_) (hst (summable_of_pow hs h)) (hst hs)
  refine mul_le_mul_of_nonneg_left (pow_le_pow_right₀ ?_ (by omega)) (abs_nonneg _)
  exact_mod_cast (by omega : 1 ≤ k + n)

/-- the coefficients that `forward` of the Chebyshev base computes: one list for all derivatives -/
private theorem cheb_series (n : ℕ) (hn : 3 ≤ n) (b : Cheb) (hb : Cheb.new n = ok b) (a : ℕ → ℝ) (D : ℕ)
    (hs : Summable (fun k : ℕ => |a k| * (k : ℝ) ^ (2 * D))) (f : ℝ → ℝ)
    (hf : ∀ x ∈ Set.Icc (-1 : ℝ) 1, HasSum (fun k : ℕ => a k * (Chebyshev.T ℝ k).eval x) (f x))
    (out : List ℝ) (ho : out.length = b.lenSpec) :
    ∃ x c, b.coords = ok x ∧ b.forwardSlice (x.map f) out = ok c ∧ c.length = n ∧
      ∀ d ≤ D, ∀ y ∈ Set.Icc (-1 : ℝ) 1,
        |chebDeriv ℝ d c y - iteratedDerivWithin d f (Set.Icc (-1) 1) y| ≤ 2 * chebTail a n d := by
  have hlen : b.lenSpec = n ∧ b.lenOrth = n ∧ b.lenPhys = n := by
    obtain ⟨rfl, -⟩ := cheb_of_new hb; exact ⟨rfl, rfl, rfl⟩
  obtain ⟨x, c, -, -, hx, hc, hcl, -⟩ := C80_chebyshev n hn b hb a D hs f hf out (List.replicate n 0)
    (List.replicate n 0) ho (by simp [hlen]) (by simp [hlen])
  refine ⟨x, c, hx, hc, hcl, fun d hd y hy => ?_⟩
  obtain ⟨x', c', g, v, hx', hc', -, hg, -, -, -, h3, -⟩ := C80_chebyshev n hn b hb a d (summable_of_pow hs hd)
    f hf out (List.replicate n 0) (List.replicate n 0) ho (by simp [hlen]) (by simp [hlen])
  obtain rfl : x = x' := Res.ok.inj (hx.symm.trans hx')
  obtain rfl : c = c' := Res.ok.inj (hc.symm.trans hc')
  obtain ⟨g', hg', -, hgp⟩ := C04_gradient_polynomial (K := ℝ) n hn b hb c (List.replicate n 0)
    (by rw [hcl, hlen.1]) (by simp [hlen]) d
  obtain rfl : g = g' := Res.ok.inj (hg.symm.trans hg')
  rw [chebDeriv_eq_eval, ← hgp]
  exact h3 y hy

/-- For a function that satisfies the boundary conditions, the coefficients of the composite base stand
for nearly the same polynomial as those of the Chebyshev base. -/
theorem forward_close (k : CKind) (n : ℕ) (b : Compo ℝ) (hb : Compo.new k n = ok b) (hn : k.minSolve ≤ n)
    (D : ℕ) (hD : conditionOrder k ≤ D) (a : ℕ → ℝ) (hs : Summable (fun i : ℕ => |a i| * (i : ℝ) ^ (2 * D)))
    (f : ℝ → ℝ) (hf : ∀ x ∈ Set.Icc (-1 : ℝ) 1, HasSum (fun i : ℕ => a i * (Chebyshev.T ℝ i).eval x) (f x))
    (hbc : FunctionBC k f) (out out' : List ℝ) (ho : out.length = b.lenSpec) (ho' : out'.length = b.lenOrth) :
    ∃ x c v S, b.coords = ok x ∧ Cheb.coords ⟨n, n⟩ = ok x ∧ Cheb.forwardSlice ⟨n, n⟩ (x.map f) out' = ok c ∧
      c.length = n ∧ b.forwardSlice (x.map f) out = ok v ∧ v.length = b.lenSpec ∧ b.stencilMat = ok S ∧
      (∀ d ≤ D, ∀ y ∈ Set.Icc (-1 : ℝ) 1,
        |chebDeriv ℝ d c y - iteratedDerivWithin d f (Set.Icc (-1) 1) y| ≤ 2 * chebTail a n d) ∧
      ∀ d, ∀ y ∈ Set.Icc (-1 : ℝ) 1, |chebDeriv ℝ d (mulVec S v) y - chebDeriv ℝ d c y|
        ≤ 6 * √n * (n : ℝ) ^ (2 * d) * chebTail a n (conditionOrder k) := by
  have hw := Compo.wf_of_new hb
  have hn4 : 4 ≤ n := le_trans (by cases k <;> decide) hn
  have ho2 : b.lenOrth = n := by simp [Compo.lenOrth, Cheb.lenOrth, hw.ortho]
  have hp : b.lenPhys = n := hw.n_eq
  obtain ⟨x, c, hx, hc, hcl, hcd⟩ := cheb_series n (by omega) ⟨n, n⟩ (cheb_new_ok (by omega)) a _ hs f hf
    out' (by rw [ho', ho2]; rfl)
  have hxb : b.coords = ok x := by
    have : b.coords = Cheb.coords ⟨n, n⟩ := by unfold Compo.coords Cheb.coords; rw [hp]; rfl
    rw [this, hx]
  obtain ⟨S, v, hS, hv, hvl, hmin⟩ := C14_from_ortho_least_squares (E := ℝ) k n b hb hn c out
    (by rw [hcl, ho2]) ho
  obtain ⟨S', hS', -, hbc2⟩ := C17_boundary_conditions (K := ℝ) (T := ℝ) k n b hb
  obtain rfl : S = S' := Res.ok.inj (hS.symm.trans hS')
  have hSr : S.rows = n := by
    obtain ⟨S', hS', r1, r2, r3⟩ := wp_total.mp (Compo.wp_stencilMat hw)
    obtain rfl : S = S' := Res.ok.inj (hS.symm.trans hS')
    exact r1
  set ε := 2 * chebTail a n (conditionOrder k) with hε
  have hε0 : 0 ≤ ε := mul_nonneg (by norm_num) (chebTail_nonneg _ _ _)
  have hsk := summable_of_pow hs hD
  obtain ⟨c', hcl', hbc', hdist⟩ := correct k hn4 c hcl ε (fun p hp => by
    have hord : p.1 ≤ conditionOrder k ∧ p.2 ∈ Set.Icc (-1 : ℝ) 1 := by
      cases k <;> simp only [conditions, List.mem_cons, List.not_mem_nil, or_false] at hp <;>
        rcases hp with rfl | rfl | rfl | rfl <;> simp [conditionOrder]
    have h1 := hcd p.1 (le_trans hord.1 hD) p.2 hord.2
    rw [hbc p hp, sub_zero] at h1
    exact h1.trans (mul_le_mul_of_nonneg_left (chebTail_mono (by omega) hsk hord.1) (by norm_num)))
  obtain ⟨w, hwl, hw'⟩ := hbc2 c' (by rw [hcl', ho2]) hbc'
  have hres := (hmin w hwl).1
  refine ⟨x, c, v, S, hxb, hx, hc, hcl, ?_, hvl, hS, hcd, fun d y hy => ?_⟩
  · have h0 : Cheb.forwardSlice ⟨n, n⟩ (x.map f) (List.replicate b.lenOrth 0) = ok c := by
      obtain ⟨g, hg⟩ := LinOp.computes (cheb_forward_lin (n := n) (by omega))
      have hxl : (x.map f).length = n := by
        obtain ⟨x2, hx2, hl, -⟩ := C01_coords n ⟨n, n⟩ (cheb_new_ok (by omega))
        obtain rfl : x = x2 := Res.ok.inj (hx.symm.trans hx2)
        simpa using hl
      have e1 := (hg _ out' hxl (by rw [ho', ho2])).1
      have e2 := (hg _ (List.replicate b.lenOrth 0) hxl (by simp [ho2])).1
      rw [e2, ← e1, hc]
    unfold Compo.forwardSlice
    dsimp only
    rw [hw.ortho, h0, bind_ok, hv]
  have hsq : ∑ i ∈ range n, |nth (mulVec S v) i - nth c i| ^ 2 ≤ 9 * ε ^ 2 := by
    unfold residual at hres
    rw [hw', hSr] at hres
    simp only [Real.norm_eq_abs, sq_abs] at hres ⊢
    exact hres.trans hdist
  have hsum : ∑ i ∈ range n, |nth (mulVec S v) i - nth c i| ≤ √n * (3 * ε) := by
    refine abs_le_of_sq_le_sq' ?_ (by positivity) |>.2
    refine (sq_sum_le_card_mul_sum_sq).trans ?_
    rw [card_range, mul_pow, Real.sq_sqrt (Nat.cast_nonneg _)]
    refine mul_le_mul_of_nonneg_left (hsq.trans (le_of_eq (by ring))) (Nat.cast_nonneg _)
  have hd : |chebDeriv ℝ d (mulVec S v) y - chebDeriv ℝ d c y| ≤ (n : ℝ) ^ (2 * d) * (√n * (3 * ε)) := by
    unfold chebDeriv
    rw [mulVec_length, hSr, hcl, ← Finset.sum_sub_distrib]
    refine (abs_sum_le_sum_abs _ _).trans (le_trans ?_ (mul_le_mul_of_nonneg_left hsum (by positivity)))
    rw [Finset.mul_sum]
    refine Finset.sum_le_sum (fun i hi => ?_)
    rw [smul_eq_mul, smul_eq_mul, ← mul_sub, abs_mul]
    refine mul_le_mul_of_nonneg_right ?_ (abs_nonneg _)
    refine (abs_iterate_derivative_T_le i d (abs_le.mpr hy)).trans ?_
    exact pow_le_pow_left₀ (Nat.cast_nonneg _) (by exact_mod_cast (mem_range.mp hi).le) _
  exact hd.trans (le_of_eq (by rw [hε]; ring))

/-- C98: `forward` of a composite base on the samples of a function that satisfies the boundary conditions
of the base computes the coefficients of a combination of the functions of the base that is close to the
function, with all its derivatives, everywhere on `[-1, 1]`: twice the tail of the Chebyshev series of
the function from `n` on, plus the tail of the highest derivative in the boundary conditions, amplified
by `6 √n n^(2 d)`. -/
theorem C98_forward (k : CKind) (n : ℕ) (b : Compo ℝ) (hb : Compo.new k n = ok b) (hn : k.minSolve ≤ n)
    (d : ℕ) (a : ℕ → ℝ) (hs : Summable (fun i : ℕ => |a i| * (i : ℝ) ^ (2 * max d (conditionOrder k))))
    (f : ℝ → ℝ) (hf : ∀ x ∈ Set.Icc (-1 : ℝ) 1, HasSum (fun i : ℕ => a i * (Chebyshev.T ℝ i).eval x) (f x))
    (hbc : FunctionBC k f) (out : List ℝ) (ho : out.length = b.lenSpec) :
    ∃ x v S, b.coords = ok x ∧ b.forwardSlice (x.map f) out = ok v ∧ v.length = b.lenSpec ∧
      b.stencilMat = ok S ∧ ∀ y ∈ Set.Icc (-1 : ℝ) 1,
        |(derivative^[d] (chebPoly ℝ (mulVec S v))).eval y - iteratedDerivWithin d f (Set.Icc (-1) 1) y|
          ≤ 2 * chebTail a n d + 6 * √n * (n : ℝ) ^ (2 * d) * chebTail a n (conditionOrder k) := by
  have hw := Compo.wf_of_new hb
  obtain ⟨x, c, v, S, hx, -, -, -, hv, hvl, hS, hcd, hd⟩ := forward_close k n b hb hn _ (le_max_right d _) a hs f hf
    hbc out (List.replicate b.lenOrth 0) ho (by simp)
  refine ⟨x, v, S, hx, hv, hvl, hS, fun y hy => ?_⟩
  rw [← chebDeriv_eq_eval]
  have h2 := hcd d (le_max_left _ _) y hy
  calc _ ≤ |chebDeriv ℝ d (mulVec S v) y - chebDeriv ℝ d c y|
        + |chebDeriv ℝ d c y - iteratedDerivWithin d f (Set.Icc (-1) 1) y| := abs_sub_le _ _ _
    _ ≤ _ := add_le_add (hd d y hy) h2
    _ = _ := by ring

/-- C98 for the chain a user runs to differentiate: `forward` and `gradient` of the base and `backward`
of the Chebyshev base give the derivative on the grid. -/
theorem C98_derivative (k : CKind) (hk : k = .dirichlet ∨ k = .neumann ∨ k = .dirichletNeumann) (n : ℕ)
    (b : Compo ℝ) (o : Cheb) (hb : Compo.new k n = ok b) (hn : k.minSolve ≤ n) (hO : Cheb.new n = ok o)
    (d : ℕ) (a : ℕ → ℝ) (hs : Summable (fun i : ℕ => |a i| * (i : ℝ) ^ (2 * max d (conditionOrder k))))
    (f : ℝ → ℝ) (hf : ∀ x ∈ Set.Icc (-1 : ℝ) 1, HasSum (fun i : ℕ => a i * (Chebyshev.T ℝ i).eval x) (f x))
    (hbc : FunctionBC k f) (out out' out'' : List ℝ) (ho : out.length = b.lenSpec)
    (ho' : out'.length = b.lenOrth) (ho'' : out''.length = o.lenPhys) :
    ∃ x v g w, b.coords = ok x ∧ b.forwardSlice (x.map f) out = ok v ∧ b.gradientSlice v out' d = ok g ∧
      o.backwardSlice g out'' = ok w ∧ w.length = n ∧ x.length = n ∧
      ∀ j < n, |nth w j - iteratedDerivWithin d f (Set.Icc (-1) 1) (nth x j)|
        ≤ 2 * chebTail a n d + 6 * √n * (n : ℝ) ^ (2 * d) * chebTail a n (conditionOrder k) := by
  have hw := Compo.wf_of_new hb
  have hp : b.lenPhys = n := hw.n_eq
  have ho2 : b.lenOrth = n := by simp [Compo.lenOrth, Cheb.lenOrth, hw.ortho]
  obtain ⟨x, v, S, hx, hv, hvl, hS, h⟩ := C98_forward k n b hb hn d a hs f hf hbc out ho
  obtain ⟨S', g, hS', hg, hgl, hgx⟩ := C22_gradient_is_derivative (K := ℝ) (T := ℝ) k hk n b hb v out' hvl ho' d
  obtain rfl : S = S' := Res.ok.inj (hS.symm.trans hS')
  obtain ⟨rfl, hn2⟩ := cheb_of_new hO
  obtain ⟨x', w, hx', hw', hwl, he⟩ := C02_backward_evaluates n _ hO g out'' (by rw [hgl, ho2]; rfl) ho''
  obtain rfl : x = x' := by
    have : b.coords = Cheb.coords ⟨n, n⟩ := by unfold Compo.coords Cheb.coords; rw [hp]; rfl
    rw [this] at hx
    exact Res.ok.inj (hx.symm.trans hx')
  obtain ⟨x2, hx2, hxl, hxj, -⟩ := C01_coords n _ hO
  obtain rfl : x = x2 := Res.ok.inj (hx'.symm.trans hx2)
  refine ⟨x, v, g, w, hx, hv, hg, hw', by omega, hxl, fun j hj => ?_⟩
  have hm : nth x j ∈ Set.Icc (-1 : ℝ) 1 := by
    rw [hxj j hj]
    exact ⟨by linarith [Real.cos_le_one (Real.pi * j / (n - 1 : ℕ))],
      by linarith [Real.neg_one_le_cos (Real.pi * j / (n - 1 : ℕ))]⟩
  have h1 := h _ hm
  rw [← chebDeriv_eq_eval, ← hgx, chebVal_eq_chebDeriv, chebDeriv_eq_eval] at h1
  rw [he j (by omega)]
  exact h1

/-- `T₁₂ / 144 - T₁₀ / 100` satisfies the Neumann conditions. -/
theorem neumann_function : ∃ (a : ℕ → ℝ) (g : ℝ → ℝ), (∀ k ∉ ({10, 12} : Finset ℕ), a k = 0) ∧ a 12 ≠ 0 ∧
    (∀ x ∈ Set.Icc (-1 : ℝ) 1, HasSum (fun i : ℕ => a i * (Chebyshev.T ℝ i).eval x) (g x)) ∧
    FunctionBC .neumann g := by
  set a : ℕ → ℝ := fun k => if k = 12 then 1 / 144 else if k = 10 then -1 / 100 else 0 with ha
  have hz : ∀ k ∉ ({10, 12} : Finset ℕ), a k = 0 := fun k hk => by
    simp only [Finset.mem_insert, Finset.mem_singleton, not_or] at hk
    simp [ha, hk.1, hk.2]
  have hs : ∀ d, Summable (fun i : ℕ => |a i| * (i : ℝ) ^ (2 * d)) := fun d =>
    summable_of_ne_finset_zero (s := {10, 12}) (fun k hk => by rw [hz k hk, abs_zero, zero_mul])
  have hfin : ∀ (e : ℕ) (x : ℝ), HasSum (fun k : ℕ => a k * (derivative^[e] (Chebyshev.T ℝ k)).eval x)
      (a 10 * (derivative^[e] (Chebyshev.T ℝ (10 : ℕ))).eval x
        + a 12 * (derivative^[e] (Chebyshev.T ℝ (12 : ℕ))).eval x) := fun e x => by
    have h : HasSum (fun k : ℕ => a k * (derivative^[e] (Chebyshev.T ℝ k)).eval x)
        (∑ k ∈ {10, 12}, a k * (derivative^[e] (Chebyshev.T ℝ (k : ℕ))).eval x) :=
      hasSum_sum_of_ne_finset_zero (fun k hk => by rw [hz k hk, zero_mul])
    simpa using h
  have hf : ∀ x ∈ Set.Icc (-1 : ℝ) 1, HasSum (fun i : ℕ => a i * (Chebyshev.T ℝ i).eval x)
      (chebSeries a 0 x) := fun x hx => chebSeries_hasSum (e := 0) (hs 0) (abs_le.mpr hx)
  refine ⟨a, chebSeries a 0, hz, by norm_num [ha], hf, ?_⟩
  intro c hc
  simp only [conditions, List.mem_cons, List.not_mem_nil, or_false] at hc
  have h10 : (derivative^[1] (Chebyshev.T ℝ ((10 : ℕ) : ℤ))) = 10 * Chebyshev.U ℝ 9 := by
    rw [Function.iterate_one, Chebyshev.T_derivative_eq_U]; norm_num
  have h12 : (derivative^[1] (Chebyshev.T ℝ ((12 : ℕ) : ℤ))) = 12 * Chebyshev.U ℝ 11 := by
    rw [Function.iterate_one, Chebyshev.T_derivative_eq_U]; norm_num
  have o9 : Int.negOnePow 9 = -1 := by decide
  have o11 : Int.negOnePow 11 = -1 := by decide
  rcases hc with rfl | rfl
  · rw [iteratedDerivWithin_chebSeries (hs 1) hf _ (by norm_num),
      (chebSeries_hasSum (hs 1) (by norm_num)).unique (hfin 1 (-1)), h10, h12]
    simp [ha, Chebyshev.U_eval_neg_one, o9, o11]
    norm_num
  · rw [iteratedDerivWithin_chebSeries (hs 1) hf _ (by norm_num),
      (chebSeries_hasSum (hs 1) (by norm_num)).unique (hfin 1 1), h10, h12]
    simp [ha, Chebyshev.U_eval_one]
    norm_num

/-- This function meets the hypotheses of C98; on eight points its tail is not zero. -/
example : ∃ (a : ℕ → ℝ) (f : ℝ → ℝ) (b : Compo ℝ), Compo.new .neumann 8 = ok b ∧ CKind.neumann.minSolve ≤ 8 ∧
    (∀ d, Summable (fun i : ℕ => |a i| * (i : ℝ) ^ (2 * d))) ∧
    (∀ x ∈ Set.Icc (-1 : ℝ) 1, HasSum (fun i : ℕ => a i * (Chebyshev.T ℝ i).eval x) (f x)) ∧
    FunctionBC .neumann f ∧ a 12 ≠ 0 := by
  obtain ⟨a, g, hz, ha, hg, hbc⟩ := neumann_function
  obtain ⟨b, hb⟩ := newR2r_exists (some .neumann) 8 (by norm_num) (by rintro c ⟨⟩; decide)
  obtain ⟨b, hb, -⟩ := composite_inv hb
  exact ⟨a, g, b, hb, by decide, fun d => summable_of_ne_finset_zero (s := {10, 12})
    (fun k hk => by rw [hz k hk, abs_zero, zero_mul]), hg, hbc, ha⟩

end Verif.Props
