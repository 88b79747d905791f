/-
Property C62: `laplacian_pinv`, `stencil` and `gradient` fit together: the preconditioned systems
that examples/field.rs assembles for Poisson and Helmholtz problems.
-/
import Verif.Proof.Poisson
import Verif.Props.Calculus2
import Mathlib.Analysis.SpecialFunctions.Integrals.Basic
import Mathlib.Topology.Algebra.Polynomial

namespace Verif.Props
open Res Spec Finset

/-- pseudo-inverse, stencil and their shapes for a composite base -/
private theorem compo_setup (o : Mode) {kind : CKind} {n : ℕ} {b : Compo ℝ} (hm : n ≤ 2642246)
    (hb : Compo.new kind n = ok b) : ∃ S P I, b.stencilMat = ok S ∧ b.laplacianPinv o = ok (P, I) ∧
      S.rows = n ∧ S.cols = b.lenSpec ∧ b.lenOrth = n ∧ 4 ≤ n ∧ Lap2 n P I := by
  have hw := Compo.wf_of_new hb
  have hn : 4 ≤ n := le_trans (by cases kind <;> decide) hw.le
  obtain ⟨S, hS, r1, r2, -⟩ := wp_total.mp (Compo.wp_stencilMat hw)
  obtain ⟨P, I, hP, hL⟩ := lap2_of_new o hn hm
  refine ⟨S, P, I, hS, ?_, r1, r2, by simp [Compo.lenOrth, Cheb.lenOrth, hw.ortho], hn, hL⟩
  rw [← hP, ← hw.ortho]; rfl

/-- C62: the Poisson equation. For every composite base with coefficients `v` and every right hand
side `f` in the orthogonal base whose two highest coefficients vanish (second derivatives are such),
`u = S v` satisfies `u'' = f` if and only if `(I S) v = (I P) f`, with `S = stencil()` and
`(P, I) = laplacian_pinv()`. -/
theorem C62_poisson (o : Mode) (kind : CKind) (n : ℕ) (hm : n ≤ 2642246) (b : Compo ℝ)
    (hb : Compo.new kind n = ok b) :
    ∃ S P I, b.stencilMat = ok S ∧ b.laplacianPinv o = ok (P, I) ∧
      ∀ v f : List ℝ, v.length = b.lenSpec → f.length = b.lenOrth → nth f (n - 2) = 0 →
        nth f (n - 1) = 0 →
        (Polynomial.derivative (Polynomial.derivative (chebPoly ℝ (mulVec S v))) = chebPoly ℝ f ↔
          mulVec (matMul I S) v = mulVec (matMul I P) f) := by
  obtain ⟨S, P, I, hS, hP, r1, r2, ho, hn, hL⟩ := compo_setup o hm hb
  refine ⟨S, P, I, hS, hP, fun v f hv hf h1 h2 => ?_⟩
  rw [hL.iff hn (by rw [mulVec_length, r1]) (by rw [hf, ho]) h1 h2,
    mulVec_matMul I S (by rw [hL.icol, r1]), hL.drop _ (by rw [mulVec_length, r1])]

/-- C62 in terms of the calls: `gradient(v, 2) = f` iff `v` solves the preconditioned system. -/
theorem C62_poisson_gradient (o : Mode) (kind : CKind)
    (hk : kind = .dirichlet ∨ kind = .neumann ∨ kind = .dirichletNeumann) (n : ℕ) (hm : n ≤ 2642246)
    (b : Compo ℝ) (hb : Compo.new kind n = ok b) :
    ∃ S P I, b.stencilMat = ok S ∧ b.laplacianPinv o = ok (P, I) ∧
      ∀ v f out : List ℝ, v.length = b.lenSpec → f.length = b.lenOrth → out.length = b.lenOrth →
        nth f (n - 2) = 0 → nth f (n - 1) = 0 →
        (b.gradientSlice v out 2 = ok f ↔ mulVec (matMul I S) v = mulVec (matMul I P) f) := by
  obtain ⟨S, P, I, hS, hP, h⟩ := C62_poisson o kind n hm b hb
  refine ⟨S, P, I, hS, hP, fun v f out hv hf ho h1 h2 => ?_⟩
  rw [← h v f hv hf h1 h2]
  obtain ⟨S', g, hS', hg, hgl, hgv⟩ := C22_gradient_is_derivative (K := ℝ) (T := ℝ) kind hk n b hb v out hv
    ho 2
  obtain rfl : S = S' := by rw [hS] at hS'; exact Res.ok.inj hS'
  have hgp : chebPoly ℝ g = Polynomial.derivative (Polynomial.derivative (chebPoly ℝ (mulVec S v))) := by
    refine Polynomial.funext fun x => ?_
    have := hgv x
    rw [chebVal_eq_chebDeriv, chebDeriv_eq_eval, chebDeriv_eq_eval] at this
    exact this
  rw [hg, ← hgp]
  constructor
  · intro e; rw [Res.ok.inj e]
  · intro e; rw [chebPoly_ext (by rw [hgl, hf]) e]

private theorem bc_linear {kind : CKind} (hk : kind = .dirichlet ∨ kind = .dirichletNeumann)
    {c d : ℝ} (h : PolyBC (some kind) (Polynomial.C d + Polynomial.C c * Polynomial.X)) :
    c = 0 ∧ d = 0 := by
  rcases hk with rfl | rfl <;> simp [PolyBC] at h <;> constructor <;> linarith [h.1, h.2]

private theorem polyBC_sub {kind : CKind} {p q : Polynomial ℝ} (hp : PolyBC (some kind) p)
    (hq : PolyBC (some kind) q) : PolyBC (some kind) (p - q) := by
  cases kind <;> simp only [PolyBC, Polynomial.derivative_sub, Polynomial.eval_sub] at * <;> simp [hp, hq]

private theorem bc_correct {kind : CKind} (hk : kind = .dirichlet ∨ kind = .dirichletNeumann)
    (G : Polynomial ℝ) : ∃ c d : ℝ,
      PolyBC (some kind) (G + (Polynomial.C d + Polynomial.C c * Polynomial.X)) := by
  rcases hk with rfl | rfl
  · refine ⟨(G.eval (-1) - G.eval 1) / 2, -(G.eval (-1) + G.eval 1) / 2, ?_⟩
    simp [PolyBC]; constructor <;> ring
  · refine ⟨-G.derivative.eval 1, -G.eval (-1) - G.derivative.eval 1, ?_⟩
    simp [PolyBC]

/-- C62: for `cheb_dirichlet` and `cheb_dirichlet_neumann` the preconditioned system is square and
has exactly one solution for every right hand side (two highest coefficients zero); this solution
satisfies `u'' = f` and the boundary conditions. -/
theorem C62_unique_solution (o : Mode) (kind : CKind)
    (hk : kind = .dirichlet ∨ kind = .dirichletNeumann) (n : ℕ) (hm : n ≤ 2642246)
    (b : Compo ℝ) (hb : Compo.new kind n = ok b) :
    ∃ S P I, b.stencilMat = ok S ∧ b.laplacianPinv o = ok (P, I) ∧
      (matMul I S).rows = b.lenSpec ∧ (matMul I S).cols = b.lenSpec ∧
      ∀ f : List ℝ, f.length = b.lenOrth → nth f (n - 2) = 0 → nth f (n - 1) = 0 →
        (∃! v : List ℝ, v.length = b.lenSpec ∧ mulVec (matMul I S) v = mulVec (matMul I P) f) ∧
        ∀ v : List ℝ, v.length = b.lenSpec → mulVec (matMul I S) v = mulVec (matMul I P) f →
          Polynomial.derivative (Polynomial.derivative (chebPoly ℝ (mulVec S v))) = chebPoly ℝ f ∧
          PolyBC (some kind) (chebPoly ℝ (mulVec S v)) := by
  obtain ⟨S, P, I, hS, hP, r1, r2, ho, hn, hL⟩ := compo_setup o hm hb
  obtain ⟨S', P', I', hS', hP', hiff⟩ := C62_poisson o kind n hm b hb
  obtain rfl : S = S' := by rw [hS] at hS'; exact Res.ok.inj hS'
  obtain ⟨rfl, rfl⟩ : P = P' ∧ I = I' := by rw [hP] at hP'; exact Prod.mk.inj (Res.ok.inj hP')
  obtain ⟨S', hS', hbc1, hbc2⟩ := C17_boundary_conditions (K := ℝ) (T := ℝ) kind n b hb
  obtain rfl : S = S' := by rw [hS] at hS'; exact Res.ok.inj hS'
  obtain ⟨S', Q, hS', -, -, ⟨q1, q2⟩, hQ⟩ := C10_stencil_inv_left_inverse (K := ℝ) kind n b hb
  obtain rfl : S = S' := by rw [hS] at hS'; exact Res.ok.inj hS'
  have hw := Compo.wf_of_new hb
  have hmn : b.lenSpec = n - 2 := by
    have : b.lenSpec = b.m := rfl
    have := hw.m_eq
    rcases hk with rfl | rfl <;> exact this
  refine ⟨S, P, I, hS, hP, by show I.rows = _; rw [hL.irow, hmn], r2, fun f hf h1 h2 => ?_⟩
  have hsol : ∀ v : List ℝ, v.length = b.lenSpec → mulVec (matMul I S) v = mulVec (matMul I P) f →
      Polynomial.derivative (Polynomial.derivative (chebPoly ℝ (mulVec S v))) = chebPoly ℝ f ∧
        PolyBC (some kind) (chebPoly ℝ (mulVec S v)) := fun v hv e =>
    ⟨(hiff v f hv hf h1 h2).mpr e, (polyBC_iff kind _).mpr (hbc1 v)⟩
  refine ⟨?_, hsol⟩
  obtain ⟨m, rfl⟩ : ∃ m, n = m + 2 := ⟨n - 2, by omega⟩
  obtain ⟨F, hF, hF'⟩ := antideriv (chebPoly ℝ f) m (degree_of_top_zero (by rw [hf, ho]) h1 h2)
  obtain ⟨G, hG, hG'⟩ := antideriv F (m + 1) hF
  obtain ⟨c, d, hcd⟩ := bc_correct hk G
  have hdeg : (G + (Polynomial.C d + Polynomial.C c * Polynomial.X)).degree < ((m + 2 : ℕ) : WithBot ℕ) := by
    refine lt_of_le_of_lt (Polynomial.degree_add_le _ _) (max_lt hG ?_)
    refine lt_of_le_of_lt (Polynomial.degree_add_le _ _) (max_lt ?_ ?_)
    · exact lt_of_le_of_lt Polynomial.degree_C_le (by exact_mod_cast (by omega : 0 < m + 2))
    · refine lt_of_le_of_lt (Polynomial.degree_C_mul_X_le _) ?_
      exact_mod_cast (by omega : 1 < m + 2)
  obtain ⟨a, hal, ha⟩ := cheb_coeffs (n := m + 2) (by omega) _ hdeg
  obtain ⟨v, hv, hva⟩ := hbc2 a (by rw [hal, ho]) ((polyBC_iff kind a).mp (by rw [ha]; exact hcd))
  refine ⟨v, ⟨hv, (hiff v f hv hf h1 h2).mp ?_⟩, ?_⟩
  · rw [hva, ha]
    simp [hG', hF']
  · rintro v' ⟨hv', e'⟩
    have e := (hiff v f hv hf h1 h2).mp (by rw [hva, ha]; simp [hG', hF'])
    obtain ⟨s1, t1⟩ := hsol v hv e
    obtain ⟨s2, t2⟩ := hsol v' hv' e'
    have h0 : (chebPoly ℝ (mulVec S v') - chebPoly ℝ (mulVec S v)).derivative.derivative = 0 := by
      rw [Polynomial.derivative_sub, Polynomial.derivative_sub, s1, s2, sub_self]
    obtain ⟨c', d', hq⟩ := linear_of_deriv2 h0
    have hbc := polyBC_sub t2 t1
    rw [hq] at hbc
    obtain ⟨rfl, rfl⟩ := bc_linear hk hbc
    have hz : chebPoly ℝ (mulVec S v') = chebPoly ℝ (mulVec S v) := by
      rw [← sub_eq_zero, hq]; simp
    have hz' := chebPoly_ext (by simp) hz
    have hinv : ∀ u : List ℝ, u.length = b.lenSpec → mulVec Q (mulVec S u) = u := fun u hu => by
      rw [← mulVec_matMul Q S (by rw [q2, r1, ho])]
      exact mulVec_eye u b.lenSpec hu _ hQ.1 hQ.2.1 hQ.2.2
    rw [← hinv v hv, ← hinv v' hv', hz']

/-- C62: for `cheb_neumann` the system is singular (constants), and a solution exists exactly for
right hand sides with mean zero. -/
theorem C62_neumann (o : Mode) (n : ℕ) (hm : n ≤ 2642246) (b : Compo ℝ)
    (hb : Compo.new .neumann n = ok b) :
    ∃ S P I, b.stencilMat = ok S ∧ b.laplacianPinv o = ok (P, I) ∧
      (∃ v0 : List ℝ, v0.length = b.lenSpec ∧ chebPoly ℝ (mulVec S v0) = 1 ∧
        mulVec (matMul I S) v0 = List.replicate (n - 2) 0) ∧
      ∀ f : List ℝ, f.length = b.lenOrth → nth f (n - 2) = 0 → nth f (n - 1) = 0 →
        ((∃ v : List ℝ, v.length = b.lenSpec ∧ mulVec (matMul I S) v = mulVec (matMul I P) f) ↔
          ∫ x in (-1 : ℝ)..1, (chebPoly ℝ f).eval x = 0) := by
  obtain ⟨S, P, I, hS, hP, r1, r2, ho, hn, hL⟩ := compo_setup o hm hb
  obtain ⟨S', P', I', hS', hP', hiff⟩ := C62_poisson o .neumann n hm b hb
  obtain rfl : S = S' := by rw [hS] at hS'; exact Res.ok.inj hS'
  obtain ⟨rfl, rfl⟩ : P = P' ∧ I = I' := by rw [hP] at hP'; exact Prod.mk.inj (Res.ok.inj hP')
  obtain ⟨S', hS', hbc1, hbc2⟩ := C17_boundary_conditions (K := ℝ) (T := ℝ) .neumann n b hb
  obtain rfl : S = S' := by rw [hS] at hS'; exact Res.ok.inj hS'
  have hint : ∀ F : Polynomial ℝ, ∫ x in (-1 : ℝ)..1, F.derivative.eval x = F.eval 1 - F.eval (-1) := by
    intro F
    refine intervalIntegral.integral_eq_sub_of_hasDerivAt (fun x _ => F.hasDerivAt x) ?_
    exact (F.derivative.continuous).intervalIntegrable _ _
  refine ⟨S, P, I, hS, hP, ?_, fun f hf h1 h2 => ?_⟩
  · obtain ⟨a, hal, ha⟩ := cheb_coeffs (n := n) (by omega) 1 (by
      rw [Polynomial.degree_one]; exact_mod_cast (by omega : 0 < n))
    obtain ⟨v, hv, hva⟩ := hbc2 a (by rw [hal, ho]) ((polyBC_iff .neumann a).mp (by
      rw [ha]; simp [PolyBC]))
    refine ⟨v, hv, by rw [hva, ha], ?_⟩
    have hz : chebPoly ℝ (List.replicate n 0) = 0 := by
      unfold chebPoly
      refine Finset.sum_eq_zero (fun i hi => ?_)
      rw [show nth (List.replicate n (0 : ℝ)) i = 0 by
        unfold nth; rw [List.getD_eq_getElem?_getD, List.getElem?_replicate]; split <;> rfl]
      simp
    have h0 : ∀ i, nth (List.replicate n (0 : ℝ)) i = 0 := fun i => by
      unfold nth; rw [List.getD_eq_getElem?_getD, List.getElem?_replicate]; split <;> rfl
    rw [(hiff v (List.replicate n 0) hv (by simp [ho]) (h0 _) (h0 _)).mp (by
      rw [hva, ha, hz]; simp)]
    refine ext_nth (by simp [matMul, hL.irow]) (fun i hi => ?_)
    rw [nth_mulVec _ _ (by simpa [matMul] using hi)]
    rw [Finset.sum_eq_zero (fun j _ => by rw [h0, smul_zero])]
    unfold nth; rw [List.getD_eq_getElem?_getD, List.getElem?_replicate]; split <;> rfl
  · constructor
    · rintro ⟨v, hv, e⟩
      rw [← (hiff v f hv hf h1 h2).mpr e, hint]
      have := (polyBC_iff .neumann _).mpr (hbc1 v)
      simp only [PolyBC] at this
      rw [this.1, this.2, sub_self]
    · intro hi
      obtain ⟨m, rfl⟩ : ∃ m, n = m + 2 := ⟨n - 2, by omega⟩
      obtain ⟨F, hF, hF'⟩ := antideriv (chebPoly ℝ f) m (degree_of_top_zero (by rw [hf, ho]) h1 h2)
      have hdeg : (F - Polynomial.C (F.eval 1)).degree < ((m + 1 : ℕ) : WithBot ℕ) := by
        refine lt_of_le_of_lt (Polynomial.degree_sub_le _ _) (max_lt hF ?_)
        exact lt_of_le_of_lt Polynomial.degree_C_le (by exact_mod_cast (by omega : 0 < m + 1))
      obtain ⟨G, hG, hG'⟩ := antideriv (F - Polynomial.C (F.eval 1)) (m + 1) hdeg
      obtain ⟨a, hal, ha⟩ := cheb_coeffs (n := m + 2) (by omega) G hG
      have hF0 : F.eval 1 - F.eval (-1) = 0 := by rw [← hint, hF', hi]
      obtain ⟨v, hv, hva⟩ := hbc2 a (by rw [hal, ho]) ((polyBC_iff .neumann a).mp (by
        rw [ha]; simp only [PolyBC]; rw [hG']
        simp only [Polynomial.eval_sub, Polynomial.eval_C]
        exact ⟨sub_self _, by linarith⟩))
      refine ⟨v, hv, (hiff v f hv hf h1 h2).mp ?_⟩
      rw [hva, ha, hG']
      simp [hF']

/-- C62: the Helmholtz equation `u - c u'' = f`: its solutions satisfy the preconditioned system
`(A - c B) v = (I P) f` with `A = I P S`, `B = I S`, for all five bases. -/
theorem C62_helmholtz (o : Mode) (kind : CKind) (n : ℕ) (hm : n ≤ 2642246) (b : Compo ℝ)
    (hb : Compo.new kind n = ok b) :
    ∃ S P I, b.stencilMat = ok S ∧ b.laplacianPinv o = ok (P, I) ∧
      ∀ (c : ℝ) (v f : List ℝ), v.length = b.lenSpec → f.length = b.lenOrth →
        chebPoly ℝ (mulVec S v) - Polynomial.C c *
            Polynomial.derivative (Polynomial.derivative (chebPoly ℝ (mulVec S v))) = chebPoly ℝ f →
        ∀ i < n - 2, nth (mulVec (matMul (matMul I P) S) v) i - c * nth (mulVec (matMul I S) v) i
          = nth (mulVec (matMul I P) f) i := by
  obtain ⟨S, P, I, hS, hP, r1, r2, ho, hn, hL⟩ := compo_setup o hm hb
  refine ⟨S, P, I, hS, hP, fun c v f hv hf he i hi => ?_⟩
  set u := mulVec S v with hu
  have hul : u.length = n := by rw [hu, mulVec_length, r1]
  obtain ⟨g, hgl, hg⟩ := cheb_coeffs (n := n) (by omega) (chebPoly ℝ u).derivative.derivative (by
    have h1 := chebPoly_degree u
    rw [hul] at h1
    exact lt_of_le_of_lt (le_trans (Polynomial.degree_derivative_le) Polynomial.degree_derivative_le) h1)
  have hk := hL.key u g hul hgl hg
  have hfu : ∀ j < n, nth f j = nth u j - c * nth g j := by
    have : f = (List.range n).map (fun j => nth u j - c * nth g j) := by
      refine chebPoly_ext (by simp [hf, ho]) ?_
      rw [← he, ← hg]
      unfold chebPoly
      rw [hul, hgl, List.length_map, List.length_range, Finset.mul_sum, ← Finset.sum_sub_distrib]
      refine Finset.sum_congr rfl (fun j hj => ?_)
      rw [nth_map_range _ _ _ (mem_range.mp hj), Polynomial.C_sub, Polynomial.C_mul]
      ring
    intro j hj
    rw [this, nth_map_range _ _ _ hj]
  have hIS : mulVec (matMul I S) v = mulVec (matMul I P) g := by
    rw [mulVec_matMul I S (by rw [hL.icol, r1]), hL.drop _ hul, hk]
  rw [hIS, mulVec_matMul (matMul I P) S (by show P.cols = _; rw [hL.pcol, r1]), ← hu]
  have hr : (matMul I P).rows = n - 2 := hL.irow
  have hc : (matMul I P).cols = n := hL.pcol
  rw [nth_mulVec _ _ (by omega), nth_mulVec _ _ (by omega), nth_mulVec _ _ (by omega), hc,
    Finset.mul_sum, ← Finset.sum_sub_distrib]
  refine Finset.sum_congr rfl (fun j hj => ?_)
  rw [hfu j (mem_range.mp hj)]
  simp only [smul_eq_mul]
  ring

/-- `u = (1 - x²)`, `u'' = -2` with 8 points: the hypotheses are met -/
example : ∃ b : Compo ℝ, Compo.new .dirichlet 8 = ok b ∧ b.lenOrth = 8 ∧
    nth ([-2, 0, 0, 0, 0, 0, 0, 0] : List ℝ) (8 - 2) = 0 ∧
    nth ([-2, 0, 0, 0, 0, 0, 0, 0] : List ℝ) (8 - 1) = 0 := by
  obtain ⟨b, hb⟩ := newR2r_exists (some .dirichlet) 8 (by norm_num) (by rintro c ⟨⟩; decide)
  obtain ⟨c, hc, -⟩ := composite_inv hb
  refine ⟨c, hc, ?_, rfl, rfl⟩
  have hw := Compo.wf_of_new hc
  simp [Compo.lenOrth, Cheb.lenOrth, hw.ortho]

end Verif.Props
