/-
Property C102: the preconditioned Poisson and Helmholtz systems are Chebyshev tau equations: they
are uniquely solvable for every right hand side, exact on polynomials, stable and quasi-optimal.
-/
import Verif.Proof.TauMixed
import Verif.Props.Poisson

namespace Verif.Props
open Res Spec Finset Polynomial

/-- everything needed about one composite base -/
structure TauSetup (o : Mode) (kind : CKind) (n : ℕ) (b : Compo ℝ) (S P I : Mat ℝ) : Prop where
  hS : b.stencilMat = ok S
  hP : b.laplacianPinv o = ok (P, I)
  r1 : S.rows = n
  r2 : S.cols = b.lenSpec
  ho : b.lenOrth = n
  hn : 4 ≤ n
  irow : I.rows = n - 2
  icol : I.cols = n
  prow : P.rows = n
  pcol : P.cols = n
  cut : ∀ i < n, ∀ j < n, n - 2 ≤ j → P.get i j = 0
  bc : ∀ v : List ℝ, PolyBC (some kind) (chebPoly ℝ (mulVec S v))
  inj : ∀ v w : List ℝ, v.length = b.lenSpec → w.length = b.lenSpec → mulVec S v = mulVec S w → v = w
  tau : ∀ (β c : ℝ) (v f : List ℝ), v.length = b.lenSpec → f.length = b.lenOrth →
    (SolvesHelmholtz S P I β c f v ↔ ∃ τ₁ τ₂ : ℝ, C β * chebPoly ℝ (mulVec S v)
        - C c * derivative (derivative (chebPoly ℝ (mulVec S v)))
      = chebPoly ℝ f + C τ₁ * Chebyshev.T ℝ (n - 2 : ℕ) + C τ₂ * Chebyshev.T ℝ (n - 1 : ℕ))

theorem tauSetup (o : Mode) {kind : CKind} {n : ℕ} {b : Compo ℝ} (hm : n ≤ 2642246)
    (hb : Compo.new kind n = ok b) : ∃ S P I, TauSetup o kind n b S P I := by
  have hw := Compo.wf_of_new hb
  have hn : 4 ≤ n := le_trans (by cases kind <;> decide) hw.le
  obtain ⟨S, hS, r1, r2, -⟩ := wp_total.mp (Compo.wp_stencilMat hw)
  obtain ⟨P, I, hP, hL⟩ := lap2_of_new o hn hm
  have hcut := pinv_cut o hn hm hP
  have ho : b.lenOrth = n := by simp [Compo.lenOrth, Cheb.lenOrth, hw.ortho]
  have hPb : b.laplacianPinv o = ok (P, I) := by rw [← hP, ← hw.ortho]; rfl
  obtain ⟨S', hS', hbc1, -⟩ := C17_boundary_conditions (K := ℝ) (T := ℝ) kind n b hb
  obtain rfl : S = S' := by rw [hS] at hS'; exact Res.ok.inj hS'
  obtain ⟨S', Q, hS', -, -, ⟨q1, q2⟩, hQ⟩ := C10_stencil_inv_left_inverse (K := ℝ) kind n b hb
  obtain rfl : S = S' := by rw [hS] at hS'; exact Res.ok.inj hS'
  have hinv : ∀ u : List ℝ, u.length = b.lenSpec → mulVec Q (mulVec S u) = u := fun u hu => by
    rw [← mulVec_matMul Q S (by rw [q2, r1, ho])]
    exact mulVec_eye u b.lenSpec hu _ hQ.1 hQ.2.1 hQ.2.2
  refine ⟨S, P, I, hS, hPb, r1, r2, ho, hn, hL.irow, hL.icol, hL.prow, hL.pcol, hcut, fun v => (polyBC_iff kind _).mpr (hbc1 v),
    fun v w hv hw e => by rw [← hinv v hv, ← hinv w hw, e], fun β c v f hv hf => ?_⟩
  rw [← hL.tau hn hcut β c (u := mulVec S v) (f := f) (by rw [mulVec_length, r1]) (by rw [hf, ho])]
  unfold SolvesHelmholtz
  rw [hL.irow, mulVec_matMul (matMul I P) S (by show P.cols = _; rw [hL.pcol, r1]),
    mulVec_matMul I S (by rw [hL.icol, r1]), hL.drop _ (by rw [mulVec_length, r1])]

/-- C102: for every base with boundary conditions, `v` solves the preconditioned system
`(β A - c B) v = I P f` if and only if `u = S v` satisfies `β u - c u'' = f` up to a combination of
the two highest Chebyshev polynomials of the orthogonal base. -/
theorem C102_tau (o : Mode) (kind : CKind) (n : ℕ) (hm : n ≤ 2642246) (b : Compo ℝ)
    (hb : Compo.new kind n = ok b) :
    ∃ S P I, b.stencilMat = ok S ∧ b.laplacianPinv o = ok (P, I) ∧ I.rows = n - 2 ∧
      ∀ (β c : ℝ) (v f : List ℝ), v.length = b.lenSpec → f.length = b.lenOrth →
        (SolvesHelmholtz S P I β c f v ↔ ∃ τ₁ τ₂ : ℝ, C β * chebPoly ℝ (mulVec S v)
            - C c * derivative (derivative (chebPoly ℝ (mulVec S v)))
          = chebPoly ℝ f + C τ₁ * Chebyshev.T ℝ (n - 2 : ℕ) + C τ₂ * Chebyshev.T ℝ (n - 1 : ℕ)) := by
  obtain ⟨S, P, I, h⟩ := tauSetup o hm hb
  exact ⟨S, P, I, h.hS, h.hP, h.irow, h.tau⟩

private theorem nth_rep (m i : ℕ) : nth (List.replicate m (0 : ℝ)) i = 0 := by
  unfold nth; rw [List.getD_eq_getElem?_getD, List.getElem?_replicate]; split <;> rfl

private theorem poly_rep (m : ℕ) : chebPoly ℝ (List.replicate m 0) = 0 := by
  unfold chebPoly
  exact Finset.sum_eq_zero (fun i _ => by rw [nth_rep]; simp)

private theorem nth_out {l : List ℝ} {i : ℕ} (h : l.length ≤ i) : nth l i = 0 := by
  unfold nth; rw [List.getD_eq_getElem?_getD, List.getElem?_eq_none h]; rfl

private theorem mulVec_rep (M : Mat ℝ) (m i : ℕ) : nth (mulVec M (List.replicate m (0 : ℝ))) i = 0 := by
  by_cases hi : i < M.rows
  · rw [nth_mulVec _ _ hi]
    exact Finset.sum_eq_zero (fun j _ => by rw [nth_rep, smul_zero])
  · exact nth_out (by simpa using hi)

private theorem mulVec_sub (M : Mat ℝ) {v w : List ℝ} {m : ℕ} (hv : v.length = m) (hw : w.length = m)
    (hM : M.cols = m) (i : ℕ) : nth (mulVec M ((List.range m).map (fun j => nth v j - nth w j))) i
      = nth (mulVec M v) i - nth (mulVec M w) i := by
  by_cases hi : i < M.rows
  · rw [nth_mulVec _ _ hi, nth_mulVec _ _ hi, nth_mulVec _ _ hi, ← Finset.sum_sub_distrib, hM]
    refine Finset.sum_congr rfl (fun j hj => ?_)
    rw [nth_map_range _ _ _ (Finset.mem_range.mp hj), smul_sub]
  · rw [nth_out (by simpa using hi), nth_out (by simpa using hi), nth_out (by simpa using hi), sub_zero]

private theorem poly_mulVec_sub (M : Mat ℝ) {v w : List ℝ} {m : ℕ} (hv : v.length = m) (hw : w.length = m)
    (hM : M.cols = m) : chebPoly ℝ (mulVec M ((List.range m).map (fun j => nth v j - nth w j)))
      = chebPoly ℝ (mulVec M v) - chebPoly ℝ (mulVec M w) := by
  unfold chebPoly
  simp only [mulVec_length]
  rw [← Finset.sum_sub_distrib]
  refine Finset.sum_congr rfl (fun i _ => ?_)
  rw [mulVec_sub M hv hw hM, C_sub, sub_mul]

private theorem diff_zero {v w : List ℝ} {m : ℕ} (hv : v.length = m) (hw : w.length = m)
    (h : (List.range m).map (fun j => nth v j - nth w j) = List.replicate m 0) : v = w := by
  refine ext_nth (by rw [hv, hw]) (fun i hi => ?_)
  have := congrArg (fun l => nth l i) h
  rw [nth_map_range _ _ _ (by omega), nth_rep] at this
  linarith

/-- uniqueness of the homogeneous problem gives unique solvability -/
private theorem TauSetup.unique {o : Mode} {kind : CKind} {n : ℕ} {b : Compo ℝ} {S P I : Mat ℝ}
    (h : TauSetup o kind n b S P I) (hspec : b.lenSpec = n - 2) {β c : ℝ}
    (h0 : ∀ (u : ℝ[X]) (τ₁ τ₂ : ℝ), u.degree < n → PolyBC (some kind) u →
      C β * u - C c * derivative (derivative u)
        = 0 + C τ₁ * Chebyshev.T ℝ (n - 2 : ℕ) + C τ₂ * Chebyshev.T ℝ (n - 1 : ℕ) → u = 0)
    (f : List ℝ) (hf : f.length = b.lenOrth) :
    ∃! v : List ℝ, v.length = b.lenSpec ∧ SolvesHelmholtz S P I β c f v := by
  have hz : ∀ v : List ℝ, v.length = b.lenSpec →
      SolvesHelmholtz S P I β c (List.replicate b.lenOrth 0) v → v = List.replicate b.lenSpec 0 := by
    intro v hv hs
    obtain ⟨τ₁, τ₂, e⟩ := (h.tau β c v _ hv (by simp)).mp hs
    rw [poly_rep] at e
    have hdeg := chebPoly_degree (mulVec S v)
    rw [mulVec_length, h.r1] at hdeg
    have e0 := h0 _ τ₁ τ₂ hdeg (h.bc v) e
    refine h.inj _ _ hv (by simp) (chebPoly_ext (by simp) ?_)
    rw [e0]
    unfold chebPoly
    exact (Finset.sum_eq_zero (fun i _ => by rw [mulVec_rep]; simp)).symm
  have hrow : ∀ v : List ℝ, ∀ i < n - 2, β * nth (mulVec (matMul (matMul I P) S) v) i
        - c * nth (mulVec (matMul I S) v) i
      = ∑ j ∈ range b.lenSpec, (β * (matMul (matMul I P) S).get i j - c * (matMul I S).get i j) * nth v j := by
    intro v i hi
    rw [nth_mulVec _ _ (by show i < I.rows; rw [h.irow]; exact hi),
      nth_mulVec _ _ (by show i < I.rows; rw [h.irow]; exact hi)]
    show β * ∑ j ∈ range S.cols, _ - c * ∑ j ∈ range S.cols, _ = _
    rw [h.r2, Finset.mul_sum, Finset.mul_sum, ← Finset.sum_sub_distrib]
    exact Finset.sum_congr rfl (fun j _ => by simp only [smul_eq_mul]; ring)
  obtain ⟨v, hv, hvs⟩ := square_solvable (m := b.lenSpec)
    (fun i j => β * (matMul (matMul I P) S).get i j - c * (matMul I S).get i j)
    (fun x hx hx0 => hz x hx (fun i hi => by
      rw [h.irow] at hi
      rw [hrow x i hi, mulVec_rep, hx0 i (by rw [hspec]; exact hi)]))
    (fun i => nth (mulVec (matMul I P) f) i)
  refine ⟨v, ⟨hv, fun i hi => ?_⟩, ?_⟩
  · rw [h.irow] at hi
    rw [hrow v i hi, hvs i (by rw [hspec]; exact hi)]
  · rintro w ⟨hw, hws⟩
    refine diff_zero hw hv (hz _ (by simp) (fun i hi => ?_))
    rw [h.irow] at hi
    have e1 := hws i (by rw [h.irow]; exact hi)
    rw [mulVec_sub _ hw hv (by exact h.r2), mulVec_sub _ hw hv (by exact h.r2), mulVec_rep]
    have e2 := hvs i (by rw [hspec]; exact hi)
    have e3 := hrow v i hi
    linarith

private theorem spec_len {kind : CKind} {n : ℕ} {b : Compo ℝ}
    (hk : kind = .dirichlet ∨ kind = .neumann ∨ kind = .dirichletNeumann)
    (hb : Compo.new kind n = ok b) : b.lenSpec = n - 2 := by
  have hw := Compo.wf_of_new hb
  have : b.lenSpec = b.m := rfl
  have := hw.m_eq
  rcases hk with rfl | rfl | rfl <;> exact this

/-- C102: for `cheb_dirichlet` the system is square and has, for every right hand side, exactly one
solution, for all `β, c ≥ 0` that are not both zero (Poisson: `β = 0`). Its function vanishes at
both ends. -/
theorem C102_dirichlet (o : Mode) (n : ℕ) (hm : n ≤ 2642246) (b : Compo ℝ)
    (hb : Compo.new .dirichlet n = ok b) (β c : ℝ) (hβ : 0 ≤ β) (hc : 0 ≤ c) (hβc : 0 < β + c) :
    ∃ S P I, b.stencilMat = ok S ∧ b.laplacianPinv o = ok (P, I) ∧ I.rows = b.lenSpec ∧
      ∀ f : List ℝ, f.length = b.lenOrth →
        (∃! v : List ℝ, v.length = b.lenSpec ∧ SolvesHelmholtz S P I β c f v) ∧
        ∀ v : List ℝ, (chebPoly ℝ (mulVec S v)).eval 1 = 0 ∧ (chebPoly ℝ (mulVec S v)).eval (-1) = 0 := by
  obtain ⟨S, P, I, h⟩ := tauSetup o hm hb
  have hsp := spec_len (Or.inl rfl) hb
  refine ⟨S, P, I, h.hS, h.hP, by rw [h.irow, hsp], fun f hf => ⟨h.unique hsp
    (fun u τ₁ τ₂ hu hbc he => tau_dirichlet_zero h.hn hβ hc hβc hu hbc.1 hbc.2 he) f hf, h.bc⟩⟩

/-- C102: for `cheb_neumann` the same holds for `β > 0` and `c ≥ 0` (for `β = 0` the constants are
in the kernel, C62). The derivative of its function vanishes at both ends. -/
theorem C102_neumann (o : Mode) (n : ℕ) (hm : n ≤ 2642246) (b : Compo ℝ)
    (hb : Compo.new .neumann n = ok b) (β c : ℝ) (hβ : 0 < β) (hc : 0 ≤ c) :
    ∃ S P I, b.stencilMat = ok S ∧ b.laplacianPinv o = ok (P, I) ∧ I.rows = b.lenSpec ∧
      ∀ f : List ℝ, f.length = b.lenOrth →
        (∃! v : List ℝ, v.length = b.lenSpec ∧ SolvesHelmholtz S P I β c f v) ∧
        ∀ v : List ℝ, (derivative (chebPoly ℝ (mulVec S v))).eval 1 = 0 ∧
          (derivative (chebPoly ℝ (mulVec S v))).eval (-1) = 0 := by
  obtain ⟨S, P, I, h⟩ := tauSetup o hm hb
  have hsp := spec_len (Or.inr (Or.inl rfl)) hb
  refine ⟨S, P, I, h.hS, h.hP, by rw [h.irow, hsp], fun f hf => ⟨h.unique hsp
    (fun u τ₁ τ₂ hu hbc he => tau_neumann_zero h.hn hβ hc hu hbc.1 hbc.2 he) f hf, h.bc⟩⟩

/-- C102: for `cheb_dirichlet_neumann` the same holds for all `β, c ≥ 0` that are not both zero. Its
function vanishes at the left end and its derivative at the right end. -/
theorem C102_mixed (o : Mode) (n : ℕ) (hm : n ≤ 2642246) (b : Compo ℝ)
    (hb : Compo.new .dirichletNeumann n = ok b) (β c : ℝ) (hβ : 0 ≤ β) (hc : 0 ≤ c) (hβc : 0 < β + c) :
    ∃ S P I, b.stencilMat = ok S ∧ b.laplacianPinv o = ok (P, I) ∧ I.rows = b.lenSpec ∧
      ∀ f : List ℝ, f.length = b.lenOrth →
        (∃! v : List ℝ, v.length = b.lenSpec ∧ SolvesHelmholtz S P I β c f v) ∧
        ∀ v : List ℝ, (chebPoly ℝ (mulVec S v)).eval (-1) = 0 ∧
          (derivative (chebPoly ℝ (mulVec S v))).eval 1 = 0 := by
  obtain ⟨S, P, I, h⟩ := tauSetup o hm hb
  have hsp := spec_len (Or.inr (Or.inr rfl)) hb
  refine ⟨S, P, I, h.hS, h.hP, by rw [h.irow, hsp], fun f hf => ⟨h.unique hsp
    (fun u τ₁ τ₂ hu hbc he => tau_mixed_zero h.hn hβ hc hβc hu hbc.1 hbc.2 he) f hf, h.bc⟩⟩

/-- C102: exactness. If a function of the base satisfies `β u - c u'' = f`, the system returns its
coefficients and nothing else. -/
theorem C102_exact (o : Mode) (kind : CKind) (n : ℕ) (hm : n ≤ 2642246) (b : Compo ℝ)
    (hb : Compo.new kind n = ok b) (β c : ℝ)
    (hk : ((kind = .dirichlet ∨ kind = .dirichletNeumann) ∧ 0 ≤ β ∧ 0 < β + c) ∨
      (kind = .neumann ∧ 0 < β)) (hc : 0 ≤ c) :
    ∃ S P I, b.stencilMat = ok S ∧ b.laplacianPinv o = ok (P, I) ∧
      ∀ v w f : List ℝ, v.length = b.lenSpec → w.length = b.lenSpec → f.length = b.lenOrth →
        C β * chebPoly ℝ (mulVec S w) - C c * derivative (derivative (chebPoly ℝ (mulVec S w)))
          = chebPoly ℝ f → (SolvesHelmholtz S P I β c f v ↔ v = w) := by
  obtain ⟨S, P, I, h⟩ := tauSetup o hm hb
  refine ⟨S, P, I, h.hS, h.hP, fun v w f hv hw hf he => ?_⟩
  have hws : SolvesHelmholtz S P I β c f w := (h.tau β c w f hw hf).mpr ⟨0, 0, by rw [he]; simp⟩
  refine ⟨fun hs => ?_, fun e => e ▸ hws⟩
  have hu : ∃! v : List ℝ, v.length = b.lenSpec ∧ SolvesHelmholtz S P I β c f v := by
    rcases hk with ⟨rfl | rfl, hβ, hβc⟩ | ⟨rfl, hβ⟩
    · exact h.unique (spec_len (Or.inl rfl) hb)
        (fun u τ₁ τ₂ hu hbc he => tau_dirichlet_zero h.hn hβ hc hβc hu hbc.1 hbc.2 he) f hf
    · exact h.unique (spec_len (Or.inr (Or.inr rfl)) hb)
        (fun u τ₁ τ₂ hu hbc he => tau_mixed_zero h.hn hβ hc hβc hu hbc.1 hbc.2 he) f hf
    · exact h.unique (spec_len (Or.inr (Or.inl rfl)) hb)
        (fun u τ₁ τ₂ hu hbc he => tau_neumann_zero h.hn hβ hc hu hbc.1 hbc.2 he) f hf
  exact hu.unique ⟨hv, hs⟩ ⟨hw, hws⟩

private theorem TauSetup.diff {o : Mode} {kind : CKind} {n : ℕ} {b : Compo ℝ} {S P I : Mat ℝ}
    (h : TauSetup o kind n b S P I) {β c : ℝ} {v w f : List ℝ} (hv : v.length = b.lenSpec)
    (hw : w.length = b.lenSpec) (hf : f.length = b.lenOrth) (hs : SolvesHelmholtz S P I β c f v) :
    ∃ τ₁ τ₂ : ℝ, C β * (chebPoly ℝ (mulVec S v) - chebPoly ℝ (mulVec S w))
        - C c * derivative (derivative (chebPoly ℝ (mulVec S v) - chebPoly ℝ (mulVec S w)))
      = (chebPoly ℝ f - (C β * chebPoly ℝ (mulVec S w)
          - C c * derivative (derivative (chebPoly ℝ (mulVec S w)))))
        + C τ₁ * Chebyshev.T ℝ (n - 2 : ℕ) + C τ₂ * Chebyshev.T ℝ (n - 1 : ℕ) := by
  obtain ⟨τ₁, τ₂, e⟩ := (h.tau β c v f hv hf).mp hs
  refine ⟨τ₁, τ₂, ?_⟩
  simp only [derivative_sub]
  linear_combination e

/-- C102: stability and quasi-optimality in the weighted norm, with constants that do not depend on
`n`: if `u = S v` solves the `cheb_dirichlet` system and `z = S w` is any other function of the base,
then `c ‖u'' - z''‖ ≤ ‖f - (β z - c z'')‖` (`w = 0`: `c ‖u''‖ ≤ ‖f‖`). -/
theorem C102_quasi_optimal (o : Mode) (n : ℕ) (hm : n ≤ 2642246) (b : Compo ℝ)
    (hb : Compo.new .dirichlet n = ok b) (β c : ℝ) (hβ : 0 ≤ β) (hc : 0 ≤ c) :
    ∃ S P I, b.stencilMat = ok S ∧ b.laplacianPinv o = ok (P, I) ∧
      ∀ v w f : List ℝ, v.length = b.lenSpec → w.length = b.lenSpec → f.length = b.lenOrth →
        SolvesHelmholtz S P I β c f v →
        c ^ 2 * wInt ((derivative (derivative (chebPoly ℝ (mulVec S v)))
            - derivative (derivative (chebPoly ℝ (mulVec S w)))) ^ 2)
          ≤ wInt ((chebPoly ℝ f - (C β * chebPoly ℝ (mulVec S w)
              - C c * derivative (derivative (chebPoly ℝ (mulVec S w))))) ^ 2) := by
  obtain ⟨S, P, I, h⟩ := tauSetup o hm hb
  refine ⟨S, P, I, h.hS, h.hP, fun v w f hv hw hf hs => ?_⟩
  obtain ⟨τ₁, τ₂, e⟩ := h.diff hv hw hf hs
  have b1 : (chebPoly ℝ (mulVec S v)).eval 1 = 0 ∧ (chebPoly ℝ (mulVec S v)).eval (-1) = 0 := h.bc v
  have b2 : (chebPoly ℝ (mulVec S w)).eval 1 = 0 ∧ (chebPoly ℝ (mulVec S w)).eval (-1) = 0 := h.bc w
  have hdeg : (chebPoly ℝ (mulVec S v) - chebPoly ℝ (mulVec S w)).degree < n := by
    have h1 := chebPoly_degree (mulVec S v)
    have h2 := chebPoly_degree (mulVec S w)
    rw [mulVec_length, h.r1] at h1 h2
    exact lt_of_le_of_lt (degree_sub_le _ _) (max_lt h1 h2)
  have := tau_dirichlet_stable h.hn hβ hc hdeg (by rw [eval_sub, b1.1, b2.1, sub_self])
    (by rw [eval_sub, b1.2, b2.2, sub_self]) e
  simpa only [derivative_sub] using this

/-- C102: the pointwise form. The solution of the `cheb_dirichlet` system differs from any function
`z = S w` of the base, everywhere on `[-1, 1]`, by at most `π / √8 / c` times the largest residual of
`z` (`w = 0`: `c |u| ≤ π / √8 max |f|`). -/
theorem C102_stable (o : Mode) (n : ℕ) (hm : n ≤ 2642246) (b : Compo ℝ)
    (hb : Compo.new .dirichlet n = ok b) (β c : ℝ) (hβ : 0 ≤ β) (hc : 0 ≤ c) :
    ∃ S P I, b.stencilMat = ok S ∧ b.laplacianPinv o = ok (P, I) ∧
      ∀ v w f : List ℝ, v.length = b.lenSpec → w.length = b.lenSpec → f.length = b.lenOrth →
        SolvesHelmholtz S P I β c f v →
        ∀ M : ℝ, (∀ x, -1 ≤ x → x ≤ 1 → |(chebPoly ℝ f).eval x - (β * (chebPoly ℝ (mulVec S w)).eval x
            - c * (derivative (derivative (chebPoly ℝ (mulVec S w)))).eval x)| ≤ M) →
          ∀ x, -1 ≤ x → x ≤ 1 →
            c * |(chebPoly ℝ (mulVec S v)).eval x - (chebPoly ℝ (mulVec S w)).eval x|
              ≤ Real.pi / √8 * M := by
  obtain ⟨S, P, I, hS, hP, hq⟩ := C102_quasi_optimal o n hm b hb β c hβ hc
  obtain ⟨S', P', I', h⟩ := tauSetup o hm hb
  obtain rfl : S = S' := Res.ok.inj (hS.symm.trans h.hS)
  refine ⟨S, P, I, hS, hP, fun v w f hv hw hf hs M hM x hx1 hx2 => ?_⟩
  have hst := hq v w f hv hw hf hs
  have b1 : (chebPoly ℝ (mulVec S v)).eval 1 = 0 ∧ (chebPoly ℝ (mulVec S v)).eval (-1) = 0 := h.bc v
  have b2 : (chebPoly ℝ (mulVec S w)).eval 1 = 0 ∧ (chebPoly ℝ (mulVec S w)).eval (-1) = 0 := h.bc w
  have hsup := dirichlet_sup (u := chebPoly ℝ (mulVec S v) - chebPoly ℝ (mulVec S w)) (y := x)
    (by rw [eval_sub, b1.1, b2.1, sub_self]) (by rw [eval_sub, b1.2, b2.2, sub_self]) hx1 hx2
  simp only [derivative_sub] at hsup
  have hres := wInt_sq_le (f := chebPoly ℝ f - (C β * chebPoly ℝ (mulVec S w)
      - C c * derivative (derivative (chebPoly ℝ (mulVec S w))))) (M := M) (fun y h1 h2 => by
    have := hM y h1 h2
    simpa only [eval_sub, eval_mul, eval_C] using this)
  rw [eval_sub] at hsup
  set d := (chebPoly ℝ (mulVec S v)).eval x - (chebPoly ℝ (mulVec S w)).eval x
  have hM0 : 0 ≤ M := (abs_nonneg _).trans (hM 0 (by norm_num) (by norm_num))
  have hpi := Real.pi_pos
  have h1 : 8 * (c * |d|) ^ 2 ≤ (Real.pi * M) ^ 2 := by
    rw [mul_pow, sq_abs]
    have e1 := mul_le_mul_of_nonneg_left hsup (sq_nonneg c)
    have e2 := mul_le_mul_of_nonneg_left (hst.trans hres) hpi.le
    nlinarith
  have h2 : √8 * (c * |d|) ≤ Real.pi * M := by
    refine abs_le_of_sq_le_sq' ?_ (by positivity) |>.2
    rw [mul_pow, Real.sq_sqrt (by norm_num)]
    exact h1
  rw [div_mul_eq_mul_div, le_div_iff₀ (by positivity)]
  linarith

/-- C102: error against the solution of the differential equation. `Y` is any function, `Y2` its
second derivative, with `β Y - c Y2 = F`. If some function of the base approximates `Y` to `ε₁` and
`Y2` to `ε₂` and the right hand side of the system approximates `F` to `ε₀`, the solution of the
system approximates `Y` to `ε₁ + π / √8 (ε₀ + β ε₁ + c ε₂) / c`. -/
theorem C102_error (o : Mode) (n : ℕ) (hm : n ≤ 2642246) (b : Compo ℝ)
    (hb : Compo.new .dirichlet n = ok b) (β c : ℝ) (hβ : 0 ≤ β) (hc : 0 < c) :
    ∃ S P I, b.stencilMat = ok S ∧ b.laplacianPinv o = ok (P, I) ∧
      ∀ v w f : List ℝ, v.length = b.lenSpec → w.length = b.lenSpec → f.length = b.lenOrth →
        SolvesHelmholtz S P I β c f v →
        ∀ (Y Y2 F : ℝ → ℝ) (ε₀ ε₁ ε₂ : ℝ), (∀ x, -1 ≤ x → x ≤ 1 → β * Y x - c * Y2 x = F x ∧
            |(chebPoly ℝ f).eval x - F x| ≤ ε₀ ∧ |(chebPoly ℝ (mulVec S w)).eval x - Y x| ≤ ε₁ ∧
            |(derivative (derivative (chebPoly ℝ (mulVec S w)))).eval x - Y2 x| ≤ ε₂) →
          ∀ x, -1 ≤ x → x ≤ 1 → |(chebPoly ℝ (mulVec S v)).eval x - Y x|
            ≤ ε₁ + Real.pi / √8 * (ε₀ + β * ε₁ + c * ε₂) / c := by
  obtain ⟨S, P, I, hS, hP, hq⟩ := C102_stable o n hm b hb β c hβ hc.le
  refine ⟨S, P, I, hS, hP, fun v w f hv hw hf hs Y Y2 F ε₀ ε₁ ε₂ hY x hx1 hx2 => ?_⟩
  have h1 := hq v w f hv hw hf hs (ε₀ + β * ε₁ + c * ε₂) (fun y h1 h2 => by
    obtain ⟨e, a0, a1, a2⟩ := hY y h1 h2
    set p := (chebPoly ℝ f).eval y
    set z := (chebPoly ℝ (mulVec S w)).eval y
    set z2 := (derivative (derivative (chebPoly ℝ (mulVec S w)))).eval y
    have : p - (β * z - c * z2) = (p - F y) + (-(β * (z - Y y)) + c * (z2 - Y2 y)) := by
      rw [← e]; ring
    rw [this]
    refine (abs_add_le _ _).trans ?_
    have t1 := abs_add_le (-(β * (z - Y y))) (c * (z2 - Y2 y))
    rw [abs_neg, abs_mul, abs_mul, abs_of_nonneg hβ, abs_of_pos hc] at t1
    have t2 := mul_le_mul_of_nonneg_left a1 hβ
    have t3 := mul_le_mul_of_nonneg_left a2 hc.le
    linarith) x hx1 hx2
  have h2 : |(chebPoly ℝ (mulVec S v)).eval x - (chebPoly ℝ (mulVec S w)).eval x|
      ≤ Real.pi / √8 * (ε₀ + β * ε₁ + c * ε₂) / c := by
    rw [le_div_iff₀ hc]; linarith
  obtain ⟨-, -, a1, -⟩ := hY x hx1 hx2
  have := abs_sub_le ((chebPoly ℝ (mulVec S v)).eval x) ((chebPoly ℝ (mulVec S w)).eval x) (Y x)
  linarith

/-- the hypotheses are satisfiable: `cheb_dirichlet(8)` exists, and so does the solution of
`u - u'' / 2 = T_3 + T_7` in it. -/
example : ∃ (b : Compo ℝ) (S P I : Mat ℝ) (v : List ℝ), Compo.new .dirichlet 8 = ok b ∧
    b.stencilMat = ok S ∧ b.laplacianPinv .release = ok (P, I) ∧ v.length = 6 ∧
    SolvesHelmholtz S P I 1 (1 / 2) [0, 0, 0, 1, 0, 0, 0, 1] v := by
  obtain ⟨b, hb⟩ : ∃ b : Compo ℝ, Compo.new .dirichlet 8 = ok b := ⟨_, rfl⟩
  obtain ⟨S, P, I, hS, hP, hI, h⟩ := C102_dirichlet .release 8 (by norm_num) b hb 1 (1 / 2) (by norm_num)
    (by norm_num) (by norm_num)
  have hw := Compo.wf_of_new hb
  have ho : b.lenOrth = 8 := by simp [Compo.lenOrth, Cheb.lenOrth, hw.ortho]
  obtain ⟨⟨v, ⟨hv, hs⟩, -⟩, -⟩ := h [0, 0, 0, 1, 0, 0, 0, 1] (by rw [ho]; rfl)
  exact ⟨b, S, P, I, v, hb, hS, hP, by rw [hv, spec_len (Or.inl rfl) hb], hs⟩

end Verif.Props
