/-
Property theorems for the composite Chebyshev bases: C10-C17, C19.
`K` is any ordered field (exact arithmetic in place of `f64`), `T` any vector space over it
(real or complex data).
-/
import Verif.Proof.Compo
import Verif.Proof.BC
import Verif.Spec.Mat
import Verif.Spec.Cheb
import Mathlib.Analysis.InnerProductSpace.Basic
import Mathlib.Algebra.Order.Ring.Rat
import Mathlib.Algebra.Field.Rat

namespace Verif.Props
open Res Spec Finset
variable {K T : Type} [Field K] [LinearOrder K] [IsStrictOrderedRing K] [AddCommGroup T]
  [Module K T]

section Aux
variable {b : Compo K} {k : CKind} {n : ℕ}

private theorem mulVec_congr {S : Mat K} {m n : ℕ} (h1 : S.rows = n) (h2 : S.cols = m)
    (h3 : ∀ i j, j < m → S.get i j = k.mat K i j) (v : List T) {i : ℕ} (hi : i < n) :
    nth (mulVec S v) i = ∑ j ∈ range m, k.mat K i j • nth v j := by
  rw [nth_mulVec _ _ (by omega), h2]
  exact Finset.sum_congr rfl (fun j hj => by rw [h3 i j (mem_range.mp hj)])

private theorem stencil_ok (hb : Compo.new k n = ok b) : ∃ S, b.stencilMat = ok S ∧ S.rows = n ∧
    S.cols = b.m ∧ ∀ i j, j < b.m → S.get i j = k.mat K i j :=
  wp_total.mp (Compo.wp_stencilMat (Compo.wf_of_new hb))

end Aux

/-- C10: for every composite base that can be constructed, `stencil_inv() · stencil()` is the
identity. -/
theorem C10_stencil_inv_left_inverse (k : CKind) (n : ℕ) (b : Compo K)
    (hb : Compo.new k n = ok b) :
    ∃ S P, b.stencilMat = ok S ∧ b.stencilInv = ok P ∧
      (S.rows = b.lenOrth ∧ S.cols = b.lenSpec) ∧ (P.rows = b.lenSpec ∧ P.cols = b.lenOrth) ∧
      IsIdentity b.lenSpec (matMul P S) := by
  have hw := Compo.wf_of_new hb
  obtain ⟨S, hS, h1, h2, h3⟩ := stencil_ok hb
  obtain ⟨P, hP, p1, p2, p3⟩ := wp_total.mp (Compo.wp_stencilInv hw)
  have ho : b.lenOrth = n := by simp [Compo.lenOrth, Cheb.lenOrth, hw.ortho]
  refine ⟨S, P, hS, hP, ⟨by rw [h1, ho], h2⟩, ⟨p1, by rw [p2, ho]⟩, p1, h2, fun i hi j hj => ?_⟩
  rw [← p3 i hi j hj]
  simp only [matMul]
  rw [p2]
  exact Finset.sum_congr rfl (fun r _ => by rw [h3 r j hj])

/-- C11: for the Dirichlet, Neumann and Dirichlet-Neumann bases `to_ortho(v)` returns
`stencil() · v`, whatever the previous content of the output, without panic or out-of-bounds
access. -/
theorem C11_to_ortho_is_stencil (k : CKind)
    (hk : k = .dirichlet ∨ k = .neumann ∨ k = .dirichletNeumann) (n : ℕ) (b : Compo K)
    (hb : Compo.new k n = ok b) (v out : List T) (hv : v.length = b.lenSpec)
    (ho : out.length = b.lenOrth) :
    ∃ S, b.stencilMat = ok S ∧ b.toOrthoSlice v out = ok (mulVec S v) := by
  have hw := Compo.wf_of_new hb
  obtain ⟨S, hS, h1, h2, h3⟩ := stencil_ok hb
  refine ⟨S, hS, ?_⟩
  have hk2 : k.nbc = 2 := by rcases hk with rfl | rfl | rfl <;> rfl
  have ho' : out.length = n := by simpa [Compo.lenOrth, Cheb.lenOrth, hw.ortho] using ho
  obtain ⟨x, hx, hl, hxi⟩ := wp_total.mp (Compo.wp_toOrtho hw hk2 v out hv ho')
  rw [hx]
  congr 1
  refine ext_nth (by simp [hl, h1]) (fun i hi => ?_)
  rw [hxi i (by omega), mulVec_congr h1 h2 h3 v (by omega)]

/-- C12 is false of the code: for both biharmonic bases and every size, `to_ortho` reads out of
bounds (`get_unchecked`, undefined behaviour) on every correctly sized input. -/
theorem C12_biharmonic_to_ortho_out_of_bounds (k : CKind)
    (hk : k = .biharmonicA ∨ k = .biharmonicB) (n : ℕ) (b : Compo K)
    (hb : Compo.new k n = ok b) (v out : List T) (hv : v.length = b.lenSpec)
    (ho : out.length = b.lenOrth) : b.toOrthoSlice v out = err .ub := by
  have hw := Compo.wf_of_new hb
  have hk2 : k.nbc = 4 := by rcases hk with rfl | rfl <;> rfl
  have ho' : out.length = n := by simpa [Compo.lenOrth, Cheb.lenOrth, hw.ortho] using ho
  exact Compo.toOrtho_ub hw hk2 v out hv ho'

/-- C12, the part that holds: before the out-of-bounds reads (helpers.rs:401-406) the first
`n - 3` rows have been computed as rows of `stencil() · v`.  Missing: the last three rows. -/
theorem C12_biharmonic_head_rows_partial (k : CKind) (n : ℕ) (b : Compo K)
    (hb : Compo.new k n = ok b) (s : Stencil4 K)
    (hs : b.stencil = .biharmonicA s ∨ b.stencil = .biharmonicB s) (v out : List T)
    (hv : v.length = b.lenSpec) (ho : out.length = b.lenOrth) :
    ∃ S x, b.stencilMat = ok S ∧ s.dotHead v out = ok x ∧ x.length = b.lenOrth ∧
      ∀ i < b.lenOrth - 3, nth x i = nth (mulVec S v) i := by
  have hw := Compo.wf_of_new hb
  obtain ⟨S, hS, h1, h2, h3⟩ := stencil_ok hb
  have ho2 : b.lenOrth = n := by simp [Compo.lenOrth, Cheb.lenOrth, hw.ortho]
  rw [ho2] at ho ⊢
  have hmn := hw.m_add
  have hst := hw.st
  have hle := hw.le
  have aux : ∀ kk : CKind, kk = .biharmonicA ∨ kk = .biharmonicB → kk = k →
      s.Wf b.m (fun _ => 1) (kk.lo K) (kk.hi K) → ∃ S x, b.stencilMat = ok S ∧
      s.dotHead v out = ok x ∧ x.length = n ∧ ∀ i < n - 3, nth x i = nth (mulVec S v) i := by
    rintro kk hkk rfl hwf
    have e4 : kk.nbc = 4 ∧ kk.minNew = 8 ∧ kk.off = 2 := by
      rcases hkk with rfl | rfl <;> exact ⟨rfl, rfl, rfl⟩
    obtain ⟨x, hx, hl, hxi⟩ := wp_total.mp
      (Stencil4.wp_dotHead hwf (by omega) v out hv (by omega))
    refine ⟨S, x, hS, hx, by omega, fun i hi => ?_⟩
    rw [hxi i (by omega), mulVec_congr h1 h2 h3 v (by omega)]
    unfold CKind.mat
    rw [e4.2.2]
  cases k <;> simp only [] at hst <;> obtain ⟨t, ht, hwt⟩ := hst <;> rw [ht] at hs <;>
    simp only [Stencils.biharmonicA.injEq, Stencils.biharmonicB.injEq, reduceCtorEq, or_false,
      false_or] at hs
  · subst hs; exact aux _ (Or.inl rfl) rfl hwt
  · subst hs; exact aux _ (Or.inr rfl) rfl hwt

/-- C19: `from_ortho` never divides by zero, panics or reads out of bounds: on every correctly
sized input it returns `len_spec` values. -/
theorem C19_from_ortho_total (k : CKind) (n : ℕ) (b : Compo K) (hb : Compo.new k n = ok b)
    (hn : k.minSolve ≤ n) (u out : List T) (hu : u.length = b.lenOrth)
    (ho : out.length = b.lenSpec) :
    ∃ x, b.fromOrthoSlice u out = ok x ∧ x.length = b.lenSpec := by
  have hw := Compo.wf_of_new hb
  have hu' : u.length = n := by simpa [Compo.lenOrth, Cheb.lenOrth, hw.ortho] using hu
  obtain ⟨x, hx, hl, _⟩ := wp_total.mp (Compo.wp_fromOrtho hw hn u out hu' ho)
  exact ⟨x, hx, hl⟩

/-- C14 (normal equations): `from_ortho(u) = x` iff `x` has length `len_spec` and solves
`SᵀS x = Sᵀu` with `S = stencil()`; in particular the solution is unique. -/
theorem C14_from_ortho_normal_equations (k : CKind) (n : ℕ) (b : Compo K)
    (hb : Compo.new k n = ok b) (hn : k.minSolve ≤ n) (u out : List T)
    (hu : u.length = b.lenOrth) (ho : out.length = b.lenSpec) :
    ∃ S, b.stencilMat = ok S ∧ ∀ x : List T, b.fromOrthoSlice u out = ok x ↔
      x.length = b.lenSpec ∧ ∀ j < b.lenSpec,
        ∑ i ∈ range n, S.get i j • nth (mulVec S x) i = ∑ i ∈ range n, S.get i j • nth u i := by
  have hw := Compo.wf_of_new hb
  obtain ⟨S, hS, h1, h2, h3⟩ := stencil_ok hb
  have hu' : u.length = n := by simpa [Compo.lenOrth, Cheb.lenOrth, hw.ortho] using hu
  obtain ⟨y, hy, hl, hyi⟩ := wp_total.mp (Compo.wp_fromOrtho hw hn u out hu' ho)
  have key : ∀ x : List T, ∀ j < b.m, ∑ i ∈ range n, S.get i j • nth (mulVec S x) i
      = ∑ i ∈ range n, k.mat K i j • (∑ l ∈ range b.m, k.mat K i l • nth x l) := by
    intro x j hj
    refine Finset.sum_congr rfl (fun i hi => ?_)
    rw [mulVec_congr h1 h2 h3 x (mem_range.mp hi), h3 i j hj]
  have keyu : ∀ j < b.m, ∑ i ∈ range n, S.get i j • nth u i
      = ∑ i ∈ range n, k.mat K i j • nth u i := fun j hj =>
    Finset.sum_congr rfl (fun i hi => by rw [h3 i j hj])
  refine ⟨S, hS, fun x => ⟨fun h => ?_, fun ⟨hxl, hx⟩ => ?_⟩⟩
  · rw [hy] at h
    obtain rfl : y = x := by simpa using h
    refine ⟨hl, fun j hj => ?_⟩
    rw [key y j hj, keyu j hj, hyi j hj]
  · rw [hy]
    congr 1
    refine ext_nth (hl.trans hxl.symm) (fun i hi => ?_)
    refine CKind.normal_unique (K := K) k (show b.m ≤ n by have := hw.m_add; omega) _ _
      (fun j hj => ?_) i (by omega)
    rw [hyi j hj, ← keyu j hj, ← hx j hj, key x j hj]

/-- C13: `from_ortho(stencil() · v) = v` for all five bases, whatever the output buffer held. -/
theorem C13_from_ortho_stencil (k : CKind) (n : ℕ) (b : Compo K) (hb : Compo.new k n = ok b)
    (hn : k.minSolve ≤ n) (v out : List T) (hv : v.length = b.lenSpec)
    (ho : out.length = b.lenSpec) :
    ∃ S, b.stencilMat = ok S ∧ b.fromOrthoSlice (mulVec S v) out = ok v := by
  have hw := Compo.wf_of_new hb
  have ho2 : b.lenOrth = n := by simp [Compo.lenOrth, Cheb.lenOrth, hw.ortho]
  obtain ⟨S, hS, h1, h2, h3⟩ := stencil_ok hb
  obtain ⟨S', hS', h⟩ := C14_from_ortho_normal_equations k n b hb hn (mulVec S v) out
    (by simp [h1, ho2]) ho
  obtain rfl : S = S' := by rw [hS] at hS'; simpa using hS'
  exact ⟨S, hS, (h v).mpr ⟨hv, fun j _ => rfl⟩⟩

/-- C13 (second-order bases): `from_ortho(to_ortho(v)) = v`. -/
theorem C13_round_trip (k : CKind)
    (hk : k = .dirichlet ∨ k = .neumann ∨ k = .dirichletNeumann) (n : ℕ) (b : Compo K)
    (hb : Compo.new k n = ok b) (hn : k.minSolve ≤ n) (v out out' : List T)
    (hv : v.length = b.lenSpec) (ho : out.length = b.lenOrth) (ho' : out'.length = b.lenSpec) :
    ∃ u, b.toOrthoSlice v out = ok u ∧ b.fromOrthoSlice u out' = ok v := by
  obtain ⟨S, hS, h1⟩ := C11_to_ortho_is_stencil k hk n b hb v out hv ho
  obtain ⟨S', hS', h2⟩ := C13_from_ortho_stencil k n b hb hn v out' hv ho'
  obtain rfl : S = S' := by rw [hS] at hS'; simpa using hS'
  exact ⟨_, h1, h2⟩

/-- squared residual `|S y - u|²` of data in a real inner product space (real or complex
numbers) -/
noncomputable def residual {E : Type} [NormedAddCommGroup E] [InnerProductSpace ℝ E] (S : Mat ℝ)
    (y u : List E) : ℝ := ∑ i ∈ range S.rows, ‖nth (mulVec S y) i - nth u i‖ ^ 2

/-- C14 (least squares): for real or complex data `from_ortho(u)` is the unique minimiser of
`|stencil() · y - u|²` over all `y`. -/
theorem C14_from_ortho_least_squares {E : Type} [NormedAddCommGroup E] [InnerProductSpace ℝ E]
    (k : CKind) (n : ℕ) (b : Compo ℝ) (hb : Compo.new k n = ok b) (hn : k.minSolve ≤ n)
    (u out : List E) (hu : u.length = b.lenOrth) (ho : out.length = b.lenSpec) :
    ∃ S x, b.stencilMat = ok S ∧ b.fromOrthoSlice u out = ok x ∧ x.length = b.lenSpec ∧
      ∀ y : List E, y.length = b.lenSpec →
        residual S x u ≤ residual S y u ∧ (residual S y u ≤ residual S x u → y = x) := by
  have hw := Compo.wf_of_new hb
  obtain ⟨S, hS, h1, h2, h3⟩ := stencil_ok hb
  obtain ⟨x, hx, hxl⟩ := C19_from_ortho_total k n b hb hn u out hu ho
  obtain ⟨S', hS', h⟩ := C14_from_ortho_normal_equations k n b hb hn u out hu ho
  obtain rfl : S = S' := by rw [hS] at hS'; simpa using hS'
  have hne := ((h x).mp hx).2
  refine ⟨S, x, hS, hx, hxl, fun y hyl => ?_⟩
  have hd : ∀ i < n, nth (mulVec S y) i - nth (mulVec S x) i
      = ∑ j ∈ range b.m, S.get i j • (nth y j - nth x j) := by
    intro i hi
    rw [nth_mulVec _ _ (by omega), nth_mulVec _ _ (by omega), ← Finset.sum_sub_distrib, h2]
    exact Finset.sum_congr rfl (fun j _ => by rw [smul_sub])
  have horth : ∑ i ∈ range n, inner ℝ (nth (mulVec S x) i - nth u i)
      (nth (mulVec S y) i - nth (mulVec S x) i) = 0 := by
    have : ∀ i ∈ range n, inner ℝ (nth (mulVec S x) i - nth u i)
        (nth (mulVec S y) i - nth (mulVec S x) i) = ∑ j ∈ range b.m,
          inner ℝ (S.get i j • (nth (mulVec S x) i - nth u i)) (nth y j - nth x j) := by
      intro i hi
      rw [hd i (mem_range.mp hi), inner_sum]
      exact Finset.sum_congr rfl (fun j _ => by rw [real_inner_smul_left, real_inner_smul_right])
    rw [Finset.sum_congr rfl this, Finset.sum_comm]
    apply Finset.sum_eq_zero
    intro j hj
    rw [← sum_inner]
    have := hne j (mem_range.mp hj)
    rw [show ∑ i ∈ range n, S.get i j • (nth (mulVec S x) i - nth u i) = 0 by
      simp only [smul_sub, Finset.sum_sub_distrib, this, sub_self], inner_zero_left]
  have hpyth : residual S y u = residual S x u
      + ∑ i ∈ range n, ‖nth (mulVec S y) i - nth (mulVec S x) i‖ ^ 2 := by
    unfold residual
    rw [h1]
    have : ∀ i ∈ range n, ‖nth (mulVec S y) i - nth u i‖ ^ 2 = ‖nth (mulVec S x) i - nth u i‖ ^ 2
        + 2 * inner ℝ (nth (mulVec S x) i - nth u i) (nth (mulVec S y) i - nth (mulVec S x) i)
        + ‖nth (mulVec S y) i - nth (mulVec S x) i‖ ^ 2 := by
      intro i _
      rw [← norm_add_sq_real]
      congr 2
      abel
    rw [Finset.sum_congr rfl this, Finset.sum_add_distrib, Finset.sum_add_distrib,
      ← Finset.mul_sum, horth]
    ring
  have hnn : 0 ≤ ∑ i ∈ range n, ‖nth (mulVec S y) i - nth (mulVec S x) i‖ ^ 2 :=
    Finset.sum_nonneg (fun _ _ => by positivity)
  refine ⟨by linarith, fun hle => ?_⟩
  have h0 : ∑ i ∈ range n, ‖nth (mulVec S y) i - nth (mulVec S x) i‖ ^ 2 = 0 := by linarith
  rw [Finset.sum_eq_zero_iff_of_nonneg (fun _ _ => by positivity)] at h0
  refine ext_nth (hyl.trans hxl.symm) (fun i hi => ?_)
  rw [← sub_eq_zero]
  refine CKind.mat_inj (K := ℝ) k (show b.m ≤ n by have := hw.m_add; omega)
    (fun j => nth y j - nth x j) (fun i hi => ?_) i (by rw [hyl] at hi; exact hi)
  have := h0 i (mem_range.mpr hi)
  rw [sq_eq_zero_iff, norm_eq_zero, hd i hi] at this
  rw [← this]
  exact Finset.sum_congr rfl (fun j hj => by rw [h3 i j (mem_range.mp hj)])

/-- C15: with `p = stencil() · from_ortho(u)` (for the second-order bases
`to_ortho(from_ortho(u))`, see C11): projecting again changes nothing, and `p = u` exactly when
`u` is in the range of the stencil. -/
theorem C15_projection (k : CKind) (n : ℕ) (b : Compo K) (hb : Compo.new k n = ok b)
    (hn : k.minSolve ≤ n) (u out : List T) (hu : u.length = b.lenOrth)
    (ho : out.length = b.lenSpec) :
    ∃ S x, b.stencilMat = ok S ∧ b.fromOrthoSlice u out = ok x ∧
      b.fromOrthoSlice (mulVec S x) out = ok x ∧
      (mulVec S x = u ↔ ∃ v : List T, v.length = b.lenSpec ∧ mulVec S v = u) := by
  obtain ⟨x, hx, hxl⟩ := C19_from_ortho_total k n b hb hn u out hu ho
  obtain ⟨S, hS, h1⟩ := C13_from_ortho_stencil k n b hb hn x out hxl ho
  refine ⟨S, x, hS, hx, h1, fun h => ⟨x, hxl, h⟩, ?_⟩
  rintro ⟨v, hv, rfl⟩
  obtain ⟨S', hS', h2⟩ := C13_from_ortho_stencil k n b hb hn v out hv ho
  obtain rfl : S = S' := by rw [hS] at hS'; simpa using hS'
  rw [h2] at hx
  obtain rfl : v = x := by simpa using hx
  rfl

/-- C15 for the second-order bases, in terms of the two API calls. -/
theorem C15_projection_api (k : CKind)
    (hk : k = .dirichlet ∨ k = .neumann ∨ k = .dirichletNeumann) (n : ℕ) (b : Compo K)
    (hb : Compo.new k n = ok b) (hn : k.minSolve ≤ n) (u out out' : List T)
    (hu : u.length = b.lenOrth) (ho : out.length = b.lenSpec) (ho' : out'.length = b.lenOrth) :
    ∃ x p, b.fromOrthoSlice u out = ok x ∧ b.toOrthoSlice x out' = ok p ∧
      b.fromOrthoSlice p out = ok x ∧
      (p = u ↔ ∃ v : List T, v.length = b.lenSpec ∧ b.toOrthoSlice v out' = ok u) := by
  obtain ⟨S, x, hS, hx, h1, h2⟩ := C15_projection k n b hb hn u out hu ho
  obtain ⟨x', hx', hxl⟩ := C19_from_ortho_total k n b hb hn u out hu ho
  obtain rfl : x = x' := by rw [hx] at hx'; simpa using hx'
  have hto : ∀ v : List T, v.length = b.lenSpec → b.toOrthoSlice v out' = ok (mulVec S v) := by
    intro v hv
    obtain ⟨S', hS', h3⟩ := C11_to_ortho_is_stencil k hk n b hb v out' hv ho'
    obtain rfl : S = S' := by rw [hS] at hS'; simpa using hS'
    exact h3
  refine ⟨x, mulVec S x, hx, hto x hxl, h1, h2.trans ⟨?_, ?_⟩⟩
  · rintro ⟨v, hv, rfl⟩; exact ⟨v, hv, hto v hv⟩
  · rintro ⟨v, hv, h⟩
    rw [hto v hv] at h
    exact ⟨v, hv, by simpa using h⟩

/-- C16 (the part that holds): on the range of the stencil `stencil_inv() · u = from_ortho(u)`. -/
theorem C16_stencil_inv_eq_from_ortho_on_range (k : CKind) (n : ℕ) (b : Compo K)
    (hb : Compo.new k n = ok b) (hn : k.minSolve ≤ n) (v out : List T)
    (hv : v.length = b.lenSpec) (ho : out.length = b.lenSpec) :
    ∃ S P, b.stencilMat = ok S ∧ b.stencilInv = ok P ∧
      b.fromOrthoSlice (mulVec S v) out = ok (mulVec P (mulVec S v)) := by
  obtain ⟨S, P, hS, hP, ⟨s1, s2⟩, ⟨p1, p2⟩, -, -, hI⟩ := C10_stencil_inv_left_inverse k n b hb
  obtain ⟨S', hS', h2⟩ := C13_from_ortho_stencil k n b hb hn v out hv ho
  obtain rfl : S = S' := by rw [hS] at hS'; simpa using hS'
  refine ⟨S, P, hS, hP, ?_⟩
  rw [h2]
  congr 1
  refine ext_nth (by simp [p1, hv]) (fun i hi => ?_)
  rw [hv] at hi
  rw [nth_mulVec _ _ (by omega), p2, ← s1]
  have : ∀ r ∈ range S.rows, P.get i r • nth (mulVec S v) r
      = ∑ j ∈ range S.cols, (P.get i r * S.get r j) • nth v j := by
    intro r hr
    rw [nth_mulVec _ _ (mem_range.mp hr), Finset.smul_sum]
    exact Finset.sum_congr rfl (fun j _ => by rw [smul_smul])
  rw [Finset.sum_congr rfl this, Finset.sum_comm]
  simp only [← Finset.sum_smul]
  rw [Finset.sum_eq_single i]
  · have := hI i hi i hi
    simp only [matMul, if_pos] at this
    rw [s1, ← p2, this, one_smul]
  · intro j hj hji
    have := hI i hi j (by rw [← s2]; exact mem_range.mp hj)
    simp only [matMul, if_neg (Ne.symm hji)] at this
    rw [s1, ← p2, this, zero_smul]
  · intro h
    exact absurd (mem_range.mpr (by omega)) h

/-- C17: every function represented in a composite base, `∑ᵢ (stencil() · v)ᵢ Tᵢ`, satisfies the
base's boundary conditions exactly; and conversely every coefficient vector of the orthogonal
space that satisfies them is represented. -/
theorem C17_boundary_conditions (k : CKind) (n : ℕ) (b : Compo K) (hb : Compo.new k n = ok b) :
    ∃ S, b.stencilMat = ok S ∧
      (∀ v : List T, SatisfiesBC K k (mulVec S v)) ∧
      (∀ a : List T, a.length = b.lenOrth → SatisfiesBC K k a →
        ∃ v : List T, v.length = b.lenSpec ∧ mulVec S v = a) := by
  have hw := Compo.wf_of_new hb
  obtain ⟨S, hS, h1, h2, h3⟩ := stencil_ok hb
  have hmn := hw.m_add
  have ho2 : b.lenOrth = n := by simp [Compo.lenOrth, Cheb.lenOrth, hw.ortho]
  refine ⟨S, hS, fun v => ?_, fun a ha hbc => ?_⟩
  · refine range_bc k b.m (nth v) _ (by simp [h1, hmn]) (fun i hi => ?_)
    rw [mulVec_congr h1 h2 h3 v (by omega)]
  · have hle := hw.le
    have := k.nbc_le
    obtain ⟨v, hv⟩ := bc_range k b.m (by omega) a (by omega) hbc
    refine ⟨(List.range b.m).map v, by simp [Compo.lenSpec], ?_⟩
    refine ext_nth (by simp [h1]; omega) (fun i hi => ?_)
    simp only [mulVec_length, h1] at hi
    rw [mulVec_congr h1 h2 h3 _ hi, hv i (by omega)]
    exact Finset.sum_congr rfl (fun j hj => by rw [nth_map_range _ _ _ (mem_range.mp hj)])

/-! ### Concrete cases -/

/-- run constructor and operator on rational data -/
def runBase {α : Type} (k : CKind) (n : ℕ) (f : Compo ℚ → Res α) : Res α := do
  let b ← Compo.new k n
  f b

/-- C16: the documented unconditional equality of `stencil_inv() · u` and `from_ortho(u)` is
false (Dirichlet base of size 5, `u = (1,0,0,0,0)`). -/
theorem C16_equality_false_in_general :
    runBase .dirichlet 5 (fun b => do pure (mulVec (← b.stencilInv) ([1, 0, 0, 0, 0] : List ℚ)))
      = ok [1, 0, 1] ∧
    runBase .dirichlet 5 (fun b => b.fromOrthoSlice ([1, 0, 0, 0, 0] : List ℚ) [0, 0, 0])
      = ok [2/3, 0, 1/3] := by decide +kernel

-- all five constructors and `from_ortho` succeed on concrete sizes, so the hypotheses are met
example : runBase .dirichlet 6 (fun b => do
    b.fromOrthoSlice (← b.toOrthoSlice ([1, 2, 3, 4] : List ℚ) [9, 9, 9, 9, 9, 9]) [7, 7, 7, 7])
      = ok [1, 2, 3, 4] := by decide +kernel
example : runBase .neumann 6 (fun b => do
    b.fromOrthoSlice (← b.toOrthoSlice ([1, 2, 3, 4] : List ℚ) [9, 9, 9, 9, 9, 9]) [7, 7, 7, 7])
      = ok [1, 2, 3, 4] := by decide +kernel
example : runBase .dirichletNeumann 6 (fun b => do
    b.fromOrthoSlice (← b.toOrthoSlice ([1, 2, 3, 4] : List ℚ) [9, 9, 9, 9, 9, 9]) [7, 7, 7, 7])
      = ok [1, 2, 3, 4] := by decide +kernel
example : runBase .biharmonicA 10 (fun b => do
    b.fromOrthoSlice (mulVec (← b.stencilMat) ([1, 2, 3, 4, 5, 6] : List ℚ)) [0, 0, 0, 0, 0, 0])
      = ok [1, 2, 3, 4, 5, 6] := by decide +kernel
example : runBase .biharmonicB 10 (fun b => do
    b.fromOrthoSlice (mulVec (← b.stencilMat) ([1, 2, 3, 4, 5, 6] : List ℚ)) [0, 0, 0, 0, 0, 0])
      = ok [1, 2, 3, 4, 5, 6] := by decide +kernel
example : runBase .biharmonicA 8 (fun b => b.toOrthoSlice ([1, 2, 3, 4] : List ℚ)
    (List.replicate 8 0)) = err .ub := by decide +kernel

end Verif.Props
