/- Composite Chebyshev bases: what the constructors establish, and the operator lemmas in a
form common to the five kinds. -/
import Verif.Model.Compo
import Verif.Spec.Sizes
import Verif.Proof.Helpers2
import Verif.Proof.Helpers3
import Verif.Proof.Helpers4
import Mathlib.Tactic.Positivity
import Mathlib.Tactic.FieldSimp
import Mathlib.LinearAlgebra.Dual.Lemmas

namespace Verif
open Res Spec Finset

namespace CKind
/-- spacing of the diagonals -/
def off : CKind → ℕ
  | dirichletNeumann => 1
  | _ => 2
variable (K : Type) [Field K]
/-- first subdiagonal of the stencil -/
def lo : CKind → ℕ → K
  | dirichlet, _ => -1
  | neumann, k => -((k : K) ^ 2) / ((k : K) + 2) ^ 2
  | dirichletNeumann, k => (-((k : K) ^ 2) + ((k : K) + 2) ^ 2) / (((k : K) + 1) ^ 2 + ((k : K) + 2) ^ 2)
  | biharmonicA, k => -2 * ((k : K) + 2) / ((k : K) + 3)
  | biharmonicB, k => -(2 * ((k : K) + 2) * (15 + 2 * k * (k + 4))) / ((k + 3) * (19 + 2 * k * (6 + k)))
/-- second subdiagonal of the stencil -/
def hi : CKind → ℕ → K
  | dirichlet, _ => 0
  | neumann, _ => 0
  | dirichletNeumann, k => (-((k : K) ^ 2) - ((k : K) + 1) ^ 2) / (((k : K) + 1) ^ 2 + ((k : K) + 2) ^ 2)
  | biharmonicA, k => ((k : K) + 1) / ((k : K) + 3)
  | biharmonicB, k => (((k : K) + 1) * (3 + 2 * k * (k + 2))) / ((k + 3) * (19 + 2 * k * (6 + k)))
/-- the stencil matrix -/
def mat (k : CKind) (i j : ℕ) : K := stMat k.off (fun _ => 1) (k.lo K) (k.hi K) i j

theorem nbc_pos (k : CKind) : 2 ≤ k.nbc := by cases k <;> simp [nbc]
theorem minNew_le (k : CKind) : k.minNew ≤ k.minSolve := by cases k <;> simp [minNew, minSolve]
theorem nbc_le (k : CKind) : k.nbc + 2 ≤ k.minNew := by cases k <;> simp [nbc, minNew]
end CKind

variable {K T : Type} [Field K] [LinearOrder K] [IsStrictOrderedRing K] [AddCommGroup T]
  [Module K T] {Q : Err → Prop}

/-- what a constructed base satisfies -/
structure Compo.Wf (b : Compo K) (k : CKind) (n : ℕ) : Prop where
  n_eq : b.n = n
  m_eq : b.m = n - k.nbc
  le : k.minNew ≤ n
  ortho : b.ortho = ⟨n, n⟩
  st : match k with
    | .dirichlet => ∃ s, b.stencil = .dirichlet s ∧ s.Wf b.m (fun _ => 1) (k.lo K)
    | .neumann => ∃ s, b.stencil = .neumann s ∧ s.Wf b.m (fun _ => 1) (k.lo K)
    | .dirichletNeumann => ∃ s, b.stencil = .dirichletNeumann s ∧
        s.Wf b.m (fun _ => 1) (k.lo K) (k.hi K)
    | .biharmonicA => ∃ s, b.stencil = .biharmonicA s ∧ s.Wf b.m (fun _ => 1) (k.lo K) (k.hi K)
    | .biharmonicB => ∃ s, b.stencil = .biharmonicB s ∧ s.Wf b.m (fun _ => 1) (k.lo K) (k.hi K)

theorem replicate_eq_map {T : Type} (m : ℕ) (x : T) :
    List.replicate m x = (List.range m).map (fun _ => x) := by
  simp [List.map_const']

theorem wp_chebNew {n : ℕ} (h : 1 < n) : wp Q (Cheb.new n) (fun c => c = ⟨n, n⟩) := by
  unfold Cheb.new
  simp [h]

theorem Compo.wp_new (k : CKind) (n : ℕ) (hn : k.minNew ≤ n) :
    wp Q (Compo.new (K := K) k n) (fun b => b.Wf k n) := by
  cases k
  · simp only [CKind.minNew] at hn
    unfold new dirichletNew
    wprun
    rw [replicate_eq_map, replicate_eq_map]
    refine wp_mono (Stencil2.wp_new (by omega)) (fun s hs => ?_)
    wprun
    refine wp_mono (wp_chebNew (by omega)) (fun c hc => ?_)
    exact ⟨rfl, rfl, hn, hc, s, rfl, hs⟩
  · simp only [CKind.minNew] at hn
    unfold new neumannNew
    wprun
    refine wp_fill (CKind.lo K .neumann) (by simp) ?_ ?_
    · intro i hi v hv
      wprun
      · congr 1
        rw [smul_eq_mul]
        simp only [CKind.lo]
        push_cast
        rw [div_eq_inv_mul]
        ring_nf
      · intro h
        exact absurd h (by positivity)
    rw [replicate_eq_map]
    refine wp_mono (Stencil2.wp_new (by omega)) (fun s hs => ?_)
    wprun
    refine wp_mono (wp_chebNew (by omega)) (fun c hc => ?_)
    exact ⟨rfl, rfl, hn, hc, s, rfl, hs⟩
  · simp only [CKind.minNew] at hn
    unfold new dirichletNeumannNew
    wprun
    refine wp_fill2 (CKind.lo K .dirichletNeumann) (CKind.hi K .dirichletNeumann)
      (by simp) (by simp) ?_ ?_
    · intro i hi v hv hv'
      have hden : ((i : K) + 1) ^ 2 + ((i : K) + 2) ^ 2 ≠ 0 := by positivity
      wprun
      · congr 2
        · rw [smul_eq_mul]
          simp only [CKind.lo]
          rw [div_eq_inv_mul]; ring_nf
        · rw [smul_eq_mul]
          simp only [CKind.hi]
          rw [div_eq_inv_mul]; ring_nf
      all_goals exact fun h => absurd h hden
    rw [replicate_eq_map]
    refine wp_mono (Stencil3.wp_new (by omega)) (fun s hs => ?_)
    wprun
    refine wp_mono (wp_chebNew (by omega)) (fun c hc => ?_)
    exact ⟨rfl, rfl, hn, hc, s, rfl, hs⟩
  · simp only [CKind.minNew] at hn
    unfold new biharmonicANew
    wprun
    refine wp_fill2 (CKind.lo K .biharmonicA) (CKind.hi K .biharmonicA)
      (by simp) (by simp) ?_ ?_
    · intro i hi v hv hv'
      have hden : (i : K) + 3 ≠ 0 := by positivity
      wprun
      · congr 2
        · rw [smul_eq_mul]
          simp only [CKind.lo]
          rw [div_eq_inv_mul]
        · rw [smul_eq_mul]
          simp only [CKind.hi]
          rw [div_eq_inv_mul]
      all_goals exact fun h => absurd h hden
    rw [replicate_eq_map]
    refine wp_mono (Stencil4.wp_new (by omega)) (fun s hs => ?_)
    wprun
    refine wp_mono (wp_chebNew (by omega)) (fun c hc => ?_)
    exact ⟨rfl, rfl, hn, hc, s, rfl, hs⟩
  · simp only [CKind.minNew] at hn
    unfold new biharmonicBNew
    wprun
    refine wp_fill2 (CKind.lo K .biharmonicB) (CKind.hi K .biharmonicB)
      (by simp) (by simp) ?_ ?_
    · intro i hi v hv hv'
      have hden : ((i : K) + 3) * (19 + 2 * (i : K) * (6 + i)) ≠ 0 := by positivity
      wprun
      · congr 2
        · rw [smul_eq_mul]
          simp only [CKind.lo]
          rw [div_eq_inv_mul, neg_one_mul]
        · rw [smul_eq_mul]
          simp only [CKind.hi]
          rw [div_eq_inv_mul]
      all_goals exact fun h => absurd h hden
    rw [replicate_eq_map]
    refine wp_mono (Stencil4.wp_new (by omega)) (fun s hs => ?_)
    wprun
    refine wp_mono (wp_chebNew (by omega)) (fun c hc => ?_)
    exact ⟨rfl, rfl, hn, hc, s, rfl, hs⟩

theorem wp_usub_panic {a b : ℕ} {P : ℕ → Prop} (h : a < b) :
    wp (fun e => e = .panic) (a -! b) P := by
  rw [show (a -! b) = usub a b from rfl, usub, if_neg (by omega)]; rfl

/-- below the minimum size construction panics -/
theorem Compo.new_panics (k : CKind) (n : ℕ) (hn : n < k.minNew) :
    Compo.new (K := K) k n = err .panic := by
  suffices H : wp (fun e => e = .panic) (Compo.new (K := K) k n) (fun _ => False) by
    cases hx : Compo.new (K := K) k n with
    | ok a => rw [hx] at H; exact H.elim
    | err e => rw [hx] at H; rw [show e = .panic from H]
  cases k
  · simp only [CKind.minNew] at hn
    unfold new dirichletNew Stencil2.new
    simp only [wp_bind]
    by_cases h2 : 2 ≤ n
    · wprun
      exact wp_usub_panic (by simp; omega)
    · exact wp_usub_panic (by omega)
  · simp only [CKind.minNew] at hn
    unfold new neumannNew Stencil2.new
    simp only [wp_bind]
    by_cases h2 : 2 ≤ n
    · wprun
      refine wp_fill (CKind.lo K .neumann) (by simp) ?_ ?_
      · intro i hi v hv
        wprun
        · congr 1
          rw [smul_eq_mul]
          simp only [CKind.lo]
          push_cast
          rw [div_eq_inv_mul]
          ring_nf
        · intro h
          exact absurd h (by positivity)
      exact wp_usub_panic (by simp; omega)
    · exact wp_usub_panic (by omega)
  · simp only [CKind.minNew] at hn
    unfold new dirichletNeumannNew Stencil3.new
    simp only [wp_bind]
    by_cases h2 : 2 ≤ n
    · wprun
      refine wp_fill2 (CKind.lo K .dirichletNeumann) (CKind.hi K .dirichletNeumann)
        (by simp) (by simp) ?_ ?_
      · intro i hi v hv hv'
        have hden : ((i : K) + 1) ^ 2 + ((i : K) + 2) ^ 2 ≠ 0 := by positivity
        wprun
        · congr 2
          · rw [smul_eq_mul]
            simp only [CKind.lo]
            rw [div_eq_inv_mul]; ring_nf
          · rw [smul_eq_mul]
            simp only [CKind.hi]
            rw [div_eq_inv_mul]; ring_nf
        all_goals exact fun h => absurd h hden
      simp only [List.length_replicate]
      by_cases h3 : 3 ≤ n
      · wprun
        exact wp_usub_panic (by omega)
      · exact wp_usub_panic (by omega)
    · exact wp_usub_panic (by omega)
  · simp only [CKind.minNew] at hn
    unfold new biharmonicANew Stencil4.new
    simp only [wp_bind]
    by_cases h2 : 4 ≤ n
    · wprun
      refine wp_fill2 (CKind.lo K .biharmonicA) (CKind.hi K .biharmonicA)
        (by simp) (by simp) ?_ ?_
      · intro i hi v hv hv'
        have hden : (i : K) + 3 ≠ 0 := by positivity
        wprun
        · congr 2
          · rw [smul_eq_mul]
            simp only [CKind.lo]
            rw [div_eq_inv_mul]
          · rw [smul_eq_mul]
            simp only [CKind.hi]
            rw [div_eq_inv_mul]
        all_goals exact fun h => absurd h hden
      simp only [List.length_replicate]
      by_cases h3 : 6 ≤ n
      · wprun
        exact wp_usub_panic (by omega)
      · exact wp_usub_panic (by omega)
    · exact wp_usub_panic (by omega)
  · simp only [CKind.minNew] at hn
    unfold new biharmonicBNew Stencil4.new
    simp only [wp_bind]
    by_cases h2 : 4 ≤ n
    · wprun
      refine wp_fill2 (CKind.lo K .biharmonicB) (CKind.hi K .biharmonicB)
        (by simp) (by simp) ?_ ?_
      · intro i hi v hv hv'
        have hden : ((i : K) + 3) * (19 + 2 * (i : K) * (6 + i)) ≠ 0 := by positivity
        wprun
        · congr 2
          · rw [smul_eq_mul]
            simp only [CKind.lo]
            rw [div_eq_inv_mul, neg_one_mul]
          · rw [smul_eq_mul]
            simp only [CKind.hi]
            rw [div_eq_inv_mul]
        all_goals exact fun h => absurd h hden
      simp only [List.length_replicate]
      by_cases h3 : 6 ≤ n
      · wprun
        exact wp_usub_panic (by omega)
      · exact wp_usub_panic (by omega)
    · exact wp_usub_panic (by omega)

/-- a base obtained from a constructor is well formed -/
theorem Compo.wf_of_new {k : CKind} {n : ℕ} {b : Compo K} (h : Compo.new k n = ok b) :
    b.Wf k n := by
  by_cases hn : k.minNew ≤ n
  · have := Compo.wp_new (K := K) (Q := fun _ => False) k n hn
    rwa [h] at this
  · rw [Compo.new_panics k n (by omega)] at h
    exact absurd h (by simp)

namespace Compo
variable {b : Compo K} {k : CKind} {n : ℕ}

theorem Wf.m_add (hb : b.Wf k n) : b.m + k.nbc = n := by
  have := hb.m_eq; have := hb.le; have := k.nbc_le; omega

theorem wp_stencilMat (hb : b.Wf k n) :
    wp Q b.stencilMat (fun M => M.rows = n ∧ M.cols = b.m ∧
      ∀ i j, j < b.m → M.get i j = k.mat K i j) := by
  have hmn := hb.m_add
  have hst := hb.st
  unfold stencilMat Stencils.toArray
  cases k <;> simp only [] at hst <;> obtain ⟨s, hs, hw⟩ := hst <;> rw [hs] <;>
    simp only [CKind.nbc] at hmn <;> rw [← hmn]
  · exact Stencil2.wp_toArray hw
  · exact Stencil2.wp_toArray hw
  · exact Stencil3.wp_toArray hw
  · exact Stencil4.wp_toArray hw
  · exact Stencil4.wp_toArray hw

theorem wp_stencilInv (hb : b.Wf k n) :
    wp Q b.stencilInv (fun P => P.rows = b.m ∧ P.cols = n ∧
      ∀ i < b.m, ∀ j < b.m, ∑ r ∈ range n, P.get i r * k.mat K r j = if i = j then 1 else 0) := by
  have hmn := hb.m_add
  have hst := hb.st
  unfold stencilInv Stencils.pinv
  cases k <;> simp only [] at hst <;> obtain ⟨s, hs, hw⟩ := hst <;> rw [hs] <;>
    simp only [CKind.nbc] at hmn <;> rw [← hmn]
  · exact Stencil2.wp_pinv hw (by simp)
  · exact Stencil2.wp_pinv hw (by simp)
  · exact Stencil3.wp_pinv hw (by simp)
  · exact Stencil4.wp_pinv hw (by simp)
  · exact Stencil4.wp_pinv hw (by simp)

theorem wp_toOrtho (hb : b.Wf k n) (hk : k.nbc = 2) (v u : List T) (hv : v.length = b.m)
    (hu : u.length = n) :
    wp Q (b.toOrthoSlice v u) (fun x => x.length = n ∧
      ∀ i < n, nth x i = ∑ j ∈ range b.m, k.mat K i j • nth v j) := by
  have hmn := hb.m_add
  have hle := hb.le
  have hst := hb.st
  unfold toOrthoSlice Stencils.dot
  cases k <;> simp only [] at hst <;> obtain ⟨s, hs, hw⟩ := hst <;> rw [hs] <;>
    simp only [CKind.nbc, CKind.minNew] at hmn hle hk <;> rw [← hmn]
  · exact Stencil2.wp_dot hw (by omega) v u hv (by omega)
  · exact Stencil2.wp_dot hw (by omega) v u hv (by omega)
  · exact Stencil3.wp_dot hw (by omega) v u hv (by omega)
  · omega
  · omega

theorem toOrtho_ub (hb : b.Wf k n) (hk : k.nbc = 4) (v u : List T) (hv : v.length = b.m)
    (hu : u.length = n) : b.toOrthoSlice v u = err .ub := by
  have hmn := hb.m_add
  have hle := hb.le
  have hst := hb.st
  unfold toOrthoSlice Stencils.dot
  cases k <;> simp only [] at hst <;> obtain ⟨s, hs, hw⟩ := hst <;> rw [hs] <;>
    simp only [CKind.nbc, CKind.minNew] at hmn hle hk
  · omega
  · omega
  · omega
  · exact Stencil4.dot_ub hw (by omega) v u hv (by omega)
  · exact Stencil4.dot_ub hw (by omega) v u hv (by omega)

theorem wp_fromOrtho (hb : b.Wf k n) (hn : k.minSolve ≤ n) (u v : List T) (hu : u.length = n)
    (hv : v.length = b.m) :
    wp Q (b.fromOrthoSlice u v) (fun x => x.length = b.m ∧
      ∀ j < b.m, ∑ i ∈ range n, k.mat K i j • (∑ l ∈ range b.m, k.mat K i l • nth x l)
        = ∑ i ∈ range n, k.mat K i j • nth u i) := by
  have hmn := hb.m_add
  have hst := hb.st
  unfold fromOrthoSlice Stencils.solve
  cases k <;> simp only [] at hst <;> obtain ⟨s, hs, hw⟩ := hst <;> rw [hs] <;>
    simp only [CKind.nbc, CKind.minSolve] at hmn hn <;> rw [← hmn]
  · exact Stencil2.wp_solve hw (by simp) (by omega) u v (by omega) hv
  · exact Stencil2.wp_solve hw (by simp) (by omega) u v (by omega) hv
  · exact Stencil3.wp_solve hw (by simp) (by omega) u v (by omega) hv
  · exact Stencil4.wp_solve hw (by simp) (by omega) u v (by omega) hv
  · exact Stencil4.wp_solve hw (by simp) (by omega) u v (by omega) hv

end Compo

/-! ### Algebra of the stencil: injectivity, least squares -/

section Alg
variable {m N : ℕ} {k : CKind}

/-- a left inverse exists as soon as one is computed; here: `S x = 0 → x = 0` from the unit
lower triangular shape -/
theorem CKind.mat_inj (k : CKind) (hN : m ≤ N) (x : ℕ → T)
    (h : ∀ i < N, ∑ j ∈ range m, k.mat K i j • x j = 0) : ∀ j < m, x j = 0 := by
  intro j
  induction j using Nat.strong_induction_on with
  | _ j ih =>
    intro hj
    have h1 := h j (by omega)
    unfold CKind.mat at h1
    have hoff : 1 ≤ k.off := by cases k <;> simp [CKind.off]
    rw [stMat_mul, if_pos hj, one_smul] at h1
    have z1 : (if k.off ≤ j ∧ j - k.off < m then k.lo K (j - k.off) • x (j - k.off) else 0) = 0 := by
      split
      · rw [ih _ (by omega) (by omega), smul_zero]
      · rfl
    have z2 : (if 2 * k.off ≤ j ∧ j - 2 * k.off < m then
        k.hi K (j - 2 * k.off) • x (j - 2 * k.off) else 0) = 0 := by
      split
      · rw [ih _ (by omega) (by omega), smul_zero]
      · rfl
    rwa [z1, z2, add_zero, add_zero] at h1

/-- scalar version: the normal matrix is definite -/
theorem CKind.normal_inj_scalar (k : CKind) (hN : m ≤ N) (x : ℕ → K)
    (h : ∀ j < m, ∑ i ∈ range N, k.mat K i j * (∑ l ∈ range m, k.mat K i l * x l) = 0) :
    ∀ j < m, x j = 0 := by
  have h0 : ∑ i ∈ range N, (∑ l ∈ range m, k.mat K i l * x l) ^ 2 = 0 := by
    have : ∑ j ∈ range m, x j * ∑ i ∈ range N, k.mat K i j * (∑ l ∈ range m, k.mat K i l * x l)
        = 0 := by
      apply Finset.sum_eq_zero
      intro j hj
      rw [h j (mem_range.mp hj), mul_zero]
    rw [← this]
    have e : ∀ j, x j * ∑ i ∈ range N, k.mat K i j * (∑ l ∈ range m, k.mat K i l * x l)
        = ∑ i ∈ range N, (k.mat K i j * x j) * (∑ l ∈ range m, k.mat K i l * x l) := by
      intro j
      rw [Finset.mul_sum]
      exact Finset.sum_congr rfl (fun _ _ => by ring)
    simp only [e]
    rw [Finset.sum_comm]
    exact Finset.sum_congr rfl (fun i _ => by rw [← Finset.sum_mul, sq])
  rw [Finset.sum_eq_zero_iff_of_nonneg (fun _ _ => sq_nonneg _)] at h0
  refine CKind.mat_inj (K := K) k hN x (fun i hi => ?_)
  have := h0 i (mem_range.mpr hi)
  simpa using this

/-- module version, by testing with linear functionals -/
theorem CKind.normal_inj (k : CKind) (hN : m ≤ N) (x : ℕ → T)
    (h : ∀ j < m, ∑ i ∈ range N, k.mat K i j • (∑ l ∈ range m, k.mat K i l • x l) = 0) :
    ∀ j < m, x j = 0 := by
  intro j hj
  rw [← Module.forall_dual_apply_eq_zero_iff K]
  intro φ
  refine CKind.normal_inj_scalar (K := K) k hN (fun j => φ (x j)) (fun j hj => ?_) j hj
  have := congrArg φ (h j hj)
  simpa [map_sum, map_smul, smul_eq_mul] using this

/-- solutions of the normal equations agree -/
theorem CKind.normal_unique (k : CKind) (hN : m ≤ N) (x y : ℕ → T)
    (h : ∀ j < m, ∑ i ∈ range N, k.mat K i j • (∑ l ∈ range m, k.mat K i l • x l)
      = ∑ i ∈ range N, k.mat K i j • (∑ l ∈ range m, k.mat K i l • y l)) :
    ∀ j < m, x j = y j := by
  intro j hj
  rw [← sub_eq_zero]
  refine CKind.normal_inj (K := K) k hN (fun j => x j - y j) (fun j hj => ?_) j hj
  simp only [smul_sub, Finset.sum_sub_distrib, h j hj, sub_self]

end Alg
end Verif
