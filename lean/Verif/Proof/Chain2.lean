/-
`forward`, `gradient` and `backward` in a row, in two dimensions, as a product of two matrices.
-/
import Verif.Proof.Sampled
import Verif.Proof.LinOps

namespace Verif
open Res Spec Finset

section
variable {T : Type} [AddCommGroup T] [Module ℝ T]

/-- A functional of a linear function of a vector is a combination of the entries. -/
theorem linear_functional {n N : ℕ} {φ : List ℝ → List T} (hl : ∀ u, u.length = n → (φ u).length = N)
    (h : IsLinear ℝ n φ) (L : ℕ → T →ₗ[ℝ] ℝ) :
    ∃ m : ℕ → ℝ, ∀ u, u.length = n → ∑ i ∈ range N, L i (nth (φ u) i) = ∑ p ∈ range n, m p * nth u p := by
  set e : ℕ → List ℝ := fun k => (List.range n).map (fun i => if i = k then 1 else 0) with he
  have hel : ∀ k, (e k).length = n := fun k => by simp [he]
  have hstep : ∀ (a b : ℝ) (x y : List ℝ), x.length = n → y.length = n →
      ∑ i ∈ range N, L i (nth (φ (linComb ℝ a b x y)) i)
        = a * ∑ i ∈ range N, L i (nth (φ x) i) + b * ∑ i ∈ range N, L i (nth (φ y) i) := by
    intro a b x y hx hy
    rw [h a b x y hx hy, Finset.mul_sum, Finset.mul_sum, ← Finset.sum_add_distrib]
    refine Finset.sum_congr rfl (fun i hi => ?_)
    unfold linComb
    rw [nth_map_range _ _ _ (by rw [hl x hx]; exact mem_range.mp hi), map_add, map_smul, map_smul, smul_eq_mul,
      smul_eq_mul]
  refine ⟨fun p => ∑ i ∈ range N, L i (nth (φ (e p)) i), fun u hu => ?_⟩
  have key : ∀ k ≤ n, ∑ i ∈ range N, L i (nth (φ ((List.range n).map (fun i => if i < k then nth u i else 0))) i)
      = ∑ p ∈ range k, (∑ i ∈ range N, L i (nth (φ (e p)) i)) * nth u p := by
    intro k
    induction k with
    | zero =>
      intro _
      have e0 : (List.range n).map (fun i => if i < 0 then nth u i else 0)
          = linComb ℝ 0 0 (e 0) (e 0) := by
        refine ext_nth (by simp [linComb, he]) (fun i hi => ?_)
        have hi' : i < n := by simpa using hi
        unfold linComb
        rw [nth_map_range _ _ _ hi', nth_map_range _ _ _ (by rw [hel]; exact hi')]
        simp
      rw [e0, hstep 0 0 _ _ (hel 0) (hel 0)]
      simp
    | succ k ih =>
      intro hk
      have e1 : (List.range n).map (fun i => if i < k + 1 then nth u i else 0)
          = linComb ℝ 1 (nth u k) ((List.range n).map (fun i => if i < k then nth u i else 0)) (e k) := by
        refine ext_nth (by simp [linComb]) (fun i hi => ?_)
        have hi' : i < n := by simpa using hi
        unfold linComb
        rw [nth_map_range _ _ _ hi', nth_map_range _ _ _ (by simpa using hi'), nth_map_range _ _ _ hi',
          he, nth_map_range _ _ _ hi']
        rcases lt_trichotomy i k with h | h | h
        · rw [if_pos (by omega), if_pos h, if_neg (by omega)]; simp
        · subst h; rw [if_pos (by omega), if_neg (by omega), if_pos rfl]; simp
        · rw [if_neg (by omega), if_neg (by omega), if_neg (by omega)]; simp
      rw [e1, hstep 1 (nth u k) _ _ (by simp) (hel k), ih (by omega), Finset.sum_range_succ]
      ring
  have := key n le_rfl
  have hu' : (List.range n).map (fun i => if i < n then nth u i else 0) = u := by
    refine ext_nth (by simp [hu]) (fun i hi => ?_)
    have hi' : i < n := by simpa using hi
    rw [nth_map_range _ _ _ hi', if_pos hi']
  rwa [hu'] at this

/-- The derivative on the grid is a product of two matrices applied to the samples. -/
theorem chain2 (sp so : Space2 ℝ ℝ T T) {d0 d1 : ℕ} {ℓ μ' : ℕ → ℝ → T →ₗ[ℝ] ℝ} {e ψ : ℕ → ℝ → ℝ}
    (l0 : so.base0.lenSpec = sp.base0.lenOrth) (l1 : so.base1.lenSpec = sp.base1.lenOrth)
    (h0o : Evaluates so.base0 (fun k x => ℓ k x))
    (h0g : ∃ g, Computes (fun v out => sp.base0.gradientSlice v out d0) sp.base0.lenSpec
      sp.base0.lenOrth g ∧ ∀ v, v.length = sp.base0.lenSpec → ∀ x : ℝ,
        ∑ k ∈ range sp.base0.lenOrth, ℓ k x (nth (g v) k)
          = ∑ i ∈ range sp.base0.lenSpec, μ' i x (nth v i))
    (h1o : Evaluates so.base1 (fun k y s => e k y * s))
    (h1g : Differentiates sp.base1 d1 e ψ)
    {φ0 : List ℝ → List T} {φ1 : List ℝ → List ℝ}
    (c0 : Computes sp.base0.forwardSlice sp.base0.lenPhys sp.base0.lenSpec φ0)
    (c1 : Computes sp.base1.forwardSlice sp.base1.lenPhys sp.base1.lenSpec φ1)
    {m0 m1 : ℝ → ℕ → ℝ}
    (f0 : ∀ x u, u.length = sp.base0.lenPhys → ∑ i ∈ range sp.base0.lenSpec, μ' i x (nth (φ0 u) i)
      = ∑ p ∈ range sp.base0.lenPhys, m0 x p * nth u p)
    (f1 : ∀ y u, u.length = sp.base1.lenPhys → ∑ j ∈ range sp.base1.lenSpec, iteratedDeriv d1 (ψ j) y * nth (φ1 u) j
      = ∑ q ∈ range sp.base1.lenPhys, m1 y q * nth u q)
    {X : Arr ℝ} (hX : Good X sp.shapePhysical) {scale : Option (ℝ × ℝ)}
    (hsc : scale ≠ none → d0 < 2 ^ 31 ∧ d1 < 2 ^ 31) (hne : scale2 d0 d1 scale ≠ 0) :
    ∃ x y v g w, so.coords = ok [x, y] ∧ sp.forward X = ok v ∧ sp.gradient v d0 d1 scale = ok g ∧
      so.backward g = ok w ∧ Good w so.shapePhysical ∧
      ∀ p < so.base0.lenPhys, ∀ q < so.base1.lenPhys, at_ w [p, q] = (scale2 d0 d1 scale)⁻¹ *
        ∑ p' ∈ range sp.base0.lenPhys, m0 (nth x p) p' *
          ∑ q' ∈ range sp.base1.lenPhys, m1 (nth y q) q' * at_ X [p', q'] := by
  have k1 := good_mapAx φ1 sp.base1.lenSpec 1 hX.2.2
  have k0 := good_mapAx φ0 sp.base0.lenSpec 0 k1.2.2
  have hv : Good (mapAx φ0 sp.base0.lenSpec 0 (mapAx φ1 sp.base1.lenSpec 1 X)) sp.shapeSpectral := k0
  obtain ⟨x, y, g, w, hc, hg, hw, hwG, hwe⟩ := sampled2 sp so l0 l1 h0o h0g h1o h1g hv hsc hne
  refine ⟨x, y, _, g, w, hc, sp.forward_eq c0 c1 hX, hg, hw, hwG, fun p hp q hq => ?_⟩
  rw [hwe p hp q hq]
  congr 1
  set h := mapAx φ1 sp.base1.lenSpec 1 X with hh
  have hu : h.shape = [sp.base0.lenPhys, sp.base1.lenSpec] := k1.2.2
  have s0 : ∀ j ∈ range sp.base1.lenSpec, ∑ i ∈ range sp.base0.lenSpec,
      μ' i (nth x p) (at_ (mapAx φ0 sp.base0.lenSpec 0 h) [i, j])
      = ∑ p' ∈ range sp.base0.lenPhys, m0 (nth x p) p' * at_ h [p', j] :=
    fun j hj => mapAx_functional c0.len (fun i u => μ' i (nth x p) u) (fun p' u => m0 (nth x p) p' * u)
      (fun u hu => f0 (nth x p) u hu) hu (by decide : 0 < 2) rfl (idx := [0, j])
      (inBounds2 (by omega) (Finset.mem_range.mp hj))
  have s1 : ∀ p' ∈ range sp.base0.lenPhys, ∑ j ∈ range sp.base1.lenSpec,
      iteratedDeriv d1 (ψ j) (nth y q) * at_ h [p', j]
      = ∑ q' ∈ range sp.base1.lenPhys, m1 (nth y q) q' * at_ X [p', q'] :=
    fun p' hp' => mapAx_functional c1.len (fun j u => iteratedDeriv d1 (ψ j) (nth y q) * u)
      (fun q' u => m1 (nth y q) q' * u) (fun u hu => f1 (nth y q) u hu) hX.2.2
      (by decide : 1 < 2) rfl (idx := [p', 0]) (inBounds2 (Finset.mem_range.mp hp') (by omega))
  rw [Finset.sum_congr rfl (fun j hj => by rw [s0 j hj])]
  have e1 : ∑ p' ∈ range sp.base0.lenPhys, m0 (nth x p) p' *
        ∑ q' ∈ range sp.base1.lenPhys, m1 (nth y q) q' * at_ X [p', q']
      = ∑ p' ∈ range sp.base0.lenPhys, m0 (nth x p) p' *
        ∑ j ∈ range sp.base1.lenSpec, iteratedDeriv d1 (ψ j) (nth y q) * at_ h [p', j] :=
    Finset.sum_congr rfl (fun p' hp' => by rw [← s1 p' hp'])
  rw [e1]
  simp only [Finset.mul_sum]
  rw [Finset.sum_comm]
  refine Finset.sum_congr rfl (fun i _ => Finset.sum_congr rfl (fun j _ => ?_))
  ring

/-- Two products of matrices are close if the factors are. -/
theorem product_close {n0 n1 : ℕ} {m0 m0' m1 m1' : ℕ → ℝ} {X : ℕ → ℕ → ℝ} {Λ0 Λ1 δ0 δ1 : ℝ}
    (h0 : ∀ (u : ℕ → ℝ) (M : ℝ), (∀ p < n0, |u p| ≤ M) → |∑ p ∈ range n0, m0 p * u p| ≤ Λ0 * M)
    (h1 : ∀ (u : ℕ → ℝ) (M : ℝ), (∀ q < n1, |u q| ≤ M) → |∑ q ∈ range n1, m1' q * u q| ≤ Λ1 * M)
    (hd1 : ∀ p < n0, |∑ q ∈ range n1, m1 q * X p q - ∑ q ∈ range n1, m1' q * X p q| ≤ δ1)
    (hd0 : ∀ q < n1, |∑ p ∈ range n0, m0 p * X p q - ∑ p ∈ range n0, m0' p * X p q| ≤ δ0) :
    |∑ p ∈ range n0, m0 p * ∑ q ∈ range n1, m1 q * X p q
      - ∑ p ∈ range n0, m0' p * ∑ q ∈ range n1, m1' q * X p q| ≤ Λ0 * δ1 + Λ1 * δ0 := by
  have e : ∀ m : ℕ → ℝ, ∑ p ∈ range n0, m p * ∑ q ∈ range n1, m1' q * X p q
      = ∑ q ∈ range n1, m1' q * ∑ p ∈ range n0, m p * X p q := fun m => by
    simp only [Finset.mul_sum]
    rw [Finset.sum_comm]
    exact Finset.sum_congr rfl (fun _ _ => Finset.sum_congr rfl (fun _ _ => by ring))
  have a1 := h0 (fun p => ∑ q ∈ range n1, m1 q * X p q - ∑ q ∈ range n1, m1' q * X p q) δ1 hd1
  have a2 := h1 (fun q => ∑ p ∈ range n0, m0 p * X p q - ∑ p ∈ range n0, m0' p * X p q) δ0 hd0
  have e2 : ∑ p ∈ range n0, m0 p * ∑ q ∈ range n1, m1 q * X p q
      - ∑ p ∈ range n0, m0' p * ∑ q ∈ range n1, m1' q * X p q
      = ∑ p ∈ range n0, m0 p * (∑ q ∈ range n1, m1 q * X p q - ∑ q ∈ range n1, m1' q * X p q)
        + ∑ q ∈ range n1, m1' q * (∑ p ∈ range n0, m0 p * X p q - ∑ p ∈ range n0, m0' p * X p q) := by
    rw [e m0']
    simp only [mul_sub, Finset.sum_sub_distrib]
    rw [e m0]
    ring
  rw [e2]
  exact (abs_add_le _ _).trans (add_le_add a1 a2)

end
end Verif
