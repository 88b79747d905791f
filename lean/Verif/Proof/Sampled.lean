/-
Differentiation of sampled functions in two dimensions: `backward` of the orthogonal space after
`gradient`.
-/
import Verif.Props.SpaceInst
import Verif.Proof.Pencil

namespace Verif
open Res Spec Finset

section
variable {T : Type} [AddCommGroup T] [Module ℝ T]

/-- `so.backward(sp.gradient(v))` evaluates the derivative of the function with coefficients `v`,
if this holds for the bases. -/
theorem sampled2 (sp so : Space2 ℝ ℝ T T) {d0 d1 : ℕ} {ℓ μ' : ℕ → ℝ → T →ₗ[ℝ] ℝ} {e ψ : ℕ → ℝ → ℝ}
    (l0 : so.base0.lenSpec = sp.base0.lenOrth) (l1 : so.base1.lenSpec = sp.base1.lenOrth)
    (h0o : Evaluates so.base0 (fun k x => ℓ k x))
    (h0g : ∃ g, Computes (fun v out => sp.base0.gradientSlice v out d0) sp.base0.lenSpec
      sp.base0.lenOrth g ∧ ∀ v, v.length = sp.base0.lenSpec → ∀ x : ℝ,
        ∑ k ∈ range sp.base0.lenOrth, ℓ k x (nth (g v) k)
          = ∑ i ∈ range sp.base0.lenSpec, μ' i x (nth v i))
    (h1o : Evaluates so.base1 (fun k y s => e k y * s))
    (h1g : Differentiates sp.base1 d1 e ψ)
    {v : Arr T} (hv : Good v sp.shapeSpectral) {scale : Option (ℝ × ℝ)}
    (hsc : scale ≠ none → d0 < 2 ^ 31 ∧ d1 < 2 ^ 31) (hne : scale2 d0 d1 scale ≠ 0) :
    ∃ x y g w, so.coords = ok [x, y] ∧ sp.gradient v d0 d1 scale = ok g ∧ so.backward g = ok w ∧
      Good w so.shapePhysical ∧
      ∀ p < so.base0.lenPhys, ∀ q < so.base1.lenPhys, at_ w [p, q] = (scale2 d0 d1 scale)⁻¹ *
        ∑ j ∈ range sp.base1.lenSpec, iteratedDeriv d1 (ψ j) (nth y q) *
          ∑ i ∈ range sp.base0.lenSpec, μ' i (nth x p) (at_ v [i, j]) := by
  obtain ⟨g0, c0, r0⟩ := h0g
  obtain ⟨g1, c1, r1⟩ := h1g
  have k0 := good_mapAx g0 sp.base0.lenOrth 0 hv.2.2
  have k1 := good_mapAx g1 sp.base1.lenOrth 1 k0.2.2
  have hg := sp.gradient_eq c0 c1 hv hsc hne
  obtain ⟨x, y, w, hc, -, -, hw, hwG, hwe⟩ := Props.C54_space2_backward so h0o h1o
    (v := scaleArr (scale2 d0 d1 scale)⁻¹ (mapAx g1 sp.base1.lenOrth 1 (mapAx g0 sp.base0.lenOrth 0 v)))
    (by
      have := good_scaleArr (c := (scale2 d0 d1 scale)⁻¹) k1
      have e : so.shapeSpectral = [sp.base0.lenOrth, sp.base1.lenOrth] := by
        rw [← l0, ← l1]; rfl
      rw [e]; exact this)
  refine ⟨x, y, _, w, hc, hg, hw, hwG, fun p hp q hq => ?_⟩
  rw [hwe p hp q hq]
  set h := mapAx g0 sp.base0.lenOrth 0 v with hh
  have hu : h.shape = [sp.base0.lenOrth, sp.base1.lenSpec] := k0.2.2
  rw [l0, l1]
  simp only [at_scaleArr, map_smul, smul_eq_mul]
  have s1 : ∀ k ∈ range sp.base0.lenOrth, ∑ l ∈ range sp.base1.lenOrth,
      e l (nth y q) • at_ (mapAx g1 sp.base1.lenOrth 1 h) [k, l]
      = ∑ j ∈ range sp.base1.lenSpec, iteratedDeriv d1 (ψ j) (nth y q) • at_ h [k, j] :=
    fun k hk => mapAx_functional c1.len (fun k x => e k (nth y q) • x)
      (fun i x => iteratedDeriv d1 (ψ i) (nth y q) • x) (fun u hu => r1 u hu (nth y q)) hu
      (by decide : 1 < 2) rfl (idx := [k, 0]) (inBounds2 (Finset.mem_range.mp hk) (by omega))
  have s2 : ∀ j ∈ range sp.base1.lenSpec, ∑ k ∈ range sp.base0.lenOrth, ℓ k (nth x p) (at_ h [k, j])
      = ∑ i ∈ range sp.base0.lenSpec, μ' i (nth x p) (at_ v [i, j]) :=
    fun j hj => mapAx_functional c0.len (fun k u => ℓ k (nth x p) u)
      (fun i u => μ' i (nth x p) u) (fun u hu => r0 u hu (nth x p)) hv.2.2
      (by decide : 0 < 2) rfl (idx := [0, j]) (inBounds2 (by omega) (Finset.mem_range.mp hj))
  calc ∑ l ∈ range sp.base1.lenOrth, e l (nth y q) * ∑ k ∈ range sp.base0.lenOrth,
          (scale2 d0 d1 scale)⁻¹ * ℓ k (nth x p) (at_ (mapAx g1 sp.base1.lenOrth 1 h) [k, l])
      = (scale2 d0 d1 scale)⁻¹ * ∑ k ∈ range sp.base0.lenOrth, ℓ k (nth x p)
          (∑ l ∈ range sp.base1.lenOrth, e l (nth y q) • at_ (mapAx g1 sp.base1.lenOrth 1 h) [k, l]) := by
        simp only [map_sum, map_smul, smul_eq_mul, Finset.mul_sum]
        rw [Finset.sum_comm]
        refine Finset.sum_congr rfl (fun k _ => Finset.sum_congr rfl (fun l _ => ?_))
        ring
    _ = (scale2 d0 d1 scale)⁻¹ * ∑ k ∈ range sp.base0.lenOrth, ℓ k (nth x p)
          (∑ j ∈ range sp.base1.lenSpec, iteratedDeriv d1 (ψ j) (nth y q) • at_ h [k, j]) := by
        rw [Finset.sum_congr rfl (fun k hk => by rw [s1 k hk])]
    _ = _ := by
        simp only [map_sum, map_smul, smul_eq_mul]
        rw [Finset.sum_comm]
        congr 1
        refine Finset.sum_congr rfl (fun j hj => ?_)
        rw [← s2 j hj, Finset.mul_sum]

end

end Verif
