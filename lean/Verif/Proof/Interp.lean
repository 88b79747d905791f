/-
The interpolant that `forward` of the Chebyshev base computes of a smooth function: one polynomial for all derivatives.
-/
import Verif.Props.Smooth

namespace Verif
open Res Spec Finset Polynomial Props

private theorem rate_of {d p : ℕ} {f : ℝ → ℝ} {K : ℝ} {n : ℕ} (hn : 3 ≤ n) {b : Cheb} (hb : Cheb.new n = ok b)
    (hK : ∀ out out' out'' : List ℝ, out.length = b.lenSpec → out'.length = b.lenOrth → out''.length = b.lenPhys →
      ∃ x c g v, b.coords = ok x ∧ b.forwardSlice (x.map f) out = ok c ∧ b.gradientSlice ℝ c out' d = ok g ∧
        b.backwardSlice g out'' = ok v ∧ v.length = n ∧
        (∀ y ∈ Set.Icc (-1 : ℝ) 1, |(chebPoly ℝ g).eval y - iteratedDerivWithin d f (Set.Icc (-1) 1) y|
          ≤ K / (n : ℝ) ^ (p - 2 * d - 1)) ∧
        ∀ j < n, |nth v j - iteratedDerivWithin d f (Set.Icc (-1) 1) (nth x j)| ≤ K / (n : ℝ) ^ (p - 2 * d - 1))
    {x out c : List ℝ} (ho : out.length = b.lenSpec) (hx : b.coords = ok x) (hc : b.forwardSlice (x.map f) out = ok c) :
    c.length = n ∧ ∀ y ∈ Set.Icc (-1 : ℝ) 1, |(derivative^[d] (chebPoly ℝ c)).eval y - iteratedDerivWithin d f (Set.Icc (-1) 1) y|
      ≤ K / (n : ℝ) ^ (p - 2 * d - 1) := by
  obtain ⟨x', c', g, v, h1, h2, h3, -, -, h6, -⟩ := hK out (List.replicate b.lenOrth 0) (List.replicate b.lenPhys 0) ho
    (by simp) (by simp)
  obtain rfl := Res.ok.inj (hx.symm.trans h1)
  obtain rfl := Res.ok.inj (hc.symm.trans h2)
  obtain ⟨rfl, hn2⟩ := cheb_of_new hb
  obtain ⟨c', e1, e2, -⟩ := wp_total.mp (wp_forwardSlice ⟨n, n⟩ n rfl hn2 (x.map f) out (by
    obtain ⟨x', e, l, -⟩ := C01_coords n _ hb
    obtain rfl := Res.ok.inj (hx.symm.trans e)
    simp [l, Cheb.lenPhys]) ho)
  obtain rfl := Res.ok.inj (hc.symm.trans e1)
  obtain ⟨g', f1, -, f3⟩ := C04_gradient_polynomial (K := ℝ) n hn _ hb c (List.replicate (Cheb.lenOrth ⟨n, n⟩) 0) e2 (by simp) d
  obtain rfl := Res.ok.inj (h3.symm.trans f1)
  exact ⟨e2, fun y hy => by rw [← f3]; exact h6 y hy⟩

/-- The interpolant of a smooth function and its derivatives. -/
theorem interp_rate (d p : ℕ) (hdp : 2 * d + 2 ≤ p) (f : ℝ → ℝ) (hf : ContDiffOn ℝ p f (Set.Icc (-1) 1)) :
    ∃ K : ℝ, ∀ (n : ℕ) (_ : 3 ≤ n) (b : Cheb) (_ : Cheb.new n = ok b) (x out c : List ℝ), out.length = b.lenSpec →
      b.coords = ok x → b.forwardSlice (x.map f) out = ok c →
      c.length = n ∧ ∀ y ∈ Set.Icc (-1 : ℝ) 1, |(derivative^[d] (chebPoly ℝ c)).eval y - iteratedDerivWithin d f (Set.Icc (-1) 1) y|
          ≤ K / (n : ℝ) ^ (p - 2 * d - 1) := by
  obtain ⟨K, hK⟩ := C116_chebyshev d p hdp f hf
  exact ⟨K, fun n hn b hb x out c ho hx hc => rate_of hn hb (hK n hn b hb) ho hx hc⟩

/-- The same with the constant in terms of a bound of a derivative. -/
theorem interp_rate_B (d p : ℕ) (hdp : 2 * d + 2 ≤ p) (f : ℝ → ℝ) (hf : ContDiffOn ℝ p f (Set.Icc (-1) 1)) (M : ℝ)
    (hB : ∀ θ, |iteratedDeriv p (fun θ => f (Real.cos θ)) θ| ≤ M) (n : ℕ) (hn : 3 ≤ n) (b : Cheb) (hb : Cheb.new n = ok b)
    (x out c : List ℝ) (ho : out.length = b.lenSpec) (hx : b.coords = ok x) (hc : b.forwardSlice (x.map f) out = ok c) :
    c.length = n ∧ ∀ y ∈ Set.Icc (-1 : ℝ) 1, |(derivative^[d] (chebPoly ℝ c)).eval y - iteratedDerivWithin d f (Set.Icc (-1) 1) y|
      ≤ 16 * M / (n : ℝ) ^ (p - 2 * d - 1) := by
  obtain ⟨a, hM, hsum⟩ := cheb_series_B p (by omega) f hf M hB
  have h0 : 0 ≤ 4 * M := by have := (abs_nonneg _).trans (hB 0); positivity
  have := rate_of (K := 4 * (4 * M)) hn hb (fun out out' out'' => cheb_rate h0 hM d hdp f hsum n hn b hb out out' out'') ho hx hc
  rwa [← mul_assoc, show (4 * 4 : ℝ) = 16 by norm_num] at this

/-- The interpolant takes the values of the function at the grid points. -/
theorem interp_grid (f : ℝ → ℝ) (n : ℕ) (b : Cheb) (hb : Cheb.new n = ok b) (x out c : List ℝ)
    (ho : out.length = b.lenSpec) (hx : b.coords = ok x) (hc : b.forwardSlice (x.map f) out = ok c) :
    (∀ j < n, (chebPoly ℝ c).eval (nth x j) = f (nth x j)) ∧ (chebPoly ℝ c).eval (-1) = f (-1) ∧ (chebPoly ℝ c).eval 1 = f 1 := by
  obtain ⟨rfl, hn⟩ := cheb_of_new hb
  obtain ⟨x', e, l, -, e0, e1, -⟩ := C01_coords n _ hb
  obtain rfl := Res.ok.inj (hx.symm.trans e)
  have hl : (x.map f).length = Cheb.lenPhys ⟨n, n⟩ := by simp [l, Cheb.lenPhys]
  obtain ⟨a, ha, hv⟩ := C03_backward_forward n _ hb (x.map f) out (List.replicate n 0) hl ho (by simp [Cheb.lenPhys])
  obtain rfl := Res.ok.inj (hc.symm.trans ha)
  obtain ⟨c', g1, g2, -⟩ := wp_total.mp (wp_forwardSlice ⟨n, n⟩ n rfl hn (x.map f) out hl ho)
  obtain rfl := Res.ok.inj (hc.symm.trans g1)
  obtain ⟨x', v, h1, h2, -, h4⟩ := C02_backward_evaluates n _ hb c (List.replicate n 0) g2 (by simp [Cheb.lenPhys])
  obtain rfl := Res.ok.inj (hx.symm.trans h1)
  obtain rfl := Res.ok.inj (hv.symm.trans h2)
  have key : ∀ j < n, (chebPoly ℝ c).eval (nth x j) = f (nth x j) := fun j hj => by
    rw [← h4 j (by omega), nth_map _ _ _ (by omega)]
  refine ⟨key, ?_, ?_⟩
  · have := key 0 (by omega); rwa [e0] at this
  · have := key (n - 1) (by omega); rwa [e1] at this

end Verif
