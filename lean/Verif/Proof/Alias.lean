/-
Aliasing on the grids.
-/
import Verif.Spec.Aliasing
import Verif.Props.Calculus
import Verif.Proof.ChebSeries

namespace Verif
open Res Spec Finset Polynomial

theorem chebAlias_lt {n : ℕ} (hn : 2 ≤ n) (k : ℕ) : chebAlias n k < n := by
  unfold chebAlias
  have := Nat.mod_lt k (show 0 < 2 * (n - 1) by omega)
  omega

theorem chebAlias_of_lt {n k : ℕ} (hn : 2 ≤ n) (hk : k < n) : chebAlias n k = k := by
  unfold chebAlias
  rw [Nat.mod_eq_of_lt (show k < 2 * (n - 1) by omega)]
  omega

theorem chebAlias_le {n : ℕ} (k : ℕ) : chebAlias n k ≤ k := by
  unfold chebAlias
  exact (min_le_left _ _).trans (Nat.mod_le _ _)

/-- `Tₖ` and its alias agree on the grid. -/
theorem T_chebAlias {n : ℕ} (hn : 2 ≤ n) (k j : ℕ) :
    (Chebyshev.T ℝ (chebAlias n k : ℕ)).eval (-Real.cos (Real.pi * j / (n - 1 : ℕ)))
      = (Chebyshev.T ℝ k).eval (-Real.cos (Real.pi * j / (n - 1 : ℕ))) := by
  have hN : ((n - 1 : ℕ) : ℝ) ≠ 0 := by exact_mod_cast (show n - 1 ≠ 0 by omega)
  set N := n - 1 with hNd
  have hcos : ∀ m : ℕ, (Chebyshev.T ℝ m).eval (-Real.cos (Real.pi * j / (N : ℕ)))
      = Real.cos (m * (Real.pi - Real.pi * j / (N : ℕ))) := fun m => by
    rw [← Real.cos_pi_sub]
    exact_mod_cast Chebyshev.T_real_cos _ (m : ℤ)
  rw [hcos, hcos]
  have hk : k = 2 * N * (k / (2 * N)) + k % (2 * N) := (Nat.div_add_mod _ _).symm
  have hkr : (k : ℝ) = 2 * N * ((k / (2 * N) : ℕ) : ℝ) + ((k % (2 * N) : ℕ) : ℝ) := by
    exact_mod_cast hk
  have hr : k % (2 * N) < 2 * N := Nat.mod_lt _ (by omega)
  set q := k / (2 * N)
  set r := k % (2 * N)
  have h1 : Real.cos (k * (Real.pi - Real.pi * j / (N : ℕ)))
      = Real.cos (r * (Real.pi - Real.pi * j / (N : ℕ))) := by
    rw [hkr, show (2 * N * (q : ℝ) + (r : ℝ)) * (Real.pi - Real.pi * j / (N : ℕ))
      = r * (Real.pi - Real.pi * j / (N : ℕ)) + (((q : ℤ) * ((N : ℤ) - j) : ℤ) : ℝ) * (2 * Real.pi) by
        push_cast; field_simp; ring]
    exact Real.cos_add_int_mul_two_pi _ _
  rw [h1]
  unfold chebAlias
  rw [← hNd]
  change Real.cos ((min r (2 * N - r) : ℕ) * _) = _
  rcases le_total r (2 * N - r) with h | h
  · rw [min_eq_left h]
  · rw [min_eq_right h, Nat.cast_sub hr.le]
    rw [show ((2 * N : ℕ) - (r : ℝ)) * (Real.pi - Real.pi * j / (N : ℕ))
      = (((N : ℤ) - j : ℤ) : ℝ) * (2 * Real.pi) - r * (Real.pi - Real.pi * j / (N : ℕ)) by
        push_cast; field_simp]
    exact Real.cos_int_mul_two_pi_sub _ _

/-- Interpolation of a function that agrees on the grid with the polynomial of coefficients `c`. -/
theorem cheb_forward_of_grid {n : ℕ} {b : Cheb} (hb : Cheb.new n = ok b) {x : List ℝ}
    (hx : b.coords = ok x) (f : ℝ → ℝ) (c out : List ℝ) (hc : c.length = b.lenSpec)
    (ho : out.length = b.lenSpec) (h : ∀ j < n, (chebPoly ℝ c).eval (nth x j) = f (nth x j)) :
    b.forwardSlice (x.map f) out = ok c := by
  have hlen : b.lenPhys = b.lenSpec := by obtain ⟨rfl, -⟩ := Props.cheb_of_new hb; rfl
  have hln : b.lenSpec = n := by obtain ⟨rfl, -⟩ := Props.cheb_of_new hb; rfl
  obtain ⟨v, hv, hvf⟩ := Props.C03_forward_backward n b hb c out out hc (by rw [ho, hlen]) ho
  obtain ⟨x', v', hx', hv', hl', he'⟩ := Props.C02_backward_evaluates n b hb c out hc (by rw [ho, hlen])
  obtain ⟨x2, hx2, hx2l, -⟩ := Props.C01_coords n b hb
  obtain rfl : x = x' := by rw [hx] at hx'; exact Res.ok.inj hx'
  obtain rfl : x = x2 := by rw [hx] at hx2; exact Res.ok.inj hx2
  obtain rfl : v = v' := by rw [hv] at hv'; exact Res.ok.inj hv'
  have : v = x.map f := ext_nth (by simpa using hl') (fun j hj => by
    rw [he' j (by omega), nth_map _ _ _ (by omega), h j (by omega)])
  rw [← this]
  exact hvf

end Verif
