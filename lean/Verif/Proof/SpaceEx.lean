/-
Existence of the bases used to show that the hypotheses of the theorems about spaces can be met.
-/
import Verif.Props.Axis
import Verif.Spec.Space

namespace Verif
open Res Spec

theorem isCheb_exists {T : Type} [AddCommGroup T] [Module ℝ T] {n : ℕ} (h : 2 ≤ n) :
    ∃ b : Base ℝ ℝ T, IsCheb n b ∧ IsR2r b ∧ b.lenPhys = n ∧ b.lenSpec = n ∧ b.lenOrth = n := by
  refine ⟨(BaseR2r.chebyshev ⟨n, n⟩).toBase T, ⟨_, ?_, rfl⟩, ⟨none, n, _, ?_, trivial, trivial, rfl⟩,
    rfl, rfl, rfl⟩ <;> (show chebyshev n = _; unfold chebyshev; rw [cheb_new_ok h]; rfl)

theorem isDirichlet_exists {T : Type} [AddCommGroup T] [Module ℝ T] {n : ℕ} (h : 5 ≤ n) :
    ∃ b : Base ℝ ℝ T, IsR2r b ∧ b.lenPhys = n ∧ b.lenSpec = n - 2 ∧ b.lenOrth = n := by
  obtain ⟨b, hb⟩ := Props.newR2r_exists (some .dirichlet) n (by omega)
    (by rintro c ⟨⟩; exact Nat.le_trans (by decide) h)
  refine ⟨b.toBase T, ⟨some .dirichlet, n, b, hb, Or.inl rfl, h, rfl⟩, ?_⟩
  obtain ⟨c, hc, rfl⟩ := composite_inv hb
  have hw := Compo.wf_of_new hc
  exact ⟨hw.n_eq, hw.m_eq, by show c.lenOrth = n; simp [Compo.lenOrth, Cheb.lenOrth, hw.ortho]⟩

theorem isR2c_exists {n : ℕ} (h : 1 ≤ n) :
    ∃ b, IsR2c n b ∧ b.lenPhys = n ∧ b.lenSpec = n / 2 + 1 ∧ b.lenOrth = n / 2 + 1 :=
  ⟨_, ⟨h, _, rfl, rfl⟩, rfl, rfl, rfl⟩

theorem isC2c_exists {n : ℕ} (h : 1 ≤ n) :
    ∃ b, IsC2c n b ∧ b.lenPhys = n ∧ b.lenSpec = n ∧ b.lenOrth = n := by
  refine ⟨_, ⟨h, .fourierC2c ⟨n, n⟩, ?_, rfl⟩, rfl, rfl, rfl⟩
  rfl

/-- an array of any shape filled with a constant -/
theorem good_fill {T : Type} (c : T) (sh : List ℕ) :
    Good (⟨sh, List.replicate sh.prod c, true⟩ : Arr T) sh :=
  ⟨List.length_replicate .., rfl, rfl⟩

end Verif
