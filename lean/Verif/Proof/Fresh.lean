/- The slice operators never read the old content of the output slice, in any arithmetic, and also when they fail. -/
import Verif.Proof.Accurate
import Verif.Proof.AnyOps
import Verif.Proof.RndStencil
import Verif.Proof.RndMixedSolve

namespace Verif
open Res Spec

section
variable {A : Type} [Zero A] [One A] [Neg A] [Add A] [Mul A] [Div A] [NatCast A] [DivBy A A] [HasDct A]

theorem Cheb.forward_fresh (b : Cheb) (n : ℕ) : Fresh (Cheb.forwardSlice (A := A) b) n n := by
  intro x out out' hx ho ho'
  have hz : ∀ f : A → A, zipSet f x.reverse out = zipSet f x.reverse out' := fun f => by
    rw [zipSet_eq_map _ _ _ (by simp; omega), zipSet_eq_map _ _ _ (by simp; omega)]
  unfold Cheb.forwardSlice
  simp only [ho, ho', hz]

theorem Cheb.backward_fresh (b : Cheb) (n : ℕ) : Fresh (Cheb.backwardSlice (A := A) b) n n := by
  intro x out out' hx ho ho'
  have hz : ∀ o : List A, o.length = n → forRange 0 n (fun i out => do
    (if i % 2 = 0 then do wr out i (← rd x i)
     else do wr out i ((← rd x i) * -1))) o = ok ((List.range n).map fun i => if i % 2 = 0 then nth x i else nth x i * -1) := by
    intro o ho
    refine eq_of_wp ?_
    refine wp_fill (fun i => if i % 2 = 0 then nth x i else nth x i * -1) ho ?_ rfl
    intro i hi v hv
    refine wp_ite_i (fun h => ?_) (fun h => ?_)
    · wprun; rw [if_pos h]
    · wprun; rw [if_neg h]
  unfold Cheb.backwardSlice
  simp only [ho, ho', hx, min_self, hz out ho, hz out' ho']

end

section
variable {K T : Type} [Mul K] [NatCast K] [Zero T] [Add T] [SMul K T] [DivBy K T]

theorem Cheb.gradient_fresh (b : Cheb) (n d : ℕ) : Fresh (fun x out : List T => b.gradientSlice K x out d) n n := by
  intro x out out' hx ho ho'
  show b.gradientSlice K x out d = b.gradientSlice K x out' d
  unfold Cheb.gradientSlice
  rw [zipSet_id_ok _ _ (hx.trans ho.symm), zipSet_id_ok _ _ (hx.trans ho'.symm), ho, ho']

end

section
variable {K T : Type} [Zero K] [One K] [Neg K] [Add K] [Sub K] [Mul K] [Div K] [NatCast K] [Pow K ℕ]
  [DivBy K K] [Zero T] [Add T] [Sub T] [SMul K T] [DivBy K T] {b : Compo K} {k : CKind} {n : ℕ}

theorem Compo.fromOrtho_fresh (hn : 4 ≤ n) (hk : k = .dirichlet ∨ k = .neumann ∨ k = .dirichletNeumann)
    (hb : Compo.new k n = ok b) : Fresh (fun x out : List T => b.fromOrthoSlice x out) n (n - 2) := by
  intro u out out' hu ho ho'
  show b.fromOrthoSlice u out = b.fromOrthoSlice u out'
  unfold Compo.fromOrthoSlice
  rcases hk with rfl | rfl | rfl
  · obtain ⟨-, -, -, s, hs, hf⟩ := Compo.dirichlet_form hn hb
    rw [hs]
    exact (hf.solve_eq u out (by omega) ho).trans (hf.solve_eq u out' (by omega) ho').symm
  · obtain ⟨-, -, -, s, l, hs, hf, -⟩ := Compo.neumann_form hn hb
    rw [hs]
    exact (hf.solve_eq u out (by omega) ho).trans (hf.solve_eq u out' (by omega) ho').symm
  · obtain ⟨-, -, -, s, l1, l2, hs, hf, -⟩ := Compo.mixed_form hn hb
    rw [hs]
    exact (hf.solve_eq u out (by omega) ho).trans (hf.solve_eq u out' (by omega) ho').symm

theorem Compo.toOrtho_fresh (hn : 4 ≤ n) (hk : k = .dirichlet ∨ k = .neumann ∨ k = .dirichletNeumann)
    (hb : Compo.new k n = ok b) : Fresh (fun x out : List T => b.toOrthoSlice x out) (n - 2) n := by
  unfold Compo.toOrthoSlice
  obtain ⟨j, rfl⟩ : ∃ j, n = j + 2 := ⟨n - 2, by omega⟩
  rcases hk with rfl | rfl | rfl
  · obtain ⟨-, -, -, s, hs, hf⟩ := Compo.dirichlet_form hn hb
    rw [hs]
    obtain ⟨g, hg⟩ := Stencil2.dot_any (T := T) hf.sized (by omega)
    exact hg.fresh
  · obtain ⟨-, -, -, s, l, hs, hf, -⟩ := Compo.neumann_form hn hb
    rw [hs]
    obtain ⟨g, hg⟩ := Stencil2.dot_any (T := T) hf.sized (by omega)
    exact hg.fresh
  · obtain ⟨-, -, -, s, l1, l2, hs, hf, -⟩ := Compo.mixed_form hn hb
    rw [hs]
    have hz : s.Sized (j + 2 - 2) := ⟨by rw [hf.diag]; simp, by rw [hf.low1]; simp, by rw [hf.low2]; simp,
      by rw [hf.fdiag]; simp, by rw [hf.foff1]; simp, by rw [hf.foff2]; simp⟩
    obtain ⟨g, hg⟩ := Stencil3.dot_any (T := T) hz (by omega)
    exact hg.fresh

end
end Verif
