/-
Property theorems for transforms and gradients of the composite Chebyshev bases: C21, C22.
-/
import Verif.Props.Stencils
import Verif.Props.Ortho

namespace Verif.Props
open Res Spec Finset

private theorem new_ok {n : ℕ} (hn : 2 ≤ n) : Cheb.new n = ok ⟨n, n⟩ := by
  unfold Cheb.new assertR
  rw [if_pos (by omega)]; rfl

section Real
variable {k : CKind} {n : ℕ} {b : Compo ℝ}

private theorem n_ge (hb : Compo.new k n = ok b) : 4 ≤ n :=
  le_trans (by cases k <;> decide) (Compo.wf_of_new hb).le

/-- C21: `backward(v)` returns the values of the represented function `∑ (S v)ₖ Tₖ` at the grid
points. -/
theorem C21_backward_evaluates (k : CKind)
    (hk : k = .dirichlet ∨ k = .neumann ∨ k = .dirichletNeumann) (n : ℕ) (b : Compo ℝ)
    (hb : Compo.new k n = ok b) (a out : List ℝ) (ha : a.length = b.lenSpec)
    (ho : out.length = b.lenPhys) :
    ∃ S x v, b.stencilMat = ok S ∧ b.coords = ok x ∧ b.backwardSlice a out = ok v ∧
      v.length = b.lenPhys ∧ x.length = b.lenPhys ∧
      ∀ j < b.lenPhys, nth v j = (chebPoly ℝ (mulVec S a)).eval (nth x j) := by
  have hw := Compo.wf_of_new hb
  have hn := n_ge hb
  have ho2 : b.lenOrth = n := by simp [Compo.lenOrth, Cheb.lenOrth, hw.ortho]
  have hp : b.lenPhys = n := hw.n_eq
  obtain ⟨S, hS, h1⟩ := C11_to_ortho_is_stencil k hk n b hb a (List.replicate b.lenOrth 0) ha (by simp)
  have hSl : (mulVec S a).length = n := by
    obtain ⟨S', hS', r1, r2, r3⟩ := wp_total.mp (Compo.wp_stencilMat hw)
    obtain rfl : S = S' := by rw [hS] at hS'; simpa using hS'
    simpa using r1
  obtain ⟨x, v, hx, hv, hl, he⟩ := C02_backward_evaluates n ⟨n, n⟩ (new_ok (by omega)) (mulVec S a) out
    hSl (by rw [ho, hp]; rfl)
  have hxl : x.length = n := by
    obtain ⟨x', hx', hl', -⟩ := C01_coords n ⟨n, n⟩ (new_ok (by omega))
    obtain rfl : x = x' := by rw [hx] at hx'; simpa using hx'
    exact hl'
  refine ⟨S, x, v, hS, ?_, ?_, by rw [hl, hxl, hp], by rw [hxl, hp], fun j hj => he j (by omega)⟩
  · rw [← hx]; unfold Compo.coords Cheb.coords; rw [hp]; rfl
  · unfold Compo.backwardSlice
    dsimp only
    rw [h1, bind_ok, hw.ortho, hv]

/-- C21: `forward(backward(v)) = v`. -/
theorem C21_forward_backward (k : CKind)
    (hk : k = .dirichlet ∨ k = .neumann ∨ k = .dirichletNeumann) (n : ℕ) (b : Compo ℝ)
    (hb : Compo.new k n = ok b) (hn : k.minSolve ≤ n) (a out out' : List ℝ)
    (ha : a.length = b.lenSpec) (ho : out.length = b.lenPhys) (ho' : out'.length = b.lenSpec) :
    ∃ v, b.backwardSlice a out = ok v ∧ b.forwardSlice v out' = ok a := by
  have hw := Compo.wf_of_new hb
  have hn4 := n_ge hb
  have hp : b.lenPhys = n := hw.n_eq
  have ho2 : b.lenOrth = n := by simp [Compo.lenOrth, Cheb.lenOrth, hw.ortho]
  obtain ⟨S, hS, h1⟩ := C11_to_ortho_is_stencil k hk n b hb a (List.replicate b.lenOrth 0) ha (by simp)
  obtain ⟨S', hS', h2⟩ := C13_from_ortho_stencil k n b hb hn a out' ha ho'
  obtain rfl : S = S' := by rw [hS] at hS'; simpa using hS'
  have hSl : (mulVec S a).length = n := by
    obtain ⟨S', hS', r1, r2, r3⟩ := wp_total.mp (Compo.wp_stencilMat hw)
    obtain rfl : S = S' := by rw [hS] at hS'; simpa using hS'
    simpa using r1
  obtain ⟨v, hv, hf⟩ := C03_forward_backward n ⟨n, n⟩ (new_ok (by omega)) (mulVec S a) out
    (List.replicate b.lenOrth 0) hSl (by rw [ho, hp]; rfl) (by simp [ho2, Cheb.lenSpec])
  refine ⟨v, ?_, ?_⟩
  · unfold Compo.backwardSlice
    dsimp only
    rw [h1, bind_ok, hw.ortho, hv]
  · unfold Compo.forwardSlice
    dsimp only
    rw [hw.ortho, hf, bind_ok, h2]

/-- C21: grid data `v` is reproduced by `backward(forward(v))` exactly when it is the grid data
of a polynomial of the base's degree satisfying the boundary conditions. -/
theorem C21_backward_forward_iff (k : CKind)
    (hk : k = .dirichlet ∨ k = .neumann ∨ k = .dirichletNeumann) (n : ℕ) (b : Compo ℝ)
    (hb : Compo.new k n = ok b) (hn : k.minSolve ≤ n) (v out out' : List ℝ)
    (hv : v.length = b.lenPhys) (ho : out.length = b.lenSpec) (ho' : out'.length = b.lenPhys) :
    ∃ x a v', b.coords = ok x ∧ b.forwardSlice v out = ok a ∧ b.backwardSlice a out' = ok v' ∧
      (v' = v ↔ ∃ c : List ℝ, c.length = b.lenOrth ∧ SatisfiesBC ℝ k c ∧
        ∀ j < b.lenPhys, nth v j = (chebPoly ℝ c).eval (nth x j)) := by
  have hw := Compo.wf_of_new hb
  have hn4 := n_ge hb
  have hp : b.lenPhys = n := hw.n_eq
  have ho2 : b.lenOrth = n := by simp [Compo.lenOrth, Cheb.lenOrth, hw.ortho]
  obtain ⟨u, hu, hbu⟩ := C03_backward_forward n ⟨n, n⟩ (new_ok (by omega)) v
    (List.replicate b.lenOrth 0) out' (by rw [hv, hp]; rfl) (by simp [ho2, Cheb.lenSpec])
    (by rw [ho', hp]; rfl)
  have hul : u.length = n := by
    obtain ⟨u', hu', hl, -⟩ := wp_total.mp (wp_forwardSlice ⟨n, n⟩ n rfl (by omega) v
      (List.replicate b.lenOrth 0) (by rw [hv, hp]) (by simp [ho2]))
    obtain rfl : u = u' := by rw [hu] at hu'; simpa using hu'
    exact hl
  obtain ⟨S, a, hS, ha, -, hrange⟩ := C15_projection k n b hb hn u out (by rw [hul, ho2]) ho
  obtain ⟨a', ha', hal⟩ := C19_from_ortho_total k n b hb hn u out (by rw [hul, ho2]) ho
  obtain rfl : a = a' := by rw [ha] at ha'; simpa using ha'
  obtain ⟨S', x, v', hS', hx, hv', hvl, hxl, he⟩ := C21_backward_evaluates k hk n b hb a out' hal ho'
  obtain rfl : S = S' := by rw [hS] at hS'; simpa using hS'
  obtain ⟨S', hS', hbc1, hbc2⟩ := C17_boundary_conditions (K := ℝ) (T := ℝ) k n b hb
  obtain rfl : S = S' := by rw [hS] at hS'; simpa using hS'
  have hSr : S.rows = n := by
    obtain ⟨S', hS', r1, r2, r3⟩ := wp_total.mp (Compo.wp_stencilMat hw)
    obtain rfl : S = S' := by rw [hS] at hS'; simpa using hS'
    exact r1
  -- `backward` of the orthogonal base, on any coefficients, evaluates on the same grid
  have hev : ∀ c : List ℝ, c.length = n → ∃ w, Cheb.backwardSlice ⟨n, n⟩ c out' = ok w ∧
      w.length = n ∧ ∀ j < n, nth w j = (chebPoly ℝ c).eval (nth x j) := by
    intro c hc
    obtain ⟨x', w, hx', hw', hwl, hwe⟩ := C02_backward_evaluates n ⟨n, n⟩ (new_ok (by omega)) c out'
      hc (by rw [ho', hp]; rfl)
    obtain rfl : x = x' := by
      have : b.coords = Cheb.coords ⟨n, n⟩ := by unfold Compo.coords Cheb.coords; rw [hp]; rfl
      rw [← this, hx] at hx'; simpa using hx'
    exact ⟨w, hw', by omega, fun j hj => hwe j (by omega)⟩
  refine ⟨x, a, v', hx, ?_, hv', ?_, ?_⟩
  · unfold Compo.forwardSlice
    dsimp only
    rw [hw.ortho, hu, bind_ok, ha]
  · rintro rfl
    exact ⟨mulVec S a, by simp [hSr, ho2], hbc1 a, he⟩
  · rintro ⟨c, hcl, hcbc, hce⟩
    obtain ⟨w, hcw⟩ := hbc2 c hcl hcbc
    -- the coefficients of `v` are `c`
    obtain ⟨w1, hw1, hw1l, hw1e⟩ := hev c (by omega)
    have hw1v : w1 = v := ext_nth (by omega) (fun j hj => by
      rw [hw1e j (by omega), hce j (by omega)])
    subst hw1v
    obtain ⟨v2, hv2, hc2⟩ := C03_forward_backward n ⟨n, n⟩ (new_ok (by omega)) c out'
      (List.replicate b.lenOrth 0) (by rw [hcl, ho2]; rfl) (by rw [ho', hp]; rfl)
      (by simp [ho2, Cheb.lenSpec])
    obtain rfl : w1 = v2 := by rw [hw1] at hv2; simpa using hv2
    obtain rfl : u = c := by rw [hu] at hc2; simpa using hc2
    have hSa := hrange.mpr ⟨w, hcw⟩
    refine ext_nth (by omega) (fun j hj => ?_)
    rw [he j (by omega), hSa, hce j (by omega)]

/-- C21 for the biharmonic bases: `backward` always runs into the out-of-bounds access of
`to_ortho` (C12). -/
theorem C21_biharmonic_backward_out_of_bounds (k : CKind)
    (hk : k = .biharmonicA ∨ k = .biharmonicB) (n : ℕ) (b : Compo ℝ)
    (hb : Compo.new k n = ok b) (a out : List ℝ) (ha : a.length = b.lenSpec) :
    b.backwardSlice a out = err .ub := by
  unfold Compo.backwardSlice
  dsimp only
  rw [C12_biharmonic_to_ortho_out_of_bounds k hk n b hb a _ ha (by simp), bind_err]

end Real

section Grad
variable {K T : Type} [Field K] [LinearOrder K] [IsStrictOrderedRing K] [AddCommGroup T]
  [Module K T]

/-- C22: `gradient(v, k)` returns the orthogonal Chebyshev coefficients of the `k`-th derivative
of the function `∑ (S v)ⱼ Tⱼ`. -/
theorem C22_gradient_is_derivative (kind : CKind)
    (hk : kind = .dirichlet ∨ kind = .neumann ∨ kind = .dirichletNeumann) (n : ℕ) (b : Compo K)
    (hb : Compo.new kind n = ok b) (v out : List T) (hv : v.length = b.lenSpec)
    (ho : out.length = b.lenOrth) (k : ℕ) :
    ∃ S g, b.stencilMat = ok S ∧ b.gradientSlice v out k = ok g ∧ g.length = b.lenOrth ∧
      ∀ x : K, chebVal K g x = chebDeriv K k (mulVec S v) x := by
  have hw := Compo.wf_of_new hb
  have hn : 4 ≤ n := le_trans (by cases kind <;> decide) hw.le
  have ho2 : b.lenOrth = n := by simp [Compo.lenOrth, Cheb.lenOrth, hw.ortho]
  obtain ⟨S, hS, h1⟩ := C11_to_ortho_is_stencil kind hk n b hb v (List.replicate b.lenOrth 0) hv (by simp)
  have hSl : (mulVec S v).length = n := by
    obtain ⟨S', hS', r1, r2, r3⟩ := wp_total.mp (Compo.wp_stencilMat hw)
    obtain rfl : S = S' := by rw [hS] at hS'; simpa using hS'
    simpa using r1
  obtain ⟨g, hg, hgl, hgv, -⟩ := C04_gradient_is_derivative (K := K) n (by omega) ⟨n, n⟩
    (new_ok (by omega)) (mulVec S v) out hSl (by rw [ho, ho2]; rfl) k
  refine ⟨S, g, hS, ?_, by rw [hgl, ho2]; rfl, hgv⟩
  unfold Compo.gradientSlice
  dsimp only
  rw [h1, bind_ok, hw.ortho, hg]

/-- C22: for `k = 1..4` the gradient is `diffmat(k) · stencil() · v`. -/
theorem C22_gradient_is_diffmat_stencil (o : Mode) (kind : CKind)
    (hk : kind = .dirichlet ∨ kind = .neumann ∨ kind = .dirichletNeumann) (n : ℕ) (b : Compo K)
    (hb : Compo.new kind n = ok b) (v out : List T) (hv : v.length = b.lenSpec)
    (ho : out.length = b.lenOrth) (k : ℕ) (hk4 : 1 ≤ k ∧ k ≤ 4) (hm : n ≤ dmatMax o k) :
    ∃ S D, b.stencilMat = ok S ∧ b.diffmat o k = ok D ∧
      b.gradientSlice v out k = ok (mulVec D (mulVec S v)) := by
  have hw := Compo.wf_of_new hb
  have hn : 4 ≤ n := le_trans (by cases kind <;> decide) hw.le
  have ho2 : b.lenOrth = n := by simp [Compo.lenOrth, Cheb.lenOrth, hw.ortho]
  obtain ⟨S, hS, h1⟩ := C11_to_ortho_is_stencil kind hk n b hb v (List.replicate b.lenOrth 0) hv (by simp)
  have hSl : (mulVec S v).length = n := by
    obtain ⟨S', hS', r1, r2, r3⟩ := wp_total.mp (Compo.wp_stencilMat hw)
    obtain rfl : S = S' := by rw [hS] at hS'; simpa using hS'
    simpa using r1
  obtain ⟨D, hD, hg⟩ := C06_diffmat_is_gradient (K := K) o n (by omega) ⟨n, n⟩
    (new_ok (by omega)) k hk4 hm (mulVec S v) out hSl (by rw [ho, ho2]; rfl)
  refine ⟨S, D, hS, ?_, ?_⟩
  · unfold Compo.diffmat; rw [hw.ortho, hD]
  · unfold Compo.gradientSlice
    dsimp only
    rw [h1, bind_ok, hw.ortho, hg]

/-- C22 for the biharmonic bases: `gradient` always runs into the out-of-bounds access of
`to_ortho` (C12). -/
theorem C22_biharmonic_gradient_out_of_bounds (kind : CKind)
    (hk : kind = .biharmonicA ∨ kind = .biharmonicB) (n : ℕ) (b : Compo K)
    (hb : Compo.new kind n = ok b) (v out : List T) (hv : v.length = b.lenSpec) (k : ℕ) :
    b.gradientSlice v out k = err .ub := by
  unfold Compo.gradientSlice
  dsimp only
  rw [C12_biharmonic_to_ortho_out_of_bounds kind hk n b hb v _ hv (by simp), bind_err]

example : runBase .dirichlet 6 (fun b => b.gradientSlice ([1, 2, 3, 4] : List ℚ)
    [9, 9, 9, 9, 9, 9] 2) = runBase .dirichlet 6 (fun b => do
      pure (mulVec (← b.diffmat .debug 2) (mulVec (← b.stencilMat) ([1, 2, 3, 4] : List ℚ)))) := by
  decide +kernel

end Grad
end Verif.Props
