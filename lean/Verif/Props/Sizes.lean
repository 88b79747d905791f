/-
Property C51: the minimum sizes of the bases, and which calls are memory safe.
-/
import Verif.Proof.Sizes
import Verif.Props.Compo
import Verif.Props.Axis

namespace Verif.Props
open Res Spec

/-! ### construction -/

/-- C51: a Chebyshev base of size `n` can be constructed exactly from `n = 2` on, a composite base
exactly from `n = 4` (two conditions) or `n = 8` (four conditions) on; below, the constructor
panics. -/
theorem C51_new (k : Option CKind) (n : ℕ) :
    (k.elim 2 CKind.minNew ≤ n → ∃ b, newR2r k n = ok b) ∧
    (n < k.elim 2 CKind.minNew → newR2r k n = err .panic) := by
  refine ⟨fun h => ?_, fun h => ?_⟩
  · cases k with
    | none => exact newR2r_exists none n h (by rintro c ⟨⟩)
    | some c => exact newR2r_exists (some c) n (le_trans (by cases c <;> decide) h) (by rintro _ ⟨⟩; exact h)
  · cases k with
    | none =>
      have h' : ¬ n > 1 := by simp only [Option.elim] at h; omega
      show chebyshev n = _
      unfold chebyshev Cheb.new assertR
      rw [if_neg h']
      rfl
    | some c =>
      show chebComposite c n = _
      unfold chebComposite
      rw [Compo.new_panics c n h]
      rfl

example : (∃ b, newR2r (some .dirichlet) 4 = ok b) ∧ newR2r (some .dirichlet) 3 = err .panic :=
  ⟨(C51_new _ _).1 (by decide), (C51_new _ _).2 (by decide)⟩

/-! ### the operators, size by size -/

section
variable {T : Type} [AddCommGroup T] [Module ℝ T]

theorem runsOn_of_computes {S T : Type} {f : List S → List T → Res (List T)} {n m : ℕ}
    (h : ∃ g, Computes f n m g) : RunsOn f n m := by
  obtain ⟨g, hg⟩ := h
  exact fun x out hx ho => ⟨g x, hg x out hx ho⟩

theorem compo_from_ortho_small {K T : Type} [Field K] [LinearOrder K] [IsStrictOrderedRing K]
    [AddCommGroup T] [Module K T] {k : CKind} {n : ℕ} {b : Compo K}
    (hb : b.Wf k n) (hs : n < k.minSolve) (u v : List T) (hu : u.length = n)
    (hv : v.length = b.m) : b.fromOrthoSlice u v = err .panic := by
  have hmn := hb.m_add
  have hst := hb.st
  unfold Compo.fromOrthoSlice Stencils.solve
  cases k <;> simp only [] at hst <;> obtain ⟨s, hs', hw⟩ := hst <;> rw [hs'] <;>
    simp only [CKind.nbc, CKind.minSolve] at hmn hs
  · exact Stencil2.solve_small hw (by omega) u v (by omega) hv
  · exact Stencil2.solve_small hw (by omega) u v (by omega) hv
  · exact Stencil3.solve_small hw (by omega) u v (by omega) hv
  · exact Stencil4.solve_small hw (by omega) u v (by omega) hv
  · exact Stencil4.solve_small hw (by omega) u v (by omega) hv

/-- C51: the projection `from_ortho` of a constructible base runs from the size `minSolve` on, and
below it panics (an assertion of the banded solver), whatever the data. -/
theorem C51_from_ortho (k : Option CKind) (n : ℕ) (b : BaseR2r) (hb : newR2r k n = ok b) :
    (RunsSolve k n →
      RunsOn (b.toBase T).fromOrthoSlice (b.toBase T).lenOrth (b.toBase T).lenSpec) ∧
    (¬ RunsSolve k n →
      FailsOn .panic (b.toBase T).fromOrthoSlice (b.toBase T).lenOrth (b.toBase T).lenSpec) := by
  refine ⟨fun h => runsOn_of_computes (LinOp.computes (r2r_fromOrtho_lin (R := ℝ) hb h)), fun h => ?_⟩
  cases k with
  | none => exact absurd trivial h
  | some c =>
    obtain ⟨b', hb', rfl⟩ := composite_inv hb
    have hw := Compo.wf_of_new hb'
    intro x out hx ho
    refine compo_from_ortho_small hw (Nat.lt_of_not_le h) x out ?_ ho
    have e : b'.lenOrth = n := by simp [Compo.lenOrth, Cheb.lenOrth, hw.ortho]
    rw [← e]; exact hx

/-- C51: `forward` runs on exactly the same sizes. -/
theorem C51_forward (k : Option CKind) (n : ℕ) (b : BaseR2r) (hb : newR2r k n = ok b) :
    (RunsSolve k n →
      RunsOn (b.toBase T).forwardSlice (b.toBase T).lenPhys (b.toBase T).lenSpec) ∧
    (¬ RunsSolve k n →
      FailsOn .panic (b.toBase T).forwardSlice (b.toBase T).lenPhys (b.toBase T).lenSpec) := by
  refine ⟨fun h => runsOn_of_computes (LinOp.computes (r2r_forward_lin hb h)), fun h => ?_⟩
  cases k with
  | none => exact absurd trivial h
  | some c =>
    obtain ⟨b', hb', rfl⟩ := composite_inv hb
    have hw := Compo.wf_of_new hb'
    have hn : 4 ≤ n := le_trans (by cases c <;> decide) hw.le
    have hp : b'.lenPhys = n := hw.n_eq
    have e : b'.lenOrth = n := by simp [Compo.lenOrth, Cheb.lenOrth, hw.ortho]
    intro x out hx ho
    change x.length = b'.lenPhys at hx
    show b'.forwardSlice x out = err .panic
    unfold Compo.forwardSlice
    obtain ⟨g, hg⟩ := LinOp.computes (cheb_forward_lin (n := n) (by omega))
    obtain ⟨h1, h2⟩ := hg x (List.replicate n 0) (by rw [hx, hp]) (by simp [Cheb.lenSpec])
    dsimp only
    rw [hw.ortho, e, h1, bind_ok]
    exact compo_from_ortho_small hw (Nat.lt_of_not_le h) _ out h2 ho

/-- C51: the expansion `to_ortho` runs for every constructible base that is not biharmonic; for
the biharmonic bases it reads out of bounds, at every size. -/
theorem C51_to_ortho (k : Option CKind) (n : ℕ) (b : BaseR2r) (hb : newR2r k n = ok b) :
    (RunsMul k → RunsOn (b.toBase T).toOrthoSlice (b.toBase T).lenSpec (b.toBase T).lenOrth) ∧
    (¬ RunsMul k →
      FailsOn .ub (b.toBase T).toOrthoSlice (b.toBase T).lenSpec (b.toBase T).lenOrth) := by
  refine ⟨fun h => runsOn_of_computes (LinOp.computes (r2r_toOrtho_lin (R := ℝ) hb h)), fun h => ?_⟩
  cases k with
  | none => exact absurd trivial h
  | some c =>
    obtain ⟨b', hb', rfl⟩ := composite_inv hb
    have hc : c = .biharmonicA ∨ c = .biharmonicB := by
      cases c <;> first | exact Or.inl rfl | exact Or.inr rfl | exact absurd (by simp [RunsMul]) h
    intro x out hx ho
    exact C12_biharmonic_to_ortho_out_of_bounds c hc n b' hb' x out hx ho

/-- C51: `backward` likewise. -/
theorem C51_backward (k : Option CKind) (n : ℕ) (b : BaseR2r) (hb : newR2r k n = ok b) :
    (RunsMul k → RunsOn (b.toBase T).backwardSlice (b.toBase T).lenSpec (b.toBase T).lenPhys) ∧
    (¬ RunsMul k →
      FailsOn .ub (b.toBase T).backwardSlice (b.toBase T).lenSpec (b.toBase T).lenPhys) := by
  refine ⟨fun h => runsOn_of_computes (LinOp.computes (r2r_backward_lin hb h)), fun h => ?_⟩
  cases k with
  | none => exact absurd trivial h
  | some c =>
    obtain ⟨b', hb', rfl⟩ := composite_inv hb
    have hc : c = .biharmonicA ∨ c = .biharmonicB := by
      cases c <;> first | exact Or.inl rfl | exact Or.inr rfl | exact absurd (by simp [RunsMul]) h
    intro x out hx ho
    exact C21_biharmonic_backward_out_of_bounds c hc n b' hb' x out hx

/-- C51: `gradient` (of any order) runs for Chebyshev bases from `n = 3` on and for the composite
bases that are not biharmonic.  Otherwise every positive order – and for the biharmonic bases also
order zero – reads out of bounds; `chebyshev(2)` supports order zero only. -/
theorem C51_gradient (k : Option CKind) (n : ℕ) (b : BaseR2r) (hb : newR2r k n = ok b) (d : ℕ) :
    (RunsGrad k n ∨ k = none ∧ d = 0 → RunsOn (fun x out => (b.toBase T).gradientSlice x out d)
      (b.toBase T).lenSpec (b.toBase T).lenOrth) ∧
    (¬ (RunsGrad k n ∨ k = none ∧ d = 0) →
      FailsOn .ub (fun x out => (b.toBase T).gradientSlice x out d)
      (b.toBase T).lenSpec (b.toBase T).lenOrth) := by
  refine ⟨fun h => ?_, fun h => ?_⟩
  · rcases h with h | ⟨rfl, rfl⟩
    · exact runsOn_of_computes (LinOp.computes (r2r_gradient_lin (R := ℝ) hb h d))
    · obtain ⟨hn, rfl⟩ := chebyshev_inv hb
      intro x out hx ho
      refine ⟨zipSet id x out, ?_, ?_⟩
      · show Cheb.gradientSlice ℝ ⟨n, n⟩ x out 0 = _
        unfold Cheb.gradientSlice assertR
        rw [if_pos (show out.length = n from ho)]
        rfl
      · rw [zipSet_id_ok _ _ (show x.length = out.length from hx.trans ho.symm)]
        exact hx
  · push Not at h
    cases k with
    | none =>
      obtain ⟨hn, rfl⟩ := chebyshev_inv hb
      obtain rfl : n = 2 := by
        have := h.1; simp only [RunsGrad] at this; omega
      have hd := h.2 rfl
      intro x out hx ho
      show Cheb.gradientSlice ℝ ⟨2, 2⟩ x out d = _
      change x.length = 2 at hx
      change out.length = 2 at ho
      obtain ⟨e, rfl⟩ := Nat.exists_eq_succ_of_ne_zero hd
      unfold Cheb.gradientSlice assertR
      rw [if_pos (show out.length = (⟨2, 2⟩ : Cheb).m from ho), bind_ok]
      show forRange 0 (e + 1) _ _ = _
      unfold forRange
      rw [show e + 1 - 0 = e + 1 by omega, List.range'_succ]
      show (chebGradPass ℝ 2 (zipSet id x out) >>= _) = _
      rw [chebGradPass_two _ (by rw [zipSet_id_ok _ _ (by omega)]; exact hx)]
      rfl
    | some c =>
      obtain ⟨b', hb', rfl⟩ := composite_inv hb
      have hc : c = .biharmonicA ∨ c = .biharmonicB := by
        have := h.1
        cases c <;> first | exact Or.inl rfl | exact Or.inr rfl |
          exact absurd (by simp [RunsGrad, RunsMul]) this
      intro x out hx ho
      exact C22_biharmonic_gradient_out_of_bounds c hc n b' hb' x out hx d

/-- C51: all operators of the Fourier bases run at every size `n ≥ 1`. -/
theorem C51_fourier (n : ℕ) (hn : 1 ≤ n) (d : ℕ) :
    (∃ b, fourierR2c n = ok b ∧
      RunsOn b.toBase.forwardSlice b.toBase.lenPhys b.toBase.lenSpec ∧
      RunsOn b.toBase.backwardSlice b.toBase.lenSpec b.toBase.lenPhys ∧
      RunsOn b.toBase.toOrthoSlice b.toBase.lenSpec b.toBase.lenOrth ∧
      RunsOn b.toBase.fromOrthoSlice b.toBase.lenOrth b.toBase.lenSpec ∧
      RunsOn (fun x out => b.toBase.gradientSlice x out d) b.toBase.lenSpec b.toBase.lenOrth) ∧
    (∃ b, fourierC2c n = ok b ∧
      RunsOn b.toBase.forwardSlice b.toBase.lenPhys b.toBase.lenSpec ∧
      RunsOn b.toBase.backwardSlice b.toBase.lenSpec b.toBase.lenPhys ∧
      RunsOn b.toBase.toOrthoSlice b.toBase.lenSpec b.toBase.lenOrth ∧
      RunsOn b.toBase.fromOrthoSlice b.toBase.lenOrth b.toBase.lenSpec ∧
      RunsOn (fun x out => b.toBase.gradientSlice x out d) b.toBase.lenSpec b.toBase.lenOrth) := by
  refine ⟨⟨.fourierR2c ⟨n, n / 2 + 1⟩, rfl, ?_⟩, ⟨.fourierC2c ⟨n, n⟩, rfl, ?_⟩⟩
  · obtain ⟨h1, h2, h3, h4, h5⟩ := C31_r2c n hn (.fourierR2c ⟨n, n / 2 + 1⟩) rfl
    exact ⟨runsOn_of_computes (LinOp.computes h1), runsOn_of_computes (LinOp.computes h2),
      runsOn_of_computes (LinOp.computes h3), runsOn_of_computes (LinOp.computes h4),
      runsOn_of_computes (LinOp.computes (h5 d))⟩
  · obtain ⟨h1, h2, h3, h4, h5⟩ := C31_c2c n hn (.fourierC2c ⟨n, n⟩) rfl
    exact ⟨runsOn_of_computes (LinOp.computes h1), runsOn_of_computes (LinOp.computes h2),
      runsOn_of_computes (LinOp.computes h3), runsOn_of_computes (LinOp.computes h4),
      runsOn_of_computes (LinOp.computes (h5 d))⟩

end

-- the boundary cases exist
example : (∃ b, newR2r (some .dirichletNeumann) 5 = ok b) ∧ ¬ RunsSolve (some .dirichletNeumann) 5 ∧
    RunsSolve (some .dirichletNeumann) 6 :=
  ⟨(C51_new _ _).1 (by decide), by show ¬ 6 ≤ 5; decide, by show 6 ≤ 6; decide⟩
example : (∃ b, newR2r (some .biharmonicA) 9 = ok b) ∧ ¬ RunsSolve (some .biharmonicA) 9 ∧
    ¬ RunsMul (some .biharmonicA) :=
  ⟨(C51_new _ _).1 (by decide), by show ¬ 10 ≤ 9; decide, by simp [RunsMul]⟩
example : (∃ b, newR2r none 2 = ok b) ∧ ¬ RunsGrad none 2 :=
  ⟨(C51_new _ _).1 (by decide), by show ¬ 3 ≤ 2; decide⟩

/-! ### slices of wrong length -/

section
variable {K T : Type} [Field K] [LinearOrder K] [IsStrictOrderedRing K] [AddCommGroup T]
  [Module K T]

/-- C51: `from_ortho_slice` of a composite base does not check the lengths of its slices: if the
input is too short for the output, or the output longer than `len_spec`, it reads out of bounds. -/
theorem C51_from_ortho_slice_unchecked (k : CKind) (n : ℕ) (b : Compo K)
    (hb : Compo.new k n = ok b) (u v : List T) (h0 : 0 < v.length)
    (h : u.length < v.length + k.nbc ∨ b.lenSpec < v.length) :
    b.fromOrthoSlice u v = err .ub := by
  have hw := Compo.wf_of_new hb
  have hst := hw.st
  unfold Compo.fromOrthoSlice Stencils.solve
  change _ ∨ b.m < v.length at h
  cases k <;> simp only [] at hst <;> obtain ⟨s, hs', hw'⟩ := hst <;> rw [hs'] <;>
    simp only [CKind.nbc] at h
  · exact Stencil2.solve_ub hw' u v h0 h
  · exact Stencil2.solve_ub hw' u v h0 h
  · exact Stencil3.solve_ub hw' u v h0 h
  · exact Stencil4.solve_ub hw' u v h0 h
  · exact Stencil4.solve_ub hw' u v h0 h

/-- C51: `to_ortho_slice` checks the length of its input, -/
theorem C51_to_ortho_slice_checked (k : CKind) (n : ℕ) (b : Compo K) (hb : Compo.new k n = ok b)
    (v u : List T) (h : v.length ≠ b.lenSpec) : b.toOrthoSlice v u = err .panic := by
  have hw := Compo.wf_of_new hb
  have hst := hw.st
  unfold Compo.toOrthoSlice Stencils.dot
  change v.length ≠ b.m at h
  cases k <;> simp only [] at hst <;> obtain ⟨s, hs', hw'⟩ := hst <;> rw [hs']
  · exact Stencil2.dot_wrong hw' v u h
  · exact Stencil2.dot_wrong hw' v u h
  · exact Stencil3.dot_wrong hw' v u h
  · exact Stencil4.dot_wrong hw' v u h
  · exact Stencil4.dot_wrong hw' v u h

/-- C51: … but not that of its output: a longer output slice makes it read out of bounds. -/
theorem C51_to_ortho_slice_unchecked (k : CKind)
    (hk : k = .dirichlet ∨ k = .neumann ∨ k = .dirichletNeumann) (n : ℕ) (b : Compo K)
    (hb : Compo.new k n = ok b) (v u : List T) (hv : v.length = b.lenSpec)
    (h : b.lenOrth < u.length) : b.toOrthoSlice v u = err .ub := by
  have hw := Compo.wf_of_new hb
  have hst := hw.st
  have hmn := hw.m_add
  have hle := hw.le
  have e : b.lenOrth = n := by simp [Compo.lenOrth, Cheb.lenOrth, hw.ortho]
  rw [e] at h
  unfold Compo.toOrthoSlice Stencils.dot
  change v.length = b.m at hv
  cases k <;> simp only [] at hst <;> obtain ⟨s, hs', hw'⟩ := hst <;> rw [hs'] <;>
    simp only [CKind.nbc, CKind.minNew] at hmn hle
  · exact Stencil2.dot_long hw' (by omega) v u hv (by omega)
  · exact Stencil2.dot_long hw' (by omega) v u hv (by omega)
  · exact Stencil3.dot_long hw' (by omega) v u hv (by omega)
  · simp at hk
  · simp at hk

example : runBase .dirichlet 6 (fun b => b.fromOrthoSlice ([1, 2, 3, 4, 5] : List ℚ) [0, 0, 0, 0])
    = err .ub := by decide +kernel
example : runBase .dirichlet 6 (fun b => b.toOrthoSlice ([1, 2, 3, 4] : List ℚ)
    [0, 0, 0, 0, 0, 0, 0]) = err .ub := by decide +kernel

end

/-! ### the array methods never leave their arrays -/

section
variable {S T : Type}

theorem safe_of_wp {α : Type} {r : Res α} {P : α → Prop} (h : wp (fun e => e = .panic) r P) :
    Safe r := by
  cases hx : r with
  | ok a => exact Or.inl ⟨a, rfl⟩
  | err e => rw [hx] at h; exact Or.inr (by rw [show e = .panic from h])

theorem resized_safe [Zero S] [Zero T] {a : Arr S} (l ax : ℕ) {f : Arr T → Res (Arr T)}
    (h : ∀ o, wp (fun e => e = .panic) (f o) (fun _ => True)) :
    wp (fun e => e = .panic) (do let o ← arrayResizedAxis T a l ax; f o) (fun _ => True) := by
  unfold arrayResizedAxis
  refine wp_bind_i (wp_bind_i ?_)
  simp only [wp_wrC]
  exact ⟨fun _ => h _, fun _ => trivial⟩

end

section
variable {T : Type} [AddCommGroup T] [Module ℝ T]

/-- C51: `forward` and `from_ortho` on arrays, in all variants, on every constructible Chebyshev
base, for all arrays, all axes and all schedules, return or panic: they never access memory out of
bounds. -/
theorem C51_forward_from_ortho_safe (k : Option CKind) (n : ℕ) (b : BaseR2r)
    (hb : newR2r k n = ok b) (ax : ℕ) (sched : List ℕ) :
    (∀ a out, Safe ((b.toBase T).forwardInplace a out ax) ∧
      Safe ((b.toBase T).forwardInplacePar sched a out ax) ∧
      Safe ((b.toBase T).forward a ax) ∧ Safe ((b.toBase T).forwardPar sched a ax)) ∧
    (∀ a out, Safe ((b.toBase T).fromOrthoInplace a out ax) ∧
      Safe ((b.toBase T).fromOrthoInplacePar sched a out ax) ∧
      Safe ((b.toBase T).fromOrtho a ax) ∧ Safe ((b.toBase T).fromOrthoPar sched a ax)) := by
  have h1 : RunsOrPanics (b.toBase T).forwardSlice (b.toBase T).lenPhys (b.toBase T).lenSpec := by
    by_cases h : RunsSolve k n
    · exact ((C51_forward k n b hb).1 h).orPanics
    · exact ((C51_forward k n b hb).2 h).orPanics
  have h2 : RunsOrPanics (b.toBase T).fromOrthoSlice (b.toBase T).lenOrth (b.toBase T).lenSpec := by
    by_cases h : RunsSolve k n
    · exact ((C51_from_ortho k n b hb).1 h).orPanics
    · exact ((C51_from_ortho k n b hb).2 h).orPanics
  exact ⟨fun a out => ⟨safe_of_wp (serial_safe h1 _ a out ax), safe_of_wp (par_safe h1 sched a out ax),
      safe_of_wp (resized_safe _ ax fun o => serial_safe h1 _ a o ax),
      safe_of_wp (resized_safe _ ax fun o => par_safe h1 sched a o ax)⟩,
    fun a out => ⟨safe_of_wp (serial_safe h2 _ a out ax), safe_of_wp (par_safe h2 sched a out ax),
      safe_of_wp (resized_safe _ ax fun o => serial_safe h2 _ a o ax),
      safe_of_wp (resized_safe _ ax fun o => par_safe h2 sched a o ax)⟩⟩

/-- C51: the same for `backward` and `to_ortho` of the bases that are not biharmonic. -/
theorem C51_backward_to_ortho_safe (k : Option CKind) (n : ℕ) (b : BaseR2r)
    (hb : newR2r k n = ok b) (hk : RunsMul k) (ax : ℕ) (sched : List ℕ) :
    (∀ a out, Safe ((b.toBase T).backwardInplace a out ax) ∧
      Safe ((b.toBase T).backwardInplacePar sched a out ax) ∧
      Safe ((b.toBase T).backward a ax) ∧ Safe ((b.toBase T).backwardPar sched a ax)) ∧
    (∀ a out, Safe ((b.toBase T).toOrthoInplace a out ax) ∧
      Safe ((b.toBase T).toOrthoInplacePar sched a out ax) ∧
      Safe ((b.toBase T).toOrtho a ax) ∧ Safe ((b.toBase T).toOrthoPar sched a ax)) := by
  have h1 := ((C51_backward (T := T) k n b hb).1 hk).orPanics
  have h2 := ((C51_to_ortho (T := T) k n b hb).1 hk).orPanics
  exact ⟨fun a out => ⟨safe_of_wp (serial_safe h1 _ a out ax), safe_of_wp (par_safe h1 sched a out ax),
      safe_of_wp (resized_safe _ ax fun o => serial_safe h1 _ a o ax),
      safe_of_wp (resized_safe _ ax fun o => par_safe h1 sched a o ax)⟩,
    fun a out => ⟨safe_of_wp (serial_safe h2 _ a out ax), safe_of_wp (par_safe h2 sched a out ax),
      safe_of_wp (resized_safe _ ax fun o => serial_safe h2 _ a o ax),
      safe_of_wp (resized_safe _ ax fun o => par_safe h2 sched a o ax)⟩⟩

/-- C51: the same for `gradient`, on the sizes where it runs. -/
theorem C51_gradient_safe (k : Option CKind) (n : ℕ) (b : BaseR2r)
    (hb : newR2r k n = ok b) (d : ℕ) (hg : RunsGrad k n ∨ k = none ∧ d = 0) (ax : ℕ)
    (sched : List ℕ) (a out : Arr T) :
    Safe ((b.toBase T).gradientInplace a out d ax) ∧
    Safe ((b.toBase T).gradientInplacePar sched a out d ax) ∧
    Safe ((b.toBase T).gradient a d ax) ∧ Safe ((b.toBase T).gradientPar sched a d ax) := by
  have h1 := ((C51_gradient (T := T) k n b hb d).1 hg).orPanics
  exact ⟨safe_of_wp (serial_safe h1 _ a out ax), safe_of_wp (par_safe h1 sched a out ax),
      safe_of_wp (resized_safe _ ax fun o => serial_safe h1 _ a o ax),
      safe_of_wp (resized_safe _ ax fun o => par_safe h1 sched a o ax)⟩

/-- C51: every array method of the Fourier bases (of size `n ≥ 1`), for all arrays, axes and
schedules, returns or panics. -/
theorem C51_fourier_safe (n : ℕ) (hn : 1 ≤ n) (ax d : ℕ) (sched : List ℕ) :
    (∃ b, fourierR2c n = ok b ∧
      (∀ (a : Arr ℝ) (out : Arr ℂ), Safe (b.toBase.forwardInplace a out ax) ∧
        Safe (b.toBase.forwardInplacePar sched a out ax) ∧
        Safe (b.toBase.forward a ax) ∧ Safe (b.toBase.forwardPar sched a ax)) ∧
      (∀ (a : Arr ℂ) (out : Arr ℝ), Safe (b.toBase.backwardInplace a out ax) ∧
        Safe (b.toBase.backwardInplacePar sched a out ax) ∧
        Safe (b.toBase.backward a ax) ∧ Safe (b.toBase.backwardPar sched a ax)) ∧
      (∀ (a : Arr ℂ) (out : Arr ℂ), Safe (b.toBase.toOrthoInplace a out ax) ∧
        Safe (b.toBase.toOrthoInplacePar sched a out ax) ∧
        Safe (b.toBase.toOrtho a ax) ∧ Safe (b.toBase.toOrthoPar sched a ax)) ∧
      (∀ (a : Arr ℂ) (out : Arr ℂ), Safe (b.toBase.fromOrthoInplace a out ax) ∧
        Safe (b.toBase.fromOrthoInplacePar sched a out ax) ∧
        Safe (b.toBase.fromOrtho a ax) ∧ Safe (b.toBase.fromOrthoPar sched a ax)) ∧
      (∀ (a : Arr ℂ) (out : Arr ℂ), Safe (b.toBase.gradientInplace a out d ax) ∧
        Safe (b.toBase.gradientInplacePar sched a out d ax) ∧
        Safe (b.toBase.gradient a d ax) ∧ Safe (b.toBase.gradientPar sched a d ax))) ∧
    (∃ b, fourierC2c n = ok b ∧
      (∀ (a : Arr ℂ) (out : Arr ℂ), Safe (b.toBase.forwardInplace a out ax) ∧
        Safe (b.toBase.forwardInplacePar sched a out ax) ∧
        Safe (b.toBase.forward a ax) ∧ Safe (b.toBase.forwardPar sched a ax)) ∧
      (∀ (a : Arr ℂ) (out : Arr ℂ), Safe (b.toBase.backwardInplace a out ax) ∧
        Safe (b.toBase.backwardInplacePar sched a out ax) ∧
        Safe (b.toBase.backward a ax) ∧ Safe (b.toBase.backwardPar sched a ax)) ∧
      (∀ (a : Arr ℂ) (out : Arr ℂ), Safe (b.toBase.toOrthoInplace a out ax) ∧
        Safe (b.toBase.toOrthoInplacePar sched a out ax) ∧
        Safe (b.toBase.toOrtho a ax) ∧ Safe (b.toBase.toOrthoPar sched a ax)) ∧
      (∀ (a : Arr ℂ) (out : Arr ℂ), Safe (b.toBase.fromOrthoInplace a out ax) ∧
        Safe (b.toBase.fromOrthoInplacePar sched a out ax) ∧
        Safe (b.toBase.fromOrtho a ax) ∧ Safe (b.toBase.fromOrthoPar sched a ax)) ∧
      (∀ (a : Arr ℂ) (out : Arr ℂ), Safe (b.toBase.gradientInplace a out d ax) ∧
        Safe (b.toBase.gradientInplacePar sched a out d ax) ∧
        Safe (b.toBase.gradient a d ax) ∧ Safe (b.toBase.gradientPar sched a d ax))) := by
  obtain ⟨⟨b, hb, h1, h2, h3, h4, h5⟩, ⟨b', hb', h1', h2', h3', h4', h5'⟩⟩ := C51_fourier n hn d
  exact ⟨⟨b, hb, fun a out => ⟨safe_of_wp (serial_safe h1.orPanics _ a out ax),
      safe_of_wp (par_safe h1.orPanics sched a out ax),
      safe_of_wp (resized_safe _ ax fun o => serial_safe h1.orPanics _ a o ax),
      safe_of_wp (resized_safe _ ax fun o => par_safe h1.orPanics sched a o ax)⟩,
    fun a out => ⟨safe_of_wp (serial_safe h2.orPanics _ a out ax),
      safe_of_wp (par_safe h2.orPanics sched a out ax),
      safe_of_wp (resized_safe _ ax fun o => serial_safe h2.orPanics _ a o ax),
      safe_of_wp (resized_safe _ ax fun o => par_safe h2.orPanics sched a o ax)⟩,
    fun a out => ⟨safe_of_wp (serial_safe h3.orPanics _ a out ax),
      safe_of_wp (par_safe h3.orPanics sched a out ax),
      safe_of_wp (resized_safe _ ax fun o => serial_safe h3.orPanics _ a o ax),
      safe_of_wp (resized_safe _ ax fun o => par_safe h3.orPanics sched a o ax)⟩,
    fun a out => ⟨safe_of_wp (serial_safe h4.orPanics _ a out ax),
      safe_of_wp (par_safe h4.orPanics sched a out ax),
      safe_of_wp (resized_safe _ ax fun o => serial_safe h4.orPanics _ a o ax),
      safe_of_wp (resized_safe _ ax fun o => par_safe h4.orPanics sched a o ax)⟩,
    fun a out => ⟨safe_of_wp (serial_safe h5.orPanics _ a out ax),
      safe_of_wp (par_safe h5.orPanics sched a out ax),
      safe_of_wp (resized_safe _ ax fun o => serial_safe h5.orPanics _ a o ax),
      safe_of_wp (resized_safe _ ax fun o => par_safe h5.orPanics sched a o ax)⟩⟩,
    ⟨b', hb', fun a out => ⟨safe_of_wp (serial_safe h1'.orPanics _ a out ax),
      safe_of_wp (par_safe h1'.orPanics sched a out ax),
      safe_of_wp (resized_safe _ ax fun o => serial_safe h1'.orPanics _ a o ax),
      safe_of_wp (resized_safe _ ax fun o => par_safe h1'.orPanics sched a o ax)⟩,
    fun a out => ⟨safe_of_wp (serial_safe h2'.orPanics _ a out ax),
      safe_of_wp (par_safe h2'.orPanics sched a out ax),
      safe_of_wp (resized_safe _ ax fun o => serial_safe h2'.orPanics _ a o ax),
      safe_of_wp (resized_safe _ ax fun o => par_safe h2'.orPanics sched a o ax)⟩,
    fun a out => ⟨safe_of_wp (serial_safe h3'.orPanics _ a out ax),
      safe_of_wp (par_safe h3'.orPanics sched a out ax),
      safe_of_wp (resized_safe _ ax fun o => serial_safe h3'.orPanics _ a o ax),
      safe_of_wp (resized_safe _ ax fun o => par_safe h3'.orPanics sched a o ax)⟩,
    fun a out => ⟨safe_of_wp (serial_safe h4'.orPanics _ a out ax),
      safe_of_wp (par_safe h4'.orPanics sched a out ax),
      safe_of_wp (resized_safe _ ax fun o => serial_safe h4'.orPanics _ a o ax),
      safe_of_wp (resized_safe _ ax fun o => par_safe h4'.orPanics sched a o ax)⟩,
    fun a out => ⟨safe_of_wp (serial_safe h5'.orPanics _ a out ax),
      safe_of_wp (par_safe h5'.orPanics sched a out ax),
      safe_of_wp (resized_safe _ ax fun o => serial_safe h5'.orPanics _ a o ax),
      safe_of_wp (resized_safe _ ax fun o => par_safe h5'.orPanics sched a o ax)⟩⟩⟩

end
end Verif.Props
