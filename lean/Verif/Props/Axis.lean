/-
Properties C31 (linearity), C32 (no stale data), C33 (lane by lane), C34 (parallel = serial),
C35 (wrong sizes rejected) and C52 (orthogonal bases) of the array methods of every base.
-/
import Verif.Proof.BaseLaws

namespace Verif.Props
open Res Spec

/-! ### generic facts about the inplace methods -/

section Generic
variable {S T : Type} [Zero S] [Zero T]

theorem fits_iff_checks (l1 l2 : ℕ) (a : Arr S) (out : Arr T) (ax : ℕ) :
    (Fits l1 l2 a out ax ↔ axisChecks l1 l2 a out ax = ok ()) := by
  constructor
  · rintro ⟨h1, h2, h3, h4, h5, h6, h7⟩
    rcases axisChecks_cases l1 l2 a out ax with h | ⟨h, -⟩
    · exfalso
      unfold axisChecks checkArrayAxis at h
      rw [shapeAt_ok h3, shapeAt_ok h4] at h
      have h8 : (a.shape.length -! 1) = ok (a.shape.length - 1) := by
        unfold usub; rw [if_pos (by omega)]
      rw [h8] at h
      simp only [bind_ok, assertR, if_pos h1, if_pos h2, if_pos h5, if_pos h6, if_pos h7] at h
      cases h
    · exact h
  · intro h
    rcases axisChecks_cases l1 l2 a out ax with h' | ⟨-, h1, h2, h3, h4, h5⟩
    · rw [h] at h'; cases h'
    · exact ⟨h1, h2, h3, by rw [h5]; simpa using h3, h4, by rw [h5, getD_set_self _ _ h3],
        by rw [h5, eraseIdx_set_self]⟩

variable {f : List S → List T → Res (List T)} {l1 l2 : ℕ}

theorem actsLanewise_of (hf : ∃ g, Computes f l1 l2 g) :
    ActsLanewise (fun a out ax => applyAlongAxis (serialOrder out ax) f l1 l2 a out ax) f l1 l2 := by
  obtain ⟨g, hg⟩ := hf
  intro a out ax hw hfit
  rcases axisChecks_cases l1 l2 a out ax with h | ⟨-, h1, h2, h3, h4, h5⟩
  · rw [(fits_iff_checks ..).mp hfit] at h; cases h
  · obtain ⟨r, hr, hm⟩ := serial_ok hg h1 h2 hw h3 h4 h5
    exact ⟨r, hr, lanewise_of_maps hg h3 h4 hm⟩

theorem ignoresOutput_of (hf : ∃ g, Computes f l1 l2 g) :
    IgnoresOutput (fun a out ax => applyAlongAxis (serialOrder out ax) f l1 l2 a out ax) := by
  obtain ⟨g, hg⟩ := hf
  intro a out out' ax hw hw' hsh hst
  rcases axisChecks_cases l1 l2 a out ax with h | ⟨-, h1, h2, h3, h4, h5⟩
  · have h' : axisChecks l1 l2 a out' ax = err .panic := by
      rw [← h]; unfold axisChecks checkArrayAxis; rw [hsh, hst]
    dsimp only
    rw [serial_panics h, serial_panics h']
  · obtain ⟨r, hr, hm⟩ := serial_ok hg h1 h2 hw h3 h4 h5
    obtain ⟨r', hr', hm'⟩ := serial_ok hg h1 (by rw [← hst]; exact h2) hw' h3 h4
      (by rw [← hsh]; exact h5)
    dsimp only
    rw [hr, hr', mapsLanes_unique hm hm']

theorem scheduleIndependent_of (hf : ∃ g, Computes f l1 l2 g) :
    ScheduleIndependent (fun sched a out ax => parApplyAlongAxis sched f l1 l2 a out ax)
      (fun a out ax => applyAlongAxis (serialOrder out ax) f l1 l2 a out ax) := by
  obtain ⟨g, hg⟩ := hf
  intro a out ax sched hw hs
  exact par_eq_serial hg a out hw ax _ (List.Perm.refl _) sched hs

theorem rejects_of (f : List S → List T → Res (List T)) (l1 l2 : ℕ) :
    Rejects (fun a out ax => applyAlongAxis (serialOrder out ax) f l1 l2 a out ax) l1 l2 := by
  intro a out ax hn
  rcases axisChecks_cases l1 l2 a out ax with h | ⟨h, -⟩
  · exact serial_panics h _ _
  · exact absurd ((fits_iff_checks ..).mpr h) hn

theorem par_rejects_of (f : List S → List T → Res (List T)) (l1 l2 : ℕ) (sched : List ℕ) :
    Rejects (fun a out ax => parApplyAlongAxis sched f l1 l2 a out ax) l1 l2 := by
  intro a out ax hn
  rcases axisChecks_cases l1 l2 a out ax with h | ⟨h, -⟩
  · exact par_panics h _ _
  · exact absurd ((fits_iff_checks ..).mpr h) hn

end Generic

/-! ### C31: linearity -/

section C31
variable {R T : Type} [CommRing R] [AddCommGroup T] [Module ℝ T] [Module R T] [SMulCommClass ℝ R T]

/-- C31: `forward` of every Chebyshev base is linear. -/
theorem C31_r2r_forward (k : Option CKind) (n : ℕ) (b : BaseR2r) (hb : newR2r k n = ok b)
    (hs : RunsSolve k n) :
    LinOp ℝ (b.toBase T).forwardSlice (b.toBase T).lenPhys
      (b.toBase T).lenSpec :=
  r2r_forward_lin hb hs

/-- C31: `backward` of every Chebyshev base is linear. -/
theorem C31_r2r_backward (k : Option CKind) (n : ℕ) (b : BaseR2r) (hb : newR2r k n = ok b)
    (hm : RunsMul k) :
    LinOp ℝ (b.toBase T).backwardSlice (b.toBase T).lenSpec
      (b.toBase T).lenPhys :=
  r2r_backward_lin hb hm

/-- C31: `to_ortho` of every Chebyshev base is linear. -/
theorem C31_r2r_to_ortho (k : Option CKind) (n : ℕ) (b : BaseR2r) (hb : newR2r k n = ok b)
    (hm : RunsMul k) :
    LinOp R (b.toBase T).toOrthoSlice (b.toBase T).lenSpec
      (b.toBase T).lenOrth :=
  r2r_toOrtho_lin hb hm

/-- C31: `from_ortho` of every Chebyshev base is linear. -/
theorem C31_r2r_from_ortho (k : Option CKind) (n : ℕ) (b : BaseR2r) (hb : newR2r k n = ok b)
    (hs : RunsSolve k n) :
    LinOp R (b.toBase T).fromOrthoSlice (b.toBase T).lenOrth
      (b.toBase T).lenSpec :=
  r2r_fromOrtho_lin hb hs

/-- C31: `gradient` of every Chebyshev base is linear. -/
theorem C31_r2r_gradient (k : Option CKind) (n : ℕ) (b : BaseR2r) (hb : newR2r k n = ok b)
    (hg : RunsGrad k n) (d : ℕ) :
    LinOp R (fun x out => (b.toBase T).gradientSlice x out d) (b.toBase T).lenSpec
      (b.toBase T).lenOrth :=
  r2r_gradient_lin hb hg d

/-- C31: all operators of the complex Fourier base are complex linear. -/
theorem C31_c2c (n : ℕ) (hn : 1 ≤ n) (b : BaseC2c) (hb : fourierC2c n = ok b) :
    LinOp ℂ b.toBase.forwardSlice b.toBase.lenPhys b.toBase.lenSpec ∧
    LinOp ℂ b.toBase.backwardSlice b.toBase.lenSpec b.toBase.lenPhys ∧
    LinOp ℂ b.toBase.toOrthoSlice b.toBase.lenSpec b.toBase.lenOrth ∧
    LinOp ℂ b.toBase.fromOrthoSlice b.toBase.lenOrth b.toBase.lenSpec ∧
    ∀ d, LinOp ℂ (fun x out => b.toBase.gradientSlice x out d) b.toBase.lenSpec b.toBase.lenOrth :=
  (c2c_laws hn hb).1

/-- C31: all operators of the real-to-complex Fourier base are linear. -/
theorem C31_r2c (n : ℕ) (hn : 1 ≤ n) (b : BaseR2c) (hb : fourierR2c n = ok b) :
    LinOp ℝ b.toBase.forwardSlice b.toBase.lenPhys b.toBase.lenSpec ∧
    LinOp ℝ b.toBase.backwardSlice b.toBase.lenSpec b.toBase.lenPhys ∧
    LinOp ℂ b.toBase.toOrthoSlice b.toBase.lenSpec b.toBase.lenOrth ∧
    LinOp ℂ b.toBase.fromOrthoSlice b.toBase.lenOrth b.toBase.lenSpec ∧
    ∀ d, LinOp ℂ (fun x out => b.toBase.gradientSlice x out d) b.toBase.lenSpec b.toBase.lenOrth :=
  (r2c_laws hn hb).1

end C31

/-- the hypotheses of C31–C34 are met by every size from the minimum on -/
theorem newR2r_exists (k : Option CKind) (n : ℕ) (h2 : 2 ≤ n)
    (hk : ∀ c, k = some c → c.minNew ≤ n) : ∃ b, newR2r k n = ok b := by
  cases k with
  | none => exact ⟨.chebyshev ⟨n, n⟩, by show chebyshev n = _; unfold chebyshev; rw [cheb_new_ok h2]; rfl⟩
  | some c =>
    have := Compo.wp_new (K := ℝ) (Q := fun _ => False) c n (hk c rfl)
    obtain ⟨b, hb, -⟩ := wp_total.mp this
    exact ⟨.chebyshevComposite b, by show chebComposite c n = _; unfold chebComposite; rw [hb]; rfl⟩

example : ∃ b, newR2r (some .dirichlet) 6 = ok b ∧ RunsMul (some .dirichlet) ∧
    RunsSolve (some .dirichlet) 6 ∧ RunsGrad (some .dirichlet) 6 :=
  let ⟨b, hb⟩ := newR2r_exists (some .dirichlet) 6 (by decide) (by rintro c ⟨⟩; decide)
  ⟨b, hb, Or.inl rfl, by show 5 ≤ 6; decide, Or.inl rfl⟩

example : ∃ b, newR2r (some .biharmonicB) 12 = ok b ∧ RunsSolve (some .biharmonicB) 12 :=
  let ⟨b, hb⟩ := newR2r_exists (some .biharmonicB) 12 (by decide) (by rintro c ⟨⟩; decide)
  ⟨b, hb, by show 10 ≤ 12; decide⟩

/-! ### C32–C34 for every base -/

section R2r
variable {T : Type} [AddCommGroup T] [Module ℝ T]

/-- C32: `forward` of the Chebyshev bases do not depend on old output content. -/
theorem C32_r2r_forward (k : Option CKind) (n : ℕ) (b : BaseR2r)
    (hb : newR2r k n = ok b) (hs : RunsSolve k n) :
    IgnoresOutput (b.toBase T).forwardInplace :=
  ignoresOutput_of (LinOp.computes (r2r_forward_lin (T := T) hb hs))

/-- C32: `backward` of the Chebyshev bases do not depend on old output content. -/
theorem C32_r2r_backward (k : Option CKind) (n : ℕ) (b : BaseR2r)
    (hb : newR2r k n = ok b) (hm : RunsMul k) :
    IgnoresOutput (b.toBase T).backwardInplace :=
  ignoresOutput_of (LinOp.computes (r2r_backward_lin (T := T) hb hm))

/-- C32: `to_ortho` of the Chebyshev bases do not depend on old output content. -/
theorem C32_r2r_to_ortho (k : Option CKind) (n : ℕ) (b : BaseR2r)
    (hb : newR2r k n = ok b) (hm : RunsMul k) :
    IgnoresOutput (b.toBase T).toOrthoInplace :=
  ignoresOutput_of (LinOp.computes (r2r_toOrtho_lin (R := ℝ) (T := T) hb hm))

/-- C32: `from_ortho` of the Chebyshev bases do not depend on old output content. -/
theorem C32_r2r_from_ortho (k : Option CKind) (n : ℕ) (b : BaseR2r)
    (hb : newR2r k n = ok b) (hs : RunsSolve k n) :
    IgnoresOutput (b.toBase T).fromOrthoInplace :=
  ignoresOutput_of (LinOp.computes (r2r_fromOrtho_lin (R := ℝ) (T := T) hb hs))

/-- C32: `gradient` of the Chebyshev bases do not depend on old output content. -/
theorem C32_r2r_gradient (k : Option CKind) (n : ℕ) (b : BaseR2r)
    (hb : newR2r k n = ok b) (hg : RunsGrad k n) (d : ℕ) :
    IgnoresOutput (fun a out ax => (b.toBase T).gradientInplace a out d ax) :=
  ignoresOutput_of (LinOp.computes (r2r_gradient_lin (R := ℝ) (T := T) hb hg d))

/-- C33: `forward` of the Chebyshev bases acts lane by lane. -/
theorem C33_r2r_forward (k : Option CKind) (n : ℕ) (b : BaseR2r)
    (hb : newR2r k n = ok b) (hs : RunsSolve k n) :
    ActsLanewise (b.toBase T).forwardInplace (b.toBase T).forwardSlice
      (b.toBase T).lenPhys (b.toBase T).lenSpec :=
  actsLanewise_of (LinOp.computes (r2r_forward_lin (T := T) hb hs))

/-- C33: `backward` of the Chebyshev bases acts lane by lane. -/
theorem C33_r2r_backward (k : Option CKind) (n : ℕ) (b : BaseR2r)
    (hb : newR2r k n = ok b) (hm : RunsMul k) :
    ActsLanewise (b.toBase T).backwardInplace (b.toBase T).backwardSlice
      (b.toBase T).lenSpec (b.toBase T).lenPhys :=
  actsLanewise_of (LinOp.computes (r2r_backward_lin (T := T) hb hm))

/-- C33: `to_ortho` of the Chebyshev bases acts lane by lane. -/
theorem C33_r2r_to_ortho (k : Option CKind) (n : ℕ) (b : BaseR2r)
    (hb : newR2r k n = ok b) (hm : RunsMul k) :
    ActsLanewise (b.toBase T).toOrthoInplace (b.toBase T).toOrthoSlice
      (b.toBase T).lenSpec (b.toBase T).lenOrth :=
  actsLanewise_of (LinOp.computes (r2r_toOrtho_lin (R := ℝ) (T := T) hb hm))

/-- C33: `from_ortho` of the Chebyshev bases acts lane by lane. -/
theorem C33_r2r_from_ortho (k : Option CKind) (n : ℕ) (b : BaseR2r)
    (hb : newR2r k n = ok b) (hs : RunsSolve k n) :
    ActsLanewise (b.toBase T).fromOrthoInplace (b.toBase T).fromOrthoSlice
      (b.toBase T).lenOrth (b.toBase T).lenSpec :=
  actsLanewise_of (LinOp.computes (r2r_fromOrtho_lin (R := ℝ) (T := T) hb hs))

/-- C33: `gradient` of the Chebyshev bases acts lane by lane. -/
theorem C33_r2r_gradient (k : Option CKind) (n : ℕ) (b : BaseR2r)
    (hb : newR2r k n = ok b) (hg : RunsGrad k n) (d : ℕ) :
    ActsLanewise (fun a out ax => (b.toBase T).gradientInplace a out d ax) (fun x out => (b.toBase T).gradientSlice x out d)
      (b.toBase T).lenSpec (b.toBase T).lenOrth :=
  actsLanewise_of (LinOp.computes (r2r_gradient_lin (R := ℝ) (T := T) hb hg d))

/-- C34: `forward` of the Chebyshev bases in parallel equals serial, for every schedule. -/
theorem C34_r2r_forward (k : Option CKind) (n : ℕ) (b : BaseR2r)
    (hb : newR2r k n = ok b) (hs : RunsSolve k n) :
    ScheduleIndependent (b.toBase T).forwardInplacePar
      (b.toBase T).forwardInplace :=
  scheduleIndependent_of (LinOp.computes (r2r_forward_lin (T := T) hb hs))

/-- C34: `backward` of the Chebyshev bases in parallel equals serial, for every schedule. -/
theorem C34_r2r_backward (k : Option CKind) (n : ℕ) (b : BaseR2r)
    (hb : newR2r k n = ok b) (hm : RunsMul k) :
    ScheduleIndependent (b.toBase T).backwardInplacePar
      (b.toBase T).backwardInplace :=
  scheduleIndependent_of (LinOp.computes (r2r_backward_lin (T := T) hb hm))

/-- C34: `to_ortho` of the Chebyshev bases in parallel equals serial, for every schedule. -/
theorem C34_r2r_to_ortho (k : Option CKind) (n : ℕ) (b : BaseR2r)
    (hb : newR2r k n = ok b) (hm : RunsMul k) :
    ScheduleIndependent (b.toBase T).toOrthoInplacePar
      (b.toBase T).toOrthoInplace :=
  scheduleIndependent_of (LinOp.computes (r2r_toOrtho_lin (R := ℝ) (T := T) hb hm))

/-- C34: `from_ortho` of the Chebyshev bases in parallel equals serial, for every schedule. -/
theorem C34_r2r_from_ortho (k : Option CKind) (n : ℕ) (b : BaseR2r)
    (hb : newR2r k n = ok b) (hs : RunsSolve k n) :
    ScheduleIndependent (b.toBase T).fromOrthoInplacePar
      (b.toBase T).fromOrthoInplace :=
  scheduleIndependent_of (LinOp.computes (r2r_fromOrtho_lin (R := ℝ) (T := T) hb hs))

/-- C34: `gradient` of the Chebyshev bases in parallel equals serial, for every schedule. -/
theorem C34_r2r_gradient (k : Option CKind) (n : ℕ) (b : BaseR2r)
    (hb : newR2r k n = ok b) (hg : RunsGrad k n) (d : ℕ) :
    ScheduleIndependent (fun sched a out ax => (b.toBase T).gradientInplacePar sched a out d ax)
      (fun a out ax => (b.toBase T).gradientInplace a out d ax) :=
  scheduleIndependent_of (LinOp.computes (r2r_gradient_lin (R := ℝ) (T := T) hb hg d))

end R2r

/-- C32: all methods of the Fourier base do not depend on old output content. -/
theorem C32_c2c (n : ℕ) (hn : 1 ≤ n) (b : BaseC2c) (hb : fourierC2c n = ok b) :
    IgnoresOutput b.toBase.forwardInplace ∧
    IgnoresOutput b.toBase.backwardInplace ∧
    IgnoresOutput b.toBase.toOrthoInplace ∧
    IgnoresOutput b.toBase.fromOrthoInplace ∧
    ∀ d, IgnoresOutput (fun a out ax => b.toBase.gradientInplace a out d ax) :=
  let h := (c2c_laws hn hb).1
  ⟨ignoresOutput_of (LinOp.computes h.1), ignoresOutput_of (LinOp.computes h.2.1),
    ignoresOutput_of (LinOp.computes h.2.2.1), ignoresOutput_of (LinOp.computes h.2.2.2.1),
    fun d => ignoresOutput_of (LinOp.computes (h.2.2.2.2 d))⟩

/-- C32: all methods of the Fourier base do not depend on old output content. -/
theorem C32_r2c (n : ℕ) (hn : 1 ≤ n) (b : BaseR2c) (hb : fourierR2c n = ok b) :
    IgnoresOutput b.toBase.forwardInplace ∧
    IgnoresOutput b.toBase.backwardInplace ∧
    IgnoresOutput b.toBase.toOrthoInplace ∧
    IgnoresOutput b.toBase.fromOrthoInplace ∧
    ∀ d, IgnoresOutput (fun a out ax => b.toBase.gradientInplace a out d ax) :=
  let h := (r2c_laws hn hb).1
  ⟨ignoresOutput_of (LinOp.computes h.1), ignoresOutput_of (LinOp.computes h.2.1),
    ignoresOutput_of (LinOp.computes h.2.2.1), ignoresOutput_of (LinOp.computes h.2.2.2.1),
    fun d => ignoresOutput_of (LinOp.computes (h.2.2.2.2 d))⟩

/-- C33: all methods of the Fourier base acts lane by lane. -/
theorem C33_c2c (n : ℕ) (hn : 1 ≤ n) (b : BaseC2c) (hb : fourierC2c n = ok b) :
    ActsLanewise b.toBase.forwardInplace b.toBase.forwardSlice
      b.toBase.lenPhys b.toBase.lenSpec ∧
    ActsLanewise b.toBase.backwardInplace b.toBase.backwardSlice
      b.toBase.lenSpec b.toBase.lenPhys ∧
    ActsLanewise b.toBase.toOrthoInplace b.toBase.toOrthoSlice
      b.toBase.lenSpec b.toBase.lenOrth ∧
    ActsLanewise b.toBase.fromOrthoInplace b.toBase.fromOrthoSlice
      b.toBase.lenOrth b.toBase.lenSpec ∧
    ∀ d, ActsLanewise (fun a out ax => b.toBase.gradientInplace a out d ax) (fun x out => b.toBase.gradientSlice x out d)
      b.toBase.lenSpec b.toBase.lenOrth :=
  let h := (c2c_laws hn hb).1
  ⟨actsLanewise_of (LinOp.computes h.1), actsLanewise_of (LinOp.computes h.2.1),
    actsLanewise_of (LinOp.computes h.2.2.1), actsLanewise_of (LinOp.computes h.2.2.2.1),
    fun d => actsLanewise_of (LinOp.computes (h.2.2.2.2 d))⟩

/-- C33: all methods of the Fourier base acts lane by lane. -/
theorem C33_r2c (n : ℕ) (hn : 1 ≤ n) (b : BaseR2c) (hb : fourierR2c n = ok b) :
    ActsLanewise b.toBase.forwardInplace b.toBase.forwardSlice
      b.toBase.lenPhys b.toBase.lenSpec ∧
    ActsLanewise b.toBase.backwardInplace b.toBase.backwardSlice
      b.toBase.lenSpec b.toBase.lenPhys ∧
    ActsLanewise b.toBase.toOrthoInplace b.toBase.toOrthoSlice
      b.toBase.lenSpec b.toBase.lenOrth ∧
    ActsLanewise b.toBase.fromOrthoInplace b.toBase.fromOrthoSlice
      b.toBase.lenOrth b.toBase.lenSpec ∧
    ∀ d, ActsLanewise (fun a out ax => b.toBase.gradientInplace a out d ax) (fun x out => b.toBase.gradientSlice x out d)
      b.toBase.lenSpec b.toBase.lenOrth :=
  let h := (r2c_laws hn hb).1
  ⟨actsLanewise_of (LinOp.computes h.1), actsLanewise_of (LinOp.computes h.2.1),
    actsLanewise_of (LinOp.computes h.2.2.1), actsLanewise_of (LinOp.computes h.2.2.2.1),
    fun d => actsLanewise_of (LinOp.computes (h.2.2.2.2 d))⟩

/-- C34: all methods of the Fourier base in parallel equals serial, for every schedule. -/
theorem C34_c2c (n : ℕ) (hn : 1 ≤ n) (b : BaseC2c) (hb : fourierC2c n = ok b) :
    ScheduleIndependent b.toBase.forwardInplacePar
      b.toBase.forwardInplace ∧
    ScheduleIndependent b.toBase.backwardInplacePar
      b.toBase.backwardInplace ∧
    ScheduleIndependent b.toBase.toOrthoInplacePar
      b.toBase.toOrthoInplace ∧
    ScheduleIndependent b.toBase.fromOrthoInplacePar
      b.toBase.fromOrthoInplace ∧
    ∀ d, ScheduleIndependent (fun sched a out ax => b.toBase.gradientInplacePar sched a out d ax)
      (fun a out ax => b.toBase.gradientInplace a out d ax) :=
  let h := (c2c_laws hn hb).1
  ⟨scheduleIndependent_of (LinOp.computes h.1), scheduleIndependent_of (LinOp.computes h.2.1),
    scheduleIndependent_of (LinOp.computes h.2.2.1), scheduleIndependent_of (LinOp.computes h.2.2.2.1),
    fun d => scheduleIndependent_of (LinOp.computes (h.2.2.2.2 d))⟩

/-- C34: all methods of the Fourier base in parallel equals serial, for every schedule. -/
theorem C34_r2c (n : ℕ) (hn : 1 ≤ n) (b : BaseR2c) (hb : fourierR2c n = ok b) :
    ScheduleIndependent b.toBase.forwardInplacePar
      b.toBase.forwardInplace ∧
    ScheduleIndependent b.toBase.backwardInplacePar
      b.toBase.backwardInplace ∧
    ScheduleIndependent b.toBase.toOrthoInplacePar
      b.toBase.toOrthoInplace ∧
    ScheduleIndependent b.toBase.fromOrthoInplacePar
      b.toBase.fromOrthoInplace ∧
    ∀ d, ScheduleIndependent (fun sched a out ax => b.toBase.gradientInplacePar sched a out d ax)
      (fun a out ax => b.toBase.gradientInplace a out d ax) :=
  let h := (r2c_laws hn hb).1
  ⟨scheduleIndependent_of (LinOp.computes h.1), scheduleIndependent_of (LinOp.computes h.2.1),
    scheduleIndependent_of (LinOp.computes h.2.2.1), scheduleIndependent_of (LinOp.computes h.2.2.2.1),
    fun d => scheduleIndependent_of (LinOp.computes (h.2.2.2.2 d))⟩

/-! ### C35: for every base whatsoever (the slice operators are not reached) -/

section C35
variable {P S T A : Type} [Zero P] [Zero S] [Zero T] (b : Base P S T A)

/-- C35: arrays that do not fit are rejected by every serial method. -/
theorem C35_rejects : Rejects b.forwardInplace b.lenPhys b.lenSpec ∧
    Rejects b.backwardInplace b.lenSpec b.lenPhys ∧
    Rejects b.toOrthoInplace b.lenSpec b.lenOrth ∧
    Rejects b.fromOrthoInplace b.lenOrth b.lenSpec ∧
    (∀ d, Rejects (fun a out ax => b.gradientInplace a out d ax) b.lenSpec b.lenOrth) :=
  ⟨rejects_of _ _ _, rejects_of _ _ _, rejects_of _ _ _, rejects_of _ _ _,
    fun _ => rejects_of _ _ _⟩

/-- C35: … and by every parallel method. -/
theorem C35_par_rejects (sched : List ℕ) : Rejects (b.forwardInplacePar sched) b.lenPhys b.lenSpec ∧
    Rejects (b.backwardInplacePar sched) b.lenSpec b.lenPhys ∧
    Rejects (b.toOrthoInplacePar sched) b.lenSpec b.lenOrth ∧
    Rejects (b.fromOrthoInplacePar sched) b.lenOrth b.lenSpec ∧
    (∀ d, Rejects (fun a out ax => b.gradientInplacePar sched a out d ax) b.lenSpec b.lenOrth) :=
  ⟨par_rejects_of _ _ _ sched, par_rejects_of _ _ _ sched, par_rejects_of _ _ _ sched,
    par_rejects_of _ _ _ sched, fun _ => par_rejects_of _ _ _ sched⟩

/-- the allocating methods reject an input that does not fit -/
theorem alloc_rejects {S T : Type} [Zero S] [Zero T] (M : Method S T) {l1 l2 : ℕ}
    (hM : Rejects M l1 l2) (a : Arr S) (ax : ℕ)
    (h : ¬ (a.std = true ∧ ax < a.shape.length ∧ a.shape.getD ax 0 = l1)) :
    (do let out ← arrayResizedAxis T a l2 ax
        M a out ax) = err .panic := by
  by_cases hax : ax < a.shape.length
  · rw [resized_ok hax, bind_ok]
    exact hM _ _ _ (fun hf => h ⟨hf.1, hax, hf.2.2.2.2.1⟩)
  · unfold arrayResizedAxis wrC
    rw [if_neg hax]; rfl

/-- C35: the allocating methods reject a wrong input extent, a missing axis and a non-standard
memory layout. -/
theorem C35_alloc_rejects (ax : ℕ) :
    (∀ a, ¬ (a.std = true ∧ ax < a.shape.length ∧ a.shape.getD ax 0 = b.lenPhys) →
      b.forward a ax = err .panic) ∧
    (∀ a, ¬ (a.std = true ∧ ax < a.shape.length ∧ a.shape.getD ax 0 = b.lenSpec) →
      b.backward a ax = err .panic) ∧
    (∀ a, ¬ (a.std = true ∧ ax < a.shape.length ∧ a.shape.getD ax 0 = b.lenSpec) →
      b.toOrtho a ax = err .panic ∧ ∀ d, b.gradient a d ax = err .panic) ∧
    (∀ a, ¬ (a.std = true ∧ ax < a.shape.length ∧ a.shape.getD ax 0 = b.lenOrth) →
      b.fromOrtho a ax = err .panic) := by
  obtain ⟨h1, h2, h3, h4, h5⟩ := C35_rejects b
  exact ⟨fun a h => alloc_rejects _ h1 a ax h,
    fun a h => alloc_rejects _ h2 a ax h,
    fun a h => ⟨alloc_rejects _ h3 a ax h,
      fun d => alloc_rejects _ (h5 d) a ax h⟩,
    fun a h => alloc_rejects _ h4 a ax h⟩

end C35

/-- C35: `Fits` is what the library promises to accept: a `6 × 3` array with a `4 × 3` output along
axis 0 for a base of sizes 6, 4; along axis 1, or with a `5 × 3` output, the arrays do not fit. -/
example : Fits 6 4 (Arr.zeros [6, 3] : Arr ℝ) (Arr.zeros [4, 3] : Arr ℝ) 0 ∧
    ¬ Fits 6 4 (Arr.zeros [6, 3] : Arr ℝ) (Arr.zeros [4, 3] : Arr ℝ) 1 ∧
    ¬ Fits 6 4 (Arr.zeros [6, 3] : Arr ℝ) (Arr.zeros [5, 3] : Arr ℝ) 0 := by
  unfold Fits Arr.zeros
  decide

/-- a schedule for the two lanes of a `3 × 2` output that interleaves their steps -/
example : FairSchedule [3, 2] 0 [0, 1, 1, 0, 0, 1, 1, 0] := by
  unfold FairSchedule
  decide

/-! ### C52 -/

section C52
variable {T : Type} [AddCommGroup T] [Module ℝ T]

/-- C52: for the Chebyshev base `to_ortho` and `from_ortho` return their input, and the stencils are
identity matrices. -/
theorem C52_chebyshev (n : ℕ) (b : BaseR2r) (hb : newR2r none n = ok b) :
    (∀ x out : List T, x.length = n → out.length = n →
      (b.toBase T).toOrthoSlice x out = ok x ∧ (b.toBase T).fromOrthoSlice x out = ok x) ∧
    (b.toBase T).lenPhys = n ∧ (b.toBase T).lenSpec = n ∧ (b.toBase T).lenOrth = n ∧
    ∃ S, (b.toBase T).stencil = ok S ∧ (b.toBase T).stencilInv = ok S ∧ S.rows = n ∧ S.cols = n ∧
      ∀ i < n, ∀ j < n, S.get i j = if i = j then 1 else 0 := by
  obtain ⟨hn, rfl⟩ := chebyshev_inv hb
  refine ⟨fun x out hx ho => ⟨identity_slice x out (by omega), identity_slice x out (by omega)⟩,
    rfl, rfl, rfl, _, rfl, rfl, rfl, rfl, fun i hi j hj => rfl⟩

/-- C52: the complex Fourier base. -/
theorem C52_c2c (n : ℕ) (b : BaseC2c) (hb : fourierC2c n = ok b) :
    (∀ x out : List ℂ, x.length = n → out.length = n →
      b.toBase.toOrthoSlice x out = ok x ∧ b.toBase.fromOrthoSlice x out = ok x) ∧
    b.toBase.lenPhys = n ∧ b.toBase.lenSpec = n ∧ b.toBase.lenOrth = n ∧
    ∃ S, b.toBase.stencil = ok S ∧ b.toBase.stencilInv = ok S ∧ S.rows = n ∧ S.cols = n ∧
      ∀ i < n, ∀ j < n, S.get i j = if i = j then 1 else 0 := by
  obtain rfl := c2c_inv hb
  refine ⟨fun x out hx ho => ⟨identity_slice x out (by omega), identity_slice x out (by omega)⟩,
    rfl, rfl, rfl, _, rfl, rfl, rfl, rfl, fun i hi j hj => rfl⟩

/-- C52: the real-to-complex Fourier base. -/
theorem C52_r2c (n : ℕ) (b : BaseR2c) (hb : fourierR2c n = ok b) :
    (∀ x out : List ℂ, x.length = n / 2 + 1 → out.length = n / 2 + 1 →
      b.toBase.toOrthoSlice x out = ok x ∧ b.toBase.fromOrthoSlice x out = ok x) ∧
    b.toBase.lenPhys = n ∧ b.toBase.lenSpec = n / 2 + 1 ∧ b.toBase.lenOrth = n / 2 + 1 ∧
    ∃ S, b.toBase.stencil = ok S ∧ b.toBase.stencilInv = ok S ∧ S.rows = n / 2 + 1 ∧
      S.cols = n / 2 + 1 ∧
      ∀ i < n / 2 + 1, ∀ j < n / 2 + 1, S.get i j = if i = j then 1 else 0 := by
  obtain rfl := r2c_inv hb
  refine ⟨fun x out hx ho => ⟨identity_slice x out (by omega), identity_slice x out (by omega)⟩,
    rfl, rfl, rfl, _, rfl, rfl, rfl, rfl, fun i hi j hj => rfl⟩

end C52

end Verif.Props
