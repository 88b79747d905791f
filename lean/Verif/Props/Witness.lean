/-
Concrete spaces that meet the hypotheses of the general theorems of Props/SpaceOps and
Props/SpaceFns, in one, two and three dimensions, with schedules that interleave the lanes.
-/
import Verif.Props.SpaceInst
import Verif.Props.Spaces

namespace Verif.Props
open Res Spec Finset

/-- a schedule that runs the lanes in rounds, in alternating directions -/
def zigzag (lanes steps : ℕ) : List ℕ :=
  (List.range steps).flatMap (fun k => if k % 2 = 0 then List.range lanes else (List.range lanes).reverse)

/-- one dimension: `cheb_dirichlet(6)` -/
example : ∃ (sp : Space1 ℝ ℝ ℝ) (a out : Arr ℝ) (s : List ℕ), Runs sp.base0 ∧ RunsGradient sp.base0 2 ∧
    Good a sp.shapePhysical ∧ Good out sp.shapeSpectral ∧ a.data.length = 6 ∧
    FairSchedule [sp.base0.lenSpec] 0 s ∧ sp.forwardPar s a = sp.forward a ∧
    (∃ S0, ExpandsBy sp.base0 S0) ∧ (∃ S0, ProjectsBy sp.base0 S0) ∧ (∃ e φ, Differentiates sp.base0 2 (R := ℝ) e φ) ∧
    (∃ E, Evaluates sp.base0 E) := by
  obtain ⟨b, hb⟩ := newR2r_exists (some .dirichlet) 6 (by decide) (by rintro c ⟨⟩; decide)
  have hsolve : RunsSolve (some CKind.dirichlet) 6 := show (5 : ℕ) ≤ 6 by decide
  have hr : IsR2r (b.toBase ℝ) := ⟨some .dirichlet, 6, b, hb, Or.inl rfl, hsolve, rfl⟩
  obtain ⟨z1, z2, z3⟩ := C41_sizes_r2r (T := ℝ) (some .dirichlet) 6 b hb
  have hs : (b.toBase ℝ).lenSpec = 4 := z3
  have hf : FairSchedule [(b.toBase ℝ).lenSpec] 0 (zigzag 1 5) := by rw [hs]; unfold FairSchedule; decide
  obtain ⟨S, hS, hd⟩ := C38_r2r_base (T := ℝ) (some .dirichlet) 6 b hb (Or.inl rfl) 2
  obtain ⟨S', -, he⟩ := C54_bases.1 (some .dirichlet) 6 b hb (Or.inl rfl)
  refine ⟨⟨b.toBase ℝ⟩, ⟨[_], List.replicate [(b.toBase ℝ).lenPhys].prod 1, true⟩,
    ⟨[_], List.replicate [(b.toBase ℝ).lenSpec].prod 7, true⟩, _, hr.runs,
    (C41_gradients_run.1 _ _ _ 2 hb (Or.inl rfl)).1, good_fill 1 _, good_fill 7 _, ?_, hf, ?_,
    (C53_bases.1 _ _ _ hb (Or.inl rfl)).1, (C55_bases.1 _ _ _ hb hsolve).1, ⟨_, _, hd⟩, _, he⟩
  · rw [z1]; rfl
  · exact (C34_space1_forward (⟨b.toBase ℝ⟩ : Space1 ℝ ℝ ℝ) hr.runs (good_fill 1 _) (good_fill 7 _) hf).1

/-- two dimensions: `fourier_r2c(4)` × `cheb_dirichlet(6)` -/
example : ∃ (sp : Space2 ℝ ℝ ℂ ℂ) (a : Arr ℝ) (out : Arr ℂ) (s0 s1 : List ℕ), Runs sp.base0 ∧
    Runs sp.base1 ∧ RunsGradient sp.base0 1 ∧ RunsGradient sp.base1 2 ∧
    Good a sp.shapePhysical ∧ Good out sp.shapeSpectral ∧ a.data.length = 24 ∧ out.data.length = 12 ∧
    sp.forwardPar s0 s1 a = sp.forward a ∧ (∃ S0, ExpandsBy sp.base0 S0) ∧ (∃ S1, ExpandsBy sp.base1 S1) ∧
    (∃ S0, ProjectsBy sp.base0 S0) ∧ (∃ S1, ProjectsBy sp.base1 S1) ∧
    Differentiates sp.base0 1 expFn expFn ∧ (∃ φ, Differentiates sp.base1 2 (R := ℝ) chebFn φ) ∧
    Evaluates sp.base0 (r2cTerm 4) := by
  obtain ⟨b0, h0, p0, q0, -⟩ := isR2c_exists (n := 4) (by decide)
  obtain ⟨b, hb⟩ := newR2r_exists (some .dirichlet) 6 (by decide) (by rintro c ⟨⟩; decide)
  have hsolve : RunsSolve (some CKind.dirichlet) 6 := show (5 : ℕ) ≤ 6 by decide
  have hr : IsR2r (b.toBase ℂ) := ⟨some .dirichlet, 6, b, hb, Or.inl rfl, hsolve, rfl⟩
  obtain ⟨z1, z2, z3⟩ := C41_sizes_r2r (T := ℂ) (some .dirichlet) 6 b hb
  have hs : (b.toBase ℂ).lenSpec = 4 := z3
  obtain ⟨S, hS, hd⟩ := C38_r2r_base (T := ℂ) (some .dirichlet) 6 b hb (Or.inl rfl) 2
  set sp : Space2 ℝ ℝ ℂ ℂ := ⟨b0, b.toBase ℂ⟩ with hsp
  have ga := good_fill (1 : ℝ) sp.shapePhysical
  have go := good_fill (7 : ℂ) sp.shapeSpectral
  have hpar := C34_space2_forward sp (C41_bases_run.2.2.1 _ _ h0) hr.runs ga go
    (s0 := zigzag 4 4) (s1 := zigzag 4 5)
    (by show FairSchedule [b0.lenSpec, (b.toBase ℂ).lenSpec] 0 _
        rw [q0, hs]; unfold FairSchedule; decide)
    (by show FairSchedule [b0.lenPhys, (b.toBase ℂ).lenSpec] 1 _
        rw [p0, hs]; unfold FairSchedule; decide)
  refine ⟨sp, _, _, _, _, C41_bases_run.2.2.1 _ _ h0, hr.runs, C41_gradients_run.2.1 _ _ 1 h0,
    (C41_gradients_run.1 _ _ _ 2 hb (Or.inl rfl)).2, ga, go, ?_, ?_, hpar.1,
    C53_bases.2.1 _ _ h0, (C53_bases.1 _ _ _ hb (Or.inl rfl)).2, C55_bases.2.1 _ _ h0,
    (C55_bases.1 _ _ _ hb hsolve).2, C38_r2c_base 4 b0 h0 1, ⟨_, hd⟩, C54_bases.2.1 _ _ h0⟩
  · show (List.replicate [b0.lenPhys, (b.toBase ℂ).lenPhys].prod (1 : ℝ)).length = 24
    rw [p0, z1]; rfl
  · show (List.replicate [b0.lenSpec, (b.toBase ℂ).lenSpec].prod (7 : ℂ)).length = 12
    rw [q0, hs]; rfl

/-- three dimensions: `fourier_c2c(2)` × `fourier_r2c(4)` × `cheb_dirichlet(6)`, and, for the gradient
(C40: axes 1 and 2 need the same base), `fourier_c2c(2)` × `cheb_dirichlet(6)` × `cheb_dirichlet(6)` -/
example : ∃ (sp : Space3 ℝ ℝ ℂ ℂ ℂ) (a : Arr ℝ) (out : Arr ℂ) (s0 s1 s2 : List ℕ), Runs sp.base0 ∧
    Runs sp.base1 ∧ Runs sp.base2 ∧ Good a sp.shapePhysical ∧ Good out sp.shapeSpectral ∧
    a.data.length = 48 ∧ out.data.length = 24 ∧ sp.forwardPar s0 s1 s2 a = sp.forward a ∧
    (∃ S0, ExpandsBy sp.base0 S0) ∧ (∃ S1, ExpandsBy sp.base1 S1) ∧ (∃ S2, ExpandsBy sp.base2 S2) ∧
    (∃ S0, ProjectsBy sp.base0 S0) ∧ (∃ S1, ProjectsBy sp.base1 S1) ∧ (∃ S2, ProjectsBy sp.base2 S2) := by
  obtain ⟨b0, h0, p0, q0, -⟩ := isC2c_exists (n := 2) (by decide)
  obtain ⟨b1, h1, p1, q1, -⟩ := isR2c_exists (n := 4) (by decide)
  obtain ⟨b, hb⟩ := newR2r_exists (some .dirichlet) 6 (by decide) (by rintro c ⟨⟩; decide)
  have hsolve : RunsSolve (some CKind.dirichlet) 6 := show (5 : ℕ) ≤ 6 by decide
  have hr : IsR2r (b.toBase ℂ) := ⟨some .dirichlet, 6, b, hb, Or.inl rfl, hsolve, rfl⟩
  obtain ⟨z1, z2, z3⟩ := C41_sizes_r2r (T := ℂ) (some .dirichlet) 6 b hb
  have hs : (b.toBase ℂ).lenSpec = 4 := z3
  set sp : Space3 ℝ ℝ ℂ ℂ ℂ := ⟨b0, b1, b.toBase ℂ⟩ with hsp
  have ga := good_fill (1 : ℝ) sp.shapePhysical
  have go := good_fill (7 : ℂ) sp.shapeSpectral
  have r0 := C41_bases_run.2.2.2 _ _ h0
  have r1 := C41_bases_run.2.2.1 _ _ h1
  have hpar := C34_space3_forward sp r0 r1 hr.runs ga go
    (s0 := zigzag 12 3) (s1 := zigzag 8 4) (s2 := zigzag 8 5)
    (by show FairSchedule [b0.lenSpec, b1.lenSpec, (b.toBase ℂ).lenSpec] 0 _
        rw [q0, q1, hs]; unfold FairSchedule; decide)
    (by show FairSchedule [b0.lenPhys, b1.lenSpec, (b.toBase ℂ).lenSpec] 1 _
        rw [p0, q1, hs]; unfold FairSchedule; decide)
    (by show FairSchedule [b0.lenPhys, b1.lenPhys, (b.toBase ℂ).lenSpec] 2 _
        rw [p0, p1, hs]; unfold FairSchedule; decide)
  refine ⟨sp, _, _, _, _, _, r0, r1, hr.runs, ga, go, ?_, ?_, hpar.1,
    C53_bases.2.2 _ _ h0, C53_bases.2.1 _ _ h1, (C53_bases.1 _ _ _ hb (Or.inl rfl)).2,
    C55_bases.2.2 _ _ h0, C55_bases.2.1 _ _ h1, (C55_bases.1 _ _ _ hb hsolve).2⟩
  · show (List.replicate [b0.lenPhys, b1.lenPhys, (b.toBase ℂ).lenPhys].prod (1 : ℝ)).length = 48
    rw [p0, p1, z1]; rfl
  · show (List.replicate [b0.lenSpec, b1.lenSpec, (b.toBase ℂ).lenSpec].prod (7 : ℂ)).length = 24
    rw [q0, q1, hs]; rfl

example : ∃ (sp : Space3 ℝ ℝ ℝ ℝ ℝ) (v r : Arr ℝ), RunsGradient sp.base0 1 ∧ RunsGradient sp.base1 2 ∧
    RunsGradient sp.base1 1 ∧ sp.base2.lenSpec = sp.base1.lenSpec ∧ Good v sp.shapeSpectral ∧
    scale3 1 2 1 (some (2, 3, 4)) ≠ 0 ∧ sp.gradient v 1 2 1 (some (2, 3, 4)) = ok r := by
  obtain ⟨b0, hb0⟩ := newR2r_exists none 3 (by decide) (by rintro c ⟨⟩)
  obtain ⟨b, hb⟩ := newR2r_exists (some .dirichlet) 6 (by decide) (by rintro c ⟨⟩; decide)
  have g0 := (C41_gradients_run.1 _ _ _ 1 hb0 (le_refl 3)).1
  have g1 := (C41_gradients_run.1 _ _ _ 2 hb (Or.inl rfl)).1
  have g2 := (C41_gradients_run.1 _ _ _ 1 hb (Or.inl rfl)).1
  set sp : Space3 ℝ ℝ ℝ ℝ ℝ := ⟨b0.toBase ℝ, b.toBase ℝ, b.toBase ℝ⟩ with hsp
  have ga := good_fill (1 : ℝ) sp.shapeSpectral
  have hne : scale3 1 2 1 (some (2, 3, 4)) ≠ 0 := by
    show (2 : ℝ) ^ 1 * 3 ^ 2 * 4 ^ 1 ≠ 0; norm_num
  obtain ⟨r, hr, -⟩ := C41_space3_gradient sp g0 g1 g2 rfl ga (scale := some (2, 3, 4))
    (fun _ => by norm_num) hne
  exact ⟨sp, _, r, g0, g1, g2, rfl, ga, hne, hr⟩

end Verif.Props
