/-
Property C105: fields of any dimension (examples/field.rs is generic in the number of dimensions).
-/
import Verif.Spec.FieldN
import Verif.Props.Field

namespace Verif.Props
open Res Spec

section
variable {P S : Type} [Zero P] [AddCommGroup S] [Module ℝ S] {sp : BaseSpace P S}

private theorem run_forward (h : Running sp) {a : Arr P} {out : Arr S} (ha : Good a sp.shapePhysical)
    (ho : Good out sp.shapeSpectral) {s : ℕ → List ℕ} (hs : Allowed sp (.forward s)) :
    ∃ r, sp.forward a = ok r ∧ Good r sp.shapeSpectral ∧ sp.forwardInplacePar s a out = ok r := by
  cases h with
  | one sp h0 =>
    obtain ⟨r, hr, hg, hi⟩ := C41_space1_forward sp h0 ha ho
    have hp := (C34_space1_forward sp h0 ha ho (hs 0 (by decide : 0 < 1))).2
    exact ⟨r, hr, hg, hp.trans hi⟩
  | two sp h0 h1 =>
    obtain ⟨r, hr, hg, hi⟩ := C41_space2_forward sp h0 h1 ha ho
    have hp := (C34_space2_forward sp h0 h1 ha ho (hs 0 (by decide : 0 < 2)) (hs 1 (by decide : 1 < 2))).2
    exact ⟨r, hr, hg, hp.trans hi⟩
  | three sp h0 h1 h2 =>
    obtain ⟨r, hr, hg, hi⟩ := C41_space3_forward sp h0 h1 h2 ha ho
    have hp := (C34_space3_forward sp h0 h1 h2 ha ho (hs 0 (by decide : 0 < 3))
      (hs 1 (by decide : 1 < 3)) (hs 2 (by decide : 2 < 3))).2
    exact ⟨r, hr, hg, hp.trans hi⟩

private theorem run_backward (h : Running sp) {a : Arr S} {out : Arr P} (ha : Good a sp.shapeSpectral)
    (ho : Good out sp.shapePhysical) {s : ℕ → List ℕ} (hs : Allowed sp (.backward s)) :
    ∃ r, sp.backward a = ok r ∧ Good r sp.shapePhysical ∧ sp.backwardInplacePar s a out = ok r := by
  cases h with
  | one sp h0 =>
    obtain ⟨r, hr, hg, hi⟩ := C41_space1_backward sp h0 ha ho
    have hp := (C34_space1_backward sp h0 ha ho (hs 0 (by decide : 0 < 1))).2
    exact ⟨r, hr, hg, hp.trans hi⟩
  | two sp h0 h1 =>
    obtain ⟨r, hr, hg, hi⟩ := C41_space2_backward sp h0 h1 ha ho
    have hp := (C34_space2_backward sp h0 h1 ha ho (hs 0 (by decide : 0 < 2)) (hs 1 (by decide : 1 < 2))).2
    exact ⟨r, hr, hg, hp.trans hi⟩
  | three sp h0 h1 h2 =>
    obtain ⟨r, hr, hg, hi⟩ := C41_space3_backward sp h0 h1 h2 ha ho
    have hp := (C34_space3_backward sp h0 h1 h2 ha ho (hs 0 (by decide : 0 < 3))
      (hs 1 (by decide : 1 < 3)) (hs 2 (by decide : 2 < 3))).2
    exact ⟨r, hr, hg, hp.trans hi⟩

private theorem run_from_ortho (h : Running sp) {a out : Arr S}
    (ho : Good out sp.shapeSpectral) {s : ℕ → List ℕ} (hs : Allowed sp (.fromOrtho s a)) :
    ∃ r, sp.fromOrtho a = ok r ∧ Good r sp.shapeSpectral ∧ sp.fromOrthoInplacePar s a out = ok r := by
  obtain ⟨ha, hs⟩ := hs
  cases h with
  | one sp h0 =>
    obtain ⟨r, hr, hg, hi⟩ := C41_space1_from_ortho sp h0 ha ho
    have hp := (C34_space1_from_ortho sp h0 ha ho (hs 0 (by decide : 0 < 1))).2
    exact ⟨r, hr, hg, hp.trans hi⟩
  | two sp h0 h1 =>
    obtain ⟨r, hr, hg, hi⟩ := C41_space2_from_ortho sp h0 h1 ha ho
    have hp := (C34_space2_from_ortho sp h0 h1 ha ho (hs 0 (by decide : 0 < 2)) (hs 1 (by decide : 1 < 2))).2
    exact ⟨r, hr, hg, hp.trans hi⟩
  | three sp h0 h1 h2 =>
    obtain ⟨r, hr, hg, hi⟩ := C41_space3_from_ortho sp h0 h1 h2 ha ho
    have hp := (C34_space3_from_ortho sp h0 h1 h2 ha ho (hs 0 (by decide : 0 < 3))
      (hs 1 (by decide : 1 < 3)) (hs 2 (by decide : 2 < 3))).2
    exact ⟨r, hr, hg, hp.trans hi⟩

/-- C105: a new field of a space of any dimension whose bases have grids is zero, has the shapes of the
space, its number of dimensions, and the grids and grid deltas of its axes. -/
theorem C105_new (h : Running sp) (xs : List (List ℝ)) (hx : sp.coords = ok xs) :
    ∃ f, FieldN.new sp = ok f ∧ InShape f ∧ f.space = sp ∧ f.ndim = sp.dim ∧ f.x = xs ∧
      xs.length = sp.dim ∧ f.dx.length = sp.dim ∧
      (∀ k < sp.dim, getDxAxis (xs.getD k []) = ok (f.dx.getD k [])) ∧
      (∀ p ∈ f.v.data, p = 0) ∧ ∀ s ∈ f.vhat.data, s = 0 := by
  have hlen : xs.length = sp.dim := by
    cases h with
    | one sp h0 =>
      change (sp.base0.coords >>= fun c => ok [c]) = _ at hx
      cases h0 : sp.base0.coords with
      | err e => rw [h0, bind_err] at hx; exact nomatch hx
      | ok c => rw [h0, bind_ok] at hx; rw [← Res.ok.inj hx]; rfl
    | two sp _ _ =>
      change (sp.base0.coords >>= fun c => sp.base1.coords >>= fun c1 => ok [c, c1]) = _ at hx
      cases h0 : sp.base0.coords with
      | err e => rw [h0, bind_err] at hx; exact nomatch hx
      | ok c =>
        rw [h0, bind_ok] at hx
        cases h1 : sp.base1.coords with
        | err e => rw [h1, bind_err] at hx; exact nomatch hx
        | ok c => rw [h1, bind_ok] at hx; rw [← Res.ok.inj hx]; rfl
    | three sp _ _ _ =>
      change (sp.base0.coords >>= fun c => sp.base1.coords >>= fun c1 => sp.base2.coords >>= fun c2 =>
        ok [c, c1, c2]) = _ at hx
      cases h0 : sp.base0.coords with
      | err e => rw [h0, bind_err] at hx; exact nomatch hx
      | ok c =>
        rw [h0, bind_ok] at hx
        cases h1 : sp.base1.coords with
        | err e => rw [h1, bind_err] at hx; exact nomatch hx
        | ok c =>
          rw [h1, bind_ok] at hx
          cases h2 : sp.base2.coords with
          | err e => rw [h2, bind_err] at hx; exact nomatch hx
          | ok c => rw [h2, bind_ok] at hx; rw [← Res.ok.inj hx]; rfl
  have hmap : ∀ ys : List (List ℝ), ∃ ds, mapR getDxAxis ys = ok ds ∧ ds.length = ys.length ∧
      ∀ k < ys.length, getDxAxis (ys.getD k []) = ok (ds.getD k []) := by
    intro ys
    induction ys with
    | nil => exact ⟨[], rfl, rfl, fun k hk => absurd hk (by simp)⟩
    | cons y ys ih =>
      obtain ⟨ds, e, el, ek⟩ := ih
      obtain ⟨d, hd, -⟩ := C63_get_dx y
      refine ⟨d :: ds, ?_, by simp [el], fun k hk => ?_⟩
      · show (getDxAxis y >>= fun z => mapR getDxAxis ys >>= fun zs => ok (z :: zs)) = _
        rw [hd, e]; rfl
      · cases k with
        | zero => exact hd
        | succ k => exact ek k (by simpa using hk)
  obtain ⟨ds, e, el, ek⟩ := hmap xs
  refine ⟨⟨sp.dim, sp, Arr.zeros sp.shapePhysical, Arr.zeros sp.shapeSpectral, xs, ds⟩, ?_,
    ⟨good_zeros _, good_zeros _⟩, rfl, rfl, rfl, hlen, el.trans hlen, fun k hk => ek k (by omega),
    fun p hp => (List.mem_replicate.mp hp).2, fun p hp => (List.mem_replicate.mp hp).2⟩
  have hd : FieldN.getDx sp.dim xs = ok ds := by
    unfold FieldN.getDx
    rw [e, bind_ok, show assertR (ds.length = sp.dim) = ok () from if_pos (el.trans hlen)]
    rfl
  unfold FieldN.new
  rw [hx, bind_ok, bind_ok, hd]
  rfl

/-- one step -/
private theorem call_step {f : FieldN P S} (h : Running f.space) (hf : InShape f) {op : FieldCall P S}
    (ha : Allowed f.space op) :
    ∃ f', op.run f = ok f' ∧ InShape f' ∧ f'.space = f.space ∧ f'.x = f.x ∧ f'.dx = f.dx ∧
      f'.ndim = f.ndim ∧ CallMeans f.space (f.v, f.vhat) (f'.v, f'.vhat) op := by
  cases op with
  | setV a => exact ⟨_, rfl, ⟨ha, hf.vhat⟩, rfl, rfl, rfl, rfl, rfl⟩
  | setVhat a => exact ⟨_, rfl, ⟨hf.v, ha⟩, rfl, rfl, rfl, rfl, rfl⟩
  | forward s =>
    obtain ⟨r, hr, hg, hi⟩ := run_forward h hf.v hf.vhat ha
    refine ⟨{ f with vhat := r }, ?_, ⟨hf.v, hg⟩, rfl, rfl, rfl, rfl, rfl, hr⟩
    show f.forward s = _
    unfold FieldN.forward
    rw [hi]; rfl
  | backward s =>
    obtain ⟨r, hr, hg, hi⟩ := run_backward h hf.vhat hf.v ha
    refine ⟨{ f with v := r }, ?_, ⟨hg, hf.vhat⟩, rfl, rfl, rfl, rfl, rfl, hr⟩
    show f.backward s = _
    unfold FieldN.backward
    rw [hi]; rfl
  | fromOrtho s a =>
    obtain ⟨r, hr, hg, hi⟩ := run_from_ortho h hf.vhat ha
    refine ⟨{ f with vhat := r }, ?_, ⟨hf.v, hg⟩, rfl, rfl, rfl, rfl, rfl, hr⟩
    show f.fromOrtho s a = _
    unfold FieldN.fromOrtho
    rw [hi]; rfl

/-- C105: histories. Whatever a user does with a field of any dimension whose arrays have the shapes of
its space - assigning the arrays, transforming, projecting, in any order and number, with any schedules -
every call succeeds, the shapes stay right, space, grid, deltas and number of dimensions never change,
and the arrays are those obtained with the serial operations of the space. -/
theorem C105_history (f : FieldN P S) (h : Running f.space) (hf : InShape f)
    (ops : List (FieldCall P S)) (ha : ∀ op ∈ ops, Allowed f.space op) :
    ∃ f', f.runs ops = ok f' ∧ InShape f' ∧ f'.space = f.space ∧ f'.x = f.x ∧ f'.dx = f.dx ∧
      f'.ndim = f.ndim ∧ CallsMean f.space ops (f.v, f.vhat) (f'.v, f'.vhat) := by
  induction ops generalizing f with
  | nil => exact ⟨f, rfl, hf, rfl, rfl, rfl, rfl, .nil _⟩
  | cons op ops ih =>
    obtain ⟨g, e, hg, s1, s2, s3, s4, hm⟩ := call_step h hf (ha op (by simp))
    obtain ⟨f', e', hf', t1, t2, t3, t4, hm'⟩ := ih g (by rw [s1]; exact h) hg
      (fun op' h => by rw [s1]; exact ha op' (by simp [h]))
    refine ⟨f', ?_, hf', t1.trans s1, t2.trans s2, t3.trans s3, t4.trans s4,
      .cons hm (by rw [← s1]; exact hm')⟩
    show (op.run f >>= fun g => g.runs ops) = _
    rw [e, bind_ok, e']

/-- C105: two histories of the same calls that differ only in the schedules of the parallel passes end
with the same field. -/
theorem C105_schedule_independent (f : FieldN P S) (h : Running f.space) (hf : InShape f)
    (ops ops' : List (FieldCall P S)) (ha : ∀ op ∈ ops, Allowed f.space op)
    (ha' : ∀ op ∈ ops', Allowed f.space op) (hsame : List.Forall₂ SameOp ops ops') :
    f.runs ops = f.runs ops' := by
  induction hsame generalizing f with
  | nil => rfl
  | @cons op op' ops ops' hop hrest ih =>
    obtain ⟨g, e, hg, s1, s2, s3, s4, hm⟩ := call_step h hf (ha op (by simp))
    obtain ⟨g', e', hg', s1', s2', s3', s4', hm'⟩ := call_step h hf (ha' op' (by simp))
    have hiff : ∀ s t, CallMeans f.space s t op' → CallMeans f.space s t op := by
      intro s t h
      cases op <;> cases op' <;> first | exact absurd hop id | skip
      · rw [show _ = _ from hop]; exact h
      · rw [show _ = _ from hop]; exact h
      · exact h
      · exact h
      · rw [show _ = _ from hop]; exact h
    replace hm' := hiff _ _ hm'
    have hfun : ∀ s t u : Arr P × Arr S, CallMeans f.space s t op → CallMeans f.space s u op → t = u := by
      intro s t u ht hu
      cases op with
      | setV a => exact ht.trans hu.symm
      | setVhat a => exact ht.trans hu.symm
      | forward _ => exact Prod.ext (ht.1.trans hu.1.symm) (Res.ok.inj (ht.2.symm.trans hu.2))
      | backward _ => exact Prod.ext (Res.ok.inj (ht.2.symm.trans hu.2)) (ht.1.trans hu.1.symm)
      | fromOrtho _ a => exact Prod.ext (ht.1.trans hu.1.symm) (Res.ok.inj (ht.2.symm.trans hu.2))
    have hv := hfun _ _ _ hm hm'
    have hgg : g = g' := by
      obtain ⟨a1, a2, a3, a4, a5, a6⟩ := g
      obtain ⟨b1, b2, b3, b4, b5, b6⟩ := g'
      simp only [Prod.mk.injEq] at hv
      obtain ⟨rfl, rfl⟩ := hv
      dsimp only at *
      subst s1 s2 s3 s4 s1' s2' s3' s4'
      rfl
    show (op.run f >>= fun g => g.runs ops) = (op'.run f >>= fun g => g.runs ops')
    rw [e, e', bind_ok, bind_ok, ← hgg]
    exact ih g (by rw [s1]; exact h) hg
      (fun op h => by rw [s1]; exact ha op (by simp [h]))
      (fun op h => by rw [s1]; exact ha' op (by simp [h]))

/-- C105: `to_ortho` of a field returns what the serial `to_ortho` of its space returns for the current
coefficients, of the documented shape, whatever the schedules. -/
theorem C105_to_ortho (f : FieldN P S) (h : Running f.space) (hf : InShape f) (s : ℕ → List ℕ)
    (hs : ∀ k < f.space.dim,
      FairSchedule (mix f.space.shapeSpectralOrtho f.space.shapeSpectral (k + 1)) k (s k)) :
    ∃ r, f.toOrtho s = ok r ∧ f.space.toOrtho f.vhat = ok r ∧ Good r f.space.shapeSpectralOrtho := by
  obtain ⟨nd, sp, v, vhat, x, dx⟩ := f
  obtain ⟨-, hv⟩ := hf
  dsimp only at h hs hv
  cases h with
  | one sp h0 =>
    obtain ⟨r, hr, hg, -⟩ := C41_space1_to_ortho sp h0 hv (good_zeros sp.shapeSpectralOrtho)
    exact ⟨r, (C34_space1_to_ortho sp h0 hv (good_zeros _) (hs 0 (by decide : 0 < 1))).1.trans hr, hr, hg⟩
  | two sp h0 h1 =>
    obtain ⟨r, hr, hg, -⟩ := C41_space2_to_ortho sp h0 h1 hv (good_zeros sp.shapeSpectralOrtho)
    exact ⟨r, (C34_space2_to_ortho sp h0 h1 hv (good_zeros _) (hs 0 (by decide : 0 < 2))
      (hs 1 (by decide : 1 < 2))).1.trans hr, hr, hg⟩
  | three sp h0 h1 h2 =>
    obtain ⟨r, hr, hg, -⟩ := C41_space3_to_ortho sp h0 h1 h2 hv (good_zeros sp.shapeSpectralOrtho)
    exact ⟨r, (C34_space3_to_ortho sp h0 h1 h2 hv (good_zeros _) (hs 0 (by decide : 0 < 3))
      (hs 1 (by decide : 1 < 3)) (hs 2 (by decide : 2 < 3))).1.trans hr, hr, hg⟩

/-- C105: `gradient` of a field returns what the serial `gradient` of its space returns for the current
coefficients, whatever the schedules. -/
theorem C105_gradient (f : FieldN P S) (d : ℕ → ℕ) (h : Differentiable d f.space) (hf : InShape f)
    (scale : Option (ℕ → ℝ)) (hsc : scale ≠ none → ∀ k < f.space.dim, d k < 2 ^ 31)
    (hne : ∀ c, scale = some c → ∀ k < f.space.dim, c k ^ d k ≠ 0) (s : ℕ → List ℕ)
    (hs : ∀ k < f.space.dim,
      FairSchedule (mix f.space.shapeSpectralOrtho f.space.shapeSpectral (k + 1)) k (s k)) :
    ∃ r, f.gradient s d scale = ok r ∧ f.space.gradient f.vhat d scale = ok r ∧
      Good r f.space.shapeSpectralOrtho := by
  obtain ⟨nd, sp, v, vhat, x, dx⟩ := f
  obtain ⟨-, hv⟩ := hf
  dsimp only at h hs hv hsc hne
  cases h with
  | one sp h0 =>
    obtain ⟨r, hr, hg⟩ := C41_space1_gradient sp h0 hv (scale := scale.map fun c => c 0)
      (fun h => hsc (by rintro rfl; exact h rfl) 0 (by decide : 0 < 1)) (by
        cases scale with
        | none => exact one_ne_zero
        | some c => exact hne c rfl 0 (by decide : 0 < 1))
    exact ⟨r, (C34_space1_gradient sp h0 hv (hs 0 (by decide : 0 < 1))).trans hr, hr, hg⟩
  | two sp h0 h1 =>
    obtain ⟨r, hr, hg⟩ := C41_space2_gradient sp h0 h1 hv (scale := scale.map fun c => (c 0, c 1))
      (fun h => have h' : scale ≠ none := by rintro rfl; exact h rfl
        ⟨hsc h' 0 (by decide : 0 < 2), hsc h' 1 (by decide : 1 < 2)⟩) (by
        cases scale with
        | none => exact one_ne_zero
        | some c => exact mul_ne_zero (hne c rfl 0 (by decide : 0 < 2)) (hne c rfl 1 (by decide : 1 < 2)))
    exact ⟨r, (C34_space2_gradient sp h0 h1 hv (hs 0 (by decide : 0 < 2))
      (hs 1 (by decide : 1 < 2))).trans hr, hr, hg⟩
  | three sp h0 h1 h2 l1 l2 =>
    obtain ⟨r, hr, hg⟩ := C41_space3_gradient sp h0 h1 h2 l1 hv
      (scale := scale.map fun c => (c 0, c 1, c 2))
      (fun h => have h' : scale ≠ none := by rintro rfl; exact h rfl
        ⟨hsc h' 0 (by decide : 0 < 3), hsc h' 1 (by decide : 1 < 3), hsc h' 2 (by decide : 2 < 3)⟩) (by
        cases scale with
        | none => exact one_ne_zero
        | some c => exact mul_ne_zero (mul_ne_zero (hne c rfl 0 (by decide : 0 < 3))
            (hne c rfl 1 (by decide : 1 < 3))) (hne c rfl 2 (by decide : 2 < 3)))
    have hs2 : FairSchedule [sp.base0.lenOrth, sp.base1.lenOrth, sp.base1.lenOrth] 2 (s 2) := by
      have := hs 2 (by decide : 2 < 3)
      change FairSchedule [sp.base0.lenOrth, sp.base1.lenOrth, sp.base2.lenOrth] 2 (s 2) at this
      rwa [l2] at this
    refine ⟨r, (C34_space3_gradient sp h0 h1 h2 l1 hv (hs 0 (by decide : 0 < 3))
      (hs 1 (by decide : 1 < 3)) hs2).trans hr, hr, ?_⟩
    show Good r [sp.base0.lenOrth, sp.base1.lenOrth, sp.base2.lenOrth]
    rw [l2]; exact hg

/-- C105: transforming forward and backward restores the values of a field of any dimension over
Chebyshev and Fourier bases, with any schedules. -/
theorem C105_forward_backward (f : FieldN P S) (hr : Restoring f.space) (h : Running f.space)
    (hf : InShape f) (s t : ℕ → List ℕ) (hs : Allowed f.space (.forward s))
    (ht : Allowed f.space (.backward t)) :
    ∃ f', f.runs [.forward s, .backward t] = ok f' ∧ f'.v = f.v := by
  obtain ⟨f', e, -, -, -, -, -, hm⟩ := C105_history f h hf [.forward s, .backward t]
    (by intro op h; simp at h; rcases h with rfl | rfl; exacts [hs, ht])
  refine ⟨f', e, ?_⟩
  have key : ∃ w, f.space.forward f.v = ok w ∧ f.space.backward w = ok f.v := by
    obtain ⟨nd, sp, v, vhat, x, dx⟩ := f
    obtain ⟨h1, h2⟩ := hf
    dsimp only at hr h1 h2 ⊢
    cases hr with
    | one sp h0 =>
      obtain ⟨w, hw, -, -, hb, -⟩ := C36_space1_backward_forward sp h0 h1 h2 h1
      exact ⟨w, hw, hb⟩
    | two sp h0 h1' =>
      obtain ⟨w, hw, -, -, hb, -⟩ := C36_backward_forward sp h0 h1' h1 h2 h1
      exact ⟨w, hw, hb⟩
    | three sp h0 h1' h2' =>
      obtain ⟨w, hw, -, -, hb, -⟩ := C39_backward_forward sp h0 h1' h2' h1 h2 h1
      exact ⟨w, hw, hb⟩
  obtain ⟨w, hw, hb⟩ := key
  cases hm with
  | cons m1 m2 =>
    cases m2 with
    | cons m2 m3 =>
      cases m3
      obtain ⟨q1, q2⟩ := m1
      obtain ⟨q3, q4⟩ := m2
      rw [hw] at q2
      rw [← Res.ok.inj q2, hb] at q4
      exact (Res.ok.inj q4).symm

/-! ### matrices for solvers -/

/-- C105: which base answers for which axis: the only one in one dimension, whatever the axis; the
first for axis 0 and the second for every other axis in two dimensions; in three dimensions the first,
second and third for 0, 1, 2. -/
theorem C105_axis_base {I J : Type} [Zero I] [Zero J] :
    (∀ (sp : Space1 P S S) k, AxisBase sp.asTrait k sp.base0) ∧
    (∀ sp : Space2 P I S S, AxisBase sp.asTrait 0 sp.base0 ∧
      ∀ k ≠ 0, AxisBase sp.asTrait k sp.base1) ∧
    ∀ sp : Space3 P I J S S, AxisBase sp.asTrait 0 sp.base0 ∧ AxisBase sp.asTrait 1 sp.base1 ∧
      AxisBase sp.asTrait 2 sp.base2 := by
  refine ⟨fun sp k => ⟨rfl, rfl, fun _ => rfl, fun _ => rfl⟩, fun sp => ⟨⟨rfl, rfl, fun _ => rfl,
    fun _ => rfl⟩, fun k hk => ⟨if_neg hk, if_neg hk, fun _ => if_neg hk, fun _ => if_neg hk⟩⟩,
    fun sp => ⟨⟨rfl, rfl, fun _ => rfl, fun _ => rfl⟩, ⟨rfl, rfl, fun _ => rfl, fun _ => rfl⟩,
      ⟨rfl, rfl, fun _ => rfl, fun _ => rfl⟩⟩⟩

end

/-- the matrices only depend on the base of the axis -/
private theorem ingredients_eq {P S T : Type} [Zero P] [Zero S] [Zero T]
    (f : FieldN P S) {axis : ℕ} {b : Base ℝ ℝ T} (g : Field2 ℝ ℝ T)
    (hg : g.space.base1 = b) (hb : AxisBase f.space axis b) (o : Mode) :
    f.ingredientsForHholtz o axis = g.ingredientsForHholtz o 1 ∧
    f.ingredientsForPoisson o axis = g.ingredientsForPoisson o 1 := by
  subst hg
  have h1 : f.ingredientsForHholtz o axis = g.ingredientsForHholtz o 1 := by
    unfold FieldN.ingredientsForHholtz Field2.ingredientsForHholtz
    rw [hb.kind, hb.stencil, hb.laplacian, hb.pinv]
    rfl
  refine ⟨h1, ?_⟩
  unfold FieldN.ingredientsForPoisson Field2.ingredientsForPoisson
  rw [h1, hb.kind]
  rfl

/-- C105: in a field of any dimension the matrices for Helmholtz and Poisson solvers are never produced
for an axis with a Chebyshev-type base. -/
theorem C105_ingredients_cheb {P S T : Type} [Zero P] [Zero S] [AddCommGroup T] [Module ℝ T] (o : Mode)
    (f : FieldN P S) (axis : ℕ) (k : Option CKind) (n : ℕ) (b : BaseR2r) (hb : newR2r k n = ok b)
    (hax : AxisBase f.space axis (b.toBase T)) :
    (∀ r, f.ingredientsForHholtz o axis ≠ ok r) ∧ (∀ r, f.ingredientsForPoisson o axis ≠ ok r) ∧
    (4 ≤ n → n ≤ 2642246 → f.ingredientsForHholtz o axis = err .panic) := by
  let g : Field2 ℝ ℝ T := ⟨2, ⟨⟨.chebyshev, .r2r,
    ok [], ok ⟨0, 0, fun _ _ => 0⟩, ok ⟨0, 0, fun _ _ => 0⟩, fun _ => ok ⟨0, 0, fun _ _ => 0⟩,
    fun _ => ok (⟨0, 0, fun _ _ => 0⟩, ⟨0, 0, fun _ _ => 0⟩), 0, 0, 0, fun _ _ => ok [],
    fun _ _ => ok [], fun _ _ => ok [], fun _ _ => ok [], fun _ _ _ => ok []⟩, b.toBase T⟩,
    Arr.zeros [], Arr.zeros [], [], []⟩
  have h2 := C63_ingredients_cheb_panics o g k n b hb rfl
  obtain ⟨e1, e2⟩ := ingredients_eq f (b := b.toBase T) g rfl hax o
  rw [e1, e2]
  exact h2

/-- C105: for an axis with a real-to-complex base they are the identity and the diagonal matrix of minus
squared wavenumbers, without preconditioner, reported as diagonal. -/
theorem C105_ingredients_r2c {P S : Type} [Zero P] [Zero S] (o : Mode) (f : FieldN P S) (axis n : ℕ)
    (b : Base ℝ ℂ ℂ) (hb : IsR2c n b) (hax : AxisBase f.space axis b) :
    ∃ S L, f.ingredientsForHholtz o axis = ok (S, L, none) ∧
      f.ingredientsForPoisson o axis = ok (S, L, none, true) ∧ IsIdentity (n / 2 + 1) S ∧
      L.rows = n / 2 + 1 ∧ L.cols = n / 2 + 1 ∧
      ∀ i < n / 2 + 1, ∀ j < n / 2 + 1, L.get i j = if i = j then -((i : ℝ) ^ 2) else 0 := by
  obtain ⟨hn, b0, hb0, hbb⟩ := hb
  obtain rfl := r2c_inv hb0
  subst hbb
  obtain ⟨L, -, hL, -, l1, l2, l3, -⟩ := C30_laplacian n ⟨n, n / 2 + 1⟩ rfl
  have h1 : f.ingredientsForHholtz o axis = ok (Mat.eye (n / 2 + 1), L, none) := by
    unfold FieldN.ingredientsForHholtz
    rw [hax.kind, bind_ok, hax.stencil, hax.laplacian]
    show (ok (Mat.eye (n / 2 + 1)) >>= fun sten => (⟨n, n / 2 + 1⟩ : R2c).laplacian >>= fun lap =>
      ok (sten, lap, none)) = _
    rw [bind_ok, hL, bind_ok]
  refine ⟨_, _, h1, ?_, ⟨rfl, rfl, fun i hi j hj => rfl⟩, l1, l2, l3⟩
  unfold FieldN.ingredientsForPoisson
  rw [h1, bind_ok, hax.kind]
  rfl

/-- C105: the same for an axis with a complex-to-complex base, with signed wavenumbers. -/
theorem C105_ingredients_c2c {P S : Type} [Zero P] [Zero S] (o : Mode) (f : FieldN P S) (axis n : ℕ)
    (b : Base ℂ ℂ ℂ) (hb : IsC2c n b) (hax : AxisBase f.space axis b) :
    ∃ S L, f.ingredientsForHholtz o axis = ok (S, L, none) ∧
      f.ingredientsForPoisson o axis = ok (S, L, none, true) ∧ IsIdentity n S ∧
      L.rows = n ∧ L.cols = n ∧
      ∀ i < n, ∀ j < n, L.get i j = if i = j then -((freq n i : ℝ) ^ 2) else 0 := by
  obtain ⟨hn, b0, hb0, hbb⟩ := hb
  obtain rfl := c2c_inv hb0
  subst hbb
  obtain ⟨L, -, hL, -, l1, l2, l3, -⟩ := C27_laplacian n hn ⟨n, n⟩ rfl
  have h1 : f.ingredientsForHholtz o axis = ok (Mat.eye n, L, none) := by
    unfold FieldN.ingredientsForHholtz
    rw [hax.kind, bind_ok, hax.stencil, hax.laplacian]
    show (ok (Mat.eye n) >>= fun sten => (⟨n, n⟩ : C2c).laplacian >>= fun lap =>
      ok (sten, lap, none)) = _
    rw [bind_ok, hL, bind_ok]
  refine ⟨_, _, h1, ?_, ⟨rfl, rfl, fun i hi j hj => rfl⟩, l1, l2, l3⟩
  unfold FieldN.ingredientsForPoisson
  rw [h1, bind_ok, hax.kind]
  rfl

/-! ### the instances -/

/-- The field of two dimensions as a field of the general kind. -/
noncomputable def _root_.Verif.Field2.toN {P I S : Type} [Zero P] [Zero I] [AddCommGroup S] [Module ℝ S]
    (f : Field2 P I S) : FieldN P S :=
  ⟨f.ndim, f.space.asTrait, f.v, f.vhat, f.x, f.dx⟩

/-- C105: for two dimensions the general field is the field of C63: every method gives the same result
or fails in the same way. -/
theorem C105_two {P I S : Type} [Zero P] [Zero I] [AddCommGroup S] [Module ℝ S] (f : Field2 P I S)
    (s : ℕ → List ℕ) :
    (f.toN.forward s = f.forward (s 0) (s 1) >>= fun g => ok g.toN) ∧
    (f.toN.backward s = f.backward (s 0) (s 1) >>= fun g => ok g.toN) ∧
    (∀ a, f.toN.fromOrtho s a = f.fromOrtho (s 0) (s 1) a >>= fun g => ok g.toN) ∧
    f.toN.toOrtho s = f.toOrtho (s 0) (s 1) ∧
    (∀ d, f.toN.gradient s d none = f.gradient (s 0) (s 1) (d 0) (d 1) none) ∧
    (∀ d c, f.toN.gradient s d (some c) = f.gradient (s 0) (s 1) (d 0) (d 1) (some (c 0, c 1))) ∧
    (∀ o k, f.toN.ingredientsForHholtz o k = f.ingredientsForHholtz o k) ∧
    (∀ o k, f.toN.ingredientsForPoisson o k = f.ingredientsForPoisson o k) := by
  refine ⟨?_, ?_, fun a => ?_, rfl, fun _ => rfl, fun _ _ => rfl, fun _ _ => rfl, fun _ _ => rfl⟩
  · unfold FieldN.forward Field2.forward
    show (f.space.forwardInplacePar (s 0) (s 1) f.v f.vhat >>= _) = _
    cases f.space.forwardInplacePar (s 0) (s 1) f.v f.vhat <;> rfl
  · unfold FieldN.backward Field2.backward
    show (f.space.backwardInplacePar (s 0) (s 1) f.vhat f.v >>= _) = _
    cases f.space.backwardInplacePar (s 0) (s 1) f.vhat f.v <;> rfl
  · unfold FieldN.fromOrtho Field2.fromOrtho
    show (f.space.fromOrthoInplacePar (s 0) (s 1) a f.vhat >>= _) = _
    cases f.space.fromOrthoInplacePar (s 0) (s 1) a f.vhat <;> rfl

/-- C105: the serial operations a history is compared with are those of the one- and three-dimensional
spaces. -/
theorem C105_one_three {P I J S : Type} [Zero P] [Zero I] [Zero J] [AddCommGroup S] [Module ℝ S]
    (s1 : Space1 P S S) (s3 : Space3 P I J S S) (d : ℕ → ℕ) (c : ℕ → ℝ) :
    (s1.asTrait.forward = s1.forward ∧ s1.asTrait.backward = s1.backward ∧
      s1.asTrait.toOrtho = s1.toOrtho ∧ s1.asTrait.fromOrtho = s1.fromOrtho ∧
      s1.asTrait.coords = s1.coords ∧
      (∀ a, s1.asTrait.gradient a d none = s1.gradient a (d 0) none) ∧
      ∀ a, s1.asTrait.gradient a d (some c) = s1.gradient a (d 0) (some (c 0))) ∧
    (s3.asTrait.forward = s3.forward ∧ s3.asTrait.backward = s3.backward ∧
      s3.asTrait.toOrtho = s3.toOrtho ∧ s3.asTrait.fromOrtho = s3.fromOrtho ∧
      s3.asTrait.coords = s3.coords ∧
      (∀ a, s3.asTrait.gradient a d none = s3.gradient a (d 0) (d 1) (d 2) none) ∧
      ∀ a, s3.asTrait.gradient a d (some c) =
        s3.gradient a (d 0) (d 1) (d 2) (some (c 0, c 1, c 2))) :=
  ⟨⟨rfl, rfl, rfl, rfl, rfl, fun _ => rfl, fun _ => rfl⟩,
    ⟨rfl, rfl, rfl, rfl, rfl, fun _ => rfl, fun _ => rfl⟩⟩

/-- the hypotheses can be met: a three-dimensional field over `fourier_r2c(10) × chebyshev(5) ×
chebyshev(5)`, with schedules for a forward transform -/
example : ∃ (b0 : Base ℝ ℂ ℂ) (b1 : BaseR2r) (xs : List (List ℝ)) (s : ℕ → List ℕ),
    IsR2c 10 b0 ∧ newR2r none 5 = ok b1 ∧
    Running (⟨b0, b1.toBase ℂ, b1.toBase ℂ⟩ : Space3 ℝ ℝ ℝ ℂ ℂ).asTrait ∧
    Restoring (⟨b0, b1.toBase ℂ, b1.toBase ℂ⟩ : Space3 ℝ ℝ ℝ ℂ ℂ).asTrait ∧
    Differentiable (fun _ => 1) (⟨b0, b1.toBase ℂ, b1.toBase ℂ⟩ : Space3 ℝ ℝ ℝ ℂ ℂ).asTrait ∧
    (⟨b0, b1.toBase ℂ, b1.toBase ℂ⟩ : Space3 ℝ ℝ ℝ ℂ ℂ).asTrait.coords = ok xs ∧
    Allowed (⟨b0, b1.toBase ℂ, b1.toBase ℂ⟩ : Space3 ℝ ℝ ℝ ℂ ℂ).asTrait (.forward s) := by
  obtain ⟨b0, hb0, -⟩ := isR2c_exists (n := 10) (by decide)
  obtain ⟨b1, hb1⟩ := newR2r_exists none 5 (by norm_num) (by rintro c ⟨⟩)
  have h1 : IsR2r (b1.toBase ℂ) := ⟨none, 5, b1, hb1, trivial, trivial, rfl⟩
  obtain ⟨x1, -, hx1, -⟩ := C63_dx_cheb (T := ℂ) _ 5 b1 hb1
  have hg := (C41_gradients_run.1 none 5 b1 1 hb1 (by decide : 3 ≤ 5)).2
  obtain ⟨hn, c, hc, rfl⟩ := id hb0
  obtain rfl := r2c_inv hc
  obtain ⟨x0, hx0, -⟩ := C23_r2c_coords 10 hn ⟨10, 10 / 2 + 1⟩ rfl
  refine ⟨_, b1, [x0, x1, x1], fun k => (fair_exists _ k).choose, hb0, hb1,
    .three _ hb0.runs h1.runs h1.runs,
    .three _ (r2c_laws (n := 10) (by decide) hc).2.1 (cheb_bwdFwd hb1) (cheb_bwdFwd hb1),
    .three _ (C41_gradients_run.2.1 _ _ _ hb0) hg hg rfl rfl, ?_,
    fun k _ => (fair_exists _ k).choose_spec⟩
  show ((⟨10, 10 / 2 + 1⟩ : R2c).coords >>= fun c => (b1.toBase ℂ).coords >>= fun c1 =>
    (b1.toBase ℂ).coords >>= fun c2 => ok [c, c1, c2]) = _
  rw [hx0, bind_ok, hx1, bind_ok, bind_ok]

end Verif.Props
