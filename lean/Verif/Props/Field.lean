/-
Property C63: the field of examples/field.rs (a space together with its arrays).
-/
import Verif.Proof.Field

namespace Verif.Props
open Res Spec

/-! ### grid deltas -/

/-- C63: `get_dx` succeeds for every grid; the deltas of a grid add up to its length, they are the
distances between the midpoints of neighbouring cells, and they are positive on increasing grids. -/
theorem C63_get_dx (x : List ℝ) :
    ∃ d, getDxAxis x = ok d ∧ d.length = x.length ∧
      (0 < x.length → ∑ i ∈ Finset.range x.length, nth d i = nth x (x.length - 1) - nth x 0) ∧
      (∀ i, 0 < i → i + 1 < x.length → nth d i = (nth x (i + 1) - nth x (i - 1)) / 2) ∧
      ((∀ i j, i < j → j < x.length → nth x i < nth x j) → 2 ≤ x.length →
        ∀ i < x.length, 0 < nth d i) := by
  refine ⟨_, getDxAxis_eq x, by simp, fun h => ?_, fun i h0 h1 => ?_, fun hinc h2 i hi => ?_⟩
  · rw [← sum_dxAt_all x h]
    exact Finset.sum_congr rfl fun i hi => nth_map_range _ _ _ (Finset.mem_range.mp hi)
  · rw [nth_map_range _ _ _ (by omega)]
    unfold dxAt
    rw [if_neg (by omega), if_neg (by omega)]
    ring
  · rw [nth_map_range _ _ _ hi]
    exact dxAt_pos x hinc h2 i hi

/-- C63: the deltas of a Chebyshev-type axis are positive and add up to the length 2 of `[-1, 1]`. -/
theorem C63_dx_cheb {T : Type} [AddCommGroup T] [Module ℝ T] (k : Option CKind) (n : ℕ) (b : BaseR2r)
    (hb : newR2r k n = ok b) :
    ∃ x d, (b.toBase T).coords = ok x ∧ getDxAxis x = ok d ∧ d.length = n ∧
      (∀ i < n, 0 < nth d i) ∧ ∑ i ∈ Finset.range n, nth d i = 2 := by
  have hx : (b.toBase T).coords = (⟨n, n⟩ : Cheb).coords ∧ 2 ≤ n := by
    cases k with
    | none => obtain ⟨hn, rfl⟩ := chebyshev_inv hb; exact ⟨rfl, hn⟩
    | some k =>
      obtain ⟨c, hc, rfl⟩ := composite_inv hb
      have hw := Compo.wf_of_new hc
      have h2 : 2 ≤ n := le_trans (by cases k <;> decide) hw.le
      refine ⟨?_, h2⟩
      show c.coords = _
      unfold Compo.coords
      rw [show c.lenPhys = n from hw.n_eq]; rfl
  obtain ⟨x, hc, hl, -, h0, h1, hinc, -⟩ := C01_coords n ⟨n, n⟩ (cheb_new_ok hx.2)
  obtain ⟨d, hd, dl, hs, -, hp⟩ := C63_get_dx x
  refine ⟨x, d, by rw [hx.1, hc], hd, by omega, fun i hi => ?_, ?_⟩
  · exact hp (fun i j h1 h2 => hinc i j h1 (by omega)) (by omega) i (by omega)
  · rw [← hl, hs (by omega), hl, h1, h0]; norm_num

/-- C63: on a Fourier axis the deltas are `2π/n` inside and half of it at the two ends; they add up
to `2π(n-1)/n`, not to the period. -/
theorem C63_dx_fourier (n : ℕ) (hn : 2 ≤ n) (b : R2c) (hb : R2c.new n = ok b) :
    ∃ x d, b.coords = ok x ∧ getDxAxis x = ok d ∧ d.length = n ∧
      (∀ i, 0 < i → i + 1 < n → nth d i = 2 * Real.pi / n) ∧ (∀ i < n, 0 < nth d i) ∧
      ∑ i ∈ Finset.range n, nth d i = 2 * Real.pi * (n - 1) / n := by
  obtain ⟨x, hc, hl, hj⟩ := C23_r2c_coords n (by omega) b hb
  obtain ⟨d, hd, dl, hs, hm, hp⟩ := C63_get_dx x
  have hn0 : (0 : ℝ) < n := by exact_mod_cast (show 0 < n by omega)
  refine ⟨x, d, hc, hd, by omega, fun i h0 h1 => ?_, ?_, ?_⟩
  · rw [hm i h0 (by omega), hj _ (by omega), hj _ (by omega)]
    have : ((i - 1 : ℕ) : ℝ) = i - 1 := by rw [Nat.cast_sub (by omega)]; norm_num
    rw [this]
    push_cast
    field_simp
    ring
  · refine fun i hi => hp (fun i j hij hjl => ?_) (by omega) i (by omega)
    rw [hj i (by omega), hj j (by omega)]
    have : (i : ℝ) < j := by exact_mod_cast hij
    have := Real.pi_pos
    gcongr
  · rw [← hl, hs (by omega), hj _ (by omega), hj _ (by omega), hl, Nat.cast_sub (by omega)]
    push_cast
    ring

/-! ### histories -/

section
variable {P I S : Type} [Zero P] [Zero I] [Zero S]

/-- A call a user may make: arrays of the shapes of the space, schedules that let every task
finish. -/
def Admissible (sp : Space2 P I S S) : FieldOp P S → Prop
  | .setV a => Good a sp.shapePhysical
  | .setVhat a => Good a sp.shapeSpectral
  | .forward s0 s1 => FairSchedule [sp.base0.lenSpec, sp.base1.lenSpec] 0 s0 ∧
      FairSchedule [sp.base0.lenPhys, sp.base1.lenSpec] 1 s1
  | .backward s0 s1 => FairSchedule [sp.base0.lenPhys, sp.base1.lenSpec] 0 s0 ∧
      FairSchedule [sp.base0.lenPhys, sp.base1.lenPhys] 1 s1
  | .fromOrtho s0 s1 a => Good a sp.shapeSpectralOrtho ∧
      FairSchedule [sp.base0.lenSpec, sp.base1.lenOrth] 0 s0 ∧
      FairSchedule [sp.base0.lenSpec, sp.base1.lenSpec] 1 s1

/-- What a call means for the pair `(v, vhat)`: the serial operations of the space, no schedules. -/
def Means (sp : Space2 P I S S) (s : Arr P × Arr S) (t : Arr P × Arr S) : FieldOp P S → Prop
  | .setV a => t = (a, s.2)
  | .setVhat a => t = (s.1, a)
  | .forward _ _ => t.1 = s.1 ∧ sp.forward s.1 = ok t.2
  | .backward _ _ => t.2 = s.2 ∧ sp.backward s.2 = ok t.1
  | .fromOrtho _ _ a => t.1 = s.1 ∧ sp.fromOrtho a = ok t.2

/-- A history of serial operations. -/
inductive Meaning (sp : Space2 P I S S) : List (FieldOp P S) → Arr P × Arr S → Arr P × Arr S → Prop
  | nil (s) : Meaning sp [] s s
  | cons {op ops s t u} : Means sp s t op → Meaning sp ops t u → Meaning sp (op :: ops) s u

/-- The arrays of a field have the shapes of its space. -/
structure Consistent (f : Field2 P I S) : Prop where
  v : Good f.v f.space.shapePhysical
  vhat : Good f.vhat f.space.shapeSpectral

/-- C63: `new` of a field over bases with grids gives a consistent field of zeros, with the grids and
grid deltas of the two bases. -/
theorem C63_new (sp : Space2 P I S S) (x0 x1 : List ℝ) (h0 : sp.base0.coords = ok x0)
    (h1 : sp.base1.coords = ok x1) :
    ∃ f d0 d1, Field2.new sp = ok f ∧ Consistent f ∧ f.ndim = 2 ∧ f.space = sp ∧ f.x = [x0, x1] ∧
      f.dx = [d0, d1] ∧ getDxAxis x0 = ok d0 ∧ getDxAxis x1 = ok d1 ∧
      (∀ p ∈ f.v.data, p = 0) ∧ ∀ s ∈ f.vhat.data, s = 0 := by
  obtain ⟨d0, e0, -⟩ := C63_get_dx x0
  obtain ⟨d1, e1, -⟩ := C63_get_dx x1
  have hc : sp.coords = ok [x0, x1] := by
    show (sp.base0.coords >>= fun c0 => sp.base1.coords >>= fun c1 => ok [c0, c1]) = _
    rw [h0, h1]; rfl
  refine ⟨⟨2, sp, Arr.zeros sp.shapePhysical, Arr.zeros sp.shapeSpectral, [x0, x1], [d0, d1]⟩, d0, d1,
    ?_, ⟨good_zeros _, good_zeros _⟩, rfl, rfl, rfl, rfl, e0, e1, fun p hp => ?_, fun p hp => ?_⟩
  · have hd : getDx [x0, x1] = ok [d0, d1] := by
      show (getDxAxis x0 >>= fun y => (getDxAxis x1 >>= fun z => ok [z]) >>= fun zs => ok (y :: zs)) = _
      rw [e0, e1]; rfl
    unfold Field2.new
    rw [hc, bind_ok, bind_ok, hd]; rfl
  · exact (List.mem_replicate.mp hp).2
  · exact (List.mem_replicate.mp hp).2

/-- one step -/
private theorem field_step {f : Field2 P I S} (h0 : Runs f.space.base0) (h1 : Runs f.space.base1)
    (hf : Consistent f) {op : FieldOp P S} (ha : Admissible f.space op) :
    ∃ f', op.run f = ok f' ∧ Consistent f' ∧ f'.space = f.space ∧ f'.x = f.x ∧ f'.dx = f.dx ∧
      f'.ndim = f.ndim ∧ Means f.space (f.v, f.vhat) (f'.v, f'.vhat) op := by
  cases op with
  | setV a => exact ⟨_, rfl, ⟨ha, hf.vhat⟩, rfl, rfl, rfl, rfl, rfl⟩
  | setVhat a => exact ⟨_, rfl, ⟨hf.v, ha⟩, rfl, rfl, rfl, rfl, rfl⟩
  | forward s0 s1 =>
    obtain ⟨r, hr, hg, hi⟩ := C41_space2_forward f.space h0 h1 hf.v hf.vhat
    have hp := (C34_space2_forward f.space h0 h1 hf.v hf.vhat ha.1 ha.2).2
    refine ⟨{ f with vhat := r }, ?_, ⟨hf.v, hg⟩, rfl, rfl, rfl, rfl, rfl, hr⟩
    show f.forward s0 s1 = _
    unfold Field2.forward
    rw [hp, hi]; rfl
  | backward s0 s1 =>
    obtain ⟨r, hr, hg, hi⟩ := C41_space2_backward f.space h0 h1 hf.vhat hf.v
    have hp := (C34_space2_backward f.space h0 h1 hf.vhat hf.v ha.1 ha.2).2
    refine ⟨{ f with v := r }, ?_, ⟨hg, hf.vhat⟩, rfl, rfl, rfl, rfl, rfl, hr⟩
    show f.backward s0 s1 = _
    unfold Field2.backward
    rw [hp, hi]; rfl
  | fromOrtho s0 s1 a =>
    obtain ⟨r, hr, hg, hi⟩ := C41_space2_from_ortho f.space h0 h1 ha.1 hf.vhat
    have hp := (C34_space2_from_ortho f.space h0 h1 ha.1 hf.vhat ha.2.1 ha.2.2).2
    refine ⟨{ f with vhat := r }, ?_, ⟨hf.v, hg⟩, rfl, rfl, rfl, rfl, rfl, hr⟩
    show f.fromOrtho s0 s1 a = _
    unfold Field2.fromOrtho
    rw [hp, hi]; rfl

/-- C63: histories. Whatever a user does with a consistent field over bases that run - assigning the
arrays, transforming, projecting, in any order and number, with any schedules - every call succeeds,
the field stays consistent, space, grid and deltas never change, and the arrays are those obtained
with the serial operations of the space. -/
theorem C63_history (f : Field2 P I S) (h0 : Runs f.space.base0) (h1 : Runs f.space.base1)
    (hf : Consistent f) (ops : List (FieldOp P S)) (ha : ∀ op ∈ ops, Admissible f.space op) :
    ∃ f', f.runs ops = ok f' ∧ Consistent f' ∧ f'.space = f.space ∧ f'.x = f.x ∧ f'.dx = f.dx ∧
      f'.ndim = f.ndim ∧ Meaning f.space ops (f.v, f.vhat) (f'.v, f'.vhat) := by
  induction ops generalizing f with
  | nil => exact ⟨f, rfl, hf, rfl, rfl, rfl, rfl, .nil _⟩
  | cons op ops ih =>
    obtain ⟨g, e, hg, s1, s2, s3, s4, hm⟩ := field_step h0 h1 hf (ha op (by simp))
    obtain ⟨f', e', hf', t1, t2, t3, t4, hm'⟩ := ih g (by rw [s1]; exact h0) (by rw [s1]; exact h1) hg
      (fun op' h => by rw [s1]; exact ha op' (by simp [h]))
    refine ⟨f', ?_, hf', t1.trans s1, t2.trans s2, t3.trans s3, t4.trans s4, .cons hm (by rw [← s1]; exact hm')⟩
    show (op.run f >>= fun g => g.runs ops) = _
    rw [e, bind_ok, e']

/-- The same call up to schedules. -/
def SameCall : FieldOp P S → FieldOp P S → Prop
  | .setV a, .setV b => a = b
  | .setVhat a, .setVhat b => a = b
  | .forward _ _, .forward _ _ => True
  | .backward _ _, .backward _ _ => True
  | .fromOrtho _ _ a, .fromOrtho _ _ b => a = b
  | _, _ => False

/-- C63: the meaning of a history is a function: two runs of the same calls that differ only in the
schedules of the parallel passes end with the same arrays. -/
theorem C63_schedule_independent (f : Field2 P I S) (h0 : Runs f.space.base0) (h1 : Runs f.space.base1)
    (hf : Consistent f) (ops ops' : List (FieldOp P S)) (ha : ∀ op ∈ ops, Admissible f.space op)
    (ha' : ∀ op ∈ ops', Admissible f.space op)
    (hsame : List.Forall₂ SameCall ops ops') :
    f.runs ops = f.runs ops' := by
  induction hsame generalizing f with
  | nil => rfl
  | @cons op op' ops ops' hop hrest ih =>
    obtain ⟨g, e, hg, s1, s2, s3, s4, hm⟩ := field_step h0 h1 hf (ha op (by simp))
    obtain ⟨g', e', hg', s1', s2', s3', s4', hm'⟩ := field_step h0 h1 hf (ha' op' (by simp))
    have hiff : ∀ s t, Means f.space s t op' → Means f.space s t op := by
      intro s t h
      cases op <;> cases op' <;> first | exact absurd hop id | skip
      · rw [show _ = _ from hop]; exact h
      · rw [show _ = _ from hop]; exact h
      · exact h
      · exact h
      · rw [show _ = _ from hop]; exact h
    replace hm' := hiff _ _ hm'
    have hfun : ∀ s t u : Arr P × Arr S, Means f.space s t op → Means f.space s u op → t = u := by
      intro s t u ht hu
      cases op with
      | setV a => exact ht.trans hu.symm
      | setVhat a => exact ht.trans hu.symm
      | forward _ _ => exact Prod.ext (ht.1.trans hu.1.symm) (Res.ok.inj (ht.2.symm.trans hu.2))
      | backward _ _ => exact Prod.ext (Res.ok.inj (ht.2.symm.trans hu.2)) (ht.1.trans hu.1.symm)
      | fromOrtho _ _ a => exact Prod.ext (ht.1.trans hu.1.symm) (Res.ok.inj (ht.2.symm.trans hu.2))
    have hv := hfun _ _ _ hm hm'
    have hgg : g = g' := by
      obtain ⟨a1, a2, a3, a4, a5, a6⟩ := g
      obtain ⟨b1, b2, b3, b4, b5, b6⟩ := g'
      simp only [Prod.mk.injEq] at hv
      obtain ⟨rfl, rfl⟩ := hv
      dsimp only at *
      subst s1 s2 s3 s4 s1' s2' s3' s4'
      rfl
    show (op.run f >>= fun g => g.runs ops) = (op'.run f >>= fun g => g.runs ops')
    rw [e, e', bind_ok, bind_ok, ← hgg]
    exact ih g (by rw [s1]; exact h0) (by rw [s1]; exact h1) hg
      (fun op h => by rw [s1]; exact ha op (by simp [h]))
      (fun op h => by rw [s1]; exact ha' op (by simp [h]))

/-- C63: transforming forward and backward restores the values of a field over a space whose bases
satisfy `backward(forward(x)) = x` (Chebyshev and Fourier bases), with any schedules. -/
theorem C63_forward_backward (f : Field2 P I S) (h0 : BwdFwd f.space.base0) (h1 : BwdFwd f.space.base1)
    (r0 : Runs f.space.base0) (r1 : Runs f.space.base1) (hf : Consistent f)
    (s0 s1 t0 t1 : List ℕ) (hs : Admissible f.space (.forward s0 s1))
    (ht : Admissible f.space (.backward t0 t1)) :
    ∃ f', f.runs [.forward s0 s1, .backward t0 t1] = ok f' ∧ f'.v = f.v := by
  obtain ⟨f', e, -, -, -, -, -, hm⟩ := C63_history f r0 r1 hf [.forward s0 s1, .backward t0 t1]
    (by intro op h; simp at h; rcases h with rfl | rfl; exacts [hs, ht])
  refine ⟨f', e, ?_⟩
  obtain ⟨w, hw, -, -, hb, -⟩ := C36_backward_forward f.space h0 h1 hf.v hf.vhat hf.v
  cases hm with
  | cons m1 m2 =>
    cases m2 with
    | cons m2 m3 =>
      cases m3
      obtain ⟨q1, q2⟩ := m1
      obtain ⟨q3, q4⟩ := m2
      rw [hw] at q2
      rw [← Res.ok.inj q2, hb] at q4
      exact (Res.ok.inj q4).symm

/-- C63: `to_ortho` of a field returns what the serial `to_ortho` of its space returns for the current
coefficients, of the documented shape. -/
theorem C63_to_ortho (f : Field2 P I S) (h0 : Runs f.space.base0) (h1 : Runs f.space.base1)
    (hf : Consistent f) (s0 s1 : List ℕ)
    (hs0 : FairSchedule [f.space.base0.lenOrth, f.space.base1.lenSpec] 0 s0)
    (hs1 : FairSchedule [f.space.base0.lenOrth, f.space.base1.lenOrth] 1 s1) :
    ∃ r, f.toOrtho s0 s1 = ok r ∧ f.space.toOrtho f.vhat = ok r ∧
      Good r f.space.shapeSpectralOrtho := by
  obtain ⟨r, hr, hg, -⟩ := C41_space2_to_ortho f.space h0 h1 hf.vhat
    (good_zeros f.space.shapeSpectralOrtho)
  refine ⟨r, ?_, hr, hg⟩
  rw [← hr]
  exact (C34_space2_to_ortho f.space h0 h1 hf.vhat (good_zeros _) hs0 hs1).1

/-! ### matrices for solvers -/

/-- What `ingredients_for_hholtz` does with the answers of the base of an axis. -/
private theorem hholtz_base (f : Field2 P I S) (o : Mode) (axis : ℕ) {Q R T' : Type} (b : Base Q R T')
    (hk : f.space.baseKind axis = ok b.baseKind) (hs : f.space.stencil axis = b.stencil)
    (hl : f.space.laplacian o axis = b.laplacian o) (hp : f.space.laplacianPinv o axis = b.laplacianPinv o)
    (n : ℕ) (hb : b.laplacianPinv o = (⟨n, n⟩ : Cheb).laplacianPinv ℝ o)
    (hkind : b.baseKind = .chebyshev ∨ ∃ k, b.baseKind = .composite k) :
    (∀ r, f.ingredientsForHholtz o axis ≠ ok r) ∧
    (4 ≤ n → n ≤ 2642246 → (∃ S, b.stencil = ok S) → (∃ L, b.laplacian o = ok L) →
      f.ingredientsForHholtz o axis = err .panic) := by
  have key : ∀ P I : Mat ℝ, (⟨n, n⟩ : Cheb).laplacianPinv ℝ o = ok (P, I) →
      ∃ t, I.dot P = ok t ∧ P.assign t = err .panic := by
    intro P I h
    obtain ⟨h4, r1, c1, r2, c2⟩ := laplacianPinv_shape h
    refine ⟨⟨I.rows, P.cols, fun i j => ∑ k ∈ Finset.range I.cols, I.get i k * P.get k j⟩,
      if_pos (by omega), if_neg ?_⟩
    dsimp only
    rintro ⟨h, -⟩
    omega
  have body : ∀ sten lap : Mat ℝ, b.stencil = ok sten → b.laplacian o = ok lap →
      (∀ e, b.laplacianPinv o = err e → f.ingredientsForHholtz o axis = err e) ∧
      ∀ q, b.laplacianPinv o = ok q → f.ingredientsForHholtz o axis = err .panic := by
    intro sten lap h1 h2
    unfold Field2.ingredientsForHholtz
    rw [hk, bind_ok, hs, h1, bind_ok, hl, h2, bind_ok, hp]
    refine ⟨fun e he => ?_, fun q hq => ?_⟩
    · rcases hkind with hkk | ⟨k, hkk⟩ <;> rw [hkk] <;> dsimp only <;> rw [he, bind_err]
    · obtain ⟨P, I⟩ := q
      obtain ⟨t, ht, ha⟩ := key P I (by rw [← hb, hq])
      rcases hkind with hkk | ⟨k, hkk⟩ <;> rw [hkk] <;> dsimp only <;> rw [hq, bind_ok] <;>
        dsimp only <;> rw [ht, bind_ok, ha, bind_err]
  constructor
  · intro r hr
    cases hsb : b.stencil with
    | err e =>
      unfold Field2.ingredientsForHholtz at hr
      rw [hk, bind_ok, hs, hsb, bind_err] at hr
      exact nomatch hr
    | ok sten =>
      cases hlb : b.laplacian o with
      | err e =>
        unfold Field2.ingredientsForHholtz at hr
        rw [hk, bind_ok, hs, hsb, bind_ok, hl, hlb, bind_err] at hr
        exact nomatch hr
      | ok lap =>
        obtain ⟨b1, b2⟩ := body sten lap hsb hlb
        cases hq : b.laplacianPinv o with
        | err e => rw [b1 e hq] at hr; exact nomatch hr
        | ok q => rw [b2 q hq] at hr; exact nomatch hr
  · rintro h4 hm ⟨sten, h1⟩ ⟨lap, h2⟩
    obtain ⟨Q, J, hQ, -⟩ := lap2_of_new o h4 hm
    exact (body sten lap h1 h2).2 _ (by rw [hb, hQ])

private theorem r2r_pinv {T : Type} [AddCommGroup T] [Module ℝ T] {k : Option CKind} {n : ℕ}
    {b : BaseR2r} (hb : newR2r k n = ok b) (o : Mode) :
    (b.toBase T).laplacianPinv o = (⟨n, n⟩ : Cheb).laplacianPinv ℝ o ∧
    (b.toBase T).laplacian o = (⟨n, n⟩ : Cheb).laplacian ℝ o ∧
    ((b.toBase T).baseKind = .chebyshev ∨ ∃ k, (b.toBase T).baseKind = .composite k) := by
  cases k with
  | none => obtain ⟨hn, rfl⟩ := chebyshev_inv hb; exact ⟨rfl, rfl, .inl rfl⟩
  | some k =>
    obtain ⟨c, hc, rfl⟩ := composite_inv hb
    have hw := Compo.wf_of_new hc
    refine ⟨?_, ?_, .inr ⟨_, rfl⟩⟩
    · show c.laplacianPinv o = _
      unfold Compo.laplacianPinv Compo.diffmatPinv
      rw [hw.ortho]; rfl
    · show c.laplacian o = _
      unfold Compo.laplacian Compo.diffmat
      rw [hw.ortho]; rfl

private theorem cheb_panics (o : Mode) (f : Field2 P I S) (axis : ℕ) {T : Type} [AddCommGroup T]
    [Module ℝ T] (k : Option CKind) (n : ℕ) (b : BaseR2r) (hb : newR2r k n = ok b)
    (hk : f.space.baseKind axis = ok (b.toBase T).baseKind)
    (hs : f.space.stencil axis = (b.toBase T).stencil)
    (hl : f.space.laplacian o axis = (b.toBase T).laplacian o)
    (hp : f.space.laplacianPinv o axis = (b.toBase T).laplacianPinv o) :
    (∀ r, f.ingredientsForHholtz o axis ≠ ok r) ∧ (∀ r, f.ingredientsForPoisson o axis ≠ ok r) ∧
    (4 ≤ n → n ≤ 2642246 → f.ingredientsForHholtz o axis = err .panic) := by
  obtain ⟨p1, p2, p3⟩ := r2r_pinv (T := T) hb o
  have hh := hholtz_base f o axis (b.toBase T) hk hs hl hp n p1 p3
  refine ⟨hh.1, fun r hr => ?_, fun h4 hm => hh.2 h4 hm ?_ ?_⟩
  · unfold Field2.ingredientsForPoisson at hr
    cases h : f.ingredientsForHholtz o axis with
    | ok q => exact hh.1 q h
    | err e => rw [h, bind_err] at hr; exact nomatch hr
  · obtain ⟨M, hM, -⟩ := r2r_stencil (T := T) hb
    exact ⟨M, hM⟩
  · rw [p2]
    obtain ⟨D, hD, -⟩ := C06_diffmat_columns (K := ℝ) o n ⟨n, n⟩ (cheb_new_ok (by omega)) 2 (by omega)
      (by simpa [dmatMax] using hm)
    exact ⟨D, hD⟩

private theorem fourier_ok (o : Mode) (f : Field2 P I S) (axis : ℕ) {kind : BaseKind} {M L : Mat ℝ}
    (hk : f.space.baseKind axis = ok kind) (hf : kind = .fourierR2c ∨ kind = .fourierC2c)
    (hs : f.space.stencil axis = ok M) (hl : f.space.laplacian o axis = ok L) :
    f.ingredientsForHholtz o axis = ok (M, L, none) ∧
    f.ingredientsForPoisson o axis = ok (M, L, none, true) := by
  have h1 : f.ingredientsForHholtz o axis = ok (M, L, none) := by
    unfold Field2.ingredientsForHholtz
    rw [hk, bind_ok, hs, bind_ok, hl, bind_ok]
    rcases hf with rfl | rfl <;> rfl
  refine ⟨h1, ?_⟩
  unfold Field2.ingredientsForPoisson
  rw [h1, bind_ok, hk]
  rcases hf with rfl | rfl <;> rfl

end

/-- C63: the matrices for Helmholtz and Poisson solvers of examples/field.rs are never produced for a
Chebyshev-type axis, of any kind and size and in any build mode: `pinv.assign(&tmp)` writes an
`(n-2)×n` matrix into an `n×n` one. For sizes for which everything before this line succeeds the
call panics there. This is the second axis, next to any first base. -/
theorem C63_ingredients_cheb_panics {S : Type} [AddCommGroup S] [Module ℝ S] (o : Mode)
    (f : Field2 ℝ ℝ S) (k : Option CKind) (n : ℕ) (b : BaseR2r) (hb : newR2r k n = ok b)
    (hax : f.space.base1 = b.toBase S) :
    (∀ r, f.ingredientsForHholtz o 1 ≠ ok r) ∧ (∀ r, f.ingredientsForPoisson o 1 ≠ ok r) ∧
    (4 ≤ n → n ≤ 2642246 → f.ingredientsForHholtz o 1 = err .panic) :=
  cheb_panics o f 1 k n b hb (by rw [← hax]; rfl) (by rw [← hax]; rfl) (by rw [← hax]; rfl)
    (by rw [← hax]; rfl)

/-- C63: the same for the first axis of a real-to-real space. -/
theorem C63_ingredients_cheb_panics_axis0 (o : Mode) (f : Field2 ℝ ℝ ℝ) (k : Option CKind) (n : ℕ)
    (b : BaseR2r) (hb : newR2r k n = ok b) (hax : f.space.base0 = b.toBase ℝ) :
    (∀ r, f.ingredientsForHholtz o 0 ≠ ok r) ∧ (∀ r, f.ingredientsForPoisson o 0 ≠ ok r) ∧
    (4 ≤ n → n ≤ 2642246 → f.ingredientsForHholtz o 0 = err .panic) :=
  cheb_panics o f 0 k n b hb (by rw [← hax]; rfl) (by rw [← hax]; rfl) (by rw [← hax]; rfl)
    (by rw [← hax]; rfl)

/-- C63: for a Fourier axis they are the identity and the diagonal matrix of minus squared
wavenumbers, without preconditioner, reported as diagonal. -/
theorem C63_ingredients_fourier (o : Mode) (n : ℕ) (f : Field2 ℝ ℝ ℂ) (hb : IsR2c n f.space.base0) :
    ∃ S L, f.ingredientsForHholtz o 0 = ok (S, L, none) ∧
      f.ingredientsForPoisson o 0 = ok (S, L, none, true) ∧ IsIdentity (n / 2 + 1) S ∧
      L.rows = n / 2 + 1 ∧ L.cols = n / 2 + 1 ∧
      ∀ i < n / 2 + 1, ∀ j < n / 2 + 1, L.get i j = if i = j then -((i : ℝ) ^ 2) else 0 := by
  obtain ⟨hn, b0, hb0, hbb⟩ := hb
  obtain rfl := r2c_inv hb0
  obtain ⟨L, -, hL, -, l1, l2, l3, -⟩ := C30_laplacian n ⟨n, n / 2 + 1⟩ rfl
  obtain ⟨h1, h2⟩ := fourier_ok o f 0 (kind := .fourierR2c) (by unfold Space2.baseKind; rw [hbb]; rfl)
    (.inl rfl) (M := Mat.eye (n / 2 + 1)) (L := L) (by unfold Space2.stencil; rw [hbb]; rfl)
    (by unfold Space2.laplacian; rw [hbb]; exact hL)
  exact ⟨_, _, h1, h2, ⟨rfl, rfl, fun i hi j hj => rfl⟩, l1, l2, l3⟩

/-- C63: `gradient` of a field returns what the serial `gradient` of its space returns for the current
coefficients. -/
theorem C63_gradient {P I S : Type} [Zero P] [Zero I] [AddCommGroup S] [Module ℝ S] (f : Field2 P I S)
    {d0 d1 : ℕ} (h0 : RunsGradient f.space.base0 d0) (h1 : RunsGradient f.space.base1 d1)
    (hf : Consistent f) {scale : Option (ℝ × ℝ)}
    (hsc : scale ≠ none → d0 < 2 ^ 31 ∧ d1 < 2 ^ 31) (hne : scale2 d0 d1 scale ≠ 0) (s0 s1 : List ℕ)
    (hs0 : FairSchedule [f.space.base0.lenOrth, f.space.base1.lenSpec] 0 s0)
    (hs1 : FairSchedule [f.space.base0.lenOrth, f.space.base1.lenOrth] 1 s1) :
    ∃ r, f.gradient s0 s1 d0 d1 scale = ok r ∧ f.space.gradient f.vhat d0 d1 scale = ok r ∧
      Good r f.space.shapeSpectralOrtho := by
  obtain ⟨r, hr, hg⟩ := C41_space2_gradient f.space h0 h1 hf.vhat hsc hne
  exact ⟨r, by rw [← hr]; exact C34_space2_gradient f.space h0 h1 hf.vhat hs0 hs1, hr, hg⟩

/-- C63: the main program of examples/field.rs, for every size: a field over `fourier_r2c(n0)` and
`cheb_dirichlet(n1)`, filled with any values, transformed forward and backward, does not fail, and
transforming the result forward and backward again changes nothing. The schedules are arbitrary. -/
theorem C63_main (n0 n1 : ℕ) (hn1 : 5 ≤ n1) (b0 : Base ℝ ℂ ℂ) (b1 : BaseR2r) (hb0 : IsR2c n0 b0)
    (hb1 : newR2r (some .dirichlet) n1 = ok b1) (a : Arr ℝ)
    (ha : Good a [n0, n1]) (s0 s1 t0 t1 : List ℕ)
    (hs : Admissible (⟨b0, b1.toBase ℂ⟩ : Space2 ℝ ℝ ℂ ℂ) (.forward s0 s1))
    (ht : Admissible (⟨b0, b1.toBase ℂ⟩ : Space2 ℝ ℝ ℂ ℂ) (.backward t0 t1)) :
    ∃ f g h, Field2.new (⟨b0, b1.toBase ℂ⟩ : Space2 ℝ ℝ ℂ ℂ) = ok f ∧
      f.runs [.setV a, .forward s0 s1, .backward t0 t1] = ok g ∧ Consistent g ∧
      g.runs [.forward s0 s1, .backward t0 t1] = ok h ∧ h.v = g.v ∧ h.vhat = g.vhat := by
  have h1 : IsR2r (b1.toBase ℂ) := ⟨some .dirichlet, n1, b1, hb1, Or.inl rfl, hn1, rfl⟩
  obtain ⟨x1, d1, hx1, -⟩ := C63_dx_cheb (T := ℂ) _ n1 b1 hb1
  have hx0 : ∃ x0, b0.coords = ok x0 := by
    obtain ⟨hn, c, hc, rfl⟩ := id hb0
    obtain rfl := r2c_inv hc
    obtain ⟨x, hx, -⟩ := C23_r2c_coords n0 hn ⟨n0, n0 / 2 + 1⟩ rfl
    exact ⟨x, hx⟩
  obtain ⟨x0, hx0⟩ := hx0
  set sp : Space2 ℝ ℝ ℂ ℂ := ⟨b0, b1.toBase ℂ⟩ with hsp
  have ha' : Good a sp.shapePhysical := by
    show Good a [b0.lenPhys, (b1.toBase ℂ).lenPhys]
    rw [(C41_sizes_r2c n0 b0 hb0).1, (C41_sizes_r2r _ n1 b1 hb1).1]
    exact ha
  have r0 : Runs sp.base0 := hb0.runs
  have r1 : Runs sp.base1 := h1.runs
  obtain ⟨f, -, -, hf, cf, -, hfs, -⟩ := C63_new sp x0 x1 hx0 hx1
  obtain ⟨g, hg, cg, hgs, -, -, -, mg⟩ := C63_history f (by rw [hfs]; exact r0) (by rw [hfs]; exact r1) cf
    [.setV a, .forward s0 s1, .backward t0 t1] (by
      rw [hfs]; intro op hop
      simp only [List.mem_cons, List.not_mem_nil, or_false] at hop
      rcases hop with rfl | rfl | rfl
      exacts [ha', hs, ht])
  rw [hfs] at hgs mg
  obtain ⟨h, hh, -, -, -, -, -, mh⟩ := C63_history g (by rw [hgs]; exact r0) (by rw [hgs]; exact r1) cg
    [.forward s0 s1, .backward t0 t1] (by
      rw [hgs]; intro op hop
      simp only [List.mem_cons, List.not_mem_nil, or_false] at hop
      rcases hop with rfl | rfl
      exacts [hs, ht])
  rw [hgs] at mh
  refine ⟨f, g, h, hf, hg, cg, hh, ?_⟩
  obtain ⟨w, y, e1, -, e2, -, e3⟩ := C36_forward_backward_forward_r2c_r2r n0 sp hb0 h1 ha'
  generalize hpg : (g.v, g.vhat) = pg at mg mh
  generalize hph : (h.v, h.vhat) = ph at mh
  generalize (f.v, f.vhat) = pf at mg
  cases mg with | cons m1 m2 => cases m2 with | cons m2 m3 => cases m3 with | cons m3 m4 => cases m4 with
  | nil =>
  cases mh with | cons m4 m5 => cases m5 with | cons m5 m6 => cases m6 with
  | nil =>
  obtain ⟨q1, q2⟩ := m2
  obtain ⟨q3, q4⟩ := m3
  obtain ⟨q5, q6⟩ := m4
  obtain ⟨q7, q8⟩ := m5
  rw [show _ = _ from m1] at q2
  rw [e1] at q2
  have z1 := Res.ok.inj q2
  rw [← z1, e2] at q4
  have z2 := Res.ok.inj q4
  rw [← z2, e3] at q6
  have z3 := Res.ok.inj q6
  rw [← z3, e2] at q8
  have z4 := Res.ok.inj q8
  have k1 : h.v = y := by rw [show h.v = ph.1 by rw [← hph]]; exact z4.symm
  have k2 : g.v = y := by rw [show g.v = pg.1 by rw [← hpg]]; exact z2.symm
  have k3 : h.vhat = w := by rw [show h.vhat = ph.2 by rw [← hph], q7]; exact z3.symm
  have k4 : g.vhat = w := by rw [show g.vhat = pg.2 by rw [← hpg], q3]; exact z1.symm
  exact ⟨by rw [k1, k2], by rw [k3, k4]⟩

/-- the hypotheses can be met: `fourier_r2c(10) × cheb_dirichlet(10)` as in the example, all values
one -/
example : ∃ (b0 : Base ℝ ℂ ℂ) (b1 : BaseR2r) (a : Arr ℝ) (s0 s1 t0 t1 : List ℕ), IsR2c 10 b0 ∧
    newR2r (some .dirichlet) 10 = ok b1 ∧ Good a [10, 10] ∧
    Admissible (⟨b0, b1.toBase ℂ⟩ : Space2 ℝ ℝ ℂ ℂ) (.forward s0 s1) ∧
    Admissible (⟨b0, b1.toBase ℂ⟩ : Space2 ℝ ℝ ℂ ℂ) (.backward t0 t1) ∧
    RunsGradient b0 2 ∧ SameCall (.forward s0 s1 : FieldOp ℝ ℂ) (.forward (s0 ++ s0) s1) := by
  obtain ⟨b0, hb0, -⟩ := isR2c_exists (n := 10) (by decide)
  obtain ⟨b1, hb1⟩ := newR2r_exists (some .dirichlet) 10 (by norm_num) (by rintro c ⟨⟩; decide)
  exact ⟨b0, b1, _, _, _, _, _, hb0, hb1, good_fill 1 _, ⟨(fair_exists _ _).choose_spec,
    (fair_exists _ _).choose_spec⟩, ⟨(fair_exists _ _).choose_spec, (fair_exists _ _).choose_spec⟩,
    C41_gradients_run.2.1 _ _ _ hb0, trivial⟩

end Verif.Props
