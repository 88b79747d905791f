/- The array methods commute with maps of the data that respect the operations. -/
import Verif.Proof.Natural

namespace Verif
open Res Spec

section Lanes
variable {S S' T T' : Type} [Zero S] [Zero S'] [Zero T] [Zero T'] {g : S → S'} {h : T → T'}

theorem nth_map0 (h0 : h 0 = 0) (l : List T) (i : ℕ) : nth (l.map h) i = h (nth l i) := by
  by_cases hi : i < l.length
  · exact nth_map h l i hi
  · rw [nth_of_le _ _ (by rw [List.length_map]; omega), nth_of_le _ _ (by omega), h0]

theorem getLane_map (h0 : h 0 = 0) (n inner : ℕ) (data : List T) (l : ℕ) :
    getLane n inner (data.map h) l = (getLane n inner data l).map h := by
  simp only [getLane, List.map_map, nth_map0 h0]
  rfl

theorem setLane_map (h0 : h 0 = 0) (n inner l : ℕ) (src data : List T) :
    setLane n inner l (src.map h) (data.map h) = (setLane n inner l src data).map h := by
  unfold setLane
  rw [List.length_map]
  generalize List.range (min n src.length) = ks
  induction ks generalizing data with
  | nil => rfl
  | cons k ks ih =>
    simp only [List.foldl_cons]
    rw [nth_map0 h0, ← List.map_set, ih]

/-- a slice operator that commutes with the maps -/
def NatSlice (g : S → S') (h : T → T') (f : List S → List T → Res (List T))
    (f' : List S' → List T' → Res (List T')) : Prop :=
  ∀ x y, NatR (List.map h) (f x y) (f' (x.map g) (y.map h))

theorem nat_axis (g0 : g 0 = 0) (h0 : h 0 = 0) {f : List S → List T → Res (List T)}
    {f' : List S' → List T' → Res (List T')} (hf : NatSlice g h f f') (order : List ℕ) (l1 l2 : ℕ)
    (a : Arr S) (b : Arr T) (axis : ℕ) :
    NatR (onArray h) (applyAlongAxis order f l1 l2 a b axis)
      (applyAlongAxis order f' l1 l2 (onArray g a) (onArray h b) axis) := by
  unfold applyAlongAxis
  change NatR _ _ (axisChecks l1 l2 a b axis >>= _)
  simp only [onArray]
  refine NatR.same fun _ => NatR.same fun n => NatR.same fun m => NatR.same fun o => ?_
  refine NatR.ite ?_ ?_
  · refine NatR.bind (φ := List.map h) ?_ fun data => NatR.pure rfl
    refine NatR.forList _ (fun l data => ?_) rfl
    rw [getLane_map g0, getLane_map h0]
    refine NatR.bind (hf _ _) fun y => NatR.pure ?_
    rw [setLane_map h0]
  · refine NatR.bind (φ := Prod.map (List.map h) (List.map h)) ?_ fun s => NatR.pure rfl
    refine NatR.forList _ (fun l s => ?_) (by simp [Prod.map, h0])
    rw [getLane_map g0]
    refine NatR.bind (hf _ _) fun y => NatR.pure ?_
    simp only [Prod.map, setLane_map h0]

/-- map of the state of a parallel run -/
def Task.map (h : T → T') : Task T → Task T'
  | .todo => .todo
  | .writing y k => .writing (y.map h) k

@[inherit_doc Task.map] def ParState.map (h : T → T') (s : ParState T) : ParState T' :=
  ⟨fun l => (s.task l).map h, s.data.map h⟩

theorem ParState.map_update (h : T → T') (t : ℕ → Task T) (l : ℕ) (x : Task T) :
    (fun i => (Function.update t l x i).map h) = Function.update (fun i => (t i).map h) l (x.map h) := by
  funext i
  by_cases hi : i = l
  · subst hi; simp
  · simp [Function.update_of_ne hi]

theorem nat_parStep (g0 : g 0 = 0) (h0 : h 0 = 0) {f : List S → List T → Res (List T)}
    {f' : List S' → List T' → Res (List T')} (hf : NatSlice g h f f') (c : Bool) (n m inI inO : ℕ)
    (a : List S) (l : ℕ) (s : ParState T) :
    NatR (ParState.map h) (parStep f c n m inI inO a l s) (parStep f' c n m inI inO (a.map g) l (s.map h)) := by
  unfold parStep
  cases hs : s.task l with
  | todo =>
    have hs' : (s.map h).task l = .todo := by show (s.task l).map h = _; rw [hs]; rfl
    rw [hs']
    dsimp only
    have e : (if c then getLane m inO (s.map h).data l else List.replicate m 0) =
        (if c then getLane m inO s.data l else List.replicate m 0).map h := by
      split
      · exact getLane_map h0 _ _ _ _
      · rw [List.map_replicate, h0]
    rw [e, getLane_map g0]
    refine NatR.bind (hf _ _) fun y => NatR.pure ?_
    simp only [ParState.map, ParState.map_update]
    rfl
  | writing y k =>
    have hs' : (s.map h).task l = .writing (y.map h) k := by show (s.task l).map h = _; rw [hs]; rfl
    rw [hs']
    dsimp only
    rw [List.length_map]
    refine NatR.ite (NatR.pure ?_) (NatR.pure rfl)
    simp only [ParState.map, ParState.map_update, nth_map0 h0, List.map_set]
    rfl

theorem nat_par (g0 : g 0 = 0) (h0 : h 0 = 0) {f : List S → List T → Res (List T)}
    {f' : List S' → List T' → Res (List T')} (hf : NatSlice g h f f') (sched : List ℕ) (l1 l2 : ℕ)
    (a : Arr S) (b : Arr T) (axis : ℕ) :
    NatR (onArray h) (parApplyAlongAxis sched f l1 l2 a b axis)
      (parApplyAlongAxis sched f' l1 l2 (onArray g a) (onArray h b) axis) := by
  unfold parApplyAlongAxis
  change NatR _ _ (axisChecks l1 l2 a b axis >>= _)
  simp only [onArray]
  refine NatR.same fun _ => NatR.same fun n => NatR.same fun m => NatR.same fun o => ?_
  refine NatR.bind (φ := ParState.map h) ?_ fun data => NatR.pure rfl
  refine NatR.forList _ (fun l s => ?_) rfl
  exact nat_parStep g0 h0 hf _ _ _ _ _ _ _ _

theorem nat_resized (h0 : h 0 = 0) (a : Arr S) (size axis : ℕ) :
    NatR (onArray h) (arrayResizedAxis T a size axis) (arrayResizedAxis T' (onArray g a) size axis) := by
  unfold arrayResizedAxis
  refine NatR.same fun d => NatR.pure ?_
  simp [Arr.zeros, onArray, h0]

theorem onArray_zeros (h0 : h 0 = 0) (sh : List ℕ) : (Arr.zeros sh : Arr T') = onArray h (Arr.zeros sh) := by
  simp [Arr.zeros, onArray, h0]

end Lanes

section Base
variable {P S P' S' T T' A : Type} [Zero P] [Zero S] [Zero P'] [Zero S'] [Zero T] [Zero T'] {h : T → T'}

/-- two bases whose coefficient operators correspond under `h` -/
structure NatBase (h : T → T') (b : Base P S T A) (b' : Base P' S' T' A) : Prop where
  spec : b'.lenSpec = b.lenSpec
  orth : b'.lenOrth = b.lenOrth
  conv : NatSlice h h b.toOrthoSlice b'.toOrthoSlice
  fr : NatSlice h h b.fromOrthoSlice b'.fromOrthoSlice
  grad : ∀ d, NatSlice h h (fun x y => b.gradientSlice x y d) (fun x y => b'.gradientSlice x y d)

namespace NatBase
variable {b : Base P S T A} {b' : Base P' S' T' A} (hb : NatBase h b b') (h0 : h 0 = 0)
include hb h0

theorem toOrthoInplace (a o : Arr T) (axis : ℕ) :
    NatR (onArray h) (b.toOrthoInplace a o axis) (b'.toOrthoInplace (onArray h a) (onArray h o) axis) := by
  unfold Base.toOrthoInplace
  rw [hb.spec, hb.orth]
  exact nat_axis h0 h0 hb.conv _ _ _ _ _ _

theorem fromOrthoInplace (a o : Arr T) (axis : ℕ) :
    NatR (onArray h) (b.fromOrthoInplace a o axis) (b'.fromOrthoInplace (onArray h a) (onArray h o) axis) := by
  unfold Base.fromOrthoInplace
  rw [hb.spec, hb.orth]
  exact nat_axis h0 h0 hb.fr _ _ _ _ _ _

theorem gradientInplace (a o : Arr T) (d axis : ℕ) :
    NatR (onArray h) (b.gradientInplace a o d axis) (b'.gradientInplace (onArray h a) (onArray h o) d axis) := by
  unfold Base.gradientInplace
  rw [hb.spec, hb.orth]
  exact nat_axis h0 h0 (hb.grad d) _ _ _ _ _ _

theorem toOrtho (a : Arr T) (axis : ℕ) :
    NatR (onArray h) (b.toOrtho a axis) (b'.toOrtho (onArray h a) axis) := by
  unfold Base.toOrtho
  rw [hb.orth]
  exact NatR.bind (nat_resized h0 _ _ _) fun o => hb.toOrthoInplace h0 _ _ _

theorem fromOrtho (a : Arr T) (axis : ℕ) :
    NatR (onArray h) (b.fromOrtho a axis) (b'.fromOrtho (onArray h a) axis) := by
  unfold Base.fromOrtho
  rw [hb.spec]
  exact NatR.bind (nat_resized h0 _ _ _) fun o => hb.fromOrthoInplace h0 _ _ _

theorem gradient (a : Arr T) (d axis : ℕ) :
    NatR (onArray h) (b.gradient a d axis) (b'.gradient (onArray h a) d axis) := by
  unfold Base.gradient
  rw [hb.orth]
  exact NatR.bind (nat_resized h0 _ _ _) fun o => hb.gradientInplace h0 _ _ _ _

variable (sched : List ℕ)

theorem toOrthoInplacePar (a o : Arr T) (axis : ℕ) :
    NatR (onArray h) (b.toOrthoInplacePar sched a o axis)
      (b'.toOrthoInplacePar sched (onArray h a) (onArray h o) axis) := by
  unfold Base.toOrthoInplacePar
  rw [hb.spec, hb.orth]
  exact nat_par h0 h0 hb.conv _ _ _ _ _ _

theorem fromOrthoInplacePar (a o : Arr T) (axis : ℕ) :
    NatR (onArray h) (b.fromOrthoInplacePar sched a o axis)
      (b'.fromOrthoInplacePar sched (onArray h a) (onArray h o) axis) := by
  unfold Base.fromOrthoInplacePar
  rw [hb.spec, hb.orth]
  exact nat_par h0 h0 hb.fr _ _ _ _ _ _

theorem gradientInplacePar (a o : Arr T) (d axis : ℕ) :
    NatR (onArray h) (b.gradientInplacePar sched a o d axis)
      (b'.gradientInplacePar sched (onArray h a) (onArray h o) d axis) := by
  unfold Base.gradientInplacePar
  rw [hb.spec, hb.orth]
  exact nat_par h0 h0 (hb.grad d) _ _ _ _ _ _

theorem toOrthoPar (a : Arr T) (axis : ℕ) :
    NatR (onArray h) (b.toOrthoPar sched a axis) (b'.toOrthoPar sched (onArray h a) axis) := by
  unfold Base.toOrthoPar
  rw [hb.orth]
  exact NatR.bind (nat_resized h0 _ _ _) fun o => hb.toOrthoInplacePar h0 _ _ _ _

theorem fromOrthoPar (a : Arr T) (axis : ℕ) :
    NatR (onArray h) (b.fromOrthoPar sched a axis) (b'.fromOrthoPar sched (onArray h a) axis) := by
  unfold Base.fromOrthoPar
  rw [hb.spec]
  exact NatR.bind (nat_resized h0 _ _ _) fun o => hb.fromOrthoInplacePar h0 _ _ _ _

theorem gradientPar (a : Arr T) (d axis : ℕ) :
    NatR (onArray h) (b.gradientPar sched a d axis) (b'.gradientPar sched (onArray h a) d axis) := by
  unfold Base.gradientPar
  rw [hb.orth]
  exact NatR.bind (nat_resized h0 _ _ _) fun o => hb.gradientInplacePar h0 _ _ _ _ _

end NatBase
end Base

theorem nat_divAll {A T T' : Type} [DivBy A T] [DivBy A T'] {h : T → T'}
    (hd : ∀ x (k : A), divR (h x) k = onResult h (divR x k)) (c : A) (a : Arr T) :
    NatR (onArray h) (divAll c a) (divAll c (onArray h a)) := by
  unfold divAll
  refine NatR.bind (φ := List.map h) ?_ fun _ => NatR.pure rfl
  show NatR _ _ (mapR _ (a.data.map h))
  generalize a.data = l
  induction l with
  | nil => exact NatR.ok rfl
  | cons x l ih =>
    simp only [List.map_cons, mapR]
    exact NatR.bind (hd x c) fun y => NatR.bind ih fun ys => NatR.pure rfl

section R2r
variable {A T T' : Type} [Zero A] [One A] [Neg A] [Add A] [Sub A] [Mul A] [Div A] [NatCast A] [Pow A ℕ]
  [DivBy A A] [SMul A A] [Libm A] [HasDct A]
  [Zero T] [Add T] [Sub T] [SMul A T] [DivBy A T]
  [Zero T'] [Add T'] [Sub T'] [SMul A T'] [DivBy A T'] {h : T → T'}

theorem Compo.nat_gradientSlice (H : Respects A h) (b : Compo A) (x y : List T) (d : ℕ) :
    NatR (List.map h) (b.gradientSlice x y d) (b.gradientSlice (x.map h) (y.map h) d) := by
  unfold Compo.gradientSlice
  dsimp only
  rw [show List.replicate b.lenOrth (0 : T') = (List.replicate b.lenOrth (0 : T)).map h by
    rw [List.map_replicate, H.zero]]
  exact NatR.bind (Stencils.nat_dot H _ _ _) fun s => Cheb.nat_gradientSlice H _ _ _ _

theorem nat_r2r (H : Respects A h) (b : BaseR2r A) : NatBase h (b.toBase T) (b.toBase T') := by
  cases b with
  | chebyshev b =>
    exact ⟨rfl, rfl, fun x y => NatR.pure (zipSet_map h _ _), fun x y => NatR.pure (zipSet_map h _ _),
      fun d x y => Cheb.nat_gradientSlice H b x y d⟩
  | chebyshevComposite b =>
    exact ⟨rfl, rfl, fun x y => Stencils.nat_dot H _ _ _, fun x y => Stencils.nat_solve H _ _ _,
      fun d x y => Compo.nat_gradientSlice H b x y d⟩

end R2r
end Verif
