/-
Specification for C100: histories of round trips.
-/
import Verif.Spec.Total

namespace Verif.Spec
open Res

/-- Calls one after the other, each on the result of the one before. -/
def runAll {D : Type} : List (Arr D → Res (Arr D)) → Arr D → Res (Arr D)
  | [], a => ok a
  | f :: fs, a => f a >>= runAll fs

/-- `f` is one of the calls `F` followed by one of the calls `G`. -/
def Pair {D E : Type} (F : (Arr D → Res (Arr E)) → Prop) (G : (Arr E → Res (Arr D)) → Prop) (f : Arr D → Res (Arr D)) : Prop :=
  ∃ p q, F p ∧ G q ∧ f = fun x => p x >>= q

section
variable {P S T A : Type} [Zero P] [Zero S] [Zero T]

/-- The ways to call `forward` of a `Space1`: serial, parallel under any fair schedules, into an array of the caller. -/
inductive Forward1 (sp : Space1 P S T A) : (Arr P → Res (Arr S)) → Prop
  | serial : Forward1 sp sp.forward
  | par {s0} : FairSchedule [sp.base0.lenSpec] 0 s0 → Forward1 sp (sp.forwardPar s0)
  | inplace {out} : Good out sp.shapeSpectral → Forward1 sp (fun x => sp.forwardInplace x out)
  | inplacePar {s0 out} : FairSchedule [sp.base0.lenSpec] 0 s0 → Good out sp.shapeSpectral → Forward1 sp (fun x => sp.forwardInplacePar s0 x out)

/-- The ways to call `backward` of a `Space1`: serial, parallel under any fair schedules, into an array of the caller. -/
inductive Backward1 (sp : Space1 P S T A) : (Arr S → Res (Arr P)) → Prop
  | serial : Backward1 sp sp.backward
  | par {s0} : FairSchedule [sp.base0.lenPhys] 0 s0 → Backward1 sp (sp.backwardPar s0)
  | inplace {out} : Good out sp.shapePhysical → Backward1 sp (fun x => sp.backwardInplace x out)
  | inplacePar {s0 out} : FairSchedule [sp.base0.lenPhys] 0 s0 → Good out sp.shapePhysical → Backward1 sp (fun x => sp.backwardInplacePar s0 x out)

/-- The ways to call `to_ortho` of a `Space1`: serial, parallel under any fair schedules, into an array of the caller. -/
inductive ToOrtho1 (sp : Space1 P S T A) : (Arr T → Res (Arr T)) → Prop
  | serial : ToOrtho1 sp sp.toOrtho
  | par {s0} : FairSchedule [sp.base0.lenOrth] 0 s0 → ToOrtho1 sp (sp.toOrthoPar s0)
  | inplace {out} : Good out sp.shapeSpectralOrtho → ToOrtho1 sp (fun x => sp.toOrthoInplace x out)
  | inplacePar {s0 out} : FairSchedule [sp.base0.lenOrth] 0 s0 → Good out sp.shapeSpectralOrtho → ToOrtho1 sp (fun x => sp.toOrthoInplacePar s0 x out)

/-- The ways to call `from_ortho` of a `Space1`: serial, parallel under any fair schedules, into an array of the caller. -/
inductive FromOrtho1 (sp : Space1 P S T A) : (Arr T → Res (Arr T)) → Prop
  | serial : FromOrtho1 sp sp.fromOrtho
  | par {s0} : FairSchedule [sp.base0.lenSpec] 0 s0 → FromOrtho1 sp (sp.fromOrthoPar s0)
  | inplace {out} : Good out sp.shapeSpectral → FromOrtho1 sp (fun x => sp.fromOrthoInplace x out)
  | inplacePar {s0 out} : FairSchedule [sp.base0.lenSpec] 0 s0 → Good out sp.shapeSpectral → FromOrtho1 sp (fun x => sp.fromOrthoInplacePar s0 x out)

end

section
variable {P I S T A : Type} [Zero P] [Zero I] [Zero S] [Zero T]

/-- The ways to call `forward` of a `Space2`: serial, parallel under any fair schedules, into an array of the caller. -/
inductive Forward2 (sp : Space2 P I S T A) : (Arr P → Res (Arr S)) → Prop
  | serial : Forward2 sp sp.forward
  | par {s0 s1} : FairSchedule [sp.base0.lenSpec, sp.base1.lenSpec] 0 s0 → FairSchedule [sp.base0.lenPhys, sp.base1.lenSpec] 1 s1 → Forward2 sp (sp.forwardPar s0 s1)
  | inplace {out} : Good out sp.shapeSpectral → Forward2 sp (fun x => sp.forwardInplace x out)
  | inplacePar {s0 s1 out} : FairSchedule [sp.base0.lenSpec, sp.base1.lenSpec] 0 s0 → FairSchedule [sp.base0.lenPhys, sp.base1.lenSpec] 1 s1 → Good out sp.shapeSpectral → Forward2 sp (fun x => sp.forwardInplacePar s0 s1 x out)

/-- The ways to call `backward` of a `Space2`: serial, parallel under any fair schedules, into an array of the caller. -/
inductive Backward2 (sp : Space2 P I S T A) : (Arr S → Res (Arr P)) → Prop
  | serial : Backward2 sp sp.backward
  | par {s0 s1} : FairSchedule [sp.base0.lenPhys, sp.base1.lenSpec] 0 s0 → FairSchedule [sp.base0.lenPhys, sp.base1.lenPhys] 1 s1 → Backward2 sp (sp.backwardPar s0 s1)
  | inplace {out} : Good out sp.shapePhysical → Backward2 sp (fun x => sp.backwardInplace x out)
  | inplacePar {s0 s1 out} : FairSchedule [sp.base0.lenPhys, sp.base1.lenSpec] 0 s0 → FairSchedule [sp.base0.lenPhys, sp.base1.lenPhys] 1 s1 → Good out sp.shapePhysical → Backward2 sp (fun x => sp.backwardInplacePar s0 s1 x out)

/-- The ways to call `to_ortho` of a `Space2`: serial, parallel under any fair schedules, into an array of the caller. -/
inductive ToOrtho2 (sp : Space2 P I S T A) : (Arr T → Res (Arr T)) → Prop
  | serial : ToOrtho2 sp sp.toOrtho
  | par {s0 s1} : FairSchedule [sp.base0.lenOrth, sp.base1.lenSpec] 0 s0 → FairSchedule [sp.base0.lenOrth, sp.base1.lenOrth] 1 s1 → ToOrtho2 sp (sp.toOrthoPar s0 s1)
  | inplace {out} : Good out sp.shapeSpectralOrtho → ToOrtho2 sp (fun x => sp.toOrthoInplace x out)
  | inplacePar {s0 s1 out} : FairSchedule [sp.base0.lenOrth, sp.base1.lenSpec] 0 s0 → FairSchedule [sp.base0.lenOrth, sp.base1.lenOrth] 1 s1 → Good out sp.shapeSpectralOrtho → ToOrtho2 sp (fun x => sp.toOrthoInplacePar s0 s1 x out)

/-- The ways to call `from_ortho` of a `Space2`: serial, parallel under any fair schedules, into an array of the caller. -/
inductive FromOrtho2 (sp : Space2 P I S T A) : (Arr T → Res (Arr T)) → Prop
  | serial : FromOrtho2 sp sp.fromOrtho
  | par {s0 s1} : FairSchedule [sp.base0.lenSpec, sp.base1.lenOrth] 0 s0 → FairSchedule [sp.base0.lenSpec, sp.base1.lenSpec] 1 s1 → FromOrtho2 sp (sp.fromOrthoPar s0 s1)
  | inplace {out} : Good out sp.shapeSpectral → FromOrtho2 sp (fun x => sp.fromOrthoInplace x out)
  | inplacePar {s0 s1 out} : FairSchedule [sp.base0.lenSpec, sp.base1.lenOrth] 0 s0 → FairSchedule [sp.base0.lenSpec, sp.base1.lenSpec] 1 s1 → Good out sp.shapeSpectral → FromOrtho2 sp (fun x => sp.fromOrthoInplacePar s0 s1 x out)

end

section
variable {P I J S T A : Type} [Zero P] [Zero I] [Zero J] [Zero S] [Zero T]

/-- The ways to call `forward` of a `Space3`: serial, parallel under any fair schedules, into an array of the caller. -/
inductive Forward3 (sp : Space3 P I J S T A) : (Arr P → Res (Arr S)) → Prop
  | serial : Forward3 sp sp.forward
  | par {s0 s1 s2} : FairSchedule [sp.base0.lenSpec, sp.base1.lenSpec, sp.base2.lenSpec] 0 s0 → FairSchedule [sp.base0.lenPhys, sp.base1.lenSpec, sp.base2.lenSpec] 1 s1 → FairSchedule [sp.base0.lenPhys, sp.base1.lenPhys, sp.base2.lenSpec] 2 s2 → Forward3 sp (sp.forwardPar s0 s1 s2)
  | inplace {out} : Good out sp.shapeSpectral → Forward3 sp (fun x => sp.forwardInplace x out)
  | inplacePar {s0 s1 s2 out} : FairSchedule [sp.base0.lenSpec, sp.base1.lenSpec, sp.base2.lenSpec] 0 s0 → FairSchedule [sp.base0.lenPhys, sp.base1.lenSpec, sp.base2.lenSpec] 1 s1 → FairSchedule [sp.base0.lenPhys, sp.base1.lenPhys, sp.base2.lenSpec] 2 s2 → Good out sp.shapeSpectral → Forward3 sp (fun x => sp.forwardInplacePar s0 s1 s2 x out)

/-- The ways to call `backward` of a `Space3`: serial, parallel under any fair schedules, into an array of the caller. -/
inductive Backward3 (sp : Space3 P I J S T A) : (Arr S → Res (Arr P)) → Prop
  | serial : Backward3 sp sp.backward
  | par {s0 s1 s2} : FairSchedule [sp.base0.lenPhys, sp.base1.lenSpec, sp.base2.lenSpec] 0 s0 → FairSchedule [sp.base0.lenPhys, sp.base1.lenPhys, sp.base2.lenSpec] 1 s1 → FairSchedule [sp.base0.lenPhys, sp.base1.lenPhys, sp.base2.lenPhys] 2 s2 → Backward3 sp (sp.backwardPar s0 s1 s2)
  | inplace {out} : Good out sp.shapePhysical → Backward3 sp (fun x => sp.backwardInplace x out)
  | inplacePar {s0 s1 s2 out} : FairSchedule [sp.base0.lenPhys, sp.base1.lenSpec, sp.base2.lenSpec] 0 s0 → FairSchedule [sp.base0.lenPhys, sp.base1.lenPhys, sp.base2.lenSpec] 1 s1 → FairSchedule [sp.base0.lenPhys, sp.base1.lenPhys, sp.base2.lenPhys] 2 s2 → Good out sp.shapePhysical → Backward3 sp (fun x => sp.backwardInplacePar s0 s1 s2 x out)

/-- The ways to call `to_ortho` of a `Space3`: serial, parallel under any fair schedules, into an array of the caller. -/
inductive ToOrtho3 (sp : Space3 P I J S T A) : (Arr T → Res (Arr T)) → Prop
  | serial : ToOrtho3 sp sp.toOrtho
  | par {s0 s1 s2} : FairSchedule [sp.base0.lenOrth, sp.base1.lenSpec, sp.base2.lenSpec] 0 s0 → FairSchedule [sp.base0.lenOrth, sp.base1.lenOrth, sp.base2.lenSpec] 1 s1 → FairSchedule [sp.base0.lenOrth, sp.base1.lenOrth, sp.base2.lenOrth] 2 s2 → ToOrtho3 sp (sp.toOrthoPar s0 s1 s2)
  | inplace {out} : Good out sp.shapeSpectralOrtho → ToOrtho3 sp (fun x => sp.toOrthoInplace x out)
  | inplacePar {s0 s1 s2 out} : FairSchedule [sp.base0.lenOrth, sp.base1.lenSpec, sp.base2.lenSpec] 0 s0 → FairSchedule [sp.base0.lenOrth, sp.base1.lenOrth, sp.base2.lenSpec] 1 s1 → FairSchedule [sp.base0.lenOrth, sp.base1.lenOrth, sp.base2.lenOrth] 2 s2 → Good out sp.shapeSpectralOrtho → ToOrtho3 sp (fun x => sp.toOrthoInplacePar s0 s1 s2 x out)

/-- The ways to call `from_ortho` of a `Space3`: serial, parallel under any fair schedules, into an array of the caller. -/
inductive FromOrtho3 (sp : Space3 P I J S T A) : (Arr T → Res (Arr T)) → Prop
  | serial : FromOrtho3 sp sp.fromOrtho
  | par {s0 s1 s2} : FairSchedule [sp.base0.lenSpec, sp.base1.lenOrth, sp.base2.lenOrth] 0 s0 → FairSchedule [sp.base0.lenSpec, sp.base1.lenSpec, sp.base2.lenOrth] 1 s1 → FairSchedule [sp.base0.lenSpec, sp.base1.lenSpec, sp.base2.lenSpec] 2 s2 → FromOrtho3 sp (sp.fromOrthoPar s0 s1 s2)
  | inplace {out} : Good out sp.shapeSpectral → FromOrtho3 sp (fun x => sp.fromOrthoInplace x out)
  | inplacePar {s0 s1 s2 out} : FairSchedule [sp.base0.lenSpec, sp.base1.lenOrth, sp.base2.lenOrth] 0 s0 → FairSchedule [sp.base0.lenSpec, sp.base1.lenSpec, sp.base2.lenOrth] 1 s1 → FairSchedule [sp.base0.lenSpec, sp.base1.lenSpec, sp.base2.lenSpec] 2 s2 → Good out sp.shapeSpectral → FromOrtho3 sp (fun x => sp.fromOrthoInplacePar s0 s1 s2 x out)

end

end Verif.Spec
