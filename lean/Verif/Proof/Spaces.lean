/-
The operators of Space1, Space2 and Space3 as compositions of lane maps.
-/
import Verif.Model.Spaces
import Verif.Proof.BaseLaws
import Verif.Proof.Lanes

namespace Verif
open Res Spec Finset

theorem good_zeros {T : Type} [Zero T] (sh : List ℕ) : Good (Arr.zeros sh : Arr T) sh :=
  ⟨zeros_wf sh, rfl, rfl⟩

theorem good_mapAx {S T : Type} [Zero S] [Zero T] (g : List S → List T) (m ax : ℕ) {a : Arr S}
    {sh : List ℕ} (ha : a.shape = sh) : Good (mapAx g m ax a) (sh.set ax m) :=
  ⟨mapAx_wf .., rfl, by rw [mapAx_shape, ha]⟩

section
variable {S T : Type} [Zero S] [Zero T] {f : List S → List T → Res (List T)} {l1 l2 : ℕ}
  {g : List S → List T}

theorem inplace_good (hf : Computes f l1 l2 g) {a : Arr S} {out : Arr T} {sh sh' : List ℕ} {ax : ℕ}
    (ha : Good a sh) (ho : Good out sh') (hax : ax < sh.length) (hn : sh.getD ax 0 = l1)
    (hsh : sh' = sh.set ax l2) :
    applyAlongAxis (serialOrder out ax) f l1 l2 a out ax = ok (mapAx g l2 ax a) := by
  obtain ⟨-, h2, h3⟩ := ha
  obtain ⟨k1, k2, k3⟩ := ho
  exact serial_eq hf h2 k2 k1 (by rw [h3]; exact hax) (by rw [h3]; exact hn) (by rw [k3, h3, hsh])

theorem alloc_good (hf : Computes f l1 l2 g) {a : Arr S} {sh : List ℕ} {ax : ℕ}
    (ha : Good a sh) (hax : ax < sh.length) (hn : sh.getD ax 0 = l1) :
    (do let out ← arrayResizedAxis T a l2 ax
        applyAlongAxis (serialOrder out ax) f l1 l2 a out ax) = ok (mapAx g l2 ax a) := by
  obtain ⟨-, h2, h3⟩ := ha
  exact serial_alloc_eq hf h2 (by rw [h3]; exact hax) (by rw [h3]; exact hn)

theorem inplace_par_good (hf : Computes f l1 l2 g) {a : Arr S} {out : Arr T} {sh sh' : List ℕ}
    {ax : ℕ} (ha : Good a sh) (ho : Good out sh') (hax : ax < sh.length)
    (hn : sh.getD ax 0 = l1) (hsh : sh' = sh.set ax l2) {sched : List ℕ}
    (hsch : FairSchedule sh' ax sched) :
    parApplyAlongAxis sched f l1 l2 a out ax = ok (mapAx g l2 ax a) := by
  rw [par_eq_serial hf a out ho.1 ax _ (List.Perm.refl _) sched (by rw [ho.2.2]; exact hsch)]
  exact inplace_good hf ha ho hax hn hsh

theorem alloc_par_good (hf : Computes f l1 l2 g) {a : Arr S} {sh : List ℕ} {ax : ℕ}
    (ha : Good a sh) (hax : ax < sh.length) (hn : sh.getD ax 0 = l1) {sched : List ℕ}
    (hsch : FairSchedule (sh.set ax l2) ax sched) :
    (do let out ← arrayResizedAxis T a l2 ax
        parApplyAlongAxis sched f l1 l2 a out ax) = ok (mapAx g l2 ax a) := by
  rw [par_alloc_eq_serial hf a ax sched (by rw [ha.2.2]; exact hsch)]
  exact alloc_good hf ha hax hn

end


/-! ### Space1 -/

namespace Space1
section
variable {P S T A : Type} [Zero P] [Zero S] [Zero T] (sp : Space1 P S T A)

theorem forwardInplace_eq {φ0 : List P → List S}
    (h0 : Computes sp.base0.forwardSlice sp.base0.lenPhys sp.base0.lenSpec φ0)
    {a : Arr P} {out : Arr S} (ha : Good a sp.shapePhysical) (ho : Good out sp.shapeSpectral) :
    sp.forwardInplace a out = ok (mapAx φ0 sp.base0.lenSpec 0 a) := by
  unfold forwardInplace
  exact inplace_good h0 ha ho (by decide : 0 < 1) rfl rfl

theorem forward_eq {φ0 : List P → List S}
    (h0 : Computes sp.base0.forwardSlice sp.base0.lenPhys sp.base0.lenSpec φ0)
    {a : Arr P} (ha : Good a sp.shapePhysical) :
    sp.forward a = ok (mapAx φ0 sp.base0.lenSpec 0 a) :=
  sp.forwardInplace_eq h0 ha (good_zeros _)

theorem forwardInplacePar_eq {φ0 : List P → List S}
    (h0 : Computes sp.base0.forwardSlice sp.base0.lenPhys sp.base0.lenSpec φ0)
    {a : Arr P} {out : Arr S} (ha : Good a sp.shapePhysical) (ho : Good out sp.shapeSpectral)
    {s0 : List ℕ} (hs0 : FairSchedule [sp.base0.lenSpec] 0 s0) :
    sp.forwardInplacePar s0 a out = ok (mapAx φ0 sp.base0.lenSpec 0 a) := by
  unfold forwardInplacePar
  exact inplace_par_good h0 ha ho (by decide : 0 < 1) rfl rfl hs0

theorem forwardPar_eq {φ0 : List P → List S}
    (h0 : Computes sp.base0.forwardSlice sp.base0.lenPhys sp.base0.lenSpec φ0)
    {a : Arr P} (ha : Good a sp.shapePhysical)
    {s0 : List ℕ} (hs0 : FairSchedule [sp.base0.lenSpec] 0 s0) :
    sp.forwardPar s0 a = ok (mapAx φ0 sp.base0.lenSpec 0 a) :=
  sp.forwardInplacePar_eq h0 ha (good_zeros _) hs0

theorem backwardInplace_eq {β0 : List S → List P}
    (h0 : Computes sp.base0.backwardSlice sp.base0.lenSpec sp.base0.lenPhys β0)
    {a : Arr S} {out : Arr P} (ha : Good a sp.shapeSpectral) (ho : Good out sp.shapePhysical) :
    sp.backwardInplace a out = ok (mapAx β0 sp.base0.lenPhys 0 a) := by
  unfold backwardInplace
  exact inplace_good h0 ha ho (by decide : 0 < 1) rfl rfl

theorem backward_eq {β0 : List S → List P}
    (h0 : Computes sp.base0.backwardSlice sp.base0.lenSpec sp.base0.lenPhys β0)
    {a : Arr S} (ha : Good a sp.shapeSpectral) :
    sp.backward a = ok (mapAx β0 sp.base0.lenPhys 0 a) :=
  sp.backwardInplace_eq h0 ha (good_zeros _)

theorem backwardInplacePar_eq {β0 : List S → List P}
    (h0 : Computes sp.base0.backwardSlice sp.base0.lenSpec sp.base0.lenPhys β0)
    {a : Arr S} {out : Arr P} (ha : Good a sp.shapeSpectral) (ho : Good out sp.shapePhysical)
    {s0 : List ℕ} (hs0 : FairSchedule [sp.base0.lenPhys] 0 s0) :
    sp.backwardInplacePar s0 a out = ok (mapAx β0 sp.base0.lenPhys 0 a) := by
  unfold backwardInplacePar
  exact inplace_par_good h0 ha ho (by decide : 0 < 1) rfl rfl hs0

theorem backwardPar_eq {β0 : List S → List P}
    (h0 : Computes sp.base0.backwardSlice sp.base0.lenSpec sp.base0.lenPhys β0)
    {a : Arr S} (ha : Good a sp.shapeSpectral)
    {s0 : List ℕ} (hs0 : FairSchedule [sp.base0.lenPhys] 0 s0) :
    sp.backwardPar s0 a = ok (mapAx β0 sp.base0.lenPhys 0 a) :=
  sp.backwardInplacePar_eq h0 ha (good_zeros _) hs0

theorem toOrthoInplace_eq {τ0 : List T → List T}
    (h0 : Computes sp.base0.toOrthoSlice sp.base0.lenSpec sp.base0.lenOrth τ0)
    {a : Arr T} {out : Arr T} (ha : Good a sp.shapeSpectral) (ho : Good out sp.shapeSpectralOrtho) :
    sp.toOrthoInplace a out = ok (mapAx τ0 sp.base0.lenOrth 0 a) := by
  unfold toOrthoInplace
  exact inplace_good h0 ha ho (by decide : 0 < 1) rfl rfl

theorem toOrtho_eq {τ0 : List T → List T}
    (h0 : Computes sp.base0.toOrthoSlice sp.base0.lenSpec sp.base0.lenOrth τ0)
    {a : Arr T} (ha : Good a sp.shapeSpectral) :
    sp.toOrtho a = ok (mapAx τ0 sp.base0.lenOrth 0 a) :=
  sp.toOrthoInplace_eq h0 ha (good_zeros _)

theorem toOrthoInplacePar_eq {τ0 : List T → List T}
    (h0 : Computes sp.base0.toOrthoSlice sp.base0.lenSpec sp.base0.lenOrth τ0)
    {a : Arr T} {out : Arr T} (ha : Good a sp.shapeSpectral) (ho : Good out sp.shapeSpectralOrtho)
    {s0 : List ℕ} (hs0 : FairSchedule [sp.base0.lenOrth] 0 s0) :
    sp.toOrthoInplacePar s0 a out = ok (mapAx τ0 sp.base0.lenOrth 0 a) := by
  unfold toOrthoInplacePar
  exact inplace_par_good h0 ha ho (by decide : 0 < 1) rfl rfl hs0

theorem toOrthoPar_eq {τ0 : List T → List T}
    (h0 : Computes sp.base0.toOrthoSlice sp.base0.lenSpec sp.base0.lenOrth τ0)
    {a : Arr T} (ha : Good a sp.shapeSpectral)
    {s0 : List ℕ} (hs0 : FairSchedule [sp.base0.lenOrth] 0 s0) :
    sp.toOrthoPar s0 a = ok (mapAx τ0 sp.base0.lenOrth 0 a) :=
  sp.toOrthoInplacePar_eq h0 ha (good_zeros _) hs0

theorem fromOrthoInplace_eq {φ0 : List T → List T}
    (h0 : Computes sp.base0.fromOrthoSlice sp.base0.lenOrth sp.base0.lenSpec φ0)
    {a : Arr T} {out : Arr T} (ha : Good a sp.shapeSpectralOrtho) (ho : Good out sp.shapeSpectral) :
    sp.fromOrthoInplace a out = ok (mapAx φ0 sp.base0.lenSpec 0 a) := by
  unfold fromOrthoInplace
  exact inplace_good h0 ha ho (by decide : 0 < 1) rfl rfl

theorem fromOrtho_eq {φ0 : List T → List T}
    (h0 : Computes sp.base0.fromOrthoSlice sp.base0.lenOrth sp.base0.lenSpec φ0)
    {a : Arr T} (ha : Good a sp.shapeSpectralOrtho) :
    sp.fromOrtho a = ok (mapAx φ0 sp.base0.lenSpec 0 a) :=
  sp.fromOrthoInplace_eq h0 ha (good_zeros _)

theorem fromOrthoInplacePar_eq {φ0 : List T → List T}
    (h0 : Computes sp.base0.fromOrthoSlice sp.base0.lenOrth sp.base0.lenSpec φ0)
    {a : Arr T} {out : Arr T} (ha : Good a sp.shapeSpectralOrtho) (ho : Good out sp.shapeSpectral)
    {s0 : List ℕ} (hs0 : FairSchedule [sp.base0.lenSpec] 0 s0) :
    sp.fromOrthoInplacePar s0 a out = ok (mapAx φ0 sp.base0.lenSpec 0 a) := by
  unfold fromOrthoInplacePar
  exact inplace_par_good h0 ha ho (by decide : 0 < 1) rfl rfl hs0

theorem fromOrthoPar_eq {φ0 : List T → List T}
    (h0 : Computes sp.base0.fromOrthoSlice sp.base0.lenOrth sp.base0.lenSpec φ0)
    {a : Arr T} (ha : Good a sp.shapeSpectralOrtho)
    {s0 : List ℕ} (hs0 : FairSchedule [sp.base0.lenSpec] 0 s0) :
    sp.fromOrthoPar s0 a = ok (mapAx φ0 sp.base0.lenSpec 0 a) :=
  sp.fromOrthoInplacePar_eq h0 ha (good_zeros _) hs0

end
end Space1

/-! ### Space2 -/

namespace Space2
section
variable {P I S T A : Type} [Zero P] [Zero I] [Zero S] [Zero T] (sp : Space2 P I S T A)

theorem forwardInplace_eq {φ0 : List I → List S} {φ1 : List P → List I}
    (h0 : Computes sp.base0.forwardSlice sp.base0.lenPhys sp.base0.lenSpec φ0) (h1 : Computes sp.base1.forwardSlice sp.base1.lenPhys sp.base1.lenSpec φ1)
    {a : Arr P} {out : Arr S} (ha : Good a sp.shapePhysical) (ho : Good out sp.shapeSpectral) :
    sp.forwardInplace a out = ok (mapAx φ0 sp.base0.lenSpec 0 (mapAx φ1 sp.base1.lenSpec 1 a)) := by
  unfold forwardInplace
  have e1 := alloc_good h1 ha (by decide : 1 < 2) rfl
  have k1 := good_mapAx φ1 sp.base1.lenSpec 1 ha.2.2
  rw [show sp.base1.forward _ 1 = _ from e1, bind_ok]
  exact inplace_good h0 k1 ho (by decide : 0 < 2) rfl rfl

theorem forward_eq {φ0 : List I → List S} {φ1 : List P → List I}
    (h0 : Computes sp.base0.forwardSlice sp.base0.lenPhys sp.base0.lenSpec φ0) (h1 : Computes sp.base1.forwardSlice sp.base1.lenPhys sp.base1.lenSpec φ1)
    {a : Arr P} (ha : Good a sp.shapePhysical) :
    sp.forward a = ok (mapAx φ0 sp.base0.lenSpec 0 (mapAx φ1 sp.base1.lenSpec 1 a)) :=
  sp.forwardInplace_eq h0 h1 ha (good_zeros _)

theorem forwardInplacePar_eq {φ0 : List I → List S} {φ1 : List P → List I}
    (h0 : Computes sp.base0.forwardSlice sp.base0.lenPhys sp.base0.lenSpec φ0) (h1 : Computes sp.base1.forwardSlice sp.base1.lenPhys sp.base1.lenSpec φ1)
    {a : Arr P} {out : Arr S} (ha : Good a sp.shapePhysical) (ho : Good out sp.shapeSpectral)
    {s0 s1 : List ℕ} (hs0 : FairSchedule [sp.base0.lenSpec, sp.base1.lenSpec] 0 s0) (hs1 : FairSchedule [sp.base0.lenPhys, sp.base1.lenSpec] 1 s1) :
    sp.forwardInplacePar s0 s1 a out = ok (mapAx φ0 sp.base0.lenSpec 0 (mapAx φ1 sp.base1.lenSpec 1 a)) := by
  unfold forwardInplacePar
  have e1 := alloc_par_good h1 ha (by decide : 1 < 2) rfl hs1
  have k1 := good_mapAx φ1 sp.base1.lenSpec 1 ha.2.2
  rw [show sp.base1.forwardPar s1 _ 1 = _ from e1, bind_ok]
  exact inplace_par_good h0 k1 ho (by decide : 0 < 2) rfl rfl hs0

theorem forwardPar_eq {φ0 : List I → List S} {φ1 : List P → List I}
    (h0 : Computes sp.base0.forwardSlice sp.base0.lenPhys sp.base0.lenSpec φ0) (h1 : Computes sp.base1.forwardSlice sp.base1.lenPhys sp.base1.lenSpec φ1)
    {a : Arr P} (ha : Good a sp.shapePhysical)
    {s0 s1 : List ℕ} (hs0 : FairSchedule [sp.base0.lenSpec, sp.base1.lenSpec] 0 s0) (hs1 : FairSchedule [sp.base0.lenPhys, sp.base1.lenSpec] 1 s1) :
    sp.forwardPar s0 s1 a = ok (mapAx φ0 sp.base0.lenSpec 0 (mapAx φ1 sp.base1.lenSpec 1 a)) :=
  sp.forwardInplacePar_eq h0 h1 ha (good_zeros _) hs0 hs1

theorem backwardInplace_eq {β0 : List S → List I} {β1 : List I → List P}
    (h0 : Computes sp.base0.backwardSlice sp.base0.lenSpec sp.base0.lenPhys β0) (h1 : Computes sp.base1.backwardSlice sp.base1.lenSpec sp.base1.lenPhys β1)
    {a : Arr S} {out : Arr P} (ha : Good a sp.shapeSpectral) (ho : Good out sp.shapePhysical) :
    sp.backwardInplace a out = ok (mapAx β1 sp.base1.lenPhys 1 (mapAx β0 sp.base0.lenPhys 0 a)) := by
  unfold backwardInplace
  have e0 := alloc_good h0 ha (by decide : 0 < 2) rfl
  have k0 := good_mapAx β0 sp.base0.lenPhys 0 ha.2.2
  rw [show sp.base0.backward _ 0 = _ from e0, bind_ok]
  exact inplace_good h1 k0 ho (by decide : 1 < 2) rfl rfl

theorem backward_eq {β0 : List S → List I} {β1 : List I → List P}
    (h0 : Computes sp.base0.backwardSlice sp.base0.lenSpec sp.base0.lenPhys β0) (h1 : Computes sp.base1.backwardSlice sp.base1.lenSpec sp.base1.lenPhys β1)
    {a : Arr S} (ha : Good a sp.shapeSpectral) :
    sp.backward a = ok (mapAx β1 sp.base1.lenPhys 1 (mapAx β0 sp.base0.lenPhys 0 a)) :=
  sp.backwardInplace_eq h0 h1 ha (good_zeros _)

theorem backwardInplacePar_eq {β0 : List S → List I} {β1 : List I → List P}
    (h0 : Computes sp.base0.backwardSlice sp.base0.lenSpec sp.base0.lenPhys β0) (h1 : Computes sp.base1.backwardSlice sp.base1.lenSpec sp.base1.lenPhys β1)
    {a : Arr S} {out : Arr P} (ha : Good a sp.shapeSpectral) (ho : Good out sp.shapePhysical)
    {s0 s1 : List ℕ} (hs0 : FairSchedule [sp.base0.lenPhys, sp.base1.lenSpec] 0 s0) (hs1 : FairSchedule [sp.base0.lenPhys, sp.base1.lenPhys] 1 s1) :
    sp.backwardInplacePar s0 s1 a out = ok (mapAx β1 sp.base1.lenPhys 1 (mapAx β0 sp.base0.lenPhys 0 a)) := by
  unfold backwardInplacePar
  have e0 := alloc_par_good h0 ha (by decide : 0 < 2) rfl hs0
  have k0 := good_mapAx β0 sp.base0.lenPhys 0 ha.2.2
  rw [show sp.base0.backwardPar s0 _ 0 = _ from e0, bind_ok]
  exact inplace_par_good h1 k0 ho (by decide : 1 < 2) rfl rfl hs1

theorem backwardPar_eq {β0 : List S → List I} {β1 : List I → List P}
    (h0 : Computes sp.base0.backwardSlice sp.base0.lenSpec sp.base0.lenPhys β0) (h1 : Computes sp.base1.backwardSlice sp.base1.lenSpec sp.base1.lenPhys β1)
    {a : Arr S} (ha : Good a sp.shapeSpectral)
    {s0 s1 : List ℕ} (hs0 : FairSchedule [sp.base0.lenPhys, sp.base1.lenSpec] 0 s0) (hs1 : FairSchedule [sp.base0.lenPhys, sp.base1.lenPhys] 1 s1) :
    sp.backwardPar s0 s1 a = ok (mapAx β1 sp.base1.lenPhys 1 (mapAx β0 sp.base0.lenPhys 0 a)) :=
  sp.backwardInplacePar_eq h0 h1 ha (good_zeros _) hs0 hs1

theorem toOrthoInplace_eq {τ0 : List T → List T} {τ1 : List T → List T}
    (h0 : Computes sp.base0.toOrthoSlice sp.base0.lenSpec sp.base0.lenOrth τ0) (h1 : Computes sp.base1.toOrthoSlice sp.base1.lenSpec sp.base1.lenOrth τ1)
    {a : Arr T} {out : Arr T} (ha : Good a sp.shapeSpectral) (ho : Good out sp.shapeSpectralOrtho) :
    sp.toOrthoInplace a out = ok (mapAx τ1 sp.base1.lenOrth 1 (mapAx τ0 sp.base0.lenOrth 0 a)) := by
  unfold toOrthoInplace
  have e0 := alloc_good h0 ha (by decide : 0 < 2) rfl
  have k0 := good_mapAx τ0 sp.base0.lenOrth 0 ha.2.2
  rw [show sp.base0.toOrtho _ 0 = _ from e0, bind_ok]
  exact inplace_good h1 k0 ho (by decide : 1 < 2) rfl rfl

theorem toOrtho_eq {τ0 : List T → List T} {τ1 : List T → List T}
    (h0 : Computes sp.base0.toOrthoSlice sp.base0.lenSpec sp.base0.lenOrth τ0) (h1 : Computes sp.base1.toOrthoSlice sp.base1.lenSpec sp.base1.lenOrth τ1)
    {a : Arr T} (ha : Good a sp.shapeSpectral) :
    sp.toOrtho a = ok (mapAx τ1 sp.base1.lenOrth 1 (mapAx τ0 sp.base0.lenOrth 0 a)) :=
  sp.toOrthoInplace_eq h0 h1 ha (good_zeros _)

theorem toOrthoInplacePar_eq {τ0 : List T → List T} {τ1 : List T → List T}
    (h0 : Computes sp.base0.toOrthoSlice sp.base0.lenSpec sp.base0.lenOrth τ0) (h1 : Computes sp.base1.toOrthoSlice sp.base1.lenSpec sp.base1.lenOrth τ1)
    {a : Arr T} {out : Arr T} (ha : Good a sp.shapeSpectral) (ho : Good out sp.shapeSpectralOrtho)
    {s0 s1 : List ℕ} (hs0 : FairSchedule [sp.base0.lenOrth, sp.base1.lenSpec] 0 s0) (hs1 : FairSchedule [sp.base0.lenOrth, sp.base1.lenOrth] 1 s1) :
    sp.toOrthoInplacePar s0 s1 a out = ok (mapAx τ1 sp.base1.lenOrth 1 (mapAx τ0 sp.base0.lenOrth 0 a)) := by
  unfold toOrthoInplacePar
  have e0 := alloc_par_good h0 ha (by decide : 0 < 2) rfl hs0
  have k0 := good_mapAx τ0 sp.base0.lenOrth 0 ha.2.2
  rw [show sp.base0.toOrthoPar s0 _ 0 = _ from e0, bind_ok]
  exact inplace_par_good h1 k0 ho (by decide : 1 < 2) rfl rfl hs1

theorem toOrthoPar_eq {τ0 : List T → List T} {τ1 : List T → List T}
    (h0 : Computes sp.base0.toOrthoSlice sp.base0.lenSpec sp.base0.lenOrth τ0) (h1 : Computes sp.base1.toOrthoSlice sp.base1.lenSpec sp.base1.lenOrth τ1)
    {a : Arr T} (ha : Good a sp.shapeSpectral)
    {s0 s1 : List ℕ} (hs0 : FairSchedule [sp.base0.lenOrth, sp.base1.lenSpec] 0 s0) (hs1 : FairSchedule [sp.base0.lenOrth, sp.base1.lenOrth] 1 s1) :
    sp.toOrthoPar s0 s1 a = ok (mapAx τ1 sp.base1.lenOrth 1 (mapAx τ0 sp.base0.lenOrth 0 a)) :=
  sp.toOrthoInplacePar_eq h0 h1 ha (good_zeros _) hs0 hs1

theorem fromOrthoInplace_eq {φ0 : List T → List T} {φ1 : List T → List T}
    (h0 : Computes sp.base0.fromOrthoSlice sp.base0.lenOrth sp.base0.lenSpec φ0) (h1 : Computes sp.base1.fromOrthoSlice sp.base1.lenOrth sp.base1.lenSpec φ1)
    {a : Arr T} {out : Arr T} (ha : Good a sp.shapeSpectralOrtho) (ho : Good out sp.shapeSpectral) :
    sp.fromOrthoInplace a out = ok (mapAx φ1 sp.base1.lenSpec 1 (mapAx φ0 sp.base0.lenSpec 0 a)) := by
  unfold fromOrthoInplace
  have e0 := alloc_good h0 ha (by decide : 0 < 2) rfl
  have k0 := good_mapAx φ0 sp.base0.lenSpec 0 ha.2.2
  rw [show sp.base0.fromOrtho _ 0 = _ from e0, bind_ok]
  exact inplace_good h1 k0 ho (by decide : 1 < 2) rfl rfl

theorem fromOrtho_eq {φ0 : List T → List T} {φ1 : List T → List T}
    (h0 : Computes sp.base0.fromOrthoSlice sp.base0.lenOrth sp.base0.lenSpec φ0) (h1 : Computes sp.base1.fromOrthoSlice sp.base1.lenOrth sp.base1.lenSpec φ1)
    {a : Arr T} (ha : Good a sp.shapeSpectralOrtho) :
    sp.fromOrtho a = ok (mapAx φ1 sp.base1.lenSpec 1 (mapAx φ0 sp.base0.lenSpec 0 a)) :=
  sp.fromOrthoInplace_eq h0 h1 ha (good_zeros _)

theorem fromOrthoInplacePar_eq {φ0 : List T → List T} {φ1 : List T → List T}
    (h0 : Computes sp.base0.fromOrthoSlice sp.base0.lenOrth sp.base0.lenSpec φ0) (h1 : Computes sp.base1.fromOrthoSlice sp.base1.lenOrth sp.base1.lenSpec φ1)
    {a : Arr T} {out : Arr T} (ha : Good a sp.shapeSpectralOrtho) (ho : Good out sp.shapeSpectral)
    {s0 s1 : List ℕ} (hs0 : FairSchedule [sp.base0.lenSpec, sp.base1.lenOrth] 0 s0) (hs1 : FairSchedule [sp.base0.lenSpec, sp.base1.lenSpec] 1 s1) :
    sp.fromOrthoInplacePar s0 s1 a out = ok (mapAx φ1 sp.base1.lenSpec 1 (mapAx φ0 sp.base0.lenSpec 0 a)) := by
  unfold fromOrthoInplacePar
  have e0 := alloc_par_good h0 ha (by decide : 0 < 2) rfl hs0
  have k0 := good_mapAx φ0 sp.base0.lenSpec 0 ha.2.2
  rw [show sp.base0.fromOrthoPar s0 _ 0 = _ from e0, bind_ok]
  exact inplace_par_good h1 k0 ho (by decide : 1 < 2) rfl rfl hs1

theorem fromOrthoPar_eq {φ0 : List T → List T} {φ1 : List T → List T}
    (h0 : Computes sp.base0.fromOrthoSlice sp.base0.lenOrth sp.base0.lenSpec φ0) (h1 : Computes sp.base1.fromOrthoSlice sp.base1.lenOrth sp.base1.lenSpec φ1)
    {a : Arr T} (ha : Good a sp.shapeSpectralOrtho)
    {s0 s1 : List ℕ} (hs0 : FairSchedule [sp.base0.lenSpec, sp.base1.lenOrth] 0 s0) (hs1 : FairSchedule [sp.base0.lenSpec, sp.base1.lenSpec] 1 s1) :
    sp.fromOrthoPar s0 s1 a = ok (mapAx φ1 sp.base1.lenSpec 1 (mapAx φ0 sp.base0.lenSpec 0 a)) :=
  sp.fromOrthoInplacePar_eq h0 h1 ha (good_zeros _) hs0 hs1

end
end Space2

/-! ### Space3 -/

namespace Space3
section
variable {P I J S T A : Type} [Zero P] [Zero I] [Zero J] [Zero S] [Zero T] (sp : Space3 P I J S T A)

theorem forwardInplace_eq {φ0 : List J → List S} {φ1 : List I → List J} {φ2 : List P → List I}
    (h0 : Computes sp.base0.forwardSlice sp.base0.lenPhys sp.base0.lenSpec φ0) (h1 : Computes sp.base1.forwardSlice sp.base1.lenPhys sp.base1.lenSpec φ1) (h2 : Computes sp.base2.forwardSlice sp.base2.lenPhys sp.base2.lenSpec φ2)
    {a : Arr P} {out : Arr S} (ha : Good a sp.shapePhysical) (ho : Good out sp.shapeSpectral) :
    sp.forwardInplace a out = ok (mapAx φ0 sp.base0.lenSpec 0 (mapAx φ1 sp.base1.lenSpec 1 (mapAx φ2 sp.base2.lenSpec 2 a))) := by
  unfold forwardInplace
  have e2 := alloc_good h2 ha (by decide : 2 < 3) rfl
  have k2 := good_mapAx φ2 sp.base2.lenSpec 2 ha.2.2
  rw [show sp.base2.forward _ 2 = _ from e2, bind_ok]
  have e1 := alloc_good h1 k2 (by decide : 1 < 3) rfl
  have k1 := good_mapAx φ1 sp.base1.lenSpec 1 k2.2.2
  rw [show sp.base1.forward _ 1 = _ from e1, bind_ok]
  exact inplace_good h0 k1 ho (by decide : 0 < 3) rfl rfl

theorem forward_eq {φ0 : List J → List S} {φ1 : List I → List J} {φ2 : List P → List I}
    (h0 : Computes sp.base0.forwardSlice sp.base0.lenPhys sp.base0.lenSpec φ0) (h1 : Computes sp.base1.forwardSlice sp.base1.lenPhys sp.base1.lenSpec φ1) (h2 : Computes sp.base2.forwardSlice sp.base2.lenPhys sp.base2.lenSpec φ2)
    {a : Arr P} (ha : Good a sp.shapePhysical) :
    sp.forward a = ok (mapAx φ0 sp.base0.lenSpec 0 (mapAx φ1 sp.base1.lenSpec 1 (mapAx φ2 sp.base2.lenSpec 2 a))) :=
  sp.forwardInplace_eq h0 h1 h2 ha (good_zeros _)

theorem forwardInplacePar_eq {φ0 : List J → List S} {φ1 : List I → List J} {φ2 : List P → List I}
    (h0 : Computes sp.base0.forwardSlice sp.base0.lenPhys sp.base0.lenSpec φ0) (h1 : Computes sp.base1.forwardSlice sp.base1.lenPhys sp.base1.lenSpec φ1) (h2 : Computes sp.base2.forwardSlice sp.base2.lenPhys sp.base2.lenSpec φ2)
    {a : Arr P} {out : Arr S} (ha : Good a sp.shapePhysical) (ho : Good out sp.shapeSpectral)
    {s0 s1 s2 : List ℕ} (hs0 : FairSchedule [sp.base0.lenSpec, sp.base1.lenSpec, sp.base2.lenSpec] 0 s0) (hs1 : FairSchedule [sp.base0.lenPhys, sp.base1.lenSpec, sp.base2.lenSpec] 1 s1) (hs2 : FairSchedule [sp.base0.lenPhys, sp.base1.lenPhys, sp.base2.lenSpec] 2 s2) :
    sp.forwardInplacePar s0 s1 s2 a out = ok (mapAx φ0 sp.base0.lenSpec 0 (mapAx φ1 sp.base1.lenSpec 1 (mapAx φ2 sp.base2.lenSpec 2 a))) := by
  unfold forwardInplacePar
  have e2 := alloc_par_good h2 ha (by decide : 2 < 3) rfl hs2
  have k2 := good_mapAx φ2 sp.base2.lenSpec 2 ha.2.2
  rw [show sp.base2.forwardPar s2 _ 2 = _ from e2, bind_ok]
  have e1 := alloc_par_good h1 k2 (by decide : 1 < 3) rfl hs1
  have k1 := good_mapAx φ1 sp.base1.lenSpec 1 k2.2.2
  rw [show sp.base1.forwardPar s1 _ 1 = _ from e1, bind_ok]
  exact inplace_par_good h0 k1 ho (by decide : 0 < 3) rfl rfl hs0

theorem forwardPar_eq {φ0 : List J → List S} {φ1 : List I → List J} {φ2 : List P → List I}
    (h0 : Computes sp.base0.forwardSlice sp.base0.lenPhys sp.base0.lenSpec φ0) (h1 : Computes sp.base1.forwardSlice sp.base1.lenPhys sp.base1.lenSpec φ1) (h2 : Computes sp.base2.forwardSlice sp.base2.lenPhys sp.base2.lenSpec φ2)
    {a : Arr P} (ha : Good a sp.shapePhysical)
    {s0 s1 s2 : List ℕ} (hs0 : FairSchedule [sp.base0.lenSpec, sp.base1.lenSpec, sp.base2.lenSpec] 0 s0) (hs1 : FairSchedule [sp.base0.lenPhys, sp.base1.lenSpec, sp.base2.lenSpec] 1 s1) (hs2 : FairSchedule [sp.base0.lenPhys, sp.base1.lenPhys, sp.base2.lenSpec] 2 s2) :
    sp.forwardPar s0 s1 s2 a = ok (mapAx φ0 sp.base0.lenSpec 0 (mapAx φ1 sp.base1.lenSpec 1 (mapAx φ2 sp.base2.lenSpec 2 a))) :=
  sp.forwardInplacePar_eq h0 h1 h2 ha (good_zeros _) hs0 hs1 hs2

theorem backwardInplace_eq {β0 : List S → List J} {β1 : List J → List I} {β2 : List I → List P}
    (h0 : Computes sp.base0.backwardSlice sp.base0.lenSpec sp.base0.lenPhys β0) (h1 : Computes sp.base1.backwardSlice sp.base1.lenSpec sp.base1.lenPhys β1) (h2 : Computes sp.base2.backwardSlice sp.base2.lenSpec sp.base2.lenPhys β2)
    {a : Arr S} {out : Arr P} (ha : Good a sp.shapeSpectral) (ho : Good out sp.shapePhysical) :
    sp.backwardInplace a out = ok (mapAx β2 sp.base2.lenPhys 2 (mapAx β1 sp.base1.lenPhys 1 (mapAx β0 sp.base0.lenPhys 0 a))) := by
  unfold backwardInplace
  have e0 := alloc_good h0 ha (by decide : 0 < 3) rfl
  have k0 := good_mapAx β0 sp.base0.lenPhys 0 ha.2.2
  rw [show sp.base0.backward _ 0 = _ from e0, bind_ok]
  have e1 := alloc_good h1 k0 (by decide : 1 < 3) rfl
  have k1 := good_mapAx β1 sp.base1.lenPhys 1 k0.2.2
  rw [show sp.base1.backward _ 1 = _ from e1, bind_ok]
  exact inplace_good h2 k1 ho (by decide : 2 < 3) rfl rfl

theorem backward_eq {β0 : List S → List J} {β1 : List J → List I} {β2 : List I → List P}
    (h0 : Computes sp.base0.backwardSlice sp.base0.lenSpec sp.base0.lenPhys β0) (h1 : Computes sp.base1.backwardSlice sp.base1.lenSpec sp.base1.lenPhys β1) (h2 : Computes sp.base2.backwardSlice sp.base2.lenSpec sp.base2.lenPhys β2)
    {a : Arr S} (ha : Good a sp.shapeSpectral) :
    sp.backward a = ok (mapAx β2 sp.base2.lenPhys 2 (mapAx β1 sp.base1.lenPhys 1 (mapAx β0 sp.base0.lenPhys 0 a))) :=
  sp.backwardInplace_eq h0 h1 h2 ha (good_zeros _)

theorem backwardInplacePar_eq {β0 : List S → List J} {β1 : List J → List I} {β2 : List I → List P}
    (h0 : Computes sp.base0.backwardSlice sp.base0.lenSpec sp.base0.lenPhys β0) (h1 : Computes sp.base1.backwardSlice sp.base1.lenSpec sp.base1.lenPhys β1) (h2 : Computes sp.base2.backwardSlice sp.base2.lenSpec sp.base2.lenPhys β2)
    {a : Arr S} {out : Arr P} (ha : Good a sp.shapeSpectral) (ho : Good out sp.shapePhysical)
    {s0 s1 s2 : List ℕ} (hs0 : FairSchedule [sp.base0.lenPhys, sp.base1.lenSpec, sp.base2.lenSpec] 0 s0) (hs1 : FairSchedule [sp.base0.lenPhys, sp.base1.lenPhys, sp.base2.lenSpec] 1 s1) (hs2 : FairSchedule [sp.base0.lenPhys, sp.base1.lenPhys, sp.base2.lenPhys] 2 s2) :
    sp.backwardInplacePar s0 s1 s2 a out = ok (mapAx β2 sp.base2.lenPhys 2 (mapAx β1 sp.base1.lenPhys 1 (mapAx β0 sp.base0.lenPhys 0 a))) := by
  unfold backwardInplacePar
  have e0 := alloc_par_good h0 ha (by decide : 0 < 3) rfl hs0
  have k0 := good_mapAx β0 sp.base0.lenPhys 0 ha.2.2
  rw [show sp.base0.backwardPar s0 _ 0 = _ from e0, bind_ok]
  have e1 := alloc_par_good h1 k0 (by decide : 1 < 3) rfl hs1
  have k1 := good_mapAx β1 sp.base1.lenPhys 1 k0.2.2
  rw [show sp.base1.backwardPar s1 _ 1 = _ from e1, bind_ok]
  exact inplace_par_good h2 k1 ho (by decide : 2 < 3) rfl rfl hs2

theorem backwardPar_eq {β0 : List S → List J} {β1 : List J → List I} {β2 : List I → List P}
    (h0 : Computes sp.base0.backwardSlice sp.base0.lenSpec sp.base0.lenPhys β0) (h1 : Computes sp.base1.backwardSlice sp.base1.lenSpec sp.base1.lenPhys β1) (h2 : Computes sp.base2.backwardSlice sp.base2.lenSpec sp.base2.lenPhys β2)
    {a : Arr S} (ha : Good a sp.shapeSpectral)
    {s0 s1 s2 : List ℕ} (hs0 : FairSchedule [sp.base0.lenPhys, sp.base1.lenSpec, sp.base2.lenSpec] 0 s0) (hs1 : FairSchedule [sp.base0.lenPhys, sp.base1.lenPhys, sp.base2.lenSpec] 1 s1) (hs2 : FairSchedule [sp.base0.lenPhys, sp.base1.lenPhys, sp.base2.lenPhys] 2 s2) :
    sp.backwardPar s0 s1 s2 a = ok (mapAx β2 sp.base2.lenPhys 2 (mapAx β1 sp.base1.lenPhys 1 (mapAx β0 sp.base0.lenPhys 0 a))) :=
  sp.backwardInplacePar_eq h0 h1 h2 ha (good_zeros _) hs0 hs1 hs2

theorem toOrthoInplace_eq {τ0 : List T → List T} {τ1 : List T → List T} {τ2 : List T → List T}
    (h0 : Computes sp.base0.toOrthoSlice sp.base0.lenSpec sp.base0.lenOrth τ0) (h1 : Computes sp.base1.toOrthoSlice sp.base1.lenSpec sp.base1.lenOrth τ1) (h2 : Computes sp.base2.toOrthoSlice sp.base2.lenSpec sp.base2.lenOrth τ2)
    {a : Arr T} {out : Arr T} (ha : Good a sp.shapeSpectral) (ho : Good out sp.shapeSpectralOrtho) :
    sp.toOrthoInplace a out = ok (mapAx τ2 sp.base2.lenOrth 2 (mapAx τ1 sp.base1.lenOrth 1 (mapAx τ0 sp.base0.lenOrth 0 a))) := by
  unfold toOrthoInplace
  have e0 := alloc_good h0 ha (by decide : 0 < 3) rfl
  have k0 := good_mapAx τ0 sp.base0.lenOrth 0 ha.2.2
  rw [show sp.base0.toOrtho _ 0 = _ from e0, bind_ok]
  have e1 := alloc_good h1 k0 (by decide : 1 < 3) rfl
  have k1 := good_mapAx τ1 sp.base1.lenOrth 1 k0.2.2
  rw [show sp.base1.toOrtho _ 1 = _ from e1, bind_ok]
  exact inplace_good h2 k1 ho (by decide : 2 < 3) rfl rfl

theorem toOrtho_eq {τ0 : List T → List T} {τ1 : List T → List T} {τ2 : List T → List T}
    (h0 : Computes sp.base0.toOrthoSlice sp.base0.lenSpec sp.base0.lenOrth τ0) (h1 : Computes sp.base1.toOrthoSlice sp.base1.lenSpec sp.base1.lenOrth τ1) (h2 : Computes sp.base2.toOrthoSlice sp.base2.lenSpec sp.base2.lenOrth τ2)
    {a : Arr T} (ha : Good a sp.shapeSpectral) :
    sp.toOrtho a = ok (mapAx τ2 sp.base2.lenOrth 2 (mapAx τ1 sp.base1.lenOrth 1 (mapAx τ0 sp.base0.lenOrth 0 a))) :=
  sp.toOrthoInplace_eq h0 h1 h2 ha (good_zeros _)

theorem toOrthoInplacePar_eq {τ0 : List T → List T} {τ1 : List T → List T} {τ2 : List T → List T}
    (h0 : Computes sp.base0.toOrthoSlice sp.base0.lenSpec sp.base0.lenOrth τ0) (h1 : Computes sp.base1.toOrthoSlice sp.base1.lenSpec sp.base1.lenOrth τ1) (h2 : Computes sp.base2.toOrthoSlice sp.base2.lenSpec sp.base2.lenOrth τ2)
    {a : Arr T} {out : Arr T} (ha : Good a sp.shapeSpectral) (ho : Good out sp.shapeSpectralOrtho)
    {s0 s1 s2 : List ℕ} (hs0 : FairSchedule [sp.base0.lenOrth, sp.base1.lenSpec, sp.base2.lenSpec] 0 s0) (hs1 : FairSchedule [sp.base0.lenOrth, sp.base1.lenOrth, sp.base2.lenSpec] 1 s1) (hs2 : FairSchedule [sp.base0.lenOrth, sp.base1.lenOrth, sp.base2.lenOrth] 2 s2) :
    sp.toOrthoInplacePar s0 s1 s2 a out = ok (mapAx τ2 sp.base2.lenOrth 2 (mapAx τ1 sp.base1.lenOrth 1 (mapAx τ0 sp.base0.lenOrth 0 a))) := by
  unfold toOrthoInplacePar
  have e0 := alloc_par_good h0 ha (by decide : 0 < 3) rfl hs0
  have k0 := good_mapAx τ0 sp.base0.lenOrth 0 ha.2.2
  rw [show sp.base0.toOrthoPar s0 _ 0 = _ from e0, bind_ok]
  have e1 := alloc_par_good h1 k0 (by decide : 1 < 3) rfl hs1
  have k1 := good_mapAx τ1 sp.base1.lenOrth 1 k0.2.2
  rw [show sp.base1.toOrthoPar s1 _ 1 = _ from e1, bind_ok]
  exact inplace_par_good h2 k1 ho (by decide : 2 < 3) rfl rfl hs2

theorem toOrthoPar_eq {τ0 : List T → List T} {τ1 : List T → List T} {τ2 : List T → List T}
    (h0 : Computes sp.base0.toOrthoSlice sp.base0.lenSpec sp.base0.lenOrth τ0) (h1 : Computes sp.base1.toOrthoSlice sp.base1.lenSpec sp.base1.lenOrth τ1) (h2 : Computes sp.base2.toOrthoSlice sp.base2.lenSpec sp.base2.lenOrth τ2)
    {a : Arr T} (ha : Good a sp.shapeSpectral)
    {s0 s1 s2 : List ℕ} (hs0 : FairSchedule [sp.base0.lenOrth, sp.base1.lenSpec, sp.base2.lenSpec] 0 s0) (hs1 : FairSchedule [sp.base0.lenOrth, sp.base1.lenOrth, sp.base2.lenSpec] 1 s1) (hs2 : FairSchedule [sp.base0.lenOrth, sp.base1.lenOrth, sp.base2.lenOrth] 2 s2) :
    sp.toOrthoPar s0 s1 s2 a = ok (mapAx τ2 sp.base2.lenOrth 2 (mapAx τ1 sp.base1.lenOrth 1 (mapAx τ0 sp.base0.lenOrth 0 a))) :=
  sp.toOrthoInplacePar_eq h0 h1 h2 ha (good_zeros _) hs0 hs1 hs2

theorem fromOrthoInplace_eq {φ0 : List T → List T} {φ1 : List T → List T} {φ2 : List T → List T}
    (h0 : Computes sp.base0.fromOrthoSlice sp.base0.lenOrth sp.base0.lenSpec φ0) (h1 : Computes sp.base1.fromOrthoSlice sp.base1.lenOrth sp.base1.lenSpec φ1) (h2 : Computes sp.base2.fromOrthoSlice sp.base2.lenOrth sp.base2.lenSpec φ2)
    {a : Arr T} {out : Arr T} (ha : Good a sp.shapeSpectralOrtho) (ho : Good out sp.shapeSpectral) :
    sp.fromOrthoInplace a out = ok (mapAx φ2 sp.base2.lenSpec 2 (mapAx φ1 sp.base1.lenSpec 1 (mapAx φ0 sp.base0.lenSpec 0 a))) := by
  unfold fromOrthoInplace
  have e0 := alloc_good h0 ha (by decide : 0 < 3) rfl
  have k0 := good_mapAx φ0 sp.base0.lenSpec 0 ha.2.2
  rw [show sp.base0.fromOrtho _ 0 = _ from e0, bind_ok]
  have e1 := alloc_good h1 k0 (by decide : 1 < 3) rfl
  have k1 := good_mapAx φ1 sp.base1.lenSpec 1 k0.2.2
  rw [show sp.base1.fromOrtho _ 1 = _ from e1, bind_ok]
  exact inplace_good h2 k1 ho (by decide : 2 < 3) rfl rfl

theorem fromOrtho_eq {φ0 : List T → List T} {φ1 : List T → List T} {φ2 : List T → List T}
    (h0 : Computes sp.base0.fromOrthoSlice sp.base0.lenOrth sp.base0.lenSpec φ0) (h1 : Computes sp.base1.fromOrthoSlice sp.base1.lenOrth sp.base1.lenSpec φ1) (h2 : Computes sp.base2.fromOrthoSlice sp.base2.lenOrth sp.base2.lenSpec φ2)
    {a : Arr T} (ha : Good a sp.shapeSpectralOrtho) :
    sp.fromOrtho a = ok (mapAx φ2 sp.base2.lenSpec 2 (mapAx φ1 sp.base1.lenSpec 1 (mapAx φ0 sp.base0.lenSpec 0 a))) :=
  sp.fromOrthoInplace_eq h0 h1 h2 ha (good_zeros _)

theorem fromOrthoInplacePar_eq {φ0 : List T → List T} {φ1 : List T → List T} {φ2 : List T → List T}
    (h0 : Computes sp.base0.fromOrthoSlice sp.base0.lenOrth sp.base0.lenSpec φ0) (h1 : Computes sp.base1.fromOrthoSlice sp.base1.lenOrth sp.base1.lenSpec φ1) (h2 : Computes sp.base2.fromOrthoSlice sp.base2.lenOrth sp.base2.lenSpec φ2)
    {a : Arr T} {out : Arr T} (ha : Good a sp.shapeSpectralOrtho) (ho : Good out sp.shapeSpectral)
    {s0 s1 s2 : List ℕ} (hs0 : FairSchedule [sp.base0.lenSpec, sp.base1.lenOrth, sp.base2.lenOrth] 0 s0) (hs1 : FairSchedule [sp.base0.lenSpec, sp.base1.lenSpec, sp.base2.lenOrth] 1 s1) (hs2 : FairSchedule [sp.base0.lenSpec, sp.base1.lenSpec, sp.base2.lenSpec] 2 s2) :
    sp.fromOrthoInplacePar s0 s1 s2 a out = ok (mapAx φ2 sp.base2.lenSpec 2 (mapAx φ1 sp.base1.lenSpec 1 (mapAx φ0 sp.base0.lenSpec 0 a))) := by
  unfold fromOrthoInplacePar
  have e0 := alloc_par_good h0 ha (by decide : 0 < 3) rfl hs0
  have k0 := good_mapAx φ0 sp.base0.lenSpec 0 ha.2.2
  rw [show sp.base0.fromOrthoPar s0 _ 0 = _ from e0, bind_ok]
  have e1 := alloc_par_good h1 k0 (by decide : 1 < 3) rfl hs1
  have k1 := good_mapAx φ1 sp.base1.lenSpec 1 k0.2.2
  rw [show sp.base1.fromOrthoPar s1 _ 1 = _ from e1, bind_ok]
  exact inplace_par_good h2 k1 ho (by decide : 2 < 3) rfl rfl hs2

theorem fromOrthoPar_eq {φ0 : List T → List T} {φ1 : List T → List T} {φ2 : List T → List T}
    (h0 : Computes sp.base0.fromOrthoSlice sp.base0.lenOrth sp.base0.lenSpec φ0) (h1 : Computes sp.base1.fromOrthoSlice sp.base1.lenOrth sp.base1.lenSpec φ1) (h2 : Computes sp.base2.fromOrthoSlice sp.base2.lenOrth sp.base2.lenSpec φ2)
    {a : Arr T} (ha : Good a sp.shapeSpectralOrtho)
    {s0 s1 s2 : List ℕ} (hs0 : FairSchedule [sp.base0.lenSpec, sp.base1.lenOrth, sp.base2.lenOrth] 0 s0) (hs1 : FairSchedule [sp.base0.lenSpec, sp.base1.lenSpec, sp.base2.lenOrth] 1 s1) (hs2 : FairSchedule [sp.base0.lenSpec, sp.base1.lenSpec, sp.base2.lenSpec] 2 s2) :
    sp.fromOrthoPar s0 s1 s2 a = ok (mapAx φ2 sp.base2.lenSpec 2 (mapAx φ1 sp.base1.lenSpec 1 (mapAx φ0 sp.base0.lenSpec 0 a))) :=
  sp.fromOrthoInplacePar_eq h0 h1 h2 ha (good_zeros _) hs0 hs1 hs2

end
end Space3

end Verif
