/-
Properties C36 and C39: round trips of the one-, two- and three-dimensional spaces.
-/
import Verif.Proof.SpaceLaws
import Verif.Proof.SpaceEx

namespace Verif.Props
open Res Spec Finset

theorem rt_good {S T : Type} [Zero S] [Zero T] {g : List S → List T} {g' : List T → List S}
    {n m ax : ℕ} {a : Arr S} {sh : List ℕ} (ha : Good a sh)
    (hg : ∀ x, x.length = n → (g x).length = m) (hid : ∀ x, x.length = n → g' (g x) = x)
    (hax : ax < sh.length) (hn : sh.getD ax 0 = n) : mapAx g' n ax (mapAx g m ax a) = a := by
  obtain ⟨h1, h2, rfl⟩ := ha
  exact mapAx_roundtrip' h1 h2 hax hn hg hid

theorem comm_good {R : Type} [CommRing R] {n m n' m' ax ax' : ℕ} (hne : ax ≠ ax')
    {g h : List R → List R} (hg : IsLinear R n g) (hgl : ∀ y, y.length = n → (g y).length = m)
    (hh : IsLinear R n' h) (hhl : ∀ y, y.length = n' → (h y).length = m') {a : Arr R}
    {sh : List ℕ} (ha : a.shape = sh) (hax : ax < sh.length) (hax' : ax' < sh.length)
    (hn : sh.getD ax 0 = n) (hn' : sh.getD ax' 0 = n') :
    mapAx h m' ax' (mapAx g m ax a) = mapAx g m ax (mapAx h m' ax' a) := by
  subst ha
  exact mapAx_comm hne hg hgl hh hhl hax hax' hn hn'

/-! ### Space1 -/

section
variable {P S T A : Type} [Zero P] [Zero S] [Zero T]
  (sp : Space1 P S T A)

/-- If `forward(backward(v)) = v` for every component base, then so it is for the space: `backward`
runs, and `forward` of its result is the original array, with and without allocation and whatever
the output arrays contained. -/
theorem C36_space1_forward_backward (h0 : FwdBwd sp.base0) {v : Arr S}
    (hv : Good v sp.shapeSpectral) {out : Arr P} (ho : Good out sp.shapePhysical) {out' : Arr S}
    (ho' : Good out' sp.shapeSpectral) :
    ∃ x, sp.backward v = ok x ∧ sp.backwardInplace v out = ok x ∧ Good x sp.shapePhysical ∧
      sp.forward x = ok v ∧ sp.forwardInplace x out' = ok v := by
  obtain ⟨φ0, β0, hφ0, hβ0, r0⟩ := h0
  have k0 := good_mapAx β0 sp.base0.lenPhys 0 hv.2.2
  have core : mapAx φ0 sp.base0.lenSpec 0 (mapAx β0 sp.base0.lenPhys 0 (v)) = v := by
    rw [rt_good hv hβ0.len r0 (by decide : 0 < 1) rfl]
  refine ⟨_, sp.backward_eq hβ0 hv, sp.backwardInplace_eq hβ0 hv ho, k0, ?_, ?_⟩
  · rw [sp.forward_eq hφ0 k0]; exact congrArg ok core
  · rw [sp.forwardInplace_eq hφ0 k0 ho']; exact congrArg ok core

/-- The same with the roles of the two transforms exchanged. -/
theorem C36_space1_backward_forward (h0 : BwdFwd sp.base0) {x : Arr P}
    (hx : Good x sp.shapePhysical) {out : Arr S} (ho : Good out sp.shapeSpectral) {out' : Arr P}
    (ho' : Good out' sp.shapePhysical) :
    ∃ v, sp.forward x = ok v ∧ sp.forwardInplace x out = ok v ∧ Good v sp.shapeSpectral ∧
      sp.backward v = ok x ∧ sp.backwardInplace v out' = ok x := by
  obtain ⟨φ0, β0, hφ0, hβ0, r0⟩ := h0
  have k0 := good_mapAx φ0 sp.base0.lenSpec 0 hx.2.2
  have core : mapAx β0 sp.base0.lenPhys 0 (mapAx φ0 sp.base0.lenSpec 0 (x)) = x := by
    rw [rt_good hx hφ0.len r0 (by decide : 0 < 1) rfl]
  refine ⟨_, sp.forward_eq hφ0 hx, sp.forwardInplace_eq hφ0 hx ho, k0, ?_, ?_⟩
  · rw [sp.backward_eq hβ0 k0]; exact congrArg ok core
  · rw [sp.backwardInplace_eq hβ0 k0 ho']; exact congrArg ok core

end

section
variable {P S T A : Type} [Zero P] [Zero S] [CommRing T]
  (sp : Space1 P S T A)

/-- If `from_ortho(to_ortho(v)) = v` for every component base, then so it is
for the space. -/
theorem C36_space1_from_ortho_to_ortho (h0 : FromTo sp.base0)
    {v : Arr T} (hv : Good v sp.shapeSpectral) {out out' : Arr T}
    (ho : Good out sp.shapeSpectralOrtho) (ho' : Good out' sp.shapeSpectral) :
    ∃ x, sp.toOrtho v = ok x ∧ sp.toOrthoInplace v out = ok x ∧ Good x sp.shapeSpectralOrtho ∧
      sp.fromOrtho x = ok v ∧ sp.fromOrthoInplace x out' = ok v := by
  obtain ⟨φ0, τ0, hφ0, hτ0, r0⟩ := h0
  have k0 := good_mapAx τ0 sp.base0.lenOrth 0 hv.2.2
  have core : mapAx φ0 sp.base0.lenSpec 0 (mapAx τ0 sp.base0.lenOrth 0 (v)) = v := by
    rw [rt_good hv hτ0.len r0 (by decide : 0 < 1) rfl]
  refine ⟨_, sp.toOrtho_eq hτ0 hv, sp.toOrthoInplace_eq hτ0 hv ho, k0, ?_, ?_⟩
  · rw [sp.fromOrtho_eq hφ0 k0]; exact congrArg ok core
  · rw [sp.fromOrthoInplace_eq hφ0 k0 ho']; exact congrArg ok core

end

/-! ### Space2 -/

section
variable {P I S T A : Type} [Zero P] [Zero I] [Zero S] [Zero T]
  (sp : Space2 P I S T A)

/-- If `forward(backward(v)) = v` for every component base, then so it is for the space: `backward`
runs, and `forward` of its result is the original array, with and without allocation and whatever
the output arrays contained. -/
theorem C36_forward_backward (h0 : FwdBwd sp.base0) (h1 : FwdBwd sp.base1) {v : Arr S}
    (hv : Good v sp.shapeSpectral) {out : Arr P} (ho : Good out sp.shapePhysical) {out' : Arr S}
    (ho' : Good out' sp.shapeSpectral) :
    ∃ x, sp.backward v = ok x ∧ sp.backwardInplace v out = ok x ∧ Good x sp.shapePhysical ∧
      sp.forward x = ok v ∧ sp.forwardInplace x out' = ok v := by
  obtain ⟨φ0, β0, hφ0, hβ0, r0⟩ := h0
  obtain ⟨φ1, β1, hφ1, hβ1, r1⟩ := h1
  have k0 := good_mapAx β0 sp.base0.lenPhys 0 hv.2.2
  have k1 := good_mapAx β1 sp.base1.lenPhys 1 k0.2.2
  have core : mapAx φ0 sp.base0.lenSpec 0 (mapAx φ1 sp.base1.lenSpec 1 (mapAx β1 sp.base1.lenPhys 1 (mapAx β0 sp.base0.lenPhys 0 (v)))) = v := by
    rw [rt_good k0 hβ1.len r1 (by decide : 1 < 2) rfl, rt_good hv hβ0.len r0 (by decide : 0 < 2) rfl]
  refine ⟨_, sp.backward_eq hβ0 hβ1 hv, sp.backwardInplace_eq hβ0 hβ1 hv ho, k1, ?_, ?_⟩
  · rw [sp.forward_eq hφ0 hφ1 k1]; exact congrArg ok core
  · rw [sp.forwardInplace_eq hφ0 hφ1 k1 ho']; exact congrArg ok core

/-- The same with the roles of the two transforms exchanged. -/
theorem C36_backward_forward (h0 : BwdFwd sp.base0) (h1 : BwdFwd sp.base1) {x : Arr P}
    (hx : Good x sp.shapePhysical) {out : Arr S} (ho : Good out sp.shapeSpectral) {out' : Arr P}
    (ho' : Good out' sp.shapePhysical) :
    ∃ v, sp.forward x = ok v ∧ sp.forwardInplace x out = ok v ∧ Good v sp.shapeSpectral ∧
      sp.backward v = ok x ∧ sp.backwardInplace v out' = ok x := by
  obtain ⟨φ0, β0, hφ0, hβ0, r0⟩ := h0
  obtain ⟨φ1, β1, hφ1, hβ1, r1⟩ := h1
  have k1 := good_mapAx φ1 sp.base1.lenSpec 1 hx.2.2
  have k0 := good_mapAx φ0 sp.base0.lenSpec 0 k1.2.2
  have core : mapAx β1 sp.base1.lenPhys 1 (mapAx β0 sp.base0.lenPhys 0 (mapAx φ0 sp.base0.lenSpec 0 (mapAx φ1 sp.base1.lenSpec 1 (x)))) = x := by
    rw [rt_good k1 hφ0.len r0 (by decide : 0 < 2) rfl, rt_good hx hφ1.len r1 (by decide : 1 < 2) rfl]
  refine ⟨_, sp.forward_eq hφ0 hφ1 hx, sp.forwardInplace_eq hφ0 hφ1 hx ho, k0, ?_, ?_⟩
  · rw [sp.backward_eq hβ0 hβ1 k0]; exact congrArg ok core
  · rw [sp.backwardInplace_eq hβ0 hβ1 k0 ho']; exact congrArg ok core

/-- The first 1 of the 2 bases satisfy `backward(forward(x)) = x` and the others
`forward(backward(v)) = v`: a second pass through `backward` and `forward` changes nothing. -/
theorem C36_forward_backward_forward (h0 : BwdFwd sp.base0) (h1 : FwdBwd sp.base1)
    {x : Arr P} (hx : Good x sp.shapePhysical) :
    ∃ v y, sp.forward x = ok v ∧ Good v sp.shapeSpectral ∧ sp.backward v = ok y ∧
      Good y sp.shapePhysical ∧ sp.forward y = ok v := by
  obtain ⟨φ0, β0, hφ0, hβ0, r0⟩ := h0
  obtain ⟨φ1, β1, hφ1, hβ1, r1⟩ := h1
  have k1 := good_mapAx φ1 sp.base1.lenSpec 1 hx.2.2
  have k0 := good_mapAx φ0 sp.base0.lenSpec 0 k1.2.2
  have l0 := good_mapAx β0 sp.base0.lenPhys 0 k0.2.2
  have l1 := good_mapAx β1 sp.base1.lenPhys 1 l0.2.2
  have e1 : mapAx β0 sp.base0.lenPhys 0 (mapAx φ0 sp.base0.lenSpec 0 (mapAx φ1 sp.base1.lenSpec 1 (x))) = mapAx φ1 sp.base1.lenSpec 1 (x) := by
    rw [rt_good k1 hφ0.len r0 (by decide : 0 < 2) rfl]
  have m1 := k1
  have m2' := good_mapAx β1 sp.base1.lenPhys 1 m1.2.2
  have e2 : mapAx φ1 sp.base1.lenSpec 1 (mapAx β1 sp.base1.lenPhys 1 ((mapAx φ1 sp.base1.lenSpec 1 (x)))) = mapAx φ1 sp.base1.lenSpec 1 (x) := by
    rw [rt_good m1 hβ1.len r1 (by decide : 1 < 2) rfl]
  refine ⟨_, _, sp.forward_eq hφ0 hφ1 hx, k0, sp.backward_eq hβ0 hβ1 k0, l1, ?_⟩
  rw [sp.forward_eq hφ0 hφ1 l1, e1, e2]

end

section
variable {P I S T A : Type} [Zero P] [Zero I] [Zero S] [CommRing T]
  (sp : Space2 P I S T A)

/-- If `from_ortho(to_ortho(v)) = v` for every component base (and the operators are linear), then so it is
for the space. -/
theorem C36_from_ortho_to_ortho (h0 : FromTo sp.base0) (h1 : FromTo sp.base1)
    (t0 : LinOp T sp.base0.toOrthoSlice sp.base0.lenSpec sp.base0.lenOrth)
    (f0 : LinOp T sp.base0.fromOrthoSlice sp.base0.lenOrth sp.base0.lenSpec)
    (t1 : LinOp T sp.base1.toOrthoSlice sp.base1.lenSpec sp.base1.lenOrth)
    (f1 : LinOp T sp.base1.fromOrthoSlice sp.base1.lenOrth sp.base1.lenSpec)
    {v : Arr T} (hv : Good v sp.shapeSpectral) {out out' : Arr T}
    (ho : Good out sp.shapeSpectralOrtho) (ho' : Good out' sp.shapeSpectral) :
    ∃ x, sp.toOrtho v = ok x ∧ sp.toOrthoInplace v out = ok x ∧ Good x sp.shapeSpectralOrtho ∧
      sp.fromOrtho x = ok v ∧ sp.fromOrthoInplace x out' = ok v := by
  obtain ⟨φ0, τ0, hφ0, hτ0, r0⟩ := h0
  obtain ⟨φ1, τ1, hφ1, hτ1, r1⟩ := h1
  have p0 := isLinear_of_computes hφ0 f0
  have q0 := isLinear_of_computes hτ0 t0
  have p1 := isLinear_of_computes hφ1 f1
  have q1 := isLinear_of_computes hτ1 t1
  have k0 := good_mapAx τ0 sp.base0.lenOrth 0 hv.2.2
  have k1 := good_mapAx τ1 sp.base1.lenOrth 1 k0.2.2
  have core : mapAx φ1 sp.base1.lenSpec 1 (mapAx φ0 sp.base0.lenSpec 0 (mapAx τ1 sp.base1.lenOrth 1 (mapAx τ0 sp.base0.lenOrth 0 (v)))) = v := by
    rw [comm_good (by decide : 1 ≠ 0) q1 hτ1.len p0 hφ0.len k0.2.2 (by decide : 1 < 2) (by decide : 0 < 2) rfl rfl,
      rt_good hv hτ0.len r0 (by decide : 0 < 2) rfl,
      rt_good hv hτ1.len r1 (by decide : 1 < 2) rfl]
  refine ⟨_, sp.toOrtho_eq hτ0 hτ1 hv, sp.toOrthoInplace_eq hτ0 hτ1 hv ho, k1, ?_, ?_⟩
  · rw [sp.fromOrtho_eq hφ0 hφ1 k1]; exact congrArg ok core
  · rw [sp.fromOrthoInplace_eq hφ0 hφ1 k1 ho']; exact congrArg ok core

end

/-! ### Space3 -/

section
variable {P I J S T A : Type} [Zero P] [Zero I] [Zero J] [Zero S] [Zero T]
  (sp : Space3 P I J S T A)

/-- If `forward(backward(v)) = v` for every component base, then so it is for the space: `backward`
runs, and `forward` of its result is the original array, with and without allocation and whatever
the output arrays contained. -/
theorem C39_forward_backward (h0 : FwdBwd sp.base0) (h1 : FwdBwd sp.base1) (h2 : FwdBwd sp.base2) {v : Arr S}
    (hv : Good v sp.shapeSpectral) {out : Arr P} (ho : Good out sp.shapePhysical) {out' : Arr S}
    (ho' : Good out' sp.shapeSpectral) :
    ∃ x, sp.backward v = ok x ∧ sp.backwardInplace v out = ok x ∧ Good x sp.shapePhysical ∧
      sp.forward x = ok v ∧ sp.forwardInplace x out' = ok v := by
  obtain ⟨φ0, β0, hφ0, hβ0, r0⟩ := h0
  obtain ⟨φ1, β1, hφ1, hβ1, r1⟩ := h1
  obtain ⟨φ2, β2, hφ2, hβ2, r2⟩ := h2
  have k0 := good_mapAx β0 sp.base0.lenPhys 0 hv.2.2
  have k1 := good_mapAx β1 sp.base1.lenPhys 1 k0.2.2
  have k2 := good_mapAx β2 sp.base2.lenPhys 2 k1.2.2
  have core : mapAx φ0 sp.base0.lenSpec 0 (mapAx φ1 sp.base1.lenSpec 1 (mapAx φ2 sp.base2.lenSpec 2 (mapAx β2 sp.base2.lenPhys 2 (mapAx β1 sp.base1.lenPhys 1 (mapAx β0 sp.base0.lenPhys 0 (v)))))) = v := by
    rw [rt_good k1 hβ2.len r2 (by decide : 2 < 3) rfl, rt_good k0 hβ1.len r1 (by decide : 1 < 3) rfl, rt_good hv hβ0.len r0 (by decide : 0 < 3) rfl]
  refine ⟨_, sp.backward_eq hβ0 hβ1 hβ2 hv, sp.backwardInplace_eq hβ0 hβ1 hβ2 hv ho, k2, ?_, ?_⟩
  · rw [sp.forward_eq hφ0 hφ1 hφ2 k2]; exact congrArg ok core
  · rw [sp.forwardInplace_eq hφ0 hφ1 hφ2 k2 ho']; exact congrArg ok core

/-- The same with the roles of the two transforms exchanged. -/
theorem C39_backward_forward (h0 : BwdFwd sp.base0) (h1 : BwdFwd sp.base1) (h2 : BwdFwd sp.base2) {x : Arr P}
    (hx : Good x sp.shapePhysical) {out : Arr S} (ho : Good out sp.shapeSpectral) {out' : Arr P}
    (ho' : Good out' sp.shapePhysical) :
    ∃ v, sp.forward x = ok v ∧ sp.forwardInplace x out = ok v ∧ Good v sp.shapeSpectral ∧
      sp.backward v = ok x ∧ sp.backwardInplace v out' = ok x := by
  obtain ⟨φ0, β0, hφ0, hβ0, r0⟩ := h0
  obtain ⟨φ1, β1, hφ1, hβ1, r1⟩ := h1
  obtain ⟨φ2, β2, hφ2, hβ2, r2⟩ := h2
  have k2 := good_mapAx φ2 sp.base2.lenSpec 2 hx.2.2
  have k1 := good_mapAx φ1 sp.base1.lenSpec 1 k2.2.2
  have k0 := good_mapAx φ0 sp.base0.lenSpec 0 k1.2.2
  have core : mapAx β2 sp.base2.lenPhys 2 (mapAx β1 sp.base1.lenPhys 1 (mapAx β0 sp.base0.lenPhys 0 (mapAx φ0 sp.base0.lenSpec 0 (mapAx φ1 sp.base1.lenSpec 1 (mapAx φ2 sp.base2.lenSpec 2 (x)))))) = x := by
    rw [rt_good k1 hφ0.len r0 (by decide : 0 < 3) rfl, rt_good k2 hφ1.len r1 (by decide : 1 < 3) rfl, rt_good hx hφ2.len r2 (by decide : 2 < 3) rfl]
  refine ⟨_, sp.forward_eq hφ0 hφ1 hφ2 hx, sp.forwardInplace_eq hφ0 hφ1 hφ2 hx ho, k0, ?_, ?_⟩
  · rw [sp.backward_eq hβ0 hβ1 hβ2 k0]; exact congrArg ok core
  · rw [sp.backwardInplace_eq hβ0 hβ1 hβ2 k0 ho']; exact congrArg ok core

/-- The first 1 of the 3 bases satisfy `backward(forward(x)) = x` and the others
`forward(backward(v)) = v`: a second pass through `backward` and `forward` changes nothing. -/
theorem C39_forward_backward_forward_one (h0 : BwdFwd sp.base0) (h1 : FwdBwd sp.base1) (h2 : FwdBwd sp.base2)
    {x : Arr P} (hx : Good x sp.shapePhysical) :
    ∃ v y, sp.forward x = ok v ∧ Good v sp.shapeSpectral ∧ sp.backward v = ok y ∧
      Good y sp.shapePhysical ∧ sp.forward y = ok v := by
  obtain ⟨φ0, β0, hφ0, hβ0, r0⟩ := h0
  obtain ⟨φ1, β1, hφ1, hβ1, r1⟩ := h1
  obtain ⟨φ2, β2, hφ2, hβ2, r2⟩ := h2
  have k2 := good_mapAx φ2 sp.base2.lenSpec 2 hx.2.2
  have k1 := good_mapAx φ1 sp.base1.lenSpec 1 k2.2.2
  have k0 := good_mapAx φ0 sp.base0.lenSpec 0 k1.2.2
  have l0 := good_mapAx β0 sp.base0.lenPhys 0 k0.2.2
  have l1 := good_mapAx β1 sp.base1.lenPhys 1 l0.2.2
  have l2 := good_mapAx β2 sp.base2.lenPhys 2 l1.2.2
  have e1 : mapAx β0 sp.base0.lenPhys 0 (mapAx φ0 sp.base0.lenSpec 0 (mapAx φ1 sp.base1.lenSpec 1 (mapAx φ2 sp.base2.lenSpec 2 (x)))) = mapAx φ1 sp.base1.lenSpec 1 (mapAx φ2 sp.base2.lenSpec 2 (x)) := by
    rw [rt_good k1 hφ0.len r0 (by decide : 0 < 3) rfl]
  have m1 := k1
  have m2' := good_mapAx β1 sp.base1.lenPhys 1 m1.2.2
  have m3' := good_mapAx β2 sp.base2.lenPhys 2 m2'.2.2
  have e2 : mapAx φ1 sp.base1.lenSpec 1 (mapAx φ2 sp.base2.lenSpec 2 (mapAx β2 sp.base2.lenPhys 2 (mapAx β1 sp.base1.lenPhys 1 ((mapAx φ1 sp.base1.lenSpec 1 (mapAx φ2 sp.base2.lenSpec 2 (x))))))) = mapAx φ1 sp.base1.lenSpec 1 (mapAx φ2 sp.base2.lenSpec 2 (x)) := by
    rw [rt_good m2' hβ2.len r2 (by decide : 2 < 3) rfl, rt_good m1 hβ1.len r1 (by decide : 1 < 3) rfl]
  refine ⟨_, _, sp.forward_eq hφ0 hφ1 hφ2 hx, k0, sp.backward_eq hβ0 hβ1 hβ2 k0, l2, ?_⟩
  rw [sp.forward_eq hφ0 hφ1 hφ2 l2, e1, e2]

/-- The first 2 of the 3 bases satisfy `backward(forward(x)) = x` and the others
`forward(backward(v)) = v`: a second pass through `backward` and `forward` changes nothing. -/
theorem C39_forward_backward_forward_two (h0 : BwdFwd sp.base0) (h1 : BwdFwd sp.base1) (h2 : FwdBwd sp.base2)
    {x : Arr P} (hx : Good x sp.shapePhysical) :
    ∃ v y, sp.forward x = ok v ∧ Good v sp.shapeSpectral ∧ sp.backward v = ok y ∧
      Good y sp.shapePhysical ∧ sp.forward y = ok v := by
  obtain ⟨φ0, β0, hφ0, hβ0, r0⟩ := h0
  obtain ⟨φ1, β1, hφ1, hβ1, r1⟩ := h1
  obtain ⟨φ2, β2, hφ2, hβ2, r2⟩ := h2
  have k2 := good_mapAx φ2 sp.base2.lenSpec 2 hx.2.2
  have k1 := good_mapAx φ1 sp.base1.lenSpec 1 k2.2.2
  have k0 := good_mapAx φ0 sp.base0.lenSpec 0 k1.2.2
  have l0 := good_mapAx β0 sp.base0.lenPhys 0 k0.2.2
  have l1 := good_mapAx β1 sp.base1.lenPhys 1 l0.2.2
  have l2 := good_mapAx β2 sp.base2.lenPhys 2 l1.2.2
  have e1 : mapAx β1 sp.base1.lenPhys 1 (mapAx β0 sp.base0.lenPhys 0 (mapAx φ0 sp.base0.lenSpec 0 (mapAx φ1 sp.base1.lenSpec 1 (mapAx φ2 sp.base2.lenSpec 2 (x))))) = mapAx φ2 sp.base2.lenSpec 2 (x) := by
    rw [rt_good k1 hφ0.len r0 (by decide : 0 < 3) rfl, rt_good k2 hφ1.len r1 (by decide : 1 < 3) rfl]
  have m2 := k2
  have m3' := good_mapAx β2 sp.base2.lenPhys 2 m2.2.2
  have e2 : mapAx φ2 sp.base2.lenSpec 2 (mapAx β2 sp.base2.lenPhys 2 ((mapAx φ2 sp.base2.lenSpec 2 (x)))) = mapAx φ2 sp.base2.lenSpec 2 (x) := by
    rw [rt_good m2 hβ2.len r2 (by decide : 2 < 3) rfl]
  refine ⟨_, _, sp.forward_eq hφ0 hφ1 hφ2 hx, k0, sp.backward_eq hβ0 hβ1 hβ2 k0, l2, ?_⟩
  rw [sp.forward_eq hφ0 hφ1 hφ2 l2, e1, e2]

end

section
variable {P I J S T A : Type} [Zero P] [Zero I] [Zero J] [Zero S] [CommRing T]
  (sp : Space3 P I J S T A)

/-- If `from_ortho(to_ortho(v)) = v` for every component base (and the operators are linear), then so it is
for the space. -/
theorem C39_from_ortho_to_ortho (h0 : FromTo sp.base0) (h1 : FromTo sp.base1) (h2 : FromTo sp.base2)
    (t0 : LinOp T sp.base0.toOrthoSlice sp.base0.lenSpec sp.base0.lenOrth)
    (f0 : LinOp T sp.base0.fromOrthoSlice sp.base0.lenOrth sp.base0.lenSpec)
    (t1 : LinOp T sp.base1.toOrthoSlice sp.base1.lenSpec sp.base1.lenOrth)
    (f1 : LinOp T sp.base1.fromOrthoSlice sp.base1.lenOrth sp.base1.lenSpec)
    (t2 : LinOp T sp.base2.toOrthoSlice sp.base2.lenSpec sp.base2.lenOrth)
    (f2 : LinOp T sp.base2.fromOrthoSlice sp.base2.lenOrth sp.base2.lenSpec)
    {v : Arr T} (hv : Good v sp.shapeSpectral) {out out' : Arr T}
    (ho : Good out sp.shapeSpectralOrtho) (ho' : Good out' sp.shapeSpectral) :
    ∃ x, sp.toOrtho v = ok x ∧ sp.toOrthoInplace v out = ok x ∧ Good x sp.shapeSpectralOrtho ∧
      sp.fromOrtho x = ok v ∧ sp.fromOrthoInplace x out' = ok v := by
  obtain ⟨φ0, τ0, hφ0, hτ0, r0⟩ := h0
  obtain ⟨φ1, τ1, hφ1, hτ1, r1⟩ := h1
  obtain ⟨φ2, τ2, hφ2, hτ2, r2⟩ := h2
  have p0 := isLinear_of_computes hφ0 f0
  have q0 := isLinear_of_computes hτ0 t0
  have p1 := isLinear_of_computes hφ1 f1
  have q1 := isLinear_of_computes hτ1 t1
  have p2 := isLinear_of_computes hφ2 f2
  have q2 := isLinear_of_computes hτ2 t2
  have k0 := good_mapAx τ0 sp.base0.lenOrth 0 hv.2.2
  have k1 := good_mapAx τ1 sp.base1.lenOrth 1 k0.2.2
  have k2 := good_mapAx τ2 sp.base2.lenOrth 2 k1.2.2
  have core : mapAx φ2 sp.base2.lenSpec 2 (mapAx φ1 sp.base1.lenSpec 1 (mapAx φ0 sp.base0.lenSpec 0 (mapAx τ2 sp.base2.lenOrth 2 (mapAx τ1 sp.base1.lenOrth 1 (mapAx τ0 sp.base0.lenOrth 0 (v)))))) = v := by
    rw [comm_good (by decide : 2 ≠ 0) q2 hτ2.len p0 hφ0.len k1.2.2 (by decide : 2 < 3) (by decide : 0 < 3) rfl rfl,
      comm_good (by decide : 1 ≠ 0) q1 hτ1.len p0 hφ0.len k0.2.2 (by decide : 1 < 3) (by decide : 0 < 3) rfl rfl,
      rt_good hv hτ0.len r0 (by decide : 0 < 3) rfl,
      comm_good (by decide : 2 ≠ 1) q2 hτ2.len p1 hφ1.len (good_mapAx τ1 sp.base1.lenOrth 1 hv.2.2).2.2 (by decide : 2 < 3) (by decide : 1 < 3) rfl rfl,
      rt_good hv hτ1.len r1 (by decide : 1 < 3) rfl,
      rt_good hv hτ2.len r2 (by decide : 2 < 3) rfl]
  refine ⟨_, sp.toOrtho_eq hτ0 hτ1 hτ2 hv, sp.toOrthoInplace_eq hτ0 hτ1 hτ2 hv ho, k2, ?_, ?_⟩
  · rw [sp.fromOrtho_eq hφ0 hφ1 hφ2 k2]; exact congrArg ok core
  · rw [sp.fromOrthoInplace_eq hφ0 hφ1 hφ2 k2 ho']; exact congrArg ok core

end

/-! ### the spaces of the library -/

/-- `from_ortho(to_ortho(v)) = v` for BaseR2r. -/
theorem C36_space1_ortho_r2r {T : Type} [CommRing T] [Module ℝ T] [SMulCommClass ℝ T T]
    (sp : Space1 ℝ ℝ T)
    (h0 : IsR2r sp.base0) {v out out' : Arr T}
    (hv : Good v sp.shapeSpectral) (ho : Good out sp.shapeSpectralOrtho)
    (ho' : Good out' sp.shapeSpectral) :
    ∃ x, sp.toOrtho v = ok x ∧ sp.toOrthoInplace v out = ok x ∧ Good x sp.shapeSpectralOrtho ∧
      sp.fromOrtho x = ok v ∧ sp.fromOrthoInplace x out' = ok v :=
  C36_space1_from_ortho_to_ortho sp h0.fromTo hv ho ho'

/-- `forward(backward(v)) = v` for BaseR2r. -/
theorem C36_space1_forward_backward_r2r {T : Type} [CommRing T] [Module ℝ T] [SMulCommClass ℝ T T]
    (sp : Space1 ℝ ℝ T)
    (h0 : IsR2r sp.base0) {v out' : Arr ℝ} {out : Arr ℝ}
    (hv : Good v sp.shapeSpectral) (ho : Good out sp.shapePhysical)
    (ho' : Good out' sp.shapeSpectral) :
    ∃ x, sp.backward v = ok x ∧ sp.backwardInplace v out = ok x ∧ Good x sp.shapePhysical ∧
      sp.forward x = ok v ∧ sp.forwardInplace x out' = ok v :=
  C36_space1_forward_backward sp h0.fwdBwd hv ho ho'

/-- `backward(forward(x)) = x` for BaseR2r (Chebyshev). -/
theorem C36_space1_backward_forward_cheb {T : Type} [CommRing T] [Module ℝ T] [SMulCommClass ℝ T T]
    (n0 : ℕ) (sp : Space1 ℝ ℝ T)
    (h0 : IsCheb n0 sp.base0) {x out' : Arr ℝ} {out : Arr ℝ}
    (hx : Good x sp.shapePhysical) (ho : Good out sp.shapeSpectral)
    (ho' : Good out' sp.shapePhysical) :
    ∃ v, sp.forward x = ok v ∧ sp.forwardInplace x out = ok v ∧ Good v sp.shapeSpectral ∧
      sp.backward v = ok x ∧ sp.backwardInplace v out' = ok x :=
  C36_space1_backward_forward sp h0.bwdFwd hx ho ho'

/-- `from_ortho(to_ortho(v)) = v` for BaseR2c. -/
theorem C36_space1_ortho_r2c (n0 : ℕ) (sp : Space1 ℝ ℂ ℂ)
    (h0 : IsR2c n0 sp.base0) {v out out' : Arr ℂ}
    (hv : Good v sp.shapeSpectral) (ho : Good out sp.shapeSpectralOrtho)
    (ho' : Good out' sp.shapeSpectral) :
    ∃ x, sp.toOrtho v = ok x ∧ sp.toOrthoInplace v out = ok x ∧ Good x sp.shapeSpectralOrtho ∧
      sp.fromOrtho x = ok v ∧ sp.fromOrthoInplace x out' = ok v :=
  C36_space1_from_ortho_to_ortho sp h0.fromTo hv ho ho'

/-- `backward(forward(x)) = x` for BaseR2c. -/
theorem C36_space1_backward_forward_r2c (n0 : ℕ) (sp : Space1 ℝ ℂ ℂ)
    (h0 : IsR2c n0 sp.base0) {x out' : Arr ℝ} {out : Arr ℂ}
    (hx : Good x sp.shapePhysical) (ho : Good out sp.shapeSpectral)
    (ho' : Good out' sp.shapePhysical) :
    ∃ v, sp.forward x = ok v ∧ sp.forwardInplace x out = ok v ∧ Good v sp.shapeSpectral ∧
      sp.backward v = ok x ∧ sp.backwardInplace v out' = ok x :=
  C36_space1_backward_forward sp h0.bwdFwd hx ho ho'

/-- `from_ortho(to_ortho(v)) = v` for BaseC2c. -/
theorem C36_space1_ortho_c2c (n0 : ℕ) (sp : Space1 ℂ ℂ ℂ)
    (h0 : IsC2c n0 sp.base0) {v out out' : Arr ℂ}
    (hv : Good v sp.shapeSpectral) (ho : Good out sp.shapeSpectralOrtho)
    (ho' : Good out' sp.shapeSpectral) :
    ∃ x, sp.toOrtho v = ok x ∧ sp.toOrthoInplace v out = ok x ∧ Good x sp.shapeSpectralOrtho ∧
      sp.fromOrtho x = ok v ∧ sp.fromOrthoInplace x out' = ok v :=
  C36_space1_from_ortho_to_ortho sp h0.fromTo hv ho ho'

/-- `forward(backward(v)) = v` for BaseC2c. -/
theorem C36_space1_forward_backward_c2c (n0 : ℕ) (sp : Space1 ℂ ℂ ℂ)
    (h0 : IsC2c n0 sp.base0) {v out' : Arr ℂ} {out : Arr ℂ}
    (hv : Good v sp.shapeSpectral) (ho : Good out sp.shapePhysical)
    (ho' : Good out' sp.shapeSpectral) :
    ∃ x, sp.backward v = ok x ∧ sp.backwardInplace v out = ok x ∧ Good x sp.shapePhysical ∧
      sp.forward x = ok v ∧ sp.forwardInplace x out' = ok v :=
  C36_space1_forward_backward sp h0.fwdBwd hv ho ho'

/-- `backward(forward(x)) = x` for BaseC2c. -/
theorem C36_space1_backward_forward_c2c (n0 : ℕ) (sp : Space1 ℂ ℂ ℂ)
    (h0 : IsC2c n0 sp.base0) {x out' : Arr ℂ} {out : Arr ℂ}
    (hx : Good x sp.shapePhysical) (ho : Good out sp.shapeSpectral)
    (ho' : Good out' sp.shapePhysical) :
    ∃ v, sp.forward x = ok v ∧ sp.forwardInplace x out = ok v ∧ Good v sp.shapeSpectral ∧
      sp.backward v = ok x ∧ sp.backwardInplace v out' = ok x :=
  C36_space1_backward_forward sp h0.bwdFwd hx ho ho'

/-- `from_ortho(to_ortho(v)) = v` for BaseR2r×BaseR2r. -/
theorem C36_ortho_r2r_r2r {T : Type} [CommRing T] [Module ℝ T] [SMulCommClass ℝ T T]
    (sp : Space2 ℝ ℝ ℝ T)
    (h0 : IsR2r sp.base0) (h1 : IsR2r sp.base1) {v out out' : Arr T}
    (hv : Good v sp.shapeSpectral) (ho : Good out sp.shapeSpectralOrtho)
    (ho' : Good out' sp.shapeSpectral) :
    ∃ x, sp.toOrtho v = ok x ∧ sp.toOrthoInplace v out = ok x ∧ Good x sp.shapeSpectralOrtho ∧
      sp.fromOrtho x = ok v ∧ sp.fromOrthoInplace x out' = ok v :=
  C36_from_ortho_to_ortho sp h0.fromTo h1.fromTo h0.toLin h0.fromLin h1.toLin h1.fromLin hv ho ho'

/-- `forward(backward(v)) = v` for BaseR2r×BaseR2r. -/
theorem C36_forward_backward_r2r_r2r {T : Type} [CommRing T] [Module ℝ T] [SMulCommClass ℝ T T]
    (sp : Space2 ℝ ℝ ℝ T)
    (h0 : IsR2r sp.base0) (h1 : IsR2r sp.base1) {v out' : Arr ℝ} {out : Arr ℝ}
    (hv : Good v sp.shapeSpectral) (ho : Good out sp.shapePhysical)
    (ho' : Good out' sp.shapeSpectral) :
    ∃ x, sp.backward v = ok x ∧ sp.backwardInplace v out = ok x ∧ Good x sp.shapePhysical ∧
      sp.forward x = ok v ∧ sp.forwardInplace x out' = ok v :=
  C36_forward_backward sp h0.fwdBwd h1.fwdBwd hv ho ho'

/-- `backward(forward(x)) = x` for BaseR2r (Chebyshev)×BaseR2r (Chebyshev). -/
theorem C36_backward_forward_cheb_cheb {T : Type} [CommRing T] [Module ℝ T] [SMulCommClass ℝ T T]
    (n0 n1 : ℕ) (sp : Space2 ℝ ℝ ℝ T)
    (h0 : IsCheb n0 sp.base0) (h1 : IsCheb n1 sp.base1) {x out' : Arr ℝ} {out : Arr ℝ}
    (hx : Good x sp.shapePhysical) (ho : Good out sp.shapeSpectral)
    (ho' : Good out' sp.shapePhysical) :
    ∃ v, sp.forward x = ok v ∧ sp.forwardInplace x out = ok v ∧ Good v sp.shapeSpectral ∧
      sp.backward v = ok x ∧ sp.backwardInplace v out' = ok x :=
  C36_backward_forward sp h0.bwdFwd h1.bwdFwd hx ho ho'

/-- `from_ortho(to_ortho(v)) = v` for BaseR2c×BaseR2r. -/
theorem C36_ortho_r2c_r2r (n0 : ℕ) (sp : Space2 ℝ ℝ ℂ ℂ)
    (h0 : IsR2c n0 sp.base0) (h1 : IsR2r sp.base1) {v out out' : Arr ℂ}
    (hv : Good v sp.shapeSpectral) (ho : Good out sp.shapeSpectralOrtho)
    (ho' : Good out' sp.shapeSpectral) :
    ∃ x, sp.toOrtho v = ok x ∧ sp.toOrthoInplace v out = ok x ∧ Good x sp.shapeSpectralOrtho ∧
      sp.fromOrtho x = ok v ∧ sp.fromOrthoInplace x out' = ok v :=
  C36_from_ortho_to_ortho sp h0.fromTo h1.fromTo h0.toLin h0.fromLin h1.toLin h1.fromLin hv ho ho'

/-- `forward ∘ backward ∘ forward = forward` for BaseR2c×BaseR2r. -/
theorem C36_forward_backward_forward_r2c_r2r (n0 : ℕ) (sp : Space2 ℝ ℝ ℂ ℂ)
    (h0 : IsR2c n0 sp.base0) (h1 : IsR2r sp.base1) {x : Arr ℝ} (hx : Good x sp.shapePhysical) :
    ∃ v y, sp.forward x = ok v ∧ Good v sp.shapeSpectral ∧ sp.backward v = ok y ∧
      Good y sp.shapePhysical ∧ sp.forward y = ok v :=
  C36_forward_backward_forward sp h0.bwdFwd h1.fwdBwd hx

/-- `backward(forward(x)) = x` for BaseR2c×BaseR2r (Chebyshev). -/
theorem C36_backward_forward_r2c_cheb (n0 n1 : ℕ) (sp : Space2 ℝ ℝ ℂ ℂ)
    (h0 : IsR2c n0 sp.base0) (h1 : IsCheb n1 sp.base1) {x out' : Arr ℝ} {out : Arr ℂ}
    (hx : Good x sp.shapePhysical) (ho : Good out sp.shapeSpectral)
    (ho' : Good out' sp.shapePhysical) :
    ∃ v, sp.forward x = ok v ∧ sp.forwardInplace x out = ok v ∧ Good v sp.shapeSpectral ∧
      sp.backward v = ok x ∧ sp.backwardInplace v out' = ok x :=
  C36_backward_forward sp h0.bwdFwd h1.bwdFwd hx ho ho'

/-- `from_ortho(to_ortho(v)) = v` for BaseC2c×BaseR2c. -/
theorem C36_ortho_c2c_r2c (n0 n1 : ℕ) (sp : Space2 ℝ ℂ ℂ ℂ)
    (h0 : IsC2c n0 sp.base0) (h1 : IsR2c n1 sp.base1) {v out out' : Arr ℂ}
    (hv : Good v sp.shapeSpectral) (ho : Good out sp.shapeSpectralOrtho)
    (ho' : Good out' sp.shapeSpectral) :
    ∃ x, sp.toOrtho v = ok x ∧ sp.toOrthoInplace v out = ok x ∧ Good x sp.shapeSpectralOrtho ∧
      sp.fromOrtho x = ok v ∧ sp.fromOrthoInplace x out' = ok v :=
  C36_from_ortho_to_ortho sp h0.fromTo h1.fromTo h0.toLin h0.fromLin h1.toLin h1.fromLin hv ho ho'

/-- `backward(forward(x)) = x` for BaseC2c×BaseR2c. -/
theorem C36_backward_forward_c2c_r2c (n0 n1 : ℕ) (sp : Space2 ℝ ℂ ℂ ℂ)
    (h0 : IsC2c n0 sp.base0) (h1 : IsR2c n1 sp.base1) {x out' : Arr ℝ} {out : Arr ℂ}
    (hx : Good x sp.shapePhysical) (ho : Good out sp.shapeSpectral)
    (ho' : Good out' sp.shapePhysical) :
    ∃ v, sp.forward x = ok v ∧ sp.forwardInplace x out = ok v ∧ Good v sp.shapeSpectral ∧
      sp.backward v = ok x ∧ sp.backwardInplace v out' = ok x :=
  C36_backward_forward sp h0.bwdFwd h1.bwdFwd hx ho ho'

/-- `from_ortho(to_ortho(v)) = v` for BaseC2c×BaseC2c. -/
theorem C36_ortho_c2c_c2c (n0 n1 : ℕ) (sp : Space2 ℂ ℂ ℂ ℂ)
    (h0 : IsC2c n0 sp.base0) (h1 : IsC2c n1 sp.base1) {v out out' : Arr ℂ}
    (hv : Good v sp.shapeSpectral) (ho : Good out sp.shapeSpectralOrtho)
    (ho' : Good out' sp.shapeSpectral) :
    ∃ x, sp.toOrtho v = ok x ∧ sp.toOrthoInplace v out = ok x ∧ Good x sp.shapeSpectralOrtho ∧
      sp.fromOrtho x = ok v ∧ sp.fromOrthoInplace x out' = ok v :=
  C36_from_ortho_to_ortho sp h0.fromTo h1.fromTo h0.toLin h0.fromLin h1.toLin h1.fromLin hv ho ho'

/-- `forward(backward(v)) = v` for BaseC2c×BaseC2c. -/
theorem C36_forward_backward_c2c_c2c (n0 n1 : ℕ) (sp : Space2 ℂ ℂ ℂ ℂ)
    (h0 : IsC2c n0 sp.base0) (h1 : IsC2c n1 sp.base1) {v out' : Arr ℂ} {out : Arr ℂ}
    (hv : Good v sp.shapeSpectral) (ho : Good out sp.shapePhysical)
    (ho' : Good out' sp.shapeSpectral) :
    ∃ x, sp.backward v = ok x ∧ sp.backwardInplace v out = ok x ∧ Good x sp.shapePhysical ∧
      sp.forward x = ok v ∧ sp.forwardInplace x out' = ok v :=
  C36_forward_backward sp h0.fwdBwd h1.fwdBwd hv ho ho'

/-- `backward(forward(x)) = x` for BaseC2c×BaseC2c. -/
theorem C36_backward_forward_c2c_c2c (n0 n1 : ℕ) (sp : Space2 ℂ ℂ ℂ ℂ)
    (h0 : IsC2c n0 sp.base0) (h1 : IsC2c n1 sp.base1) {x out' : Arr ℂ} {out : Arr ℂ}
    (hx : Good x sp.shapePhysical) (ho : Good out sp.shapeSpectral)
    (ho' : Good out' sp.shapePhysical) :
    ∃ v, sp.forward x = ok v ∧ sp.forwardInplace x out = ok v ∧ Good v sp.shapeSpectral ∧
      sp.backward v = ok x ∧ sp.backwardInplace v out' = ok x :=
  C36_backward_forward sp h0.bwdFwd h1.bwdFwd hx ho ho'

/-- `from_ortho(to_ortho(v)) = v` for BaseR2r×BaseR2r×BaseR2r. -/
theorem C39_ortho_r2r_r2r_r2r {T : Type} [CommRing T] [Module ℝ T] [SMulCommClass ℝ T T]
    (sp : Space3 ℝ ℝ ℝ ℝ T)
    (h0 : IsR2r sp.base0) (h1 : IsR2r sp.base1) (h2 : IsR2r sp.base2) {v out out' : Arr T}
    (hv : Good v sp.shapeSpectral) (ho : Good out sp.shapeSpectralOrtho)
    (ho' : Good out' sp.shapeSpectral) :
    ∃ x, sp.toOrtho v = ok x ∧ sp.toOrthoInplace v out = ok x ∧ Good x sp.shapeSpectralOrtho ∧
      sp.fromOrtho x = ok v ∧ sp.fromOrthoInplace x out' = ok v :=
  C39_from_ortho_to_ortho sp h0.fromTo h1.fromTo h2.fromTo h0.toLin h0.fromLin h1.toLin h1.fromLin h2.toLin h2.fromLin hv ho ho'

/-- `forward(backward(v)) = v` for BaseR2r×BaseR2r×BaseR2r. -/
theorem C39_forward_backward_r2r_r2r_r2r {T : Type} [CommRing T] [Module ℝ T] [SMulCommClass ℝ T T]
    (sp : Space3 ℝ ℝ ℝ ℝ T)
    (h0 : IsR2r sp.base0) (h1 : IsR2r sp.base1) (h2 : IsR2r sp.base2) {v out' : Arr ℝ} {out : Arr ℝ}
    (hv : Good v sp.shapeSpectral) (ho : Good out sp.shapePhysical)
    (ho' : Good out' sp.shapeSpectral) :
    ∃ x, sp.backward v = ok x ∧ sp.backwardInplace v out = ok x ∧ Good x sp.shapePhysical ∧
      sp.forward x = ok v ∧ sp.forwardInplace x out' = ok v :=
  C39_forward_backward sp h0.fwdBwd h1.fwdBwd h2.fwdBwd hv ho ho'

/-- `backward(forward(x)) = x` for BaseR2r (Chebyshev)×BaseR2r (Chebyshev)×BaseR2r (Chebyshev). -/
theorem C39_backward_forward_cheb_cheb_cheb {T : Type} [CommRing T] [Module ℝ T] [SMulCommClass ℝ T T]
    (n0 n1 n2 : ℕ) (sp : Space3 ℝ ℝ ℝ ℝ T)
    (h0 : IsCheb n0 sp.base0) (h1 : IsCheb n1 sp.base1) (h2 : IsCheb n2 sp.base2) {x out' : Arr ℝ} {out : Arr ℝ}
    (hx : Good x sp.shapePhysical) (ho : Good out sp.shapeSpectral)
    (ho' : Good out' sp.shapePhysical) :
    ∃ v, sp.forward x = ok v ∧ sp.forwardInplace x out = ok v ∧ Good v sp.shapeSpectral ∧
      sp.backward v = ok x ∧ sp.backwardInplace v out' = ok x :=
  C39_backward_forward sp h0.bwdFwd h1.bwdFwd h2.bwdFwd hx ho ho'

/-- `from_ortho(to_ortho(v)) = v` for BaseR2c×BaseR2r×BaseR2r. -/
theorem C39_ortho_r2c_r2r_r2r (n0 : ℕ) (sp : Space3 ℝ ℝ ℝ ℂ ℂ)
    (h0 : IsR2c n0 sp.base0) (h1 : IsR2r sp.base1) (h2 : IsR2r sp.base2) {v out out' : Arr ℂ}
    (hv : Good v sp.shapeSpectral) (ho : Good out sp.shapeSpectralOrtho)
    (ho' : Good out' sp.shapeSpectral) :
    ∃ x, sp.toOrtho v = ok x ∧ sp.toOrthoInplace v out = ok x ∧ Good x sp.shapeSpectralOrtho ∧
      sp.fromOrtho x = ok v ∧ sp.fromOrthoInplace x out' = ok v :=
  C39_from_ortho_to_ortho sp h0.fromTo h1.fromTo h2.fromTo h0.toLin h0.fromLin h1.toLin h1.fromLin h2.toLin h2.fromLin hv ho ho'

/-- `forward ∘ backward ∘ forward = forward` for BaseR2c×BaseR2r×BaseR2r. -/
theorem C39_forward_backward_forward_r2c_r2r_r2r (n0 : ℕ) (sp : Space3 ℝ ℝ ℝ ℂ ℂ)
    (h0 : IsR2c n0 sp.base0) (h1 : IsR2r sp.base1) (h2 : IsR2r sp.base2) {x : Arr ℝ} (hx : Good x sp.shapePhysical) :
    ∃ v y, sp.forward x = ok v ∧ Good v sp.shapeSpectral ∧ sp.backward v = ok y ∧
      Good y sp.shapePhysical ∧ sp.forward y = ok v :=
  C39_forward_backward_forward_one sp h0.bwdFwd h1.fwdBwd h2.fwdBwd hx

/-- `backward(forward(x)) = x` for BaseR2c×BaseR2r (Chebyshev)×BaseR2r (Chebyshev). -/
theorem C39_backward_forward_r2c_cheb_cheb (n0 n1 n2 : ℕ) (sp : Space3 ℝ ℝ ℝ ℂ ℂ)
    (h0 : IsR2c n0 sp.base0) (h1 : IsCheb n1 sp.base1) (h2 : IsCheb n2 sp.base2) {x out' : Arr ℝ} {out : Arr ℂ}
    (hx : Good x sp.shapePhysical) (ho : Good out sp.shapeSpectral)
    (ho' : Good out' sp.shapePhysical) :
    ∃ v, sp.forward x = ok v ∧ sp.forwardInplace x out = ok v ∧ Good v sp.shapeSpectral ∧
      sp.backward v = ok x ∧ sp.backwardInplace v out' = ok x :=
  C39_backward_forward sp h0.bwdFwd h1.bwdFwd h2.bwdFwd hx ho ho'

/-- `from_ortho(to_ortho(v)) = v` for BaseC2c×BaseR2c×BaseR2r. -/
theorem C39_ortho_c2c_r2c_r2r (n0 n1 : ℕ) (sp : Space3 ℝ ℝ ℂ ℂ ℂ)
    (h0 : IsC2c n0 sp.base0) (h1 : IsR2c n1 sp.base1) (h2 : IsR2r sp.base2) {v out out' : Arr ℂ}
    (hv : Good v sp.shapeSpectral) (ho : Good out sp.shapeSpectralOrtho)
    (ho' : Good out' sp.shapeSpectral) :
    ∃ x, sp.toOrtho v = ok x ∧ sp.toOrthoInplace v out = ok x ∧ Good x sp.shapeSpectralOrtho ∧
      sp.fromOrtho x = ok v ∧ sp.fromOrthoInplace x out' = ok v :=
  C39_from_ortho_to_ortho sp h0.fromTo h1.fromTo h2.fromTo h0.toLin h0.fromLin h1.toLin h1.fromLin h2.toLin h2.fromLin hv ho ho'

/-- `forward ∘ backward ∘ forward = forward` for BaseC2c×BaseR2c×BaseR2r. -/
theorem C39_forward_backward_forward_c2c_r2c_r2r (n0 n1 : ℕ) (sp : Space3 ℝ ℝ ℂ ℂ ℂ)
    (h0 : IsC2c n0 sp.base0) (h1 : IsR2c n1 sp.base1) (h2 : IsR2r sp.base2) {x : Arr ℝ} (hx : Good x sp.shapePhysical) :
    ∃ v y, sp.forward x = ok v ∧ Good v sp.shapeSpectral ∧ sp.backward v = ok y ∧
      Good y sp.shapePhysical ∧ sp.forward y = ok v :=
  C39_forward_backward_forward_two sp h0.bwdFwd h1.bwdFwd h2.fwdBwd hx

/-- `backward(forward(x)) = x` for BaseC2c×BaseR2c×BaseR2r (Chebyshev). -/
theorem C39_backward_forward_c2c_r2c_cheb (n0 n1 n2 : ℕ) (sp : Space3 ℝ ℝ ℂ ℂ ℂ)
    (h0 : IsC2c n0 sp.base0) (h1 : IsR2c n1 sp.base1) (h2 : IsCheb n2 sp.base2) {x out' : Arr ℝ} {out : Arr ℂ}
    (hx : Good x sp.shapePhysical) (ho : Good out sp.shapeSpectral)
    (ho' : Good out' sp.shapePhysical) :
    ∃ v, sp.forward x = ok v ∧ sp.forwardInplace x out = ok v ∧ Good v sp.shapeSpectral ∧
      sp.backward v = ok x ∧ sp.backwardInplace v out' = ok x :=
  C39_backward_forward sp h0.bwdFwd h1.bwdFwd h2.bwdFwd hx ho ho'

/-- `from_ortho(to_ortho(v)) = v` for BaseC2c×BaseC2c×BaseR2c. -/
theorem C39_ortho_c2c_c2c_r2c (n0 n1 n2 : ℕ) (sp : Space3 ℝ ℂ ℂ ℂ ℂ)
    (h0 : IsC2c n0 sp.base0) (h1 : IsC2c n1 sp.base1) (h2 : IsR2c n2 sp.base2) {v out out' : Arr ℂ}
    (hv : Good v sp.shapeSpectral) (ho : Good out sp.shapeSpectralOrtho)
    (ho' : Good out' sp.shapeSpectral) :
    ∃ x, sp.toOrtho v = ok x ∧ sp.toOrthoInplace v out = ok x ∧ Good x sp.shapeSpectralOrtho ∧
      sp.fromOrtho x = ok v ∧ sp.fromOrthoInplace x out' = ok v :=
  C39_from_ortho_to_ortho sp h0.fromTo h1.fromTo h2.fromTo h0.toLin h0.fromLin h1.toLin h1.fromLin h2.toLin h2.fromLin hv ho ho'

/-- `backward(forward(x)) = x` for BaseC2c×BaseC2c×BaseR2c. -/
theorem C39_backward_forward_c2c_c2c_r2c (n0 n1 n2 : ℕ) (sp : Space3 ℝ ℂ ℂ ℂ ℂ)
    (h0 : IsC2c n0 sp.base0) (h1 : IsC2c n1 sp.base1) (h2 : IsR2c n2 sp.base2) {x out' : Arr ℝ} {out : Arr ℂ}
    (hx : Good x sp.shapePhysical) (ho : Good out sp.shapeSpectral)
    (ho' : Good out' sp.shapePhysical) :
    ∃ v, sp.forward x = ok v ∧ sp.forwardInplace x out = ok v ∧ Good v sp.shapeSpectral ∧
      sp.backward v = ok x ∧ sp.backwardInplace v out' = ok x :=
  C39_backward_forward sp h0.bwdFwd h1.bwdFwd h2.bwdFwd hx ho ho'

/-- `from_ortho(to_ortho(v)) = v` for BaseC2c×BaseC2c×BaseC2c. -/
theorem C39_ortho_c2c_c2c_c2c (n0 n1 n2 : ℕ) (sp : Space3 ℂ ℂ ℂ ℂ ℂ)
    (h0 : IsC2c n0 sp.base0) (h1 : IsC2c n1 sp.base1) (h2 : IsC2c n2 sp.base2) {v out out' : Arr ℂ}
    (hv : Good v sp.shapeSpectral) (ho : Good out sp.shapeSpectralOrtho)
    (ho' : Good out' sp.shapeSpectral) :
    ∃ x, sp.toOrtho v = ok x ∧ sp.toOrthoInplace v out = ok x ∧ Good x sp.shapeSpectralOrtho ∧
      sp.fromOrtho x = ok v ∧ sp.fromOrthoInplace x out' = ok v :=
  C39_from_ortho_to_ortho sp h0.fromTo h1.fromTo h2.fromTo h0.toLin h0.fromLin h1.toLin h1.fromLin h2.toLin h2.fromLin hv ho ho'

/-- `forward(backward(v)) = v` for BaseC2c×BaseC2c×BaseC2c. -/
theorem C39_forward_backward_c2c_c2c_c2c (n0 n1 n2 : ℕ) (sp : Space3 ℂ ℂ ℂ ℂ ℂ)
    (h0 : IsC2c n0 sp.base0) (h1 : IsC2c n1 sp.base1) (h2 : IsC2c n2 sp.base2) {v out' : Arr ℂ} {out : Arr ℂ}
    (hv : Good v sp.shapeSpectral) (ho : Good out sp.shapePhysical)
    (ho' : Good out' sp.shapeSpectral) :
    ∃ x, sp.backward v = ok x ∧ sp.backwardInplace v out = ok x ∧ Good x sp.shapePhysical ∧
      sp.forward x = ok v ∧ sp.forwardInplace x out' = ok v :=
  C39_forward_backward sp h0.fwdBwd h1.fwdBwd h2.fwdBwd hv ho ho'

/-- `backward(forward(x)) = x` for BaseC2c×BaseC2c×BaseC2c. -/
theorem C39_backward_forward_c2c_c2c_c2c (n0 n1 n2 : ℕ) (sp : Space3 ℂ ℂ ℂ ℂ ℂ)
    (h0 : IsC2c n0 sp.base0) (h1 : IsC2c n1 sp.base1) (h2 : IsC2c n2 sp.base2) {x out' : Arr ℂ} {out : Arr ℂ}
    (hx : Good x sp.shapePhysical) (ho : Good out sp.shapeSpectral)
    (ho' : Good out' sp.shapePhysical) :
    ∃ v, sp.forward x = ok v ∧ sp.forwardInplace x out = ok v ∧ Good v sp.shapeSpectral ∧
      sp.backward v = ok x ∧ sp.backwardInplace v out' = ok x :=
  C39_backward_forward sp h0.bwdFwd h1.bwdFwd h2.bwdFwd hx ho ho'

/-! ### real-to-complex spaces: when `forward(backward(v)) = v` -/

/-- For BaseR2c, `forward(backward(v)) = v` exactly if the mean and (even size) Nyquist modes along
the real-to-complex axis of `v` are real. -/
theorem C36_space1_forward_backward_r2c (n0 : ℕ) (sp : Space1 ℝ ℂ ℂ)
    (h0 : IsR2c n0 sp.base0) {v : Arr ℂ} (hv : Good v sp.shapeSpectral) :
    ∃ x, sp.backward v = ok x ∧ Good x sp.shapePhysical ∧ 
      (sp.forward x = ok v ↔ RealModes n0 0 v) := by
  obtain ⟨hs, φ0, β0, hφ0, hβ0, r0, -, t0⟩ := h0.laws
  have k0 := good_mapAx β0 sp.base0.lenPhys 0 hv.2.2
  have iff1 := realModes_iff hs hφ0.len hβ0.len r0 t0 hv (by decide : 0 < 1) rfl
  refine ⟨_, sp.backward_eq hβ0 hv, k0, ?_⟩
  rw [sp.forward_eq hφ0 k0, ← iff1]
  exact ⟨fun h => by simpa using h, fun h => by rw [h]⟩

/-- For BaseR2c×BaseR2r, `forward(backward(v)) = v` exactly if the mean and (even size) Nyquist modes along
the real-to-complex axis of `v` are real. -/
theorem C36_forward_backward_r2c_r2r (n0 : ℕ) (sp : Space2 ℝ ℝ ℂ ℂ)
    (h0 : IsR2c n0 sp.base0) (h1 : IsR2r sp.base1) {v : Arr ℂ} (hv : Good v sp.shapeSpectral) :
    ∃ x, sp.backward v = ok x ∧ Good x sp.shapePhysical ∧ 
      (sp.forward x = ok v ↔ RealModes n0 0 v) := by
  obtain ⟨hs, φ0, β0, hφ0, hβ0, r0, -, t0⟩ := h0.laws
  obtain ⟨φ1, β1, hφ1, hβ1, r1⟩ := h1.fwdBwd
  have k0 := good_mapAx β0 sp.base0.lenPhys 0 hv.2.2
  have k1 := good_mapAx β1 sp.base1.lenPhys 1 k0.2.2
  have iff1 := realModes_iff hs hφ0.len hβ0.len r0 t0 hv (by decide : 0 < 2) rfl
  refine ⟨_, sp.backward_eq hβ0 hβ1 hv, k1, ?_⟩
  rw [sp.forward_eq hφ0 hφ1 k1, rt_good k0 hβ1.len r1 (by decide : 1 < 2) rfl, ← iff1]
  exact ⟨fun h => by simpa using h, fun h => by rw [h]⟩

/-- For BaseC2c×BaseR2c, `forward(backward(v)) = v` exactly if the mean and (even size) Nyquist modes along
the real-to-complex axis of the array `u` obtained from `v` by transforming back the axes before it are real. -/
theorem C36_forward_backward_c2c_r2c (n0 n1 : ℕ) (sp : Space2 ℝ ℂ ℂ ℂ)
    (h0 : IsC2c n0 sp.base0) (h1 : IsR2c n1 sp.base1) {v : Arr ℂ} (hv : Good v sp.shapeSpectral) :
    ∃ x u, sp.backward v = ok x ∧ Good x sp.shapePhysical ∧ sp.base0.backward v 0 = ok u ∧ 
      (sp.forward x = ok v ↔ RealModes n1 1 u) := by
  obtain ⟨φ0, β0, hφ0, hβ0, r0, t0⟩ := both_laws h0.fwdBwd h0.bwdFwd
  obtain ⟨hs, φ1, β1, hφ1, hβ1, r1, -, t1⟩ := h1.laws
  have k0 := good_mapAx β0 sp.base0.lenPhys 0 hv.2.2
  have k1 := good_mapAx β1 sp.base1.lenPhys 1 k0.2.2
  have iff1 := realModes_iff hs hφ1.len hβ1.len r1 t1 k0 (by decide : 1 < 2) rfl
  refine ⟨_, (mapAx β0 sp.base0.lenPhys 0 v), sp.backward_eq hβ0 hβ1 hv, k1, alloc_good hβ0 hv (by decide : 0 < 2) rfl, ?_⟩
  rw [sp.forward_eq hφ0 hφ1 k1, ← iff1]
  have kw := good_mapAx φ1 sp.base1.lenSpec 1 k1.2.2
  constructor
  · intro h
    have h' : mapAx φ0 sp.base0.lenSpec 0 ((mapAx φ1 sp.base1.lenSpec 1 (mapAx β1 sp.base1.lenPhys 1 (mapAx β0 sp.base0.lenPhys 0 v)))) = v := by simpa using h
    have m0 := good_mapAx φ0 sp.base0.lenSpec 0 kw.2.2
    have e : (mapAx β0 sp.base0.lenPhys 0 (mapAx φ0 sp.base0.lenSpec 0 (mapAx φ1 sp.base1.lenSpec 1 (mapAx β1 sp.base1.lenPhys 1 (mapAx β0 sp.base0.lenPhys 0 v))))) = (mapAx φ1 sp.base1.lenSpec 1 (mapAx β1 sp.base1.lenPhys 1 (mapAx β0 sp.base0.lenPhys 0 v))) := by
      rw [rt_good kw hφ0.len t0 (by decide : 0 < 2) rfl]
    rw [h'] at e
    exact e.symm
  · intro h
    rw [h, rt_good hv hβ0.len r0 (by decide : 0 < 2) rfl]

/-- For BaseR2c×BaseR2r×BaseR2r, `forward(backward(v)) = v` exactly if the mean and (even size) Nyquist modes along
the real-to-complex axis of `v` are real. -/
theorem C39_forward_backward_r2c_r2r_r2r (n0 : ℕ) (sp : Space3 ℝ ℝ ℝ ℂ ℂ)
    (h0 : IsR2c n0 sp.base0) (h1 : IsR2r sp.base1) (h2 : IsR2r sp.base2) {v : Arr ℂ} (hv : Good v sp.shapeSpectral) :
    ∃ x, sp.backward v = ok x ∧ Good x sp.shapePhysical ∧ 
      (sp.forward x = ok v ↔ RealModes n0 0 v) := by
  obtain ⟨hs, φ0, β0, hφ0, hβ0, r0, -, t0⟩ := h0.laws
  obtain ⟨φ1, β1, hφ1, hβ1, r1⟩ := h1.fwdBwd
  obtain ⟨φ2, β2, hφ2, hβ2, r2⟩ := h2.fwdBwd
  have k0 := good_mapAx β0 sp.base0.lenPhys 0 hv.2.2
  have k1 := good_mapAx β1 sp.base1.lenPhys 1 k0.2.2
  have k2 := good_mapAx β2 sp.base2.lenPhys 2 k1.2.2
  have iff1 := realModes_iff hs hφ0.len hβ0.len r0 t0 hv (by decide : 0 < 3) rfl
  refine ⟨_, sp.backward_eq hβ0 hβ1 hβ2 hv, k2, ?_⟩
  rw [sp.forward_eq hφ0 hφ1 hφ2 k2, rt_good k1 hβ2.len r2 (by decide : 2 < 3) rfl, rt_good k0 hβ1.len r1 (by decide : 1 < 3) rfl, ← iff1]
  exact ⟨fun h => by simpa using h, fun h => by rw [h]⟩

/-- For BaseC2c×BaseR2c×BaseR2r, `forward(backward(v)) = v` exactly if the mean and (even size) Nyquist modes along
the real-to-complex axis of the array `u` obtained from `v` by transforming back the axes before it are real. -/
theorem C39_forward_backward_c2c_r2c_r2r (n0 n1 : ℕ) (sp : Space3 ℝ ℝ ℂ ℂ ℂ)
    (h0 : IsC2c n0 sp.base0) (h1 : IsR2c n1 sp.base1) (h2 : IsR2r sp.base2) {v : Arr ℂ} (hv : Good v sp.shapeSpectral) :
    ∃ x u, sp.backward v = ok x ∧ Good x sp.shapePhysical ∧ sp.base0.backward v 0 = ok u ∧ 
      (sp.forward x = ok v ↔ RealModes n1 1 u) := by
  obtain ⟨φ0, β0, hφ0, hβ0, r0, t0⟩ := both_laws h0.fwdBwd h0.bwdFwd
  obtain ⟨hs, φ1, β1, hφ1, hβ1, r1, -, t1⟩ := h1.laws
  obtain ⟨φ2, β2, hφ2, hβ2, r2⟩ := h2.fwdBwd
  have k0 := good_mapAx β0 sp.base0.lenPhys 0 hv.2.2
  have k1 := good_mapAx β1 sp.base1.lenPhys 1 k0.2.2
  have k2 := good_mapAx β2 sp.base2.lenPhys 2 k1.2.2
  have iff1 := realModes_iff hs hφ1.len hβ1.len r1 t1 k0 (by decide : 1 < 3) rfl
  refine ⟨_, (mapAx β0 sp.base0.lenPhys 0 v), sp.backward_eq hβ0 hβ1 hβ2 hv, k2, alloc_good hβ0 hv (by decide : 0 < 3) rfl, ?_⟩
  rw [sp.forward_eq hφ0 hφ1 hφ2 k2, rt_good k1 hβ2.len r2 (by decide : 2 < 3) rfl, ← iff1]
  have kw := good_mapAx φ1 sp.base1.lenSpec 1 k1.2.2
  constructor
  · intro h
    have h' : mapAx φ0 sp.base0.lenSpec 0 ((mapAx φ1 sp.base1.lenSpec 1 (mapAx β1 sp.base1.lenPhys 1 (mapAx β0 sp.base0.lenPhys 0 v)))) = v := by simpa using h
    have m0 := good_mapAx φ0 sp.base0.lenSpec 0 kw.2.2
    have e : (mapAx β0 sp.base0.lenPhys 0 (mapAx φ0 sp.base0.lenSpec 0 (mapAx φ1 sp.base1.lenSpec 1 (mapAx β1 sp.base1.lenPhys 1 (mapAx β0 sp.base0.lenPhys 0 v))))) = (mapAx φ1 sp.base1.lenSpec 1 (mapAx β1 sp.base1.lenPhys 1 (mapAx β0 sp.base0.lenPhys 0 v))) := by
      rw [rt_good kw hφ0.len t0 (by decide : 0 < 3) rfl]
    rw [h'] at e
    exact e.symm
  · intro h
    rw [h, rt_good hv hβ0.len r0 (by decide : 0 < 3) rfl]

/-- For BaseC2c×BaseC2c×BaseR2c, `forward(backward(v)) = v` exactly if the mean and (even size) Nyquist modes along
the real-to-complex axis of the array `u` obtained from `v` by transforming back the axes before it are real. -/
theorem C39_forward_backward_c2c_c2c_r2c (n0 n1 n2 : ℕ) (sp : Space3 ℝ ℂ ℂ ℂ ℂ)
    (h0 : IsC2c n0 sp.base0) (h1 : IsC2c n1 sp.base1) (h2 : IsR2c n2 sp.base2) {v : Arr ℂ} (hv : Good v sp.shapeSpectral) :
    ∃ x u1 u, sp.backward v = ok x ∧ Good x sp.shapePhysical ∧ sp.base0.backward v 0 = ok u1 ∧ sp.base1.backward u1 1 = ok u ∧ 
      (sp.forward x = ok v ↔ RealModes n2 2 u) := by
  obtain ⟨φ0, β0, hφ0, hβ0, r0, t0⟩ := both_laws h0.fwdBwd h0.bwdFwd
  obtain ⟨φ1, β1, hφ1, hβ1, r1, t1⟩ := both_laws h1.fwdBwd h1.bwdFwd
  obtain ⟨hs, φ2, β2, hφ2, hβ2, r2, -, t2⟩ := h2.laws
  have k0 := good_mapAx β0 sp.base0.lenPhys 0 hv.2.2
  have k1 := good_mapAx β1 sp.base1.lenPhys 1 k0.2.2
  have k2 := good_mapAx β2 sp.base2.lenPhys 2 k1.2.2
  have iff1 := realModes_iff hs hφ2.len hβ2.len r2 t2 k1 (by decide : 2 < 3) rfl
  refine ⟨_, (mapAx β0 sp.base0.lenPhys 0 v), (mapAx β1 sp.base1.lenPhys 1 (mapAx β0 sp.base0.lenPhys 0 v)), sp.backward_eq hβ0 hβ1 hβ2 hv, k2, alloc_good hβ0 hv (by decide : 0 < 3) rfl, alloc_good hβ1 k0 (by decide : 1 < 3) rfl, ?_⟩
  rw [sp.forward_eq hφ0 hφ1 hφ2 k2, ← iff1]
  have kw := good_mapAx φ2 sp.base2.lenSpec 2 k2.2.2
  constructor
  · intro h
    have h' : mapAx φ0 sp.base0.lenSpec 0 (mapAx φ1 sp.base1.lenSpec 1 ((mapAx φ2 sp.base2.lenSpec 2 (mapAx β2 sp.base2.lenPhys 2 (mapAx β1 sp.base1.lenPhys 1 (mapAx β0 sp.base0.lenPhys 0 v)))))) = v := by simpa using h
    have m1 := good_mapAx φ1 sp.base1.lenSpec 1 kw.2.2
    have m0 := good_mapAx φ0 sp.base0.lenSpec 0 m1.2.2
    have e : (mapAx β1 sp.base1.lenPhys 1 (mapAx β0 sp.base0.lenPhys 0 (mapAx φ0 sp.base0.lenSpec 0 (mapAx φ1 sp.base1.lenSpec 1 (mapAx φ2 sp.base2.lenSpec 2 (mapAx β2 sp.base2.lenPhys 2 (mapAx β1 sp.base1.lenPhys 1 (mapAx β0 sp.base0.lenPhys 0 v)))))))) = (mapAx φ2 sp.base2.lenSpec 2 (mapAx β2 sp.base2.lenPhys 2 (mapAx β1 sp.base1.lenPhys 1 (mapAx β0 sp.base0.lenPhys 0 v)))) := by
      rw [rt_good m1 hφ0.len t0 (by decide : 0 < 3) rfl, rt_good kw hφ1.len t1 (by decide : 1 < 3) rfl]
    rw [h'] at e
    exact e.symm
  · intro h
    rw [h, rt_good k0 hβ1.len r1 (by decide : 1 < 3) rfl, rt_good hv hβ0.len r0 (by decide : 0 < 3) rfl]

/-! ### the hypotheses can be met

Concrete spaces of the library with non-zero arrays of the required shapes. -/

/-- `cheb_dirichlet(6) × chebyshev(4)` -/
example : ∃ (sp : Space2 ℝ ℝ ℝ ℝ) (v out : Arr ℝ), IsR2r sp.base0 ∧ IsR2r sp.base1 ∧
    IsCheb 4 sp.base1 ∧ sp.shapeSpectral = [4, 4] ∧ sp.shapePhysical = [6, 4] ∧
    Good v sp.shapeSpectral ∧ Good out sp.shapePhysical ∧ at_ v [3, 2] = 7 := by
  obtain ⟨b0, h0, p0, s0, -⟩ := isDirichlet_exists (T := ℝ) (n := 6) (by decide)
  obtain ⟨b1, h1, h1', p1, s1, -⟩ := isCheb_exists (T := ℝ) (n := 4) (by decide)
  have e : Space2.shapeSpectral (⟨b0, b1⟩ : Space2 ℝ ℝ ℝ ℝ) = [4, 4] := by
    show [b0.lenSpec, b1.lenSpec] = _; rw [s0, s1]
  refine ⟨⟨b0, b1⟩, _, _, h0, h1', h1, e, by show [b0.lenPhys, b1.lenPhys] = _; rw [p0, p1],
    good_fill 7 _, good_fill 0 _, ?_⟩
  rw [e]
  simp [at_, flat, nth]

/-- `fourier_r2c(6) × cheb_dirichlet(5)`: non-zero coefficients with real mean and Nyquist modes -/
example : ∃ (sp : Space2 ℝ ℝ ℂ ℂ) (v : Arr ℂ), IsR2c 6 sp.base0 ∧ IsR2r sp.base1 ∧
    sp.shapeSpectral = [4, 3] ∧ Good v sp.shapeSpectral ∧ RealModes 6 0 v ∧ v.data ≠ [] ∧
    ∀ c ∈ v.data, c = 2 := by
  obtain ⟨b0, h0, p0, s0, -⟩ := isR2c_exists (n := 6) (by decide)
  obtain ⟨b1, h1, p1, s1, -⟩ := isDirichlet_exists (T := ℂ) (n := 5) (by decide)
  have e : Space2.shapeSpectral (⟨b0, b1⟩ : Space2 ℝ ℝ ℂ ℂ) = [4, 3] := by
    show [b0.lenSpec, b1.lenSpec] = _; rw [s0, s1]
  have key : ∀ i, (nth (List.replicate 12 (2 : ℂ)) i).im = 0 := fun i => by
    unfold nth
    rw [List.getD_eq_getElem?_getD, List.getElem?_replicate]
    split <;> simp
  refine ⟨⟨b0, b1⟩, ⟨[4, 3], List.replicate 12 2, true⟩, h0, h1, e, ?_,
    fun idx _ => ⟨key _, fun _ => key _⟩, by simp, by simp⟩
  rw [e]; exact good_fill 2 [4, 3]

/-- `fourier_c2c(5) × fourier_r2c(4) × cheb_dirichlet(5)`, and the space with three complex bases -/
example : (∃ sp : Space3 ℝ ℝ ℂ ℂ ℂ, IsC2c 5 sp.base0 ∧ IsR2c 4 sp.base1 ∧ IsR2r sp.base2 ∧
      sp.shapePhysical = [5, 4, 5] ∧ sp.shapeSpectral = [5, 3, 3] ∧
      ∃ x : Arr ℝ, Good x sp.shapePhysical ∧ x.data ≠ []) ∧
    ∃ sp : Space3 ℂ ℂ ℂ ℂ ℂ, IsC2c 5 sp.base0 ∧ IsC2c 4 sp.base1 ∧ IsC2c 3 sp.base2 ∧
      ∃ x : Arr ℂ, Good x sp.shapePhysical := by
  obtain ⟨b0, h0, p0, s0, -⟩ := isC2c_exists (n := 5) (by decide)
  obtain ⟨b1, h1, p1, s1, -⟩ := isR2c_exists (n := 4) (by decide)
  obtain ⟨b2, h2, p2, s2, -⟩ := isDirichlet_exists (T := ℂ) (n := 5) (by decide)
  obtain ⟨c1, k1, -⟩ := isC2c_exists (n := 4) (by decide)
  obtain ⟨c2, k2, -⟩ := isC2c_exists (n := 3) (by decide)
  have e : Space3.shapePhysical (⟨b0, b1, b2⟩ : Space3 ℝ ℝ ℂ ℂ ℂ) = [5, 4, 5] := by
    show [b0.lenPhys, b1.lenPhys, b2.lenPhys] = _; rw [p0, p1, p2]
  refine ⟨⟨⟨b0, b1, b2⟩, h0, h1, h2, e,
    by show [b0.lenSpec, b1.lenSpec, b2.lenSpec] = _; rw [s0, s1, s2], ⟨[5, 4, 5], List.replicate 100 1, true⟩,
      ?_, by simp⟩, ⟨b0, c1, c2⟩, h0, k1, k2, _, good_fill 1 _⟩
  rw [e]; exact good_fill 1 [5, 4, 5]

end Verif.Props
