/-
Gradients of the spaces: scaling, laws for functionals.
-/
import Verif.Proof.Spaces

namespace Verif
open Res Spec Finset

theorem toI32_of_lt {d : ℕ} (h : d < 2 ^ 31) : toI32 d = d := by
  unfold toI32
  rw [Nat.mod_eq_of_lt (by omega)]
  push_cast; ring

theorem powi_ok {x : ℝ} {d : ℕ} (h : d < 2 ^ 31) : powi x (toI32 d) = ok (x ^ d) := by
  rw [toI32_of_lt h]
  show (if x = 0 ∧ (d : ℤ) < 0 then err .div0 else ok (x ^ (d : ℤ))) = _
  rw [if_neg (by rintro ⟨-, h⟩; omega), zpow_natCast]

section
variable {T : Type} [AddCommGroup T] [Module ℝ T]

/-- every element multiplied by `c` -/
noncomputable def scaleArr (c : ℝ) (a : Arr T) : Arr T := { a with data := a.data.map (c • ·) }

theorem mapR_div {c : ℝ} (hc : c ≠ 0) : ∀ l : List T,
    mapR (fun x => divR x c) l = ok (l.map (c⁻¹ • ·))
  | [] => rfl
  | x :: l => by
    unfold mapR
    rw [mapR_div hc l]
    rw [divR_eq, if_neg hc]; rfl

theorem divAll_ok {c : ℝ} (hc : c ≠ 0) (a : Arr T) : divAll c a = ok (scaleArr c⁻¹ a) := by
  unfold divAll
  rw [mapR_div hc]; rfl

theorem at_scaleArr (c : ℝ) (a : Arr T) (idx : List ℕ) :
    at_ (scaleArr c a) idx = c • at_ a idx := by
  unfold at_ scaleArr nth
  dsimp only
  by_cases h : flat a.shape idx < a.data.length
  · simp [List.getD_eq_getElem?_getD, h]
  · simp [List.getD_eq_getElem?_getD, h]

theorem scaleArr_one (a : Arr T) : scaleArr 1 a = a := by
  unfold scaleArr; simp

theorem good_scaleArr {c : ℝ} {a : Arr T} {sh : List ℕ} (h : Good a sh) : Good (scaleArr c a) sh :=
  ⟨by have := h.1; unfold Arr.WF scaleArr at *; simpa using this, h.2.1, h.2.2⟩

end

namespace Space1
section
variable {P S T : Type} [Zero P] [Zero S] [AddCommGroup T] [Module ℝ T] (sp : Space1 P S T)

theorem gradient_eq {d0 : ℕ} {g0 : List T → List T}
    (h0 : Computes (fun v out => sp.base0.gradientSlice v out d0) sp.base0.lenSpec sp.base0.lenOrth g0)
    {a : Arr T} (ha : Good a sp.shapeSpectral) {scale : Option (ℝ)}
    (hsc : scale ≠ none → d0 < 2 ^ 31) (hne : scale1 d0 scale ≠ 0) :
    sp.gradient  a d0 scale = ok (scaleArr (scale1 d0 scale)⁻¹ (mapAx g0 sp.base0.lenOrth 0 a)) := by
  unfold gradient
  have e0 := alloc_good h0 ha (by decide : 0 < 1) rfl
  have k0 := good_mapAx g0 sp.base0.lenOrth 0 ha.2.2
  rw [show sp.base0.gradient _ d0 0 = _ from e0, bind_ok]
  cases scale with
  | none => rw [scale1, inv_one, scaleArr_one]; rfl
  | some c =>
    have c0 := c
    obtain q0 := hsc (by simp)
    rw [scale1] at hne ⊢
    dsimp only
    rw [powi_ok q0, bind_ok, divAll_ok hne]

theorem gradientPar_eq {d0 : ℕ} {g0 : List T → List T}
    (h0 : Computes (fun v out => sp.base0.gradientSlice v out d0) sp.base0.lenSpec sp.base0.lenOrth g0)
    {a : Arr T} (ha : Good a sp.shapeSpectral) {scale : Option (ℝ)}
    (hsc : scale ≠ none → d0 < 2 ^ 31) (hne : scale1 d0 scale ≠ 0)
    {s0 : List ℕ} (hs0 : FairSchedule [sp.base0.lenOrth] 0 s0) :
    sp.gradientPar s0 a d0 scale = ok (scaleArr (scale1 d0 scale)⁻¹ (mapAx g0 sp.base0.lenOrth 0 a)) := by
  unfold gradientPar
  have e0 := alloc_par_good h0 ha (by decide : 0 < 1) rfl hs0
  have k0 := good_mapAx g0 sp.base0.lenOrth 0 ha.2.2
  rw [show sp.base0.gradientPar s0 _ d0 0 = _ from e0, bind_ok]
  cases scale with
  | none => rw [scale1, inv_one, scaleArr_one]; rfl
  | some c =>
    have c0 := c
    obtain q0 := hsc (by simp)
    rw [scale1] at hne ⊢
    dsimp only
    rw [powi_ok q0, bind_ok, divAll_ok hne]

end
end Space1

namespace Space2
section
variable {P I S T : Type} [Zero P] [Zero I] [Zero S] [AddCommGroup T] [Module ℝ T] (sp : Space2 P I S T)

theorem gradient_eq {d0 d1 : ℕ} {g0 g1 : List T → List T}
    (h0 : Computes (fun v out => sp.base0.gradientSlice v out d0) sp.base0.lenSpec sp.base0.lenOrth g0) (h1 : Computes (fun v out => sp.base1.gradientSlice v out d1) sp.base1.lenSpec sp.base1.lenOrth g1)
    {a : Arr T} (ha : Good a sp.shapeSpectral) {scale : Option (ℝ × ℝ)}
    (hsc : scale ≠ none → d0 < 2 ^ 31 ∧ d1 < 2 ^ 31) (hne : scale2 d0 d1 scale ≠ 0) :
    sp.gradient  a d0 d1 scale = ok (scaleArr (scale2 d0 d1 scale)⁻¹ (mapAx g1 sp.base1.lenOrth 1 (mapAx g0 sp.base0.lenOrth 0 a))) := by
  unfold gradient
  have e0 := alloc_good h0 ha (by decide : 0 < 2) rfl
  have k0 := good_mapAx g0 sp.base0.lenOrth 0 ha.2.2
  rw [show sp.base0.gradient _ d0 0 = _ from e0, bind_ok]
  have e1 := alloc_good h1 k0 (by decide : 1 < 2) rfl
  have k1 := good_mapAx g1 sp.base1.lenOrth 1 k0.2.2
  rw [show sp.base1.gradient _ d1 1 = _ from e1, bind_ok]
  cases scale with
  | none => rw [scale2, inv_one, scaleArr_one]; rfl
  | some c =>
    obtain ⟨c0, c1⟩ := c
    obtain ⟨q0, q1⟩ := hsc (by simp)
    rw [scale2] at hne ⊢
    dsimp only
    rw [powi_ok q0, bind_ok, powi_ok q1, bind_ok, divAll_ok hne]

theorem gradientPar_eq {d0 d1 : ℕ} {g0 g1 : List T → List T}
    (h0 : Computes (fun v out => sp.base0.gradientSlice v out d0) sp.base0.lenSpec sp.base0.lenOrth g0) (h1 : Computes (fun v out => sp.base1.gradientSlice v out d1) sp.base1.lenSpec sp.base1.lenOrth g1)
    {a : Arr T} (ha : Good a sp.shapeSpectral) {scale : Option (ℝ × ℝ)}
    (hsc : scale ≠ none → d0 < 2 ^ 31 ∧ d1 < 2 ^ 31) (hne : scale2 d0 d1 scale ≠ 0)
    {s0 s1 : List ℕ} (hs0 : FairSchedule [sp.base0.lenOrth, sp.base1.lenSpec] 0 s0) (hs1 : FairSchedule [sp.base0.lenOrth, sp.base1.lenOrth] 1 s1) :
    sp.gradientPar s0 s1 a d0 d1 scale = ok (scaleArr (scale2 d0 d1 scale)⁻¹ (mapAx g1 sp.base1.lenOrth 1 (mapAx g0 sp.base0.lenOrth 0 a))) := by
  unfold gradientPar
  have e0 := alloc_par_good h0 ha (by decide : 0 < 2) rfl hs0
  have k0 := good_mapAx g0 sp.base0.lenOrth 0 ha.2.2
  rw [show sp.base0.gradientPar s0 _ d0 0 = _ from e0, bind_ok]
  have e1 := alloc_par_good h1 k0 (by decide : 1 < 2) rfl hs1
  have k1 := good_mapAx g1 sp.base1.lenOrth 1 k0.2.2
  rw [show sp.base1.gradientPar s1 _ d1 1 = _ from e1, bind_ok]
  cases scale with
  | none => rw [scale2, inv_one, scaleArr_one]; rfl
  | some c =>
    obtain ⟨c0, c1⟩ := c
    obtain ⟨q0, q1⟩ := hsc (by simp)
    rw [scale2] at hne ⊢
    dsimp only
    rw [powi_ok q0, bind_ok, powi_ok q1, bind_ok, divAll_ok hne]

end
end Space2

namespace Space3
section
variable {P I J S T : Type} [Zero P] [Zero I] [Zero J] [Zero S] [AddCommGroup T] [Module ℝ T] (sp : Space3 P I J S T)

theorem gradient_eq {d0 d1 d2 : ℕ} {g0 g1 g2 : List T → List T}
    (h0 : Computes (fun v out => sp.base0.gradientSlice v out d0) sp.base0.lenSpec sp.base0.lenOrth g0) (h1 : Computes (fun v out => sp.base1.gradientSlice v out d1) sp.base1.lenSpec sp.base1.lenOrth g1) (h2 : Computes (fun v out => sp.base1.gradientSlice v out d2) sp.base1.lenSpec sp.base1.lenOrth g2) (h21 : sp.base2.lenSpec = sp.base1.lenSpec)
    {a : Arr T} (ha : Good a sp.shapeSpectral) {scale : Option (ℝ × ℝ × ℝ)}
    (hsc : scale ≠ none → d0 < 2 ^ 31 ∧ d1 < 2 ^ 31 ∧ d2 < 2 ^ 31) (hne : scale3 d0 d1 d2 scale ≠ 0) :
    sp.gradient  a d0 d1 d2 scale = ok (scaleArr (scale3 d0 d1 d2 scale)⁻¹ (mapAx g2 sp.base1.lenOrth 2 (mapAx g1 sp.base1.lenOrth 1 (mapAx g0 sp.base0.lenOrth 0 a)))) := by
  unfold gradient
  have e0 := alloc_good h0 ha (by decide : 0 < 3) rfl
  have k0 := good_mapAx g0 sp.base0.lenOrth 0 ha.2.2
  rw [show sp.base0.gradient _ d0 0 = _ from e0, bind_ok]
  have e1 := alloc_good h1 k0 (by decide : 1 < 3) rfl
  have k1 := good_mapAx g1 sp.base1.lenOrth 1 k0.2.2
  rw [show sp.base1.gradient _ d1 1 = _ from e1, bind_ok]
  have e2 := alloc_good h2 k1 (by decide : 2 < 3) h21
  have k2 := good_mapAx g2 sp.base1.lenOrth 2 k1.2.2
  rw [show sp.base1.gradient _ d2 2 = _ from e2, bind_ok]
  cases scale with
  | none => rw [scale3, inv_one, scaleArr_one]; rfl
  | some c =>
    obtain ⟨c0, c1, c2⟩ := c
    obtain ⟨q0, q1, q2⟩ := hsc (by simp)
    rw [scale3] at hne ⊢
    dsimp only
    rw [powi_ok q0, bind_ok, powi_ok q1, bind_ok, powi_ok q2, bind_ok, divAll_ok hne]

theorem gradientPar_eq {d0 d1 d2 : ℕ} {g0 g1 g2 : List T → List T}
    (h0 : Computes (fun v out => sp.base0.gradientSlice v out d0) sp.base0.lenSpec sp.base0.lenOrth g0) (h1 : Computes (fun v out => sp.base1.gradientSlice v out d1) sp.base1.lenSpec sp.base1.lenOrth g1) (h2 : Computes (fun v out => sp.base1.gradientSlice v out d2) sp.base1.lenSpec sp.base1.lenOrth g2) (h21 : sp.base2.lenSpec = sp.base1.lenSpec)
    {a : Arr T} (ha : Good a sp.shapeSpectral) {scale : Option (ℝ × ℝ × ℝ)}
    (hsc : scale ≠ none → d0 < 2 ^ 31 ∧ d1 < 2 ^ 31 ∧ d2 < 2 ^ 31) (hne : scale3 d0 d1 d2 scale ≠ 0)
    {s0 s1 s2 : List ℕ} (hs0 : FairSchedule [sp.base0.lenOrth, sp.base1.lenSpec, sp.base2.lenSpec] 0 s0) (hs1 : FairSchedule [sp.base0.lenOrth, sp.base1.lenOrth, sp.base2.lenSpec] 1 s1) (hs2 : FairSchedule [sp.base0.lenOrth, sp.base1.lenOrth, sp.base1.lenOrth] 2 s2) :
    sp.gradientPar s0 s1 s2 a d0 d1 d2 scale = ok (scaleArr (scale3 d0 d1 d2 scale)⁻¹ (mapAx g2 sp.base1.lenOrth 2 (mapAx g1 sp.base1.lenOrth 1 (mapAx g0 sp.base0.lenOrth 0 a)))) := by
  unfold gradientPar
  have e0 := alloc_par_good h0 ha (by decide : 0 < 3) rfl hs0
  have k0 := good_mapAx g0 sp.base0.lenOrth 0 ha.2.2
  rw [show sp.base0.gradientPar s0 _ d0 0 = _ from e0, bind_ok]
  have e1 := alloc_par_good h1 k0 (by decide : 1 < 3) rfl hs1
  have k1 := good_mapAx g1 sp.base1.lenOrth 1 k0.2.2
  rw [show sp.base1.gradientPar s1 _ d1 1 = _ from e1, bind_ok]
  have e2 := alloc_par_good h2 k1 (by decide : 2 < 3) h21 hs2
  have k2 := good_mapAx g2 sp.base1.lenOrth 2 k1.2.2
  rw [show sp.base1.gradientPar s2 _ d2 2 = _ from e2, bind_ok]
  cases scale with
  | none => rw [scale3, inv_one, scaleArr_one]; rfl
  | some c =>
    obtain ⟨c0, c1, c2⟩ := c
    obtain ⟨q0, q1, q2⟩ := hsc (by simp)
    rw [scale3] at hne ⊢
    dsimp only
    rw [powi_ok q0, bind_ok, powi_ok q1, bind_ok, powi_ok q2, bind_ok, divAll_ok hne]

end
end Space3

/-! ### functionals -/

section
variable {S T R : Type} [Zero S] [Zero T] [AddCommMonoid R] {g : List S → List T} {n m : ℕ}

theorem inBounds_cons {n i : ℕ} {sh idx : List ℕ} (h : i < n) (h' : InBounds sh idx) :
    InBounds (n :: sh) (i :: idx) := List.Forall₂.cons h h'

theorem inBounds_nil : InBounds [] [] := List.Forall₂.nil

theorem inBounds1 {n i : ℕ} (h : i < n) : InBounds [n] [i] := inBounds_cons h inBounds_nil
theorem inBounds2 {n0 n1 i0 i1 : ℕ} (h0 : i0 < n0) (h1 : i1 < n1) : InBounds [n0, n1] [i0, i1] :=
  inBounds_cons h0 (inBounds1 h1)
theorem inBounds3 {n0 n1 n2 i0 i1 i2 : ℕ} (h0 : i0 < n0) (h1 : i1 < n1) (h2 : i2 < n2) :
    InBounds [n0, n1, n2] [i0, i1, i2] := inBounds_cons h0 (inBounds2 h1 h2)

theorem mapAx_functional (hg : ∀ x, x.length = n → (g x).length = m) (φ : ℕ → T → R)
    (ψ : ℕ → S → R)
    (hlaw : ∀ x, x.length = n → ∑ i ∈ range m, φ i (nth (g x) i) = ∑ i ∈ range n, ψ i (nth x i))
    {ax : ℕ} {a : Arr S} {sh : List ℕ} (ha : a.shape = sh) (hax : ax < sh.length)
    (hn : sh.getD ax 0 = n) {idx : List ℕ} (hidx : InBounds (sh.set ax 1) idx) :
    ∑ i ∈ range m, φ i (at_ (mapAx g m ax a) (idx.set ax i))
      = ∑ i ∈ range n, ψ i (at_ a (idx.set ax i)) :=
  maps_functional (mapAx_spec ..) (by rw [ha]; exact hax) (by rw [ha]; exact hn) hg φ ψ hlaw
    (m' := 1) (by rw [ha]; exact hidx)

theorem at_mapAx {ax : ℕ} {a : Arr S} {sh : List ℕ} (ha : a.shape = sh) {idx : List ℕ}
    (hidx : InBounds (sh.set ax m) idx) :
    at_ (mapAx g m ax a) idx = nth (g (laneAt a ax idx)) (idx.getD ax 0) :=
  (mapAx_spec g m ax a).2.2.2 idx (by rw [mapAx_shape, ha]; exact hidx)

end

end Verif
