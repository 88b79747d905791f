/-
Spaces over orthogonal spaces.
-/
import Verif.Proof.Parent
import Verif.Spec.Parent

namespace Verif
open Res Spec Finset

section
variable {S T : Type} [AddCommGroup S] [Module ℝ S] [AddCommGroup T] [Module ℝ T]

omit [Module ℝ T] in
theorem lt_of_good {a : Arr T} {sh : List ℕ} {i : ℕ} (h : Good a sh) (hi : i < sh.length) : i < a.shape.length := by
  rw [h.2.2]; exact hi

omit [Module ℝ T] in
theorem ext_of_good {a : Arr T} {sh : List ℕ} {i n : ℕ} (h : Good a sh) (hn : sh.getD i 0 = n) :
    a.shape.getD i 0 = n := by
  rw [h.2.2]; exact hn

theorem isLinear_comp {U R : Type} [AddCommGroup U] [CommRing R] [Module R S] [Module R T] [Module R U]
    {g : List S → List T} {h : List T → List U} {n m : ℕ}
    (hg : IsLinear R n g) (hl : ∀ x, x.length = n → (g x).length = m) (hh : IsLinear R m h) :
    IsLinear R n (h ∘ g) := fun α β x y hx hy => by
  rw [Function.comp_apply, hg _ _ _ _ hx hy, hh _ _ _ _ (hl x hx) (hl y hy)]; rfl

theorem scaleArr_mul (c d : ℝ) (a : Arr T) : scaleArr c (scaleArr d a) = scaleArr (c * d) a := by
  simp [scaleArr, mul_smul, Function.comp_def]

theorem mapAx_scaleArr {g : List S → List T} {n m ax : ℕ} (hg : IsLinear ℝ n g)
    (hl : ∀ x, x.length = n → (g x).length = m) (c : ℝ) {a : Arr S} (hax : ax < a.shape.length)
    (hn : a.shape.getD ax 0 = n) :
    mapAx g m ax (scaleArr c a) = scaleArr c (mapAx g m ax a) := by
  refine arr_ext (by simp [scaleArr]) rfl (mapAx_wf ..)
    (good_scaleArr (c := c) (sh := a.shape.set ax m) ⟨mapAx_wf .., rfl, by simp⟩).1 (fun idx hidx => ?_)
  rw [mapAx_shape] at hidx
  rw [at_mapAx rfl hidx, at_scaleArr, at_mapAx rfl (show InBounds (a.shape.set ax m) idx from hidx)]
  have hi : idx.getD ax 0 < m := by
    have := hidx.get (ax := ax) (by simpa [scaleArr] using hax)
    rwa [getD_set_self _ _ (by simpa [scaleArr] using hax)] at this
  have hll : (laneAt a ax idx).length = n := by rw [laneAt_length, hn]
  have e : laneAt (scaleArr c a) ax idx = linComb ℝ c 0 (laneAt a ax idx) (laneAt a ax idx) := by
    refine ext_nth (by simp [linComb, scaleArr]) (fun p hp => ?_)
    have hp' : p < a.shape.getD ax 0 := by simpa [scaleArr] using hp
    rw [nth_laneAt _ _ _ (by simpa [scaleArr] using hp), at_scaleArr, linComb, nth_map_range _ _ _ (by simpa using hp'),
      nth_laneAt _ _ _ hp']
    simp
  rw [e, hg _ _ _ _ hll hll, linComb, nth_map_range _ _ _ (by rw [hl _ hll]; exact hi)]
  simp

theorem isLinear_real {T : Type} [CommRing T] [Algebra ℝ T] {g : List T → List T} {n : ℕ} (l : IsLinear T n g) :
    IsLinear ℝ n g := fun α β x y hx hy => by
  have e : ∀ u v : List T, linComb ℝ α β u v = linComb T (algebraMap ℝ T α) (algebraMap ℝ T β) u v := fun u v => by
    simp [linComb, Algebra.smul_def]
  rw [e, e, l _ _ _ _ hx hy]

end

section
variable {P S : Type} [AddCommGroup P] [Module ℝ P] [AddCommGroup S] [Module ℝ S]

theorem factors1 {sp spo : Space1 P S S} (h0 : Parent sp.base0 spo.base0) : Factors1 sp spo := by
  obtain ⟨p0, q0, r0, ⟨Q0, cQ0, φ0, cφ0, lφ0, f0⟩, E0, cE0, β0, cβ0, lβ0, b0⟩ := h0
  constructor
  · intro a ha
    have c0 := cφ0
    rw [← p0, ← q0] at c0
    have hw := spo.forward_eq c0 (a := a) (by rw [Space1.shapePhysical, p0]; exact ha)
    rw [q0] at hw
    have k0 := good_mapAx φ0 sp.base0.lenOrth 0 ha.2.2
    refine ⟨_, _, hw, sp.fromOrtho_eq cQ0 k0, ?_⟩
    rw [sp.forward_eq f0 ha, mapAx_comp (lt_of_good ha (by decide : 0 < 1)) (ext_of_good ha rfl) cφ0.len]
  · intro v hv
    have c0 := cβ0
    rw [← p0, ← q0] at c0
    have k0 := good_mapAx (matL sp.base0.lenOrth sp.base0.lenSpec E0) sp.base0.lenOrth 0 hv.2.2
    have hw := spo.backward_eq c0 (a := mapAx (matL sp.base0.lenOrth sp.base0.lenSpec E0) sp.base0.lenOrth 0 v)
      (by rw [Space1.shapeSpectral, q0]; exact k0)
    rw [p0] at hw
    refine ⟨_, _, sp.toOrtho_eq cE0 hv, hw, ?_⟩
    rw [sp.backward_eq b0 hv, mapAx_comp (lt_of_good hv (by decide : 0 < 1)) (ext_of_good hv rfl) cE0.len]

end

section
variable {P I S : Type} [AddCommGroup P] [Module ℝ P] [AddCommGroup I] [Module ℝ I] [AddCommGroup S] [Module ℝ S]

theorem factors2 {sp spo : Space2 P I S S} (h0 : Parent sp.base0 spo.base0) (h1 : Parent sp.base1 spo.base1) :
    Factors2 sp spo := by
  obtain ⟨p0, q0, r0, ⟨Q0, cQ0, φ0, cφ0, lφ0, f0⟩, E0, cE0, β0, cβ0, lβ0, b0⟩ := h0
  obtain ⟨p1, q1, r1, ⟨Q1, cQ1, φ1, cφ1, lφ1, f1⟩, E1, cE1, β1, cβ1, lβ1, b1⟩ := h1
  constructor
  · intro a ha
    have c0 := cφ0
    have c1 := cφ1
    rw [← p0, ← q0] at c0
    rw [← p1, ← q1] at c1
    have hw := spo.forward_eq c0 c1 (a := a) (by rw [Space2.shapePhysical, p0, p1]; exact ha)
    rw [q0, q1] at hw
    have k1 := good_mapAx φ1 sp.base1.lenOrth 1 ha.2.2
    have k0 := good_mapAx φ0 sp.base0.lenOrth 0 k1.2.2
    refine ⟨_, _, hw, sp.fromOrtho_eq cQ0 cQ1 k0, ?_⟩
    rw [sp.forward_eq f0 f1 ha]
    congr 1
    rw [mapAx_comp (lt_of_good k1 (by decide : 0 < 2)) (ext_of_good k1 rfl) cφ0.len,
      mapAx_matL_comm (n' := sp.base1.lenOrth) (by decide : 0 ≠ 1) (isLinear_comp lφ0 cφ0.len (matL_linear sp.base0.lenSpec sp.base0.lenOrth Q0))
        (fun y _ => matL_length ..) _
        (lt_of_good k1 (by decide : 0 < 2)) (lt_of_good k1 (by decide : 1 < 2)) (ext_of_good k1 rfl) (ext_of_good k1 rfl),
      mapAx_comp (lt_of_good ha (by decide : 1 < 2)) (ext_of_good ha rfl) cφ1.len]
  · intro v hv
    have c0 := cβ0
    have c1 := cβ1
    rw [← p0, ← q0] at c0
    rw [← p1, ← q1] at c1
    have k0 := good_mapAx (matL sp.base0.lenOrth sp.base0.lenSpec E0) sp.base0.lenOrth 0 hv.2.2
    have k1 := good_mapAx (matL sp.base1.lenOrth sp.base1.lenSpec E1) sp.base1.lenOrth 1 k0.2.2
    have hw := spo.backward_eq c0 c1 (a := mapAx (matL sp.base1.lenOrth sp.base1.lenSpec E1) sp.base1.lenOrth 1
      (mapAx (matL sp.base0.lenOrth sp.base0.lenSpec E0) sp.base0.lenOrth 0 v))
      (by rw [Space2.shapeSpectral, q0, q1]; exact k1)
    rw [p0, p1] at hw
    refine ⟨_, _, sp.toOrtho_eq cE0 cE1 hv, hw, ?_⟩
    rw [sp.backward_eq b0 b1 hv]
    congr 1
    have j0 := good_mapAx (β0 ∘ matL sp.base0.lenOrth sp.base0.lenSpec E0) sp.base0.lenPhys 0 hv.2.2
    rw [← mapAx_matL_comm (n' := sp.base1.lenSpec) (by decide : 0 ≠ 1) lβ0 cβ0.len _ (lt_of_good k0 (by decide : 0 < 2))
        (lt_of_good k0 (by decide : 1 < 2)) (ext_of_good k0 rfl) (ext_of_good k0 rfl),
      mapAx_comp (lt_of_good hv (by decide : 0 < 2)) (ext_of_good hv rfl) cE0.len,
      mapAx_comp (lt_of_good j0 (by decide : 1 < 2)) (ext_of_good j0 rfl) (fun y _ => by simp)]

end

section
variable {P I J S : Type} [AddCommGroup P] [Module ℝ P] [AddCommGroup I] [Module ℝ I] [AddCommGroup J] [Module ℝ J]
  [AddCommGroup S] [Module ℝ S]

theorem factors3 {sp spo : Space3 P I J S S} (h0 : Parent sp.base0 spo.base0) (h1 : Parent sp.base1 spo.base1)
    (h2 : Parent sp.base2 spo.base2) : Factors3 sp spo := by
  obtain ⟨p0, q0, r0, ⟨Q0, cQ0, φ0, cφ0, lφ0, f0⟩, E0, cE0, β0, cβ0, lβ0, b0⟩ := h0
  obtain ⟨p1, q1, r1, ⟨Q1, cQ1, φ1, cφ1, lφ1, f1⟩, E1, cE1, β1, cβ1, lβ1, b1⟩ := h1
  obtain ⟨p2, q2, r2, ⟨Q2, cQ2, φ2, cφ2, lφ2, f2⟩, E2, cE2, β2, cβ2, lβ2, b2⟩ := h2
  constructor
  · intro a ha
    have c0 := cφ0
    have c1 := cφ1
    have c2 := cφ2
    rw [← p0, ← q0] at c0
    rw [← p1, ← q1] at c1
    rw [← p2, ← q2] at c2
    have hw := spo.forward_eq c0 c1 c2 (a := a) (by rw [Space3.shapePhysical, p0, p1, p2]; exact ha)
    rw [q0, q1, q2] at hw
    have k2 := good_mapAx φ2 sp.base2.lenOrth 2 ha.2.2
    have k1 := good_mapAx φ1 sp.base1.lenOrth 1 k2.2.2
    have k0 := good_mapAx φ0 sp.base0.lenOrth 0 k1.2.2
    have j1 := good_mapAx (matL sp.base1.lenSpec sp.base1.lenOrth Q1 ∘ φ1) sp.base1.lenSpec 1 k2.2.2
    refine ⟨_, _, hw, sp.fromOrtho_eq cQ0 cQ1 cQ2 k0, ?_⟩
    rw [sp.forward_eq f0 f1 f2 ha]
    congr 1
    rw [mapAx_comp (lt_of_good k1 (by decide : 0 < 3)) (ext_of_good k1 rfl) cφ0.len,
      mapAx_matL_comm (n' := sp.base1.lenOrth) (by decide : 0 ≠ 1) (isLinear_comp lφ0 cφ0.len (matL_linear sp.base0.lenSpec sp.base0.lenOrth Q0))
        (fun y _ => matL_length ..) _
        (lt_of_good k1 (by decide : 0 < 3)) (lt_of_good k1 (by decide : 1 < 3)) (ext_of_good k1 rfl) (ext_of_good k1 rfl),
      mapAx_comp (lt_of_good k2 (by decide : 1 < 3)) (ext_of_good k2 rfl) cφ1.len,
      mapAx_matL_comm (n' := sp.base2.lenOrth) (by decide : 0 ≠ 2) (isLinear_comp lφ0 cφ0.len (matL_linear sp.base0.lenSpec sp.base0.lenOrth Q0))
        (fun y _ => matL_length ..) _
        (lt_of_good j1 (by decide : 0 < 3)) (lt_of_good j1 (by decide : 2 < 3)) (ext_of_good j1 rfl) (ext_of_good j1 rfl),
      mapAx_matL_comm (n' := sp.base2.lenOrth) (by decide : 1 ≠ 2) (isLinear_comp lφ1 cφ1.len (matL_linear sp.base1.lenSpec sp.base1.lenOrth Q1))
        (fun y _ => matL_length ..) _
        (lt_of_good k2 (by decide : 1 < 3)) (lt_of_good k2 (by decide : 2 < 3)) (ext_of_good k2 rfl) (ext_of_good k2 rfl),
      mapAx_comp (lt_of_good ha (by decide : 2 < 3)) (ext_of_good ha rfl) cφ2.len]
  · intro v hv
    have c0 := cβ0
    have c1 := cβ1
    have c2 := cβ2
    rw [← p0, ← q0] at c0
    rw [← p1, ← q1] at c1
    rw [← p2, ← q2] at c2
    have k0 := good_mapAx (matL sp.base0.lenOrth sp.base0.lenSpec E0) sp.base0.lenOrth 0 hv.2.2
    have k1 := good_mapAx (matL sp.base1.lenOrth sp.base1.lenSpec E1) sp.base1.lenOrth 1 k0.2.2
    have k2 := good_mapAx (matL sp.base2.lenOrth sp.base2.lenSpec E2) sp.base2.lenOrth 2 k1.2.2
    have hw := spo.backward_eq c0 c1 c2 (a := mapAx (matL sp.base2.lenOrth sp.base2.lenSpec E2) sp.base2.lenOrth 2
      (mapAx (matL sp.base1.lenOrth sp.base1.lenSpec E1) sp.base1.lenOrth 1
      (mapAx (matL sp.base0.lenOrth sp.base0.lenSpec E0) sp.base0.lenOrth 0 v)))
      (by rw [Space3.shapeSpectral, q0, q1, q2]; exact k2)
    rw [p0, p1, p2] at hw
    refine ⟨_, _, sp.toOrtho_eq cE0 cE1 cE2 hv, hw, ?_⟩
    rw [sp.backward_eq b0 b1 b2 hv]
    congr 1
    have j0 := good_mapAx (β0 ∘ matL sp.base0.lenOrth sp.base0.lenSpec E0) sp.base0.lenPhys 0 hv.2.2
    have j1 := good_mapAx (matL (T := J) sp.base1.lenOrth sp.base1.lenSpec E1) sp.base1.lenOrth 1 j0.2.2
    have j2 := good_mapAx (β1 ∘ matL sp.base1.lenOrth sp.base1.lenSpec E1) sp.base1.lenPhys 1 j0.2.2
    rw [← mapAx_matL_comm (n' := sp.base2.lenSpec) (by decide : 0 ≠ 2) lβ0 cβ0.len _ (lt_of_good k1 (by decide : 0 < 3))
        (lt_of_good k1 (by decide : 2 < 3)) (ext_of_good k1 rfl) (ext_of_good k1 rfl),
      ← mapAx_matL_comm (n' := sp.base1.lenSpec) (by decide : 0 ≠ 1) lβ0 cβ0.len _ (lt_of_good k0 (by decide : 0 < 3))
        (lt_of_good k0 (by decide : 1 < 3)) (ext_of_good k0 rfl) (ext_of_good k0 rfl),
      mapAx_comp (lt_of_good hv (by decide : 0 < 3)) (ext_of_good hv rfl) cE0.len,
      ← mapAx_matL_comm (n' := sp.base2.lenSpec) (by decide : 1 ≠ 2) lβ1 cβ1.len _ (lt_of_good j1 (by decide : 1 < 3))
        (lt_of_good j1 (by decide : 2 < 3)) (ext_of_good j1 rfl) (ext_of_good j1 rfl),
      mapAx_comp (lt_of_good j0 (by decide : 1 < 3)) (ext_of_good j0 rfl) (fun y _ => by simp),
      mapAx_comp (lt_of_good j2 (by decide : 2 < 3)) (ext_of_good j2 rfl) (fun y _ => by simp)]

end


/-! ### gradients -/

section
variable {P S : Type} [Zero P] [CommRing S] [Algebra ℝ S]

theorem derives1 {sp spo : Space1 P S S} (h0 : GradParent sp.base0 spo.base0) : Derives1 sp spo := by
  obtain ⟨q0, r0, E0, cE0, g0, hg0, hc0⟩ := h0
  constructor
  · intro v d0 s hv hs hne
    have c0 := (hg0 d0).1
    have k0 := good_mapAx (matL sp.base0.lenOrth sp.base0.lenSpec E0) sp.base0.lenOrth 0 hv.2.2
    have hw := spo.gradient_eq (d0 := d0) (g0 := g0 d0) (by rw [q0, r0]; exact c0)
      (a := mapAx (matL sp.base0.lenOrth sp.base0.lenSpec E0) sp.base0.lenOrth 0 v)
      (by rw [Space1.shapeSpectral, q0]; exact k0) hs hne
    rw [r0] at hw
    refine ⟨_, _, sp.toOrtho_eq cE0 hv, hw, ?_⟩
    rw [sp.gradient_eq (hg0 d0).2.2 hv hs hne,
      mapAx_comp (lt_of_good hv (by decide : 0 < 1)) (ext_of_good hv rfl) cE0.len]
  · intro v d0 e0 s hv hs hne
    have hd : s ≠ none → d0 < 2 ^ 31 := fun h => by have := hs h; omega
    have he : s ≠ none → e0 < 2 ^ 31 := fun h => by have := hs h; omega
    have hsc : scale1 (d0 + e0) s = scale1 d0 s * scale1 e0 s := by
      cases s with
      | none => simp [scale1]
      | some c => simp [scale1, pow_add]
    rw [hsc] at hne
    have cd := (hg0 d0).2.2
    have ce := (hg0 e0).1
    have k0 := good_mapAx (g0 d0 ∘ matL sp.base0.lenOrth sp.base0.lenSpec E0) sp.base0.lenOrth 0 hv.2.2
    have hw := spo.gradient_eq (d0 := e0) (g0 := g0 e0) (by rw [q0, r0]; exact ce)
      (a := scaleArr (scale1 d0 s)⁻¹ (mapAx (g0 d0 ∘ matL sp.base0.lenOrth sp.base0.lenSpec E0) sp.base0.lenOrth 0 v))
      (by rw [Space1.shapeSpectral, q0]; exact good_scaleArr k0) he (right_ne_zero_of_mul hne)
    rw [r0] at hw
    refine ⟨_, _, sp.gradient_eq cd hv hd (left_ne_zero_of_mul hne), hw, ?_⟩
    rw [sp.gradient_eq (hg0 (d0 + e0)).2.2 hv hs (by rw [hsc]; exact hne),
      mapAx_scaleArr (isLinear_real (hg0 e0).2.1) ce.len _ (lt_of_good k0 (by decide : 0 < 1)) (ext_of_good k0 rfl),
      scaleArr_mul, mapAx_comp (lt_of_good hv (by decide : 0 < 1)) (ext_of_good hv rfl) cd.len, hsc, mul_inv_rev]
    congr 2
    exact mapAx_congr (ext_of_good hv rfl) fun x hx => (hc0 d0 e0 _ (by simp)).symm

end

section
variable {P I S : Type} [Zero P] [Zero I] [CommRing S] [Algebra ℝ S]

theorem derives2 {sp spo : Space2 P I S S} (h0 : GradParent sp.base0 spo.base0) (h1 : GradParent sp.base1 spo.base1) :
    Derives2 sp spo := by
  obtain ⟨q0, r0, E0, cE0, g0, hg0, hc0⟩ := h0
  obtain ⟨q1, r1, E1, cE1, g1, hg1, hc1⟩ := h1
  constructor
  · intro v d0 d1 s hv hs hne
    have c0 := (hg0 d0).1
    have c1 := (hg1 d1).1
    have k0 := good_mapAx (matL sp.base0.lenOrth sp.base0.lenSpec E0) sp.base0.lenOrth 0 hv.2.2
    have k1 := good_mapAx (matL sp.base1.lenOrth sp.base1.lenSpec E1) sp.base1.lenOrth 1 k0.2.2
    have j0 := good_mapAx (g0 d0 ∘ matL sp.base0.lenOrth sp.base0.lenSpec E0) sp.base0.lenOrth 0 hv.2.2
    have hw := spo.gradient_eq (d0 := d0) (d1 := d1) (g0 := g0 d0) (g1 := g1 d1) (by rw [q0, r0]; exact c0)
      (by rw [q1, r1]; exact c1) (by rw [Space2.shapeSpectral, q0, q1]; exact k1) hs hne
    rw [r0, r1] at hw
    refine ⟨_, _, sp.toOrtho_eq cE0 cE1 hv, hw, ?_⟩
    rw [sp.gradient_eq (hg0 d0).2.2 (hg1 d1).2.2 hv hs hne]
    congr 2
    rw [← mapAx_matL_comm (n' := sp.base1.lenSpec) (by decide : 0 ≠ 1) (isLinear_real (hg0 d0).2.1) c0.len _
        (lt_of_good k0 (by decide : 0 < 2)) (lt_of_good k0 (by decide : 1 < 2)) (ext_of_good k0 rfl) (ext_of_good k0 rfl),
      mapAx_comp (lt_of_good hv (by decide : 0 < 2)) (ext_of_good hv rfl) cE0.len,
      mapAx_comp (lt_of_good j0 (by decide : 1 < 2)) (ext_of_good j0 rfl) (fun y _ => by simp)]
  · intro v d0 d1 e0 e1 s hv hs hne
    have hd : s ≠ none → d0 < 2 ^ 31 ∧ d1 < 2 ^ 31 := fun h => by have := hs h; omega
    have he : s ≠ none → e0 < 2 ^ 31 ∧ e1 < 2 ^ 31 := fun h => by have := hs h; omega
    have hsc : scale2 (d0 + e0) (d1 + e1) s = scale2 d0 d1 s * scale2 e0 e1 s := by
      cases s with
      | none => simp [scale2]
      | some c => simp only [scale2, pow_add]; ring
    rw [hsc] at hne
    have cd0 := (hg0 d0).2.2
    have cd1 := (hg1 d1).2.2
    have ce0 := (hg0 e0).1
    have ce1 := (hg1 e1).1
    have k0 := good_mapAx (g0 d0 ∘ matL sp.base0.lenOrth sp.base0.lenSpec E0) sp.base0.lenOrth 0 hv.2.2
    have k1 := good_mapAx (g1 d1 ∘ matL sp.base1.lenOrth sp.base1.lenSpec E1) sp.base1.lenOrth 1 k0.2.2
    have k2 := good_mapAx (g0 e0) sp.base0.lenOrth 0 k1.2.2
    have hw := spo.gradient_eq (d0 := e0) (d1 := e1) (g0 := g0 e0) (g1 := g1 e1) (by rw [q0, r0]; exact ce0)
      (by rw [q1, r1]; exact ce1)
      (by rw [Space2.shapeSpectral, q0, q1]; exact good_scaleArr (c := (scale2 d0 d1 s)⁻¹) k1) he
      (right_ne_zero_of_mul hne)
    rw [r0, r1] at hw
    refine ⟨_, _, sp.gradient_eq cd0 cd1 hv hd (left_ne_zero_of_mul hne), hw, ?_⟩
    rw [sp.gradient_eq (hg0 (d0 + e0)).2.2 (hg1 (d1 + e1)).2.2 hv hs (by rw [hsc]; exact hne),
      mapAx_scaleArr (isLinear_real (hg0 e0).2.1) ce0.len _ (lt_of_good k1 (by decide : 0 < 2)) (ext_of_good k1 rfl),
      mapAx_scaleArr (isLinear_real (hg1 e1).2.1) ce1.len _ (lt_of_good k2 (by decide : 1 < 2)) (ext_of_good k2 rfl),
      scaleArr_mul, hsc, mul_inv_rev]
    congr 2
    have l1 : IsLinear S sp.base1.lenSpec (g1 d1 ∘ matL sp.base1.lenOrth sp.base1.lenSpec E1) :=
      isLinear_comp (matL_linear _ _ _) (fun y _ => by simp) (hg1 d1).2.1
    have j0 := good_mapAx (g0 (d0 + e0) ∘ matL sp.base0.lenOrth sp.base0.lenSpec E0) sp.base0.lenOrth 0 hv.2.2
    rw [mapAx_comm (by decide : 1 ≠ 0) l1 cd1.len (hg0 e0).2.1 ce0.len (lt_of_good k0 (by decide : 1 < 2))
        (lt_of_good k0 (by decide : 0 < 2)) (ext_of_good k0 rfl) (ext_of_good k0 rfl),
      mapAx_comp (lt_of_good hv (by decide : 0 < 2)) (ext_of_good hv rfl) cd0.len,
      mapAx_congr (g := g0 e0 ∘ g0 d0 ∘ matL sp.base0.lenOrth sp.base0.lenSpec E0)
        (g' := g0 (d0 + e0) ∘ matL sp.base0.lenOrth sp.base0.lenSpec E0) (ext_of_good hv rfl)
        (fun x _ => hc0 d0 e0 _ (by simp)),
      mapAx_comp (lt_of_good j0 (by decide : 1 < 2)) (ext_of_good j0 rfl) cd1.len,
      mapAx_congr (g := g1 e1 ∘ g1 d1 ∘ matL sp.base1.lenOrth sp.base1.lenSpec E1)
        (g' := g1 (d1 + e1) ∘ matL sp.base1.lenOrth sp.base1.lenSpec E1) (ext_of_good j0 rfl)
        (fun x _ => hc1 d1 e1 _ (by simp))]

end

section
variable {S : Type} [CommRing S] [Algebra ℝ S]

/-- two sweeps over the three axes are one sweep of the compositions -/
theorem sweep3 {A0 A1 A2 B0 B1 B2 : List S → List S} {m0 m1 m2 n0 n1 n2 k0 k1 k2 : ℕ}
    (hB0 : ∀ x, x.length = n0 → (B0 x).length = m0)
    (lB1 : IsLinear S n1 B1) (hB1 : ∀ x, x.length = n1 → (B1 x).length = m1)
    (lB2 : IsLinear S n2 B2) (hB2 : ∀ x, x.length = n2 → (B2 x).length = m2)
    (lA0 : IsLinear S m0 A0) (hA0 : ∀ x, x.length = m0 → (A0 x).length = k0)
    (lA1 : IsLinear S m1 A1) (hA1 : ∀ x, x.length = m1 → (A1 x).length = k1)
    {v : Arr S} (hv : Good v [n0, n1, n2]) :
    mapAx A2 k2 2 (mapAx A1 k1 1 (mapAx A0 k0 0 (mapAx B2 m2 2 (mapAx B1 m1 1 (mapAx B0 m0 0 v))))) =
      mapAx (A2 ∘ B2) k2 2 (mapAx (A1 ∘ B1) k1 1 (mapAx (A0 ∘ B0) k0 0 v)) := by
  have v0 := good_mapAx B0 m0 0 hv.2.2
  have v1 := good_mapAx B1 m1 1 v0.2.2
  have w0 := good_mapAx (A0 ∘ B0) k0 0 hv.2.2
  have w1 := good_mapAx B1 m1 1 w0.2.2
  have w2 := good_mapAx (A1 ∘ B1) k1 1 w0.2.2
  rw [mapAx_comm (by decide : 2 ≠ 0) lB2 hB2 lA0 hA0 (lt_of_good v1 (by decide : 2 < 3))
      (lt_of_good v1 (by decide : 0 < 3)) (ext_of_good v1 rfl) (ext_of_good v1 rfl),
    mapAx_comm (by decide : 1 ≠ 0) lB1 hB1 lA0 hA0 (lt_of_good v0 (by decide : 1 < 3))
      (lt_of_good v0 (by decide : 0 < 3)) (ext_of_good v0 rfl) (ext_of_good v0 rfl),
    mapAx_comp (lt_of_good hv (by decide : 0 < 3)) (ext_of_good hv rfl) hB0,
    mapAx_comm (by decide : 2 ≠ 1) lB2 hB2 lA1 hA1 (lt_of_good w1 (by decide : 2 < 3))
      (lt_of_good w1 (by decide : 1 < 3)) (ext_of_good w1 rfl) (ext_of_good w1 rfl),
    mapAx_comp (lt_of_good w0 (by decide : 1 < 3)) (ext_of_good w0 rfl) hB1,
    mapAx_comp (lt_of_good w2 (by decide : 2 < 3)) (ext_of_good w2 rfl) hB2]

end

section
variable {P S : Type} [Zero P] [CommRing S] [Algebra ℝ S]

theorem derives3 {b0 b0' : Base P S S} {b1 b1' : Base P P S} (h0 : GradParent b0 b0') (h1 : GradParent b1 b1') :
    Derives3 (Space3.new b0 b1 b1) (Space3.new b0' b1' b1') := by
  obtain ⟨q0, r0, E0, cE0, g0, hg0, hc0⟩ := h0
  obtain ⟨q1, r1, E1, cE1, g1, hg1, hc1⟩ := h1
  constructor
  · intro v d0 d1 d2 s hv hs hne
    have k0 := good_mapAx (matL b0.lenOrth b0.lenSpec E0) b0.lenOrth 0 hv.2.2
    have k1 := good_mapAx (matL b1.lenOrth b1.lenSpec E1) b1.lenOrth 1 k0.2.2
    have k2 := good_mapAx (matL b1.lenOrth b1.lenSpec E1) b1.lenOrth 2 k1.2.2
    have hw := (Space3.new b0' b1' b1').gradient_eq (d0 := d0) (d1 := d1) (d2 := d2) (g0 := g0 d0) (g1 := g1 d1)
      (g2 := g1 d2)
      (by simp only [Space3.new]; rw [q0, r0]; exact (hg0 d0).1)
      (by simp only [Space3.new]; rw [q1, r1]; exact (hg1 d1).1)
      (by simp only [Space3.new]; rw [q1, r1]; exact (hg1 d2).1) rfl
      (by simp only [Space3.new, Space3.shapeSpectral]; rw [q0, q1]; exact k2) hs hne
    simp only [Space3.new] at hw
    rw [r0, r1] at hw
    refine ⟨_, _, (Space3.new b0 b1 b1).toOrtho_eq cE0 cE1 cE1 hv, hw, ?_⟩
    rw [(Space3.new b0 b1 b1).gradient_eq (hg0 d0).2.2 (hg1 d1).2.2 (hg1 d2).2.2 rfl hv hs hne]
    congr 2
    exact (sweep3 cE0.len (matL_linear _ _ _) cE1.len (matL_linear _ _ _) cE1.len (hg0 d0).2.1 (hg0 d0).1.len
      (hg1 d1).2.1 (hg1 d1).1.len hv).symm
  · intro v d0 d1 d2 e0 e1 e2 s hv hs hne
    have hd : s ≠ none → d0 < 2 ^ 31 ∧ d1 < 2 ^ 31 ∧ d2 < 2 ^ 31 := fun h => by have := hs h; omega
    have he : s ≠ none → e0 < 2 ^ 31 ∧ e1 < 2 ^ 31 ∧ e2 < 2 ^ 31 := fun h => by have := hs h; omega
    have hsc : scale3 (d0 + e0) (d1 + e1) (d2 + e2) s = scale3 d0 d1 d2 s * scale3 e0 e1 e2 s := by
      cases s with
      | none => simp [scale3]
      | some c => simp only [scale3, pow_add]; ring
    rw [hsc] at hne
    have cd0 := (hg0 d0).2.2
    have cd1 := (hg1 d1).2.2
    have cd2 := (hg1 d2).2.2
    have ce0 := (hg0 e0).1
    have ce1 := (hg1 e1).1
    have ce2 := (hg1 e2).1
    have k0 := good_mapAx (g0 d0 ∘ matL b0.lenOrth b0.lenSpec E0) b0.lenOrth 0 hv.2.2
    have k1 := good_mapAx (g1 d1 ∘ matL b1.lenOrth b1.lenSpec E1) b1.lenOrth 1 k0.2.2
    have k2 := good_mapAx (g1 d2 ∘ matL b1.lenOrth b1.lenSpec E1) b1.lenOrth 2 k1.2.2
    have k3 := good_mapAx (g0 e0) b0.lenOrth 0 k2.2.2
    have k4 := good_mapAx (g1 e1) b1.lenOrth 1 k3.2.2
    have hw := (Space3.new b0' b1' b1').gradient_eq (d0 := e0) (d1 := e1) (d2 := e2) (g0 := g0 e0) (g1 := g1 e1)
      (g2 := g1 e2)
      (by simp only [Space3.new]; rw [q0, r0]; exact (hg0 e0).1)
      (by simp only [Space3.new]; rw [q1, r1]; exact (hg1 e1).1)
      (by simp only [Space3.new]; rw [q1, r1]; exact (hg1 e2).1) rfl
      (by simp only [Space3.new, Space3.shapeSpectral]; rw [q0, q1]
          exact good_scaleArr (c := (scale3 d0 d1 d2 s)⁻¹) k2) he
      (right_ne_zero_of_mul hne)
    simp only [Space3.new] at hw
    rw [r0, r1] at hw
    refine ⟨_, _, (Space3.new b0 b1 b1).gradient_eq cd0 cd1 cd2 rfl hv hd (left_ne_zero_of_mul hne), hw, ?_⟩
    rw [(Space3.new b0 b1 b1).gradient_eq (hg0 (d0 + e0)).2.2 (hg1 (d1 + e1)).2.2 (hg1 (d2 + e2)).2.2 rfl hv hs
        (by rw [hsc]; exact hne)]
    simp only [Space3.new]
    rw [mapAx_scaleArr (isLinear_real (hg0 e0).2.1) ce0.len _ (lt_of_good k2 (by decide : 0 < 3)) (ext_of_good k2 rfl),
      mapAx_scaleArr (isLinear_real (hg1 e1).2.1) ce1.len _ (lt_of_good k3 (by decide : 1 < 3)) (ext_of_good k3 rfl),
      mapAx_scaleArr (isLinear_real (hg1 e2).2.1) ce2.len _ (lt_of_good k4 (by decide : 2 < 3)) (ext_of_good k4 rfl),
      scaleArr_mul, hsc, mul_inv_rev]
    congr 2
    have l1 : ∀ d, IsLinear S b1.lenSpec (g1 d ∘ matL b1.lenOrth b1.lenSpec E1) := fun d =>
      isLinear_comp (matL_linear _ _ _) (fun y _ => by simp) (hg1 d).2.1
    have j0 := good_mapAx (g0 (d0 + e0) ∘ matL b0.lenOrth b0.lenSpec E0) b0.lenOrth 0 hv.2.2
    have j1 := good_mapAx (g1 (d1 + e1) ∘ matL b1.lenOrth b1.lenSpec E1) b1.lenOrth 1 j0.2.2
    rw [sweep3 cd0.len (l1 d1) cd1.len (l1 d2) cd2.len (hg0 e0).2.1 ce0.len (hg1 e1).2.1 ce1.len hv,
      mapAx_congr (g := g0 e0 ∘ g0 d0 ∘ matL b0.lenOrth b0.lenSpec E0)
        (g' := g0 (d0 + e0) ∘ matL b0.lenOrth b0.lenSpec E0) (ext_of_good hv rfl) (fun x _ => hc0 d0 e0 _ (by simp)),
      mapAx_congr (g := g1 e1 ∘ g1 d1 ∘ matL b1.lenOrth b1.lenSpec E1)
        (g' := g1 (d1 + e1) ∘ matL b1.lenOrth b1.lenSpec E1) (ext_of_good j0 rfl) (fun x _ => hc1 d1 e1 _ (by simp)),
      mapAx_congr (g := g1 e2 ∘ g1 d2 ∘ matL b1.lenOrth b1.lenSpec E1)
        (g' := g1 (d2 + e2) ∘ matL b1.lenOrth b1.lenSpec E1) (ext_of_good j1 rfl) (fun x _ => hc1 d2 e2 _ (by simp))]

end

end Verif
