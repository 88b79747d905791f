/-
Laws of the bases, in the form in which the spaces use them.
-/
import Verif.Proof.SpaceGrad
import Verif.Props.Fourier

namespace Verif
open Res Spec Finset

section
variable {S T : Type} [Zero T] {f : List S → List T → Res (List T)} {n m : ℕ}
  {g g' : List S → List T}

theorem Spec.Computes.unique (h : Computes f n m g) (h' : Computes f n m g') {x : List S}
    (hx : x.length = n) : g x = g' x := by
  have e := (h x (List.replicate m 0) hx (by simp)).1
  rw [(h' x (List.replicate m 0) hx (by simp)).1] at e
  simpa using e.symm

theorem Spec.Computes.len (h : Computes f n m g) : ∀ x, x.length = n → (g x).length = m :=
  fun x hx => (h x (List.replicate m 0) hx (by simp)).2

end

section
variable {R S T : Type} [CommRing R] [AddCommGroup S] [Module R S] [AddCommGroup T] [Module R T]
  {f : List S → List T → Res (List T)} {n m : ℕ} {g : List S → List T}

theorem isLinear_of_computes (h : Computes f n m g) (hl : LinOp R f n m) : IsLinear R n g := by
  obtain ⟨g', h', hl'⟩ := hl
  intro α β x y hx hy
  rw [h.unique h' (by rw [linComb_length, hx]), hl' α β x y hx hy, h.unique h' hx, h.unique h' hy]

end

section
variable {T : Type} [CommRing T] [Module ℝ T] [SMulCommClass ℝ T T] {b : Base ℝ ℝ T}

theorem Spec.IsR2r.fwdBwd (h : IsR2r b) : FwdBwd b := by
  obtain ⟨k, n, b0, hb, hm, hs, rfl⟩ := h; exact r2r_fwdBwd hb hm hs
theorem Spec.IsR2r.fromTo (h : IsR2r b) : FromTo b := by
  obtain ⟨k, n, b0, hb, hm, hs, rfl⟩ := h; exact r2r_fromTo hb hm hs
theorem Spec.IsR2r.toLin (h : IsR2r b) : LinOp T b.toOrthoSlice b.lenSpec b.lenOrth := by
  obtain ⟨k, n, b0, hb, hm, hs, rfl⟩ := h; exact r2r_toOrtho_lin hb hm
theorem Spec.IsR2r.fromLin (h : IsR2r b) : LinOp T b.fromOrthoSlice b.lenOrth b.lenSpec := by
  obtain ⟨k, n, b0, hb, hm, hs, rfl⟩ := h; exact r2r_fromOrtho_lin hb hs
theorem Spec.IsR2r.fwdLin (h : IsR2r b) : LinOp ℝ b.forwardSlice b.lenPhys b.lenSpec := by
  obtain ⟨k, n, b0, hb, hm, hs, rfl⟩ := h; exact r2r_forward_lin hb hs
theorem Spec.IsR2r.bwdLin (h : IsR2r b) : LinOp ℝ b.backwardSlice b.lenSpec b.lenPhys := by
  obtain ⟨k, n, b0, hb, hm, hs, rfl⟩ := h; exact r2r_backward_lin hb hm
theorem Spec.IsCheb.isR2r {n : ℕ} (h : IsCheb n b) : IsR2r b := by
  obtain ⟨b0, hb, rfl⟩ := h; exact ⟨none, n, b0, hb, trivial, trivial, rfl⟩
theorem Spec.IsCheb.bwdFwd {n : ℕ} (h : IsCheb n b) : BwdFwd b := by
  obtain ⟨b0, hb, rfl⟩ := h; exact cheb_bwdFwd hb
end

section
variable {n : ℕ} {b : Base ℝ ℂ ℂ}
theorem Spec.IsR2c.bwdFwd (h : IsR2c n b) : BwdFwd b := by
  obtain ⟨hn, b0, hb, rfl⟩ := h; exact (r2c_laws hn hb).2.1
theorem Spec.IsR2c.fromTo (h : IsR2c n b) : FromTo b := by
  obtain ⟨hn, b0, hb, rfl⟩ := h; exact (r2c_laws hn hb).2.2
theorem Spec.IsR2c.fwdLin (h : IsR2c n b) : LinOp ℝ b.forwardSlice b.lenPhys b.lenSpec := by
  obtain ⟨hn, b0, hb, rfl⟩ := h; exact (r2c_laws hn hb).1.1
theorem Spec.IsR2c.bwdLin (h : IsR2c n b) : LinOp ℝ b.backwardSlice b.lenSpec b.lenPhys := by
  obtain ⟨hn, b0, hb, rfl⟩ := h; exact (r2c_laws hn hb).1.2.1
theorem Spec.IsR2c.toLin (h : IsR2c n b) : LinOp ℂ b.toOrthoSlice b.lenSpec b.lenOrth := by
  obtain ⟨hn, b0, hb, rfl⟩ := h; exact (r2c_laws hn hb).1.2.2.1
theorem Spec.IsR2c.fromLin (h : IsR2c n b) : LinOp ℂ b.fromOrthoSlice b.lenOrth b.lenSpec := by
  obtain ⟨hn, b0, hb, rfl⟩ := h; exact (r2c_laws hn hb).1.2.2.2.1
theorem Spec.IsR2c.gradLin (h : IsR2c n b) (d : ℕ) :
    LinOp ℂ (fun x out => b.gradientSlice x out d) b.lenSpec b.lenOrth := by
  obtain ⟨hn, b0, hb, rfl⟩ := h; exact (r2c_laws hn hb).1.2.2.2.2 d
end

section
variable {n : ℕ} {b : Base ℂ ℂ ℂ}
theorem Spec.IsC2c.fwdBwd (h : IsC2c n b) : FwdBwd b := by
  obtain ⟨hn, b0, hb, rfl⟩ := h; exact (c2c_laws hn hb).2.1
theorem Spec.IsC2c.bwdFwd (h : IsC2c n b) : BwdFwd b := by
  obtain ⟨hn, b0, hb, rfl⟩ := h; exact (c2c_laws hn hb).2.2.1
theorem Spec.IsC2c.fromTo (h : IsC2c n b) : FromTo b := by
  obtain ⟨hn, b0, hb, rfl⟩ := h; exact (c2c_laws hn hb).2.2.2
theorem Spec.IsC2c.fwdLin (h : IsC2c n b) : LinOp ℂ b.forwardSlice b.lenPhys b.lenSpec := by
  obtain ⟨hn, b0, hb, rfl⟩ := h; exact (c2c_laws hn hb).1.1
theorem Spec.IsC2c.bwdLin (h : IsC2c n b) : LinOp ℂ b.backwardSlice b.lenSpec b.lenPhys := by
  obtain ⟨hn, b0, hb, rfl⟩ := h; exact (c2c_laws hn hb).1.2.1
theorem Spec.IsC2c.toLin (h : IsC2c n b) : LinOp ℂ b.toOrthoSlice b.lenSpec b.lenOrth := by
  obtain ⟨hn, b0, hb, rfl⟩ := h; exact (c2c_laws hn hb).1.2.2.1
theorem Spec.IsC2c.fromLin (h : IsC2c n b) : LinOp ℂ b.fromOrthoSlice b.lenOrth b.lenSpec := by
  obtain ⟨hn, b0, hb, rfl⟩ := h; exact (c2c_laws hn hb).1.2.2.2.1
theorem Spec.IsC2c.gradLin (h : IsC2c n b) (d : ℕ) :
    LinOp ℂ (fun x out => b.gradientSlice x out d) b.lenSpec b.lenOrth := by
  obtain ⟨hn, b0, hb, rfl⟩ := h; exact (c2c_laws hn hb).1.2.2.2.2 d
end


/-! ### real-to-complex round trip -/

theorem rfft_real (n : ℕ) (hn : 1 ≤ n) (x : List ℝ) (hx : x.length = n) :
    (nth (rfftFwd x) 0).im = 0 ∧ (n % 2 = 0 → (nth (rfftFwd x) (n / 2)).im = 0) := by
  have hH := real_herm hn (fun j => nth x j)
  constructor
  · rw [nth_rfftFwd _ (by omega), hx]
    exact Complex.conj_eq_iff_im.mp hH.1
  · intro h2
    rw [nth_rfftFwd _ (by omega), hx]
    have := hH.2 (n / 2) (by omega) (by omega)
    rw [show n - n / 2 = n / 2 by omega] at this
    exact Complex.conj_eq_iff_im.mp this

theorem Spec.IsR2c.laws {n : ℕ} {b : Base ℝ ℂ ℂ} (h : IsR2c n b) :
    b.lenSpec = n / 2 + 1 ∧ ∃ φ β, Computes b.forwardSlice b.lenPhys b.lenSpec φ ∧
      Computes b.backwardSlice b.lenSpec b.lenPhys β ∧
      (∀ v, v.length = b.lenSpec → (nth v 0).im = 0 → (n % 2 = 0 → (nth v (n / 2)).im = 0) →
        φ (β v) = v) ∧
      (∀ x, x.length = b.lenPhys → β (φ x) = x) ∧
      ∀ x, x.length = b.lenPhys →
        (nth (φ x) 0).im = 0 ∧ (n % 2 = 0 → (nth (φ x) (n / 2)).im = 0) := by
  have hbf := h.bwdFwd
  obtain ⟨hn, b0, hb, rfl⟩ := h
  obtain rfl := r2c_inv hb
  refine ⟨rfl, ?_⟩
  obtain ⟨φ, β, hφ, hβ, hr⟩ := hbf
  refine ⟨φ, β, hφ, hβ, fun v hv h0 hN => roundtrip_of hφ hβ hv ?_, hr, fun x hx => ?_⟩
  · obtain ⟨w, e1, -, e2⟩ := Props.C28_forward_backward n hn ⟨n, n / 2 + 1⟩ rfl v
      (List.replicate _ 0) (List.replicate n 0) hv (List.length_replicate ..)
      (List.length_replicate ..) h0 hN
    exact ⟨w, e1, e2⟩
  · have e := (hφ x (List.replicate (n / 2 + 1) 0) hx (List.length_replicate ..)).1
    have e2 : R2c.forwardSlice ⟨n, n / 2 + 1⟩ x (List.replicate (n / 2 + 1) 0) = ok (rfftFwd x) :=
      r2c_forward_eq n x _ hx (List.length_replicate ..)
    have e3 : φ x = rfftFwd x := by
      have := e.symm.trans e2
      simpa using this
    rw [e3]
    exact rfft_real n hn x hx

theorem both_laws {P S T : Type} [Zero P] [Zero S] {b : Base P S T} (h : FwdBwd b) (h' : BwdFwd b) :
    ∃ φ β, Computes b.forwardSlice b.lenPhys b.lenSpec φ ∧
      Computes b.backwardSlice b.lenSpec b.lenPhys β ∧
      (∀ v, v.length = b.lenSpec → φ (β v) = v) ∧ ∀ x, x.length = b.lenPhys → β (φ x) = x := by
  obtain ⟨φ, β, hφ, hβ, r⟩ := h
  obtain ⟨φ', β', hφ', hβ', r'⟩ := h'
  refine ⟨φ, β, hφ, hβ, r, fun x hx => ?_⟩
  rw [hβ.unique hβ' (hφ.len x hx), hφ.unique hφ' hx, r' x hx]

theorem realModes_iff {n p s ax : ℕ} {φ : List ℝ → List ℂ} {β : List ℂ → List ℝ} (hs : s = n / 2 + 1)
    (hφ : ∀ x, x.length = p → (φ x).length = s) (hβ : ∀ x, x.length = s → (β x).length = p)
    (h1 : ∀ v, v.length = s → (nth v 0).im = 0 → (n % 2 = 0 → (nth v (n / 2)).im = 0) →
      φ (β v) = v)
    (h2 : ∀ x, x.length = p →
      (nth (φ x) 0).im = 0 ∧ (n % 2 = 0 → (nth (φ x) (n / 2)).im = 0))
    {u : Arr ℂ} {sh : List ℕ} (hu : Good u sh) (hax : ax < sh.length) (hn : sh.getD ax 0 = s) :
    mapAx φ s ax (mapAx β p ax u) = u ↔ RealModes n ax u := by
  obtain ⟨u1, u2, rfl⟩ := hu
  have hl : ∀ idx, (laneAt u ax idx).length = s := fun idx => by rw [laneAt_length, hn]
  have e0 : ∀ idx, nth (laneAt u ax idx) 0 = at_ u (idx.set ax 0) := fun idx =>
    nth_laneAt _ _ _ (by omega)
  have eN : ∀ idx, nth (laneAt u ax idx) (n / 2) = at_ u (idx.set ax (n / 2)) := fun idx =>
    nth_laneAt _ _ _ (by omega)
  constructor
  · intro h idx hidx
    rw [← e0, ← eN]
    have hb : InBounds ((mapAx β p ax u).shape.set ax s) idx := by
      rw [mapAx_shape, List.set_set, ← hn, set_getD_self]; exact hidx
    have hlen : (laneAt (mapAx β p ax u) ax idx).length = p := by
      rw [laneAt_length, mapAx_shape, getD_set_self _ _ hax]
    have := laneAt_maps (mapAx_spec φ s ax (mapAx β p ax u)) (by rw [mapAx_shape]; simpa using hax)
      hb (hφ _ hlen)
    rw [h] at this
    rw [this]
    exact h2 _ hlen
  · intro h
    refine mapAx_roundtrip u1 u2 hax hn hβ (fun idx hidx => ?_)
    obtain ⟨q1, q2⟩ := h idx hidx
    exact h1 _ (hl idx) (by rw [e0]; exact q1) (fun h' => by rw [eN]; exact q2 h')

end Verif
