/-
Properties of the distributed space (C48, C49, C57, C58).
-/
import Verif.Proof.SpaceMpi
import Verif.Props.SpaceInst
import Verif.Props.Mpi

namespace Verif.Props
open Res Spec Mpi

/-! ### C48: no lookup of a decomposition fails -/

section
variable {P I S T A : Type} {o : Mode} {N : ℕ} {b0 : Base I S T A} {b1 : Base P I T A}

/-- C48: every construction that returns (also with too few points) keeps exactly the decompositions
of the shapes made of the physical and spectral lengths of the two bases; looking up any other shape
panics. -/
theorem C48_lookup_iff {r : ℕ} {sp : Space2Mpi P I S T A} (h : Space2Mpi.new o N r b0 b1 = ok sp)
    (shape : List ℕ) :
    (∀ d, sp.getDecomp shape = ok d ↔ ∃ n0 n1, (n0 = b0.lenPhys ∨ n0 = b0.lenSpec) ∧
      (n1 = b1.lenPhys ∨ n1 = b1.lenSpec) ∧ shape = [n0, n1] ∧ Decomp2d.new o N r [n0, n1] = ok d) ∧
    ((∀ n0 n1, (n0 = b0.lenPhys ∨ n0 = b0.lenSpec) → (n1 = b1.lenPhys ∨ n1 = b1.lenSpec) →
      shape ≠ [n0, n1]) → sp.getDecomp shape = err .panic) := by
  obtain ⟨-, hist, hh, hm⟩ := Space2Mpi.new_hist h
  have key : sp.getDecomp shape
      = (hist.find? (fun d => d.getGlobalShape = shape)).elim (err .panic) ok := by
    unfold Space2Mpi.getDecomp; rw [hh]; exact C47_lookup hist shape
  rw [key]
  cases hf : hist.find? (fun d => d.getGlobalShape = shape) with
  | none =>
    have hn : ∀ e ∈ hist, e.getGlobalShape ≠ shape := by simpa using hf
    refine ⟨fun d => ⟨fun h => (by cases h), ?_⟩, fun _ => rfl⟩
    rintro ⟨n0, n1, h0, h1, rfl, hd⟩
    exact absurd (Decomp2d.new_shape hd) (hn _ ((hm d).2 ⟨n0, n1, h0, h1, hd⟩))
  | some e =>
    have h1 : e.getGlobalShape = shape := by simpa using List.find?_some hf
    obtain ⟨m0, m1, g0, g1, he⟩ := (hm e).1 (List.mem_of_find?_eq_some hf)
    have hs : shape = [m0, m1] := h1.symm.trans (Decomp2d.new_shape he)
    refine ⟨fun d => ⟨fun h => ⟨m0, m1, g0, g1, hs, ?_⟩, ?_⟩, fun h => absurd hs (h m0 m1 g0 g1)⟩
    · rw [← Res.ok.inj h]; exact he
    · rintro ⟨n0, n1, -, -, h3, hd⟩
      rw [← h3, hs, he] at hd
      exact hd

/-- C48: the lookups of the distributed transforms (physical × spectral), of the changes of basis
(orthogonal × spectral, spectral × orthogonal, orthogonal × orthogonal, spectral × spectral), of the
gradient, and of the other methods (physical × physical, spectral × spectral) never fail, and return
the decomposition of the shape asked for. -/
theorem C48_never_misses {r : ℕ} {sp : Space2Mpi P I S T A} (h : Space2Mpi.new o N r b0 b1 = ok sp)
    (h0 : OrthFits b0) (h1 : OrthFits b1) {n0 n1 : ℕ}
    (hn0 : n0 = b0.lenPhys ∨ n0 = b0.lenSpec ∨ n0 = b0.lenOrth)
    (hn1 : n1 = b1.lenPhys ∨ n1 = b1.lenSpec ∨ n1 = b1.lenOrth) :
    ∃ d, sp.getDecomp [n0, n1] = ok d ∧ Decomp2d.new o N r [n0, n1] = ok d ∧
      d.getGlobalShape = [n0, n1] := by
  have k0 : n0 = b0.lenPhys ∨ n0 = b0.lenSpec := by
    rcases hn0 with h | h | h
    · exact .inl h
    · exact .inr h
    · rcases h0 with e | e
      · exact .inl (h.trans e)
      · exact .inr (h.trans e)
  have k1 : n1 = b1.lenPhys ∨ n1 = b1.lenSpec := by
    rcases hn1 with h | h | h
    · exact .inl h
    · exact .inr h
    · rcases h1 with e | e
      · exact .inl (h.trans e)
      · exact .inr (h.trans e)
  obtain ⟨d, hd⟩ := Space2Mpi.new_made h k0 k1
  exact ⟨d, ((C48_lookup_iff h [n0, n1]).1 d).2 ⟨n0, n1, k0, k1, rfl, hd⟩, hd, Decomp2d.new_shape hd⟩

end

/-- C48: the hypothesis `OrthFits` holds for all bases made by the public constructors. -/
theorem C48_bases :
    (∀ k n b, newR2r k n = ok b → OrthFits (b.toBase ℝ) ∧ OrthFits (b.toBase ℂ)) ∧
    (∀ n b, IsR2c n b → OrthFits b) ∧ (∀ n b, IsC2c n b → OrthFits b) := by
  refine ⟨fun k n b hb => ⟨?_, ?_⟩, fun n b h => ?_, fun n b h => ?_⟩
  · obtain ⟨h1, h2, -⟩ := C41_sizes_r2r (T := ℝ) k n b hb; exact .inl (h2.trans h1.symm)
  · obtain ⟨h1, h2, -⟩ := C41_sizes_r2r (T := ℂ) k n b hb; exact .inl (h2.trans h1.symm)
  · obtain ⟨-, h1, h2⟩ := C41_sizes_r2c n b h; exact .inr (h2.trans h1.symm)
  · obtain ⟨-, h1, h2⟩ := C41_sizes_c2c n b h; exact .inr (h2.trans h1.symm)

/-- C48: the construction succeeds if every rank gets a point of every grid. -/
theorem C48_new {P I S T A : Type} (o : Mode) {N r : ℕ} {b0 : Base I S T A} {b1 : Base P I T A} (hr : r < N)
    (p0 : Splits N b0.lenPhys) (s0 : Splits N b0.lenSpec) (p1 : Splits N b1.lenPhys)
    (s1 : Splits N b1.lenSpec) :
    ∃ sp, Space2Mpi.new o N r b0 b1 = ok sp ∧ sp.space = ⟨b0, b1⟩ ∧ sp.getNprocs = N ∧
      sp.getNrank = r :=
  ⟨_, Space2Mpi.new_ok hr (by omega) p0 s0 p1 s1, rfl, rfl, rfl⟩

/-! ### C49: distributed results are the pencils of the serial results -/

section
variable {P I S T A : Type} [Zero P] [Zero I] [Zero S] [Zero T] {o : Mode} {N : ℕ} {b0 : Base I S T A}
  {b1 : Base P I T A} {sp : ℕ → Space2Mpi P I S T A} (h : Distributed o N b0 b1 sp)
include h

/-- C49: `forward_mpi` and `forward_inplace_mpi` (whatever the output arrays contain): from the
y-pencils of a global array to the x-pencils of what the serial `forward` returns. -/
theorem C49_forward (h0 : ∃ g, Computes b0.forwardSlice b0.lenPhys b0.lenSpec g)
    (h1 : ∃ g, Computes b1.forwardSlice b1.lenPhys b1.lenSpec g) {a : Arr P}
    (ha : Good a (Space2.shapePhysical ⟨b0, b1⟩)) {p : ℕ → Arr P} (hp : ∀ r < N, YPencil (sp r) a (p r)) :
    ∃ A q, Space2.forward ⟨b0, b1⟩ a = ok A ∧ (∀ r < N, XPencil (sp r) A (q r)) ∧
      AllReturn N (fun r => (sp r).forwardMpi o (p r)) q ∧
      ∀ out : ℕ → Arr S, (∀ r < N, XShaped (sp r) (Space2.shapeSpectral ⟨b0, b1⟩) (out r)) →
        AllReturn N (fun r => (sp r).forwardInplaceMpi o (p r) (out r)) q := by
  obtain ⟨g0, h0⟩ := h0
  obtain ⟨g1, h1⟩ := h1
  obtain ⟨f, rfl⟩ : ∃ f, a = mk2 b0.lenPhys b1.lenPhys f := ⟨_, eq_mk2 ha⟩
  have hp' : ∀ r < N, p r = yPen b0.lenPhys b1.lenPhys N r f :=
    fun r hr => (h.yPencil_iff hr (.inl rfl) (.inl rfl) _ _).1 (hp r hr)
  have hser := Space2.forward_eq ⟨b0, b1⟩ h0 h1 ha
  refine ⟨_, fun r => xPen b0.lenSpec b1.lenSpec N r (map0 g0 b0.lenPhys (map1 g1 b1.lenPhys f)), hser,
    fun r hr => ?_, ?_, fun out hout => ?_⟩
  · rw [mapAx1_mk2, mapAx0_mk2]
    exact (h.xPencil_iff hr (.inr rfl) (.inr rfl) _ _).2 rfl
  · exact ((forward_runs h h0 h1 f).congr (fun r hr => by rw [hp' r hr]) (fun _ _ => rfl)).allReturn
  · exact ((forwardInplace_runs h h0 h1 _ out (fun r hr => (h.xShaped_iff hr (.inr rfl) (.inr rfl) _).1 (hout r hr))).congr
      (fun r hr => by rw [hp' r hr]) (fun _ _ => rfl)).allReturn

/-- C49: `backward_mpi` and `backward_inplace_mpi` (whatever the output arrays contain): from the
x-pencils of a global array to the y-pencils of what the serial `backward` returns. -/
theorem C49_backward (h0 : ∃ g, Computes b0.backwardSlice b0.lenSpec b0.lenPhys g)
    (h1 : ∃ g, Computes b1.backwardSlice b1.lenSpec b1.lenPhys g) {a : Arr S}
    (ha : Good a (Space2.shapeSpectral ⟨b0, b1⟩)) {p : ℕ → Arr S} (hp : ∀ r < N, XPencil (sp r) a (p r)) :
    ∃ A q, Space2.backward ⟨b0, b1⟩ a = ok A ∧ (∀ r < N, YPencil (sp r) A (q r)) ∧
      AllReturn N (fun r => (sp r).backwardMpi o (p r)) q ∧
      ∀ out : ℕ → Arr P, (∀ r < N, YShaped (sp r) (Space2.shapePhysical ⟨b0, b1⟩) (out r)) →
        AllReturn N (fun r => (sp r).backwardInplaceMpi o (p r) (out r)) q := by
  obtain ⟨g0, h0⟩ := h0
  obtain ⟨g1, h1⟩ := h1
  obtain ⟨f, rfl⟩ : ∃ f, a = mk2 b0.lenSpec b1.lenSpec f := ⟨_, eq_mk2 ha⟩
  have hp' : ∀ r < N, p r = xPen b0.lenSpec b1.lenSpec N r f :=
    fun r hr => (h.xPencil_iff hr (.inr rfl) (.inr rfl) _ _).1 (hp r hr)
  have hser := Space2.backward_eq ⟨b0, b1⟩ h0 h1 ha
  refine ⟨_, fun r => yPen b0.lenPhys b1.lenPhys N r (map1 g1 b1.lenSpec (map0 g0 b0.lenSpec f)), hser,
    fun r hr => ?_, ?_, fun out hout => ?_⟩
  · rw [mapAx0_mk2, mapAx1_mk2]
    exact (h.yPencil_iff hr (.inl rfl) (.inl rfl) _ _).2 rfl
  · exact ((backward_runs h h0 h1 _).congr (fun r hr => by rw [hp' r hr]) (fun _ _ => rfl)).allReturn
  · exact ((backwardInplace_runs h h0 h1 _ out (fun r hr => (h.yShaped_iff hr (.inl rfl) (.inl rfl) _).1 (hout r hr))).congr
      (fun r hr => by rw [hp' r hr]) (fun _ _ => rfl)).allReturn

/-- C49: `to_ortho_mpi` and `to_ortho_inplace_mpi` (whatever the output arrays contain): from the
x-pencils of a global array to the x-pencils of what the serial `to_ortho` returns. -/
theorem C49_to_ortho (h0 : ∃ g, Computes b0.toOrthoSlice b0.lenSpec b0.lenOrth g)
    (h1 : ∃ g, Computes b1.toOrthoSlice b1.lenSpec b1.lenOrth g) {a : Arr T}
    (ha : Good a (Space2.shapeSpectral ⟨b0, b1⟩)) {p : ℕ → Arr T} (hp : ∀ r < N, XPencil (sp r) a (p r)) :
    ∃ A q, Space2.toOrtho ⟨b0, b1⟩ a = ok A ∧ (∀ r < N, XPencil (sp r) A (q r)) ∧
      AllReturn N (fun r => (sp r).toOrthoMpi o (p r)) q ∧
      ∀ out : ℕ → Arr T, (∀ r < N, XShaped (sp r) (Space2.shapeSpectralOrtho ⟨b0, b1⟩) (out r)) →
        AllReturn N (fun r => (sp r).toOrthoInplaceMpi o (p r) (out r)) q := by
  obtain ⟨g0, h0⟩ := h0
  obtain ⟨g1, h1⟩ := h1
  obtain ⟨f, rfl⟩ : ∃ f, a = mk2 b0.lenSpec b1.lenSpec f := ⟨_, eq_mk2 ha⟩
  have hp' : ∀ r < N, p r = xPen b0.lenSpec b1.lenSpec N r f :=
    fun r hr => (h.xPencil_iff hr (.inr rfl) (.inr rfl) _ _).1 (hp r hr)
  have hser := Space2.toOrtho_eq ⟨b0, b1⟩ h0 h1 ha
  refine ⟨_, fun r => xPen b0.lenOrth b1.lenOrth N r (map1 g1 b1.lenSpec (map0 g0 b0.lenSpec f)), hser,
    fun r hr => ?_, ?_, fun out hout => ?_⟩
  · rw [mapAx0_mk2, mapAx1_mk2]
    exact (h.xPencil_iff hr h.orth0 h.orth1 _ _).2 rfl
  · exact ((toOrtho_runs h h0 h1 _).congr (fun r hr => by rw [hp' r hr]) (fun _ _ => rfl)).allReturn
  · exact ((toOrthoInplace_runs h h0 h1 _ out (fun r hr => (h.xShaped_iff hr h.orth0 h.orth1 _).1 (hout r hr))).congr
      (fun r hr => by rw [hp' r hr]) (fun _ _ => rfl)).allReturn

/-- C49: `from_ortho_mpi` and `from_ortho_inplace_mpi` (whatever the output arrays contain): from the
x-pencils of a global array to the x-pencils of what the serial `from_ortho` returns. -/
theorem C49_from_ortho (h0 : ∃ g, Computes b0.fromOrthoSlice b0.lenOrth b0.lenSpec g)
    (h1 : ∃ g, Computes b1.fromOrthoSlice b1.lenOrth b1.lenSpec g) {a : Arr T}
    (ha : Good a (Space2.shapeSpectralOrtho ⟨b0, b1⟩)) {p : ℕ → Arr T} (hp : ∀ r < N, XPencil (sp r) a (p r)) :
    ∃ A q, Space2.fromOrtho ⟨b0, b1⟩ a = ok A ∧ (∀ r < N, XPencil (sp r) A (q r)) ∧
      AllReturn N (fun r => (sp r).fromOrthoMpi o (p r)) q ∧
      ∀ out : ℕ → Arr T, (∀ r < N, XShaped (sp r) (Space2.shapeSpectral ⟨b0, b1⟩) (out r)) →
        AllReturn N (fun r => (sp r).fromOrthoInplaceMpi o (p r) (out r)) q := by
  obtain ⟨g0, h0⟩ := h0
  obtain ⟨g1, h1⟩ := h1
  obtain ⟨f, rfl⟩ : ∃ f, a = mk2 b0.lenOrth b1.lenOrth f := ⟨_, eq_mk2 ha⟩
  have hp' : ∀ r < N, p r = xPen b0.lenOrth b1.lenOrth N r f :=
    fun r hr => (h.xPencil_iff hr h.orth0 h.orth1 _ _).1 (hp r hr)
  have hser := Space2.fromOrtho_eq ⟨b0, b1⟩ h0 h1 ha
  refine ⟨_, fun r => xPen b0.lenSpec b1.lenSpec N r (map1 g1 b1.lenOrth (map0 g0 b0.lenOrth f)), hser,
    fun r hr => ?_, ?_, fun out hout => ?_⟩
  · rw [mapAx0_mk2, mapAx1_mk2]
    exact (h.xPencil_iff hr (.inr rfl) (.inr rfl) _ _).2 rfl
  · exact ((fromOrtho_runs h h0 h1 _).congr (fun r hr => by rw [hp' r hr]) (fun _ _ => rfl)).allReturn
  · exact ((fromOrthoInplace_runs h h0 h1 _ out (fun r hr => (h.xShaped_iff hr (.inr rfl) (.inr rfl) _).1 (hout r hr))).congr
      (fun r hr => by rw [hp' r hr]) (fun _ _ => rfl)).allReturn

end

section
variable {P I S T A : Type} [Zero P] [Zero I] [Zero S] [Zero T] [Mul A] [Powi A] [DivBy A T] {o : Mode} {N : ℕ}
  {b0 : Base I S T A} {b1 : Base P I T A} {sp : ℕ → Space2Mpi P I S T A} (h : Distributed o N b0 b1 sp)
include h

/-- C49: `gradient_mpi` on the x-pencils gives the x-pencils of what the serial `gradient` returns,
whenever it returns (in exact arithmetic it fails if a scale makes it divide by zero). -/
theorem C49_gradient {d0 d1 : ℕ} (h0 : RunsGradient b0 d0) (h1 : RunsGradient b1 d1) {a B : Arr T}
    (ha : Good a (Space2.shapeSpectral ⟨b0, b1⟩)) {scale : Option (A × A)}
    (hB : Space2.gradient ⟨b0, b1⟩ a d0 d1 scale = ok B)
    {p : ℕ → Arr T} (hp : ∀ r < N, XPencil (sp r) a (p r)) :
    ∃ q, (∀ r < N, XPencil (sp r) B (q r)) ∧
      AllReturn N (fun r => (sp r).gradientMpi o (p r) d0 d1 scale) q := by
  obtain ⟨g0, h0⟩ := h0
  obtain ⟨g1, h1⟩ := h1
  obtain ⟨f, rfl⟩ : ∃ f, a = mk2 b0.lenSpec b1.lenSpec f := ⟨_, eq_mk2 ha⟩
  obtain ⟨k, hk, rfl⟩ := scaleOk_of_serial h0 h1 hB
  have hp' : ∀ r < N, p r = xPen b0.lenSpec b1.lenSpec N r f :=
    fun r hr => (h.xPencil_iff hr (.inr rfl) (.inr rfl) _ _).1 (hp r hr)
  refine ⟨_, fun r hr => ?_, ((gradient_runs h h0 h1 f hk).congr
    (fun r hr => by rw [hp' r hr]) (fun _ _ => rfl)).allReturn⟩
  exact (h.xPencil_iff hr h.orth0 h.orth1 _ _).2 rfl

end

/-! ### C57: shapes of the pencils, transposes, gather and scatter -/

section
variable {P I S T A : Type} [Zero P] [Zero I] [Zero S] [Zero T] {o : Mode} {N : ℕ} {b0 : Base I S T A}
  {b1 : Base P I T A} {sp : ℕ → Space2Mpi P I S T A} (h : Distributed o N b0 b1 sp)
include h

/-- C57: the pencil shapes and the arrays of zeros of these shapes. -/
theorem C57_pencil_shapes {r : ℕ} (hr : r < N) :
    ∃ dp ds, Decomp2d.new o N r (Space2.shapePhysical ⟨b0, b1⟩) = ok dp ∧
      Decomp2d.new o N r (Space2.shapeSpectral ⟨b0, b1⟩) = ok ds ∧
      (sp r).shapePhysicalXPen = ok dp.getXPencilShape ∧
      (sp r).shapePhysicalYPen = ok dp.getYPencilShape ∧
      (sp r).shapeSpectralXPen = ok ds.getXPencilShape ∧
      (sp r).shapeSpectralYPen = ok ds.getYPencilShape ∧
      (∃ a, (sp r).ndarrayPhysicalXPen = ok a ∧ XPencil (sp r) (Arr.zeros (Space2.shapePhysical ⟨b0, b1⟩)) a) ∧
      (∃ a, (sp r).ndarrayPhysicalYPen = ok a ∧ YPencil (sp r) (Arr.zeros (Space2.shapePhysical ⟨b0, b1⟩)) a) ∧
      (∃ a, (sp r).ndarraySpectralXPen = ok a ∧ XPencil (sp r) (Arr.zeros (Space2.shapeSpectral ⟨b0, b1⟩)) a) ∧
      (∃ a, (sp r).ndarraySpectralYPen = ok a ∧ YPencil (sp r) (Arr.zeros (Space2.shapeSpectral ⟨b0, b1⟩)) a) := by
  have hp : (sp r).getDecomp (sp r).space.shapePhysical = ok (decompOf b0.lenPhys b1.lenPhys N r) := by
    rw [h.space_eq hr]; exact h.lookup hr (.inl rfl) (.inl rfl)
  have hs : (sp r).getDecomp (sp r).space.shapeSpectral = ok (decompOf b0.lenSpec b1.lenSpec N r) := by
    rw [h.space_eq hr]; exact h.lookup hr (.inr rfl) (.inr rfl)
  have z : ∀ {U : Type} [Zero U] (n0 n1 : ℕ), (Arr.zeros [n0, n1] : Arr U) = mk2 n0 n1 (fun _ _ => 0) := by
    intro U _ n0 n1
    rw [eq_mk2 (good_zeros [n0, n1])]
    refine mk2_congr (fun i hi j hj => ?_)
    simp only [at_, Arr.zeros, nth, List.getD_eq_getElem?_getD, List.getElem?_replicate]
    split_ifs <;> rfl
  refine ⟨_, _, Decomp2d.new_ok o (h.grid (.inl rfl) (.inl rfl)) hr,
    Decomp2d.new_ok o (h.grid (.inr rfl) (.inr rfl)) hr, ?_, ?_, ?_, ?_,
    ⟨Arr.zeros [b0.lenPhys, cnt b1.lenPhys N r], ?_, ?_⟩, ⟨Arr.zeros [cnt b0.lenPhys N r, b1.lenPhys], ?_, ?_⟩,
    ⟨Arr.zeros [b0.lenSpec, cnt b1.lenSpec N r], ?_, ?_⟩, ⟨Arr.zeros [cnt b0.lenSpec N r, b1.lenSpec], ?_, ?_⟩⟩
  · unfold Space2Mpi.shapePhysicalXPen; rw [hp]; rfl
  · unfold Space2Mpi.shapePhysicalYPen; rw [hp]; rfl
  · unfold Space2Mpi.shapeSpectralXPen; rw [hs]; rfl
  · unfold Space2Mpi.shapeSpectralYPen; rw [hs]; rfl
  · unfold Space2Mpi.ndarrayPhysicalXPen Space2Mpi.shapePhysicalXPen; rw [hp]; rfl
  · change XPencil (sp r) (Arr.zeros [b0.lenPhys, b1.lenPhys]) _
    rw [z b0.lenPhys b1.lenPhys]
    exact (h.xPencil_iff hr (.inl rfl) (.inl rfl) _ _).2 (z _ _)
  · unfold Space2Mpi.ndarrayPhysicalYPen Space2Mpi.shapePhysicalYPen; rw [hp]; rfl
  · change YPencil (sp r) (Arr.zeros [b0.lenPhys, b1.lenPhys]) _
    rw [z b0.lenPhys b1.lenPhys]
    exact (h.yPencil_iff hr (.inl rfl) (.inl rfl) _ _).2 (z _ _)
  · unfold Space2Mpi.ndarraySpectralXPen Space2Mpi.shapeSpectralXPen; rw [hs]; rfl
  · change XPencil (sp r) (Arr.zeros [b0.lenSpec, b1.lenSpec]) _
    rw [z b0.lenSpec b1.lenSpec]
    exact (h.xPencil_iff hr (.inr rfl) (.inr rfl) _ _).2 (z _ _)
  · unfold Space2Mpi.ndarraySpectralYPen Space2Mpi.shapeSpectralYPen; rw [hs]; rfl
  · change YPencil (sp r) (Arr.zeros [b0.lenSpec, b1.lenSpec]) _
    rw [z b0.lenSpec b1.lenSpec]
    exact (h.yPencil_iff hr (.inr rfl) (.inr rfl) _ _).2 (z _ _)

/-- C57: `transpose_x_to_y_phys`. -/
theorem C57_transpose_x_to_y_phys {a : Arr P} (ha : Good a (Space2.shapePhysical ⟨b0, b1⟩)) {p rcv : ℕ → Arr P}
    (hp : ∀ r < N, XPencil (sp r) a (p r)) (hrcv : ∀ r < N, YShaped (sp r) (Space2.shapePhysical ⟨b0, b1⟩) (rcv r)) :
    ∃ q, (∀ r < N, YPencil (sp r) a (q r)) ∧
      AllReturn N (fun r => (sp r).transposeXToYPhys o (p r) (rcv r)) q := by
  have hl : ∀ r < N, (sp r).getDecomp (sp r).space.shapePhysical = ok (decompOf b0.lenPhys b1.lenPhys N r) :=
    fun r hr => by rw [h.space_eq hr]; exact h.lookup hr (.inl rfl) (.inl rfl)
  have hs := h.small' (n0 := b0.lenPhys) (n1 := b1.lenPhys) (.inl rfl) (.inl rfl)
  obtain ⟨f, rfl⟩ : ∃ f, a = mk2 b0.lenPhys b1.lenPhys f := ⟨_, eq_mk2 ha⟩
  refine ⟨_, fun r hr => (h.yPencil_iff hr (.inl rfl) (.inl rfl) _ _).2 rfl, Mpi.Runs.allReturn ?_⟩
  refine Mpi.Runs.lift (a := fun r => decompOf b0.lenPhys b1.lenPhys N r) hl ?_
  refine (transposeXY_runs o (h.grid (.inl rfl) (.inl rfl)) hs.1 hs.2 f rcv
    (fun r hr => (h.yShaped_iff hr (.inl rfl) (.inl rfl) _).1 (hrcv r hr))).congr (fun r hr => ?_) (fun _ _ => rfl)
  rw [(h.xPencil_iff hr (.inl rfl) (.inl rfl) _ _).1 (hp r hr)]

/-- C57: `transpose_y_to_x_phys`. -/
theorem C57_transpose_y_to_x_phys {a : Arr P} (ha : Good a (Space2.shapePhysical ⟨b0, b1⟩)) {p rcv : ℕ → Arr P}
    (hp : ∀ r < N, YPencil (sp r) a (p r)) (hrcv : ∀ r < N, XShaped (sp r) (Space2.shapePhysical ⟨b0, b1⟩) (rcv r)) :
    ∃ q, (∀ r < N, XPencil (sp r) a (q r)) ∧
      AllReturn N (fun r => (sp r).transposeYToXPhys o (p r) (rcv r)) q := by
  have hl : ∀ r < N, (sp r).getDecomp (sp r).space.shapePhysical = ok (decompOf b0.lenPhys b1.lenPhys N r) :=
    fun r hr => by rw [h.space_eq hr]; exact h.lookup hr (.inl rfl) (.inl rfl)
  have hs := h.small' (n0 := b0.lenPhys) (n1 := b1.lenPhys) (.inl rfl) (.inl rfl)
  obtain ⟨f, rfl⟩ : ∃ f, a = mk2 b0.lenPhys b1.lenPhys f := ⟨_, eq_mk2 ha⟩
  refine ⟨_, fun r hr => (h.xPencil_iff hr (.inl rfl) (.inl rfl) _ _).2 rfl, Mpi.Runs.allReturn ?_⟩
  refine Mpi.Runs.lift (a := fun r => decompOf b0.lenPhys b1.lenPhys N r) hl ?_
  refine (transposeYX_runs o (h.grid (.inl rfl) (.inl rfl)) hs.1 hs.2 f rcv
    (fun r hr => (h.xShaped_iff hr (.inl rfl) (.inl rfl) _).1 (hrcv r hr))).congr (fun r hr => ?_) (fun _ _ => rfl)
  rw [(h.yPencil_iff hr (.inl rfl) (.inl rfl) _ _).1 (hp r hr)]

/-- C57: `gather_from_x_pencil_phys_root` on rank 0 and `gather_from_x_pencil_phys` on the others: rank 0
gets the global array; `all_gather_from_x_pencil_phys`: every rank does; `scatter_to_x_pencil_phys_root` on
rank 0 and `scatter_to_x_pencil_phys` on the others: every rank gets its pencil.  The content of the
receiving arrays does not matter. -/
theorem C57_gather_scatter_x_phys (hw : (Space2.shapePhysical ⟨b0, b1⟩).prod < 2 ^ 31) {a : Arr P}
    (ha : Good a (Space2.shapePhysical ⟨b0, b1⟩)) {p : ℕ → Arr P} (hp : ∀ r < N, XPencil (sp r) a (p r)) :
    (∀ rcv, Good rcv (Space2.shapePhysical ⟨b0, b1⟩) →
      AllReturn N (fun r => if r = 0 then do
          let b ← (sp r).gatherFromXPencilPhysRoot o (p r) rcv; pure (some b)
        else do (sp r).gatherFromXPencilPhys o (p r); pure none)
        (fun r => if r = 0 then some a else none)) ∧
    (∀ rcv : ℕ → Arr P, (∀ r < N, Good (rcv r) (Space2.shapePhysical ⟨b0, b1⟩)) →
      AllReturn N (fun r => (sp r).allGatherFromXPencilPhys o (p r) (rcv r)) (fun _ => a)) ∧
    (∀ rcv : ℕ → Arr P, (∀ r < N, XShaped (sp r) (Space2.shapePhysical ⟨b0, b1⟩) (rcv r)) →
      AllReturn N (fun r => if r = 0 then (sp r).scatterToXPencilPhysRoot o a (rcv r)
        else (sp r).scatterToXPencilPhys o (rcv r)) p) := by
  have hl : ∀ r < N, (sp r).getDecomp (sp r).space.shapePhysical = ok (decompOf b0.lenPhys b1.lenPhys N r) :=
    fun r hr => by rw [h.space_eq hr]; exact h.lookup hr (.inl rfl) (.inl rfl)
  have hg := h.grid (n0 := b0.lenPhys) (n1 := b1.lenPhys) (.inl rfl) (.inl rfl)
  have hw' : b0.lenPhys * b1.lenPhys < 2 ^ 31 := by
    have e : (Space2.shapePhysical (⟨b0, b1⟩ : Space2 P I S T A)).prod = b0.lenPhys * b1.lenPhys := by
      change [b0.lenPhys, b1.lenPhys].prod = _
      simp
    rw [← e]; exact hw
  obtain ⟨f, rfl⟩ : ∃ f, a = mk2 b0.lenPhys b1.lenPhys f := ⟨_, eq_mk2 ha⟩
  have hp' := fun r hr => (h.xPencil_iff hr (.inl rfl) (.inl rfl) _ _).1 (hp r hr)
  refine ⟨fun rcv hrcv => ?_, fun rcv hrcv => ?_, fun rcv hrcv => ?_⟩
  · refine ((gatherX_runs o hg hw' f rcv hrcv).congr (fun r hr => ?_)
      (fun _ _ => rfl)).allReturn
    unfold Space2Mpi.gatherFromXPencilPhysRoot Space2Mpi.gatherFromXPencilPhys
    rw [hl r hr, hp' r hr]; rfl
  · refine ((allGatherX_runs o hg hw' f rcv hrcv).congr (fun r hr => ?_)
      (fun _ _ => rfl)).allReturn
    unfold Space2Mpi.allGatherFromXPencilPhys
    rw [hl r hr, hp' r hr]; rfl
  · refine ((scatterX_runs o hg hw' f rcv
      (fun r hr => (h.xShaped_iff hr (.inl rfl) (.inl rfl) _).1 (hrcv r hr))).congr (fun r hr => ?_) hp').allReturn
    unfold Space2Mpi.scatterToXPencilPhysRoot Space2Mpi.scatterToXPencilPhys
    rw [hl r hr]; rfl

/-- C57: `gather_from_y_pencil_phys_root` on rank 0 and `gather_from_y_pencil_phys` on the others: rank 0
gets the global array; `all_gather_from_y_pencil_phys`: every rank does; `scatter_to_y_pencil_phys_root` on
rank 0 and `scatter_to_y_pencil_phys` on the others: every rank gets its pencil.  The content of the
receiving arrays does not matter. -/
theorem C57_gather_scatter_y_phys (hw : (Space2.shapePhysical ⟨b0, b1⟩).prod < 2 ^ 31) {a : Arr P}
    (ha : Good a (Space2.shapePhysical ⟨b0, b1⟩)) {p : ℕ → Arr P} (hp : ∀ r < N, YPencil (sp r) a (p r)) :
    (∀ rcv, Good rcv (Space2.shapePhysical ⟨b0, b1⟩) →
      AllReturn N (fun r => if r = 0 then do
          let b ← (sp r).gatherFromYPencilPhysRoot o (p r) rcv; pure (some b)
        else do (sp r).gatherFromYPencilPhys o (p r); pure none)
        (fun r => if r = 0 then some a else none)) ∧
    (∀ rcv : ℕ → Arr P, (∀ r < N, Good (rcv r) (Space2.shapePhysical ⟨b0, b1⟩)) →
      AllReturn N (fun r => (sp r).allGatherFromYPencilPhys o (p r) (rcv r)) (fun _ => a)) ∧
    (∀ rcv : ℕ → Arr P, (∀ r < N, YShaped (sp r) (Space2.shapePhysical ⟨b0, b1⟩) (rcv r)) →
      AllReturn N (fun r => if r = 0 then (sp r).scatterToYPencilPhysRoot o a (rcv r)
        else (sp r).scatterToYPencilPhys o (rcv r)) p) := by
  have hl : ∀ r < N, (sp r).getDecomp (sp r).space.shapePhysical = ok (decompOf b0.lenPhys b1.lenPhys N r) :=
    fun r hr => by rw [h.space_eq hr]; exact h.lookup hr (.inl rfl) (.inl rfl)
  have hg := h.grid (n0 := b0.lenPhys) (n1 := b1.lenPhys) (.inl rfl) (.inl rfl)
  have hw' : b0.lenPhys * b1.lenPhys < 2 ^ 31 := by
    have e : (Space2.shapePhysical (⟨b0, b1⟩ : Space2 P I S T A)).prod = b0.lenPhys * b1.lenPhys := by
      change [b0.lenPhys, b1.lenPhys].prod = _
      simp
    rw [← e]; exact hw
  obtain ⟨f, rfl⟩ : ∃ f, a = mk2 b0.lenPhys b1.lenPhys f := ⟨_, eq_mk2 ha⟩
  have hp' := fun r hr => (h.yPencil_iff hr (.inl rfl) (.inl rfl) _ _).1 (hp r hr)
  refine ⟨fun rcv hrcv => ?_, fun rcv hrcv => ?_, fun rcv hrcv => ?_⟩
  · refine ((gatherY_runs o hg hw' f rcv hrcv).congr (fun r hr => ?_)
      (fun _ _ => rfl)).allReturn
    unfold Space2Mpi.gatherFromYPencilPhysRoot Space2Mpi.gatherFromYPencilPhys
    rw [hl r hr, hp' r hr]; rfl
  · refine ((allGatherY_runs o hg hw' f rcv hrcv).congr (fun r hr => ?_)
      (fun _ _ => rfl)).allReturn
    unfold Space2Mpi.allGatherFromYPencilPhys
    rw [hl r hr, hp' r hr]; rfl
  · refine ((scatterY_runs o hg hw' f rcv
      (fun r hr => (h.yShaped_iff hr (.inl rfl) (.inl rfl) _).1 (hrcv r hr))).congr (fun r hr => ?_) hp').allReturn
    unfold Space2Mpi.scatterToYPencilPhysRoot Space2Mpi.scatterToYPencilPhys
    rw [hl r hr]; rfl

/-- C57: `transpose_x_to_y_spec`. -/
theorem C57_transpose_x_to_y_spec {a : Arr S} (ha : Good a (Space2.shapeSpectral ⟨b0, b1⟩)) {p rcv : ℕ → Arr S}
    (hp : ∀ r < N, XPencil (sp r) a (p r)) (hrcv : ∀ r < N, YShaped (sp r) (Space2.shapeSpectral ⟨b0, b1⟩) (rcv r)) :
    ∃ q, (∀ r < N, YPencil (sp r) a (q r)) ∧
      AllReturn N (fun r => (sp r).transposeXToYSpec o (p r) (rcv r)) q := by
  have hl : ∀ r < N, (sp r).getDecomp (sp r).space.shapeSpectral = ok (decompOf b0.lenSpec b1.lenSpec N r) :=
    fun r hr => by rw [h.space_eq hr]; exact h.lookup hr (.inr rfl) (.inr rfl)
  have hs := h.small' (n0 := b0.lenSpec) (n1 := b1.lenSpec) (.inr rfl) (.inr rfl)
  obtain ⟨f, rfl⟩ : ∃ f, a = mk2 b0.lenSpec b1.lenSpec f := ⟨_, eq_mk2 ha⟩
  refine ⟨_, fun r hr => (h.yPencil_iff hr (.inr rfl) (.inr rfl) _ _).2 rfl, Mpi.Runs.allReturn ?_⟩
  refine Mpi.Runs.lift (a := fun r => decompOf b0.lenSpec b1.lenSpec N r) hl ?_
  refine (transposeXY_runs o (h.grid (.inr rfl) (.inr rfl)) hs.1 hs.2 f rcv
    (fun r hr => (h.yShaped_iff hr (.inr rfl) (.inr rfl) _).1 (hrcv r hr))).congr (fun r hr => ?_) (fun _ _ => rfl)
  rw [(h.xPencil_iff hr (.inr rfl) (.inr rfl) _ _).1 (hp r hr)]

/-- C57: `transpose_y_to_x_spec`. -/
theorem C57_transpose_y_to_x_spec {a : Arr S} (ha : Good a (Space2.shapeSpectral ⟨b0, b1⟩)) {p rcv : ℕ → Arr S}
    (hp : ∀ r < N, YPencil (sp r) a (p r)) (hrcv : ∀ r < N, XShaped (sp r) (Space2.shapeSpectral ⟨b0, b1⟩) (rcv r)) :
    ∃ q, (∀ r < N, XPencil (sp r) a (q r)) ∧
      AllReturn N (fun r => (sp r).transposeYToXSpec o (p r) (rcv r)) q := by
  have hl : ∀ r < N, (sp r).getDecomp (sp r).space.shapeSpectral = ok (decompOf b0.lenSpec b1.lenSpec N r) :=
    fun r hr => by rw [h.space_eq hr]; exact h.lookup hr (.inr rfl) (.inr rfl)
  have hs := h.small' (n0 := b0.lenSpec) (n1 := b1.lenSpec) (.inr rfl) (.inr rfl)
  obtain ⟨f, rfl⟩ : ∃ f, a = mk2 b0.lenSpec b1.lenSpec f := ⟨_, eq_mk2 ha⟩
  refine ⟨_, fun r hr => (h.xPencil_iff hr (.inr rfl) (.inr rfl) _ _).2 rfl, Mpi.Runs.allReturn ?_⟩
  refine Mpi.Runs.lift (a := fun r => decompOf b0.lenSpec b1.lenSpec N r) hl ?_
  refine (transposeYX_runs o (h.grid (.inr rfl) (.inr rfl)) hs.1 hs.2 f rcv
    (fun r hr => (h.xShaped_iff hr (.inr rfl) (.inr rfl) _).1 (hrcv r hr))).congr (fun r hr => ?_) (fun _ _ => rfl)
  rw [(h.yPencil_iff hr (.inr rfl) (.inr rfl) _ _).1 (hp r hr)]

/-- C57: `gather_from_x_pencil_spec_root` on rank 0 and `gather_from_x_pencil_spec` on the others: rank 0
gets the global array; `all_gather_from_x_pencil_spec`: every rank does; `scatter_to_x_pencil_spec_root` on
rank 0 and `scatter_to_x_pencil_spec` on the others: every rank gets its pencil.  The content of the
receiving arrays does not matter. -/
theorem C57_gather_scatter_x_spec (hw : (Space2.shapeSpectral ⟨b0, b1⟩).prod < 2 ^ 31) {a : Arr S}
    (ha : Good a (Space2.shapeSpectral ⟨b0, b1⟩)) {p : ℕ → Arr S} (hp : ∀ r < N, XPencil (sp r) a (p r)) :
    (∀ rcv, Good rcv (Space2.shapeSpectral ⟨b0, b1⟩) →
      AllReturn N (fun r => if r = 0 then do
          let b ← (sp r).gatherFromXPencilSpecRoot o (p r) rcv; pure (some b)
        else do (sp r).gatherFromXPencilSpec o (p r); pure none)
        (fun r => if r = 0 then some a else none)) ∧
    (∀ rcv : ℕ → Arr S, (∀ r < N, Good (rcv r) (Space2.shapeSpectral ⟨b0, b1⟩)) →
      AllReturn N (fun r => (sp r).allGatherFromXPencilSpec o (p r) (rcv r)) (fun _ => a)) ∧
    (∀ rcv : ℕ → Arr S, (∀ r < N, XShaped (sp r) (Space2.shapeSpectral ⟨b0, b1⟩) (rcv r)) →
      AllReturn N (fun r => if r = 0 then (sp r).scatterToXPencilSpecRoot o a (rcv r)
        else (sp r).scatterToXPencilSpec o (rcv r)) p) := by
  have hl : ∀ r < N, (sp r).getDecomp (sp r).space.shapeSpectral = ok (decompOf b0.lenSpec b1.lenSpec N r) :=
    fun r hr => by rw [h.space_eq hr]; exact h.lookup hr (.inr rfl) (.inr rfl)
  have hg := h.grid (n0 := b0.lenSpec) (n1 := b1.lenSpec) (.inr rfl) (.inr rfl)
  have hw' : b0.lenSpec * b1.lenSpec < 2 ^ 31 := by
    have e : (Space2.shapeSpectral (⟨b0, b1⟩ : Space2 P I S T A)).prod = b0.lenSpec * b1.lenSpec := by
      change [b0.lenSpec, b1.lenSpec].prod = _
      simp
    rw [← e]; exact hw
  obtain ⟨f, rfl⟩ : ∃ f, a = mk2 b0.lenSpec b1.lenSpec f := ⟨_, eq_mk2 ha⟩
  have hp' := fun r hr => (h.xPencil_iff hr (.inr rfl) (.inr rfl) _ _).1 (hp r hr)
  refine ⟨fun rcv hrcv => ?_, fun rcv hrcv => ?_, fun rcv hrcv => ?_⟩
  · refine ((gatherX_runs o hg hw' f rcv hrcv).congr (fun r hr => ?_)
      (fun _ _ => rfl)).allReturn
    unfold Space2Mpi.gatherFromXPencilSpecRoot Space2Mpi.gatherFromXPencilSpec
    rw [hl r hr, hp' r hr]; rfl
  · refine ((allGatherX_runs o hg hw' f rcv hrcv).congr (fun r hr => ?_)
      (fun _ _ => rfl)).allReturn
    unfold Space2Mpi.allGatherFromXPencilSpec
    rw [hl r hr, hp' r hr]; rfl
  · refine ((scatterX_runs o hg hw' f rcv
      (fun r hr => (h.xShaped_iff hr (.inr rfl) (.inr rfl) _).1 (hrcv r hr))).congr (fun r hr => ?_) hp').allReturn
    unfold Space2Mpi.scatterToXPencilSpecRoot Space2Mpi.scatterToXPencilSpec
    rw [hl r hr]; rfl

/-- C57: `gather_from_y_pencil_spec_root` on rank 0 and `gather_from_y_pencil_spec` on the others: rank 0
gets the global array; `all_gather_from_y_pencil_spec`: every rank does; `scatter_to_y_pencil_spec_root` on
rank 0 and `scatter_to_y_pencil_spec` on the others: every rank gets its pencil.  The content of the
receiving arrays does not matter. -/
theorem C57_gather_scatter_y_spec (hw : (Space2.shapeSpectral ⟨b0, b1⟩).prod < 2 ^ 31) {a : Arr S}
    (ha : Good a (Space2.shapeSpectral ⟨b0, b1⟩)) {p : ℕ → Arr S} (hp : ∀ r < N, YPencil (sp r) a (p r)) :
    (∀ rcv, Good rcv (Space2.shapeSpectral ⟨b0, b1⟩) →
      AllReturn N (fun r => if r = 0 then do
          let b ← (sp r).gatherFromYPencilSpecRoot o (p r) rcv; pure (some b)
        else do (sp r).gatherFromYPencilSpec o (p r); pure none)
        (fun r => if r = 0 then some a else none)) ∧
    (∀ rcv : ℕ → Arr S, (∀ r < N, Good (rcv r) (Space2.shapeSpectral ⟨b0, b1⟩)) →
      AllReturn N (fun r => (sp r).allGatherFromYPencilSpec o (p r) (rcv r)) (fun _ => a)) ∧
    (∀ rcv : ℕ → Arr S, (∀ r < N, YShaped (sp r) (Space2.shapeSpectral ⟨b0, b1⟩) (rcv r)) →
      AllReturn N (fun r => if r = 0 then (sp r).scatterToYPencilSpecRoot o a (rcv r)
        else (sp r).scatterToYPencilSpec o (rcv r)) p) := by
  have hl : ∀ r < N, (sp r).getDecomp (sp r).space.shapeSpectral = ok (decompOf b0.lenSpec b1.lenSpec N r) :=
    fun r hr => by rw [h.space_eq hr]; exact h.lookup hr (.inr rfl) (.inr rfl)
  have hg := h.grid (n0 := b0.lenSpec) (n1 := b1.lenSpec) (.inr rfl) (.inr rfl)
  have hw' : b0.lenSpec * b1.lenSpec < 2 ^ 31 := by
    have e : (Space2.shapeSpectral (⟨b0, b1⟩ : Space2 P I S T A)).prod = b0.lenSpec * b1.lenSpec := by
      change [b0.lenSpec, b1.lenSpec].prod = _
      simp
    rw [← e]; exact hw
  obtain ⟨f, rfl⟩ : ∃ f, a = mk2 b0.lenSpec b1.lenSpec f := ⟨_, eq_mk2 ha⟩
  have hp' := fun r hr => (h.yPencil_iff hr (.inr rfl) (.inr rfl) _ _).1 (hp r hr)
  refine ⟨fun rcv hrcv => ?_, fun rcv hrcv => ?_, fun rcv hrcv => ?_⟩
  · refine ((gatherY_runs o hg hw' f rcv hrcv).congr (fun r hr => ?_)
      (fun _ _ => rfl)).allReturn
    unfold Space2Mpi.gatherFromYPencilSpecRoot Space2Mpi.gatherFromYPencilSpec
    rw [hl r hr, hp' r hr]; rfl
  · refine ((allGatherY_runs o hg hw' f rcv hrcv).congr (fun r hr => ?_)
      (fun _ _ => rfl)).allReturn
    unfold Space2Mpi.allGatherFromYPencilSpec
    rw [hl r hr, hp' r hr]; rfl
  · refine ((scatterY_runs o hg hw' f rcv
      (fun r hr => (h.yShaped_iff hr (.inr rfl) (.inr rfl) _).1 (hrcv r hr))).congr (fun r hr => ?_) hp').allReturn
    unfold Space2Mpi.scatterToYPencilSpecRoot Space2Mpi.scatterToYPencilSpec
    rw [hl r hr]; rfl

end

/-! ### C58: distributed round trips -/

section
variable {P I S T A : Type} [Zero P] [Zero I] [Zero S] [Zero T] {o : Mode} {N : ℕ} {b0 : Base I S T A}
  {b1 : Base P I T A} {sp : ℕ → Space2Mpi P I S T A} (h : Distributed o N b0 b1 sp)
include h

/-- C58: `forward_mpi` followed by `backward_mpi` returns the pencils, if `backward` undoes `forward` for
the component bases. -/
theorem C58_backward_forward (h0 : BwdFwd b0) (h1 : BwdFwd b1) {p : ℕ → Arr P}
    (hp : ∀ r < N, YShaped (sp r) (Space2.shapePhysical ⟨b0, b1⟩) (p r)) :
    AllReturn N (fun r => do
      let v ← (sp r).forwardMpi o (p r)
      (sp r).backwardMpi o v) p := by
  obtain ⟨φ0, β0, hφ0, hβ0, r0⟩ := h0
  obtain ⟨φ1, β1, hφ1, hβ1, r1⟩ := h1
  obtain ⟨f, hf⟩ := assembleY (h.grid (.inl rfl) (.inl rfl))
    (fun r hr => (h.yShaped_iff hr (.inl rfl) (.inl rfl) _).1 (hp r hr))
  refine ((Mpi.Runs.bind (q := fun r v => (sp r).backwardMpi o v) (forward_runs h hφ0 hφ1 f)
    (backward_runs h hβ0 hβ1 _)).congr (fun r hr => by rw [hf r hr]) (fun r hr => ?_)).allReturn
  rw [hf r hr]
  refine yPen_congr hr ?_
  have hx := good_mk2 b0.lenPhys b1.lenPhys f
  have k1 := good_mapAx φ1 b1.lenSpec 1 hx.2.2
  rw [← mapAx1_mk2 β1, ← mapAx0_mk2 β0, ← mapAx0_mk2 φ0, ← mapAx1_mk2 φ1,
    rt_good k1 hφ0.len r0 (by decide : 0 < 2) rfl, rt_good hx hφ1.len r1 (by decide : 1 < 2) rfl]

/-- C58: `backward_mpi` followed by `forward_mpi` returns the pencils, if `forward` undoes `backward` for
the component bases. -/
theorem C58_forward_backward (h0 : FwdBwd b0) (h1 : FwdBwd b1) {p : ℕ → Arr S}
    (hp : ∀ r < N, XShaped (sp r) (Space2.shapeSpectral ⟨b0, b1⟩) (p r)) :
    AllReturn N (fun r => do
      let x ← (sp r).backwardMpi o (p r)
      (sp r).forwardMpi o x) p := by
  obtain ⟨φ0, β0, hφ0, hβ0, r0⟩ := h0
  obtain ⟨φ1, β1, hφ1, hβ1, r1⟩ := h1
  obtain ⟨f, hf⟩ := assembleX (h.grid (.inr rfl) (.inr rfl))
    (fun r hr => (h.xShaped_iff hr (.inr rfl) (.inr rfl) _).1 (hp r hr))
  refine ((Mpi.Runs.bind (q := fun r v => (sp r).forwardMpi o v) (backward_runs h hβ0 hβ1 f)
    (forward_runs h hφ0 hφ1 _)).congr (fun r hr => by rw [hf r hr]) (fun r hr => ?_)).allReturn
  rw [hf r hr]
  refine xPen_congr hr ?_
  have hx := good_mk2 b0.lenSpec b1.lenSpec f
  have k0 := good_mapAx β0 b0.lenPhys 0 hx.2.2
  rw [← mapAx0_mk2 φ0, ← mapAx1_mk2 φ1, ← mapAx1_mk2 β1, ← mapAx0_mk2 β0,
    rt_good k0 hβ1.len r1 (by decide : 1 < 2) rfl, rt_good hx hβ0.len r0 (by decide : 0 < 2) rfl]

end

section
variable {P I S T A : Type} [Zero P] [Zero I] [Zero S] [CommRing T] {o : Mode} {N : ℕ} {b0 : Base I S T A}
  {b1 : Base P I T A} {sp : ℕ → Space2Mpi P I S T A} (h : Distributed o N b0 b1 sp)
include h

/-- C58: `to_ortho_mpi` followed by `from_ortho_mpi` returns the pencils, if `from_ortho` undoes
`to_ortho` for the component bases (and the operators are linear). -/
theorem C58_from_ortho_to_ortho (h0 : FromTo b0) (h1 : FromTo b1)
    (t1 : LinOp T b1.toOrthoSlice b1.lenSpec b1.lenOrth)
    (f0 : LinOp T b0.fromOrthoSlice b0.lenOrth b0.lenSpec) {p : ℕ → Arr T}
    (hp : ∀ r < N, XShaped (sp r) (Space2.shapeSpectral ⟨b0, b1⟩) (p r)) :
    AllReturn N (fun r => do
      let x ← (sp r).toOrthoMpi o (p r)
      (sp r).fromOrthoMpi o x) p := by
  obtain ⟨φ0, τ0, hφ0, hτ0, r0⟩ := h0
  obtain ⟨φ1, τ1, hφ1, hτ1, r1⟩ := h1
  have p0 := isLinear_of_computes hφ0 f0
  have q1 := isLinear_of_computes hτ1 t1
  obtain ⟨f, hf⟩ := assembleX (h.grid (.inr rfl) (.inr rfl))
    (fun r hr => (h.xShaped_iff hr (.inr rfl) (.inr rfl) _).1 (hp r hr))
  refine ((Mpi.Runs.bind (q := fun r v => (sp r).fromOrthoMpi o v) (toOrtho_runs h hτ0 hτ1 f)
    (fromOrtho_runs h hφ0 hφ1 _)).congr (fun r hr => by rw [hf r hr]) (fun r hr => ?_)).allReturn
  rw [hf r hr]
  refine xPen_congr hr ?_
  have hx := good_mk2 b0.lenSpec b1.lenSpec f
  have k0 := good_mapAx τ0 b0.lenOrth 0 hx.2.2
  rw [← mapAx1_mk2 φ1, ← mapAx0_mk2 φ0, ← mapAx1_mk2 τ1, ← mapAx0_mk2 τ0,
    comm_good (by decide : 1 ≠ 0) q1 hτ1.len p0 hφ0.len k0.2.2 (by decide : 1 < 2) (by decide : 0 < 2) rfl rfl,
    rt_good hx hτ0.len r0 (by decide : 0 < 2) rfl, rt_good hx hτ1.len r1 (by decide : 1 < 2) rfl]

end

/-- spaces distributed over 3 ranks -/
theorem distributed_ex {P I S T A : Type} [Zero P] [Zero I] [Zero S] [Zero T] (b0 : Base I S T A)
    (b1 : Base P I T A) (h0 : 3 ≤ b0.lenPhys ∧ b0.lenPhys ≤ 9 ∧ 3 ≤ b0.lenSpec ∧ b0.lenSpec ≤ 9)
    (h1 : 3 ≤ b1.lenPhys ∧ b1.lenPhys ≤ 9 ∧ 3 ≤ b1.lenSpec ∧ b1.lenSpec ≤ 9) (f0 : OrthFits b0)
    (f1 : OrthFits b1) : ∃ sp : ℕ → Space2Mpi P I S T A, Distributed .debug 3 b0 b1 sp := by
  have sp : ∀ n, 3 ≤ n → n ≤ 9 → Splits 3 n := fun n h3 h9 => ⟨h3, by norm_num; omega⟩
  have key : ∀ r, ∃ s : Space2Mpi P I S T A, r < 3 → Space2Mpi.new .debug 3 r b0 b1 = ok s := by
    intro r
    by_cases hr : r < 3
    · obtain ⟨s, hs, -⟩ := C48_new .debug (b0 := b0) (b1 := b1) hr (sp _ h0.1 h0.2.1)
        (sp _ h0.2.2.1 h0.2.2.2) (sp _ h1.1 h1.2.1) (sp _ h1.2.2.1 h1.2.2.2)
      exact ⟨s, fun _ => hs⟩
    · exact ⟨⟨⟨b0, b1⟩, DecompHandler.new, 0, 0⟩, fun h => absurd h hr⟩
  choose s hs using key
  refine ⟨s, hs, by omega, sp _ h0.1 h0.2.1, sp _ h0.2.2.1 h0.2.2.2, sp _ h1.1 h1.2.1,
    sp _ h1.2.2.1 h1.2.2.2, f0, f1, ?_⟩
  intro r hr shape d hd
  obtain ⟨n0, n1, g0, g1, -, hd'⟩ := ((C48_lookup_iff (hs r hr) shape).1 d).1 hd
  have hn0 : n0 ≤ 9 ∧ 3 ≤ n0 := by omega
  have hn1 : n1 ≤ 9 ∧ 3 ≤ n1 := by omega
  rw [Decomp2d.new_ok _ ⟨by omega, by omega, by omega, by norm_num; omega, by norm_num; omega⟩ hr] at hd'
  obtain rfl := Res.ok.inj hd'
  have e0 := off_cnt_le (n := n0) hr
  have e1 := off_cnt_le (n := n1) hr
  have x1 : n0 * cnt n1 3 r ≤ 9 * 9 := Nat.mul_le_mul hn0.1 (by omega)
  have x2 : cnt n0 3 r * n1 ≤ 9 * 9 := Nat.mul_le_mul (by omega) hn1.1
  constructor
  · change [n0, cnt n1 3 r].prod < _
    simp only [List.prod_cons, List.prod_nil, mul_one]; omega
  · change [cnt n0 3 r, n1].prod < _
    simp only [List.prod_cons, List.prod_nil, mul_one]; omega

/-- the hypotheses of C48, C49, C57, C58 hold for a real Fourier base of 8 points and a Chebyshev base
of 7 points with Dirichlet conditions, on 3 ranks … -/
example : ∃ (b0 : Base ℝ ℂ ℂ) (b1 : Base ℝ ℝ ℂ) (sp : ℕ → Space2Mpi ℝ ℝ ℂ ℂ),
    Distributed .debug 3 b0 b1 sp ∧ Runs b0 ∧ Runs b1 ∧ RunsGradient b0 2 ∧
    (Space2.shapePhysical ⟨b0, b1⟩ = [8, 7]) ∧ (Space2.shapeSpectral ⟨b0, b1⟩ = [5, 5]) ∧
    FromTo b0 ∧ FromTo b1 ∧ LinOp ℂ b1.toOrthoSlice b1.lenSpec b1.lenOrth ∧
    LinOp ℂ b0.fromOrthoSlice b0.lenOrth b0.lenSpec := by
  obtain ⟨b0, h0, a1, a2, a3⟩ := isR2c_exists (n := 8) (by omega)
  obtain ⟨b1, h1, c1, c2, c3⟩ := isDirichlet_exists (T := ℂ) (n := 7) (by omega)
  obtain ⟨sp, h⟩ := distributed_ex b0 b1 (by omega) (by omega) (.inr (a3.trans a2.symm))
    (.inl (c3.trans c1.symm))
  refine ⟨b0, b1, sp, h, C41_bases_run.2.2.1 _ _ h0, C41_bases_run.2.1 _ h1, C41_gradients_run.2.1 _ _ _ h0,
    ?_, ?_, h0.fromTo, h1.fromTo, h1.toLin, h0.fromLin⟩
  · change [b0.lenPhys, b1.lenPhys] = _; rw [a1, c1]
  · change [b0.lenSpec, b1.lenSpec] = _; rw [a2, c2]

/-- … with `backward ∘ forward = id`: real Fourier and Chebyshev … -/
example : ∃ (b0 : Base ℝ ℂ ℂ) (b1 : Base ℝ ℝ ℂ) (sp : ℕ → Space2Mpi ℝ ℝ ℂ ℂ),
    Distributed .debug 3 b0 b1 sp ∧ BwdFwd b0 ∧ BwdFwd b1 := by
  obtain ⟨b0, h0, a1, a2, a3⟩ := isR2c_exists (n := 8) (by omega)
  obtain ⟨b1, h1, -, c1, c2, c3⟩ := isCheb_exists (T := ℂ) (n := 7) (by omega)
  obtain ⟨sp, h⟩ := distributed_ex b0 b1 (by omega) (by omega) (.inr (a3.trans a2.symm))
    (.inl (c3.trans c1.symm))
  exact ⟨b0, b1, sp, h, h0.bwdFwd, h1.bwdFwd⟩

/-- … and with `forward ∘ backward = id`: two Chebyshev bases with Dirichlet conditions. -/
example : ∃ (b0 b1 : Base ℝ ℝ ℝ) (sp : ℕ → Space2Mpi ℝ ℝ ℝ ℝ),
    Distributed .debug 3 b0 b1 sp ∧ FwdBwd b0 ∧ FwdBwd b1 := by
  obtain ⟨b0, h0, a1, a2, a3⟩ := isDirichlet_exists (T := ℝ) (n := 9) (by omega)
  obtain ⟨b1, h1, c1, c2, c3⟩ := isDirichlet_exists (T := ℝ) (n := 7) (by omega)
  obtain ⟨sp, h⟩ := distributed_ex b0 b1 (by omega) (by omega) (.inl (a3.trans a1.symm))
    (.inl (c3.trans c1.symm))
  exact ⟨b0, b1, sp, h, h0.fwdBwd, h1.fwdBwd⟩

end Verif.Props
