/-
Properties of the programs examples/space_mpi.rs and examples/space_complex_mpi.rs (C64).
-/
import Verif.Proof.ExampleMpi

namespace Verif.Props
open Res Spec Mpi

section
variable {P I S U A : Type} [Zero P] [Zero I] [Zero S]

/-- The array of the numbers `0, 1, 2, …` in memory order. -/
theorem good_enumerate (ofNat : ℕ → P) (sh : List ℕ) : Good (Arr.enumerate ofNat (Arr.zeros sh)) sh := by
  obtain ⟨h1, h2, h3⟩ := good_zeros (T := P) sh
  refine ⟨?_, h2, h3⟩
  unfold Arr.WF Arr.enumerate at *
  simpa using h1

/-- C64: the entries of the input array of the examples. -/
theorem C64_input (ofNat : ℕ → P) {n0 n1 i j : ℕ} (hi : i < n0) (hj : j < n1) :
    at_ (Arr.enumerate ofNat (Arr.zeros [n0, n1])) [i, j] = ofNat (i * n1 + j) := by
  have hlt : i * n1 + j < n0 * n1 := by
    calc i * n1 + j < i * n1 + n1 := by omega
      _ = (i + 1) * n1 := by ring
      _ ≤ n0 * n1 := Nat.mul_le_mul_right _ hi
  have e : at_ (Arr.enumerate ofNat (Arr.zeros [n0, n1])) [i, j]
      = nth ((List.range (n0 * n1)).map ofNat) (i * n1 + j) := by
    unfold at_; congr 1 <;> simp [Arr.enumerate, Arr.zeros, flat]
  rw [e, nth_map_range _ _ _ hlt]

set_option maxHeartbeats 1000000 in
/-- C64: on any number of ranks that splits the grids, whatever order messages are delivered in, every
rank of the example program returns: no rank panics or waits forever, the assertion that the gathered
result of the distributed transforms is the serial result holds on every rank, and this result is
`backward(forward(v))`. -/
theorem C64_main {o : Mode} {N : ℕ} {b0 : Base I S S A} {b1 : Base P I S A} {sp : ℕ → Space2Mpi P I S S A}
    (h : Distributed o N b0 b1 sp) (r0 : Spec.Runs b0) (r1 : Spec.Runs b1)
    (hw : (Space2.shapePhysical (⟨b0, b1⟩ : Space2 P I S S A)).prod < 2 ^ 31)
    (cP : Codec P U) (cI : Codec I U) (cS : Codec S U) (ofNat : ℕ → P) :
    ∃ V W, Space2.forward ⟨b0, b1⟩
        (Arr.enumerate ofNat (Arr.zeros (Space2.shapePhysical (⟨b0, b1⟩ : Space2 P I S S A)))) = ok V ∧
      Space2.backward ⟨b0, b1⟩ V = ok W ∧
      AllReturn N (fun r => exampleMpi o cP cI cS ofNat N r b0 b1) (fun _ => W) := by
  obtain ⟨⟨φ0, f0⟩, ⟨β0, k0⟩, ⟨τ0, t0⟩, ⟨σ0, s0⟩⟩ := r0
  obtain ⟨⟨φ1, f1⟩, ⟨β1, k1⟩, ⟨τ1, t1⟩, ⟨σ1, s1⟩⟩ := r1
  have ha := good_enumerate ofNat (Space2.shapePhysical (⟨b0, b1⟩ : Space2 P I S S A))
  have hw' : b0.lenPhys * b1.lenPhys < 2 ^ 31 := by
    have e : (Space2.shapePhysical (⟨b0, b1⟩ : Space2 P I S S A)).prod = b0.lenPhys * b1.lenPhys := by
      change [b0.lenPhys, b1.lenPhys].prod = _
      simp
    rw [← e]; exact hw
  have hs1 := Space2.forward_eq ⟨b0, b1⟩ f0 f1 ha
  have hs1' := fun o ho => Space2.forwardInplace_eq ⟨b0, b1⟩ f0 f1 (out := o) ha ho
  obtain ⟨f, hf⟩ : ∃ f, Arr.enumerate ofNat (Arr.zeros (Space2.shapePhysical (⟨b0, b1⟩ : Space2 P I S S A)))
    = mk2 b0.lenPhys b1.lenPhys f := ⟨_, eq_mk2 ha⟩
  rw [hf] at hs1 hs1' ⊢
  dsimp only at hs1 hs1'
  rw [mapAx1_mk2, mapAx0_mk2] at hs1
  have hg := good_mk2 b0.lenSpec b1.lenSpec (map0 φ0 b0.lenPhys (map1 φ1 b1.lenPhys f))
  have hs2 := Space2.backward_eq ⟨b0, b1⟩ k0 k1 hg
  have hs2' := fun o ho => Space2.backwardInplace_eq ⟨b0, b1⟩ k0 k1 (out := o) hg ho
  dsimp only at hs2 hs2'
  rw [mapAx0_mk2, mapAx1_mk2] at hs2
  refine ⟨_, _, hs1, hs2, Mpi.Runs.allReturn ?_⟩
  have hl : ∀ r < N, (sp r).getDecomp (sp r).space.shapePhysical = ok (decompOf b0.lenPhys b1.lenPhys N r) :=
    fun r hr => by rw [h.space_eq hr]; exact h.lookup hr (.inl rfl) (.inl rfl)
  have hls : ∀ r < N, (sp r).getDecomp (sp r).space.shapeSpectral = ok (decompOf b0.lenSpec b1.lenSpec N r) :=
    fun r hr => by rw [h.space_eq hr]; exact h.lookup hr (.inr rfl) (.inr rfl)
  have hG := h.grid (n0 := b0.lenPhys) (n1 := b1.lenPhys) (.inl rfl) (.inl rfl)
  unfold exampleMpi Space2.ndarrayPhysical Space2.ndarraySpectral
  refine Mpi.Runs.lift (fun r hr => h.made r hr) ?_
  refine Mpi.Runs.lift (a := fun r => Arr.zeros [cnt b0.lenPhys N r, b1.lenPhys]) (fun r hr => ?_) ?_
  · unfold Space2Mpi.ndarrayPhysicalYPen Space2Mpi.shapePhysicalYPen
    rw [hl r hr]; rfl
  refine Mpi.Runs.bind (a := fun r => yPen b0.lenPhys b1.lenPhys N r f) ?_ ?_
  · refine ((scatterY_runs o hG hw' f (fun r => Arr.zeros [cnt b0.lenPhys N r, b1.lenPhys])
      (fun r hr => good_zeros _)).wire cP).congr (fun r hr => ?_) (fun _ _ => rfl)
    have e : (sp r).getNrank = r := by rw [h.sp_eq hr]; rfl
    rw [e]
    unfold Space2Mpi.scatterToYPencilPhysRoot Space2Mpi.scatterToYPencilPhys
    rw [hl r hr]
    by_cases hr0 : r = 0
    · rw [if_pos hr0, if_pos hr0]; dsimp only
      rw [h.space_eq hr, hf]; rfl
    · rw [if_neg hr0, if_neg hr0]; rfl
  refine Mpi.Runs.lift (a := fun r => Arr.zeros [b0.lenSpec, cnt b1.lenSpec N r]) (fun r hr => ?_) ?_
  · unfold Space2Mpi.ndarraySpectralXPen Space2Mpi.shapeSpectralXPen
    rw [hls r hr]; rfl
  refine Mpi.Runs.bind ((forwardInplace_runs h f0 f1 f _ (fun r hr => good_zeros _)).wire cI) ?_
  refine Mpi.Runs.bind ((backwardInplace_runs h k0 k1 _ _ (fun r hr => good_yPen _ _ _ _ _)).wire cI) ?_
  refine Mpi.Runs.bind (a := fun r => mk2 b0.lenPhys b1.lenPhys
      (map1 β1 b1.lenSpec (map0 β0 b0.lenSpec (map0 φ0 b0.lenPhys (map1 φ1 b1.lenPhys f))))) ?_ ?_
  · refine ((allGatherY_runs o hG hw' _ (fun r => Arr.zeros [b0.lenPhys, b1.lenPhys])
      (fun r hr => good_zeros _)).wire cP).congr (fun r hr => ?_) (fun _ _ => rfl)
    unfold Space2Mpi.allGatherFromYPencilPhys
    rw [hl r hr, h.space_eq hr]; rfl
  refine Mpi.Runs.lift (a := fun r => mk2 b0.lenSpec b1.lenSpec (map0 φ0 b0.lenPhys (map1 φ1 b1.lenPhys f)))
    (fun r hr => ?_) ?_
  · rw [h.space_eq hr, hf, hs1' _ (good_zeros _), mapAx1_mk2, mapAx0_mk2]
  refine Mpi.Runs.lift (a := fun r => mk2 b0.lenPhys b1.lenPhys
      (map1 β1 b1.lenSpec (map0 β0 b0.lenSpec (map0 φ0 b0.lenPhys (map1 φ1 b1.lenPhys f))))) (fun r hr => ?_) ?_
  · rw [h.space_eq hr, hs2' _ ha, mapAx0_mk2, mapAx1_mk2]
  refine Mpi.Runs.lift (a := fun _ => ()) (fun r hr => ?_) ?_
  · unfold assertR; rw [if_pos rfl]
  refine Mpi.Runs.bind ((toOrtho_runs h t0 t1 _).wire cS) ?_
  refine Mpi.Runs.bind ((fromOrtho_runs h s0 s1 _).wire cS) ?_
  exact Mpi.Runs.pure _

end

/-- Bases with at least one and at most `M` points per rank, `M² < 2^31`, can be distributed. -/
theorem distributed_of {P I S T A : Type} (o : Mode) {N : ℕ} (hN : 0 < N) (b0 : Base I S T A)
    (b1 : Base P I T A) {m0 m1 : ℕ} (h0 : N ≤ b0.lenPhys ∧ b0.lenPhys ≤ m0 ∧ N ≤ b0.lenSpec ∧ b0.lenSpec ≤ m0)
    (h1 : N ≤ b1.lenPhys ∧ b1.lenPhys ≤ m1 ∧ N ≤ b1.lenSpec ∧ b1.lenSpec ≤ m1) (hM : m0 * m1 < 2 ^ 31)
    (f0 : OrthFits b0) (f1 : OrthFits b1) : ∃ sp : ℕ → Space2Mpi P I S T A, Distributed o N b0 b1 sp := by
  have hm0 : m0 < 2 ^ 31 := lt_of_le_of_lt (Nat.le_mul_of_pos_right _ (by omega)) hM
  have hm1 : m1 < 2 ^ 31 := lt_of_le_of_lt (Nat.le_mul_of_pos_left _ (by omega)) hM
  have spl : ∀ n, N ≤ n → n < 2 ^ 31 → Splits N n := fun n h3 h9 => ⟨h3, by norm_num at *; omega⟩
  have key : ∀ r, ∃ s : Space2Mpi P I S T A, r < N → Space2Mpi.new o N r b0 b1 = ok s := by
    intro r
    by_cases hr : r < N
    · obtain ⟨s, hs, -⟩ := C48_new o (b0 := b0) (b1 := b1) hr (spl _ h0.1 (by omega))
        (spl _ h0.2.2.1 (by omega)) (spl _ h1.1 (by omega)) (spl _ h1.2.2.1 (by omega))
      exact ⟨s, fun _ => hs⟩
    · exact ⟨⟨⟨b0, b1⟩, DecompHandler.new, 0, 0⟩, fun h => absurd h hr⟩
  choose s hs using key
  refine ⟨s, hs, hN, spl _ h0.1 (by omega), spl _ h0.2.2.1 (by omega), spl _ h1.1 (by omega),
    spl _ h1.2.2.1 (by omega), f0, f1, ?_⟩
  intro r hr shape d hd
  obtain ⟨n0, n1, g0, g1, -, hd'⟩ := ((C48_lookup_iff (hs r hr) shape).1 d).1 hd
  have hn0 : n0 ≤ m0 ∧ N ≤ n0 := by omega
  have hn1 : n1 ≤ m1 ∧ N ≤ n1 := by omega
  have s0 := spl n0 hn0.2 (by omega)
  have s1 := spl n1 hn1.2 (by omega)
  rw [Decomp2d.new_ok _ (Splits.grid hN s0 s1) hr] at hd'
  obtain rfl := Res.ok.inj hd'
  have e0 := off_cnt_le (n := n0) hr
  have e1 := off_cnt_le (n := n1) hr
  have x1 : n0 * cnt n1 N r ≤ m0 * m1 := Nat.mul_le_mul hn0.1 (by omega)
  have x2 : cnt n0 N r * n1 ≤ m0 * m1 := Nat.mul_le_mul (by omega) hn1.1
  constructor
  · change [n0, cnt n1 N r].prod < _
    simp only [List.prod_cons, List.prod_nil, mul_one]; omega
  · change [cnt n0 N r, n1].prod < _
    simp only [List.prod_cons, List.prod_nil, mul_one]; omega

/-- C64: examples/space_mpi.rs (there `nx = 16`, `ny = 10`) for all sizes and all numbers of ranks that
split the grids: two Chebyshev bases with Dirichlet conditions. -/
theorem C64_space_mpi (o : Mode) {nx ny N : ℕ} (hx : 5 ≤ nx) (hy : 5 ≤ ny) (hN : 0 < N)
    (hNx : N ≤ nx - 2) (hNy : N ≤ ny - 2) (hM : nx * ny < 2 ^ 31) {b0 b1 : BaseR2r}
    (h0 : newR2r (some .dirichlet) nx = ok b0) (h1 : newR2r (some .dirichlet) ny = ok b1) :
    ∃ V A, Space2.forward ⟨b0.toBase ℝ, b1.toBase ℝ⟩
        (Arr.enumerate (fun i => (i : ℝ)) (Arr.zeros [nx, ny])) = ok V ∧
      Space2.backward ⟨b0.toBase ℝ, b1.toBase ℝ⟩ V = ok A ∧
      AllReturn N (fun r => exampleMpi o ⟨id, id, fun _ => rfl⟩ ⟨id, id, fun _ => rfl⟩
        ⟨id, id, fun _ => rfl⟩ (fun i => (i : ℝ)) N r (b0.toBase ℝ) (b1.toBase ℝ)) (fun _ => A) := by
  obtain ⟨p0, q0, s0⟩ := C41_sizes_r2r (T := ℝ) _ _ _ h0
  obtain ⟨p1, q1, s1⟩ := C41_sizes_r2r (T := ℝ) _ _ _ h1
  have s0 : (b0.toBase ℝ).lenSpec = nx - 2 := s0
  have s1 : (b1.toBase ℝ).lenSpec = ny - 2 := s1
  have i0 : IsR2r (b0.toBase ℝ) := ⟨_, nx, b0, h0, Or.inl rfl, hx, rfl⟩
  have i1 : IsR2r (b1.toBase ℝ) := ⟨_, ny, b1, h1, Or.inl rfl, hy, rfl⟩
  obtain ⟨sp, h⟩ := distributed_of o hN (b0.toBase ℝ) (b1.toBase ℝ) (m0 := nx) (m1 := ny)
    (by omega) (by omega) hM (.inl (q0.trans p0.symm)) (.inl (q1.trans p1.symm))
  have e : Space2.shapePhysical (⟨b0.toBase ℝ, b1.toBase ℝ⟩ : Space2 ℝ ℝ ℝ ℝ) = [nx, ny] := by
    change [(b0.toBase ℝ).lenPhys, (b1.toBase ℝ).lenPhys] = _; rw [p0, p1]
  have := C64_main h (C41_bases_run.1 _ i0) (C41_bases_run.1 _ i1) (by rw [e]; simpa using hM)
    ⟨id, id, fun _ => rfl⟩ ⟨id, id, fun _ => rfl⟩ ⟨id, id, fun _ => rfl⟩ (fun i => (i : ℝ))
  rw [e] at this
  exact this

/-- Real and complex numbers on one network. -/
noncomputable def realCodec : Codec ℝ (ℝ ⊕ ℂ) := ⟨.inl, Sum.elim id (fun _ => 0), fun _ => rfl⟩
/-- Real and complex numbers on one network. -/
noncomputable def complexCodec : Codec ℂ (ℝ ⊕ ℂ) := ⟨.inr, Sum.elim (fun _ => 0) id, fun _ => rfl⟩

/-- C64: examples/space_complex_mpi.rs (there `nx = 32`, `ny = 10`) for all sizes and all numbers of
ranks that split the grids: a real Fourier base and a Chebyshev base with Dirichlet conditions. -/
theorem C64_space_complex_mpi (o : Mode) {nx ny N : ℕ} (hx : 1 ≤ nx) (hy : 5 ≤ ny) (hN : 0 < N)
    (hNx : N ≤ nx / 2 + 1) (hNx' : N ≤ nx) (hNy : N ≤ ny - 2) (hM : (nx + 1) * ny < 2 ^ 31)
    {b0 : Base ℝ ℂ ℂ} (h0 : IsR2c nx b0) {b1 : BaseR2r}
    (h1 : newR2r (some .dirichlet) ny = ok b1) :
    ∃ V A, Space2.forward ⟨b0, b1.toBase ℂ⟩
        (Arr.enumerate (fun i => (i : ℝ)) (Arr.zeros [nx, ny])) = ok V ∧
      Space2.backward ⟨b0, b1.toBase ℂ⟩ V = ok A ∧
      AllReturn N (fun r => exampleMpi o realCodec realCodec complexCodec (fun i => (i : ℝ)) N r b0
        (b1.toBase ℂ)) (fun _ => A) := by
  obtain ⟨p0, s0, q0⟩ := C41_sizes_r2c _ _ h0
  obtain ⟨p1, q1, s1⟩ := C41_sizes_r2r (T := ℂ) _ _ _ h1
  have s1 : (b1.toBase ℂ).lenSpec = ny - 2 := s1
  have i1 : IsR2r (b1.toBase ℂ) := ⟨_, ny, b1, h1, Or.inl rfl, hy, rfl⟩
  obtain ⟨sp, h⟩ := distributed_of o hN b0 (b1.toBase ℂ) (m0 := nx + 1) (m1 := ny)
    (by omega) (by omega) hM (.inr (q0.trans s0.symm)) (.inl (q1.trans p1.symm))
  have e : Space2.shapePhysical (⟨b0, b1.toBase ℂ⟩ : Space2 ℝ ℝ ℂ ℂ) = [nx, ny] := by
    change [b0.lenPhys, (b1.toBase ℂ).lenPhys] = _; rw [p0, p1]
  have hM' : nx * ny < 2 ^ 31 := lt_of_le_of_lt (Nat.mul_le_mul_right _ (by omega)) hM
  have := C64_main h (C41_bases_run.2.2.1 _ _ h0) (C41_bases_run.2.1 _ i1) (by rw [e]; simpa using hM')
    realCodec realCodec complexCodec (fun i => (i : ℝ))
  rw [e] at this
  exact this

/-- the hypotheses hold in the examples as they are, with `--np 2` as in their first lines (and up to 8
ranks) -/
example (o : Mode) : ∃ b0 b1, newR2r (some .dirichlet) 16 = ok b0 ∧ newR2r (some .dirichlet) 10 = ok b1 ∧
    ∃ A, AllReturn 2 (fun r => exampleMpi o ⟨id, id, fun _ => rfl⟩ ⟨id, id, fun _ => rfl⟩
        ⟨id, id, fun _ => rfl⟩ (fun i => (i : ℝ)) 2 r (b0.toBase ℝ) (b1.toBase ℝ)) (fun _ => A) := by
  obtain ⟨b0, h0⟩ := newR2r_exists (some .dirichlet) 16 (by omega) (by rintro c ⟨⟩; decide)
  obtain ⟨b1, h1⟩ := newR2r_exists (some .dirichlet) 10 (by omega) (by rintro c ⟨⟩; decide)
  obtain ⟨V, A, -, -, h⟩ := C64_space_mpi o (N := 2) (by omega) (by omega) (by omega) (by omega) (by omega)
    (by norm_num) h0 h1
  exact ⟨b0, b1, h0, h1, A, h⟩

example (o : Mode) : ∃ b0 b1, IsR2c 32 b0 ∧ newR2r (some .dirichlet) 10 = ok b1 ∧
    ∃ A, AllReturn 8 (fun r => exampleMpi o realCodec realCodec complexCodec (fun i => (i : ℝ)) 8 r b0
        (b1.toBase ℂ)) (fun _ => A) := by
  obtain ⟨b0, h0, -⟩ := isR2c_exists (n := 32) (by omega)
  obtain ⟨b1, h1⟩ := newR2r_exists (some .dirichlet) 10 (by omega) (by rintro c ⟨⟩; decide)
  obtain ⟨V, A, -, -, h⟩ := C64_space_complex_mpi o (N := 8) (by omega) (by omega) (by omega) (by omega)
    (by omega) (by omega) (by norm_num) h0 h1
  exact ⟨b0, b1, h0, h1, A, h⟩

end Verif.Props
