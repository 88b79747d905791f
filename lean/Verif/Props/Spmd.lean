/-
Properties of programs that use a distributed space (C65): any sequence of calls.
-/
import Verif.Proof.Spmd

namespace Verif.Props
open Res Spec Mpi

section
variable {P I S U A : Type} [Zero P] [Zero I] [Zero S] [Mul A] [Powi A] [DivBy A S] {o : Mode} {N : ℕ}
  {b0 : Base I S S A} {b1 : Base P I S A} {sp : ℕ → Space2Mpi P I S S A}

theorem prod_phys (b0 : Base I S S A) (b1 : Base P I S A) :
    (Space2.shapePhysical (⟨b0, b1⟩ : Space2 P I S S A)).prod = b0.lenPhys * b1.lenPhys := by
  change [b0.lenPhys, b1.lenPhys].prod = _; simp

theorem prod_spec (b0 : Base I S S A) (b1 : Base P I S A) :
    (Space2.shapeSpectral (⟨b0, b1⟩ : Space2 P I S S A)).prod = b0.lenSpec * b1.lenSpec := by
  change [b0.lenSpec, b1.lenSpec].prod = _; simp

theorem orth_pos (h : Distributed o N b0 b1 sp) : 0 < b0.lenOrth * b1.lenOrth := by
  have g := h.grid h.orth0 h.orth1
  have h1 := g.pos
  have h2 := g.le0
  have h3 := g.le1
  exact Nat.mul_pos (by omega) (by omega)

/-- C65: every rank runs the same sequence of calls, of any length and in any order.  If the ranks hold
their parts of some global arrays, and the serial program (the same calls on the global arrays, in one
process) returns, then under every order of delivery of the messages all ranks return and hold their
parts of the results of the serial program. -/
theorem C65_history (h : Distributed o N b0 b1 sp) (r0 : Spec.Runs b0) (r1 : Spec.Runs b1)
    (hp : (Space2.shapePhysical (⟨b0, b1⟩ : Space2 P I S S A)).prod < 2 ^ 31)
    (hs : (Space2.shapeSpectral (⟨b0, b1⟩ : Space2 P I S S A)).prod < 2 ^ 31)
    (cP : Codec P U) (cI : Codec I U) (cS : Codec S U) {ops : List (SpmdOp P S A)}
    (hop : GradientsRun b0 b1 ops) {s0 s1 : SerialState P S} (h0 : s0.Shaped ⟨b0, b1⟩)
    {t0 : ℕ → RankState P S} (ht : ∀ r < N, Holds (sp r) r s0 (t0 r))
    (h1 : serialOps ⟨b0, b1⟩ ops s0 = ok s1) :
    s1.Shaped ⟨b0, b1⟩ ∧ ∃ t1, (∀ r < N, Holds (sp r) r s1 (t1 r)) ∧
      AllReturn N (fun r => SpmdOp.runs o cP cI cS (sp r) ops (t0 r)) t1 := by
  rw [prod_phys] at hp
  rw [prod_spec] at hs
  obtain ⟨F, rfl⟩ := shaped_planes h0
  obtain ⟨F1, rfl, hr⟩ := ops_runs h r0 r1 hp hs (orth_pos h) cP cI cS ops hop F h1
  refine ⟨planes_shaped b0 b1 F1, _, fun r hr => (holds_iff h hr F1 _).2 rfl, Mpi.Runs.allReturn
    (hr.congr (fun r hr => ?_) (fun _ _ => rfl))⟩
  rw [(holds_iff h hr F (t0 r)).1 (ht r hr)]

/-- C65: in exact arithmetic a scale can be divided by if its factors are not zero (and the orders are
below `2^31`). -/
theorem C65_scale [AddCommGroup T] [Module ℝ T] {d0 d1 : ℕ} (h0 : d0 < 2 ^ 31) (h1 : d1 < 2 ^ 31)
    {c0 c1 : ℝ} (n0 : c0 ≠ 0) (n1 : c1 ≠ 0) : ScaleDivides T d0 d1 c0 c1 :=
  ⟨c0 ^ d0, c1 ^ d1, powi_ok h0, powi_ok h1, fun x => ⟨_, by
    rw [divR_eq, if_neg (mul_ne_zero (pow_ne_zero _ n0) (pow_ne_zero _ n1))]⟩⟩

/-- C65: the serial program returns, unless a gradient has a scale that cannot be divided by. -/
theorem C65_serial (r0 : Spec.Runs b0) (r1 : Spec.Runs b1) {ops : List (SpmdOp P S A)}
    (hop : GradientsRun b0 b1 ops)
    (hsc : ∀ d0 d1 c0 c1, SpmdOp.gradient d0 d1 (some (c0, c1)) ∈ ops → ScaleDivides S d0 d1 c0 c1)
    {s0 : SerialState P S} (h0 : s0.Shaped ⟨b0, b1⟩) :
    ∃ s1, serialOps ⟨b0, b1⟩ ops s0 = ok s1 ∧ s1.Shaped ⟨b0, b1⟩ := by
  induction ops generalizing s0 with
  | nil => exact ⟨s0, rfl, h0⟩
  | cons op ops ih =>
    have step : ∃ s1, serialOp ⟨b0, b1⟩ s0 op = ok s1 ∧ s1.Shaped ⟨b0, b1⟩ := by
      have gm : ∀ {T : Type} {a : Arr T} {sh : List ℕ} (f : T → T), Good a sh → Good (a.map f) sh := by
        rintro T a sh f ⟨k1, k2, k3⟩
        refine ⟨?_, k2, k3⟩
        unfold Arr.WF Arr.map at *
        simpa using k1
      obtain ⟨⟨φ0, f0⟩, ⟨β0, k0⟩, ⟨τ0, t0⟩, ⟨σ0, u0⟩⟩ := r0
      obtain ⟨⟨φ1, f1⟩, ⟨β1, k1⟩, ⟨τ1, t1⟩, ⟨σ1, u1⟩⟩ := r1
      obtain ⟨a1, a2, a3, a4, a5, a6, a7, a8, a9⟩ := h0
      cases op with
      | forward =>
        refine ⟨{ s0 with sx := mapAx φ0 b0.lenSpec 0 (mapAx φ1 b1.lenSpec 1 s0.py) },
          by unfold serialOp; dsimp only; rw [Space2.forward_eq ⟨b0, b1⟩ f0 f1 a2]; rfl,
          a1, a2, a3, a4, ?_, a6, a7, a8, a9⟩
        exact good_mapAx φ0 _ 0 (sh := [b0.lenPhys, b1.lenSpec])
          (good_mapAx φ1 b1.lenSpec 1 (sh := [b0.lenPhys, b1.lenPhys]) a2.2.2).2.2
      | backward =>
        refine ⟨{ s0 with py := mapAx β1 b1.lenPhys 1 (mapAx β0 b0.lenPhys 0 s0.sx) },
          by unfold serialOp; dsimp only; rw [Space2.backward_eq ⟨b0, b1⟩ k0 k1 a5]; rfl,
          a1, ?_, a3, a4, a5, a6, a7, a8, a9⟩
        exact good_mapAx β1 _ 1 (sh := [b0.lenPhys, b1.lenSpec])
          (good_mapAx β0 b0.lenPhys 0 (sh := [b0.lenSpec, b1.lenSpec]) a5.2.2).2.2
      | toOrtho =>
        refine ⟨{ s0 with ox := mapAx τ1 b1.lenOrth 1 (mapAx τ0 b0.lenOrth 0 s0.sx) },
          by unfold serialOp; dsimp only; rw [Space2.toOrtho_eq ⟨b0, b1⟩ t0 t1 a5]; rfl,
          a1, a2, a3, a4, a5, a6, a7, a8, ?_⟩
        exact good_mapAx τ1 _ 1 (sh := [b0.lenOrth, b1.lenSpec])
          (good_mapAx τ0 b0.lenOrth 0 (sh := [b0.lenSpec, b1.lenSpec]) a5.2.2).2.2
      | fromOrtho =>
        refine ⟨{ s0 with sx := mapAx σ1 b1.lenSpec 1 (mapAx σ0 b0.lenSpec 0 s0.ox) },
          by unfold serialOp; dsimp only; rw [Space2.fromOrtho_eq ⟨b0, b1⟩ u0 u1 a9]; rfl,
          a1, a2, a3, a4, ?_, a6, a7, a8, a9⟩
        exact good_mapAx σ1 _ 1 (sh := [b0.lenSpec, b1.lenOrth])
          (good_mapAx σ0 b0.lenSpec 0 (sh := [b0.lenOrth, b1.lenOrth]) a9.2.2).2.2
      | gradient d0 d1 scale =>
        obtain ⟨⟨g0, c0⟩, ⟨g1, c1⟩⟩ := hop d0 d1 scale List.mem_cons_self
        obtain ⟨f, hf⟩ : ∃ f, s0.sx = mk2 b0.lenSpec b1.lenSpec f := ⟨_, eq_mk2 a5⟩
        have e : ∃ B, (⟨b0, b1⟩ : Space2 P I S S A).gradient s0.sx d0 d1 scale = ok B ∧
            Good B [b0.lenOrth, b1.lenOrth] := by
          rw [hf]
          unfold Space2.gradient
          have e0 := alloc_good c0 (good_mk2 b0.lenSpec b1.lenSpec f) (by decide : 0 < 2) rfl
          rw [show b0.gradient _ d0 0 = _ from e0, bind_ok, mapAx0_mk2]
          have e1 := alloc_good c1 (good_mk2 b0.lenOrth b1.lenSpec (map0 g0 b0.lenSpec f))
            (by decide : 1 < 2) rfl
          rw [show b1.gradient _ d1 1 = _ from e1, bind_ok, mapAx1_mk2]
          cases scale with
          | none => exact ⟨_, rfl, good_mk2 _ _ _⟩
          | some c =>
            obtain ⟨p0, p1, q0, q1, q⟩ := hsc d0 d1 c.1 c.2 List.mem_cons_self
            choose k hk using q
            dsimp only
            rw [q0, bind_ok, q1, bind_ok, divAll_mk2 (fun i _ j _ => hk _)]
            exact ⟨_, rfl, good_mk2 _ _ _⟩
        obtain ⟨B, e, hB⟩ := e
        exact ⟨{ s0 with ox := B }, by unfold serialOp; dsimp only; rw [e]; rfl,
          a1, a2, a3, a4, a5, a6, a7, a8, hB⟩
      | mapPX f => exact ⟨_, rfl, gm f a1, a2, a3, a4, a5, a6, a7, a8, a9⟩
      | mapPY f => exact ⟨_, rfl, a1, gm f a2, a3, a4, a5, a6, a7, a8, a9⟩
      | mapSX f => exact ⟨_, rfl, a1, a2, a3, a4, gm f a5, a6, a7, a8, a9⟩
      | mapSY f => exact ⟨_, rfl, a1, a2, a3, a4, a5, gm f a6, a7, a8, a9⟩
      | mapOX f => exact ⟨_, rfl, a1, a2, a3, a4, a5, a6, a7, a8, gm f a9⟩
      | _ => exact ⟨_, rfl, ‹_›, ‹_›, ‹_›, ‹_›, ‹_›, ‹_›, ‹_›, ‹_›, ‹_›⟩
    obtain ⟨s1, e1, k1⟩ := step
    obtain ⟨s2, e2, k2⟩ := ih (fun d0 d1 sc he => hop d0 d1 sc (List.mem_cons_of_mem _ he))
      (fun d0 d1 c0 c1 he => hsc d0 d1 c0 c1 (List.mem_cons_of_mem _ he)) k1
    exact ⟨s2, by unfold serialOps; rw [e1, bind_ok, e2], k2⟩

/-- the arrays of zeros all programs start from -/
def zeroState (b0 : Base I S S A) (b1 : Base P I S A) : SerialState P S :=
  let sp : Space2 P I S S A := ⟨b0, b1⟩
  ⟨Arr.zeros sp.shapePhysical, Arr.zeros sp.shapePhysical, Arr.zeros sp.shapePhysical,
    Arr.zeros sp.shapePhysical, Arr.zeros sp.shapeSpectral, Arr.zeros sp.shapeSpectral,
    Arr.zeros sp.shapeSpectral, Arr.zeros sp.shapeSpectral, Arr.zeros sp.shapeSpectralOrtho⟩

theorem zeros_mk2 {T : Type} [Zero T] (n0 n1 : ℕ) :
    (Arr.zeros [n0, n1] : Arr T) = mk2 n0 n1 (fun _ _ => 0) := by
  unfold Arr.zeros mk2
  congr 1
  rw [List.map_const', List.length_range]
  simp

/-- C65: whole programs, which construct the space, allocate their arrays with the methods of the space
and then make any sequence of calls. -/
theorem C65_main (h : Distributed o N b0 b1 sp) (r0 : Spec.Runs b0) (r1 : Spec.Runs b1)
    (hp : (Space2.shapePhysical (⟨b0, b1⟩ : Space2 P I S S A)).prod < 2 ^ 31)
    (hs : (Space2.shapeSpectral (⟨b0, b1⟩ : Space2 P I S S A)).prod < 2 ^ 31)
    (cP : Codec P U) (cI : Codec I U) (cS : Codec S U) {ops : List (SpmdOp P S A)}
    (hop : GradientsRun b0 b1 ops) {s1 : SerialState P S}
    (h1 : serialOps ⟨b0, b1⟩ ops (zeroState b0 b1) = ok s1) :
    ∃ t1, (∀ r < N, Holds (sp r) r s1 (t1 r)) ∧
      AllReturn N (fun r => spmdMain o cP cI cS N r b0 b1 ops) t1 := by
  rw [prod_phys] at hp
  rw [prod_spec] at hs
  have e0 : zeroState b0 b1 = Planes.serial b0 b1 ⟨fun _ _ => (0 : P), fun _ _ => 0, fun _ _ => 0,
      fun _ _ => 0, fun _ _ => (0 : S), fun _ _ => 0, fun _ _ => 0, fun _ _ => 0, fun _ _ => 0⟩ := by
    unfold zeroState Planes.serial
    simp only [← zeros_mk2]; rfl
  rw [e0] at h1
  obtain ⟨F1, rfl, hr⟩ := ops_runs h r0 r1 hp hs (orth_pos h) cP cI cS ops hop _ h1
  refine ⟨_, fun r hr => (holds_iff h hr F1 _).2 rfl, Mpi.Runs.allReturn ?_⟩
  unfold spmdMain
  refine Mpi.Runs.lift (fun r hr => h.made r hr) ?_
  refine Mpi.Runs.lift (a := fun r => Arr.zeros [b0.lenPhys, cnt b1.lenPhys N r]) (fun r hr => ?_) ?_
  · unfold Space2Mpi.ndarrayPhysicalXPen Space2Mpi.shapePhysicalXPen
    rw [decomp_phys h hr]; rfl
  refine Mpi.Runs.lift (a := fun r => Arr.zeros [cnt b0.lenPhys N r, b1.lenPhys]) (fun r hr => ?_) ?_
  · unfold Space2Mpi.ndarrayPhysicalYPen Space2Mpi.shapePhysicalYPen
    rw [decomp_phys h hr]; rfl
  refine Mpi.Runs.lift (a := fun r => Arr.zeros [b0.lenSpec, cnt b1.lenSpec N r]) (fun r hr => ?_) ?_
  · unfold Space2Mpi.ndarraySpectralXPen Space2Mpi.shapeSpectralXPen
    rw [decomp_spec h hr]; rfl
  refine Mpi.Runs.lift (a := fun r => Arr.zeros [cnt b0.lenSpec N r, b1.lenSpec]) (fun r hr => ?_) ?_
  · unfold Space2Mpi.ndarraySpectralYPen Space2Mpi.shapeSpectralYPen
    rw [decomp_spec h hr]; rfl
  refine Mpi.Runs.lift (a := fun r => decompOf b0.lenOrth b1.lenOrth N r) (fun r hr => ?_) ?_
  · rw [h.space_eq hr]; exact h.lookup hr h.orth0 h.orth1
  refine hr.congr (fun r hr => ?_) (fun _ _ => rfl)
  congr 1
  unfold Planes.rank xPen yPen
  simp only [ite_self, ← zeros_mk2]
  rw [h.space_eq hr]; rfl

/-- C65: the result of a program does not depend on the number of ranks: programs on `N` and on `N'`
ranks leave the same global arrays on the root. -/
theorem C65_ranks {N' : ℕ} {sp' : ℕ → Space2Mpi P I S S A} (h : Distributed o N b0 b1 sp)
    (h' : Distributed o N' b0 b1 sp') (r0 : Spec.Runs b0) (r1 : Spec.Runs b1)
    (hp : (Space2.shapePhysical (⟨b0, b1⟩ : Space2 P I S S A)).prod < 2 ^ 31)
    (hs : (Space2.shapeSpectral (⟨b0, b1⟩ : Space2 P I S S A)).prod < 2 ^ 31)
    (cP : Codec P U) (cI : Codec I U) (cS : Codec S U) {ops : List (SpmdOp P S A)}
    (hop : GradientsRun b0 b1 ops)
    (hsc : ∀ d0 d1 c0 c1, SpmdOp.gradient d0 d1 (some (c0, c1)) ∈ ops → ScaleDivides S d0 d1 c0 c1) :
    ∃ t t', AllReturn N (fun r => spmdMain o cP cI cS N r b0 b1 ops) t ∧
      AllReturn N' (fun r => spmdMain o cP cI cS N' r b0 b1 ops) t' ∧
      (t 0).gp = (t' 0).gp ∧ (t 0).gs = (t' 0).gs := by
  have hz : (zeroState b0 b1).Shaped ⟨b0, b1⟩ := ⟨good_zeros _, good_zeros _, good_zeros _, good_zeros _,
    good_zeros _, good_zeros _, good_zeros _, good_zeros _, good_zeros _⟩
  obtain ⟨s1, e1, -⟩ := C65_serial r0 r1 hop hsc hz
  obtain ⟨t, k, a⟩ := C65_main h r0 r1 hp hs cP cI cS hop e1
  obtain ⟨t', k', a'⟩ := C65_main h' r0 r1 hp hs cP cI cS hop e1
  refine ⟨t, t', a, a', ?_, ?_⟩
  · rw [(k 0 h.pos).gp, (k' 0 h'.pos).gp]
  · rw [(k 0 h.pos).gs, (k' 0 h'.pos).gs]

end

/-- the hypotheses hold for a real Fourier and a Dirichlet base on 8 ranks and on one rank, and a program
with all kinds of calls -/
example (o : Mode) (f : ℝ → ℝ) : ∃ (b0 : Base ℝ ℂ ℂ) (b1 : BaseR2r) (t t' : ℕ → RankState ℝ ℂ),
    IsR2c 32 b0 ∧ newR2r (some .dirichlet) 10 = ok b1 ∧
    (let ops := [SpmdOp.mapPY f, .forward, .gradient 2 1 (some (2, 3)), .fromOrtho, .toOrtho, .backward,
        .transposeYXPhys, .gatherXPhys, .allGatherXSpec, .scatterYPhys, .forward, .gatherXSpec]
    AllReturn 8 (fun r => spmdMain o realCodec realCodec complexCodec 8 r b0 (b1.toBase ℂ) ops) t ∧
    AllReturn 1 (fun r => spmdMain o realCodec realCodec complexCodec 1 r b0 (b1.toBase ℂ) ops) t') ∧
    (t 0).gs = (t' 0).gs := by
  obtain ⟨b0, h0, p0, s0, q0⟩ := isR2c_exists (n := 32) (by omega)
  obtain ⟨b1, h1⟩ := newR2r_exists (some .dirichlet) 10 (by omega) (by rintro c ⟨⟩; decide)
  obtain ⟨p1, q1, s1⟩ := C41_sizes_r2r (T := ℂ) _ _ _ h1
  have s1 : (b1.toBase ℂ).lenSpec = 10 - 2 := s1
  have i1 : IsR2r (b1.toBase ℂ) := ⟨_, 10, b1, h1, Or.inl rfl, (by decide : 5 ≤ 10), rfl⟩
  obtain ⟨sp, h⟩ := distributed_of o (N := 8) (by omega) b0 (b1.toBase ℂ) (m0 := 32) (m1 := 10)
    (by omega) (by omega) (by norm_num) (.inr (q0.trans s0.symm)) (.inl (q1.trans p1.symm))
  obtain ⟨sp', h'⟩ := distributed_of o (N := 1) (by omega) b0 (b1.toBase ℂ) (m0 := 32) (m1 := 10)
    (by omega) (by omega) (by norm_num) (.inr (q0.trans s0.symm)) (.inl (q1.trans p1.symm))
  obtain ⟨t, t', a, a', -, e⟩ := C65_ranks h h' (C41_bases_run.2.2.1 _ _ h0) (C41_bases_run.2.1 _ i1)
    (by rw [prod_phys, p0, p1]; norm_num) (by rw [prod_spec, s0, s1]; norm_num)
    realCodec realCodec complexCodec
    (ops := [SpmdOp.mapPY f, .forward, .gradient 2 1 (some (2, 3)), .fromOrtho, .toOrtho, .backward,
        .transposeYXPhys, .gatherXPhys, .allGatherXSpec, .scatterYPhys, .forward, .gatherXSpec])
    (fun d0 d1 _ _ => ⟨C41_gradients_run.2.1 _ _ d0 h0,
      (C41_gradients_run.1 _ _ _ d1 h1 (Or.inl rfl)).2⟩)
    (by
      intro d0 d1 c0 c1 hm
      simp only [List.mem_cons, List.not_mem_nil, or_false, reduceCtorEq, false_or] at hm
      cases hm; exact C65_scale (by norm_num) (by norm_num) (by norm_num) (by norm_num))
  exact ⟨b0, b1, t, t', h0, h1, ⟨a, a'⟩, e⟩

end Verif.Props
