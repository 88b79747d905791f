/-
Property C70: distributed programs in an arbitrary arithmetic, for example with floating-point numbers: the
ranks hold, entry for entry, what the program computes in one process.
-/
import Verif.Props.AnyArith
import Verif.Props.Spmd
import Verif.Props.ExampleMpi

namespace Verif.Props
open Res Spec Mpi

theorem scaleDivides_any {A S : Type} [Arith A] [ArithOn A S] (d0 d1 : ℕ) (c0 c1 : A) :
    ScaleDivides S d0 d1 c0 c1 := by
  obtain ⟨p0, e0⟩ := Arith.powi_returns c0 (toI32 d0)
  obtain ⟨p1, e1⟩ := Arith.powi_returns c1 (toI32 d1)
  exact ⟨p0, p1, e0, e1, fun x => ArithOn.scale_returns x _⟩

theorem zeroState_shaped {P I S A : Type} [Zero P] [Zero I] [Zero S] (b0 : Base I S S A) (b1 : Base P I S A) :
    (zeroState b0 b1).Shaped ⟨b0, b1⟩ := ⟨good_zeros _, good_zeros _, good_zeros _, good_zeros _,
    good_zeros _, good_zeros _, good_zeros _, good_zeros _, good_zeros _⟩

section
variable {P I S U A : Type} [Zero P] [Zero I] [Arith A] [ArithOn A S] {o : Mode} {N : ℕ}
  {b0 : Base I S S A} {b1 : Base P I S A} {sp : ℕ → Space2Mpi P I S S A}

/-- C70: in every arithmetic, a program of any length on any number of ranks returns on all ranks under
every order of delivery of the messages, and the ranks hold their parts of exactly the arrays that the
same calls give in one process – no rounding difference – whatever the scales of the gradients are. -/
theorem C70_main (h : Distributed o N b0 b1 sp) (r0 : Spec.Runs b0) (r1 : Spec.Runs b1)
    (hp : (Space2.shapePhysical (⟨b0, b1⟩ : Space2 P I S S A)).prod < 2 ^ 31)
    (hs : (Space2.shapeSpectral (⟨b0, b1⟩ : Space2 P I S S A)).prod < 2 ^ 31)
    (cP : Codec P U) (cI : Codec I U) (cS : Codec S U) {ops : List (SpmdOp P S A)}
    (hop : GradientsRun b0 b1 ops) :
    ∃ s1 t1, serialOps ⟨b0, b1⟩ ops (zeroState b0 b1) = ok s1 ∧ s1.Shaped ⟨b0, b1⟩ ∧
      (∀ r < N, Holds (sp r) r s1 (t1 r)) ∧
      AllReturn N (fun r => spmdMain o cP cI cS N r b0 b1 ops) t1 := by
  obtain ⟨s1, e1, k1⟩ := C65_serial r0 r1 hop (fun d0 d1 c0 c1 _ => scaleDivides_any d0 d1 c0 c1)
    (zeroState_shaped b0 b1)
  obtain ⟨t1, k, a⟩ := C65_main h r0 r1 hp hs cP cI cS hop e1
  exact ⟨s1, t1, e1, k1, k, a⟩

/-- C70: the result does not depend on the number of ranks. -/
theorem C70_ranks {N' : ℕ} {sp' : ℕ → Space2Mpi P I S S A} (h : Distributed o N b0 b1 sp)
    (h' : Distributed o N' b0 b1 sp') (r0 : Spec.Runs b0) (r1 : Spec.Runs b1)
    (hp : (Space2.shapePhysical (⟨b0, b1⟩ : Space2 P I S S A)).prod < 2 ^ 31)
    (hs : (Space2.shapeSpectral (⟨b0, b1⟩ : Space2 P I S S A)).prod < 2 ^ 31)
    (cP : Codec P U) (cI : Codec I U) (cS : Codec S U) {ops : List (SpmdOp P S A)}
    (hop : GradientsRun b0 b1 ops) :
    ∃ t t', AllReturn N (fun r => spmdMain o cP cI cS N r b0 b1 ops) t ∧
      AllReturn N' (fun r => spmdMain o cP cI cS N' r b0 b1 ops) t' ∧
      (t 0).gp = (t' 0).gp ∧ (t 0).gs = (t' 0).gs :=
  C65_ranks h h' r0 r1 hp hs cP cI cS hop (fun d0 d1 c0 c1 _ => scaleDivides_any d0 d1 c0 c1)

end

/-- C70 for the spaces of the library: real Fourier × a real-to-real base (not biharmonic), of all sizes
that can be distributed; numbers, complex numbers and transforms of any arithmetic. -/
theorem C70_fourier_chebyshev {A C U : Type} [Arith A] [CArith A C] (o : Mode) {N n0 n1 : ℕ}
    {k : Option CKind} {b0 : BaseR2c A C} {b1 : BaseR2r A}
    (h0 : fourierR2c n0 A C = ok b0) (h1 : newR2r k n1 A = ok b1) (hm : RunsMul k) (hs : RunsSolve k n1)
    (hg : RunsGrad k n1) (hN : 0 < N) (hN0 : N ≤ n0 / 2 + 1) (hN0' : N ≤ n0) (hN1 : N + 2 ≤ n1)
    (hsmall : (n0 + 1) * n1 < 2 ^ 31) (cA : Codec A U) (cC : Codec C U) (ops : List (SpmdOp A C A)) :
    ∃ s1 t1 sp, Distributed o N b0.toBase (b1.toBase C) sp ∧
      serialOps ⟨b0.toBase, b1.toBase C⟩ ops (zeroState b0.toBase (b1.toBase C)) = ok s1 ∧
      (∀ r < N, Holds (sp r) r s1 (t1 r)) ∧
      AllReturn N (fun r => spmdMain o cA cA cC N r b0.toBase (b1.toBase C) ops) t1 := by
  obtain ⟨⟨p0, s0, q0⟩, r0, g0⟩ := C68_r2c n0 b0 h0
  obtain ⟨p1, q1, s1⟩ := C68_sizes (T := C) k n1 b1 h1
  have l1 : (b1.toBase C).lenSpec ≤ n1 ∧ N ≤ (b1.toBase C).lenSpec := by
    rw [s1]
    cases k with
    | none => exact ⟨le_refl _, by show N ≤ n1; omega⟩
    | some c => exact ⟨Nat.sub_le _ _, by show N ≤ n1 - c.nbc; rw [nbc_of_mul hm]; omega⟩
  obtain ⟨sp, h⟩ := distributed_of o hN b0.toBase (b1.toBase C) (m0 := n0 + 1) (m1 := n1)
    (by rw [p0, s0]; omega) ⟨by rw [p1]; omega, by rw [p1], l1.2, l1.1⟩ hsmall
    (.inr (q0.trans s0.symm)) (.inl (q1.trans p1.symm))
  have r1 := C68_r2r (T := C) k n1 b1 h1 hm hs
  obtain ⟨s1', t1, e, -, hh, a⟩ := C70_main h r0 r1
    (by rw [prod_phys, p0, p1]; exact lt_of_le_of_lt (Nat.mul_le_mul_right _ (by omega)) hsmall)
    (by rw [prod_spec, s0]; exact lt_of_le_of_lt (Nat.mul_le_mul (by omega) l1.1) hsmall) cA cA cC (ops := ops)
    (fun d0 d1 _ _ => ⟨g0 d0, (C68_gradient k n1 b1 h1 d1).1 (.inl hg)⟩)
  exact ⟨s1', t1, sp, h, e, hh, a⟩

/-- floating-point numbers on the network -/
def floatCodec : Codec Float (Float ⊕ FloatC) := ⟨.inl, Sum.elim id (fun z => z.re), fun _ => rfl⟩
@[inherit_doc floatCodec]
def floatCCodec : Codec FloatC (Float ⊕ FloatC) := ⟨.inr, Sum.elim (fun x => ⟨x, 0.0⟩) id, fun _ => rfl⟩

/-- with floating-point numbers, on 8 ranks -/
example (o : Mode) (f : Float → Float) (c : Float) :
    ∃ (b0 : BaseR2c Float FloatC) (b1 : BaseR2r Float) (t : ℕ → RankState Float FloatC),
    AllReturn 8 (fun r => spmdMain o floatCodec floatCodec floatCCodec 8 r b0.toBase (b1.toBase FloatC)
      [SpmdOp.mapPY f, .forward, .gradient 2 1 (some (c, 0.0)), .fromOrtho, .toOrtho, .backward,
        .transposeYXPhys, .gatherXPhys, .allGatherXSpec, .scatterYPhys, .forward, .gatherXSpec]) t := by
  obtain ⟨b1, h1⟩ := (C68_new (A := Float) (some .dirichlet) 10).1 (by decide)
  obtain ⟨b0, h0⟩ : ∃ b0, fourierR2c 32 Float FloatC = ok b0 := ⟨_, rfl⟩
  obtain ⟨-, t, -, -, -, -, a⟩ := C70_fourier_chebyshev o (N := 8) h0 h1 (Or.inl rfl) (by show 5 ≤ 10; decide)
    (Or.inl rfl) (by omega) (by omega) (by omega) (by omega) (by norm_num) floatCodec floatCCodec _
  exact ⟨b0, b1, t, a⟩

/-- the same with rayon on one process: parallel and serial gradient of a floating-point space agree -/
example (a : Arr FloatC) (c : Float) (s0 s1 : List ℕ) (b0 : BaseR2c Float FloatC) (b1 : BaseR2r Float)
    (h0 : fourierR2c 32 Float FloatC = ok b0) (h1 : newR2r none 10 Float = ok b1)
    (ha : Good a [17, 10]) (hs0 : FairSchedule [17, 10] 0 s0) (hs1 : FairSchedule [17, 10] 1 s1) :
    ∃ r, (⟨b0.toBase, b1.toBase FloatC⟩ : Space2 Float Float FloatC FloatC Float).gradientPar s0 s1 a 2 1
      (some (c, 0.0)) = ok r := by
  obtain ⟨⟨p0, l0, q0⟩, r0, g0⟩ := C68_r2c 32 b0 h0
  obtain ⟨p1, q1, l1⟩ := C68_sizes (T := FloatC) none 10 b1 h1
  have g1 := (C68_gradient (T := FloatC) none 10 b1 h1 1).1 (.inl (by show 3 ≤ 10; decide))
  have ha' : Good a (Space2.shapeSpectral (⟨b0.toBase, b1.toBase FloatC⟩ :
      Space2 Float Float FloatC FloatC Float)) := by
    unfold Space2.shapeSpectral; rw [l0, l1]; exact ha
  obtain ⟨r, e, -⟩ := C69_space2_gradient (⟨b0.toBase, b1.toBase FloatC⟩ :
      Space2 Float Float FloatC FloatC Float) (g0 2) g1 ha' (some (c, 0.0))
  refine ⟨r, ?_⟩
  rw [← e]
  exact C34_space2_gradient _ (g0 2) g1 ha' (by rw [q0, l1]; exact hs0) (by rw [q0, q1]; exact hs1)

end Verif.Props
