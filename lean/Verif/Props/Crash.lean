/- C101: crashes of ranks. -/
import Verif.Proof.Crash
import Verif.Props.Spmd
import Verif.Props.AnyMpi

namespace Verif.Props
open Verif Res Spec Mpi

/-- C101: whatever the ranks do: if they all return when nothing happens to them (as all collective operations,
transforms and programs of the library do, C44-C49, C56-C58, C64, C65, C70), then ranks that stop, at any moment,
never make another rank return a wrong result or fail. -/
theorem C101_crash {T α : Type} {P : ℕ} {ps : ℕ → Prog T α} {a : ℕ → α} (h : AllReturn P ps a) : CrashSafe P ps a :=
  AllReturn.crashSafe h

section
variable {P I S A U : Type} [Zero P] [Zero I] [Zero S] [Mul A] [Powi A] [DivBy A S]
  {o : Mode} {N : ℕ} {b0 : Base I S S A} {b1 : Base P I S A} {sp : ℕ → Space2Mpi P I S S A}

/-- C101: a program over a distributed space, whatever ranks crash and when: every rank that returns holds exactly
its part of the serial result. -/
theorem C101_history (h : Distributed o N b0 b1 sp) (r0 : Spec.Runs b0) (r1 : Spec.Runs b1)
    (hp : (Space2.shapePhysical (⟨b0, b1⟩ : Space2 P I S S A)).prod < 2 ^ 31)
    (hs : (Space2.shapeSpectral (⟨b0, b1⟩ : Space2 P I S S A)).prod < 2 ^ 31)
    (cP : Codec P U) (cI : Codec I U) (cS : Codec S U) {ops : List (SpmdOp P S A)}
    (hop : GradientsRun b0 b1 ops) {s0 s1 : SerialState P S} (h0 : s0.Shaped ⟨b0, b1⟩)
    {t0 : ℕ → RankState P S} (ht : ∀ r < N, Holds (sp r) r s0 (t0 r))
    (h1 : serialOps ⟨b0, b1⟩ ops s0 = ok s1) {c : CrashWorld U (RankState P S)}
    (hc : CrashReach N (fun r => SpmdOp.runs o cP cI cS (sp r) ops (t0 r)) c) :
    ¬ c.world.Failed N ∧
      ∀ r < N, ∀ x, c.world.loc r = .idle (.ret x) → ∃ t, x = ok t ∧ Holds (sp r) r s1 t := by
  obtain ⟨-, t1, k1, k2⟩ := C65_history h r0 r1 hp hs cP cI cS hop h0 ht h1
  obtain ⟨f, e, -⟩ := AllReturn.crashSafe k2 c hc
  exact ⟨f, fun r hr x hx => ⟨t1 r, e r hr x hx, k1 r hr⟩⟩

end

/-- An execution of `broadcast_scalar` on three ranks: rank 0 crashes in the operation, its message to rank 2 is lost;
rank 1 returns, with the right value, and rank 2 waits. -/
example : ∃ c, CrashReach 3 (fun r => broadcastScalar r (7 + r)) c ∧ c.dead 0 ∧ c.world.loc 1 = .idle (.ret (ok 7)) ∧
    ∃ cc b g k, c.world.loc 2 = .inside cc b g k := by
  have h0 := CrashReach.init (P := 3) (ps := fun r => broadcastScalar r (7 + r))
  have h1 := h0.step (.step (.enter 0 (by omega) rfl) (fun r hr => hr.elim))
  have h2 := h1.step (.crash 0 (net := fun s x => if s = 0 ∧ x = 1 then [(.broadcast, [7])] else []) (fun x => by
    by_cases hx : x = 1
    · subst hx; exact List.prefix_rfl
    · simp [hx]) (fun s x hs => by simp [hs, World.init]))
  have h3 := h2.step (.step (.enter 1 (by omega) rfl) (fun r hr => by
    obtain rfl : r = 0 := by simpa using hr
    rfl))
  have h4 := h3.step (.step (.enter 2 (by omega) rfl) (fun r hr => by
    obtain rfl : r = 0 := by simpa using hr
    rfl))
  have h5 := h4.step (.step (.recv 1 0 (by omega) (by omega) (m := (.broadcast, [7])) (ms := []) (d := 0) rfl (by simp) rfl
    ⟨0, rfl, le_rfl, rfl⟩ rfl) (fun r hr => by
    obtain rfl : r = 0 := by simpa using hr
    rfl))
  have h6 := h5.step (.step (.leave 1 (by omega) rfl (fun s _ hs => by
    by_cases e : s = 0
    · simp [e]
    · simp [e] at hs)) (fun r hr => by
    obtain rfl : r = 0 := by simpa using hr
    rfl))
  exact ⟨_, h6, .inl rfl, rfl, _, _, _, _, rfl⟩

/-- C101: the spaces of the library, in any arithmetic. -/
theorem C101_fourier_chebyshev {A C U : Type} [Arith A] [CArith A C] (o : Mode) {N n0 n1 : ℕ}
    {k : Option CKind} {b0 : BaseR2c A C} {b1 : BaseR2r A}
    (h0 : fourierR2c n0 A C = ok b0) (h1 : newR2r k n1 A = ok b1) (hm : RunsMul k) (hs : RunsSolve k n1)
    (hg : RunsGrad k n1) (hN : 0 < N) (hN0 : N ≤ n0 / 2 + 1) (hN0' : N ≤ n0) (hN1 : N + 2 ≤ n1)
    (hsmall : (n0 + 1) * n1 < 2 ^ 31) (cA : Codec A U) (cC : Codec C U) (ops : List (SpmdOp A C A)) :
    ∃ s1 sp, Distributed o N b0.toBase (b1.toBase C) sp ∧
      serialOps ⟨b0.toBase, b1.toBase C⟩ ops (zeroState b0.toBase (b1.toBase C)) = ok s1 ∧
      ∀ c, CrashReach N (fun r => spmdMain o cA cA cC N r b0.toBase (b1.toBase C) ops) c →
        ¬ c.world.Failed N ∧ ∀ r < N, ∀ x, c.world.loc r = .idle (.ret x) → ∃ t, x = ok t ∧ Holds (sp r) r s1 t := by
  obtain ⟨s1, t1, sp, d, e, k1, k2⟩ := C70_fourier_chebyshev o h0 h1 hm hs hg hN hN0 hN0' hN1 hsmall cA cC ops
  refine ⟨s1, sp, d, e, fun c hc => ?_⟩
  obtain ⟨f, g, -⟩ := AllReturn.crashSafe k2 c hc
  exact ⟨f, fun r hr x hx => ⟨t1 r, g r hr x hx, k1 r hr⟩⟩

end Verif.Props
