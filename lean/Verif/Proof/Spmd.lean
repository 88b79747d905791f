/- Programs that use a distributed space. -/
import Verif.Spec.Spmd
import Verif.Props.ExampleMpi

namespace Verif
open Res Spec Mpi

/-! ### programs -/

namespace Mpi
variable {T U α β : Type}

theorem Prog.wire_pure_bind (c : Codec T U) (p : Prog T α) (f : α → β) :
    (p >>= fun a => Pure.pure (f a)).wire c = (p.wire c >>= fun a => Pure.pure (f a)) := by
  induction p with
  | ret r => cases r <;> rfl
  | coll x k ih =>
    rw [coll_bind]
    show Prog.coll _ _ = _
    show _ = Prog.coll _ _
    congr 1
    funext b
    exact ih _

/-- a gather on the root and on the other ranks, followed by local work -/
theorem Runs.gathered {N : ℕ} {A : ℕ → Prog T α} {B : ℕ → Prog T Unit} {x : α} (c : Codec T U)
    (h : Runs N (fun r => if r = 0 then A r >>= fun a => Pure.pure (some a)
        else B r >>= fun _ => Pure.pure none) (fun r => if r = 0 then some x else none))
    (F : ℕ → α → β) (G : ℕ → β) :
    Runs N (fun r => if r = 0 then (A r).wire c >>= fun a => Pure.pure (F r a)
        else (B r).wire c >>= fun _ => Pure.pure (G r)) (fun r => if r = 0 then F r x else G r) := by
  refine (Runs.bind (q := fun r y => Pure.pure (Option.elim y (G r) (F r))) (h.wire c)
    (Runs.pure _)).congr (fun r hr => ?_) (fun r hr => ?_)
  · by_cases hr0 : r = 0
    · simp only [if_pos hr0]
      rw [Prog.wire_pure_bind, Prog.bind_assoc]; rfl
    · simp only [if_neg hr0]
      rw [Prog.wire_pure_bind, Prog.bind_assoc]; rfl
  · by_cases hr0 : r = 0
    · simp only [if_pos hr0]; rfl
    · simp only [if_neg hr0]; rfl

end Mpi

/-! ### arrays given by their entries -/

theorem Arr.map_mk2 {T : Type} (g : T → T) (n0 n1 : ℕ) (f : ℕ → ℕ → T) :
    (mk2 n0 n1 f).map g = mk2 n0 n1 (fun i j => g (f i j)) := by
  unfold Arr.map mk2
  simp only [List.map_map]
  rfl

/-- the entries of the arrays of a program -/
structure Planes (P S : Type) where
  px : ℕ → ℕ → P
  py : ℕ → ℕ → P
  gp0 : ℕ → ℕ → P
  gp1 : ℕ → ℕ → P
  sx : ℕ → ℕ → S
  sy : ℕ → ℕ → S
  gs0 : ℕ → ℕ → S
  gs1 : ℕ → ℕ → S
  ox : ℕ → ℕ → S

section
variable {P I S U A : Type} [Zero P] [Zero I] [Zero S] [Mul A] [Powi A] [DivBy A S]

/-- the global arrays -/
def Planes.serial (b0 : Base I S S A) (b1 : Base P I S A) (F : Planes P S) : SerialState P S where
  px := mk2 b0.lenPhys b1.lenPhys F.px
  py := mk2 b0.lenPhys b1.lenPhys F.py
  gp0 := mk2 b0.lenPhys b1.lenPhys F.gp0
  gp1 := mk2 b0.lenPhys b1.lenPhys F.gp1
  sx := mk2 b0.lenSpec b1.lenSpec F.sx
  sy := mk2 b0.lenSpec b1.lenSpec F.sy
  gs0 := mk2 b0.lenSpec b1.lenSpec F.gs0
  gs1 := mk2 b0.lenSpec b1.lenSpec F.gs1
  ox := mk2 b0.lenOrth b1.lenOrth F.ox

/-- the arrays of rank `r` -/
def Planes.rank (b0 : Base I S S A) (b1 : Base P I S A) (N : ℕ) (F : Planes P S) (r : ℕ) : RankState P S where
  px := xPen b0.lenPhys b1.lenPhys N r F.px
  py := yPen b0.lenPhys b1.lenPhys N r F.py
  gp := mk2 b0.lenPhys b1.lenPhys (if r = 0 then F.gp0 else F.gp1)
  sx := xPen b0.lenSpec b1.lenSpec N r F.sx
  sy := yPen b0.lenSpec b1.lenSpec N r F.sy
  gs := mk2 b0.lenSpec b1.lenSpec (if r = 0 then F.gs0 else F.gs1)
  ox := xPen b0.lenOrth b1.lenOrth N r F.ox

theorem shaped_planes {b0 : Base I S S A} {b1 : Base P I S A} {s : SerialState P S}
    (h : s.Shaped ⟨b0, b1⟩) : ∃ F : Planes P S, s = F.serial b0 b1 := by
  have mk : ∀ {T : Type} [Zero T] {a : Arr T} {n0 n1 : ℕ}, Good a [n0, n1] → ∃ f, a = mk2 n0 n1 f :=
    fun h => ⟨_, eq_mk2 h⟩
  obtain ⟨px, py, gp0, gp1, sx, sy, gs0, gs1, ox⟩ := s
  obtain ⟨f1, rfl⟩ := mk h.px
  obtain ⟨f2, rfl⟩ := mk h.py
  obtain ⟨f3, rfl⟩ := mk h.gp0
  obtain ⟨f4, rfl⟩ := mk h.gp1
  obtain ⟨f5, rfl⟩ := mk h.sx
  obtain ⟨f6, rfl⟩ := mk h.sy
  obtain ⟨f7, rfl⟩ := mk h.gs0
  obtain ⟨f8, rfl⟩ := mk h.gs1
  obtain ⟨f9, rfl⟩ := mk h.ox
  exact ⟨⟨f1, f2, f3, f4, f5, f6, f7, f8, f9⟩, rfl⟩

theorem planes_shaped (b0 : Base I S S A) (b1 : Base P I S A) (F : Planes P S) :
    (F.serial b0 b1).Shaped ⟨b0, b1⟩ :=
  ⟨good_mk2 .., good_mk2 .., good_mk2 .., good_mk2 .., good_mk2 .., good_mk2 .., good_mk2 ..,
    good_mk2 .., good_mk2 ..⟩

variable {o : Mode} {N : ℕ} {b0 : Base I S S A} {b1 : Base P I S A} {sp : ℕ → Space2Mpi P I S S A}
  (h : Distributed o N b0 b1 sp)

include h in
theorem holds_iff {r : ℕ} (hr : r < N) (F : Planes P S) (t : RankState P S) :
    Holds (sp r) r (F.serial b0 b1) t ↔ t = F.rank b0 b1 N r := by
  obtain ⟨px, py, gp, sx, sy, gs, ox⟩ := t
  have e1 : ∀ p, XPencil (sp r) (F.serial b0 b1).px p ↔ _ := h.xPencil_iff hr (.inl rfl) (.inl rfl) _
  have e2 : ∀ p, YPencil (sp r) (F.serial b0 b1).py p ↔ _ := h.yPencil_iff hr (.inl rfl) (.inl rfl) _
  have e3 : ∀ p, XPencil (sp r) (F.serial b0 b1).sx p ↔ _ := h.xPencil_iff hr (.inr rfl) (.inr rfl) _
  have e4 : ∀ p, YPencil (sp r) (F.serial b0 b1).sy p ↔ _ := h.yPencil_iff hr (.inr rfl) (.inr rfl) _
  have e5 : ∀ p, XPencil (sp r) (F.serial b0 b1).ox p ↔ _ := h.xPencil_iff hr h.orth0 h.orth1 _
  have g1 : (if r = 0 then (F.serial b0 b1).gp0 else (F.serial b0 b1).gp1)
      = mk2 b0.lenPhys b1.lenPhys (if r = 0 then F.gp0 else F.gp1) := by split_ifs <;> rfl
  have g2 : (if r = 0 then (F.serial b0 b1).gs0 else (F.serial b0 b1).gs1)
      = mk2 b0.lenSpec b1.lenSpec (if r = 0 then F.gs0 else F.gs1) := by split_ifs <;> rfl
  constructor
  · rintro ⟨h1, h2, h3, h4, h5, h6, h7⟩
    unfold Planes.rank
    dsimp only at *
    rw [e1] at h1; rw [e2] at h2; rw [e3] at h4; rw [e4] at h5; rw [e5] at h7
    rw [g1] at h3; rw [g2] at h6
    rw [h1, h2, h3, h4, h5, h6, h7]
  · intro e
    unfold Planes.rank at e
    obtain ⟨rfl, rfl, rfl, rfl, rfl, rfl, rfl⟩ := RankState.mk.inj e
    exact ⟨(e1 _).2 rfl, (e2 _).2 rfl, g1.symm, (e3 _).2 rfl, (e4 _).2 rfl, g2.symm, (e5 _).2 rfl⟩

/-! ### one call -/

include h in
theorem decomp_phys {r : ℕ} (hr : r < N) :
    (sp r).getDecomp (sp r).space.shapePhysical = ok (decompOf b0.lenPhys b1.lenPhys N r) := by
  rw [h.space_eq hr]; exact h.lookup hr (.inl rfl) (.inl rfl)

include h in
theorem decomp_spec {r : ℕ} (hr : r < N) :
    (sp r).getDecomp (sp r).space.shapeSpectral = ok (decompOf b0.lenSpec b1.lenSpec N r) := by
  rw [h.space_eq hr]; exact h.lookup hr (.inr rfl) (.inr rfl)

include h in
theorem nrank_eq {r : ℕ} (hr : r < N) : (sp r).getNrank = r := by rw [h.sp_eq hr]; rfl

set_option maxHeartbeats 4000000 in
include h in
theorem op_runs (r0 : Spec.Runs b0) (r1 : Spec.Runs b1)
    (hp : b0.lenPhys * b1.lenPhys < 2 ^ 31) (hs : b0.lenSpec * b1.lenSpec < 2 ^ 31)
    (hg : 0 < b0.lenOrth * b1.lenOrth)
    (cP : Codec P U) (cI : Codec I U) (cS : Codec S U) (op : SpmdOp P S A)
    (hop : ∀ d0 d1 scale, op = .gradient d0 d1 scale → RunsGradient b0 d0 ∧ RunsGradient b1 d1)
    (F : Planes P S) {s1 : SerialState P S} (h1 : serialOp ⟨b0, b1⟩ (F.serial b0 b1) op = ok s1) :
    ∃ F1 : Planes P S, s1 = F1.serial b0 b1 ∧
      Mpi.Runs N (fun r => op.run o cP cI cS (sp r) (F.rank b0 b1 N r)) (fun r => F1.rank b0 b1 N r) := by
  obtain ⟨⟨φ0, f0⟩, ⟨β0, k0⟩, ⟨τ0, t0⟩, ⟨σ0, u0⟩⟩ := r0
  obtain ⟨⟨φ1, f1⟩, ⟨β1, k1⟩, ⟨τ1, t1⟩, ⟨σ1, u1⟩⟩ := r1
  have sP := h.small' (n0 := b0.lenPhys) (n1 := b1.lenPhys) (.inl rfl) (.inl rfl)
  have gP := h.grid (n0 := b0.lenPhys) (n1 := b1.lenPhys) (.inl rfl) (.inl rfl)
  have sS := h.small' (n0 := b0.lenSpec) (n1 := b1.lenSpec) (.inr rfl) (.inr rfl)
  have gS := h.grid (n0 := b0.lenSpec) (n1 := b1.lenSpec) (.inr rfl) (.inr rfl)
  have sh := planes_shaped b0 b1 F
  cases op with
  | transposeXYPhys =>
    refine ⟨{ F with py := F.px }, (Res.ok.inj h1).symm, Mpi.Runs.bind (Mpi.Runs.wire cP
      ((transposeXY_runs o gP sP.1 sP.2 F.px _ (fun r hr => good_yPen _ _ _ _ F.py)).congr
        (fun r hr => ?_) (fun r hr => rfl))) (Mpi.Runs.pure _)⟩
    unfold Space2Mpi.transposeXToYPhys; rw [decomp_phys h hr]; rfl
  | transposeYXPhys =>
    refine ⟨{ F with px := F.py }, (Res.ok.inj h1).symm, Mpi.Runs.bind (Mpi.Runs.wire cP
      ((transposeYX_runs o gP sP.1 sP.2 F.py _ (fun r hr => good_xPen _ _ _ _ F.px)).congr
        (fun r hr => ?_) (fun r hr => rfl))) (Mpi.Runs.pure _)⟩
    unfold Space2Mpi.transposeYToXPhys; rw [decomp_phys h hr]; rfl
  | transposeXYSpec =>
    refine ⟨{ F with sy := F.sx }, (Res.ok.inj h1).symm, Mpi.Runs.bind (Mpi.Runs.wire cS
      ((transposeXY_runs o gS sS.1 sS.2 F.sx _ (fun r hr => good_yPen _ _ _ _ F.sy)).congr
        (fun r hr => ?_) (fun r hr => rfl))) (Mpi.Runs.pure _)⟩
    unfold Space2Mpi.transposeXToYSpec; rw [decomp_spec h hr]; rfl
  | transposeYXSpec =>
    refine ⟨{ F with sx := F.sy }, (Res.ok.inj h1).symm, Mpi.Runs.bind (Mpi.Runs.wire cS
      ((transposeYX_runs o gS sS.1 sS.2 F.sy _ (fun r hr => good_xPen _ _ _ _ F.sx)).congr
        (fun r hr => ?_) (fun r hr => rfl))) (Mpi.Runs.pure _)⟩
    unfold Space2Mpi.transposeYToXSpec; rw [decomp_spec h hr]; rfl
  | forward =>
    have e := Space2.forward_eq ⟨b0, b1⟩ f0 f1 sh.py
    unfold serialOp at h1
    rw [e, bind_ok] at h1
    refine ⟨{ F with sx := map0 φ0 b0.lenPhys (map1 φ1 b1.lenPhys F.py) }, ?_, Mpi.Runs.bind
      ((forwardInplace_runs h f0 f1 F.py _ (fun r hr => good_xPen _ _ _ _ F.sx)).wire cI)
      (Mpi.Runs.pure _)⟩
    rw [← Res.ok.inj h1]
    unfold Planes.serial
    dsimp only
    rw [mapAx1_mk2, mapAx0_mk2]
  | backward =>
    have e := Space2.backward_eq ⟨b0, b1⟩ k0 k1 sh.sx
    unfold serialOp at h1
    rw [e, bind_ok] at h1
    refine ⟨{ F with py := map1 β1 b1.lenSpec (map0 β0 b0.lenSpec F.sx) }, ?_, Mpi.Runs.bind
      ((backwardInplace_runs h k0 k1 F.sx _ (fun r hr => good_yPen _ _ _ _ F.py)).wire cI)
      (Mpi.Runs.pure _)⟩
    rw [← Res.ok.inj h1]
    unfold Planes.serial
    dsimp only
    rw [mapAx0_mk2, mapAx1_mk2]
  | toOrtho =>
    have e := Space2.toOrtho_eq ⟨b0, b1⟩ t0 t1 sh.sx
    unfold serialOp at h1
    rw [e, bind_ok] at h1
    refine ⟨{ F with ox := map1 τ1 b1.lenSpec (map0 τ0 b0.lenSpec F.sx) }, ?_, Mpi.Runs.bind
      ((toOrthoInplace_runs h t0 t1 F.sx _ (fun r hr => good_xPen _ _ _ _ F.ox)).wire cS)
      (Mpi.Runs.pure _)⟩
    rw [← Res.ok.inj h1]
    unfold Planes.serial
    dsimp only
    rw [mapAx0_mk2, mapAx1_mk2]
  | fromOrtho =>
    have e := Space2.fromOrtho_eq ⟨b0, b1⟩ u0 u1 sh.ox
    unfold serialOp at h1
    rw [e, bind_ok] at h1
    refine ⟨{ F with sx := map1 σ1 b1.lenOrth (map0 σ0 b0.lenOrth F.ox) }, ?_, Mpi.Runs.bind
      ((fromOrthoInplace_runs h u0 u1 F.ox _ (fun r hr => good_xPen _ _ _ _ F.sx)).wire cS)
      (Mpi.Runs.pure _)⟩
    rw [← Res.ok.inj h1]
    unfold Planes.serial
    dsimp only
    rw [mapAx0_mk2, mapAx1_mk2]
  | gradient d0 d1 scale =>
    obtain ⟨⟨g0, c0⟩, ⟨g1, c1⟩⟩ := hop d0 d1 scale rfl
    unfold serialOp at h1
    dsimp only at h1
    cases hA : (⟨b0, b1⟩ : Space2 P I S S A).gradient (F.serial b0 b1).sx d0 d1 scale with
    | err e => rw [hA] at h1; cases h1
    | ok A =>
      rw [hA, bind_ok] at h1
      obtain ⟨k, hk, rfl⟩ := scaleOk_of_serial (f := F.sx) c0 c1 hA
      refine ⟨{ F with ox := fun i j => k (map1 g1 b1.lenSpec (map0 g0 b0.lenSpec F.sx) i j) }, ?_,
        Mpi.Runs.bind ((gradient_runs h c0 c1 F.sx hk).wire cS) (Mpi.Runs.pure _)⟩
      rw [← Res.ok.inj h1]
      unfold Planes.serial
      rfl
  | gatherXPhys =>
    refine ⟨{ F with gp0 := F.px }, (Res.ok.inj h1).symm, ?_⟩
    refine (Mpi.Runs.gathered cP (gatherX_runs o gP hp F.px _ (good_mk2 _ _ F.gp0))
      (fun r a => { F.rank b0 b1 N r with gp := a }) (fun r => F.rank b0 b1 N r)).congr
      (fun r hr => ?_) (fun r hr => ?_)
    · unfold SpmdOp.run Space2Mpi.gatherFromXPencilPhysRoot Space2Mpi.gatherFromXPencilPhys
      dsimp only
      rw [nrank_eq h hr, decomp_phys h hr]
      by_cases hr0 : r = 0
      · rw [if_pos hr0, if_pos hr0]
        unfold Planes.rank; dsimp only; rw [if_pos hr0]; rfl
      · rw [if_neg hr0, if_neg hr0]; rfl
    · unfold Planes.rank
      by_cases hr0 : r = 0
      · simp only [if_pos hr0]
      · simp only [if_neg hr0]
  | gatherYPhys =>
    refine ⟨{ F with gp0 := F.py }, (Res.ok.inj h1).symm, ?_⟩
    refine (Mpi.Runs.gathered cP (gatherY_runs o gP hp F.py _ (good_mk2 _ _ F.gp0))
      (fun r a => { F.rank b0 b1 N r with gp := a }) (fun r => F.rank b0 b1 N r)).congr
      (fun r hr => ?_) (fun r hr => ?_)
    · unfold SpmdOp.run Space2Mpi.gatherFromYPencilPhysRoot Space2Mpi.gatherFromYPencilPhys
      dsimp only
      rw [nrank_eq h hr, decomp_phys h hr]
      by_cases hr0 : r = 0
      · rw [if_pos hr0, if_pos hr0]
        unfold Planes.rank; dsimp only; rw [if_pos hr0]; rfl
      · rw [if_neg hr0, if_neg hr0]; rfl
    · unfold Planes.rank
      by_cases hr0 : r = 0
      · simp only [if_pos hr0]
      · simp only [if_neg hr0]
  | gatherXSpec =>
    refine ⟨{ F with gs0 := F.sx }, (Res.ok.inj h1).symm, ?_⟩
    refine (Mpi.Runs.gathered cS (gatherX_runs o gS hs F.sx _ (good_mk2 _ _ F.gs0))
      (fun r a => { F.rank b0 b1 N r with gs := a }) (fun r => F.rank b0 b1 N r)).congr
      (fun r hr => ?_) (fun r hr => ?_)
    · unfold SpmdOp.run Space2Mpi.gatherFromXPencilSpecRoot Space2Mpi.gatherFromXPencilSpec
      dsimp only
      rw [nrank_eq h hr, decomp_spec h hr]
      by_cases hr0 : r = 0
      · rw [if_pos hr0, if_pos hr0]
        unfold Planes.rank; dsimp only; simp only [if_pos hr0]; rfl
      · rw [if_neg hr0, if_neg hr0]; rfl
    · unfold Planes.rank
      by_cases hr0 : r = 0
      · simp only [if_pos hr0]
      · simp only [if_neg hr0]
  | gatherYSpec =>
    refine ⟨{ F with gs0 := F.sy }, (Res.ok.inj h1).symm, ?_⟩
    refine (Mpi.Runs.gathered cS (gatherY_runs o gS hs F.sy _ (good_mk2 _ _ F.gs0))
      (fun r a => { F.rank b0 b1 N r with gs := a }) (fun r => F.rank b0 b1 N r)).congr
      (fun r hr => ?_) (fun r hr => ?_)
    · unfold SpmdOp.run Space2Mpi.gatherFromYPencilSpecRoot Space2Mpi.gatherFromYPencilSpec
      dsimp only
      rw [nrank_eq h hr, decomp_spec h hr]
      by_cases hr0 : r = 0
      · rw [if_pos hr0, if_pos hr0]
        unfold Planes.rank; dsimp only; simp only [if_pos hr0]; rfl
      · rw [if_neg hr0, if_neg hr0]; rfl
    · unfold Planes.rank
      by_cases hr0 : r = 0
      · simp only [if_pos hr0]
      · simp only [if_neg hr0]
  | allGatherXPhys =>
    refine ⟨{ F with gp0 := F.px, gp1 := F.px }, (Res.ok.inj h1).symm, ?_⟩
    refine (Mpi.Runs.bind (q := fun r a => Pure.pure { F.rank b0 b1 N r with gp := a })
      (Mpi.Runs.wire cP ((allGatherX_runs o gP hp F.px _ (fun r hr => good_mk2 _ _
        (if r = 0 then F.gp0 else F.gp1))).congr (fun r hr => ?_) (fun r hr => rfl)))
      (Mpi.Runs.pure _)).congr (fun r hr => rfl) (fun r hr => ?_)
    · unfold Space2Mpi.allGatherFromXPencilPhys; rw [decomp_phys h hr]; rfl
    · unfold Planes.rank; simp only [ite_self]
  | allGatherYPhys =>
    refine ⟨{ F with gp0 := F.py, gp1 := F.py }, (Res.ok.inj h1).symm, ?_⟩
    refine (Mpi.Runs.bind (q := fun r a => Pure.pure { F.rank b0 b1 N r with gp := a })
      (Mpi.Runs.wire cP ((allGatherY_runs o gP hp F.py _ (fun r hr => good_mk2 _ _
        (if r = 0 then F.gp0 else F.gp1))).congr (fun r hr => ?_) (fun r hr => rfl)))
      (Mpi.Runs.pure _)).congr (fun r hr => rfl) (fun r hr => ?_)
    · unfold Space2Mpi.allGatherFromYPencilPhys; rw [decomp_phys h hr]; rfl
    · unfold Planes.rank; simp only [ite_self]
  | allGatherXSpec =>
    refine ⟨{ F with gs0 := F.sx, gs1 := F.sx }, (Res.ok.inj h1).symm, ?_⟩
    refine (Mpi.Runs.bind (q := fun r a => Pure.pure { F.rank b0 b1 N r with gs := a })
      (Mpi.Runs.wire cS ((allGatherX_runs o gS hs F.sx _ (fun r hr => good_mk2 _ _
        (if r = 0 then F.gs0 else F.gs1))).congr (fun r hr => ?_) (fun r hr => rfl)))
      (Mpi.Runs.pure _)).congr (fun r hr => rfl) (fun r hr => ?_)
    · unfold Space2Mpi.allGatherFromXPencilSpec; rw [decomp_spec h hr]; rfl
    · unfold Planes.rank; simp only [ite_self]
  | allGatherYSpec =>
    refine ⟨{ F with gs0 := F.sy, gs1 := F.sy }, (Res.ok.inj h1).symm, ?_⟩
    refine (Mpi.Runs.bind (q := fun r a => Pure.pure { F.rank b0 b1 N r with gs := a })
      (Mpi.Runs.wire cS ((allGatherY_runs o gS hs F.sy _ (fun r hr => good_mk2 _ _
        (if r = 0 then F.gs0 else F.gs1))).congr (fun r hr => ?_) (fun r hr => rfl)))
      (Mpi.Runs.pure _)).congr (fun r hr => rfl) (fun r hr => ?_)
    · unfold Space2Mpi.allGatherFromYPencilSpec; rw [decomp_spec h hr]; rfl
    · unfold Planes.rank; simp only [ite_self]
  | scatterXPhys =>
    refine ⟨{ F with px := F.gp0 }, (Res.ok.inj h1).symm, Mpi.Runs.bind
      (((scatterX_runs o gP hp F.gp0 _ (fun r hr => good_xPen _ _ _ _ F.px)).wire cP).congr
        (fun r hr => ?_) (fun r hr => rfl)) (Mpi.Runs.pure _)⟩
    unfold Space2Mpi.scatterToXPencilPhysRoot Space2Mpi.scatterToXPencilPhys
    rw [nrank_eq h hr, decomp_phys h hr]
    by_cases hr0 : r = 0
    · rw [if_pos hr0, if_pos hr0]; unfold Planes.rank; dsimp only; rw [if_pos hr0]; rfl
    · rw [if_neg hr0, if_neg hr0]; rfl
  | scatterYPhys =>
    refine ⟨{ F with py := F.gp0 }, (Res.ok.inj h1).symm, Mpi.Runs.bind
      (((scatterY_runs o gP hp F.gp0 _ (fun r hr => good_yPen _ _ _ _ F.py)).wire cP).congr
        (fun r hr => ?_) (fun r hr => rfl)) (Mpi.Runs.pure _)⟩
    unfold Space2Mpi.scatterToYPencilPhysRoot Space2Mpi.scatterToYPencilPhys
    rw [nrank_eq h hr, decomp_phys h hr]
    by_cases hr0 : r = 0
    · rw [if_pos hr0, if_pos hr0]; unfold Planes.rank; dsimp only; rw [if_pos hr0]; rfl
    · rw [if_neg hr0, if_neg hr0]; rfl
  | scatterXSpec =>
    refine ⟨{ F with sx := F.gs0 }, (Res.ok.inj h1).symm, Mpi.Runs.bind
      (((scatterX_runs o gS hs F.gs0 _ (fun r hr => good_xPen _ _ _ _ F.sx)).wire cS).congr
        (fun r hr => ?_) (fun r hr => rfl)) (Mpi.Runs.pure _)⟩
    unfold Space2Mpi.scatterToXPencilSpecRoot Space2Mpi.scatterToXPencilSpec
    rw [nrank_eq h hr, decomp_spec h hr]
    by_cases hr0 : r = 0
    · rw [if_pos hr0, if_pos hr0]; unfold Planes.rank; dsimp only; simp only [if_pos hr0]; rfl
    · rw [if_neg hr0, if_neg hr0]; rfl
  | scatterYSpec =>
    refine ⟨{ F with sy := F.gs0 }, (Res.ok.inj h1).symm, Mpi.Runs.bind
      (((scatterY_runs o gS hs F.gs0 _ (fun r hr => good_yPen _ _ _ _ F.sy)).wire cS).congr
        (fun r hr => ?_) (fun r hr => rfl)) (Mpi.Runs.pure _)⟩
    unfold Space2Mpi.scatterToYPencilSpecRoot Space2Mpi.scatterToYPencilSpec
    rw [nrank_eq h hr, decomp_spec h hr]
    by_cases hr0 : r = 0
    · rw [if_pos hr0, if_pos hr0]; unfold Planes.rank; dsimp only; simp only [if_pos hr0]; rfl
    · rw [if_neg hr0, if_neg hr0]; rfl
  | mapPX f =>
    refine ⟨{ F with px := fun i j => f (F.px i j) }, ?_, (Mpi.Runs.pure _).congr (fun r hr => rfl)
      (fun r hr => ?_)⟩
    · rw [← Res.ok.inj h1]; unfold Planes.serial; dsimp only; rw [Arr.map_mk2]
    · unfold Planes.rank xPen; dsimp only; rw [Arr.map_mk2]
  | mapPY f =>
    refine ⟨{ F with py := fun i j => f (F.py i j) }, ?_, (Mpi.Runs.pure _).congr (fun r hr => rfl)
      (fun r hr => ?_)⟩
    · rw [← Res.ok.inj h1]; unfold Planes.serial; dsimp only; rw [Arr.map_mk2]
    · unfold Planes.rank yPen; dsimp only; rw [Arr.map_mk2]
  | mapSX f =>
    refine ⟨{ F with sx := fun i j => f (F.sx i j) }, ?_, (Mpi.Runs.pure _).congr (fun r hr => rfl)
      (fun r hr => ?_)⟩
    · rw [← Res.ok.inj h1]; unfold Planes.serial; dsimp only; rw [Arr.map_mk2]
    · unfold Planes.rank xPen; dsimp only; rw [Arr.map_mk2]
  | mapSY f =>
    refine ⟨{ F with sy := fun i j => f (F.sy i j) }, ?_, (Mpi.Runs.pure _).congr (fun r hr => rfl)
      (fun r hr => ?_)⟩
    · rw [← Res.ok.inj h1]; unfold Planes.serial; dsimp only; rw [Arr.map_mk2]
    · unfold Planes.rank yPen; dsimp only; rw [Arr.map_mk2]
  | mapOX f =>
    refine ⟨{ F with ox := fun i j => f (F.ox i j) }, ?_, (Mpi.Runs.pure _).congr (fun r hr => rfl)
      (fun r hr => ?_)⟩
    · rw [← Res.ok.inj h1]; unfold Planes.serial; dsimp only; rw [Arr.map_mk2]
    · unfold Planes.rank xPen; dsimp only; rw [Arr.map_mk2]

include h in
theorem ops_runs (r0 : Spec.Runs b0) (r1 : Spec.Runs b1)
    (hp : b0.lenPhys * b1.lenPhys < 2 ^ 31) (hs : b0.lenSpec * b1.lenSpec < 2 ^ 31)
    (hg : 0 < b0.lenOrth * b1.lenOrth)
    (cP : Codec P U) (cI : Codec I U) (cS : Codec S U) (ops : List (SpmdOp P S A))
    (hop : GradientsRun b0 b1 ops) (F : Planes P S) {s1 : SerialState P S}
    (h1 : serialOps ⟨b0, b1⟩ ops (F.serial b0 b1) = ok s1) :
    ∃ F1 : Planes P S, s1 = F1.serial b0 b1 ∧
      Mpi.Runs N (fun r => SpmdOp.runs o cP cI cS (sp r) ops (F.rank b0 b1 N r))
        (fun r => F1.rank b0 b1 N r) := by
  induction ops generalizing F with
  | nil => exact ⟨F, (Res.ok.inj h1).symm, Mpi.Runs.pure _⟩
  | cons op ops ih =>
    unfold serialOps at h1
    cases e : serialOp ⟨b0, b1⟩ (F.serial b0 b1) op with
    | err x => rw [e] at h1; cases h1
    | ok s =>
      rw [e, bind_ok] at h1
      obtain ⟨F', rfl, hr⟩ := op_runs h r0 r1 hp hs hg cP cI cS op
        (fun d0 d1 sc he => hop d0 d1 sc (by rw [he]; exact List.mem_cons_self)) F e
      obtain ⟨F1, hs1, hr1⟩ := ih (fun d0 d1 sc he => hop d0 d1 sc (List.mem_cons_of_mem _ he)) F' h1
      exact ⟨F1, hs1, Mpi.Runs.bind hr hr1⟩

end
end Verif
