/- Collective operations on large arrays. -/
import Verif.Proof.Large
import Verif.Proof.Handler
import Verif.Proof.Gather
import Verif.Spec.LargeMpi

namespace Verif
open Res Spec Mpi

/-- a value, or a panic -/
def OkOrPanic {α : Type} (x : Res α) : Prop := (∃ a, x = ok a) ∨ x = err .panic

theorem OkOrPanic.bind {α β : Type} {x : Res α} {f : α → Res β} (h : OkOrPanic x)
    (hf : ∀ a, OkOrPanic (f a)) : OkOrPanic (x >>= f) := by
  rcases h with ⟨a, rfl⟩ | rfl
  · exact hf a
  · exact .inr rfl

theorem OkOrPanic.pure {α : Type} (a : α) : OkOrPanic (pure a : Res α) := .inl ⟨a, rfl⟩

theorem mapR_oop {S T : Type} {f : S → Res T} (h : ∀ x, OkOrPanic (f x)) (l : List S) :
    OkOrPanic (mapR f l) := by
  induction l with
  | nil => exact .inl ⟨[], rfl⟩
  | cons x l ih => exact (h x).bind fun _ => ih.bind fun _ => .pure _

theorem mul_oop (o : Mode) (a b : ℕ) : OkOrPanic (o.mul a b) := by
  unfold Mode.mul
  split
  · exact .inl ⟨_, rfl⟩
  · cases o
    · exact .inr rfl
    · exact .inl ⟨_, rfl⟩

theorem i32Add_oop (o : Mode) (a b : ℤ) : OkOrPanic (o.i32Add a b) := by
  unfold Mode.i32Add
  split
  · exact .inl ⟨_, rfl⟩
  · cases o
    · exact .inr rfl
    · exact .inl ⟨_, rfl⟩

theorem rdC_oop {T : Type} (l : List T) (i : ℕ) : OkOrPanic (rdC l i) := by
  unfold rdC
  split
  · exact .inl ⟨_, rfl⟩
  · exact .inr rfl

theorem displs_oop (o : Mode) (l : List ℤ) (a : ℤ) : OkOrPanic (Dist.displs o a l) := by
  induction l generalizing a with
  | nil => exact .inl ⟨[], rfl⟩
  | cons x l ih => exact (i32Add_oop o a x).bind fun b => (ih b).bind fun _ => .pure _

theorem gather_oop (o : Mode) (d : Dist) : OkOrPanic (d.countsAllGather o) :=
  (mapR_oop (fun x => OkOrPanic.bind (prod_ok_or_panic o x) fun _ => .pure _) _).bind fun c =>
    (displs_oop o c 0).bind fun _ => .pure _

theorem all_oop (o : Mode) (d e : Dist) : OkOrPanic (d.countsAllToAll o e) :=
  (mapR_oop (fun x => (rdC_oop x _).bind fun _ => (rdC_oop _ _).bind fun _ =>
    (mul_oop o _ _).bind fun _ => .pure _) _).bind fun c =>
    (displs_oop o c 0).bind fun _ => .pure _

theorem checkShape_oop {T : Type} (a : Arr T) (s : List ℕ) : OkOrPanic (checkShape a s) := by
  unfold checkShape assertR
  split
  · exact .inl ⟨(), rfl⟩
  · exact .inr rfl

theorem partition_panic {T : Type} {buf : List T} (h : 2 ^ 31 ≤ buf.length) (c D : List ℤ) :
    partition buf c D = err .panic := by
  unfold partition
  rw [if_neg (fun hh => absurd hh.1 (not_lt.2 h))]

/-! ### no rank returns -/

theorem noneReturns {T α : Type} {P : ℕ} {ps : ℕ → Prog T α} {r0 : ℕ} (hr0 : r0 < P)
    (h0 : ps r0 = .ret (err .panic))
    (h : ∀ r < P, ps r = .ret (err .panic) ∨ ∃ c k, ps r = .coll c k ∧ (c.slot r0).isSome) :
    NoneReturns P ps := by
  have key : ∀ n w, Steps P n (World.init ps) w →
      (∀ s, w.net r0 s = []) ∧ ∀ r < P, w.loc r = .idle (ps r) ∨
        ∃ c k buf got, ps r = .coll c k ∧ w.loc r = .inside c buf got k ∧ r0 ∉ got := by
    intro n w hw
    generalize hi : World.init ps = w0 at hw
    induction hw with
    | refl w => subst hi; exact ⟨fun _ => rfl, fun r _ => .inl rfl⟩
    | @tail n w w' w'' h1 h2 ih =>
      obtain ⟨i1, i2⟩ := ih hi
      cases h2 with
      | @enter r hr c k hl =>
        have hne : r ≠ r0 := by
          rintro rfl
          rcases i2 r hr with h3 | ⟨_, _, _, _, h3, _⟩
          · rw [h0, hl] at h3; simp at h3
          · rw [h0] at h3; simp at h3
        refine ⟨fun s => ?_, fun q hq => ?_⟩
        · dsimp only; rw [if_neg (fun hh => hne hh.symm)]; exact i1 s
        · by_cases hqr : q = r
          · subst hqr
            rcases i2 q hq with h3 | ⟨_, _, _, _, _, h3, _⟩
            · rw [hl] at h3
              refine .inr ⟨c, k, c.buf, [], ?_, by simp, by simp⟩
              injection h3 with h3
              exact h3.symm
            · rw [hl] at h3; simp at h3
          · dsimp only; rw [Function.update_of_ne hqr]; exact i2 q hq
      | @recv r s hr hs c buf got k m ms d hl hg hn hf hd =>
        have hne : s ≠ r0 := by
          rintro rfl
          rw [i1 r] at hn; simp at hn
        refine ⟨fun x => ?_, fun q hq => ?_⟩
        · dsimp only; rw [if_neg (fun hh => hne hh.1.symm)]; exact i1 x
        · by_cases hqr : q = r
          · subst hqr
            rcases i2 q hq with h3 | ⟨c', k', b', g', h4, h3, h5⟩
            · rw [hl] at h3; simp at h3
            · rw [hl] at h3
              injection h3 with e1 e2 e3 e4
              subst e1 e2 e3 e4
              refine .inr ⟨c, k, place buf d m.2, s :: got, h4, by simp, ?_⟩
              simp only [List.mem_cons, not_or]
              exact ⟨fun hh => hne hh.symm, h5⟩
          · dsimp only; rw [Function.update_of_ne hqr]; exact i2 q hq
      | @leave r hr c buf got k hl hg =>
        exfalso
        rcases i2 r hr with h3 | ⟨c', k', b', g', h4, h3, h5⟩
        · rw [hl] at h3; simp at h3
        · rw [hl] at h3
          injection h3 with e1 e2 e3 e4
          subst e1 e2 e3 e4
          rcases h r hr with h6 | ⟨c', k', h6, h7⟩
          · rw [h6] at h4; simp at h4
          · rw [h6] at h4
            injection h4 with e1 e2
            subst e1
            exact h5 (hg r0 hr0 h7)
  intro n w hw r hr x hx
  rcases (key n w hw).2 r hr with h3 | ⟨_, _, _, _, _, h3, _⟩
  · rw [hx] at h3
    injection h3 with h3
    rcases h r hr with h6 | ⟨c', k', h6, _⟩
    · rw [h6] at h3; injection h3
    · rw [h6] at h3; simp at h3
  · rw [hx] at h3; simp at h3

/-! ### the transposes -/

section
variable {T : Type} [Zero T] (o : Mode) {n0 n1 P r : ℕ}

private theorem cases2 {α : Type} {x : Res α} {Q : Prop} (h : OkOrPanic x) (h1 : x = err .panic → Q)
    (h2 : ∀ a, x = ok a → Q) : Q := by
  rcases h with ⟨a, h⟩ | h
  · exact h2 a h
  · exact h1 h

theorem transposeXToY_panics (hP : 0 < P) (hr : r < P) (hw : n0 * n1 < usizeW)
    (h : 2 ^ 31 ≤ n0 * cnt n1 P r ∨ 2 ^ 31 ≤ cnt n0 P r * n1) (a b : Arr T) :
    (decompOf n0 n1 P r).transposeXToY o a b = .ret (err .panic) := by
  have hwx : n0 * cnt n1 P r < usizeW := lt_of_le_of_lt (Nat.mul_le_mul_left _ (cnt_le hr)) hw
  have hwy : cnt n0 P r * n1 < usizeW := lt_of_le_of_lt (Nat.mul_le_mul_right _ (cnt_le hr)) hw
  unfold Decomp2d.transposeXToY
  have s3 : (decompOf n0 n1 P r).xPencil.length o = ok (n0 * cnt n1 P r) := prod2_ok o _ _ hwx
  have s4 : (decompOf n0 n1 P r).yPencil.length o = ok (cnt n0 P r * n1) := prod2_ok o _ _ hwy
  rw [s3, s4]
  refine cases2 (checkShape_oop a (decompOf n0 n1 P r).xPencil.sz) (fun e => by rw [e]; rfl)
    (fun u e => ?_)
  rw [e]; clear e
  refine cases2 (checkShape_oop b (decompOf n0 n1 P r).yPencil.sz) (fun e => by rw [e]; rfl)
    (fun u e => ?_)
  rw [e]; clear e
  have hlen : ∀ x : Arr T, (Decomp2d.splitXy x (Decomp2d.zeroVec (n0 * cnt n1 P r))).length
      = n0 * cnt n1 P r := by
    intro x; simp [Decomp2d.splitXy, zipSet_length, Decomp2d.zeroVec]
  by_cases hx : 2 ^ 31 ≤ n0 * cnt n1 P r
  · refine cases2 (all_oop o (decompOf n0 n1 P r).xPencil (decompOf n0 n1 P r).yPencil)
      (fun e => by rw [e]; rfl) (fun u e => ?_)
    rw [e]; clear e
    refine cases2 (all_oop o (decompOf n0 n1 P r).yPencil (decompOf n0 n1 P r).xPencil)
      (fun e => by rw [e]; rfl) (fun u e => ?_)
    rw [e]; clear e
    simp only [liftM_ok, ret_ok_bind]
    rw [partition_panic (by rw [hlen]; exact hx)]
    rfl
  · push Not at hx
    have hy := h.resolve_left (not_le.2 hx)
    have s6 := partition_ok (buf := Decomp2d.splitXy a (Decomp2d.zeroVec (n0 * cnt n1 P r))) (P := P)
      (c := fun s => cnt n0 P s * cnt n1 P r) (D := fun s => off n0 P s * cnt n1 P r)
      (by rw [hlen]; exact hx)
      (fun s hs => by
        rw [hlen, ← Nat.add_mul, ← off_succ]; exact Nat.mul_le_mul_right _ (off_le hP hs))
    rw [countsXY o hP hr hx]
    refine cases2 (all_oop o (decompOf n0 n1 P r).yPencil (decompOf n0 n1 P r).xPencil)
      (fun e => by rw [e]; rfl) (fun u e => ?_)
    rw [e]; clear e
    simp only [liftM_ok, ret_ok_bind]
    rw [s6]
    simp only [liftM_ok, ret_ok_bind]
    rw [partition_panic (by simpa [Decomp2d.zeroVec] using hy)]
    rfl

theorem transposeYToX_panics (hP : 0 < P) (hr : r < P) (hw : n0 * n1 < usizeW)
    (h : 2 ^ 31 ≤ n0 * cnt n1 P r ∨ 2 ^ 31 ≤ cnt n0 P r * n1) (a b : Arr T) :
    (decompOf n0 n1 P r).transposeYToX o a b = .ret (err .panic) := by
  have hwx : n0 * cnt n1 P r < usizeW := lt_of_le_of_lt (Nat.mul_le_mul_left _ (cnt_le hr)) hw
  have hwy : cnt n0 P r * n1 < usizeW := lt_of_le_of_lt (Nat.mul_le_mul_right _ (cnt_le hr)) hw
  unfold Decomp2d.transposeYToX
  have s3 : (decompOf n0 n1 P r).xPencil.length o = ok (n0 * cnt n1 P r) := prod2_ok o _ _ hwx
  have s4 : (decompOf n0 n1 P r).yPencil.length o = ok (cnt n0 P r * n1) := prod2_ok o _ _ hwy
  rw [s3, s4]
  refine cases2 (checkShape_oop a (decompOf n0 n1 P r).yPencil.sz) (fun e => by rw [e]; rfl)
    (fun u e => ?_)
  rw [e]; clear e
  refine cases2 (checkShape_oop b (decompOf n0 n1 P r).xPencil.sz) (fun e => by rw [e]; rfl)
    (fun u e => ?_)
  rw [e]; clear e
  have hlen : ∀ x : Arr T, (Decomp2d.splitYx x (Decomp2d.zeroVec (cnt n0 P r * n1))).length
      = cnt n0 P r * n1 := by
    intro x; simp [Decomp2d.splitYx, zipSet_length, Decomp2d.zeroVec]
  by_cases hy : 2 ^ 31 ≤ cnt n0 P r * n1
  · refine cases2 (all_oop o (decompOf n0 n1 P r).yPencil (decompOf n0 n1 P r).xPencil)
      (fun e => by rw [e]; rfl) (fun u e => ?_)
    rw [e]; clear e
    refine cases2 (all_oop o (decompOf n0 n1 P r).xPencil (decompOf n0 n1 P r).yPencil)
      (fun e => by rw [e]; rfl) (fun u e => ?_)
    rw [e]; clear e
    simp only [liftM_ok, ret_ok_bind]
    rw [partition_panic (by rw [hlen]; exact hy)]
    rfl
  · push Not at hy
    have hx := h.resolve_right (not_le.2 hy)
    have s6 := partition_ok (buf := Decomp2d.splitYx a (Decomp2d.zeroVec (cnt n0 P r * n1))) (P := P)
      (c := fun s => cnt n1 P s * cnt n0 P r) (D := fun s => off n1 P s * cnt n0 P r)
      (by rw [hlen]; exact hy)
      (fun s hs => by
        rw [hlen, ← Nat.add_mul, ← off_succ, mul_comm]; exact Nat.mul_le_mul_left _ (off_le hP hs))
    rw [countsYX o hP hr hy]
    refine cases2 (all_oop o (decompOf n0 n1 P r).xPencil (decompOf n0 n1 P r).yPencil)
      (fun e => by rw [e]; rfl) (fun u e => ?_)
    rw [e]; clear e
    simp only [liftM_ok, ret_ok_bind]
    rw [s6]
    simp only [liftM_ok, ret_ok_bind]
    rw [partition_panic (by simpa [Decomp2d.zeroVec] using hx)]
    rfl

/-- a rank all of whose arrays are small enough gets to the exchange, unless the shapes are wrong -/
theorem transposeXToY_enters (hP : 0 < P) (hr : r < P)
    (hx : n0 * cnt n1 P r < 2 ^ 31) (hy : cnt n0 P r * n1 < 2 ^ 31) (a b : Arr T) :
    (decompOf n0 n1 P r).transposeXToY o a b = .ret (err .panic) ∨
      ∃ c k, (decompOf n0 n1 P r).transposeXToY o a b = .coll c k ∧ ∀ s < P, (c.slot s).isSome := by
  unfold Decomp2d.transposeXToY
  have s3 : (decompOf n0 n1 P r).xPencil.length o = ok (n0 * cnt n1 P r) :=
    prod2_ok o _ _ (lt_usize hx)
  have s4 : (decompOf n0 n1 P r).yPencil.length o = ok (cnt n0 P r * n1) :=
    prod2_ok o _ _ (lt_usize hy)
  have hlen : ∀ x : Arr T, (Decomp2d.splitXy x (Decomp2d.zeroVec (n0 * cnt n1 P r))).length
      = n0 * cnt n1 P r := by
    intro x; simp [Decomp2d.splitXy, zipSet_length, Decomp2d.zeroVec]
  rw [s3, s4]
  refine cases2 (checkShape_oop a (decompOf n0 n1 P r).xPencil.sz) (fun e => by rw [e]; exact .inl rfl)
    (fun u e => ?_)
  rw [e]; clear e
  refine cases2 (checkShape_oop b (decompOf n0 n1 P r).yPencil.sz) (fun e => by rw [e]; exact .inl rfl)
    (fun u e => ?_)
  rw [e]; clear e
  have s6 := partition_ok (buf := Decomp2d.splitXy a (Decomp2d.zeroVec (n0 * cnt n1 P r))) (P := P)
    (c := fun s => cnt n0 P s * cnt n1 P r) (D := fun s => off n0 P s * cnt n1 P r)
    (by rw [hlen]; exact hx)
    (fun s hs => by
      rw [hlen, ← Nat.add_mul, ← off_succ]; exact Nat.mul_le_mul_right _ (off_le hP hs))
  have s7 := partition_ok (buf := (Decomp2d.zeroVec (cnt n0 P r * n1) : List T)) (P := P)
    (c := fun s => cnt n1 P s * cnt n0 P r) (D := fun s => off n1 P s * cnt n0 P r)
    (by simp [Decomp2d.zeroVec]; exact hy)
    (fun s hs => by
      simp only [Decomp2d.zeroVec, List.length_replicate]
      rw [← Nat.add_mul, ← off_succ, mul_comm]; exact Nat.mul_le_mul_left _ (off_le hP hs))
  rw [countsXY o hP hr hx, countsYX o hP hr hy]
  simp only [liftM_ok, ret_ok_bind]
  rw [s6]
  simp only [liftM_ok, ret_ok_bind]
  rw [s7]
  simp only [liftM_ok, ret_ok_bind]
  refine .inr ?_
  unfold allToAllV
  have e1 : (decompOf n0 n1 P r).nprocs = P := rfl
  rw [e1, parts_ok, parts_ok]
  simp only [liftM_ok, ret_ok_bind]
  refine ⟨_, _, rfl, fun s hs => ?_⟩
  simp [hs]

theorem transposeYToX_enters (hP : 0 < P) (hr : r < P)
    (hx : n0 * cnt n1 P r < 2 ^ 31) (hy : cnt n0 P r * n1 < 2 ^ 31) (a b : Arr T) :
    (decompOf n0 n1 P r).transposeYToX o a b = .ret (err .panic) ∨
      ∃ c k, (decompOf n0 n1 P r).transposeYToX o a b = .coll c k ∧ ∀ s < P, (c.slot s).isSome := by
  unfold Decomp2d.transposeYToX
  have s3 : (decompOf n0 n1 P r).xPencil.length o = ok (n0 * cnt n1 P r) :=
    prod2_ok o _ _ (lt_usize hx)
  have s4 : (decompOf n0 n1 P r).yPencil.length o = ok (cnt n0 P r * n1) :=
    prod2_ok o _ _ (lt_usize hy)
  have hlen : ∀ x : Arr T, (Decomp2d.splitYx x (Decomp2d.zeroVec (cnt n0 P r * n1))).length
      = cnt n0 P r * n1 := by
    intro x; simp [Decomp2d.splitYx, zipSet_length, Decomp2d.zeroVec]
  rw [s3, s4]
  refine cases2 (checkShape_oop a (decompOf n0 n1 P r).yPencil.sz) (fun e => by rw [e]; exact .inl rfl)
    (fun u e => ?_)
  rw [e]; clear e
  refine cases2 (checkShape_oop b (decompOf n0 n1 P r).xPencil.sz) (fun e => by rw [e]; exact .inl rfl)
    (fun u e => ?_)
  rw [e]; clear e
  have s6 := partition_ok (buf := Decomp2d.splitYx a (Decomp2d.zeroVec (cnt n0 P r * n1))) (P := P)
    (c := fun s => cnt n1 P s * cnt n0 P r) (D := fun s => off n1 P s * cnt n0 P r)
    (by rw [hlen]; exact hy)
    (fun s hs => by
      rw [hlen, ← Nat.add_mul, ← off_succ, mul_comm]; exact Nat.mul_le_mul_left _ (off_le hP hs))
  have s7 := partition_ok (buf := (Decomp2d.zeroVec (n0 * cnt n1 P r) : List T)) (P := P)
    (c := fun s => cnt n0 P s * cnt n1 P r) (D := fun s => off n0 P s * cnt n1 P r)
    (by simp [Decomp2d.zeroVec]; exact hx)
    (fun s hs => by
      simp only [Decomp2d.zeroVec, List.length_replicate]
      rw [← Nat.add_mul, ← off_succ]; exact Nat.mul_le_mul_right _ (off_le hP hs))
  rw [countsXY o hP hr hx, countsYX o hP hr hy]
  simp only [liftM_ok, ret_ok_bind]
  rw [s6]
  simp only [liftM_ok, ret_ok_bind]
  rw [s7]
  simp only [liftM_ok, ret_ok_bind]
  refine .inr ?_
  unfold allToAllV
  have e1 : (decompOf n0 n1 P r).nprocs = P := rfl
  rw [e1, parts_ok, parts_ok]
  simp only [liftM_ok, ret_ok_bind]
  refine ⟨_, _, rfl, fun s hs => ?_⟩
  simp [hs]

/-! ### gather, scatter, all-gather -/

theorem all_gather_panics (hr : r < P) (hw : n0 * n1 < usizeW) (h : 2 ^ 31 ≤ n0 * n1) (a b : Arr T) :
    (decompOf n0 n1 P r).allGatherX o a b = .ret (err .panic) ∧
    (decompOf n0 n1 P r).allGatherY o a b = .ret (err .panic) := by
  have hwx : n0 * cnt n1 P r < usizeW := lt_of_le_of_lt (Nat.mul_le_mul_left _ (cnt_le hr)) hw
  have hwy : cnt n0 P r * n1 < usizeW := lt_of_le_of_lt (Nat.mul_le_mul_right _ (cnt_le hr)) hw
  have s3 : (decompOf n0 n1 P r).xPencil.length o = ok (n0 * cnt n1 P r) := prod2_ok o _ _ hwx
  have s4 : (decompOf n0 n1 P r).yPencil.length o = ok (cnt n0 P r * n1) := prod2_ok o _ _ hwy
  have s5 : o.prod (decompOf n0 n1 P r).nGlobal = ok (n0 * n1) := prod2_ok o _ _ hw
  refine ⟨?_, ?_⟩
  · unfold Decomp2d.allGatherX
    rw [s3, s5]
    refine cases2 (checkShape_oop a (decompOf n0 n1 P r).xPencil.sz) (fun e => by rw [e]; rfl)
      (fun u e => ?_)
    rw [e]; clear e
    refine cases2 (checkShape_oop b (decompOf n0 n1 P r).nGlobal) (fun e => by rw [e]; rfl)
      (fun u e => ?_)
    rw [e]; clear e
    refine cases2 (gather_oop o (decompOf n0 n1 P r).xPencil) (fun e => by rw [e]; rfl) (fun u e => ?_)
    rw [e]; clear e
    simp only [liftM_ok, ret_ok_bind]
    rw [partition_panic (by simpa [Decomp2d.zeroVec] using h)]
    rfl
  · unfold Decomp2d.allGatherY
    rw [s4, s5]
    refine cases2 (checkShape_oop a (decompOf n0 n1 P r).yPencil.sz) (fun e => by rw [e]; rfl)
      (fun u e => ?_)
    rw [e]; clear e
    refine cases2 (checkShape_oop b (decompOf n0 n1 P r).nGlobal) (fun e => by rw [e]; rfl)
      (fun u e => ?_)
    rw [e]; clear e
    refine cases2 (gather_oop o (decompOf n0 n1 P r).yPencil) (fun e => by rw [e]; rfl) (fun u e => ?_)
    rw [e]; clear e
    simp only [liftM_ok, ret_ok_bind]
    rw [partition_panic (by simpa [Decomp2d.zeroVec] using h)]
    rfl

theorem assertR_oop (c : Prop) [Decidable c] : OkOrPanic (assertR c) := by
  unfold assertR
  split
  · exact .inl ⟨(), rfl⟩
  · exact .inr rfl

theorem root_panics (hr : r < P) (hw : n0 * n1 < usizeW) (h : 2 ^ 31 ≤ n0 * n1) (a b : Arr T) :
    (decompOf n0 n1 P r).gatherXInplaceRoot o a b = .ret (err .panic) ∧
    (decompOf n0 n1 P r).gatherYInplaceRoot o a b = .ret (err .panic) ∧
    (decompOf n0 n1 P r).scatterXInplaceRoot o a b = .ret (err .panic) ∧
    (decompOf n0 n1 P r).scatterYInplaceRoot o a b = .ret (err .panic) := by
  have hwx : n0 * cnt n1 P r < usizeW := lt_of_le_of_lt (Nat.mul_le_mul_left _ (cnt_le hr)) hw
  have hwy : cnt n0 P r * n1 < usizeW := lt_of_le_of_lt (Nat.mul_le_mul_right _ (cnt_le hr)) hw
  have s3 : (decompOf n0 n1 P r).xPencil.length o = ok (n0 * cnt n1 P r) := prod2_ok o _ _ hwx
  have s4 : (decompOf n0 n1 P r).yPencil.length o = ok (cnt n0 P r * n1) := prod2_ok o _ _ hwy
  have s5 : o.prod (decompOf n0 n1 P r).nGlobal = ok (n0 * n1) := prod2_ok o _ _ hw
  refine ⟨?_, ?_, ?_, ?_⟩
  · unfold Decomp2d.gatherXInplaceRoot
    rw [s3, s5]
    refine cases2 (checkShape_oop a (decompOf n0 n1 P r).xPencil.sz) (fun e => by rw [e]; rfl)
      (fun u e => ?_)
    rw [e]; clear e
    refine cases2 (assertR_oop ((decompOf n0 n1 P r).nrank = 0)) (fun e => by rw [e]; rfl)
      (fun u e => ?_)
    rw [e]; clear e
    refine cases2 (gather_oop o (decompOf n0 n1 P r).xPencil) (fun e => by rw [e]; rfl) (fun u e => ?_)
    rw [e]; clear e
    simp only [liftM_ok, ret_ok_bind]
    rw [partition_panic (by simpa [Decomp2d.zeroVec] using h)]
    rfl
  · unfold Decomp2d.gatherYInplaceRoot
    rw [s4, s5]
    refine cases2 (checkShape_oop a (decompOf n0 n1 P r).yPencil.sz) (fun e => by rw [e]; rfl)
      (fun u e => ?_)
    rw [e]; clear e
    refine cases2 (assertR_oop ((decompOf n0 n1 P r).nrank = 0)) (fun e => by rw [e]; rfl)
      (fun u e => ?_)
    rw [e]; clear e
    refine cases2 (gather_oop o (decompOf n0 n1 P r).yPencil) (fun e => by rw [e]; rfl) (fun u e => ?_)
    rw [e]; clear e
    simp only [liftM_ok, ret_ok_bind]
    rw [partition_panic (by simpa [Decomp2d.zeroVec] using h)]
    rfl
  · unfold Decomp2d.scatterXInplaceRoot
    rw [s3, s5]
    refine cases2 (checkShape_oop a (decompOf n0 n1 P r).nGlobal) (fun e => by rw [e]; rfl)
      (fun u e => ?_)
    rw [e]; clear e
    refine cases2 (checkShape_oop b (decompOf n0 n1 P r).xPencil.sz) (fun e => by rw [e]; rfl)
      (fun u e => ?_)
    rw [e]; clear e
    refine cases2 (assertR_oop ((decompOf n0 n1 P r).nrank = 0)) (fun e => by rw [e]; rfl)
      (fun u e => ?_)
    rw [e]; clear e
    refine cases2 (gather_oop o (decompOf n0 n1 P r).xPencil) (fun e => by rw [e]; rfl) (fun u e => ?_)
    rw [e]; clear e
    simp only [liftM_ok, ret_ok_bind]
    rw [partition_panic (by simpa [zipSet_length, Decomp2d.zeroVec] using h)]
    rfl
  · unfold Decomp2d.scatterYInplaceRoot
    rw [s4, s5]
    refine cases2 (checkShape_oop a (decompOf n0 n1 P r).nGlobal) (fun e => by rw [e]; rfl)
      (fun u e => ?_)
    rw [e]; clear e
    refine cases2 (checkShape_oop b (decompOf n0 n1 P r).yPencil.sz) (fun e => by rw [e]; rfl)
      (fun u e => ?_)
    rw [e]; clear e
    refine cases2 (assertR_oop ((decompOf n0 n1 P r).nrank = 0)) (fun e => by rw [e]; rfl)
      (fun u e => ?_)
    rw [e]; clear e
    refine cases2 (gather_oop o (decompOf n0 n1 P r).yPencil) (fun e => by rw [e]; rfl) (fun u e => ?_)
    rw [e]; clear e
    simp only [liftM_ok, ret_ok_bind]
    rw [partition_panic (by simpa [zipSet_length, Decomp2d.zeroVec] using h)]
    rfl

/-- a rank other than the root waits for the root -/
theorem scatter_waits (hr : r < P) (hw : n0 * n1 < usizeW) (b : Arr T) :
    ((decompOf n0 n1 P r).scatterXInplace o b = .ret (err .panic) ∨
      ∃ c k, (decompOf n0 n1 P r).scatterXInplace o b = .coll c k ∧ (c.slot 0).isSome) ∧
    ((decompOf n0 n1 P r).scatterYInplace o b = .ret (err .panic) ∨
      ∃ c k, (decompOf n0 n1 P r).scatterYInplace o b = .coll c k ∧ (c.slot 0).isSome) := by
  have hwx : n0 * cnt n1 P r < usizeW := lt_of_le_of_lt (Nat.mul_le_mul_left _ (cnt_le hr)) hw
  have hwy : cnt n0 P r * n1 < usizeW := lt_of_le_of_lt (Nat.mul_le_mul_right _ (cnt_le hr)) hw
  have s3 : (decompOf n0 n1 P r).xPencil.length o = ok (n0 * cnt n1 P r) := prod2_ok o _ _ hwx
  have s4 : (decompOf n0 n1 P r).yPencil.length o = ok (cnt n0 P r * n1) := prod2_ok o _ _ hwy
  refine ⟨?_, ?_⟩
  · unfold Decomp2d.scatterXInplace
    rw [s3]
    refine cases2 (checkShape_oop b (decompOf n0 n1 P r).xPencil.sz)
      (fun e => by rw [e]; exact .inl rfl) (fun u e => ?_)
    rw [e]; clear e
    refine cases2 (assertR_oop ((decompOf n0 n1 P r).nrank ≠ 0))
      (fun e => by rw [e]; exact .inl rfl) (fun u e => ?_)
    rw [e]; clear e
    simp only [liftM_ok, ret_ok_bind]
    unfold scatterV
    refine cases2 (assertR_oop ((Decomp2d.zeroVec (n0 * cnt n1 P r) : List T).length < 2 ^ 31))
      (fun e => by unfold slice; rw [e]; exact .inl rfl) (fun u e => ?_)
    unfold slice
    rw [e]
    exact .inr ⟨_, _, rfl, rfl⟩
  · unfold Decomp2d.scatterYInplace
    rw [s4]
    refine cases2 (checkShape_oop b (decompOf n0 n1 P r).yPencil.sz)
      (fun e => by rw [e]; exact .inl rfl) (fun u e => ?_)
    rw [e]; clear e
    refine cases2 (assertR_oop ((decompOf n0 n1 P r).nrank ≠ 0))
      (fun e => by rw [e]; exact .inl rfl) (fun u e => ?_)
    rw [e]; clear e
    simp only [liftM_ok, ret_ok_bind]
    unfold scatterV
    refine cases2 (assertR_oop ((Decomp2d.zeroVec (cnt n0 P r * n1) : List T).length < 2 ^ 31))
      (fun e => by unfold slice; rw [e]; exact .inl rfl) (fun u e => ?_)
    unfold slice
    rw [e]
    exact .inr ⟨_, _, rfl, rfl⟩

end

end Verif
