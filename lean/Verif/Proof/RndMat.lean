/- The matrices in rounded arithmetic: a simulation of the run in exact arithmetic. -/
import Verif.Spec.RndMat
import Verif.Proof.RndMixed

namespace Verif
open Res Spec

namespace Spec.Tracks
variable {α β γ δ : Type} {P : α → β → Prop} {Q : γ → δ → Prop}

theorem refl (r : Res α) : Tracks Eq r r := by
  cases r with
  | ok a => exact .ok rfl
  | err e => exact .err e

theorem bind {r : Res α} {s : Res β} {f : α → Res γ} {g : β → Res δ} (h : Tracks P r s)
    (hf : ∀ a b, P a b → Tracks Q (f a) (g b)) : Tracks Q (r >>= f) (s >>= g) := by
  cases h with
  | ok h => exact hf _ _ h
  | err e => exact .err e

/-- the same step in both runs -/
theorem same (r : Res α) {f : α → Res γ} {g : α → Res δ} (hf : ∀ a, Tracks Q (f a) (g a)) :
    Tracks Q (r >>= f) (r >>= g) := by
  cases r with
  | ok a => exact hf a
  | err e => exact .err e

theorem pure {a : α} {b : β} (h : P a b) : Tracks P (Pure.pure a : Res α) (Pure.pure b) := .ok h

theorem ite {c : Prop} [Decidable c] {r r' : Res α} {s s' : Res β} (h : Tracks P r s) (h' : Tracks P r' s') :
    Tracks P (if c then r else r') (if c then s else s') := by
  split <;> assumption

theorem forList {ι : Type} (is : List ι) {f : ι → α → Res α} {g : ι → β → Res β}
    (h : ∀ i a b, P a b → Tracks P (f i a) (g i b)) {a : α} {b : β} (hab : P a b) :
    Tracks P (Verif.forList is f a) (Verif.forList is g b) := by
  induction is generalizing a b with
  | nil => exact .ok hab
  | cons i is ih => exact bind (h i a b hab) fun a b => ih

theorem forRange {x y : ℕ} {f : ℕ → α → Res α} {g : ℕ → β → Res β}
    (h : ∀ i a b, P a b → Tracks P (f i a) (g i b)) {a : α} {b : β} (hab : P a b) :
    Tracks P (Verif.forRange x y f a) (Verif.forRange x y g b) := forList _ h hab

theorem mono {P' : α → β → Prop} (h : ∀ a b, P a b → P' a b) {r : Res α} {s : Res β} (hr : Tracks P r s) :
    Tracks P' r s := by
  cases hr with
  | ok k => exact .ok (h _ _ k)
  | err e => exact .err e

end Spec.Tracks

variable {R : Rounding}

/-- `x` is `y` up to `k` roundings -/
def RelN (k : ℕ) (x : Rnd R) (y : ℝ) : Prop := RelV R k x.val y

/-- all entries are exact up to `k` roundings -/
def RelM (k : ℕ) (M : Mat (Rnd R)) (N : Mat ℝ) : Prop :=
  M.rows = N.rows ∧ M.cols = N.cols ∧ ∀ i j, RelN k (M.get i j) (N.get i j)

namespace RelN
variable {j k : ℕ} {x x' : Rnd R} {y y' : ℝ}

theorem mono (hu : R.u < 1) (h : RelN j x y) (hjk : j ≤ k) : RelN k x y := RelV.mono hu h hjk

theorem zero (hu : R.u < 1) : RelN k (0 : Rnd R) 0 := (RelV.exact 0).mono hu (Nat.zero_le k)

theorem one (hu : R.u < 1) : RelN k (1 : Rnd R) 1 := (RelV.exact 1).mono hu (Nat.zero_le k)

theorem cast (hu : R.u < 1) (m : ℕ) : RelN 1 (m : Rnd R) (m : ℝ) := (RelV.exact _).fl hu

theorem lit (hu : R.u < 1) (m : ℕ) [m.AtLeastTwo] : RelN 1 (OfNat.ofNat m : Rnd R) (OfNat.ofNat m : ℝ) := by
  have := cast (R := R) hu m
  rw [← Nat.cast_ofNat (R := ℝ) (n := m)]
  exact this

theorem neg (h : RelN k x y) : RelN k (-x) (-y) := RelV.neg h

theorem mul (hu : R.u < 1) (h : RelN j x y) (h' : RelN k x' y') : RelN (j + k + 1) (x * x') (y * y') := by
  obtain ⟨t, f, e⟩ := h
  obtain ⟨t', f', e'⟩ := h'
  refine RelV.fl hu ⟨t * t', f.mul hu f', ?_⟩
  rw [e, e']; ring

theorem div (hu : R.u < 1) (h : RelN j x y) (h' : RelN k x' y') : RelN (j + k + 1) (x / x') (y / y') :=
  RelV.fl hu (RelV.div hu h h')

theorem divR (hu : R.u < 1) (h : RelN j x y) (h' : RelN k x' y') :
    Tracks (RelN (j + k + 1)) (divR x x') (divR y y') := by
  by_cases hz : y' = 0
  · have hz' : x'.val = 0 := by
      obtain ⟨t, -, e⟩ := h'
      rw [e, hz, zero_mul]
    rw [show Verif.divR x x' = err .div0 from if_pos hz', show Verif.divR y y' = err .div0 from if_pos hz]
    exact .err _
  · have hz' : x'.val ≠ 0 := RelV.ne_zero hu h' hz
    rw [Rnd.div_ok hz', divR_eq, if_neg hz]
    refine .ok ?_
    have := div hu h h'
    rwa [div_eq_inv_mul] at this

end RelN

namespace RelM
variable {j k : ℕ} {M : Mat (Rnd R)} {N : Mat ℝ} {x : Rnd R} {y : ℝ}

theorem mono (hu : R.u < 1) (h : RelM j M N) (hjk : j ≤ k) : RelM k M N :=
  ⟨h.1, h.2.1, fun a b => (h.2.2 a b).mono hu hjk⟩

theorem zeros (hu : R.u < 1) (r c : ℕ) : RelM k (Mat.zeros r c : Mat (Rnd R)) (Mat.zeros r c) :=
  ⟨rfl, rfl, fun _ _ => RelN.zero hu⟩

theorem wr (h : RelM k M N) (hx : RelN k x y) (a b : ℕ) : Tracks (RelM k) (M.wrC a b x) (N.wrC a b y) := by
  unfold Mat.wrC
  rw [h.1, h.2.1]
  refine .ite (.ok ⟨rfl, rfl, fun i j => ?_⟩) (.err _)
  show RelN k (if i = a ∧ j = b then x else M.get i j) (if i = a ∧ j = b then y else N.get i j)
  split
  · exact hx
  · exact h.2.2 i j

theorem rd (h : RelM k M N) (a b : ℕ) : Tracks (RelN k) (M.rdC a b) (N.rdC a b) := by
  unfold Mat.rdC
  rw [h.1, h.2.1]
  exact .ite (.ok (h.2.2 a b)) (.err _)

theorem near (h : RelM k M N) (hk : k * R.u < 1) : EntrywiseNear (R.γ k) M N :=
  ⟨h.1, h.2.1, fun i _ j _ => (RelV.near (h.2.2 i j) hk).2⟩

end RelM

section
variable (hu : R.u < 1)
include hu

theorem tracks_dmat1 (o : Mode) (n : ℕ) : Tracks (RelM 3) (dmat1 (Rnd R) o n) (dmat1 ℝ o n) := by
  unfold dmat1
  refine .forRange (fun p a b h => ?_) (RelM.zeros hu _ _)
  refine .forRange (fun q a b h => ?_) h
  refine .ite ?_ (.pure h)
  refine .same _ fun m => ?_
  exact h.wr ((RelN.cast hu m).mono hu (by omega)) _ _

theorem tracks_dmat2 (o : Mode) (n : ℕ) : Tracks (RelM 3) (dmat2 (Rnd R) o n) (dmat2 ℝ o n) := by
  unfold dmat2
  refine .forRange (fun p a b h => ?_) (RelM.zeros hu _ _)
  refine .forRange (fun q a b h => ?_) h
  refine .ite ?_ (.pure h)
  iterate 4 refine .same _ fun m => ?_
  exact h.wr ((RelN.cast hu _).mono hu (by omega)) _ _

theorem tracks_dmat3 (o : Mode) (n : ℕ) : Tracks (RelM 3) (dmat3 (Rnd R) o n) (dmat3 ℝ o n) := by
  unfold dmat3
  refine .forRange (fun p a b h => ?_) (RelM.zeros hu _ _)
  refine .same _ fun _ => ?_
  refine .forRange (fun q a b h => ?_) h
  refine .same _ fun _ => ?_
  refine .ite ?_ (.pure h)
  refine .same _ fun m => ?_
  exact .bind ((RelN.cast hu m).divR hu (RelN.lit hu 4)) fun x y hx => h.wr hx _ _

theorem tracks_dmat4 (o : Mode) (n : ℕ) : Tracks (RelM 3) (dmat4 (Rnd R) o n) (dmat4 ℝ o n) := by
  unfold dmat4
  refine .forRange (fun p a b h => ?_) (RelM.zeros hu _ _)
  iterate 4 refine .same _ fun _ => ?_
  refine .forRange (fun q a b h => ?_) h
  iterate 4 refine .same _ fun _ => ?_
  refine .ite ?_ (.pure h)
  refine .same _ fun m => ?_
  exact .bind ((RelN.cast hu m).divR hu (RelN.lit hu 24)) fun x y hx => h.wr hx _ _

theorem tracks_dmat (o : Mode) (n d : ℕ) : Tracks (RelM 6) (dmat (Rnd R) o n d) (dmat ℝ o n d) := by
  unfold dmat
  refine .bind (P := RelM 3) (.ite (tracks_dmat1 hu o n) (.ite (tracks_dmat2 hu o n) (.ite (tracks_dmat3 hu o n)
    (.ite (tracks_dmat4 hu o n) (.err _))))) fun M N h => .same _ fun _ => .pure ⟨h.1, h.2.1, fun i j => ?_⟩
  show RelN 6 (if i = 0 then M.get i j * (1 / 2) else M.get i j) (if i = 0 then N.get i j * (1 / 2) else N.get i j)
  split
  · exact (h.2.2 i j).mul hu ((RelN.one hu (k := 0)).div hu (RelN.lit hu 2))
  · exact (h.2.2 i j).mono hu (by omega)

theorem tracks_pinvDiag {j l k : ℕ} (hk : j + l + 1 ≤ k) (a b : ℕ) (col : ℕ → Res ℕ) {num : Rnd R} {num' : ℝ}
    (hn : RelN j num num') {den : ℕ → Res (Rnd R)} {den' : ℕ → Res ℝ} (hd : ∀ i, Tracks (RelN l) (den i) (den' i))
    {M : Mat (Rnd R)} {N : Mat ℝ} (h : RelM k M N) :
    Tracks (RelM k) (pinvDiag (Rnd R) a b col num den M) (pinvDiag ℝ a b col num' den' N) := by
  unfold pinvDiag
  refine .forRange (fun i M N h => .same (col i) fun c => .bind (hd i) fun x y hx => .bind (hn.divR hu hx) fun x y hx => ?_) h
  exact h.wr (hx.mono hu hk) _ _

/-- a denominator that is computed in integers -/
theorem tracks_den (r : Res ℕ) : Tracks (RelN 1) (do pure ((← r : ℕ) : Rnd R)) (do pure ((← r : ℕ) : ℝ)) :=
  .same r fun m => .pure (RelN.cast hu m)

theorem tracks_pinv (o : Mode) (n d : ℕ) : Tracks (RelM 5) (pinv (Rnd R) o n d) (pinv ℝ o n d) := by
  have one : RelN 0 (1 : Rnd R) 1 := RelN.one hu
  have mone : RelN 0 (-1 : Rnd R) (-1) := one.neg
  have three : RelN 1 (3 : Rnd R) 3 := RelN.lit hu 3
  have two : RelN 1 (2 : Rnd R) 2 := RelN.lit hu 2
  have Z : ∀ k, RelM k (Mat.zeros n n : Mat (Rnd R)) (Mat.zeros n n) := fun k => RelM.zeros hu _ _
  have N1 : ∀ {k}, RelN k (1 : Rnd R) 1 := RelN.one hu
  have M1 : ∀ {k}, RelN k (-1 : Rnd R) (-1) := (RelN.one hu).neg
  unfold pinv
  refine .ite ?_ (.ite ?_ (.ite ?_ (.ite ?_ (.err _))))
  · refine .bind ((Z 5).wr N1 _ _) fun M N h => ?_
    have D : ∀ i : ℕ, Tracks (RelN 3) (Pure.pure (2 * (i : Rnd R)) : Res (Rnd R)) (Pure.pure (2 * (i : ℝ))) := fun i =>
      .pure (two.mul hu (RelN.cast hu i))
    refine .bind (tracks_pinvDiag hu (by omega) _ _ _ one D h) fun M N h => ?_
    refine .same _ fun _ => ?_
    exact tracks_pinvDiag hu (by omega) _ _ _ mone D h
  · refine .bind ((Z 5).wr ((one.div hu (RelN.lit hu 4)).mono hu (by omega)) _ _) fun M N h => ?_
    refine .bind (P := RelM 5) (tracks_pinvDiag hu (j := 1) (l := 1) (by omega) _ _ _ N1 (fun i => ?_) h) fun M N h => ?_
    · iterate 2 refine .same _ fun _ => ?_
      exact .pure (RelN.cast hu _)
    refine .same _ fun _ => ?_
    refine .bind (P := RelM 5) (tracks_pinvDiag hu (j := 1) (l := 1) (by omega) _ _ _ M1 (fun i => ?_) h) fun M N h => ?_
    · iterate 3 refine .same _ fun _ => ?_
      exact .pure (RelN.cast hu _)
    refine .same _ fun _ => ?_
    refine tracks_pinvDiag hu (j := 1) (l := 1) (by omega) _ _ _ N1 (fun i => ?_) h
    · iterate 1 refine .same _ fun _ => ?_
      exact .pure (RelN.cast hu _)
  · refine .bind (P := RelM 3) (tracks_pinvDiag hu (j := 1) (l := 1) (by omega) _ _ _ N1 (fun i => ?_) (Z 3)) fun M N h => ?_
    · iterate 3 refine .same _ fun _ => ?_
      exact .pure (RelN.cast hu _)
    refine .bind (h.rd _ _) fun x y hx => ?_
    refine .bind ((h.mono hu (by omega : 3 ≤ 5)).wr (hx.mul hu two) _ _) fun M N h => ?_
    refine .same _ fun _ => ?_
    refine .bind (P := RelM 5) (tracks_pinvDiag hu (j := 1) (l := 1) (by omega) _ _ _ three.neg (fun i => ?_) h) fun M N h => ?_
    · iterate 2 refine .same _ fun _ => ?_
      exact .pure (RelN.cast hu _)
    refine .same _ fun _ => ?_
    refine .bind (P := RelM 5) (tracks_pinvDiag hu (j := 1) (l := 1) (by omega) _ _ _ three (fun i => ?_) h) fun M N h => ?_
    · iterate 2 refine .same _ fun _ => ?_
      exact .pure (RelN.cast hu _)
    refine .same _ fun _ => ?_
    refine tracks_pinvDiag hu (j := 1) (l := 1) (by omega) _ _ _ M1 (fun i => ?_) h
    · iterate 1 refine .same _ fun _ => ?_
      exact .pure (RelN.cast hu _)
  · refine .bind (P := RelM 3) (tracks_pinvDiag hu (j := 1) (l := 1) (by omega) _ _ _ N1 (fun i => ?_) (Z 3)) fun M N h => ?_
    · iterate 4 refine .same _ fun _ => ?_
      exact .pure (RelN.cast hu _)
    refine .bind (h.rd _ _) fun x y hx => ?_
    refine .bind ((h.mono hu (by omega : 3 ≤ 5)).wr (hx.mul hu two) _ _) fun M N h => ?_
    refine .same _ fun _ => ?_
    refine .bind (P := RelM 5) (tracks_pinvDiag hu (j := 1) (l := 1) (by omega) _ _ _ M1 (fun i => ?_) h) fun M N h => ?_
    · iterate 3 refine .same _ fun _ => ?_
      exact .pure (RelN.cast hu _)
    refine .same _ fun _ => ?_
    refine .bind (P := RelM 5) (tracks_pinvDiag hu (j := 1) (l := 1) (by omega) _ _ _ three (fun i => ?_) h) fun M N h => ?_
    · iterate 3 refine .same _ fun _ => ?_
      exact .pure (RelN.cast hu _)
    refine .same _ fun _ => ?_
    refine .bind (P := RelM 5) (tracks_pinvDiag hu (j := 1) (l := 1) (by omega) _ _ _ M1 (fun i => ?_) h) fun M N h => ?_
    · iterate 2 refine .same _ fun _ => ?_
      exact .pure (RelN.cast hu _)
    refine .same _ fun _ => ?_
    refine tracks_pinvDiag hu (j := 1) (l := 1) (by omega) _ _ _ N1 (fun i => ?_) h
    · iterate 1 refine .same _ fun _ => ?_
      exact .pure (RelN.cast hu _)

theorem tracks_pinvEye (n d : ℕ) : Tracks (RelM 0) (pinvEye (Rnd R) n d) (pinvEye ℝ n d) := by
  unfold pinvEye
  refine .same _ fun _ => .pure ⟨rfl, rfl, fun i j => ?_⟩
  show RelN 0 (if i + d = j then (1 : Rnd R) else 0) (if i + d = j then 1 else 0)
  split
  · exact RelN.one hu
  · exact RelN.zero hu

end
end Verif
