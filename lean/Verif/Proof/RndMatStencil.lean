/- The stencils and their matrices in rounded arithmetic: a simulation of the run in exact arithmetic. -/
import Verif.Proof.RndMat

namespace Verif
open Res Spec

namespace Spec.Tracks
variable {α β : Type} {P : α → β → Prop}

theorem forListMem {ι : Type} (is : List ι) {f : ι → α → Res α} {g : ι → β → Res β}
    (h : ∀ i ∈ is, ∀ a b, P a b → Tracks P (f i a) (g i b)) {a : α} {b : β} (hab : P a b) :
    Tracks P (Verif.forList is f a) (Verif.forList is g b) := by
  induction is generalizing a b with
  | nil => exact .ok hab
  | cons i is ih =>
    exact bind (h i (by simp) a b hab) fun a b => ih fun i hi => h i (by simp [hi])

end Spec.Tracks

theorem mem_stepBy2 {ι : Type} {l : List ι} {x : ι} (h : x ∈ stepBy2 l) : x ∈ l := by
  induction l using stepBy2.induct with
  | case1 => exact h
  | case2 a => exact h
  | case3 a b l ih =>
    rw [stepBy2] at h
    rcases List.mem_cons.mp h with rfl | h
    · simp
    · simp [ih h]

variable {R : Rounding}

/-- lists of the same length with related entries -/
def RelL (P : Rnd R → ℝ → Prop) (l : List (Rnd R)) (l' : List ℝ) : Prop := List.Forall₂ P l l'

namespace RelL
variable {P Q : Rnd R → ℝ → Prop} {l : List (Rnd R)} {l' : List ℝ} {x : Rnd R} {y : ℝ}

theorem len (h : RelL P l l') : l.length = l'.length := List.Forall₂.length_eq h

theorem rep (h : P x y) (m : ℕ) : RelL P (List.replicate m x) (List.replicate m y) := by
  induction m with
  | zero => exact .nil
  | succ m ih => exact .cons h ih

theorem rd (h : RelL P l l') (i : ℕ) : Tracks P (rdC l i) (rdC l' i) := by
  unfold rdC
  induction h generalizing i with
  | nil => exact .err _
  | cons hx _ ih =>
    cases i with
    | zero => exact .ok hx
    | succ i => simpa using ih i

theorem wr (h : RelL P l l') (hx : P x y) (i : ℕ) : Tracks (RelL P) (wrC l i x) (wrC l' i y) := by
  unfold wrC
  rw [h.len]
  refine .ite (.ok ?_) (.err _)
  induction h generalizing i with
  | nil => exact .nil
  | cons h0 h1 ih =>
    cases i with
    | zero => exact .cons hx h1
    | succ i => exact .cons h0 (ih i)

end RelL

/-- matrices of the same shape with related entries -/
def RelMP (P : Rnd R → ℝ → Prop) (M : Mat (Rnd R)) (N : Mat ℝ) : Prop :=
  M.rows = N.rows ∧ M.cols = N.cols ∧ ∀ i j, P (M.get i j) (N.get i j)

theorem RelMP.wr {P : Rnd R → ℝ → Prop} {M : Mat (Rnd R)} {N : Mat ℝ} {x : Rnd R} {y : ℝ} (h : RelMP P M N)
    (hx : P x y) (a b : ℕ) : Tracks (RelMP P) (M.wrC a b x) (N.wrC a b y) := by
  unfold Mat.wrC
  rw [h.1, h.2.1]
  refine .ite (.ok ⟨rfl, rfl, fun i j => ?_⟩) (.err _)
  show P (if i = a ∧ j = b then x else M.get i j) (if i = a ∧ j = b then y else N.get i j)
  split
  · exact hx
  · exact h.2.2 i j

/-- stencils with related diagonals -/
def RelS2 (P : Rnd R → ℝ → Prop) (s : Stencil2 (Rnd R)) (s' : Stencil2 ℝ) : Prop :=
  RelL P s.diag s'.diag ∧ RelL P s.low2 s'.low2
@[inherit_doc RelS2] def RelS3 (P : Rnd R → ℝ → Prop) (s : Stencil3 (Rnd R)) (s' : Stencil3 ℝ) : Prop :=
  RelL P s.diag s'.diag ∧ RelL P s.low1 s'.low1 ∧ RelL P s.low2 s'.low2
@[inherit_doc RelS2] def RelS4 (P : Rnd R → ℝ → Prop) (s : Stencil4 (Rnd R)) (s' : Stencil4 ℝ) : Prop :=
  RelL P s.diag s'.diag ∧ RelL P s.low2 s'.low2 ∧ RelL P s.low4 s'.low4

section
variable {P : Rnd R → ℝ → Prop} {d e f : List (Rnd R)} {d' e' f' : List ℝ}

/-- a work array: only its length matters -/
abbrev Any : Rnd R → ℝ → Prop := fun _ _ => True

theorem tracks_new2 (hd : RelL P d d') (he : RelL P e e') :
    Tracks (fun s s' => RelS2 P s s' ∧ s'.diag = d') (Stencil2.new d e) (Stencil2.new d' e') := by
  unfold Stencil2.new
  simp only [List.length_replicate, hd.len]
  refine .same _ fun k => ?_
  refine .bind (P := RelL Any) (.forRange (fun i a b h => ?_) (RelL.rep trivial _)) fun _ _ _ => ?_
  · iterate 2 refine .bind (hd.rd i) fun _ _ _ => ?_
    iterate 2 refine .bind (he.rd i) fun _ _ _ => ?_
    exact h.wr trivial i
  refine .bind (P := RelL Any) (.forRange (fun i a b h => ?_) (RelL.rep trivial _)) fun _ _ _ => ?_
  · refine .bind (hd.rd _) fun _ _ _ => ?_
    refine .bind (he.rd i) fun _ _ _ => ?_
    exact h.wr trivial i
  exact .pure ⟨⟨hd, he⟩, rfl⟩

theorem tracks_new3 (hd : RelL P d d') (he : RelL P e e') (hf : RelL P f f') :
    Tracks (RelS3 P) (Stencil3.new d e f) (Stencil3.new d' e' f') := by
  unfold Stencil3.new
  simp only [List.length_replicate, hd.len]
  refine .same _ fun k1 => ?_
  refine .same _ fun k2 => ?_
  refine .bind (P := RelL Any) (.forRange (fun i a b h => ?_) (RelL.rep trivial _)) fun _ _ _ => ?_
  · iterate 2 refine .bind (hd.rd i) fun _ _ _ => ?_
    iterate 2 refine .bind (he.rd i) fun _ _ _ => ?_
    iterate 2 refine .bind (hf.rd i) fun _ _ _ => ?_
    exact h.wr trivial i
  refine .bind (P := RelL Any) (.forRange (fun i a b h => ?_) (RelL.rep trivial _)) fun _ _ _ => ?_
  · refine .bind (hd.rd _) fun _ _ _ => ?_
    refine .bind (he.rd i) fun _ _ _ => ?_
    refine .bind (he.rd _) fun _ _ _ => ?_
    refine .bind (hf.rd i) fun _ _ _ => ?_
    exact h.wr trivial i
  refine .bind (P := RelL Any) (.forRange (fun i a b h => ?_) (RelL.rep trivial _)) fun _ _ _ => ?_
  · refine .bind (hd.rd _) fun _ _ _ => ?_
    refine .bind (hf.rd i) fun _ _ _ => ?_
    exact h.wr trivial i
  exact .pure ⟨hd, he, hf⟩

theorem tracks_new4 (hd : RelL P d d') (he : RelL P e e') (hf : RelL P f f') :
    Tracks (RelS4 P) (Stencil4.new d e f) (Stencil4.new d' e' f') := by
  unfold Stencil4.new
  simp only [List.length_replicate, hd.len]
  refine .same _ fun k1 => ?_
  refine .same _ fun k2 => ?_
  refine .bind (P := RelL Any) (.forRange (fun i a b h => ?_) (RelL.rep trivial _)) fun _ _ _ => ?_
  · iterate 2 refine .bind (hd.rd i) fun _ _ _ => ?_
    iterate 2 refine .bind (he.rd i) fun _ _ _ => ?_
    iterate 2 refine .bind (hf.rd i) fun _ _ _ => ?_
    exact h.wr trivial i
  refine .bind (P := RelL Any) (.forRange (fun i a b h => ?_) (RelL.rep trivial _)) fun _ _ _ => ?_
  · refine .bind (hd.rd _) fun _ _ _ => ?_
    refine .bind (he.rd i) fun _ _ _ => ?_
    refine .bind (he.rd _) fun _ _ _ => ?_
    refine .bind (hf.rd i) fun _ _ _ => ?_
    exact h.wr trivial i
  refine .bind (P := RelL Any) (.forRange (fun i a b h => ?_) (RelL.rep trivial _)) fun _ _ _ => ?_
  · refine .bind (hd.rd _) fun _ _ _ => ?_
    refine .bind (hf.rd i) fun _ _ _ => ?_
    exact h.wr trivial i
  exact .pure ⟨hd, he, hf⟩

theorem tracks_array2 (h0 : P 0 0) {s : Stencil2 (Rnd R)} {s' : Stencil2 ℝ} (h : RelS2 P s s') :
    Tracks (RelMP P) s.toArray s'.toArray := by
  unfold Stencil2.toArray
  simp only [h.1.len, h.2.len]
  refine .forRange (fun i M N hM => ?_) ⟨rfl, rfl, fun _ _ => h0⟩
  refine .bind (h.1.rd i) fun x y hx => ?_
  refine .bind (hM.wr hx _ _) fun M N hM => ?_
  refine .bind (h.2.rd i) fun x y hx => ?_
  exact hM.wr hx _ _

theorem tracks_array3 (h0 : P 0 0) {s : Stencil3 (Rnd R)} {s' : Stencil3 ℝ} (h : RelS3 P s s') :
    Tracks (RelMP P) s.toArray s'.toArray := by
  unfold Stencil3.toArray
  simp only [h.1.len, h.2.1.len, h.2.2.len]
  refine .forRange (fun i M N hM => ?_) ⟨rfl, rfl, fun _ _ => h0⟩
  refine .bind (h.1.rd i) fun x y hx => ?_
  refine .bind (hM.wr hx _ _) fun M N hM => ?_
  refine .bind (h.2.1.rd i) fun x y hx => ?_
  refine .bind (hM.wr hx _ _) fun M N hM => ?_
  refine .bind (h.2.2.rd i) fun x y hx => ?_
  exact hM.wr hx _ _

theorem tracks_array4 (h0 : P 0 0) {s : Stencil4 (Rnd R)} {s' : Stencil4 ℝ} (h : RelS4 P s s') :
    Tracks (RelMP P) s.toArray s'.toArray := by
  unfold Stencil4.toArray
  simp only [h.1.len, h.2.1.len, h.2.2.len]
  refine .forRange (fun i M N hM => ?_) ⟨rfl, rfl, fun _ _ => h0⟩
  refine .bind (h.1.rd i) fun x y hx => ?_
  refine .bind (hM.wr hx _ _) fun M N hM => ?_
  refine .bind (h.2.1.rd i) fun x y hx => ?_
  refine .bind (hM.wr hx _ _) fun M N hM => ?_
  refine .bind (h.2.2.rd i) fun x y hx => ?_
  exact hM.wr hx _ _

end

section
variable (hu : R.u < 1)
include hu

theorem RelN.add {j k l : ℕ} (hj : j ≤ l) (hk : k ≤ l) {x x' : Rnd R} {y y' : ℝ} (h : RelN j x y) (h' : RelN k x' y')
    (h0 : 0 ≤ y) (h0' : 0 ≤ y') : RelN (l + 1) (x + x') (y + y') :=
  RelV.fl hu (RelV.add (RelV.mono hu h hj) (RelV.mono hu h' hk) h0 h0')

theorem tracks_dirichlet (n : ℕ) : Tracks (fun s s' => RelS2 (RelN 0) s s' ∧ s'.diag.length ≤ n)
    (dirichletNew n : Res (Stencil2 (Rnd R))) (dirichletNew n) := by
  unfold dirichletNew
  unfold usub
  split
  · exact (tracks_new2 (RelL.rep (RelN.one hu) _) (RelL.rep (RelN.one hu).neg _)).mono fun _ _ h => ⟨h.1, by
      rw [h.2, List.length_replicate]; omega⟩
  · exact .err _

theorem tracks_neumann (n : ℕ) : Tracks (fun s s' => RelS2 (RelN 4) s s' ∧ s'.diag.length ≤ n)
    (neumannNew n : Res (Stencil2 (Rnd R))) (neumannNew n) := by
  unfold neumannNew
  unfold usub
  split
  swap
  · exact .err _
  simp only [bind_ok]
  refine .bind (P := RelL (RelN 4)) (.forRange (fun k a b h => ?_) (RelL.rep (RelN.zero hu) _)) fun a b h => ?_
  · refine .bind (P := RelN 4) ?_ fun x y hx => h.wr hx k
    exact ((RelN.one hu (k := 0)).neg.mul hu (RelN.cast hu _)).divR hu (RelN.cast hu _)
  · exact (tracks_new2 (RelL.rep (RelN.one hu) _) h).mono fun _ _ h => ⟨h.1, by
      rw [h.2, List.length_replicate]; omega⟩

theorem tracks_biharmonicA (n : ℕ) : Tracks (RelS4 (RelN 7)) (biharmonicANew n : Res (Stencil4 (Rnd R))) (biharmonicANew n) := by
  unfold biharmonicANew
  refine .same _ fun m => ?_
  refine .bind (P := fun v w => RelL (RelN 7) v.1 w.1 ∧ RelL (RelN 7) v.2 w.2) (.forRange (fun k a b h => ?_)
    ⟨RelL.rep (RelN.zero hu) m, RelL.rep (RelN.zero hu) m⟩) fun a b h => ?_
  · have c := RelN.cast (R := R) hu k
    have k0 : (0:ℝ) ≤ k := Nat.cast_nonneg k
    have c1 := c.add hu (l := 1) le_rfl le_rfl (RelN.one hu) k0 zero_le_one
    have c2 := c.add hu le_rfl le_rfl (RelN.lit hu 2) k0 zero_le_two
    have c3 := c.add hu le_rfl le_rfl (RelN.lit hu 3) k0 (by norm_num)
    refine .bind (((RelN.lit hu 2).neg.mul hu c2).divR hu c3) fun x y hx => ?_
    refine .bind (c1.divR hu c3) fun z w hz => ?_
    refine .bind (h.1.wr hx k) fun _ _ g1 => ?_
    refine .bind (h.2.wr (hz.mono hu (by omega)) k) fun _ _ g2 => ?_
    exact .pure ⟨g1, g2⟩
  · exact tracks_new4 (RelL.rep (RelN.one hu) m) h.1 h.2

theorem tracks_biharmonicB (n : ℕ) : Tracks (RelS4 (RelN 24)) (biharmonicBNew n : Res (Stencil4 (Rnd R))) (biharmonicBNew n) := by
  unfold biharmonicBNew
  refine .same _ fun m => ?_
  refine .bind (P := fun v w => RelL (RelN 24) v.1 w.1 ∧ RelL (RelN 24) v.2 w.2) (.forRange (fun k a b h => ?_)
    ⟨RelL.rep (RelN.zero hu) m, RelL.rep (RelN.zero hu) m⟩) fun a b h => ?_
  · have c := RelN.cast (R := R) hu k
    have k0 : (0:ℝ) ≤ k := Nat.cast_nonneg k
    have t2 := RelN.lit (R := R) hu 2
    have c1 := c.add hu (l := 1) le_rfl le_rfl (RelN.one hu) k0 zero_le_one
    have c2 := c.add hu le_rfl le_rfl t2 k0 zero_le_two
    have c3 := c.add hu le_rfl le_rfl (RelN.lit hu 3) k0 (by norm_num)
    have c4 := c.add hu le_rfl le_rfl (RelN.lit hu 4) k0 (by norm_num)
    have c6 := (RelN.lit hu 6).add hu le_rfl le_rfl c (by norm_num) k0
    have a15 := (RelN.lit hu 15).add hu (l := 6) (by omega) le_rfl ((t2.mul hu c).mul hu c4) (by norm_num) (by positivity)
    have a19 := (RelN.lit hu 19).add hu (l := 6) (by omega) le_rfl ((t2.mul hu c).mul hu c6) (by norm_num) (by positivity)
    have a3 := (RelN.lit hu 3).add hu (l := 6) (by omega) le_rfl ((t2.mul hu c).mul hu c2) (by norm_num) (by positivity)
    refine .bind (((RelN.one hu (k := 0)).neg.mul hu ((t2.mul hu c2).mul hu a15)).divR hu (c3.mul hu a19)) fun x y hx => ?_
    refine .bind ((c1.mul hu a3).divR hu (c3.mul hu a19)) fun z w hz => ?_
    refine .bind (h.1.wr hx k) fun _ _ g1 => ?_
    refine .bind (h.2.wr (hz.mono hu (by omega)) k) fun _ _ g2 => ?_
    exact .pure ⟨g1, g2⟩
  · exact tracks_new4 (RelL.rep (RelN.one hu) m) h.1 h.2

end

/-- an absolute error of at most `ε` -/
def AbsN (ε : ℝ) (x : Rnd R) (y : ℝ) : Prop := |x.val - y| ≤ ε

theorem tracks_mixed (h13 : (13:ℕ) * R.u < 1) (n : ℕ) :
    Tracks (RelS3 (AbsN (R.γ 13))) (dirichletNeumannNew n : Res (Stencil3 (Rnd R))) (dirichletNeumannNew n) := by
  have hu : R.u < 1 := by have := R.u_nonneg; push_cast at h13; linarith
  have g := R.γ_nonneg h13
  unfold dirichletNeumannNew
  refine .same _ fun m => ?_
  have z : AbsN (R.γ 13) (0 : Rnd R) 0 := by simpa [AbsN] using g
  refine .bind (P := fun v w => RelL (AbsN (R.γ 13)) v.1 w.1 ∧ RelL (AbsN (R.γ 13)) v.2 w.2) (.forRange (fun k a b h => ?_)
    ⟨RelL.rep z m, RelL.rep z m⟩) fun a b h => ?_
  · obtain ⟨-, -, -, pd⟩ := mixed_parts (R := R) hu k
    have d0 : (((k : Rnd R) + 1) ^ 2 + ((k : Rnd R) + 2) ^ 2).val ≠ 0 := RelV.ne_zero hu pd (by positivity)
    have d1 : ((k : ℝ) + 1) ^ 2 + ((k : ℝ) + 2) ^ 2 ≠ 0 := by positivity
    have e1 := Rnd.div_ok (x := -1 * (k : Rnd R) ^ 2 + ((k : Rnd R) + 2) ^ 2) d0
    have e2 := Rnd.div_ok (x := -1 * (k : Rnd R) ^ 2 - ((k : Rnd R) + 1) ^ 2) d0
    have f1 := (divR_eq (-1 * (k : ℝ) ^ 2 + ((k : ℝ) + 2) ^ 2) (((k : ℝ) + 1) ^ 2 + ((k : ℝ) + 2) ^ 2)).trans (if_neg d1)
    have f2 := (divR_eq (-1 * (k : ℝ) ^ 2 - ((k : ℝ) + 1) ^ 2) (((k : ℝ) + 1) ^ 2 + ((k : ℝ) + 2) ^ 2)).trans (if_neg d1)
    obtain ⟨n1, n2⟩ := mixed_near h13 e1 e2
    obtain ⟨m1, m2⟩ := mixed_exact f1 f2
    have q1 := n1.err
    have q2 := n2.err
    rw [← m1, mul_one] at q1
    rw [← m2, mul_one] at q2
    simp only [e1, e2, f1, f2]
    refine .bind (P := AbsN (R.γ 13)) (.ok q1) fun _ _ q1 => ?_
    refine .bind (h.1.wr q1 k) fun _ _ g1 => ?_
    refine .bind (P := AbsN (R.γ 13)) (.ok q2) fun _ _ q2 => ?_
    refine .bind (h.2.wr q2 k) fun _ _ g2 => ?_
    exact .pure ⟨g1, g2⟩
  · exact tracks_new3 (RelL.rep (by simpa [AbsN] using g) m) h.1 h.2

/-- matrices with entries that are exact up to `κ i j` roundings -/
def RelK (m : ℕ) (κ : ℕ → ℕ → ℕ) (M : Mat (Rnd R)) (N : Mat ℝ) : Prop :=
  (M.rows = m ∧ N.rows = m) ∧ M.cols = N.cols ∧ ∀ i j, RelN (κ i j) (M.get i j) (N.get i j)

theorem RelK.wr {m : ℕ} {κ : ℕ → ℕ → ℕ} {M : Mat (Rnd R)} {N : Mat ℝ} {x : Rnd R} {y : ℝ} (h : RelK m κ M N) (a b : ℕ)
    (hx : RelN (κ a b) x y) : Tracks (RelK m κ) (M.wrC a b x) (N.wrC a b y) := by
  unfold Mat.wrC
  rw [h.1.1, h.1.2, h.2.1]
  refine .ite (.ok ⟨⟨rfl, rfl⟩, rfl, fun i j => ?_⟩) (.err _)
  show RelN (κ i j) (if i = a ∧ j = b then x else M.get i j) (if i = a ∧ j = b then y else N.get i j)
  split
  · rename_i e; rw [e.1, e.2]; exact hx
  · exact h.2.2 i j

theorem RelK.rd {m : ℕ} {κ : ℕ → ℕ → ℕ} {M : Mat (Rnd R)} {N : Mat ℝ} (h : RelK m κ M N) (a b : ℕ) :
    Tracks (RelN (κ a b)) (M.rdC a b) (N.rdC a b) := by
  unfold Mat.rdC
  rw [h.1.1, h.1.2, h.2.1]
  exact .ite (.ok (h.2.2 a b)) (.err _)

/-- `stencil_inv` of a stencil with two diagonals: the number of roundings grows along a row -/
theorem tracks_pinv2 (hu : R.u < 1) {d l : ℕ} {s : Stencil2 (Rnd R)} {s' : Stencil2 ℝ} (hd : RelL (RelN d) s.diag s'.diag)
    (hl : RelL (RelN l) s.low2 s'.low2) :
    Tracks (RelK s'.diag.length fun i j => (l + d + 3) * (i + 1 - j)) s.pinv s'.pinv := by
  unfold Stencil2.pinv
  simp only [hd.len]
  refine .forRange (fun i M N h => ?_) ⟨⟨rfl, rfl⟩, rfl, fun _ _ => RelN.zero hu⟩
  refine .bind (hd.rd i) fun x y hx => ?_
  refine .bind ((RelN.one hu (k := 0)).divR hu hx) fun x y hx => ?_
  refine .bind (h.wr i i (hx.mono hu ?_)) fun M N h => ?_
  · rw [Nat.add_sub_cancel_left]; omega
  refine .ite ?_ (.pure h)
  unfold forRev2
  by_cases hi : 1 ≤ i
  swap
  · rw [show i = 0 by omega]; exact .err _
  rw [show (i -! 1) = ok (i - 1) from if_pos hi]
  simp only [bind_ok]
  refine .forListMem _ (fun j hj M N h => ?_) h
  have hj : j < i - 1 := by simpa using mem_stepBy2 hj
  refine .bind (h.rd i (j + 2)) fun x y hx => ?_
  refine .bind (hl.rd j) fun x' y' hx' => ?_
  refine .bind (hd.rd j) fun z w hz => ?_
  refine .bind (((RelN.one hu (k := 0)).neg.mul hu (hx.mul hu hx')).divR hu hz) fun x y hx => ?_
  refine h.wr i j (hx.mono hu ?_)
  obtain ⟨t, rfl⟩ : ∃ t, i = t + j + 2 := ⟨i - j - 2, by omega⟩
  rw [show t + j + 2 + 1 - (j + 2) = t + 1 by omega, show t + j + 2 + 1 - j = t + 3 by omega]
  nlinarith

/-! ### correct rounding -/

/-- the rounded value -/
def FlN (x : Rnd R) (y : ℝ) : Prop := x.val = R.fl y

section
variable (hR : R.Nearest) (hh : R.Halves)
include hR hh

theorem Halves.four : R.fl 4 = 4 := by
  have := hh 4
  rw [show (4:ℝ) / 2 = 2 by norm_num, hR.two] at this
  linarith

theorem Halves.half : R.fl (1 / 2) = 1 / 2 := by
  rw [hh, hR.one]

theorem tracks_fl_dmat (o : Mode) (n d : ℕ) (hd : d ≤ 3) : Tracks (RelMP FlN) (dmat (Rnd R) o n d) (dmat ℝ o n d) := by
  have z : FlN (0 : Rnd R) 0 := R.fl_zero.symm
  have c : ∀ m : ℕ, FlN (m : Rnd R) (m : ℝ) := fun m => rfl
  have Z : RelMP FlN (Mat.zeros n n : Mat (Rnd R)) (Mat.zeros n n) := ⟨rfl, rfl, fun _ _ => z⟩
  have q4 : ∀ m : ℕ, Tracks FlN (divR (m : Rnd R) (4 : Rnd R)) (divR (m : ℝ) (4 : ℝ)) := fun m => by
    have e : (4 : Rnd R).val = 4 := Halves.four hR hh
    rw [Rnd.div_ok (by rw [e]; norm_num), divR_eq, if_neg (by norm_num)]
    refine .ok ?_
    show R.fl (R.fl m / (4 : Rnd R).val) = R.fl ((4:ℝ)⁻¹ • (m:ℝ))
    rw [e, smul_eq_mul, show R.fl (m:ℝ) / 4 = R.fl m / 2 / 2 by ring, show (4:ℝ)⁻¹ * m = m / 2 / 2 by ring, hh, hh, hh, hh, hR.float]
  unfold dmat
  refine .bind (P := RelMP FlN) (.ite ?_ (.ite ?_ (.ite ?_ ?_))) fun M N h => .same _ fun _ => .pure ⟨h.1, h.2.1, fun i j => ?_⟩
  · unfold dmat1
    refine .forRange (fun p a b h => ?_) Z
    refine .forRange (fun q a b h => ?_) h
    refine .ite ?_ (.pure h)
    refine .same _ fun m => ?_
    exact h.wr (c m) _ _
  · unfold dmat2
    refine .forRange (fun p a b h => ?_) Z
    refine .forRange (fun q a b h => ?_) h
    refine .ite ?_ (.pure h)
    iterate 4 refine .same _ fun m => ?_
    exact h.wr (c _) _ _
  · unfold dmat3
    refine .forRange (fun p a b h => ?_) Z
    refine .same _ fun _ => ?_
    refine .forRange (fun q a b h => ?_) h
    refine .same _ fun _ => ?_
    refine .ite ?_ (.pure h)
    refine .same _ fun m => ?_
    exact .bind (q4 m) fun x y hx => h.wr hx _ _
  · rw [if_neg (by omega), if_neg (by omega)]
    exact .err _
  · show FlN (if i = 0 then M.get i j * (1 / 2) else M.get i j) (if i = 0 then N.get i j * (1 / 2) else N.get i j)
    split
    · show R.fl ((M.get i j).val * R.fl (1 / (2 : Rnd R).val)) = R.fl (N.get i j * (1 / 2))
      rw [val_two, hR.two, Halves.half hR hh, show (M.get i j).val = R.fl (N.get i j) from h.2.2 i j, mul_one_div, mul_one_div, hh, hh, hR.float]
    · exact h.2.2 i j

end
end Verif
