/-
2-d arrays (`ndarray::Array2`) as a shape and an entry function; only bounds-checked indexing
is used on them in the modelled code.
-/
import Verif.Core.Tac
import Mathlib.Algebra.BigOperators.Group.Finset.Basic
import Mathlib.Algebra.Module.BigOperators

namespace Verif
open Res

/-- `Array2<K>`: shape and entries.  Entries outside the shape carry no meaning; the model
never reads them (`Mat.rdC` panics). -/
structure Mat (K : Type) where
  rows : ℕ
  cols : ℕ
  get : ℕ → ℕ → K

namespace Mat
variable {K : Type}

/-- `Array2::zeros((r, c))`. -/
def zeros [Zero K] (r c : ℕ) : Mat K := ⟨r, c, fun _ _ => 0⟩

/-- `Array2::eye(n)`. -/
def eye [Zero K] [One K] (n : ℕ) : Mat K := ⟨n, n, fun i j => if i = j then 1 else 0⟩

/-- `m[[i, j]]`. -/
def rdC (m : Mat K) (i j : ℕ) : Res K :=
  if i < m.rows ∧ j < m.cols then ok (m.get i j) else err .panic

/-- `m[[i, j]] = x`. -/
def wrC (m : Mat K) (i j : ℕ) (x : K) : Res (Mat K) :=
  if i < m.rows ∧ j < m.cols then
    ok ⟨m.rows, m.cols, fun a b => if a = i ∧ b = j then x else m.get a b⟩
  else err .panic

/-- The array after `m[[i,j]] = x`. -/
def upd (m : Mat K) (i j : ℕ) (x : K) : Mat K :=
  ⟨m.rows, m.cols, fun a b => if a = i ∧ b = j then x else m.get a b⟩

/-- `mapv`. -/
def map {L : Type} (f : K → L) (m : Mat K) : Mat L := ⟨m.rows, m.cols, fun i j => f (m.get i j)⟩

@[simp] theorem zeros_rows [Zero K] (r c : ℕ) : (zeros r c : Mat K).rows = r := rfl
@[simp] theorem zeros_cols [Zero K] (r c : ℕ) : (zeros r c : Mat K).cols = c := rfl
@[simp] theorem zeros_get [Zero K] (r c i j : ℕ) : (zeros r c : Mat K).get i j = 0 := rfl
@[simp] theorem upd_rows (m : Mat K) (i j : ℕ) (x : K) : (m.upd i j x).rows = m.rows := rfl
@[simp] theorem upd_cols (m : Mat K) (i j : ℕ) (x : K) : (m.upd i j x).cols = m.cols := rfl
theorem upd_get (m : Mat K) (i j : ℕ) (x : K) (a b : ℕ) :
    (m.upd i j x).get a b = if a = i ∧ b = j then x else m.get a b := rfl

theorem wp_rdC_i {Q : Err → Prop} {m : Mat K} {i j : ℕ} {P : K → Prop} (hi : i < m.rows)
    (hj : j < m.cols) (h : P (m.get i j)) : wp Q (m.rdC i j) P := by
  unfold rdC; rw [if_pos ⟨hi, hj⟩]; exact h
theorem wp_wrC_i {Q : Err → Prop} {m : Mat K} {i j : ℕ} {x : K} {P : Mat K → Prop}
    (hi : i < m.rows) (hj : j < m.cols) (h : P (m.upd i j x)) : wp Q (m.wrC i j x) P := by
  unfold wrC; rw [if_pos ⟨hi, hj⟩]; exact h

end Mat

/-- discharge array-shape side conditions -/
macro "mlen" : tactic => `(tactic| first
  | wlen
  | (simp only [Mat.upd_rows, Mat.upd_cols, Mat.zeros_rows, Mat.zeros_cols]; omega)
  | (simp only [Mat.upd_rows, Mat.upd_cols, Mat.zeros_rows, Mat.zeros_cols] at *; omega))

/-- one step of symbolic execution of code with 2-d arrays -/
macro "mpstep" : tactic => `(tactic| first
  | wpstep
  | with_reducible refine Mat.wp_rdC_i (by mlen) (by mlen) ?_
  | with_reducible refine Mat.wp_wrC_i (by mlen) (by mlen) ?_)

macro "mprun" : tactic => `(tactic| repeat mpstep)

/-- `Iterator::step_by(2)`: first, third, fifth, … element. -/
def stepBy2 {ι : Type _} : List ι → List ι
  | [] => []
  | [a] => [a]
  | a :: _ :: l => a :: stepBy2 l

/-- `for j in (0..b).rev().step_by(2) { .. }`. -/
def forRev2 {σ : Type _} (b : ℕ) (f : ℕ → σ → Res σ) (s : σ) : Res σ :=
  forList (stepBy2 (List.range b).reverse) f s

theorem range_rev_succ (b : ℕ) : (List.range (b + 1)).reverse = b :: (List.range b).reverse := by
  rw [List.range_succ, List.reverse_append]; rfl

/-- Loop rule: the indices are `b-1, b-3, …` down to 0 or 1; `I (j+2)` holds before index `j`
is processed and `I j` afterwards. -/
theorem wp_forRev2 {σ : Type _} {Q : Err → Prop} {b : ℕ} {f : ℕ → σ → Res σ} {s : σ}
    {P : σ → Prop} (I : ℕ → σ → Prop) (h0 : I (b + 1) s)
    (hstep : ∀ j s, j < b → (b - 1 - j) % 2 = 0 → I (j + 2) s → wp Q (f j s) (I j))
    (hend : ∀ k s, k ≤ 1 → (b + 1 - k) % 2 = 0 → I k s → P s) :
    wp Q (forRev2 b f s) P := by
  suffices H : ∀ b s, I (b + 1) s →
      (∀ j s, j < b → (b - 1 - j) % 2 = 0 → I (j + 2) s → wp Q (f j s) (I j)) →
      wp Q (forRev2 b f s) (fun s => ∃ k, k ≤ 1 ∧ (b + 1 - k) % 2 = 0 ∧ I k s) from
    wp_mono (H b s h0 hstep) (fun s ⟨k, h1, h2, h3⟩ => hend k s h1 h2 h3)
  clear h0 hstep hend s b
  intro b
  induction b using Nat.strong_induction_on with
  | _ b ih =>
    intro s h0 hstep
    match b, ih with
    | 0, _ => exact ⟨1, le_rfl, by omega, h0⟩
    | 1, _ =>
      unfold forRev2
      simp only [range_rev_succ, List.range_zero, List.reverse_nil, stepBy2, forList, wp_bind]
      exact wp_mono (hstep 0 s (by omega) (by omega) h0) (fun s hs => ⟨0, by omega, by omega, hs⟩)
    | b + 2, ih =>
      have := ih b (by omega)
      unfold forRev2 at this ⊢
      rw [range_rev_succ, range_rev_succ]
      simp only [stepBy2, forList, wp_bind]
      refine wp_mono (hstep (b + 1) s (by omega) (by omega) h0) (fun s' hs' => ?_)
      refine wp_mono (this s' hs' (fun j s h1 h2 => hstep j s (by omega) (by omega))) ?_
      rintro s ⟨k, h1, h2, h3⟩
      exact ⟨k, h1, by omega, h3⟩

end Verif
