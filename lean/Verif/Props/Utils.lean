/-
C50: what the comparison helpers of src/utils.rs accept.
-/
import Verif.Model.Utils
import Mathlib.Tactic.NormNum
import Mathlib.Tactic.Linarith

namespace Verif.Props
open Verif Res

private theorem assertP_bind {β : Type} (p : Prop) (r : Res β) (y : β) :
    (assertP p >>= fun _ => r) = ok y ↔ p ∧ r = ok y := by
  classical
  unfold assertP
  by_cases h : p
  · rw [if_pos h]; simp [h]
  · rw [if_neg h]; simp [h]

private theorem assertP_bind_err {β : Type} (p : Prop) (r : Res β) (h : ¬ p) :
    (assertP p >>= fun _ => r) = err .panic := by
  classical
  unfold assertP; rw [if_neg h]; rfl

/-- C50. `approx_eq` returns exactly when every pair of entries at a common index differs by less
than `1e-3`; entries beyond the length of the shorter slice are not looked at.  -/
theorem C50_approx_eq_iff (a b : List ℝ) :
    approxEq a b = ok () ↔
      ∀ i (ha : i < a.length) (hb : i < b.length), |a[i] - b[i]| < 1 / 1000 := by
  induction a generalizing b with
  | nil => simp [approxEq]
  | cons x xs ih =>
    cases b with
    | nil => simp [approxEq]
    | cons y ys =>
      rw [approxEq, assertP_bind, ih]
      constructor
      · rintro ⟨h0, h⟩ i ha hb
        cases i with
        | zero => exact h0
        | succ i => exact h i (by simpa using ha) (by simpa using hb)
      · intro h
        exact ⟨h 0 (by simp) (by simp), fun i ha hb =>
          h (i + 1) (by simpa using ha) (by simpa using hb)⟩

/-- C50. Otherwise it panics (there is no third outcome). -/
theorem C50_approx_eq_panics (a b : List ℝ) (i : ℕ) (ha : i < a.length) (hb : i < b.length)
    (h : 1 / 1000 ≤ |a[i] - b[i]|) : approxEq a b = err .panic := by
  induction a generalizing b i with
  | nil => simp at ha
  | cons x xs ih =>
    cases b with
    | nil => simp at hb
    | cons y ys =>
      rw [approxEq]
      by_cases h0 : |x - y| < 1 / 1000
      · cases i with
        | zero => exact absurd h0 (not_lt.mpr h)
        | succ i =>
          have := ih ys i (by simpa using ha) (by simpa using hb) h
          unfold assertP
          rw [if_pos h0, this]; rfl
      · exact assertP_bind_err _ _ h0

/-- C50. `approx_eq_complex` returns exactly when at every common index the real parts *or* the
imaginary parts are within tolerance. -/
theorem C50_approx_eq_complex_iff (a b : List ℂ) :
    approxEqComplex a b = ok () ↔
      ∀ i (ha : i < a.length) (hb : i < b.length),
        |a[i].re - b[i].re| < 1 / 1000 ∨ |a[i].im - b[i].im| < 1 / 1000 := by
  induction a generalizing b with
  | nil => simp [approxEqComplex]
  | cons x xs ih =>
    cases b with
    | nil => simp [approxEqComplex]
    | cons y ys =>
      rw [approxEqComplex, assertP_bind, ih]
      constructor
      · rintro ⟨h0, h⟩ i ha hb
        cases i with
        | zero => exact h0
        | succ i => exact h i (by simpa using ha) (by simpa using hb)
      · intro h
        exact ⟨h 0 (by simp) (by simp), fun i ha hb =>
          h (i + 1) (by simpa using ha) (by simpa using hb)⟩

/-- C50. `approx_eq_complex` panics otherwise. -/
theorem C50_approx_eq_complex_panics (a b : List ℂ) (i : ℕ) (ha : i < a.length)
    (hb : i < b.length) (hre : 1 / 1000 ≤ |a[i].re - b[i].re|)
    (him : 1 / 1000 ≤ |a[i].im - b[i].im|) : approxEqComplex a b = err .panic := by
  induction a generalizing b i with
  | nil => simp at ha
  | cons x xs ih =>
    cases b with
    | nil => simp at hb
    | cons y ys =>
      rw [approxEqComplex]
      by_cases h0 : |x.re - y.re| < 1 / 1000 ∨ |x.im - y.im| < 1 / 1000
      · cases i with
        | zero =>
          rcases h0 with h0 | h0
          · exact absurd h0 (not_lt.mpr hre)
          · exact absurd h0 (not_lt.mpr him)
        | succ i =>
          have := ih ys i (by simpa using ha) (by simpa using hb) hre him
          unfold assertP
          rw [if_pos h0, this]; rfl
      · exact assertP_bind_err _ _ h0

/-- C50. For arrays the elements are compared in logical order, the shapes are ignored. -/
theorem C50_approx_eq_ndarray_iff (result expected : Arr ℝ) :
    approxEqNdarray result expected = ok () ↔
      ∀ i (h1 : i < expected.data.length) (h2 : i < result.data.length),
        |expected.data[i] - result.data[i]| < 1 / 1000 :=
  C50_approx_eq_iff _ _

/-- C50. Likewise for arrays of complex numbers. -/
theorem C50_approx_eq_complex_ndarray_iff (result expected : Arr ℂ) :
    approxEqComplexNdarray result expected = ok () ↔
      ∀ i (h1 : i < expected.data.length) (h2 : i < result.data.length),
        |expected.data[i].re - result.data[i].re| < 1 / 1000
          ∨ |expected.data[i].im - result.data[i].im| < 1 / 1000 :=
  C50_approx_eq_complex_iff _ _

/-- C50. On slices of equal length `approx_eq` is the documented predicate (distance in the
maximum norm below `1e-3`), it is reflexive and symmetric. -/
theorem C50_approx_eq_symm (a b : List ℝ) :
    approxEq a a = ok () ∧ (approxEq a b = ok () → approxEq b a = ok ()) := by
  refine ⟨(C50_approx_eq_iff a a).mpr (fun i _ _ => by simp), fun h => ?_⟩
  rw [C50_approx_eq_iff] at h ⊢
  intro i hb ha
  rw [abs_sub_comm]
  exact h i ha hb

/-- C50 (documented intent false): vectors of different lengths can be accepted, for any excess
entries. -/
theorem C50_ignores_length (a extra : List ℝ) :
    approxEq a (a ++ extra) = ok () ∧ approxEq (a ++ extra) a = ok () := by
  constructor
  · rw [C50_approx_eq_iff]
    intro i h1 h2
    rw [List.getElem_append_left h1]; simp
  · rw [C50_approx_eq_iff]
    intro i h1 h2
    rw [List.getElem_append_left h2]; simp

/-- C50 (documented intent false): complex vectors whose imaginary parts differ arbitrarily are
accepted as soon as the real parts agree, and conversely. -/
theorem C50_complex_accepts_one_part (x : List ℝ) (f g : ℝ → ℝ) :
    approxEqComplex (x.map fun t => ⟨t, f t⟩) (x.map fun t => ⟨t, g t⟩) = ok () ∧
    approxEqComplex (x.map fun t => ⟨f t, t⟩) (x.map fun t => ⟨g t, t⟩) = ok () := by
  constructor
  · rw [C50_approx_eq_complex_iff]
    intro i h1 h2
    left; simp
  · rw [C50_approx_eq_complex_iff]
    intro i h1 h2
    right; simp

/-- Witnesses: a rejected pair, an accepted pair of different length, and complex numbers at
distance 7 that are accepted. -/
example : approxEq [1, 2] [1, 2.5] = err .panic :=
  C50_approx_eq_panics _ _ 1 (by simp) (by simp) (by norm_num [abs_of_neg])
example : approxEq [1, 2] [1, 2, 100] = ok () := (C50_ignores_length [1, 2] [100]).1
example : approxEqComplex [⟨1, 0⟩] [⟨1, 7⟩] = ok () :=
  (C50_complex_accepts_one_part [1] (fun _ => 0) (fun _ => 7)).1

end Verif.Props
