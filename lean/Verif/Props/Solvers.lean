/-
Property theorems for the banded solvers: C18 (they solve the system), C20 (checked and
unchecked variants agree).
-/
import Verif.Proof.Tdma
import Verif.Proof.Pdma2
import Verif.Proof.Sim
import Verif.Spec.Checked
import Verif.Proof.Banded
import Verif.Proof.Unique
import Mathlib.Algebra.Field.Rat
import Mathlib.Tactic.NormNum

namespace Verif.Props
open Res Spec

section exact
variable {K T : Type} [Field K] [DecidableEq K] [AddCommGroup T] [Module K T]

/-- C18 (diagonals 0, ±2).  For every size `n ≥ 3`, all bands of the right lengths and every
right-hand side, `tdma` never panics and never accesses memory out of bounds: either it meets
a vanishing pivot (division by zero), or it returns `x` of length `n` with `A x = rhs`, and
`x` is the only solution. -/
theorem C18_tdma_solves (l2 d0 u2 : List K) (rhs : List T)
    (hn : 3 ≤ rhs.length) (hl : l2.length = rhs.length - 2) (hd : d0.length = rhs.length)
    (hu : u2.length = rhs.length - 2) :
    tdma l2 d0 u2 rhs = err .div0 ∨
    ∃ x, tdma l2 d0 u2 rhs = ok x ∧ x.length = rhs.length ∧
      Solves rhs.length (triMat (nth l2) (nth d0) (nth u2)) (nth x) (nth rhs) ∧
      ∀ y : ℕ → T, Solves rhs.length (triMat (nth l2) (nth d0) (nth u2)) y (nth rhs) →
        ∀ i < rhs.length, y i = nth x i := by
  have := wp_tdma (Q := fun e => e = .div0) l2 d0 u2 rhs _ hn rfl hl hd hu (fun _ _ _ => rfl)
  rcases wp_div0 this with h | ⟨x, hx, hp, hlen, h1, h2⟩
  · exact Or.inl h
  · have hs := tri_solves _ _ _ _ _ _ hp h1 h2
    refine Or.inr ⟨x, hx, hlen, ?_, ?_⟩
    · intro i hi
      rw [matVec_triMat _ _ _ _ _ _ hi]
      exact hs i hi
    · intro y hy
      refine tri_unique _ _ _ _ _ _ _ hp (fun i hi => ?_) hs
      rw [← matVec_triMat _ _ _ _ _ _ hi]; exact hy i hi

/-- C18 (diagonals 0, ±1, ±2), every size `n ≥ 4`. -/
theorem C18_pdma_solves (l2 l1 d0 u1 u2 : List K) (rhs : List T)
    (hn : 4 ≤ rhs.length) (h2 : l2.length = rhs.length - 2) (h1 : l1.length = rhs.length - 1)
    (hd : d0.length = rhs.length) (hu1 : u1.length = rhs.length - 1)
    (hu2 : u2.length = rhs.length - 2) :
    pdma l2 l1 d0 u1 u2 rhs = err .div0 ∨
    ∃ x, pdma l2 l1 d0 u1 u2 rhs = ok x ∧ x.length = rhs.length ∧
      Solves rhs.length (pentaMat 1 (nth l2) (nth l1) (nth d0) (nth u1) (nth u2))
        (nth x) (nth rhs) ∧
      ∀ y : ℕ → T, Solves rhs.length
        (pentaMat 1 (nth l2) (nth l1) (nth d0) (nth u1) (nth u2)) y (nth rhs) →
        ∀ i < rhs.length, y i = nth x i := by
  have := wp_pdma (Q := fun e => e = .div0) hn rfl h2 h1 hd hu1 hu2 (fun _ _ _ => rfl)
  rcases wp_div0 this with h | ⟨x, hx, hp, hlen, hr⟩
  · exact Or.inl h
  · have hs := penta_solves (by omega) (nth x) _ hp hr
    refine Or.inr ⟨x, hx, hlen, ?_, ?_⟩
    · intro i hi
      rw [matVec_pentaMat _ _ _ _ _ _ _ _ _ hi]
      exact hs i hi
    · intro y hy
      refine penta_unique (by omega) _ _ _ hp (fun i hi => ?_) hs
      rw [← matVec_pentaMat _ _ _ _ _ _ _ _ _ hi]; exact hy i hi

/-- C18 (diagonals 0, ±2, ±4), every size `n ≥ 6`. -/
theorem C18_pdma2_solves (l4 l2 d0 u2 u4 : List K) (rhs : List T)
    (hn : 6 ≤ rhs.length) (h4 : l4.length = rhs.length - 4) (h2 : l2.length = rhs.length - 2)
    (hd : d0.length = rhs.length) (hu2 : u2.length = rhs.length - 2)
    (hu4 : u4.length = rhs.length - 4) :
    pdma2 l4 l2 d0 u2 u4 rhs = err .div0 ∨
    ∃ x, pdma2 l4 l2 d0 u2 u4 rhs = ok x ∧ x.length = rhs.length ∧
      Solves rhs.length (pentaMat 2 (nth l4) (nth l2) (nth d0) (nth u2) (nth u4))
        (nth x) (nth rhs) ∧
      ∀ y : ℕ → T, Solves rhs.length
        (pentaMat 2 (nth l4) (nth l2) (nth d0) (nth u2) (nth u4)) y (nth rhs) →
        ∀ i < rhs.length, y i = nth x i := by
  have := wp_pdma2 (Q := fun e => e = .div0) hn rfl h4 h2 hd hu2 hu4 (fun _ _ _ => rfl)
  rcases wp_div0 this with h | ⟨x, hx, hp, hlen, hr⟩
  · exact Or.inl h
  · have hs := penta_solves (by omega) (nth x) _ hp hr
    refine Or.inr ⟨x, hx, hlen, ?_, ?_⟩
    · intro i hi
      rw [matVec_pentaMat _ _ _ _ _ _ _ _ _ hi]
      exact hs i hi
    · intro y hy
      refine penta_unique (by omega) _ _ _ hp (fun i hi => ?_) hs
      rw [← matVec_pentaMat _ _ _ _ _ _ _ _ _ hi]; exact hy i hi

end exact

/-! In an arbitrary arithmetic, for example floating-point numbers -/

section any
variable {K T : Type} [Zero K] [Sub K] [Mul K] [DivBy K K] [Zero T] [Sub T] [SMul K T] [DivBy K T]

/-- C18: below the minimum size the solvers panic instead of touching memory. -/
theorem C18_too_small_panics (l4 l2 l1 d0 u1 u2 u4 : List K) (rhs : List T) :
    (rhs.length ≤ 2 → tdma l2 d0 u2 rhs = err .panic) ∧
    (rhs.length ≤ 3 → pdma l2 l1 d0 u1 u2 rhs = err .panic) ∧
    (rhs.length ≤ 5 → pdma2 l4 l2 d0 u2 u4 rhs = err .panic) := by
  refine ⟨fun h => ?_, fun h => ?_, fun h => ?_⟩
  · have : assertR (rhs.length > 2) = err .panic := by simp [assertR, h]
    unfold tdma; simp only [this]; rfl
  · have : assertR (rhs.length > 3) = err .panic := by simp [assertR, h]
    unfold pdma; simp only [this]; rfl
  · have : assertR (rhs.length > 5) = err .panic := by simp [assertR, h]
    unfold pdma2; simp only [this]; rfl

/-- C20: on all inputs – bands of any lengths, right-hand sides of any length, numbers of any
arithmetic whose division does not itself go astray – the checked solver does exactly what the
unchecked one does, except that it panics where the unchecked one would access memory out of
bounds. -/
theorem C20_checked_unchecked_agree [DivNoUb K K] [DivNoUb K T]
    (l4 l2 l1 d0 u1 u2 u4 : List K) (rhs : List T) :
    tdmaChecked l2 d0 u2 rhs = boundsChecked (tdma l2 d0 u2 rhs) ∧
    pdmaChecked l2 l1 d0 u1 u2 rhs = boundsChecked (pdma l2 l1 d0 u1 u2 rhs) ∧
    pdma2Checked l4 l2 d0 u2 u4 rhs = boundsChecked (pdma2 l4 l2 d0 u2 u4 rhs) :=
  ⟨sim_tdma l2 d0 u2 rhs, sim_pdma l2 l1 d0 u1 u2 rhs, sim_pdma2 l4 l2 d0 u2 u4 rhs⟩

end any

section exact
variable {K T : Type} [Field K] [DecidableEq K] [AddCommGroup T] [Module K T]

/-- C20: for bands of the lengths the solvers expect, and sizes from the minimum on, the checked and
the unchecked solvers give the same result: the checks never fire, and no access is out of bounds. -/
theorem C20_same_on_sized (l4 l2 l1 d0 u1 u2 u4 : List K) (rhs : List T)
    (h4 : l4.length = rhs.length - 4) (h2 : l2.length = rhs.length - 2)
    (h1 : l1.length = rhs.length - 1) (hd : d0.length = rhs.length)
    (hu1 : u1.length = rhs.length - 1) (hu2 : u2.length = rhs.length - 2)
    (hu4 : u4.length = rhs.length - 4) :
    (3 ≤ rhs.length → tdmaChecked l2 d0 u2 rhs = tdma l2 d0 u2 rhs) ∧
    (4 ≤ rhs.length → pdmaChecked l2 l1 d0 u1 u2 rhs = pdma l2 l1 d0 u1 u2 rhs) ∧
    (6 ≤ rhs.length → pdma2Checked l4 l2 d0 u2 u4 rhs = pdma2 l4 l2 d0 u2 u4 rhs) := by
  obtain ⟨a, b, c⟩ := C20_checked_unchecked_agree l4 l2 l1 d0 u1 u2 u4 rhs
  refine ⟨fun hn => a.trans ?_, fun hn => b.trans ?_, fun hn => c.trans ?_⟩
  · rcases C18_tdma_solves l2 d0 u2 rhs hn h2 hd hu2 with h | ⟨x, h, -⟩ <;> rw [h] <;> rfl
  · rcases C18_pdma_solves l2 l1 d0 u1 u2 rhs hn h2 h1 hd hu1 hu2 with h | ⟨x, h, -⟩ <;> rw [h] <;> rfl
  · rcases C18_pdma2_solves l4 l2 d0 u2 u4 rhs hn h4 h2 hd hu2 hu4 with h | ⟨x, h, -⟩ <;> rw [h] <;> rfl

end exact


-- Non-vacuity: concrete systems meet the hypotheses and are solved.
example : tdma (T := ℚ) ([1, 2] : List ℚ) [2, 3, 4, 5] [1, 1] [3, 4, 9, 9] =
    ok [3/7, 11/13, 15/7, 19/13] := by decide +kernel
example : pdma (T := ℚ) ([1, 1] : List ℚ) [1, 1, 1] [5, 5, 5, 5] [1, 1, 1] [1, 1] [7, 8, 8, 7]
    = ok [1, 1, 1, 1] := by decide +kernel
example : pdma2 (T := ℚ) ([1, 1] : List ℚ) [1, 1, 1, 1] [5, 5, 5, 5, 5, 5] [1, 1, 1, 1] [1, 1]
    [7, 7, 7, 7, 7, 7] = ok [1, 1, 1, 1, 1, 1] := by decide +kernel
example : tdmaChecked (T := ℚ) ([1, 2] : List ℚ) [2, 3, 4, 5] [1, 1] [3, 4, 9, 9] ≠
    err .panic := by decide +kernel
example : tdmaChecked (T := ℚ) ([1] : List ℚ) [2, 3, 4, 5] [1, 1] [3, 4, 9, 9] = err .panic ∧
    tdma (T := ℚ) ([1] : List ℚ) [2, 3, 4, 5] [1, 1] [3, 4, 9, 9] = err .ub := by decide +kernel
example : tdma (T := ℚ) ([1] : List ℚ) [0, 3, 4] [1] [3, 4, 9] = err .div0 := by decide +kernel

end Verif.Props
