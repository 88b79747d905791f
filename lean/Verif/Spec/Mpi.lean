/-
Specification: distribution of grid points over processes, pencils, communication counts.
-/
import Verif.Spec.Space
import Verif.Core.Usize

namespace Verif.Spec

/-- A grid of `n0 × n1` points and `P ≥ 1` processes, each of which can get a point in both
directions; the extents are not at the limit of `usize`. -/
structure Grid (n0 n1 P : ℕ) : Prop where
  pos : 0 < P
  le0 : P ≤ n0
  le1 : P ≤ n1
  w0 : n0 + 1 < usizeW
  w1 : n1 + 1 < usizeW

/-- The ranges `st r, …, en r` (both included; `sz r` points) of the ranks `r = 0, …, P-1` follow one
another, cover `0, …, n-1`, each point exactly once, and have almost the same size. -/
structure BalancedPartition (n P : ℕ) (st en sz : ℕ → ℕ) : Prop where
  first : st 0 = 0
  next : ∀ r, r + 1 < P → st (r + 1) = en r + 1
  last : en (P - 1) + 1 = n
  size : ∀ r < P, 1 ≤ sz r ∧ st r + sz r = en r + 1
  cover : ∀ k < n, ∃! r, r < P ∧ st r ≤ k ∧ k ≤ en r
  balanced : ∀ r < P, ∀ s < P, sz r ≤ sz s + 1

/-- `p` is the part of `a` that starts at the multi-index `st` and has the shape `sz`. -/
def IsWindow {T : Type} [Zero T] (a : Arr T) (st sz : List ℕ) (p : Arr T) : Prop :=
  Good p sz ∧ ∀ idx, InBounds sz idx → at_ p idx = at_ a (List.zipWith (· + ·) st idx)

/-- Displacements are the running sums of the counts, and the counts are not negative. -/
def RunningSums (counts displs : List ℤ) : Prop :=
  displs.length = counts.length ∧ (∀ c ∈ counts, 0 ≤ c) ∧
  ∀ k < counts.length, nth displs k = (counts.take k).sum

end Verif.Spec
