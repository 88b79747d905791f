/-
Specification: matrices acting on coefficient vectors.
-/
import Verif.Core.Mat
import Mathlib.Algebra.Field.Basic

namespace Verif.Spec
open Finset
variable {K T : Type} [Field K] [AddCommGroup T] [Module K T]

/-- `M · v` (the vector of length `M.rows`). -/
def mulVec (M : Mat K) (v : List T) : List T :=
  (List.range M.rows).map (fun i => ∑ j ∈ range M.cols, M.get i j • nth v j)

/-- `A · B` -/
def matMul (A B : Mat K) : Mat K :=
  ⟨A.rows, B.cols, fun i j => ∑ k ∈ range A.cols, A.get i k * B.get k j⟩

/-- `M` is the `n × n` identity matrix. -/
def IsIdentity (n : ℕ) (M : Mat K) : Prop :=
  M.rows = n ∧ M.cols = n ∧ ∀ i < n, ∀ j < n, M.get i j = if i = j then 1 else 0

/-- same shape and same entries -/
def SameMat (A B : Mat K) : Prop :=
  A.rows = B.rows ∧ A.cols = B.cols ∧ ∀ i < A.rows, ∀ j < A.cols, A.get i j = B.get i j

/-- rows `k..` of `M` -/
def dropRows (k : ℕ) (M : Mat K) : Mat K := ⟨M.rows - k, M.cols, fun i j => M.get (i + k) j⟩

/-- column `q` of `M` -/
def col (M : Mat K) (q : ℕ) : List K := (List.range M.rows).map (fun i => M.get i q)

@[simp] theorem mulVec_length (M : Mat K) (v : List T) : (mulVec M v).length = M.rows := by
  simp [mulVec]

theorem nth_mulVec (M : Mat K) (v : List T) {i : ℕ} (h : i < M.rows) :
    nth (mulVec M v) i = ∑ j ∈ range M.cols, M.get i j • nth v j := nth_map_range _ _ _ h

end Verif.Spec
