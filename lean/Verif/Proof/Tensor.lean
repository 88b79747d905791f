/-
Tensor products of laws of one-dimensional operators.
-/
import Verif.Proof.BaseFns

namespace Verif
open Res Spec Finset

section
variable {T R0 R1 R2 : Type} [AddCommGroup T] [CommRing R0] [CommRing R1] [CommRing R2]
  [Module R0 T] [Module R1 T] [Module R2 T]

/-- law of a linear functional of the lanes -/
def FLaw {R : Type} [CommRing R] [Module R T] (g : List T → List T) (n m : ℕ) (e p : ℕ → R) : Prop :=
  (∀ x, x.length = n → (g x).length = m) ∧
  ∀ x, x.length = n → ∑ k ∈ range m, e k • nth (g x) k = ∑ i ∈ range n, p i • nth x i

theorem FLaw.pick {R : Type} [CommRing R] [Module R T] {g : List T → List T} {n m : ℕ}
    (hl : ∀ x, x.length = n → (g x).length = m) {k : ℕ} (hk : k < m) {p : ℕ → R}
    (h : ∀ x, x.length = n → nth (g x) k = ∑ i ∈ range n, p i • nth x i) :
    FLaw g n m (fun q => if q = k then 1 else 0) p :=
  ⟨hl, fun x hx => by
    rw [Finset.sum_eq_single_of_mem k (Finset.mem_range.mpr hk)
      (fun q _ hq => by simp only [if_neg hq, zero_smul]), ← h x hx]
    simp only [if_true, one_smul]⟩

theorem tensor1 {g0 : List T → List T} {n0 m0 : ℕ} {e0 p0 : ℕ → R0} (h0 : FLaw g0 n0 m0 e0 p0)
    {a : Arr T} (ha : a.shape = [n0]) :
    ∑ k ∈ range m0, e0 k • at_ (mapAx g0 m0 0 a) [k] = ∑ i ∈ range n0, p0 i • at_ a [i] :=
  mapAx_functional h0.1 (fun k x => e0 k • x) (fun i x => p0 i • x) h0.2 ha (by decide : 0 < 1) rfl
    (idx := [0]) (inBounds1 (by omega))

theorem tensor2 [SMulCommClass R0 R1 T] {g0 g1 : List T → List T} {n0 m0 n1 m1 : ℕ}
    {e0 p0 : ℕ → R0} {e1 p1 : ℕ → R1} (h0 : FLaw g0 n0 m0 e0 p0) (h1 : FLaw g1 n1 m1 e1 p1)
    {a : Arr T} (ha : a.shape = [n0, n1]) :
    ∑ k ∈ range m0, ∑ l ∈ range m1, e0 k • e1 l • at_ (mapAx g1 m1 1 (mapAx g0 m0 0 a)) [k, l]
      = ∑ i ∈ range n0, ∑ j ∈ range n1, p0 i • p1 j • at_ a [i, j] := by
  have hu : (mapAx g0 m0 0 a).shape = [m0, n1] := by rw [mapAx_shape, ha]; rfl
  have s1 : ∀ k ∈ range m0, ∑ l ∈ range m1,
      e0 k • e1 l • at_ (mapAx g1 m1 1 (mapAx g0 m0 0 a)) [k, l]
      = ∑ j ∈ range n1, p1 j • e0 k • at_ (mapAx g0 m0 0 a) [k, j] := fun k hk => by
    rw [← Finset.smul_sum]
    have := mapAx_functional h1.1 (fun k x => e1 k • x) (fun i x => p1 i • x) h1.2 hu
      (by decide : 1 < 2) rfl (idx := [k, 0]) (inBounds2 (Finset.mem_range.mp hk) (by omega))
    refine (congrArg (fun x => e0 k • x) this).trans ?_
    rw [Finset.smul_sum]
    exact Finset.sum_congr rfl (fun j _ => smul_comm _ _ _)
  have s2 : ∀ j ∈ range n1, ∑ k ∈ range m0, p1 j • e0 k • at_ (mapAx g0 m0 0 a) [k, j]
      = ∑ i ∈ range n0, p0 i • p1 j • at_ a [i, j] := fun j hj => by
    rw [← Finset.smul_sum]
    have := mapAx_functional h0.1 (fun k x => e0 k • x) (fun i x => p0 i • x) h0.2 ha
      (by decide : 0 < 2) rfl (idx := [0, j]) (inBounds2 (by omega) (Finset.mem_range.mp hj))
    refine (congrArg (fun x => p1 j • x) this).trans ?_
    rw [Finset.smul_sum]
    exact Finset.sum_congr rfl (fun i _ => (smul_comm _ _ _).symm)
  rw [Finset.sum_congr rfl s1, Finset.sum_comm, Finset.sum_congr rfl s2, Finset.sum_comm]

theorem tensor3 [SMulCommClass R0 R1 T] [SMulCommClass R0 R2 T] [SMulCommClass R1 R2 T]
    {g0 g1 g2 : List T → List T} {n0 m0 n1 m1 n2 m2 : ℕ}
    {e0 p0 : ℕ → R0} {e1 p1 : ℕ → R1} {e2 p2 : ℕ → R2} (h0 : FLaw g0 n0 m0 e0 p0)
    (h1 : FLaw g1 n1 m1 e1 p1) (h2 : FLaw g2 n2 m2 e2 p2)
    {a : Arr T} (ha : a.shape = [n0, n1, n2]) :
    ∑ k ∈ range m0, ∑ l ∈ range m1, ∑ q ∈ range m2, e0 k • e1 l • e2 q •
        at_ (mapAx g2 m2 2 (mapAx g1 m1 1 (mapAx g0 m0 0 a))) [k, l, q]
      = ∑ i ∈ range n0, ∑ j ∈ range n1, ∑ t ∈ range n2, p0 i • p1 j • p2 t • at_ a [i, j, t] := by
  haveI := SMulCommClass.symm R0 R1 T
  haveI := SMulCommClass.symm R0 R2 T
  haveI := SMulCommClass.symm R1 R2 T
  have hu : (mapAx g0 m0 0 a).shape = [m0, n1, n2] := by rw [mapAx_shape, ha]; rfl
  have hw : (mapAx g1 m1 1 (mapAx g0 m0 0 a)).shape = [m0, m1, n2] := by rw [mapAx_shape, hu]; rfl
  have s1 : ∀ k ∈ range m0, ∀ l ∈ range m1, ∑ q ∈ range m2, e0 k • e1 l • e2 q •
        at_ (mapAx g2 m2 2 (mapAx g1 m1 1 (mapAx g0 m0 0 a))) [k, l, q]
      = ∑ t ∈ range n2, p2 t • e0 k • e1 l • at_ (mapAx g1 m1 1 (mapAx g0 m0 0 a)) [k, l, t] :=
    fun k hk l hl => by
    rw [← Finset.smul_sum, ← Finset.smul_sum]
    have := mapAx_functional h2.1 (fun k x => e2 k • x) (fun i x => p2 i • x) h2.2 hw
      (by decide : 2 < 3) rfl (idx := [k, l, 0]) (inBounds3 (Finset.mem_range.mp hk)
        (Finset.mem_range.mp hl) (by omega))
    refine (congrArg (fun x => e0 k • e1 l • x) this).trans ?_
    rw [Finset.smul_sum, Finset.smul_sum]
    refine Finset.sum_congr rfl (fun j _ => ?_)
    rw [smul_comm (e1 l) (p2 j), smul_comm (e0 k) (p2 j)]
    rfl
  have s2 : ∀ k ∈ range m0, ∀ t ∈ range n2, ∑ l ∈ range m1,
        p2 t • e0 k • e1 l • at_ (mapAx g1 m1 1 (mapAx g0 m0 0 a)) [k, l, t]
      = ∑ j ∈ range n1, p2 t • p1 j • e0 k • at_ (mapAx g0 m0 0 a) [k, j, t] := fun k hk t ht => by
    rw [← Finset.smul_sum, ← Finset.smul_sum]
    have := mapAx_functional h1.1 (fun k x => e1 k • x) (fun i x => p1 i • x) h1.2 hu
      (by decide : 1 < 3) rfl (idx := [k, 0, t]) (inBounds3 (Finset.mem_range.mp hk)
        (by omega) (Finset.mem_range.mp ht))
    refine (congrArg (fun x => p2 t • e0 k • x) this).trans ?_
    rw [Finset.smul_sum, Finset.smul_sum]
    refine Finset.sum_congr rfl (fun j _ => ?_)
    rw [smul_comm (e0 k) (p1 j)]
    rfl
  have s3 : ∀ j ∈ range n1, ∀ t ∈ range n2, ∑ k ∈ range m0,
        p2 t • p1 j • e0 k • at_ (mapAx g0 m0 0 a) [k, j, t]
      = ∑ i ∈ range n0, p0 i • p1 j • p2 t • at_ a [i, j, t] := fun j hj t ht => by
    rw [← Finset.smul_sum, ← Finset.smul_sum]
    have := mapAx_functional h0.1 (fun k x => e0 k • x) (fun i x => p0 i • x) h0.2 ha
      (by decide : 0 < 3) rfl (idx := [0, j, t]) (inBounds3 (by omega) (Finset.mem_range.mp hj)
        (Finset.mem_range.mp ht))
    refine (congrArg (fun x => p2 t • p1 j • x) this).trans ?_
    rw [Finset.smul_sum, Finset.smul_sum]
    refine Finset.sum_congr rfl (fun i _ => ?_)
    rw [smul_comm (p1 j) (p0 i), smul_comm (p2 t) (p0 i), smul_comm (p2 t) (p1 j)]
    rfl
  calc _ = ∑ k ∈ range m0, ∑ l ∈ range m1, ∑ t ∈ range n2,
        p2 t • e0 k • e1 l • at_ (mapAx g1 m1 1 (mapAx g0 m0 0 a)) [k, l, t] :=
        Finset.sum_congr rfl (fun k hk => Finset.sum_congr rfl (fun l hl => s1 k hk l hl))
    _ = ∑ k ∈ range m0, ∑ t ∈ range n2, ∑ l ∈ range m1,
        p2 t • e0 k • e1 l • at_ (mapAx g1 m1 1 (mapAx g0 m0 0 a)) [k, l, t] :=
        Finset.sum_congr rfl (fun k _ => Finset.sum_comm)
    _ = ∑ k ∈ range m0, ∑ t ∈ range n2, ∑ j ∈ range n1,
        p2 t • p1 j • e0 k • at_ (mapAx g0 m0 0 a) [k, j, t] :=
        Finset.sum_congr rfl (fun k hk => Finset.sum_congr rfl (fun t ht => s2 k hk t ht))
    _ = ∑ k ∈ range m0, ∑ j ∈ range n1, ∑ t ∈ range n2,
        p2 t • p1 j • e0 k • at_ (mapAx g0 m0 0 a) [k, j, t] :=
        Finset.sum_congr rfl (fun k _ => Finset.sum_comm)
    _ = ∑ j ∈ range n1, ∑ k ∈ range m0, ∑ t ∈ range n2,
        p2 t • p1 j • e0 k • at_ (mapAx g0 m0 0 a) [k, j, t] := Finset.sum_comm
    _ = ∑ j ∈ range n1, ∑ t ∈ range n2, ∑ k ∈ range m0,
        p2 t • p1 j • e0 k • at_ (mapAx g0 m0 0 a) [k, j, t] :=
        Finset.sum_congr rfl (fun j _ => Finset.sum_comm)
    _ = ∑ j ∈ range n1, ∑ t ∈ range n2, ∑ i ∈ range n0, p0 i • p1 j • p2 t • at_ a [i, j, t] :=
        Finset.sum_congr rfl (fun j hj => Finset.sum_congr rfl (fun t ht => s3 j hj t ht))
    _ = ∑ j ∈ range n1, ∑ i ∈ range n0, ∑ t ∈ range n2, p0 i • p1 j • p2 t • at_ a [i, j, t] :=
        Finset.sum_congr rfl (fun j _ => Finset.sum_comm)
    _ = _ := Finset.sum_comm

end

end Verif
