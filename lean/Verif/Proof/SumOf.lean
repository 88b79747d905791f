/-
Linear operators along the axes of sums of products.
-/
import Verif.Proof.Spaces
import Verif.Proof.SpaceGrad
import Verif.Proof.SpaceLaws
import Verif.Spec.Tensor

namespace Verif
open Res Spec Finset

section
variable {R S T : Type} [CommRing R] [AddCommGroup S] [Module R S] [AddCommGroup T] [Module R T]

/-- a linear function of a combination of `N` vectors -/
theorem linear_sumR {n m : ℕ} {g : List S → List T} (hg : IsLinear R n g)
    (hl : ∀ y, y.length = n → (g y).length = m) (c : ℕ → R) (xs : ℕ → List S) {i : ℕ} (hi : i < m) (N : ℕ)
    (hx : ∀ j < N, (xs j).length = n) :
    nth (g ((List.range n).map fun p => ∑ j ∈ range N, c j • nth (xs j) p)) i
      = ∑ j ∈ range N, c j • nth (g (xs j)) i := by
  induction N with
  | zero =>
    have e : ((List.range n).map fun p => ∑ j ∈ range 0, c j • nth (xs j) p) = List.replicate n (0 : S) := by
      simp [List.map_const']
    rw [e, linear_zero hg (x := List.replicate n 0) (by simp) (by rw [hl _ (by simp)]; exact hi)
      (fun y hy => by rw [hl y hy, hl _ (by simp)])]
    simp
  | succ N ih =>
    have e : ((List.range n).map fun p => ∑ j ∈ range (N + 1), c j • nth (xs j) p)
        = linComb R 1 (c N) ((List.range n).map fun p => ∑ j ∈ range N, c j • nth (xs j) p) (xs N) := by
      refine ext_nth (by simp [linComb]) (fun p hp => ?_)
      have hp' : p < n := by simpa using hp
      rw [linComb, nth_map_range _ _ _ hp', nth_map_range _ _ _ (by simpa using hp'),
        nth_map_range _ _ _ hp', Finset.sum_range_succ, one_smul]
    rw [e, hg _ _ _ _ (by simp) (hx N (by omega)), linComb,
      nth_map_range _ _ _ (by rw [hl _ (by simp)]; exact hi), ih (fun j hj => hx j (by omega)),
      Finset.sum_range_succ, one_smul]

/-- one sweep over an axis -/
theorem at_step {n m ax : ℕ} {g : List S → List T} (hg : IsLinear R n g)
    (hl : ∀ y, y.length = n → (g y).length = m) {a : Arr S} {sh : List ℕ} (ha : Good a sh) (hax : ax < sh.length)
    (hn : sh.getD ax 0 = n) {idx : List ℕ} (hidx : InBounds (sh.set ax m) idx) {N : ℕ} (c : ℕ → R)
    (xs : ℕ → List S) (hx : ∀ r < N, (xs r).length = n)
    (h : ∀ p < n, at_ a (idx.set ax p) = ∑ r ∈ range N, c r • nth (xs r) p) :
    at_ (mapAx g m ax a) idx = ∑ r ∈ range N, c r • nth (g (xs r)) (idx.getD ax 0) := by
  rw [at_mapAx ha.2.2 hidx]
  have hi : idx.getD ax 0 < m := by
    have := hidx.get (ax := ax) (by simpa using hax)
    rwa [getD_set_self _ _ hax] at this
  have e : laneAt a ax idx = (List.range n).map fun p => ∑ j ∈ range N, c j • nth (xs j) p := by
    have hs : a.shape.getD ax 0 = n := by rw [ha.2.2]; exact hn
    refine ext_nth (by rw [laneAt_length, hs]; simp) (fun p hp => ?_)
    rw [laneAt_length, hs] at hp
    rw [nth_laneAt _ _ _ (by rw [hs]; exact hp), h p hp, nth_map_range _ _ _ hp]
  rw [e, linear_sumR hg hl c xs hi N hx]

theorem returns_of {f : List S → List T → Res (List T)} {n m : ℕ} {g : List S → List T} (h : Computes f n m g)
    {x : List S} (hx : x.length = n) {y : List T} (hy : Returns f m x y) : y = g x := by
  have h1 := hy (List.replicate m 0) (by simp)
  rw [(h x _ hx (by simp)).1] at h1
  exact (Res.ok.inj h1).symm

end

theorem inB2 {n0 n1 i j : ℕ} (hi : i < n0) (hj : j < n1) : InBounds [n0, n1] [i, j] :=
  .cons hi (.cons hj .nil)

theorem inB3 {n0 n1 n2 i j k : ℕ} (hi : i < n0) (hj : j < n1) (hk : k < n2) : InBounds [n0, n1, n2] [i, j, k] :=
  .cons hi (.cons hj (.cons hk .nil))

section
variable {R S T U : Type} [CommRing R] [AddCommGroup S] [Module R S] [AddCommGroup T] [Module R T]

/-- a sweep over the first axis of two -/
theorem Spec.SumOf2.axis0 {n0 n1 m0 N : ℕ} {g : List S → List T} (hg : IsLinear R n0 g)
    (hl : ∀ y, y.length = n0 → (g y).length = m0) {a : Arr S} (x : ℕ → List S) (c : ℕ → ℕ → R)
    (hx : ∀ r < N, (x r).length = n0) (h : SumOf2 a n0 n1 N fun r i j => c r j • nth (x r) i) :
    SumOf2 (mapAx g m0 0 a) m0 n1 N fun r i j => c r j • nth (g (x r)) i :=
  ⟨good_mapAx g m0 0 h.1.2.2, fun _ hi j hj =>
    at_step hg hl h.1 (by decide : 0 < 2) rfl (inB2 hi hj) (fun r => c r j) x hx fun p hp => h.2 p hp j hj⟩

/-- a sweep over the second axis of two -/
theorem Spec.SumOf2.axis1 {n0 n1 m1 N : ℕ} {g : List S → List T} (hg : IsLinear R n1 g)
    (hl : ∀ y, y.length = n1 → (g y).length = m1) {a : Arr S} (x : ℕ → List S) (c : ℕ → ℕ → R)
    (hx : ∀ r < N, (x r).length = n1) (h : SumOf2 a n0 n1 N fun r i j => c r i • nth (x r) j) :
    SumOf2 (mapAx g m1 1 a) n0 m1 N fun r i j => c r i • nth (g (x r)) j :=
  ⟨good_mapAx g m1 1 h.1.2.2, fun i hi _ hj =>
    at_step hg hl h.1 (by decide : 1 < 2) rfl (inB2 hi hj) (fun r => c r i) x hx fun p hp => h.2 i hi p hp⟩

/-- a sweep over the first axis of three -/
theorem Spec.SumOf3.axis0 {n0 n1 n2 m0 N : ℕ} {g : List S → List T} (hg : IsLinear R n0 g)
    (hl : ∀ y, y.length = n0 → (g y).length = m0) {a : Arr S} (x : ℕ → List S) (c : ℕ → ℕ → ℕ → R)
    (hx : ∀ r < N, (x r).length = n0) (h : SumOf3 a n0 n1 n2 N fun r i j k => c r j k • nth (x r) i) :
    SumOf3 (mapAx g m0 0 a) m0 n1 n2 N fun r i j k => c r j k • nth (g (x r)) i :=
  ⟨good_mapAx g m0 0 h.1.2.2, fun _ hi j hj k hk =>
    at_step hg hl h.1 (by decide : 0 < 3) rfl (inB3 hi hj hk) (fun r => c r j k) x hx fun p hp => h.2 p hp j hj k hk⟩

/-- a sweep over the second axis of three -/
theorem Spec.SumOf3.axis1 {n0 n1 n2 m1 N : ℕ} {g : List S → List T} (hg : IsLinear R n1 g)
    (hl : ∀ y, y.length = n1 → (g y).length = m1) {a : Arr S} (x : ℕ → List S) (c : ℕ → ℕ → ℕ → R)
    (hx : ∀ r < N, (x r).length = n1) (h : SumOf3 a n0 n1 n2 N fun r i j k => c r i k • nth (x r) j) :
    SumOf3 (mapAx g m1 1 a) n0 m1 n2 N fun r i j k => c r i k • nth (g (x r)) j :=
  ⟨good_mapAx g m1 1 h.1.2.2, fun i hi _ hj k hk =>
    at_step hg hl h.1 (by decide : 1 < 3) rfl (inB3 hi hj hk) (fun r => c r i k) x hx fun p hp => h.2 i hi p hp k hk⟩

/-- a sweep over the third axis of three -/
theorem Spec.SumOf3.axis2 {n0 n1 n2 m2 N : ℕ} {g : List S → List T} (hg : IsLinear R n2 g)
    (hl : ∀ y, y.length = n2 → (g y).length = m2) {a : Arr S} (x : ℕ → List S) (c : ℕ → ℕ → ℕ → R)
    (hx : ∀ r < N, (x r).length = n2) (h : SumOf3 a n0 n1 n2 N fun r i j k => c r i j • nth (x r) k) :
    SumOf3 (mapAx g m2 2 a) n0 n1 m2 N fun r i j k => c r i j • nth (g (x r)) k :=
  ⟨good_mapAx g m2 2 h.1.2.2, fun i hi j hj _ hk =>
    at_step hg hl h.1 (by decide : 2 < 3) rfl (inB3 hi hj hk) (fun r => c r i j) x hx fun p hp => h.2 i hi j hj p hp⟩

omit [Module R S] in
theorem Spec.SumOf2.congr {a : Arr S} {n0 n1 N : ℕ} {t t' : ℕ → ℕ → ℕ → S} (h : SumOf2 a n0 n1 N t)
    (e : ∀ r < N, ∀ i < n0, ∀ j < n1, t r i j = t' r i j) : SumOf2 a n0 n1 N t' :=
  ⟨h.1, fun i hi j hj => (h.2 i hi j hj).trans
    (Finset.sum_congr rfl fun r hr => e r (mem_range.mp hr) i hi j hj)⟩

omit [Module R S] in
theorem Spec.SumOf3.congr {a : Arr S} {n0 n1 n2 N : ℕ} {t t' : ℕ → ℕ → ℕ → ℕ → S} (h : SumOf3 a n0 n1 n2 N t)
    (e : ∀ r < N, ∀ i < n0, ∀ j < n1, ∀ k < n2, t r i j k = t' r i j k) : SumOf3 a n0 n1 n2 N t' :=
  ⟨h.1, fun i hi j hj k hk => (h.2 i hi j hj k hk).trans
    (Finset.sum_congr rfl fun r hr => e r (mem_range.mp hr) i hi j hj k hk)⟩

end

end Verif
