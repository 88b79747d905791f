/- The distributed space. -/
import Verif.Proof.Handler
import Verif.Proof.SpaceGrad
import Verif.Spec.SpaceMpi

namespace Verif
open Res Spec Mpi

/-! ### lane maps of planes -/
section
variable {S T : Type} [Zero S] [Zero T]

/-- `g` along axis 0 -/
def map0 (g : List S → List T) (n0 : ℕ) (f : ℕ → ℕ → S) : ℕ → ℕ → T :=
  fun i j => nth (g ((List.range n0).map (fun k => f k j))) i
/-- `g` along axis 1 -/
def map1 (g : List S → List T) (n1 : ℕ) (f : ℕ → ℕ → S) : ℕ → ℕ → T :=
  fun i j => nth (g ((List.range n1).map (fun k => f i k))) j

theorem mapAx0_mk2 (g : List S → List T) (m n0 n1 : ℕ) (f : ℕ → ℕ → S) :
    mapAx g m 0 (mk2 n0 n1 f) = mk2 m n1 (map0 g n0 f) := by
  have hG : Good (mapAx g m 0 (mk2 n0 n1 f)) [m, n1] := good_mapAx g m 0 (sh := [n0, n1]) rfl
  rw [eq_mk2 hG]
  refine mk2_congr (fun i hi j hj => ?_)
  refine (at_mapAx (ax := 0) (m := m) (sh := [n0, n1]) rfl (inBounds2 hi hj)).trans ?_
  unfold map0
  congr 2
  refine ext_nth (by simp [laneAt, mk2]) (fun k hk => ?_)
  have hk' : k < n0 := by simpa [laneAt, mk2] using hk
  rw [nth_laneAt _ _ _ (show k < (mk2 n0 n1 f).shape.getD 0 0 from hk'), nth_map_range _ _ _ hk']
  exact at_mk2 f hk' hj

theorem mapAx1_mk2 (g : List S → List T) (m n0 n1 : ℕ) (f : ℕ → ℕ → S) :
    mapAx g m 1 (mk2 n0 n1 f) = mk2 n0 m (map1 g n1 f) := by
  have hG : Good (mapAx g m 1 (mk2 n0 n1 f)) [n0, m] := good_mapAx g m 1 (sh := [n0, n1]) rfl
  rw [eq_mk2 hG]
  refine mk2_congr (fun i hi j hj => ?_)
  refine (at_mapAx (ax := 1) (m := m) (sh := [n0, n1]) rfl (inBounds2 hi hj)).trans ?_
  unfold map1
  congr 2
  refine ext_nth (by simp [laneAt, mk2]) (fun k hk => ?_)
  have hk' : k < n1 := by simpa [laneAt, mk2] using hk
  rw [nth_laneAt _ _ _ (show k < (mk2 n0 n1 f).shape.getD 1 0 from hk'), nth_map_range _ _ _ hk']
  exact at_mk2 f hi hk'

theorem mapAx0_xPen (g : List S → List T) (m n0 n1 P r : ℕ) (f : ℕ → ℕ → S) :
    mapAx g m 0 (xPen n0 n1 P r f) = xPen m n1 P r (map0 g n0 f) := by
  unfold xPen; rw [mapAx0_mk2]; rfl

theorem mapAx1_yPen (g : List S → List T) (m n0 n1 P r : ℕ) (f : ℕ → ℕ → S) :
    mapAx g m 1 (yPen n0 n1 P r f) = yPen n0 m P r (map1 g n1 f) := by
  unfold yPen; rw [mapAx1_mk2]; rfl

theorem good_xPen (n0 n1 P r : ℕ) (f : ℕ → ℕ → S) : Good (xPen n0 n1 P r f) [n0, cnt n1 P r] :=
  good_mk2 _ _ _
theorem good_yPen (n0 n1 P r : ℕ) (f : ℕ → ℕ → S) : Good (yPen n0 n1 P r f) [cnt n0 P r, n1] :=
  good_mk2 _ _ _

end

/-! ### lookups -/

section
variable {P I S T A : Type} {o : Mode} {N : ℕ} {b0 : Base I S T A} {b1 : Base P I T A}
  {sp : ℕ → Space2Mpi P I S T A}

theorem Spec.Splits.grid {N n0 n1 : ℕ} (hN : 0 < N) (h0 : Splits N n0) (h1 : Splits N n1) :
    Grid n0 n1 N := ⟨hN, h0.1, h1.1, h0.2, h1.2⟩

/-- the decompositions inserted by the constructor -/
def histOf (N r p0 s0 p1 s1 : ℕ) : List Decomp2d :=
  [decompOf p0 p1 N r] ++ (if s0 ≠ p0 then [decompOf s0 p1 N r] else [])
    ++ (if s1 ≠ p1 then [decompOf p0 s1 N r] else [])
    ++ (if s0 ≠ p0 ∧ s1 ≠ p1 then [decompOf s0 s1 N r] else [])

theorem Space2Mpi.new_ok {r : ℕ} (hr : r < N) (hN : 0 < N) (p0 : Splits N b0.lenPhys)
    (s0 : Splits N b0.lenSpec) (p1 : Splits N b1.lenPhys) (s1 : Splits N b1.lenSpec) :
    Space2Mpi.new o N r b0 b1 = ok ⟨⟨b0, b1⟩,
      (histOf N r b0.lenPhys b0.lenSpec b1.lenPhys b1.lenSpec).foldl DecompHandler.insert
        DecompHandler.new, N, r⟩ := by
  unfold Space2Mpi.new histOf
  rw [Decomp2d.new_ok o (Splits.grid hN p0 p1) hr, Decomp2d.new_ok o (Splits.grid hN s0 p1) hr,
    Decomp2d.new_ok o (Splits.grid hN p0 s1) hr, Decomp2d.new_ok o (Splits.grid hN s0 s1) hr]
  by_cases h0 : b0.lenSpec ≠ b0.lenPhys <;> by_cases h1 : b1.lenSpec ≠ b1.lenPhys <;>
    simp only [h0, h1, if_true, if_false, and_self, and_true, and_false, not_false_eq_true, ne_eq,
      not_true_eq_false, bind_ok, List.foldl_cons,
      List.foldl_nil, List.append_nil, List.foldl_append] <;> rfl

theorem mem_histOf {N r p0 s0 p1 s1 : ℕ} {d : Decomp2d} :
    d ∈ histOf N r p0 s0 p1 s1 ↔ ∃ n0 n1, (n0 = p0 ∨ n0 = s0) ∧ (n1 = p1 ∨ n1 = s1) ∧
      d = decompOf n0 n1 N r := by
  unfold histOf
  constructor
  · intro h
    rcases List.mem_append.1 h with h | h
    · rcases List.mem_append.1 h with h | h
      · rcases List.mem_append.1 h with h | h
        · exact ⟨p0, p1, .inl rfl, .inl rfl, List.mem_singleton.1 h⟩
        · by_cases hc : s0 ≠ p0
          · rw [if_pos hc] at h; exact ⟨s0, p1, .inr rfl, .inl rfl, List.mem_singleton.1 h⟩
          · rw [if_neg hc] at h; cases h
      · by_cases hc : s1 ≠ p1
        · rw [if_pos hc] at h; exact ⟨p0, s1, .inl rfl, .inr rfl, List.mem_singleton.1 h⟩
        · rw [if_neg hc] at h; cases h
    · by_cases hc : s0 ≠ p0 ∧ s1 ≠ p1
      · rw [if_pos hc] at h; exact ⟨s0, s1, .inr rfl, .inr rfl, List.mem_singleton.1 h⟩
      · rw [if_neg hc] at h; cases h
  · rintro ⟨n0, n1, h0, h1, rfl⟩
    by_cases c0 : s0 = p0 <;> by_cases c1 : s1 = p1 <;> rcases h0 with rfl | rfl <;>
      rcases h1 with rfl | rfl <;> simp [*]

theorem lookup_hist {N r p0 s0 p1 s1 : ℕ} (shape : List ℕ) (d : Decomp2d) :
    ((histOf N r p0 s0 p1 s1).foldl DecompHandler.insert DecompHandler.new).getDecomp shape = ok d ↔
      ∃ n0 n1, (n0 = p0 ∨ n0 = s0) ∧ (n1 = p1 ∨ n1 = s1) ∧ shape = [n0, n1] ∧
        d = decompOf n0 n1 N r := by
  have key := (DecompHandler.lookup_foldl (histOf N r p0 s0 p1 s1)).2.2 shape
  rw [key]
  cases hf : (histOf N r p0 s0 p1 s1).find? (fun d => d.getGlobalShape = shape) with
  | none =>
    have hn : ∀ e ∈ histOf N r p0 s0 p1 s1, e.getGlobalShape ≠ shape := by simpa using hf
    constructor
    · intro h; cases h
    · rintro ⟨n0, n1, h0, h1, rfl, rfl⟩
      exact absurd rfl (hn _ (mem_histOf.2 ⟨n0, n1, h0, h1, rfl⟩))
  | some e =>
    have h1 : e.getGlobalShape = shape := by simpa using List.find?_some hf
    obtain ⟨m0, m1, g0, g1, he⟩ := mem_histOf.1 (List.mem_of_find?_eq_some hf)
    have hs : shape = [m0, m1] := by rw [← h1, he]; rfl
    constructor
    · intro h
      have : e = d := Res.ok.inj h
      exact ⟨m0, m1, g0, g1, hs, by rw [← this, he]⟩
    · rintro ⟨n0, n1, -, -, h3, rfl⟩
      rw [hs] at h3
      obtain ⟨rfl, rfl⟩ : m0 = n0 ∧ m1 = n1 := by simpa using h3
      change ok e = _
      rw [he]

namespace Spec.Distributed
variable (h : Distributed o N b0 b1 sp)
include h

theorem sp_eq {r : ℕ} (hr : r < N) : sp r = ⟨⟨b0, b1⟩,
      (histOf N r b0.lenPhys b0.lenSpec b1.lenPhys b1.lenSpec).foldl DecompHandler.insert
        DecompHandler.new, N, r⟩ := by
  have := h.made r hr
  rw [Space2Mpi.new_ok hr h.pos h.phys0 h.spec0 h.phys1 h.spec1] at this
  exact (Res.ok.inj this).symm

theorem space_eq {r : ℕ} (hr : r < N) : (sp r).space = ⟨b0, b1⟩ := by rw [h.sp_eq hr]

theorem lookup_iff {r : ℕ} (hr : r < N) (shape : List ℕ) (d : Decomp2d) :
    (sp r).getDecomp shape = ok d ↔
      ∃ n0 n1, (n0 = b0.lenPhys ∨ n0 = b0.lenSpec) ∧ (n1 = b1.lenPhys ∨ n1 = b1.lenSpec) ∧
        shape = [n0, n1] ∧ d = decompOf n0 n1 N r := by
  rw [h.sp_eq hr]; exact lookup_hist shape d

theorem lookup {r : ℕ} (hr : r < N) {n0 n1 : ℕ} (h0 : n0 = b0.lenPhys ∨ n0 = b0.lenSpec)
    (h1 : n1 = b1.lenPhys ∨ n1 = b1.lenSpec) :
    (sp r).getDecomp [n0, n1] = ok (decompOf n0 n1 N r) :=
  (h.lookup_iff hr _ _).2 ⟨n0, n1, h0, h1, rfl, rfl⟩

theorem grid {n0 n1 : ℕ} (h0 : n0 = b0.lenPhys ∨ n0 = b0.lenSpec)
    (h1 : n1 = b1.lenPhys ∨ n1 = b1.lenSpec) : Grid n0 n1 N := by
  refine Splits.grid h.pos ?_ ?_
  · rcases h0 with rfl | rfl
    · exact h.phys0
    · exact h.spec0
  · rcases h1 with rfl | rfl
    · exact h.phys1
    · exact h.spec1

theorem small' {n0 n1 : ℕ} (h0 : n0 = b0.lenPhys ∨ n0 = b0.lenSpec)
    (h1 : n1 = b1.lenPhys ∨ n1 = b1.lenSpec) :
    (∀ r < N, n0 * cnt n1 N r < 2 ^ 31) ∧ ∀ r < N, cnt n0 N r * n1 < 2 ^ 31 := by
  have hd : ∀ r < N, Decomp2d.new o N r [n0, n1] = ok (decompOf n0 n1 N r) :=
    fun r hr => Decomp2d.new_ok o (h.grid h0 h1) hr
  have key := fun r hr => h.small r hr [n0, n1] _ (h.lookup hr h0 h1)
  exact ⟨small_x (h.grid h0 h1) hd (fun r hr => (key r hr).1),
    small_y (h.grid h0 h1) hd (fun r hr => (key r hr).2)⟩

theorem xPencil_iff {U : Type} [Zero U] {r : ℕ} (hr : r < N) {n0 n1 : ℕ}
    (h0 : n0 = b0.lenPhys ∨ n0 = b0.lenSpec) (h1 : n1 = b1.lenPhys ∨ n1 = b1.lenSpec)
    (f : ℕ → ℕ → U) (p : Arr U) : XPencil (sp r) (mk2 n0 n1 f) p ↔ p = xPen n0 n1 N r f := by
  rw [← isWindow_x hr]
  constructor
  · rintro ⟨d, hd, hw⟩
    rw [show (mk2 n0 n1 f).shape = [n0, n1] from rfl, h.lookup hr h0 h1] at hd
    rw [← Res.ok.inj hd] at hw
    exact hw
  · intro hw
    exact ⟨_, h.lookup hr h0 h1, hw⟩

theorem yPencil_iff {U : Type} [Zero U] {r : ℕ} (hr : r < N) {n0 n1 : ℕ}
    (h0 : n0 = b0.lenPhys ∨ n0 = b0.lenSpec) (h1 : n1 = b1.lenPhys ∨ n1 = b1.lenSpec)
    (f : ℕ → ℕ → U) (p : Arr U) : YPencil (sp r) (mk2 n0 n1 f) p ↔ p = yPen n0 n1 N r f := by
  rw [← isWindow_y hr]
  constructor
  · rintro ⟨d, hd, hw⟩
    rw [show (mk2 n0 n1 f).shape = [n0, n1] from rfl, h.lookup hr h0 h1] at hd
    rw [← Res.ok.inj hd] at hw
    exact hw
  · intro hw
    exact ⟨_, h.lookup hr h0 h1, hw⟩

theorem xShaped_iff {U : Type} [Zero U] {r : ℕ} (hr : r < N) {n0 n1 : ℕ}
    (h0 : n0 = b0.lenPhys ∨ n0 = b0.lenSpec) (h1 : n1 = b1.lenPhys ∨ n1 = b1.lenSpec)
    (p : Arr U) : XShaped (sp r) [n0, n1] p ↔ Good p [n0, cnt n1 N r] := by
  constructor
  · rintro ⟨d, hd, hw⟩
    rw [h.lookup hr h0 h1] at hd
    rw [← Res.ok.inj hd] at hw
    exact hw
  · intro hw
    exact ⟨_, h.lookup hr h0 h1, hw⟩

theorem yShaped_iff {U : Type} [Zero U] {r : ℕ} (hr : r < N) {n0 n1 : ℕ}
    (h0 : n0 = b0.lenPhys ∨ n0 = b0.lenSpec) (h1 : n1 = b1.lenPhys ∨ n1 = b1.lenSpec)
    (p : Arr U) : YShaped (sp r) [n0, n1] p ↔ Good p [cnt n0 N r, n1] := by
  constructor
  · rintro ⟨d, hd, hw⟩
    rw [h.lookup hr h0 h1] at hd
    rw [← Res.ok.inj hd] at hw
    exact hw
  · intro hw
    exact ⟨_, h.lookup hr h0 h1, hw⟩

end Spec.Distributed
end

/-! ### runs -/

section
variable {P I S T A : Type} [Zero P] [Zero I] [Zero S] [Zero T] {o : Mode} {N : ℕ} {b0 : Base I S T A}
  {b1 : Base P I T A} {sp : ℕ → Space2Mpi P I S T A} (h : Distributed o N b0 b1 sp)

theorem Runs.res {α U : Type} {P : ℕ} {x : ℕ → Res α} {a : ℕ → α} (hx : ∀ r < P, x r = ok (a r)) :
    Mpi.Runs P (fun r => (liftM (x r) : Prog U α)) a :=
  .done (fun r hr => by rw [hx r hr]; rfl)

include h in
theorem forward_runs {φ0 : List I → List S} {φ1 : List P → List I}
    (h0 : Computes b0.forwardSlice b0.lenPhys b0.lenSpec φ0)
    (h1 : Computes b1.forwardSlice b1.lenPhys b1.lenSpec φ1) (f : ℕ → ℕ → P) :
    Mpi.Runs N (fun r => (sp r).forwardMpi o (yPen b0.lenPhys b1.lenPhys N r f))
      (fun r => xPen b0.lenSpec b1.lenSpec N r (map0 φ0 b0.lenPhys (map1 φ1 b1.lenPhys f))) := by
  unfold Space2Mpi.forwardMpi
  refine Mpi.Runs.lift (a := fun r => yPen b0.lenPhys b1.lenSpec N r (map1 φ1 b1.lenPhys f))
    (fun r hr => ?_) ?_
  · rw [h.space_eq hr, ← mapAx1_yPen]
    exact alloc_good h1 (good_yPen _ _ _ _ _) (by decide : 1 < 2) rfl
  refine Mpi.Runs.lift (a := fun r => decompOf b0.lenPhys b1.lenSpec N r) (fun r hr => ?_) ?_
  · rw [h.space_eq hr]; exact h.lookup hr (.inl rfl) (.inr rfl)
  have hs := h.small' (n0 := b0.lenPhys) (n1 := b1.lenSpec) (.inl rfl) (.inr rfl)
  refine Mpi.Runs.bind (q := fun r b => (liftM ((sp r).space.base0.forward b 0) : Prog I (Arr S)))
    (transposeYX_runs o (h.grid (.inl rfl) (.inr rfl)) hs.1 hs.2 _ _ (fun r hr => good_zeros _)) ?_
  refine Runs.res (fun r hr => ?_)
  rw [h.space_eq hr, ← mapAx0_xPen]
  exact alloc_good h0 (good_xPen _ _ _ _ _) (by decide : 0 < 2) rfl

include h in
theorem forwardInplace_runs {φ0 : List I → List S} {φ1 : List P → List I}
    (h0 : Computes b0.forwardSlice b0.lenPhys b0.lenSpec φ0)
    (h1 : Computes b1.forwardSlice b1.lenPhys b1.lenSpec φ1) (f : ℕ → ℕ → P) (out : ℕ → Arr S)
    (hout : ∀ r < N, Good (out r) [b0.lenSpec, cnt b1.lenSpec N r]) :
    Mpi.Runs N (fun r => (sp r).forwardInplaceMpi o (yPen b0.lenPhys b1.lenPhys N r f) (out r))
      (fun r => xPen b0.lenSpec b1.lenSpec N r (map0 φ0 b0.lenPhys (map1 φ1 b1.lenPhys f))) := by
  unfold Space2Mpi.forwardInplaceMpi
  refine Mpi.Runs.lift (a := fun r => yPen b0.lenPhys b1.lenSpec N r (map1 φ1 b1.lenPhys f))
    (fun r hr => ?_) ?_
  · rw [h.space_eq hr, ← mapAx1_yPen]
    exact alloc_good h1 (good_yPen _ _ _ _ _) (by decide : 1 < 2) rfl
  refine Mpi.Runs.lift (a := fun r => decompOf b0.lenPhys b1.lenSpec N r) (fun r hr => ?_) ?_
  · rw [h.space_eq hr]; exact h.lookup hr (.inl rfl) (.inr rfl)
  have hs := h.small' (n0 := b0.lenPhys) (n1 := b1.lenSpec) (.inl rfl) (.inr rfl)
  refine Mpi.Runs.bind
    (q := fun r b => (liftM ((sp r).space.base0.forwardInplace b (out r) 0) : Prog I (Arr S)))
    (transposeYX_runs o (h.grid (.inl rfl) (.inr rfl)) hs.1 hs.2 _ _ (fun r hr => good_zeros _)) ?_
  refine Runs.res (fun r hr => ?_)
  rw [h.space_eq hr, ← mapAx0_xPen]
  exact inplace_good h0 (good_xPen _ _ _ _ _) (hout r hr) (by decide : 0 < 2) rfl rfl

include h in
theorem backward_runs {β0 : List S → List I} {β1 : List I → List P}
    (h0 : Computes b0.backwardSlice b0.lenSpec b0.lenPhys β0)
    (h1 : Computes b1.backwardSlice b1.lenSpec b1.lenPhys β1) (f : ℕ → ℕ → S) :
    Mpi.Runs N (fun r => (sp r).backwardMpi o (xPen b0.lenSpec b1.lenSpec N r f))
      (fun r => yPen b0.lenPhys b1.lenPhys N r (map1 β1 b1.lenSpec (map0 β0 b0.lenSpec f))) := by
  unfold Space2Mpi.backwardMpi
  refine Mpi.Runs.lift (a := fun r => xPen b0.lenPhys b1.lenSpec N r (map0 β0 b0.lenSpec f))
    (fun r hr => ?_) ?_
  · rw [h.space_eq hr, ← mapAx0_xPen]
    exact alloc_good h0 (good_xPen _ _ _ _ _) (by decide : 0 < 2) rfl
  refine Mpi.Runs.lift (a := fun r => decompOf b0.lenPhys b1.lenSpec N r) (fun r hr => ?_) ?_
  · rw [h.space_eq hr]; exact h.lookup hr (.inl rfl) (.inr rfl)
  have hs := h.small' (n0 := b0.lenPhys) (n1 := b1.lenSpec) (.inl rfl) (.inr rfl)
  refine Mpi.Runs.bind (q := fun r b => (liftM ((sp r).space.base1.backward b 1) : Prog I (Arr P)))
    (transposeXY_runs o (h.grid (.inl rfl) (.inr rfl)) hs.1 hs.2 _ _ (fun r hr => good_zeros _)) ?_
  refine Runs.res (fun r hr => ?_)
  rw [h.space_eq hr, ← mapAx1_yPen]
  exact alloc_good h1 (good_yPen _ _ _ _ _) (by decide : 1 < 2) rfl

include h in
theorem backwardInplace_runs {β0 : List S → List I} {β1 : List I → List P}
    (h0 : Computes b0.backwardSlice b0.lenSpec b0.lenPhys β0)
    (h1 : Computes b1.backwardSlice b1.lenSpec b1.lenPhys β1) (f : ℕ → ℕ → S) (out : ℕ → Arr P)
    (hout : ∀ r < N, Good (out r) [cnt b0.lenPhys N r, b1.lenPhys]) :
    Mpi.Runs N (fun r => (sp r).backwardInplaceMpi o (xPen b0.lenSpec b1.lenSpec N r f) (out r))
      (fun r => yPen b0.lenPhys b1.lenPhys N r (map1 β1 b1.lenSpec (map0 β0 b0.lenSpec f))) := by
  unfold Space2Mpi.backwardInplaceMpi
  refine Mpi.Runs.lift (a := fun r => xPen b0.lenPhys b1.lenSpec N r (map0 β0 b0.lenSpec f))
    (fun r hr => ?_) ?_
  · rw [h.space_eq hr, ← mapAx0_xPen]
    exact alloc_good h0 (good_xPen _ _ _ _ _) (by decide : 0 < 2) rfl
  refine Mpi.Runs.lift (a := fun r => decompOf b0.lenPhys b1.lenSpec N r) (fun r hr => ?_) ?_
  · rw [h.space_eq hr]; exact h.lookup hr (.inl rfl) (.inr rfl)
  have hs := h.small' (n0 := b0.lenPhys) (n1 := b1.lenSpec) (.inl rfl) (.inr rfl)
  refine Mpi.Runs.bind
    (q := fun r b => (liftM ((sp r).space.base1.backwardInplace b (out r) 1) : Prog I (Arr P)))
    (transposeXY_runs o (h.grid (.inl rfl) (.inr rfl)) hs.1 hs.2 _ _ (fun r hr => good_zeros _)) ?_
  refine Runs.res (fun r hr => ?_)
  rw [h.space_eq hr, ← mapAx1_yPen]
  exact inplace_good h1 (good_yPen _ _ _ _ _) (hout r hr) (by decide : 1 < 2) rfl rfl

include h in
theorem toOrthoWork_runs {g0 g1 : List T → List T}
    (h0 : Computes b0.toOrthoSlice b0.lenSpec b0.lenOrth g0)
    (h1 : Computes b1.toOrthoSlice b1.lenSpec b1.lenOrth g1) (f : ℕ → ℕ → T) :
    Mpi.Runs N (fun r => (sp r).toOrthoWork o (xPen b0.lenSpec b1.lenSpec N r f))
      (fun r => yPen b0.lenOrth b1.lenOrth N r (map1 g1 b1.lenSpec (map0 g0 b0.lenSpec f))) := by
  unfold Space2Mpi.toOrthoWork
  refine Mpi.Runs.lift (a := fun r => decompOf b0.lenOrth b1.lenSpec N r) (fun r hr => ?_) ?_
  · rw [h.space_eq hr]; exact h.lookup hr h.orth0 (.inr rfl)
  refine Mpi.Runs.lift (a := fun r => xPen b0.lenOrth b1.lenSpec N r (map0 g0 b0.lenSpec f))
    (fun r hr => ?_) ?_
  · rw [h.space_eq hr, ← mapAx0_xPen]
    exact alloc_good h0 (good_xPen _ _ _ _ _) (by decide : 0 < 2) rfl
  have hs := h.small' (n0 := b0.lenOrth) (n1 := b1.lenSpec) h.orth0 (.inr rfl)
  refine Mpi.Runs.bind (q := fun r b => (liftM ((sp r).space.base1.toOrtho b 1) : Prog T (Arr T)))
    (transposeXY_runs o (h.grid h.orth0 (.inr rfl)) hs.1 hs.2 _ _ (fun r hr => good_zeros _)) ?_
  refine Runs.res (fun r hr => ?_)
  rw [h.space_eq hr, ← mapAx1_yPen]
  exact alloc_good h1 (good_yPen _ _ _ _ _) (by decide : 1 < 2) rfl

include h in
theorem toOrtho_runs {g0 g1 : List T → List T}
    (h0 : Computes b0.toOrthoSlice b0.lenSpec b0.lenOrth g0)
    (h1 : Computes b1.toOrthoSlice b1.lenSpec b1.lenOrth g1) (f : ℕ → ℕ → T) :
    Mpi.Runs N (fun r => (sp r).toOrthoMpi o (xPen b0.lenSpec b1.lenSpec N r f))
      (fun r => xPen b0.lenOrth b1.lenOrth N r (map1 g1 b1.lenSpec (map0 g0 b0.lenSpec f))) := by
  unfold Space2Mpi.toOrthoMpi
  refine Mpi.Runs.bind (q := fun r work => do
      let dcp ← (liftM ((sp r).getDecomp [(sp r).space.base0.lenOrth, (sp r).space.base1.lenOrth]) : Prog T _)
      dcp.transposeYToX o work (Arr.zeros dcp.xPencil.sz)) (toOrthoWork_runs h h0 h1 f) ?_
  refine Mpi.Runs.lift (a := fun r => decompOf b0.lenOrth b1.lenOrth N r) (fun r hr => ?_) ?_
  · rw [h.space_eq hr]; exact h.lookup hr h.orth0 h.orth1
  have hs := h.small' (n0 := b0.lenOrth) (n1 := b1.lenOrth) h.orth0 h.orth1
  exact transposeYX_runs o (h.grid h.orth0 h.orth1) hs.1 hs.2 _ _ (fun r hr => good_zeros _)

include h in
theorem toOrthoInplace_runs {g0 g1 : List T → List T}
    (h0 : Computes b0.toOrthoSlice b0.lenSpec b0.lenOrth g0)
    (h1 : Computes b1.toOrthoSlice b1.lenSpec b1.lenOrth g1) (f : ℕ → ℕ → T)
    (out : ℕ → Arr T) (hout : ∀ r < N, Good (out r) [b0.lenOrth, cnt b1.lenOrth N r]) :
    Mpi.Runs N (fun r => (sp r).toOrthoInplaceMpi o (xPen b0.lenSpec b1.lenSpec N r f) (out r))
      (fun r => xPen b0.lenOrth b1.lenOrth N r (map1 g1 b1.lenSpec (map0 g0 b0.lenSpec f))) := by
  unfold Space2Mpi.toOrthoInplaceMpi
  refine Mpi.Runs.bind (q := fun r work => do
      let dcp ← (liftM ((sp r).getDecomp [(sp r).space.base0.lenOrth, (sp r).space.base1.lenOrth]) : Prog T _)
      dcp.transposeYToX o work (out r)) (toOrthoWork_runs h h0 h1 f) ?_
  refine Mpi.Runs.lift (a := fun r => decompOf b0.lenOrth b1.lenOrth N r) (fun r hr => ?_) ?_
  · rw [h.space_eq hr]; exact h.lookup hr h.orth0 h.orth1
  have hs := h.small' (n0 := b0.lenOrth) (n1 := b1.lenOrth) h.orth0 h.orth1
  exact transposeYX_runs o (h.grid h.orth0 h.orth1) hs.1 hs.2 _ _ hout

include h in
theorem fromOrthoWork_runs {g0 g1 : List T → List T}
    (h0 : Computes b0.fromOrthoSlice b0.lenOrth b0.lenSpec g0)
    (h1 : Computes b1.fromOrthoSlice b1.lenOrth b1.lenSpec g1) (f : ℕ → ℕ → T) :
    Mpi.Runs N (fun r => (sp r).fromOrthoWork o (xPen b0.lenOrth b1.lenOrth N r f))
      (fun r => yPen b0.lenSpec b1.lenSpec N r (map1 g1 b1.lenOrth (map0 g0 b0.lenOrth f))) := by
  unfold Space2Mpi.fromOrthoWork
  refine Mpi.Runs.lift (a := fun r => decompOf b0.lenSpec b1.lenOrth N r) (fun r hr => ?_) ?_
  · rw [h.space_eq hr]; exact h.lookup hr (.inr rfl) h.orth1
  refine Mpi.Runs.lift (a := fun r => xPen b0.lenSpec b1.lenOrth N r (map0 g0 b0.lenOrth f))
    (fun r hr => ?_) ?_
  · rw [h.space_eq hr, ← mapAx0_xPen]
    exact alloc_good h0 (good_xPen _ _ _ _ _) (by decide : 0 < 2) rfl
  have hs := h.small' (n0 := b0.lenSpec) (n1 := b1.lenOrth) (.inr rfl) h.orth1
  refine Mpi.Runs.bind (q := fun r b => (liftM ((sp r).space.base1.fromOrtho b 1) : Prog T (Arr T)))
    (transposeXY_runs o (h.grid (.inr rfl) h.orth1) hs.1 hs.2 _ _ (fun r hr => good_zeros _)) ?_
  refine Runs.res (fun r hr => ?_)
  rw [h.space_eq hr, ← mapAx1_yPen]
  exact alloc_good h1 (good_yPen _ _ _ _ _) (by decide : 1 < 2) rfl

include h in
theorem fromOrtho_runs {g0 g1 : List T → List T}
    (h0 : Computes b0.fromOrthoSlice b0.lenOrth b0.lenSpec g0)
    (h1 : Computes b1.fromOrthoSlice b1.lenOrth b1.lenSpec g1) (f : ℕ → ℕ → T) :
    Mpi.Runs N (fun r => (sp r).fromOrthoMpi o (xPen b0.lenOrth b1.lenOrth N r f))
      (fun r => xPen b0.lenSpec b1.lenSpec N r (map1 g1 b1.lenOrth (map0 g0 b0.lenOrth f))) := by
  unfold Space2Mpi.fromOrthoMpi
  refine Mpi.Runs.bind (q := fun r work => do
      let dcp ← (liftM ((sp r).getDecomp [(sp r).space.base0.lenSpec, (sp r).space.base1.lenSpec]) : Prog T _)
      dcp.transposeYToX o work (Arr.zeros dcp.xPencil.sz)) (fromOrthoWork_runs h h0 h1 f) ?_
  refine Mpi.Runs.lift (a := fun r => decompOf b0.lenSpec b1.lenSpec N r) (fun r hr => ?_) ?_
  · rw [h.space_eq hr]; exact h.lookup hr (.inr rfl) (.inr rfl)
  have hs := h.small' (n0 := b0.lenSpec) (n1 := b1.lenSpec) (.inr rfl) (.inr rfl)
  exact transposeYX_runs o (h.grid (.inr rfl) (.inr rfl)) hs.1 hs.2 _ _ (fun r hr => good_zeros _)

include h in
theorem fromOrthoInplace_runs {g0 g1 : List T → List T}
    (h0 : Computes b0.fromOrthoSlice b0.lenOrth b0.lenSpec g0)
    (h1 : Computes b1.fromOrthoSlice b1.lenOrth b1.lenSpec g1) (f : ℕ → ℕ → T)
    (out : ℕ → Arr T) (hout : ∀ r < N, Good (out r) [b0.lenSpec, cnt b1.lenSpec N r]) :
    Mpi.Runs N (fun r => (sp r).fromOrthoInplaceMpi o (xPen b0.lenOrth b1.lenOrth N r f) (out r))
      (fun r => xPen b0.lenSpec b1.lenSpec N r (map1 g1 b1.lenOrth (map0 g0 b0.lenOrth f))) := by
  unfold Space2Mpi.fromOrthoInplaceMpi
  refine Mpi.Runs.bind (q := fun r work => do
      let dcp ← (liftM ((sp r).getDecomp [(sp r).space.base0.lenSpec, (sp r).space.base1.lenSpec]) : Prog T _)
      dcp.transposeYToX o work (out r)) (fromOrthoWork_runs h h0 h1 f) ?_
  refine Mpi.Runs.lift (a := fun r => decompOf b0.lenSpec b1.lenSpec N r) (fun r hr => ?_) ?_
  · rw [h.space_eq hr]; exact h.lookup hr (.inr rfl) (.inr rfl)
  have hs := h.small' (n0 := b0.lenSpec) (n1 := b1.lenSpec) (.inr rfl) (.inr rfl)
  exact transposeYX_runs o (h.grid (.inr rfl) (.inr rfl)) hs.1 hs.2 _ _ hout

end

/-! ### division of the elements -/

theorem mapR_inv {X : Type} {f : X → Res X} : ∀ {l l' : List X}, mapR f l = ok l' →
    ∃ g : X → X, (∀ x ∈ l, f x = ok (g x)) ∧ l' = l.map g := by
  intro l l' h
  refine ⟨fun x => match f x with | ok y => y | err _ => x, ?_⟩
  induction l generalizing l' with
  | nil => exact ⟨fun _ hx => (List.not_mem_nil hx).elim, (Res.ok.inj h).symm⟩
  | cons x l ih =>
    unfold mapR at h
    cases hx : f x with
    | err e => rw [hx] at h; cases h
    | ok y =>
      cases hl : mapR f l with
      | err e => rw [hx, bind_ok, hl] at h; cases h
      | ok ys =>
        rw [hx, bind_ok, hl, bind_ok] at h
        obtain ⟨i1, i2⟩ := ih hl
        refine ⟨fun z hz => ?_, ?_⟩
        · rcases List.mem_cons.1 hz with rfl | hz
          · simp only [hx]
          · exact i1 z hz
        · rw [← Res.ok.inj h, i2, List.map_cons, hx]

section
variable {P I S T A : Type} [Zero P] [Zero I] [Zero S] [Zero T] [Mul A] [Powi A] [DivBy A T] {o : Mode} {N : ℕ}
  {b0 : Base I S T A} {b1 : Base P I T A} {sp : ℕ → Space2Mpi P I S T A} (h : Distributed o N b0 b1 sp)

theorem mem_mk2 {n0 n1 : ℕ} {f : ℕ → ℕ → T} {x : T} (hx : x ∈ (mk2 n0 n1 f).data) :
    ∃ i < n0, ∃ j < n1, x = f i j := by
  unfold mk2 at hx
  obtain ⟨k, hk, rfl⟩ := List.mem_map.1 hx
  have hk := List.mem_range.1 hk
  have h1 : 0 < n1 := by
    rcases Nat.eq_zero_or_pos n1 with h | h
    · rw [h] at hk; omega
    · exact h
  exact ⟨k / n1, (Nat.div_lt_iff_lt_mul h1).2 hk, k % n1, Nat.mod_lt _ h1, rfl⟩

theorem mk2_mem {n0 n1 : ℕ} (f : ℕ → ℕ → T) {i j : ℕ} (hi : i < n0) (hj : j < n1) :
    f i j ∈ (mk2 n0 n1 f).data := by
  have hl : (mk2 n0 n1 f).data.length = n0 * n1 := by simp [mk2]
  rw [← nth_mk2 f hi hj]
  unfold nth
  rw [List.getD_eq_getElem?_getD, List.getElem?_eq_getElem (by rw [hl]; exact idx2_lt hi hj)]
  exact List.getElem_mem _

theorem divAll_mk2 {n0 n1 : ℕ} {f : ℕ → ℕ → T} {c : A} {k : T → T}
    (hk : ∀ i < n0, ∀ j < n1, divR (f i j) c = ok (k (f i j))) :
    divAll c (mk2 n0 n1 f) = ok (mk2 n0 n1 (fun i j => k (f i j))) := by
  unfold divAll
  rw [mapR_ok (g := k) _ (fun x hx => by
    obtain ⟨i, hi, j, hj, rfl⟩ := mem_mk2 hx
    exact hk i hi j hj)]
  unfold mk2
  simp only [List.map_map, bind_ok]
  rfl

theorem divAll_mk2_inv {n0 n1 : ℕ} {f : ℕ → ℕ → T} {c : A} {B : Arr T} (hB : divAll c (mk2 n0 n1 f) = ok B) :
    ∃ k : T → T, (∀ i < n0, ∀ j < n1, divR (f i j) c = ok (k (f i j))) ∧
      B = mk2 n0 n1 (fun i j => k (f i j)) := by
  have hB' := hB
  unfold divAll at hB
  cases hm : mapR (fun x => divR x c) (mk2 n0 n1 f).data with
  | err e => rw [hm] at hB; cases hB
  | ok l =>
    obtain ⟨k, h1, -⟩ := mapR_inv hm
    have h1' : ∀ i < n0, ∀ j < n1, divR (f i j) c = ok (k (f i j)) :=
      fun i hi j hj => h1 _ (mk2_mem f hi hj)
    refine ⟨k, h1', ?_⟩
    rw [divAll_mk2 h1'] at hB'
    exact (Res.ok.inj hB').symm

/-- what `gradient` does to the entries `F` for the given scale -/
def ScaleOk (d0 d1 : ℕ) (scale : Option (A × A)) (n0 n1 : ℕ) (F : ℕ → ℕ → T) (k : T → T) : Prop :=
  (scale = none ∧ k = id) ∨ ∃ c0 c1 p0 p1, scale = some (c0, c1) ∧ powi c0 (toI32 d0) = ok p0 ∧
    powi c1 (toI32 d1) = ok p1 ∧ ∀ i < n0, ∀ j < n1, divR (F i j) (p0 * p1) = ok (k (F i j))

include h in
theorem gradient_runs {d0 d1 : ℕ} {g0 g1 : List T → List T}
    (h0 : Computes (fun v out => b0.gradientSlice v out d0) b0.lenSpec b0.lenOrth g0)
    (h1 : Computes (fun v out => b1.gradientSlice v out d1) b1.lenSpec b1.lenOrth g1)
    (f : ℕ → ℕ → T) {scale : Option (A × A)} {k : T → T}
    (hk : ScaleOk d0 d1 scale b0.lenOrth b1.lenOrth (map1 g1 b1.lenSpec (map0 g0 b0.lenSpec f)) k) :
    Mpi.Runs N (fun r => (sp r).gradientMpi o (xPen b0.lenSpec b1.lenSpec N r f) d0 d1 scale)
      (fun r => xPen b0.lenOrth b1.lenOrth N r (fun i j => k
        (map1 g1 b1.lenSpec (map0 g0 b0.lenSpec f) i j))) := by
  unfold Space2Mpi.gradientMpi
  refine Mpi.Runs.lift (a := fun r => decompOf b0.lenOrth b1.lenSpec N r) (fun r hr => ?_) ?_
  · rw [h.space_eq hr]; exact h.lookup hr h.orth0 (.inr rfl)
  refine Mpi.Runs.lift (a := fun r => xPen b0.lenOrth b1.lenSpec N r (map0 g0 b0.lenSpec f))
    (fun r hr => ?_) ?_
  · rw [h.space_eq hr, ← mapAx0_xPen]
    exact alloc_good h0 (good_xPen _ _ _ _ _) (by decide : 0 < 2) rfl
  have hs := h.small' (n0 := b0.lenOrth) (n1 := b1.lenSpec) h.orth0 (.inr rfl)
  refine Mpi.Runs.bind (q := fun r b => _)
    (transposeXY_runs o (h.grid h.orth0 (.inr rfl)) hs.1 hs.2 _ _ (fun r hr => good_zeros _)) ?_
  refine Mpi.Runs.lift (a := fun r => yPen b0.lenOrth b1.lenOrth N r
      (map1 g1 b1.lenSpec (map0 g0 b0.lenSpec f))) (fun r hr => ?_) ?_
  · rw [h.space_eq hr, ← mapAx1_yPen]
    exact alloc_good h1 (good_yPen _ _ _ _ _) (by decide : 1 < 2) rfl
  refine Mpi.Runs.lift (a := fun r => decompOf b0.lenOrth b1.lenOrth N r) (fun r hr => ?_) ?_
  · rw [h.space_eq hr]; exact h.lookup hr h.orth0 h.orth1
  have ht := h.small' (n0 := b0.lenOrth) (n1 := b1.lenOrth) h.orth0 h.orth1
  refine Mpi.Runs.bind (q := fun r b => _)
    (transposeYX_runs o (h.grid h.orth0 h.orth1) ht.1 ht.2 _ _ (fun r hr => good_zeros _)) ?_
  rcases hk with ⟨rfl, rfl⟩ | ⟨c0, c1, p0, p1, rfl, e0, e1, hne⟩
  · exact Mpi.Runs.pure _
  · dsimp only
    refine Mpi.Runs.lift (fun r hr => e0) ?_
    refine Mpi.Runs.lift (fun r hr => e1) ?_
    refine Runs.res (fun r hr => ?_)
    have := off_cnt_le (n := b1.lenOrth) hr
    exact divAll_mk2 (fun i hi j hj => hne i hi _ (by omega))

/-- if the serial gradient of an array returns, every division returned -/
theorem scaleOk_of_serial {d0 d1 : ℕ} {g0 g1 : List T → List T}
    (h0 : Computes (fun v out => b0.gradientSlice v out d0) b0.lenSpec b0.lenOrth g0)
    (h1 : Computes (fun v out => b1.gradientSlice v out d1) b1.lenSpec b1.lenOrth g1)
    {f : ℕ → ℕ → T} {B : Arr T} {scale : Option (A × A)}
    (hB : (⟨b0, b1⟩ : Space2 P I S T A).gradient (mk2 b0.lenSpec b1.lenSpec f) d0 d1 scale = ok B) :
    ∃ k, ScaleOk d0 d1 scale b0.lenOrth b1.lenOrth (map1 g1 b1.lenSpec (map0 g0 b0.lenSpec f)) k ∧
      B = mk2 b0.lenOrth b1.lenOrth (fun i j => k (map1 g1 b1.lenSpec (map0 g0 b0.lenSpec f) i j)) := by
  unfold Space2.gradient at hB
  have e0 := alloc_good h0 (good_mk2 b0.lenSpec b1.lenSpec f) (by decide : 0 < 2) rfl
  rw [show b0.gradient _ d0 0 = _ from e0, bind_ok, mapAx0_mk2] at hB
  have e1 := alloc_good h1 (good_mk2 b0.lenOrth b1.lenSpec (map0 g0 b0.lenSpec f)) (by decide : 1 < 2) rfl
  rw [show b1.gradient _ d1 1 = _ from e1, bind_ok, mapAx1_mk2] at hB
  cases scale with
  | none => exact ⟨id, .inl ⟨rfl, rfl⟩, (Res.ok.inj hB).symm⟩
  | some c =>
    obtain ⟨c0, c1⟩ := c
    dsimp only at hB
    cases p0 : powi c0 (toI32 d0) with
    | err e => rw [p0] at hB; cases hB
    | ok q0 =>
      cases p1 : powi c1 (toI32 d1) with
      | err e => rw [p0, bind_ok, p1] at hB; cases hB
      | ok q1 =>
        rw [p0, bind_ok, p1, bind_ok] at hB
        obtain ⟨k, hk, rfl⟩ := divAll_mk2_inv hB
        exact ⟨k, .inr ⟨c0, c1, q0, q1, rfl, p0, p1, hk⟩, rfl⟩

end
/-! ### the constructor in general -/

theorem Decomp2d.new_shape {o : Mode} {N r : ℕ} {shape : List ℕ} {d : Decomp2d}
    (h : Decomp2d.new o N r shape = ok d) : d.getGlobalShape = shape := by
  unfold Decomp2d.new at h
  cases hx : Dist.new o shape N r 0 with
  | err e => rw [hx] at h; cases h
  | ok x =>
    cases hy : Dist.new o shape N r 1 with
    | err e => rw [hx, bind_ok, hy] at h; cases h
    | ok y =>
      rw [hx, bind_ok, hy, bind_ok] at h
      rw [← Res.ok.inj h]; rfl

section
variable {P I S T A : Type} {o : Mode} {N : ℕ} {b0 : Base I S T A} {b1 : Base P I T A}

/-- one conditional insertion of the constructor -/
theorem insert_step {c : Prop} [Decidable c] {r : ℕ} {shape : List ℕ} {hist : List Decomp2d}
    {β : Type} {k : DecompHandler → Res β} {y : β}
    (h : ((if c then (do
        let d ← Decomp2d.new o N r shape
        pure ((hist.foldl DecompHandler.insert DecompHandler.new).insert d))
      else pure (hist.foldl DecompHandler.insert DecompHandler.new)) >>= k) = ok y) :
    ∃ l, (∀ d, d ∈ l ↔ c ∧ Decomp2d.new o N r shape = ok d) ∧ (c → l ≠ []) ∧
      k ((hist ++ l).foldl DecompHandler.insert DecompHandler.new) = ok y := by
  by_cases hc : c
  · rw [if_pos hc] at h
    cases hd : Decomp2d.new o N r shape with
    | err e => rw [hd] at h; cases h
    | ok d =>
      rw [hd, bind_ok] at h
      refine ⟨[d], fun e => ?_, fun _ => by simp, ?_⟩
      · rw [List.mem_singleton]
        exact ⟨fun he => ⟨hc, by rw [he]⟩, fun he => (Res.ok.inj he.2).symm⟩
      · rw [List.foldl_append]; exact h
  · rw [if_neg hc] at h
    exact ⟨[], fun e => ⟨fun he => (by cases he), fun he => absurd he.1 hc⟩, fun he => absurd he hc,
      by rw [List.append_nil]; exact h⟩

theorem Space2Mpi.new_hist' {r : ℕ} {sp : Space2Mpi P I S T A} (h : Space2Mpi.new o N r b0 b1 = ok sp) :
    sp.space = ⟨b0, b1⟩ ∧ (∀ n0 n1, (n0 = b0.lenPhys ∨ n0 = b0.lenSpec) →
        (n1 = b1.lenPhys ∨ n1 = b1.lenSpec) → ∃ d, Decomp2d.new o N r [n0, n1] = ok d) ∧
    ∃ hist : List Decomp2d, sp.decompHandler = hist.foldl DecompHandler.insert DecompHandler.new ∧
      ∀ d, d ∈ hist ↔ ∃ n0 n1, (n0 = b0.lenPhys ∨ n0 = b0.lenSpec) ∧
        (n1 = b1.lenPhys ∨ n1 = b1.lenSpec) ∧ Decomp2d.new o N r [n0, n1] = ok d := by
  unfold Space2Mpi.new at h
  dsimp only at h
  cases h0 : Decomp2d.new o N r [b0.lenPhys, b1.lenPhys] with
  | err e => rw [h0] at h; cases h
  | ok d0 =>
    rw [h0, bind_ok] at h
    obtain ⟨l1, m1, e1, h⟩ := insert_step (hist := [d0]) h
    obtain ⟨l2, m2, e2, h⟩ := insert_step h
    obtain ⟨l3, m3, e3, h⟩ := insert_step h
    have h := Res.ok.inj h
    have mem : ∀ d, d ∈ [d0] ++ l1 ++ l2 ++ l3 ↔ ∃ n0 n1, (n0 = b0.lenPhys ∨ n0 = b0.lenSpec) ∧
        (n1 = b1.lenPhys ∨ n1 = b1.lenSpec) ∧ Decomp2d.new o N r [n0, n1] = ok d := by
      intro d
      rw [List.mem_append, List.mem_append, List.mem_append, List.mem_singleton, m1, m2, m3]
      constructor
      · rintro (((rfl | h) | h) | h)
        · exact ⟨_, _, .inl rfl, .inl rfl, h0⟩
        · exact ⟨_, _, .inr rfl, .inl rfl, h.2⟩
        · exact ⟨_, _, .inl rfl, .inr rfl, h.2⟩
        · exact ⟨_, _, .inr rfl, .inr rfl, h.2⟩
      · rintro ⟨n0, n1, g0, g1, hd⟩
        by_cases c0 : n0 = b0.lenPhys <;> by_cases c1 : n1 = b1.lenPhys
        · rw [c0, c1, h0] at hd; exact .inl (.inl (.inl (Res.ok.inj hd).symm))
        · have e := g1.resolve_left c1
          rw [c0, e] at hd; exact .inl (.inr ⟨fun hc => c1 (e.trans hc), hd⟩)
        · have e := g0.resolve_left c0
          rw [c1, e] at hd; exact .inl (.inl (.inr ⟨fun hc => c0 (e.trans hc), hd⟩))
        · have e := g0.resolve_left c0
          have e' := g1.resolve_left c1
          rw [e, e'] at hd; exact .inr ⟨⟨fun hc => c0 (e.trans hc), fun hc => c1 (e'.trans hc)⟩, hd⟩
    refine ⟨by rw [← h], fun n0 n1 g0 g1 => ?_, _, by rw [← h], mem⟩
    have ex : ∀ {c : Prop} {l : List Decomp2d} {s : List ℕ},
        (∀ d, d ∈ l ↔ c ∧ Decomp2d.new o N r s = ok d) → (c → l ≠ []) → c →
        ∃ d, Decomp2d.new o N r s = ok d := by
      intro c l s m e hc
      obtain ⟨d, hd⟩ := List.exists_mem_of_ne_nil _ (e hc)
      exact ⟨d, ((m d).1 hd).2⟩
    by_cases c0 : n0 = b0.lenPhys <;> by_cases c1 : n1 = b1.lenPhys
    · rw [c0, c1]; exact ⟨_, h0⟩
    · have e := g1.resolve_left c1
      rw [c0, e]; exact ex m2 e2 (fun hc => c1 (e.trans hc))
    · have e := g0.resolve_left c0
      rw [c1, e]; exact ex m1 e1 (fun hc => c0 (e.trans hc))
    · have e := g0.resolve_left c0
      have e' := g1.resolve_left c1
      rw [e, e']; exact ex m3 e3 ⟨fun hc => c0 (e.trans hc), fun hc => c1 (e'.trans hc)⟩

theorem Space2Mpi.new_hist {r : ℕ} {sp : Space2Mpi P I S T A} (h : Space2Mpi.new o N r b0 b1 = ok sp) :
    sp.space = ⟨b0, b1⟩ ∧
    ∃ hist : List Decomp2d, sp.decompHandler = hist.foldl DecompHandler.insert DecompHandler.new ∧
      ∀ d, d ∈ hist ↔ ∃ n0 n1, (n0 = b0.lenPhys ∨ n0 = b0.lenSpec) ∧
        (n1 = b1.lenPhys ∨ n1 = b1.lenSpec) ∧ Decomp2d.new o N r [n0, n1] = ok d :=
  ⟨(Space2Mpi.new_hist' h).1, (Space2Mpi.new_hist' h).2.2⟩

theorem Space2Mpi.new_made {r : ℕ} {sp : Space2Mpi P I S T A} (h : Space2Mpi.new o N r b0 b1 = ok sp)
    {n0 n1 : ℕ} (g0 : n0 = b0.lenPhys ∨ n0 = b0.lenSpec) (g1 : n1 = b1.lenPhys ∨ n1 = b1.lenSpec) :
    ∃ d, Decomp2d.new o N r [n0, n1] = ok d := (Space2Mpi.new_hist' h).2.1 n0 n1 g0 g1

end

/-! ### pencils of equal arrays -/

section
variable {T : Type} [Zero T] {n0 n1 N r : ℕ} {F G : ℕ → ℕ → T}

theorem mk2_inj (h : mk2 n0 n1 F = mk2 n0 n1 G) {i j : ℕ} (hi : i < n0) (hj : j < n1) :
    F i j = G i j := by
  have : at_ (mk2 n0 n1 F) [i, j] = at_ (mk2 n0 n1 G) [i, j] := by rw [h]
  rwa [at_mk2 _ hi hj, at_mk2 _ hi hj] at this

theorem xPen_congr (hr : r < N) (h : mk2 n0 n1 F = mk2 n0 n1 G) : xPen n0 n1 N r F = xPen n0 n1 N r G := by
  have := off_cnt_le (n := n1) hr
  exact mk2_congr (fun i hi j hj => mk2_inj h hi (by omega))

theorem yPen_congr (hr : r < N) (h : mk2 n0 n1 F = mk2 n0 n1 G) : yPen n0 n1 N r F = yPen n0 n1 N r G := by
  have := off_cnt_le (n := n0) hr
  exact mk2_congr (fun i hi j hj => mk2_inj h (by omega) hj)

end

end Verif
