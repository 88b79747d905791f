/- Lookup of decompositions; windows. -/
import Verif.Proof.DistSmall

namespace Verif
open Res Spec Mpi

section
variable {T : Type} [Zero T] {n0 n1 P r : ℕ}

theorem isWindow_mk2 {s0 s1 c0 c1 : ℕ} (f : ℕ → ℕ → T) {p : Arr T} (g0 : s0 + c0 ≤ n0) (g1 : s1 + c1 ≤ n1) :
    IsWindow (mk2 n0 n1 f) [s0, s1] [c0, c1] p ↔ p = mk2 c0 c1 (fun i j => f (s0 + i) (s1 + j)) := by
  constructor
  · rintro ⟨hG, h⟩
    rw [eq_mk2 hG]
    refine mk2_congr (fun i hi j hj => ?_)
    rw [h [i, j] (.cons hi (.cons hj .nil))]
    exact at_mk2 (i := s0 + i) (j := s1 + j) f (by omega) (by omega)
  · rintro rfl
    refine ⟨good_mk2 _ _ _, fun idx hidx => ?_⟩
    cases hidx with
    | cons hi h' =>
      cases h' with
      | cons hj h'' =>
        cases h''
        rw [at_mk2 _ hi hj]
        exact (at_mk2 (i := s0 + _) (j := s1 + _) f (Nat.lt_of_lt_of_le (Nat.add_lt_add_left hi _) g0)
          (Nat.lt_of_lt_of_le (Nat.add_lt_add_left hj _) g1)).symm

theorem isWindow_x (hr : r < P) (f : ℕ → ℕ → T) {p : Arr T} :
    IsWindow (mk2 n0 n1 f) [0, off n1 P r] [n0, cnt n1 P r] p ↔ p = xPen n0 n1 P r f := by
  rw [isWindow_mk2 f (by omega) (off_cnt_le hr)]
  unfold xPen
  simp only [Nat.zero_add]

theorem isWindow_y (hr : r < P) (f : ℕ → ℕ → T) {p : Arr T} :
    IsWindow (mk2 n0 n1 f) [off n0 P r, 0] [cnt n0 P r, n1] p ↔ p = yPen n0 n1 P r f := by
  rw [isWindow_mk2 f (off_cnt_le hr) (by omega)]
  unfold yPen
  simp only [Nat.zero_add]

theorem partition_off {n P : ℕ} (hP : 0 < P) (hn : P ≤ n) :
    BalancedPartition n P (off n P) (fun r => off n P (r + 1) - 1) (cnt n P) := by
  have hc := cnt_pos hP hn
  have hs := off_succ n P
  refine ⟨off_zero n P, fun r hr => ?_, ?_, fun r hr => ⟨hc r, ?_⟩, fun k hk => ?_, fun r hr s hs => ?_⟩
  · have := hs r; have := hc r; omega
  · have := off_P n hP
    have := hs (P - 1); have := hc (P - 1)
    rw [show P - 1 + 1 = P by omega] at *
    omega
  · have := hs r; have := hc r; omega
  · obtain ⟨r, hr, h1, h2⟩ := off_find hP hk
    refine ⟨r, ⟨hr, h1, ?_⟩, ?_⟩
    · change k ≤ off n P (r + 1) - 1; omega
    · rintro s ⟨hs', h3, h4⟩
      have h4 : k ≤ off n P (s + 1) - 1 := h4
      have := hs s; have := hc s
      exact off_inj h3 (by omega) h1 h2
  · unfold cnt; split <;> split <;> omega

variable {o : Mode} {d : ℕ → Decomp2d}

theorem d_eq (hg : Grid n0 n1 P) (hd : ∀ r < P, Decomp2d.new o P r [n0, n1] = ok (d r)) :
    ∀ r < P, d r = decompOf n0 n1 P r := by
  intro r hr
  have h1 := hd r hr
  rw [Decomp2d.new_ok o hg hr] at h1
  exact (Res.ok.inj h1).symm

/-- the local arrays are smaller than `i32::MAX` elements -/
theorem small_x (hg : Grid n0 n1 P) (hd : ∀ r < P, Decomp2d.new o P r [n0, n1] = ok (d r))
    (hx : ∀ r < P, (d r).getXPencilShape.prod < 2 ^ 31) : ∀ r < P, n0 * cnt n1 P r < 2 ^ 31 := by
  intro r hr
  have := hx r hr
  rw [d_eq hg hd r hr] at this
  have e : (decompOf n0 n1 P r).getXPencilShape.prod = n0 * cnt n1 P r := by
    change [n0, cnt n1 P r].prod = _
    simp
  rwa [e] at this

theorem small_y (hg : Grid n0 n1 P) (hd : ∀ r < P, Decomp2d.new o P r [n0, n1] = ok (d r))
    (hy : ∀ r < P, (d r).getYPencilShape.prod < 2 ^ 31) : ∀ r < P, cnt n0 P r * n1 < 2 ^ 31 := by
  intro r hr
  have := hy r hr
  rw [d_eq hg hd r hr] at this
  have e : (decompOf n0 n1 P r).getYPencilShape.prod = cnt n0 P r * n1 := by
    change [cnt n0 P r, n1].prod = _
    simp
  rwa [e] at this

theorem runningSums_map {c D : ℕ → ℕ} {P : ℕ} (h0 : D 0 = 0) (hD : ∀ s, D (s + 1) = D s + c s) :
    RunningSums ((List.range P).map (fun s => ((c s : ℕ) : ℤ)))
      ((List.range P).map (fun s => ((D s : ℕ) : ℤ))) ∧
    ((List.range P).map (fun s => ((c s : ℕ) : ℤ))).sum = (D P : ℤ) := by
  have key : ∀ k, ((List.range k).map (fun s => ((c s : ℕ) : ℤ))).sum = (D k : ℤ) := by
    intro k
    induction k with
    | zero => simp [h0]
    | succ k ih => rw [List.range_succ, List.map_append, List.sum_append, ih, hD]; simp
  refine ⟨⟨by simp, by simp, fun k hk => ?_⟩, key P⟩
  rw [List.length_map, List.length_range] at hk
  rw [nth_map_range _ _ _ hk, ← List.map_take, List.take_range, min_eq_left hk.le, key]

end

theorem prod_ok_or_panic (o : Mode) (l : List ℕ) : (∃ n, o.prod l = ok n) ∨ o.prod l = err .panic := by
  have key : ∀ (l : List ℕ) (x : Res ℕ), ((∃ n, x = ok n) ∨ x = err .panic) →
      (∃ n, l.foldl (fun acc b => acc >>= fun y => o.mul y b) x = ok n) ∨
        l.foldl (fun acc b => acc >>= fun y => o.mul y b) x = err .panic := by
    intro l
    induction l with
    | nil => exact fun x h => h
    | cons b l ih =>
      intro x h
      refine ih _ ?_
      rcases h with ⟨n, rfl⟩ | rfl
      · change (∃ m, o.mul n b = ok m) ∨ o.mul n b = err .panic
        unfold Mode.mul
        split
        · exact .inl ⟨_, rfl⟩
        · cases o
          · exact .inr rfl
          · exact .inl ⟨_, rfl⟩
      · exact .inr rfl
  cases l with
  | nil => exact .inl ⟨_, rfl⟩
  | cons a l => exact key l _ (.inl ⟨_, rfl⟩)

namespace DecompHandler

theorem lookup_foldl (hist : List Decomp2d) :
    let h := hist.foldl insert new
    (∀ k, (h.decomp k).isSome = true ↔ k < h.keys) ∧
    (∀ s v, h.mapShapeGlobal s = some v → v < h.keys) ∧
    ∀ s, h.getDecomp s = (hist.find? (fun d => d.getGlobalShape = s)).elim (err .panic) ok := by
  induction hist using List.reverseRecOn with
  | nil =>
    refine ⟨fun k => ?_, fun s v hv => ?_, fun s => rfl⟩
    · change (none : Option Decomp2d).isSome = true ↔ k < 0
      simp
    · have : (none : Option ℕ) = some v := hv
      cases this
  | append_singleton hist d ih =>
    rw [List.foldl_append, List.foldl_cons, List.foldl_nil]
    generalize hist.foldl insert new = h at ih
    obtain ⟨h1, h2, h3⟩ := ih
    have hk : (h.decomp h.keys).isSome = false := by
      by_contra hc
      have := (h1 h.keys).1 (by rw [Bool.not_eq_false] at hc; exact hc)
      omega
    have hd : (h.insert d).decomp = Function.update h.decomp h.keys (some d) := by
      unfold insert; dsimp only; cases h.mapShapeGlobal d.getGlobalShape <;> rfl
    have hkeys : (h.insert d).keys = h.keys + 1 := by
      have : (if (h.decomp h.keys).isSome then h.keys else h.keys + 1) = h.keys + 1 := by
        rw [hk]; rfl
      unfold insert; dsimp only; cases h.mapShapeGlobal d.getGlobalShape <;> exact this
    dsimp only
    refine ⟨fun k => ?_, fun s v hv => ?_, fun s => ?_⟩
    · rw [hd, hkeys]
      by_cases hkk : k = h.keys
      · subst hkk; simp
      · rw [Function.update_of_ne hkk, h1 k]; omega
    · rw [hkeys]
      unfold insert at hv
      dsimp only at hv
      cases hm : h.mapShapeGlobal d.getGlobalShape with
      | some w =>
        rw [hm] at hv
        have := h2 s v hv; omega
      | none =>
        rw [hm] at hv
        by_cases hs : s = d.getGlobalShape
        · have hv : Function.update h.mapShapeGlobal d.getGlobalShape (some h.keys) s = some v := hv
          rw [hs, Function.update_self] at hv
          cases hv; omega
        · have hv : Function.update h.mapShapeGlobal d.getGlobalShape (some h.keys) s = some v := hv
          rw [Function.update_of_ne hs] at hv
          have := h2 s v hv; omega
    · rw [List.find?_append]
      have old : ∀ s v, h.mapShapeGlobal s = some v → (h.insert d).mapShapeGlobal s = some v →
          (h.insert d).getDecomp s = h.getDecomp s := by
        intro s v e1 e2
        have hlt := h2 s v e1
        unfold getDecomp
        rw [e1, e2, hd]
        dsimp only
        rw [Function.update_of_ne (by omega)]
      have hfind : ∀ v, h.mapShapeGlobal s = some v →
          ∃ e, hist.find? (fun d => d.getGlobalShape = s) = some e := by
        intro v hv
        have h3s := h3 s
        have := (h1 v).2 (h2 s v hv)
        obtain ⟨e, he⟩ := Option.isSome_iff_exists.1 this
        unfold getDecomp at h3s
        rw [hv] at h3s
        dsimp only at h3s
        rw [he] at h3s
        cases hf : hist.find? (fun d => d.getGlobalShape = s) with
        | some e => exact ⟨e, rfl⟩
        | none => rw [hf] at h3s; cases h3s
      have hnf : h.mapShapeGlobal s = none →
          hist.find? (fun d => d.getGlobalShape = s) = none := by
        intro hv
        have h3s := h3 s
        unfold getDecomp at h3s
        rw [hv] at h3s
        cases hf : hist.find? (fun d => d.getGlobalShape = s) with
        | none => rfl
        | some e => rw [hf] at h3s; cases h3s
      cases hms : h.mapShapeGlobal s with
      | some v =>
        obtain ⟨e, he⟩ := hfind v hms
        have hms' : (h.insert d).mapShapeGlobal s = some v := by
          unfold insert
          dsimp only
          cases hm : h.mapShapeGlobal d.getGlobalShape with
          | some w => exact hms
          | none =>
            have hs : s ≠ d.getGlobalShape := by rintro rfl; rw [hm] at hms; cases hms
            change Function.update h.mapShapeGlobal d.getGlobalShape (some h.keys) s = some v
            rw [Function.update_of_ne hs, hms]
        rw [old s v hms hms', h3 s, he]
        rfl
      | none =>
        rw [hnf hms, Option.none_or]
        by_cases hs : d.getGlobalShape = s
        · subst hs
          have hms' : (h.insert d).mapShapeGlobal d.getGlobalShape = some h.keys := by
            unfold insert
            dsimp only
            rw [hms]
            exact Function.update_self _ _ _
          have : [d].find? (fun e => e.getGlobalShape = d.getGlobalShape) = some d := by simp
          rw [this]
          unfold getDecomp
          rw [hms', hd]
          dsimp only
          rw [Function.update_self]
          rfl
        · have : [d].find? (fun e => e.getGlobalShape = s) = none := by simp [hs]
          rw [this]
          have hms' : (h.insert d).mapShapeGlobal s = none := by
            unfold insert
            dsimp only
            cases hm : h.mapShapeGlobal d.getGlobalShape with
            | some w => exact hms
            | none =>
              change Function.update h.mapShapeGlobal d.getGlobalShape (some h.keys) s = none
              rw [Function.update_of_ne (Ne.symm hs), hms]
          unfold getDecomp
          rw [hms']
          rfl

end DecompHandler
end Verif
