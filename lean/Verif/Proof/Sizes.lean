/-
Below the minimum sizes: which failure, and where.
-/
import Verif.Proof.BaseLaws

namespace Verif
open Res

section
variable {K T : Type} [Field K] [DecidableEq K] [AddCommGroup T] [Module K T]

theorem err_of_wp {α : Type} {e : Err} {r : Res α} (H : wp (fun x => x = e) r (fun _ => False)) :
    r = err e := by
  cases hx : r with
  | ok a => rw [hx] at H; exact H.elim
  | err e' => rw [hx] at H; rw [show e' = e from H]

theorem tdma_small (l2 d0 u2 : List K) (rhs : List T) (h : rhs.length ≤ 2) :
    tdma l2 d0 u2 rhs = err .panic := by
  have : assertR (rhs.length > 2) = err .panic := by simp [assertR, h]
  unfold tdma; simp only [this]; rfl

theorem pdma_small (l2 l1 d0 u1 u2 : List K) (rhs : List T) (h : rhs.length ≤ 3) :
    pdma l2 l1 d0 u1 u2 rhs = err .panic := by
  have : assertR (rhs.length > 3) = err .panic := by simp [assertR, h]
  unfold pdma; simp only [this]; rfl

theorem pdma2_small (l4 l2 d0 u2 u4 : List K) (rhs : List T) (h : rhs.length ≤ 5) :
    pdma2 l4 l2 d0 u2 u4 rhs = err .panic := by
  have : assertR (rhs.length > 5) = err .panic := by simp [assertR, h]
  unfold pdma2; simp only [this]; rfl

/-! ### the projection -/

theorem Stencil2.solve_small {s : Stencil2 K} {m : ℕ} {d l : ℕ → K} (hs : s.Wf m d l) (hm : m ≤ 2)
    (u v : List T) (hu : u.length = m + 2) (hv : v.length = m) : s.solve u v = err .panic := by
  apply err_of_wp
  unfold solve
  rw [hs.diag, hs.low2, hv]
  wprun
  refine wp_forRange (fun _ w => w.length = m) hv ?_ ?_
  · rintro i w - hi hw
    wprun
    simpa using hw
  · intro w hw
    rw [tdma_small _ _ _ _ (by omega)]
    rfl

theorem Stencil3.solve_small {s : Stencil3 K} {m : ℕ} {d l h : ℕ → K} (hs : s.Wf m d l h)
    (hm : m ≤ 3) (u v : List T) (hu : u.length = m + 2) (hv : v.length = m) :
    s.solve u v = err .panic := by
  apply err_of_wp
  unfold solve
  rw [hs.diag, hs.low2, hs.low1, hv]
  wprun
  refine wp_forRange (fun _ w => w.length = m) hv ?_ ?_
  · rintro i w - hi hw
    wprun
    simpa using hw
  · intro w hw
    rw [pdma_small _ _ _ _ _ _ (by omega)]
    rfl

theorem Stencil4.solve_small {s : Stencil4 K} {m : ℕ} {d l h : ℕ → K} (hs : s.Wf m d l h)
    (hm : m ≤ 5) (u v : List T) (hu : u.length = m + 4) (hv : v.length = m) :
    s.solve u v = err .panic := by
  apply err_of_wp
  unfold solve
  rw [hs.diag, hs.low2, hs.low4, hv]
  wprun
  refine wp_forRange (fun _ w => w.length = m) hv ?_ ?_
  · rintro i w - hi hw
    wprun
    simpa using hw
  · intro w hw
    rw [pdma2_small _ _ _ _ _ _ (by omega)]
    rfl

/-- a loop over `0..len` whose body reads out of bounds (and does nothing else wrong) from index
`c < len` on ends in undefined behaviour -/
theorem loop_ub {f : ℕ → List T → Res (List T)} {v : List T} {c : ℕ} (hc : c < v.length)
    (hf : ∀ i < v.length, ∀ w : List T, w.length = v.length →
      wp (fun e => e = .ub) (f i w) (fun w' => w'.length = v.length ∧ i < c)) :
    forRange 0 v.length f v = err .ub := by
  apply err_of_wp
  refine wp_forRange (fun i w => w.length = v.length ∧ i ≤ c) ⟨rfl, by omega⟩ ?_ ?_
  · rintro i w - hi ⟨hw, hic⟩
    exact wp_mono (hf i hi w hw) (fun _ h => ⟨h.1, by omega⟩)
  · rintro w ⟨-, h⟩
    rw [Nat.zero_max] at h
    omega

theorem Stencil2.solve_ub {s : Stencil2 K} {m : ℕ} {d l : ℕ → K} (hs : s.Wf m d l)
    (u v : List T) (h0 : 0 < v.length) (h : u.length < v.length + 2 ∨ m < v.length) :
    s.solve u v = err .ub := by
  unfold solve
  rw [loop_ub (c := min (v.length - 1) (min m (u.length - 2)))]
  · rfl
  · omega
  · intro i hi w hw
    rw [hs.diag, hs.low2]
    simp only [wp_bind, wp_rd, wp_wr, wp_ok, wp_pure, List.length_map, List.length_range,
      List.length_set]
    refine ⟨fun _ => ⟨fun _ => ⟨fun _ => ⟨fun _ => ⟨fun _ => ⟨hw, by omega⟩, ?_⟩, ?_⟩, ?_⟩, ?_⟩, ?_⟩ <;>
      simp

theorem Stencil3.solve_ub {s : Stencil3 K} {m : ℕ} {d l h : ℕ → K} (hs : s.Wf m d l h)
    (u v : List T) (h0 : 0 < v.length) (h : u.length < v.length + 2 ∨ m < v.length) :
    s.solve u v = err .ub := by
  unfold solve
  rw [loop_ub (c := min (v.length - 1) (min m (u.length - 2)))]
  · rfl
  · omega
  · intro i hi w hw
    rw [hs.diag, hs.low2, hs.low1]
    simp only [wp_bind, wp_rd, wp_wr, wp_ok, wp_pure, List.length_map, List.length_range,
      List.length_set]
    refine ⟨fun _ => ⟨fun _ => ⟨fun _ => ⟨fun _ => ⟨fun _ => ⟨fun _ => ⟨fun _ => ⟨hw, by omega⟩, ?_⟩,
      ?_⟩, ?_⟩, ?_⟩, ?_⟩, ?_⟩, ?_⟩ <;> simp

theorem Stencil4.solve_ub {s : Stencil4 K} {m : ℕ} {d l h : ℕ → K} (hs : s.Wf m d l h)
    (u v : List T) (h0 : 0 < v.length) (h : u.length < v.length + 4 ∨ m < v.length) :
    s.solve u v = err .ub := by
  unfold solve
  rw [loop_ub (c := min (v.length - 1) (min m (u.length - 4)))]
  · rfl
  · omega
  · intro i hi w hw
    rw [hs.diag, hs.low2, hs.low4]
    simp only [wp_bind, wp_rd, wp_wr, wp_ok, wp_pure, List.length_map, List.length_range,
      List.length_set]
    refine ⟨fun _ => ⟨fun _ => ⟨fun _ => ⟨fun _ => ⟨fun _ => ⟨fun _ => ⟨fun _ => ⟨hw, by omega⟩, ?_⟩,
      ?_⟩, ?_⟩, ?_⟩, ?_⟩, ?_⟩, ?_⟩ <;> simp

/-! ### the expansion -/

theorem Stencil2.dot_wrong {s : Stencil2 K} {m : ℕ} {d l : ℕ → K} (hs : s.Wf m d l)
    (v u : List T) (h : v.length ≠ m) : s.dot v u = err .panic := by
  have : assertR (v.length = s.diag.length) = err .panic := by simp [assertR, hs.diag, h]
  unfold dot; simp only [this]; rfl

theorem Stencil3.dot_wrong {s : Stencil3 K} {m : ℕ} {d l h : ℕ → K} (hs : s.Wf m d l h)
    (v u : List T) (hv : v.length ≠ m) : s.dot v u = err .panic := by
  have : assertR (v.length = s.diag.length) = err .panic := by simp [assertR, hs.diag, hv]
  unfold dot; simp only [this]; rfl

theorem Stencil4.dot_wrong {s : Stencil4 K} {m : ℕ} {d l h : ℕ → K} (hs : s.Wf m d l h)
    (v u : List T) (hv : v.length ≠ m) : s.dot v u = err .panic := by
  have : assertR (v.length = s.diag.length) = err .panic := by simp [assertR, hs.diag, hv]
  unfold dot; simp only [this]; rfl

theorem Stencil2.dot_long {s : Stencil2 K} {m : ℕ} {d l : ℕ → K} (hs : s.Wf m d l) (hm : 2 ≤ m)
    (v u : List T) (hv : v.length = m) (hu : m + 2 < u.length) : s.dot v u = err .ub := by
  apply err_of_wp
  unfold dot
  rw [hs.diag, hs.low2]
  simp only [List.length_map, List.length_range]
  wprun
  refine wp_forRange (fun i w => w.length = u.length ∧ i ≤ m) ⟨by simp, hm⟩ ?_ ?_
  · rintro i w h2 hi ⟨hw, him⟩
    rcases Nat.lt_or_ge i m with h' | h'
    · wprun
      exact ⟨by simpa using hw, h'⟩
    · simp [show ¬ i < m by omega]
  · rintro w ⟨-, h⟩
    omega

theorem Stencil3.dot_long {s : Stencil3 K} {m : ℕ} {d l h : ℕ → K} (hs : s.Wf m d l h) (hm : 2 ≤ m)
    (v u : List T) (hv : v.length = m) (hu : m + 2 < u.length) : s.dot v u = err .ub := by
  apply err_of_wp
  unfold dot
  rw [hs.diag, hs.low2, hs.low1]
  simp only [List.length_map, List.length_range]
  wprun
  refine wp_forRange (fun i w => w.length = u.length ∧ i ≤ m) ⟨by simp, hm⟩ ?_ ?_
  · rintro i w h2 hi ⟨hw, him⟩
    rcases Nat.lt_or_ge i m with h' | h'
    · wprun
      exact ⟨by simpa using hw, h'⟩
    · simp [show ¬ i < m by omega]
  · rintro w ⟨-, h⟩
    omega

/-! ### differentiation -/

theorem chebGradPass_two (out : List T) (h : out.length = 2) :
    chebGradPass K 2 out = err .ub := by
  apply err_of_wp
  unfold chebGradPass
  have e1 : ∀ f : ℕ → List T → Res (List T), ∀ w, forRange 1 (2 - 1) f w = ok w := fun _ _ => rfl
  have e2 : ∀ f : ℕ → List T → Res (List T), ∀ w, forRev 1 (2 - 2) f w = ok w := fun _ _ => rfl
  wprun
  rw [e1]
  wprun
  rw [e2]
  wprun
  simp [h]

end
end Verif

namespace Verif
open Res Spec

theorem wp_forList_inv {σ ι : Type} {Q : Err → Prop} {f : ι → σ → Res σ} (I : σ → Prop) :
    ∀ (is : List ι) (s : σ), I s → (∀ i s, I s → wp Q (f i s) I) → wp Q (forList is f s) I
  | [], _, h0, _ => h0
  | i :: is, s, h0, hs => by
    simp only [forList, wp_bind]
    exact wp_mono (hs i s h0) (fun s' h' => wp_forList_inv I is s' h' hs)

section
variable {S T : Type} [Zero S] [Zero T]

/-- `f` runs or panics on slices of these lengths -/
def RunsOrPanics (f : List S → List T → Res (List T)) (n m : ℕ) : Prop :=
  ∀ x out, x.length = n → out.length = m → wp (fun e => e = .panic) (f x out) (fun y => y.length = m)

omit [Zero S] [Zero T] in
theorem Spec.RunsOn.orPanics {f : List S → List T → Res (List T)} {n m : ℕ} (h : RunsOn f n m) :
    RunsOrPanics f n m := by
  intro x out hx ho
  obtain ⟨r, hr, hl⟩ := h x out hx ho
  rw [hr]; exact hl

omit [Zero S] [Zero T] in
theorem Spec.FailsOn.orPanics {f : List S → List T → Res (List T)} {n m : ℕ}
    (h : FailsOn .panic f n m) : RunsOrPanics f n m := by
  intro x out hx ho
  rw [h x out hx ho]; exact rfl

theorem serial_safe {f : List S → List T → Res (List T)} {l1 l2 : ℕ} (hf : RunsOrPanics f l1 l2)
    (order : List ℕ) (a : Arr S) (out : Arr T) (ax : ℕ) :
    wp (fun e => e = .panic) (applyAlongAxis order f l1 l2 a out ax) (fun _ => True) := by
  unfold applyAlongAxis
  rcases axisChecks_cases l1 l2 a out ax with h | ⟨h, -, -, h3, h4, h5⟩
  · rw [h]; exact rfl
  · have h3' : ax < out.shape.length := by rw [h5]; simpa using h3
    have h6 : out.shape.getD ax 0 = l2 := by rw [h5, getD_set_self _ _ h3]
    rw [h, shapeAt_ok h3, shapeAt_ok h3', h4, h6]
    refine wp_bind_i (wp_ok_i (wp_bind_i (wp_ok_i (wp_bind_i (wp_ok_i (wp_bind_i
      (wp_usub_i (by omega) ?_)))))))
    refine wp_ite_i (fun _ => ?_) (fun _ => ?_)
    · refine wp_bind_i (wp_mono (wp_forList_inv (fun _ => True) _ _ trivial ?_) (fun _ _ => trivial))
      intro l d _
      exact wp_bind_i (wp_mono (hf _ _ (by simp) (by simp)) (fun _ _ => trivial))
    · refine wp_bind_i (wp_mono (wp_forList_inv (fun s => s.1.length = l2) _ _ (by simp) ?_)
        (fun _ _ => trivial))
      intro l s hs
      exact wp_bind_i (wp_mono (hf _ _ (by simp) hs) (fun _ h => h))

theorem par_safe {f : List S → List T → Res (List T)} {l1 l2 : ℕ} (hf : RunsOrPanics f l1 l2)
    (sched : List ℕ) (a : Arr S) (out : Arr T) (ax : ℕ) :
    wp (fun e => e = .panic) (parApplyAlongAxis sched f l1 l2 a out ax) (fun _ => True) := by
  unfold parApplyAlongAxis
  rcases axisChecks_cases l1 l2 a out ax with h | ⟨h, -, -, h3, h4, h5⟩
  · rw [h]; exact rfl
  · have h3' : ax < out.shape.length := by rw [h5]; simpa using h3
    have h6 : out.shape.getD ax 0 = l2 := by rw [h5, getD_set_self _ _ h3]
    rw [h, shapeAt_ok h3, shapeAt_ok h3', h4, h6]
    refine wp_bind_i (wp_ok_i (wp_bind_i (wp_ok_i (wp_bind_i (wp_ok_i (wp_bind_i
      (wp_usub_i (by omega) ?_)))))))
    refine wp_bind_i (wp_mono (wp_forList_inv (fun _ => True) _ _ trivial ?_) (fun _ _ => trivial))
    intro l s _
    unfold parStep
    split
    · refine wp_bind_i (wp_mono (hf _ _ (by simp) ?_) (fun _ _ => trivial))
      split <;> simp
    · split <;> trivial

end
end Verif
