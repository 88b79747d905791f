/- Symbolic execution tactic for straight-line code. -/
import Verif.Core.Res

namespace Verif
open Res
section
variable {α β T K : Type _} {Q : Err → Prop}

theorem wp_bind_i {r : Res α} {f : α → Res β} {P : β → Prop}
    (h : wp Q r (fun a => wp Q (f a) P)) : wp Q (r >>= f) P := (wp_bind r f P).mpr h
theorem wp_ok_i {a : α} {P : α → Prop} (h : P a) : wp Q (ok a) P := h
theorem wp_pure_i {a : α} {P : α → Prop} (h : P a) : wp Q (pure a) P := h
theorem wp_assert_i {c : Prop} [Decidable c] {P : Unit → Prop} (hc : c) (h : P ()) :
    wp Q (assertR c) P := by simp [hc, h]
theorem wp_usub_i {a b : ℕ} {P : ℕ → Prop} (hc : b ≤ a) (h : P (a - b)) :
    wp Q (a -! b) P := by simp [hc, h]
theorem wp_rd_i [Zero T] {l : List T} {i : ℕ} {P : T → Prop} (hc : i < l.length)
    (h : P (nth l i)) : wp Q (rd l i) P := by simp [h, hc]
theorem wp_rdC_i [Zero T] {l : List T} {i : ℕ} {P : T → Prop} (hc : i < l.length)
    (h : P (nth l i)) : wp Q (rdC l i) P := by simp [h, hc]
theorem wp_wr_i {l : List T} {i : ℕ} {x : T} {P : List T → Prop} (hc : i < l.length)
    (h : P (l.set i x)) : wp Q (wr l i x) P := by simp [h, hc]
theorem wp_wrC_i {l : List T} {i : ℕ} {x : T} {P : List T → Prop} (hc : i < l.length)
    (h : P (l.set i x)) : wp Q (wrC l i x) P := by simp [h, hc]
theorem wp_div_i [Field K] [DecidableEq K] [AddCommGroup T] [Module K T] {x : T} {a : K}
    {P : T → Prop} (h : a ≠ 0 → P (a⁻¹ • x)) (h0 : a = 0 → Q .div0) :
    wp Q (divR x a) P := (wp_divR x a P).mpr ⟨h0, h⟩
theorem wp_ite_i {c : Prop} [Decidable c] {r s : Res α} {P : α → Prop}
    (h1 : c → wp Q r P) (h2 : ¬ c → wp Q s P) : wp Q (if c then r else s) P :=
  (wp_ite c r s P).mpr ⟨h1, h2⟩
theorem wp_cut {r : Res α} {P : α → Prop} (R : α → Prop) (h : wp Q r R) (hp : ∀ a, R a → P a) :
    wp Q r P := wp_mono h hp
end

/-- discharge length side conditions -/
macro "wlen" : tactic => `(tactic| first
  | omega
  | (simp only [List.length_set, List.length_replicate, List.length_map, List.length_range]
     omega)
  | (simp only [List.length_set, List.length_replicate, List.length_map, List.length_range] at *
     omega))

/-- one step of symbolic execution -/
macro "wpstep" : tactic => `(tactic| first
  | with_reducible refine wp_bind_i ?_
  | with_reducible refine wp_ok_i ?_
  | with_reducible refine wp_pure_i ?_
  | with_reducible refine wp_assert_i (by wlen) ?_
  | with_reducible refine wp_usub_i (by wlen) ?_
  | with_reducible refine wp_rd_i (by wlen) ?_
  | with_reducible refine wp_rdC_i (by wlen) ?_
  | with_reducible refine wp_wr_i (by wlen) ?_
  | with_reducible refine wp_wrC_i (by wlen) ?_
  | with_reducible refine wp_div_i (fun _ => ?_) ?_)

/-- symbolic execution of straight-line code up to the next loop or conditional -/
macro "wprun" : tactic => `(tactic| repeat wpstep)

end Verif
