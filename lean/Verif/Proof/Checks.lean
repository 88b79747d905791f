/-
Proofs for C92: the shape checks of the axis methods, for every schedule.
-/
import Verif.Spec.Checks
import Verif.Proof.Sizes
import Verif.Spec.Checked

namespace Verif
open Res Spec

theorem Spec.ReturnsOrPanics.wp {S T : Type} {f : List S → List T → Res (List T)} {n m : ℕ}
    (h : ReturnsOrPanics f n m) : RunsOrPanics f n m := by
  intro x out hx ho
  rcases h x out hx ho with ⟨y, e, hy⟩ | e
  · rw [e]; exact hy
  · rw [e]; exact rfl

theorem Spec.ReturnsOrPanics.of_wp {S T : Type} {f : List S → List T → Res (List T)} {n m : ℕ}
    (h : RunsOrPanics f n m) : ReturnsOrPanics f n m := by
  intro x out hx ho
  have := h x out hx ho
  cases e : f x out with
  | ok y => rw [e] at this; exact Or.inl ⟨y, rfl, this⟩
  | err e' => rw [e] at this; exact Or.inr (by rw [show e' = .panic from this])

section
variable {S T : Type} [Zero S] [Zero T] {f : List S → List T → Res (List T)} {l1 l2 : ℕ}

theorem serial_checks (hf : ReturnsOrPanics f l1 l2) (order : List ℕ) (a : Arr S) (out : Arr T) (ax : ℕ) :
    wp (fun e => e = .panic) (applyAlongAxis order f l1 l2 a out ax) (fun r =>
      (a.std = true ∧ out.std = true ∧ ax < a.shape.length ∧ a.shape.getD ax 0 = l1 ∧
        out.shape = a.shape.set ax l2) ∧ r.shape = out.shape ∧ r.std = true) := by
  have hs := serial_safe hf.wp order a out ax
  cases e : applyAlongAxis order f l1 l2 a out ax with
  | err e' => rw [e] at hs; exact hs
  | ok r =>
    rcases axisChecks_cases l1 l2 a out ax with h | ⟨h, h1, h2, h3, h4, h5⟩
    · unfold applyAlongAxis at e
      rw [h] at e; cases e
    · refine ⟨⟨h1, h2, h3, h4, h5⟩, ?_⟩
      have h3' : ax < out.shape.length := by rw [h5]; simpa using h3
      have key : wp (fun _ => True) (applyAlongAxis order f l1 l2 a out ax)
          (fun r => r.shape = out.shape ∧ r.std = true) := by
        unfold applyAlongAxis
        rw [h, shapeAt_ok h3, shapeAt_ok h3']
        refine wp_bind_i (wp_ok_i (wp_bind_i (wp_ok_i (wp_bind_i (wp_ok_i (wp_bind_i
          (wp_usub_i (by omega) ?_)))))))
        refine wp_ite_i (fun _ => ?_) (fun _ => ?_)
        · refine wp_bind_i (wp_mono (wp_forList_inv (fun _ => True) _ _ trivial ?_) (fun _ _ => ⟨rfl, h2⟩))
          intro l d _
          cases (f (getLane (a.shape.getD ax 0) (innerSize a.shape ax) a.data l)
            (getLane (out.shape.getD ax 0) (innerSize out.shape ax) d l)) <;> trivial
        · refine wp_bind_i (wp_mono (wp_forList_inv (fun _ => True) _ _ trivial ?_) (fun _ _ => ⟨rfl, h2⟩))
          intro l d _
          cases (f (getLane (a.shape.getD ax 0) (innerSize a.shape ax) a.data l) d.1) <;> trivial
      rw [e] at key
      exact key

theorem par_checks (hf : ReturnsOrPanics f l1 l2) (sched : List ℕ) (a : Arr S) (out : Arr T) (ax : ℕ) :
    wp (fun e => e = .panic) (parApplyAlongAxis sched f l1 l2 a out ax) (fun r =>
      (a.std = true ∧ out.std = true ∧ ax < a.shape.length ∧ a.shape.getD ax 0 = l1 ∧
        out.shape = a.shape.set ax l2) ∧ r.shape = out.shape ∧ r.std = true) := by
  have hs := par_safe hf.wp sched a out ax
  cases e : parApplyAlongAxis sched f l1 l2 a out ax with
  | err e' => rw [e] at hs; exact hs
  | ok r =>
    rcases axisChecks_cases l1 l2 a out ax with h | ⟨h, h1, h2, h3, h4, h5⟩
    · unfold parApplyAlongAxis at e
      rw [h] at e; cases e
    · refine ⟨⟨h1, h2, h3, h4, h5⟩, ?_⟩
      have h3' : ax < out.shape.length := by rw [h5]; simpa using h3
      have key : wp (fun _ => True) (parApplyAlongAxis sched f l1 l2 a out ax)
          (fun r => r.shape = out.shape ∧ r.std = true) := by
        unfold parApplyAlongAxis
        rw [h, shapeAt_ok h3, shapeAt_ok h3']
        refine wp_bind_i (wp_ok_i (wp_bind_i (wp_ok_i (wp_bind_i (wp_ok_i (wp_bind_i
          (wp_usub_i (by omega) ?_)))))))
        refine wp_bind_i (wp_mono (wp_forList_inv (fun _ => True) _ _ trivial ?_) (fun _ _ => ⟨rfl, h2⟩))
        intro l s _
        cases (parStep f (ax = a.shape.length - 1) (a.shape.getD ax 0) (out.shape.getD ax 0)
          (innerSize a.shape ax) (innerSize out.shape ax) a.data l s) <;> trivial
      rw [e] at key
      exact key

/-- an allocating method, serial or parallel -/
theorem alloc_checks {M : Arr S → Arr T → ℕ → Res (Arr T)}
    (hM : ∀ a out ax, wp (fun e => e = .panic) (M a out ax) (fun r =>
      (a.std = true ∧ out.std = true ∧ ax < a.shape.length ∧ a.shape.getD ax 0 = l1 ∧
        out.shape = a.shape.set ax l2) ∧ r.shape = out.shape ∧ r.std = true)) (a : Arr S) (ax : ℕ) :
    wp (fun e => e = .panic) (do let o ← arrayResizedAxis T a l2 ax; M a o ax) (fun r =>
      a.std = true ∧ ax < a.shape.length ∧ a.shape.getD ax 0 = l1 ∧ r.shape = a.shape.set ax l2 ∧
        r.std = true) := by
  unfold arrayResizedAxis
  refine wp_bind_i (wp_bind_i ?_)
  simp only [wp_wrC]
  refine ⟨fun h => ?_, fun _ => trivial⟩
  show wp _ (M a (Arr.zeros (a.shape.set ax l2)) ax) _
  refine wp_mono (hM a (Arr.zeros (a.shape.set ax l2)) ax) ?_
  rintro r ⟨⟨h1, -, h3, h4, h5⟩, h6, h7⟩
  exact ⟨h1, h3, h4, h6.trans h5, h7⟩

end

section
variable {S T : Type}

theorem accepts_of_wp {M : Arr S → Res (Arr T)} {sh sh' : List ℕ}
    (h : ∀ a, a.shape.length = sh.length → wp (fun e => e = .panic) (M a)
      (fun r => (a.std = true ∧ a.shape = sh) ∧ r.shape = sh' ∧ r.std = true)) : Accepts M sh sh' := by
  refine ⟨fun a ha hn => ?_, fun a r ha e => ?_, fun a ha e => ?_⟩
  · have := h a ha
    cases e : M a with
    | ok r => rw [e] at this; exact absurd this.1 hn
    | err e' => rw [e] at this; rw [show e' = .panic from this]
  · have := h a ha; rw [e] at this; exact this.2
  · have := h a ha; rw [e] at this; cases (show Err.ub = .panic from this)

theorem acceptsInto_of_wp {M : Arr S → Arr T → Res (Arr T)} {sh sh' : List ℕ}
    (h : ∀ a out, a.shape.length = sh.length → out.shape.length = sh'.length →
      wp (fun e => e = .panic) (M a out) (fun r =>
        ((a.std = true ∧ a.shape = sh) ∧ out.std = true ∧ out.shape = sh') ∧ r.shape = sh' ∧ r.std = true)) :
    AcceptsInto M sh sh' := by
  refine ⟨fun a o ha ho hn => ?_, fun a o r ha ho e => ?_, fun a o ha ho e => ?_⟩
  · have := h a o ha ho
    cases e : M a o with
    | ok r => rw [e] at this; exact absurd this.1 hn
    | err e' => rw [e] at this; rw [show e' = .panic from this]
  · have := h a o ha ho; rw [e] at this; exact this.2
  · have := h a o ha ho; rw [e] at this; cases (show Err.ub = .panic from this)

/-- storing in a fresh array -/
theorem Spec.AcceptsInto.alloc [Zero T] {M : Arr S → Arr T → Res (Arr T)} {sh sh' : List ℕ}
    (h : AcceptsInto M sh sh') : Accepts (fun a => M a (Arr.zeros sh')) sh sh' :=
  ⟨fun a ha hn => h.rejects a _ ha rfl (fun k => hn k.1), fun a r ha e => h.shape a _ r ha rfl e,
    fun a ha => h.inBounds a _ ha rfl⟩

/-- scaling the result -/
theorem Spec.Accepts.scale {M : Arr S → Res (Arr T)} {sh sh' : List ℕ} (h : Accepts M sh sh')
    {g : Arr T → Res (Arr T)} (hg : ∀ x, wp (fun e => e ≠ .ub) (g x) (fun r => r.shape = x.shape ∧ r.std = x.std)) :
    Accepts (fun a => M a >>= g) sh sh' := by
  refine ⟨fun a ha hn => ?_, fun a r ha e => ?_, fun a ha e => ?_⟩
  · show M a >>= g = _
    rw [h.rejects a ha hn]; rfl
  · change M a >>= g = _ at e
    cases e' : M a with
    | err k => rw [e'] at e; cases e
    | ok x =>
      rw [e', bind_ok] at e
      have := hg x; rw [e] at this
      have hx := h.shape a x ha e'
      exact ⟨this.1.trans hx.1, this.2.trans hx.2⟩
  · change M a >>= g = _ at e
    have hi := h.inBounds a ha
    cases e' : M a with
    | err k => rw [e'] at e hi; exact hi e
    | ok x =>
      rw [e', bind_ok] at e
      have := hg x; rw [e] at this
      exact this rfl

theorem Spec.Accepts.congr {M N : Arr S → Res (Arr T)} {sh sh' : List ℕ} (h : Accepts M sh sh')
    (e : ∀ a, N a = M a) : Accepts N sh sh' := by
  rw [show N = M from funext e]; exact h

theorem bind_assoc' {X Y Z : Type} (r : Res X) (f : X → Res Y) (g : Y → Res Z) :
    (r >>= f) >>= g = r >>= fun x => f x >>= g := by
  cases r <;> rfl

theorem powi_noUb {A : Type} [Powi A] (hp : ∀ (x : A) (k : ℤ), powi x k ≠ err .ub) (x : A) (k : ℤ) :
    wp (fun e => e ≠ .ub) (powi x k) (fun _ => True) := by
  have := hp x k
  cases e : powi x k with
  | ok z => trivial
  | err k => rw [e] at this; exact fun h => this (by rw [h])

theorem wp_mapR_len {X Y : Type} {Q : Err → Prop} {f : X → Res Y} (hf : ∀ x, wp Q (f x) (fun _ => True)) :
    ∀ l : List X, wp Q (mapR f l) (fun _ => True)
  | [] => trivial
  | x :: xs => wp_bind_i (wp_mono (hf x) fun _ _ => wp_bind_i (wp_mono (wp_mapR_len hf xs) fun _ _ => trivial))

theorem divAll_checks {A : Type} [DivBy A T] [DivNoUb A T] (sc : A) (x : Arr T) :
    wp (fun e => e ≠ .ub) (divAll sc x) (fun r => r.shape = x.shape ∧ r.std = x.std) := by
  unfold divAll
  refine wp_bind_i (wp_mono (wp_mapR_len (fun y => ?_) _) fun _ _ => ⟨rfl, rfl⟩)
  have := DivNoUb.ne_ub y sc
  cases e : divR y sc with
  | ok z => trivial
  | err k => rw [e] at this; exact fun h => this (by rw [h])

end
end Verif
