/- Where the operators fail, in an arbitrary arithmetic. -/
import Verif.Proof.AnyOps
import Verif.Proof.Sizes

namespace Verif
open Res Spec

section
variable {K T : Type} [Zero K] [One K] [Neg K] [Add K] [Sub K] [Mul K] [DivBy K K]
  [Zero T] [Add T] [Sub T] [SMul K T] [DivBy K T]

theorem tdma_small_any (l2 d0 u2 : List K) (rhs : List T) (h : rhs.length ≤ 2) :
    tdma l2 d0 u2 rhs = err .panic := by
  have : assertR (rhs.length > 2) = err .panic := by simp [assertR, h]
  unfold tdma; simp only [this]; rfl

theorem pdma_small_any (l2 l1 d0 u1 u2 : List K) (rhs : List T) (h : rhs.length ≤ 3) :
    pdma l2 l1 d0 u1 u2 rhs = err .panic := by
  have : assertR (rhs.length > 3) = err .panic := by simp [assertR, h]
  unfold pdma; simp only [this]; rfl

theorem pdma2_small_any (l4 l2 d0 u2 u4 : List K) (rhs : List T) (h : rhs.length ≤ 5) :
    pdma2 l4 l2 d0 u2 u4 rhs = err .panic := by
  have : assertR (rhs.length > 5) = err .panic := by simp [assertR, h]
  unfold pdma2; simp only [this]; rfl

theorem Stencil2.solve_small_any {s : Stencil2 K} {m : ℕ} (hs : s.Sized m) (hm : m ≤ 2)
    (u v : List T) (hu : u.length = m + 2) (hv : v.length = m) : s.solve u v = err .panic := by
  obtain ⟨h1, h2, -, -⟩ := hs
  apply eq_panic_of_wp
  unfold solve
  rw [hv]
  wprun
  refine wp_keep m hv ?_ ?_
  · rintro i - hi w hw
    wprun
    simpa using hw
  · intro w hw
    rw [tdma_small_any _ _ _ _ (by omega)]
    rfl

theorem Stencil3.solve_small_any {s : Stencil3 K} {m : ℕ} (hs : s.Sized m)
    (hm : m ≤ 3) (u v : List T) (hu : u.length = m + 2) (hv : v.length = m) :
    s.solve u v = err .panic := by
  obtain ⟨h1, h2, h3, -, -, -⟩ := hs
  apply eq_panic_of_wp
  unfold solve
  rw [hv]
  wprun
  refine wp_keep m hv ?_ ?_
  · rintro i - hi w hw
    wprun
    simpa using hw
  · intro w hw
    rw [pdma_small_any _ _ _ _ _ _ (by omega)]
    rfl

theorem Stencil4.solve_small_any {s : Stencil4 K} {m : ℕ} (hs : s.Sized m)
    (hm : m ≤ 5) (u v : List T) (hu : u.length = m + 4) (hv : v.length = m) :
    s.solve u v = err .panic := by
  obtain ⟨h1, h2, h3, -, -, -⟩ := hs
  apply eq_panic_of_wp
  unfold solve
  rw [hv]
  wprun
  refine wp_keep m hv ?_ ?_
  · rintro i - hi w hw
    wprun
    simpa using hw
  · intro w hw
    rw [pdma2_small_any _ _ _ _ _ _ (by omega)]
    rfl

theorem Stencil4.dotHead_len {Q : Err → Prop} {s : Stencil4 K} {m : ℕ} (hs : s.Sized m) (hm : 4 ≤ m)
    (v u : List T) (hv : v.length = m) (hu : u.length = m + 4) :
    wp Q (s.dotHead v u) (fun x => x.length = m + 4) := by
  obtain ⟨h1, h2, h3, -, -, -⟩ := hs
  unfold dotHead
  rw [hu]
  wprun
  refine wp_keep (m + 4) (by simpa using hu) ?_ ?_
  · rintro i h hi w hw
    wprun
    simpa using hw
  · intro w hw
    wprun
    simpa using hw

theorem Stencil4.dot_ub_any {s : Stencil4 K} {m : ℕ} (hs : s.Sized m) (hm : 4 ≤ m)
    (v u : List T) (hv : v.length = m) (hu : u.length = m + 4) : s.dot v u = err .ub := by
  apply err_of_wp
  unfold dot
  rw [hs.diag]
  wprun
  refine wp_mono (dotHead_len hs hm v u hv hu) ?_
  intro x hx
  obtain ⟨h1, h2, h3, -, -, -⟩ := hs
  unfold dotTail
  rw [hx]
  wprun
  simp [h2]

end

section
variable {K T : Type} [Mul K] [NatCast K] [Zero T] [Add T] [SMul K T] [DivBy K T] [TotalDiv K T]

theorem chebGradPass_two_any (out : List T) (h : out.length = 2) :
    chebGradPass K 2 out = err .ub := by
  apply err_of_wp
  unfold chebGradPass
  have e1 : ∀ f : ℕ → List T → Res (List T), ∀ w, forRange 1 (2 - 1) f w = ok w := fun _ _ => rfl
  have e2 : ∀ f : ℕ → List T → Res (List T), ∀ w, forRev 1 (2 - 2) f w = ok w := fun _ _ => rfl
  wprunT
  rw [e1]
  wprunT
  rw [e2]
  wprunT
  simp [h]

end
end Verif
