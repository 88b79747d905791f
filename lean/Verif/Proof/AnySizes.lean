/- Constructors and stencils of the composite bases in an arbitrary arithmetic with total division. -/
import Verif.Proof.AnyArith
import Verif.Proof.Compo

namespace Verif
open Res Spec

section computes
variable {S T : Type}

/-- a slice operator computes a function when, for every input, the result is the same for every output
slice -/
theorem computes_i {f : List S → List T → Res (List T)} {n m : ℕ}
    (h : ∀ x, x.length = n → ∃ r : List T, r.length = m ∧ ∀ out, out.length = m → f x out = ok r) :
    ∃ g, Computes f n m g := by
  classical
  refine ⟨fun x => if hx : x.length = n then (h x hx).choose else [], fun x out hx ho => ?_⟩
  simp only [dif_pos hx]
  exact ⟨(h x hx).choose_spec.2 out ho, (h x hx).choose_spec.1⟩

theorem eq_of_wp {α : Type} {r : Res α} {a : α} (h : wp (fun _ => False) r (fun x => x = a)) : r = ok a := by
  obtain ⟨x, e, rfl⟩ := wp_total.mp h
  exact e

theorem eq_panic_of_wp {α : Type} {r : Res α} (h : wp (fun e => e = .panic) r (fun _ => False)) :
    r = err .panic := by
  cases hx : r with
  | ok a => rw [hx] at h; exact h.elim
  | err e => rw [hx] at h; rw [show e = .panic from h]

end computes

section
variable {K : Type} [Zero K] [One K] [Neg K] [Add K] [Sub K] [Mul K] [DivBy K K] {Q : Err → Prop}

/-- lengths of the vectors of a stencil -/
structure Stencil2.Sized (s : Stencil2 K) (m : ℕ) : Prop where
  diag : s.diag.length = m
  low2 : s.low2.length = m
  tdiag : s.tdmaDiag.length = m
  toff : s.tdmaOff2.length = m - 2

/-- lengths of the vectors of a stencil -/
structure Stencil3.Sized (s : Stencil3 K) (m : ℕ) : Prop where
  diag : s.diag.length = m
  low1 : s.low1.length = m
  low2 : s.low2.length = m
  main : s.fdmaDiag.length = m
  off1 : s.fdmaOff1.length = m - 1
  off2 : s.fdmaOff2.length = m - 2

/-- lengths of the vectors of a stencil -/
structure Stencil4.Sized (s : Stencil4 K) (m : ℕ) : Prop where
  diag : s.diag.length = m
  low2 : s.low2.length = m
  low4 : s.low4.length = m
  main : s.fdmaDiag.length = m
  off2 : s.fdmaOff2.length = m - 2
  off4 : s.fdmaOff4.length = m - 4

/-- a loop that writes one buffer keeps its length -/
theorem wp_keep {T : Type} {a b : ℕ} {body : ℕ → List T → Res (List T)} {v0 : List T} {P : List T → Prop}
    (l : ℕ) (hv : v0.length = l)
    (h : ∀ i, a ≤ i → i < b → ∀ v : List T, v.length = l → wp Q (body i v) (fun v' => v'.length = l))
    (hP : ∀ v : List T, v.length = l → P v) :
    wp Q (forRange a b body v0) P :=
  wp_forRange (fun _ v => v.length = l) hv (fun i v h1 h2 h3 => h i h1 h2 v h3) hP

/-- two buffers -/
theorem wp_keep2 {T : Type} {a b : ℕ} {body : ℕ → List T × List T → Res (List T × List T)}
    {v0 : List T × List T} {P : List T × List T → Prop} (l : ℕ) (hv : v0.1.length = l) (hv' : v0.2.length = l)
    (h : ∀ i, a ≤ i → i < b → ∀ v : List T × List T, v.1.length = l → v.2.length = l →
      wp Q (body i v) (fun v' => v'.1.length = l ∧ v'.2.length = l))
    (hP : ∀ v : List T × List T, v.1.length = l → v.2.length = l → P v) :
    wp Q (forRange a b body v0) P :=
  wp_forRange (fun _ v => v.1.length = l ∧ v.2.length = l) ⟨hv, hv'⟩
    (fun i v h1 h2 h3 => h i h1 h2 v h3.1 h3.2) (fun v h => hP v h.1 h.2)

theorem Stencil2.new_sized {m : ℕ} (d l : List K) (hd : d.length = m) (hl : l.length = m) (hm : 2 ≤ m) :
    wp Q (Stencil2.new d l) (fun s => s.Sized m) := by
  unfold Stencil2.new
  rw [hd]
  wprun
  simp only [List.length_replicate]
  refine wp_keep m (by simp) ?_ ?_
  · intro i _ hi v hv; wprun; simpa using hv
  intro v hv
  wprun
  refine wp_keep (m - 2) (by simp) ?_ ?_
  · intro i _ hi w hw; wprun; simpa using hw
  intro w hw
  wprun
  exact ⟨hd, hl, hv, hw⟩

theorem Stencil3.new_sized {m : ℕ} (d l h : List K) (hd : d.length = m) (hl : l.length = m)
    (hh : h.length = m) (hm : 2 ≤ m) : wp Q (Stencil3.new d l h) (fun s => s.Sized m) := by
  unfold Stencil3.new
  rw [hd]
  wprun
  simp only [List.length_replicate]
  refine wp_keep m (by simp) ?_ ?_
  · intro i _ hi v hv; wprun; simpa using hv
  intro v hv
  wprun
  refine wp_keep (m - 1) (by simp) ?_ ?_
  · intro i _ hi w hw; wprun; simpa using hw
  intro w hw
  wprun
  refine wp_keep (m - 2) (by simp) ?_ ?_
  · intro i _ hi x hx; wprun; simpa using hx
  intro x hx
  wprun
  exact ⟨hd, hl, hh, hv, hw, hx⟩

theorem Stencil4.new_sized {m : ℕ} (d l h : List K) (hd : d.length = m) (hl : l.length = m)
    (hh : h.length = m) (hm : 4 ≤ m) : wp Q (Stencil4.new d l h) (fun s => s.Sized m) := by
  unfold Stencil4.new
  rw [hd]
  wprun
  simp only [List.length_replicate]
  refine wp_keep m (by simp) ?_ ?_
  · intro i _ hi v hv; wprun; simpa using hv
  intro v hv
  wprun
  refine wp_keep (m - 2) (by simp) ?_ ?_
  · intro i _ hi w hw; wprun; simpa using hw
  intro w hw
  wprun
  refine wp_keep (m - 4) (by simp) ?_ ?_
  · intro i _ hi x hx; wprun; simpa using hx
  intro x hx
  wprun
  exact ⟨hd, hl, hh, hv, hw, hx⟩

theorem Stencil2.new_small {m : ℕ} (d l : List K) (hd : d.length = m) (hm : m < 2) :
    wp (fun e => e = .panic) (Stencil2.new d l) (fun _ => False) := by
  unfold Stencil2.new
  rw [hd]
  simp only [wp_bind]
  exact wp_usub_panic hm

theorem Stencil3.new_small {m : ℕ} (d l h : List K) (hd : d.length = m) (hm : m < 2) :
    wp (fun e => e = .panic) (Stencil3.new d l h) (fun _ => False) := by
  unfold Stencil3.new
  rw [hd]
  simp only [wp_bind]
  by_cases h1 : 1 ≤ m
  · wprun; exact wp_usub_panic hm
  · exact wp_usub_panic (by omega)

theorem Stencil4.new_small {m : ℕ} (d l h : List K) (hd : d.length = m) (hm : m < 4) :
    wp (fun e => e = .panic) (Stencil4.new d l h) (fun _ => False) := by
  unfold Stencil4.new
  rw [hd]
  simp only [wp_bind]
  by_cases h1 : 2 ≤ m
  · wprun; exact wp_usub_panic hm
  · exact wp_usub_panic (by omega)

variable [NatCast K] [Pow K ℕ] [Div K] [TotalDiv K K]

/-- lengths of the parts of a composite base -/
structure Compo.Sized (b : Compo K) (k : CKind) (n : ℕ) : Prop where
  n_eq : b.n = n
  m_eq : b.m = n - k.nbc
  le : k.minNew ≤ n
  ortho : b.ortho = ⟨n, n⟩
  st : match k with
    | .dirichlet => ∃ s, b.stencil = .dirichlet s ∧ s.Sized b.m
    | .neumann => ∃ s, b.stencil = .neumann s ∧ s.Sized b.m
    | .dirichletNeumann => ∃ s, b.stencil = .dirichletNeumann s ∧ s.Sized b.m
    | .biharmonicA => ∃ s, b.stencil = .biharmonicA s ∧ s.Sized b.m
    | .biharmonicB => ∃ s, b.stencil = .biharmonicB s ∧ s.Sized b.m

theorem Compo.new_sized (k : CKind) (n : ℕ) (hn : k.minNew ≤ n) :
    wp Q (Compo.new (K := K) k n) (fun b => b.Sized k n) := by
  cases k
  · simp only [CKind.minNew] at hn
    unfold new dirichletNew
    wprun
    refine wp_cut _ (Stencil2.new_sized (m := n - 2) _ _ (by simp) (by simp) (by omega)) ?_
    intro s hs
    wprun
    refine wp_cut _ (wp_chebNew (by omega)) ?_
    rintro c rfl
    wprun
    exact ⟨rfl, rfl, hn, rfl, s, rfl, hs⟩
  · simp only [CKind.minNew] at hn
    unfold new neumannNew
    wprun
    refine wp_keep (n - 2) (by simp) ?_ ?_
    · intro i _ hi v hv; wprunT; simpa using hv
    intro v hv
    refine wp_cut _ (Stencil2.new_sized (m := n - 2) _ _ (by simp) hv (by omega)) ?_
    intro s hs
    wprun
    refine wp_cut _ (wp_chebNew (by omega)) ?_
    rintro c rfl
    wprun
    exact ⟨rfl, rfl, hn, rfl, s, rfl, hs⟩
  · simp only [CKind.minNew] at hn
    unfold new dirichletNeumannNew
    wprun
    refine wp_keep2 (n - 2) (by simp) (by simp) ?_ ?_
    · intro i _ hi v hv hv'; wprunT; simp only [List.length_set]; exact ⟨hv, hv'⟩
    intro v hv hv'
    refine wp_cut _ (Stencil3.new_sized (m := n - 2) _ _ _ (by simp) hv hv' (by omega)) ?_
    intro s hs
    wprun
    refine wp_cut _ (wp_chebNew (by omega)) ?_
    rintro c rfl
    wprun
    exact ⟨rfl, rfl, hn, rfl, s, rfl, hs⟩
  · simp only [CKind.minNew] at hn
    unfold new biharmonicANew
    wprun
    refine wp_keep2 (n - 4) (by simp) (by simp) ?_ ?_
    · intro i _ hi v hv hv'; wprunT; simp only [List.length_set]; exact ⟨hv, hv'⟩
    intro v hv hv'
    refine wp_cut _ (Stencil4.new_sized (m := n - 4) _ _ _ (by simp) hv hv' (by omega)) ?_
    intro s hs
    wprun
    refine wp_cut _ (wp_chebNew (by omega)) ?_
    rintro c rfl
    wprun
    exact ⟨rfl, rfl, hn, rfl, s, rfl, hs⟩
  · simp only [CKind.minNew] at hn
    unfold new biharmonicBNew
    wprun
    refine wp_keep2 (n - 4) (by simp) (by simp) ?_ ?_
    · intro i _ hi v hv hv'; wprunT; simp only [List.length_set]; exact ⟨hv, hv'⟩
    intro v hv hv'
    refine wp_cut _ (Stencil4.new_sized (m := n - 4) _ _ _ (by simp) hv hv' (by omega)) ?_
    intro s hs
    wprun
    refine wp_cut _ (wp_chebNew (by omega)) ?_
    rintro c rfl
    wprun
    exact ⟨rfl, rfl, hn, rfl, s, rfl, hs⟩

theorem Compo.new_small (k : CKind) (n : ℕ) (hn : n < k.minNew) :
    Compo.new (K := K) k n = err .panic := by
  apply eq_panic_of_wp
  cases k
  · simp only [CKind.minNew] at hn
    unfold new dirichletNew
    simp only [wp_bind]
    by_cases h2 : 2 ≤ n
    · wprun
      exact wp_cut _ (Stencil2.new_small (m := n - 2) _ _ (by simp) (by omega)) (fun _ h => h.elim)
    · exact wp_usub_panic (by omega)
  · simp only [CKind.minNew] at hn
    unfold new neumannNew
    simp only [wp_bind]
    by_cases h2 : 2 ≤ n
    · wprun
      refine wp_keep (n - 2) (by simp) ?_ ?_
      · intro i _ hi v hv; wprunT; simpa using hv
      intro v hv
      exact wp_cut _ (Stencil2.new_small (m := n - 2) _ _ (by simp) (by omega)) (fun _ h => h.elim)
    · exact wp_usub_panic (by omega)
  · simp only [CKind.minNew] at hn
    unfold new dirichletNeumannNew
    simp only [wp_bind]
    by_cases h2 : 2 ≤ n
    · wprun
      refine wp_keep2 (n - 2) (by simp) (by simp) ?_ ?_
      · intro i _ hi v hv hv'; wprunT; simp only [List.length_set]; exact ⟨hv, hv'⟩
      intro v hv hv'
      exact wp_cut _ (Stencil3.new_small (m := n - 2) _ _ _ (by simp) (by omega)) (fun _ h => h.elim)
    · exact wp_usub_panic (by omega)
  · simp only [CKind.minNew] at hn
    unfold new biharmonicANew
    simp only [wp_bind]
    by_cases h2 : 4 ≤ n
    · wprun
      refine wp_keep2 (n - 4) (by simp) (by simp) ?_ ?_
      · intro i _ hi v hv hv'; wprunT; simp only [List.length_set]; exact ⟨hv, hv'⟩
      intro v hv hv'
      exact wp_cut _ (Stencil4.new_small (m := n - 4) _ _ _ (by simp) (by omega)) (fun _ h => h.elim)
    · exact wp_usub_panic (by omega)
  · simp only [CKind.minNew] at hn
    unfold new biharmonicBNew
    simp only [wp_bind]
    by_cases h2 : 4 ≤ n
    · wprun
      refine wp_keep2 (n - 4) (by simp) (by simp) ?_ ?_
      · intro i _ hi v hv hv'; wprunT; simp only [List.length_set]; exact ⟨hv, hv'⟩
      intro v hv hv'
      exact wp_cut _ (Stencil4.new_small (m := n - 4) _ _ _ (by simp) (by omega)) (fun _ h => h.elim)
    · exact wp_usub_panic (by omega)

theorem Compo.sized_of_new {k : CKind} {n : ℕ} {b : Compo K} (h : Compo.new k n = ok b) : b.Sized k n := by
  by_cases hn : k.minNew ≤ n
  · have := Compo.new_sized (K := K) (Q := fun _ => False) k n hn
    rwa [h] at this
  · rw [Compo.new_small k n (by omega)] at h
    exact absurd h (by simp)

end
end Verif
