/- Loops that overwrite a buffer entry by entry. -/
import Verif.Core.Mat

namespace Verif
open Res
variable {T : Type} [Zero T] {Q : Err → Prop}

theorem wp_fill {m : ℕ} {body : ℕ → List T → Res (List T)} {v0 : List T} {P : List T → Prop}
    (F : ℕ → T) (hv : v0.length = m)
    (h : ∀ i < m, ∀ v : List T, v.length = m → wp Q (body i v) (fun v' => v' = v.set i (F i)))
    (hP : P ((List.range m).map F)) :
    wp Q (forRange 0 m body v0) P := by
  refine wp_forRange (fun i v => v.length = m ∧ ∀ k < i, nth v k = F k) ⟨hv, by simp⟩ ?_ ?_
  · rintro i v - him ⟨hl, hk⟩
    refine wp_mono (h i him v hl) ?_
    rintro _ rfl
    refine ⟨by simpa using hl, fun k hk' => ?_⟩
    rcases Nat.lt_succ_iff_lt_or_eq.mp hk' with h' | rfl
    · rw [nth_set_ne _ _ _ _ (by omega)]; exact hk k h'
    · rw [nth_set_self _ _ _ (by omega)]
  · rintro v ⟨hl, hk⟩
    have : v = (List.range m).map F := by
      apply ext_nth (by simpa using hl)
      intro i hi
      rw [nth_map_range _ _ _ (by omega)]
      exact hk i (by omega)
    rw [this]; exact hP

/-- two buffers filled in the same loop -/
theorem wp_fill2 {m : ℕ} {body : ℕ → List T × List T → Res (List T × List T)}
    {v0 : List T × List T} {P : List T × List T → Prop}
    (F G : ℕ → T) (hv : v0.1.length = m) (hv' : v0.2.length = m)
    (h : ∀ i < m, ∀ v : List T × List T, v.1.length = m → v.2.length = m →
      wp Q (body i v) (fun v' => v' = (v.1.set i (F i), v.2.set i (G i))))
    (hP : P ((List.range m).map F, (List.range m).map G)) :
    wp Q (forRange 0 m body v0) P := by
  refine wp_forRange (fun i v => v.1.length = m ∧ v.2.length = m ∧ ∀ k < i,
    nth v.1 k = F k ∧ nth v.2 k = G k) ⟨hv, hv', by simp⟩ ?_ ?_
  · rintro i v - him ⟨hl, hl', hk⟩
    refine wp_mono (h i him v hl hl') ?_
    rintro _ rfl
    refine ⟨by simpa using hl, by simpa using hl', fun k hk' => ?_⟩
    rcases Nat.lt_succ_iff_lt_or_eq.mp hk' with h' | rfl
    · simp only
      rw [nth_set_ne _ _ _ _ (by omega), nth_set_ne _ _ _ _ (by omega)]; exact hk k h'
    · simp only
      rw [nth_set_self _ _ _ (by omega), nth_set_self _ _ _ (by omega)]; exact ⟨rfl, rfl⟩
  · rintro ⟨v, w⟩ ⟨hl, hl', hk⟩
    have : v = (List.range m).map F := by
      apply ext_nth (by simpa using hl)
      intro i hi
      rw [nth_map_range _ _ _ (by simp_all)]
      exact (hk i (by simp_all)).1
    rw [this]
    have : w = (List.range m).map G := by
      apply ext_nth (by simpa using hl')
      intro i hi
      rw [nth_map_range _ _ _ (by simp_all)]
      exact (hk i (by simp_all)).2
    rw [this]; exact hP

end Verif
