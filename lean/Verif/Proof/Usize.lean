/- Machine integers: when results are exact, and what wrap-around computes. -/
import Verif.Core.Usize
import Verif.Core.Tac
import Mathlib.Data.Int.ModEq
import Mathlib.Tactic.Ring
import Mathlib.Tactic.Linarith

namespace Verif
open Res

theorem wp_mul_exact {Q : Err → Prop} {o : Mode} {a b : ℕ} {P : ℕ → Prop} (h : a * b < usizeW)
    (hp : P (a * b)) : wp Q (o.mul a b) P := by rw [o.mul_ok h]; exact hp
theorem wp_add_exact {Q : Err → Prop} {o : Mode} {a b : ℕ} {P : ℕ → Prop} (h : a + b < usizeW)
    (hp : P (a + b)) : wp Q (o.add a b) P := by rw [o.add_ok h]; exact hp
theorem wp_sub_exact {Q : Err → Prop} {o : Mode} {a b : ℕ} {P : ℕ → Prop} (h : b ≤ a)
    (hp : P (a - b)) : wp Q (o.sub a b) P := by rw [o.sub_ok h]; exact hp

/-- `x` is the machine word of the integer `z` -/
def Rep (x : ℕ) (z : ℤ) : Prop := (x : ℤ) = z % (usizeW : ℤ)

theorem Rep.lt {x : ℕ} {z : ℤ} (h : Rep x z) : x < usizeW := by
  unfold Rep at h
  have : (x : ℤ) < usizeW := by rw [h]; exact Int.emod_lt_of_pos _ (by norm_num)
  exact_mod_cast this

theorem rep_self {x : ℕ} (h : x < usizeW) : Rep x x := by
  unfold Rep
  rw [Int.emod_eq_of_lt (by positivity) (by exact_mod_cast h)]

theorem Rep.eq_of_range {x : ℕ} {z : ℤ} (h : Rep x z) (h0 : 0 ≤ z) (h1 : z < usizeW) : (x : ℤ) = z := by
  unfold Rep at h
  rw [h, Int.emod_eq_of_lt h0 h1]

theorem rep_iff {x : ℕ} {z : ℤ} : Rep x z ↔ x < usizeW ∧ (x : ℤ) ≡ z [ZMOD usizeW] := by
  constructor
  · intro h
    refine ⟨h.lt, ?_⟩
    unfold Rep at h
    rw [h]
    exact Int.mod_modEq ..
  · rintro ⟨h1, h2⟩
    unfold Rep
    rw [← h2, Int.emod_eq_of_lt (by positivity) (by exact_mod_cast h1)]

theorem wp_mul_rep {Q : Err → Prop} {a b : ℕ} {y z : ℤ} {P : ℕ → Prop} (ha : Rep a y) (hb : Rep b z)
    (hp : ∀ x, Rep x (y * z) → P x) : wp Q (Mode.release.mul a b) P := by
  have : Mode.release.mul a b = ok (a * b % usizeW) := by
    unfold Mode.mul
    split
    · rename_i h; rw [Nat.mod_eq_of_lt h]
    · rfl
  rw [this]
  apply hp
  rw [rep_iff] at *
  refine ⟨Nat.mod_lt _ (by norm_num), ?_⟩
  push_cast
  exact (Int.mod_modEq _ _).trans (ha.2.mul hb.2)

theorem wp_add_rep {Q : Err → Prop} {a b : ℕ} {y z : ℤ} {P : ℕ → Prop} (ha : Rep a y) (hb : Rep b z)
    (hp : ∀ x, Rep x (y + z) → P x) : wp Q (Mode.release.add a b) P := by
  have : Mode.release.add a b = ok ((a + b) % usizeW) := by
    unfold Mode.add
    split
    · rename_i h; rw [Nat.mod_eq_of_lt h]
    · rfl
  rw [this]
  apply hp
  rw [rep_iff] at *
  refine ⟨Nat.mod_lt _ (by norm_num), ?_⟩
  push_cast
  exact (Int.mod_modEq _ _).trans (ha.2.add hb.2)

theorem wp_sub_rep {Q : Err → Prop} {a b : ℕ} {y z : ℤ} {P : ℕ → Prop} (ha : Rep a y) (hb : Rep b z)
    (hp : ∀ x, Rep x (y - z) → P x) : wp Q (Mode.release.sub a b) P := by
  have hal := ha.lt
  have hbl := hb.lt
  have : Mode.release.sub a b = ok ((a + usizeW - b) % usizeW) := by
    unfold Mode.sub
    split
    · rename_i h
      rw [show a + usizeW - b = a - b + usizeW by omega, Nat.add_mod_right,
        Nat.mod_eq_of_lt (by omega)]
    · rfl
  rw [this]
  apply hp
  rw [rep_iff] at *
  refine ⟨Nat.mod_lt _ (by norm_num), ?_⟩
  have e : (((a + usizeW - b) % usizeW : ℕ) : ℤ) = ((a : ℤ) + usizeW - b) % usizeW := by
    rw [Int.natCast_mod, Nat.cast_sub (by omega)]
    push_cast; rfl
  rw [e]
  refine (Int.mod_modEq _ _).trans ?_
  have := (ha.2.sub hb.2)
  refine Int.ModEq.trans ?_ this
  rw [show (a : ℤ) + usizeW - b = (a - b) + usizeW by ring]
  exact Int.add_modEq_right

/-- machine operations either return or panic -/
theorem wp_mul_safe {o : Mode} {a b : ℕ} {P : ℕ → Prop} (hp : ∀ x, P x) :
    wp (fun e => e = .panic) (o.mul a b) P := by
  unfold Mode.mul
  split
  · exact hp _
  · cases o
    · rfl
    · exact hp _
theorem wp_add_safe {o : Mode} {a b : ℕ} {P : ℕ → Prop} (hp : ∀ x, P x) :
    wp (fun e => e = .panic) (o.add a b) P := by
  unfold Mode.add
  split
  · exact hp _
  · cases o
    · rfl
    · exact hp _
theorem wp_sub_safe {o : Mode} {a b : ℕ} {P : ℕ → Prop} (hp : ∀ x, P x) :
    wp (fun e => e = .panic) (o.sub a b) P := by
  unfold Mode.sub
  split
  · exact hp _
  · cases o
    · rfl
    · exact hp _

end Verif
