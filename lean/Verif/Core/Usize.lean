/- 64-bit `usize` arithmetic in debug (overflow panics) and release (wrap-around) builds. -/
import Verif.Core.Res

namespace Verif
open Res

/-- Build mode: Cargo's default `debug` profile has overflow checks, `release` wraps. -/
inductive Mode where
  | debug
  | release
  deriving DecidableEq, Repr

/-- `usize::MAX + 1` on 64-bit targets. -/
abbrev usizeW : ℕ := 2 ^ 64

/-- `a * b` on `usize`. -/
def Mode.mul (o : Mode) (a b : ℕ) : Res ℕ :=
  if a * b < usizeW then ok (a * b) else
    match o with
    | .debug => err .panic
    | .release => ok (a * b % usizeW)

/-- `a + b` on `usize`. -/
def Mode.add (o : Mode) (a b : ℕ) : Res ℕ :=
  if a + b < usizeW then ok (a + b) else
    match o with
    | .debug => err .panic
    | .release => ok ((a + b) % usizeW)

/-- `a - b` on `usize` (`a`, `b` in range). -/
def Mode.sub (o : Mode) (a b : ℕ) : Res ℕ :=
  if b ≤ a then ok (a - b) else
    match o with
    | .debug => err .panic
    | .release => ok ((a + usizeW - b) % usizeW)

/-- `a * b * c * …` on `usize`, multiplied from the left. -/
def Mode.prod (o : Mode) : List ℕ → Res ℕ
  | [] => ok 1
  | a :: l => l.foldl (fun acc b => acc >>= fun x => o.mul x b) (ok a)

theorem Mode.mul_ok (o : Mode) {a b : ℕ} (h : a * b < usizeW) : o.mul a b = ok (a * b) := by
  unfold Mode.mul; rw [if_pos h]
theorem Mode.add_ok (o : Mode) {a b : ℕ} (h : a + b < usizeW) : o.add a b = ok (a + b) := by
  unfold Mode.add; rw [if_pos h]
theorem Mode.sub_ok (o : Mode) {a b : ℕ} (h : b ≤ a) : o.sub a b = ok (a - b) := by
  unfold Mode.sub; rw [if_pos h]

end Verif
