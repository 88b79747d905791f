/-
Model of src/chebyshev/linalg/tdma.rs
-/
import Verif.Core.Tac

namespace Verif
open Res
variable {K T : Type} [Zero K] [Sub K] [Mul K] [DivBy K K] [Zero T] [Sub T] [SMul K T] [DivBy K T]

/-- src/chebyshev/linalg/tdma.rs:17-69 `tdma`.  Returns the new content of `rhs`.
`x * a` and `x / a` of a datum by a real are `a • x` and `divR x a`. -/
def tdma (l2 d0 u2 : List K) (rhs : List T) : Res (List T) := do
  let n := rhs.length
  assertR (n > 2)                                             -- 39
  let w := List.replicate (← n -! 2) (0 : K)                  -- 40
  let g := List.replicate n (0 : T)                           -- 41
  let w ← wr w 0 (← divR (← rd u2 0) (← rd d0 0))             -- 44
  let g ← wr g 0 (← divR (← rd rhs 0) (← rd d0 0))            -- 45
  let w ← (if u2.length > 1 then do                           -- 46-48
      wr w 1 (← divR (← rd u2 1) (← rd d0 1))
    else pure w)
  let g ← wr g 1 (← divR (← rd rhs 1) (← rd d0 1))            -- 49
  let w ← forRange 2 (← n -! 2) (fun i w => do                -- 51-54
    wr w i (← divR (← rd u2 i)
      ((← rd d0 i) - (← rd l2 (← i -! 2)) * (← rd w (← i -! 2))))) w
  let g ← forRange 2 n (fun i g => do                         -- 55-59
    wr g i (← divR ((← rd rhs i) - (← rd l2 (← i -! 2)) • (← rd g (← i -! 2)))
      ((← rd d0 i) - (← rd l2 (← i -! 2)) * (← rd w (← i -! 2))))) g
  let rhs ← wr rhs (← n -! 1) (← rd g (← n -! 1))             -- 62
  let rhs ← wr rhs (← n -! 2) (← rd g (← n -! 2))             -- 63
  forRev 1 (← n -! 1) (fun i rhs => do                        -- 64-67
    wr rhs (← i -! 1)
      ((← rd g (← i -! 1)) - (← rd w (← i -! 1)) • (← rd rhs (i + 1)))) rhs

/-- src/chebyshev/linalg/tdma.rs:80-127 `tdma_checked`. -/
def tdmaChecked (l2 d0 u2 : List K) (rhs : List T) : Res (List T) := do
  let n := rhs.length
  assertR (n > 2)                                             -- 102
  let w := List.replicate (← n -! 2) (0 : K)                  -- 103
  let g := List.replicate n (0 : T)                           -- 104
  let w ← wrC w 0 (← divR (← rdC u2 0) (← rdC d0 0))          -- 107
  let g ← wrC g 0 (← divR (← rdC rhs 0) (← rdC d0 0))         -- 108
  let w ← (if u2.length > 1 then do                           -- 109-111
      wrC w 1 (← divR (← rdC u2 1) (← rdC d0 1))
    else pure w)
  let g ← wrC g 1 (← divR (← rdC rhs 1) (← rdC d0 1))         -- 112
  let w ← forRange 2 (← n -! 2) (fun i w => do                -- 114-116
    wrC w i (← divR (← rdC u2 i)
      ((← rdC d0 i) - (← rdC l2 (← i -! 2)) * (← rdC w (← i -! 2))))) w
  let g ← forRange 2 n (fun i g => do                         -- 117-119
    wrC g i (← divR ((← rdC rhs i) - (← rdC l2 (← i -! 2)) • (← rdC g (← i -! 2)))
      ((← rdC d0 i) - (← rdC l2 (← i -! 2)) * (← rdC w (← i -! 2))))) g
  let rhs ← wrC rhs (← n -! 1) (← rdC g (← n -! 1))           -- 122
  let rhs ← wrC rhs (← n -! 2) (← rdC g (← n -! 2))           -- 123
  forRev 1 (← n -! 1) (fun i rhs => do                        -- 124-126
    wrC rhs (← i -! 1)
      ((← rdC g (← i -! 1)) - (← rdC w (← i -! 1)) • (← rdC rhs (i + 1)))) rhs

end Verif
