/-
Model of src/chebyshev/stencils/helpers.rs
-/
import Verif.Model.Pdma2
import Verif.Model.Tdma
import Verif.Core.Mat

namespace Verif
open Res
variable {K T : Type} [Zero K] [One K] [Neg K] [Add K] [Sub K] [Mul K] [DivBy K K]
  [Zero T] [Add T] [Sub T] [SMul K T] [DivBy K T]

/-- helpers.rs:12-26 `HelperStencil2Diag` (diagonals at offsets 0, -2). -/
structure Stencil2 (K : Type) where
  diag : List K
  low2 : List K
  tdmaDiag : List K
  tdmaOff2 : List K

/-- helpers.rs:28-43 `HelperStencil3Diag` (diagonals at offsets 0, -1, -2). -/
structure Stencil3 (K : Type) where
  diag : List K
  low1 : List K
  low2 : List K
  fdmaDiag : List K
  fdmaOff1 : List K
  fdmaOff2 : List K

/-- helpers.rs:45-63 `HelperStencil3Diag2` (diagonals at offsets 0, -2, -4). -/
structure Stencil4 (K : Type) where
  diag : List K
  low2 : List K
  low4 : List K
  fdmaDiag : List K
  fdmaOff2 : List K
  fdmaOff4 : List K

namespace Stencil2

/-- helpers.rs:67-75 `new` with 78-89 `get_tdma_diagonals` inlined. -/
def new (diag low2 : List K) : Res (Stencil2 K) := do
  let m := diag.length                                                       -- 79
  let tdmaDiag := List.replicate m (0 : K)                                   -- 80
  let tdmaOff2 := List.replicate (← m -! 2) (0 : K)                          -- 81
  let tdmaDiag ← forRange 0 tdmaDiag.length (fun i v => do                   -- 82-84
    wrC v i ((← rdC diag i) * (← rdC diag i) + (← rdC low2 i) * (← rdC low2 i))) tdmaDiag
  let tdmaOff2 ← forRange 0 tdmaOff2.length (fun i v => do                   -- 85-87
    wrC v i ((← rdC diag (i + 2)) * (← rdC low2 i))) tdmaOff2
  pure ⟨diag, low2, tdmaDiag, tdmaOff2⟩

/-- helpers.rs:92-100 `to_array`.  (Column-major `.f()` layout does not affect entries.) -/
def toArray (s : Stencil2 K) : Res (Mat K) := do
  let m := s.diag.length
  forRange 0 (min s.diag.length s.low2.length) (fun i mat => do
    let mat ← mat.wrC i i (← rdC s.diag i)
    mat.wrC (i + 2) i (← rdC s.low2 i)) (Mat.zeros (m + 2) m)

/-- helpers.rs:107-122 `pinv`. -/
def pinv (s : Stencil2 K) : Res (Mat K) := do
  let m := s.diag.length
  let n := m + 2
  forRange 0 m (fun i p => do
    let p ← p.wrC i i (← divR (1 : K) (← rdC s.diag i))                      -- 113
    (if i ≥ 2 then do                                                        -- 115
      forRev2 (← i -! 1) (fun j p => do                                      -- 116
        p.wrC i j (← divR (-1 * ((← p.rdC i (j + 2)) * (← rdC s.low2 j)))
          (← rdC s.diag j))) p                                               -- 117
    else pure p)) (Mat.zeros m n)

/-- helpers.rs:127-149 `dot_inplace`; returns the new content of `u`. -/
def dot (s : Stencil2 K) (v u : List T) : Res (List T) := do
  assertR (v.length = s.diag.length)                                         -- 137
  let n := u.length
  let u ← wr u 0 ((← rd s.diag 0) • (← rd v 0))                              -- 140
  let u ← wr u 1 ((← rd s.diag 1) • (← rd v 1))                              -- 141
  let u ← forRange 2 (← n -! 2) (fun i u => do                               -- 142-145
    wr u i ((← rd s.diag i) • (← rd v i)
      + (← rd s.low2 (← i -! 2)) • (← rd v (← i -! 2)))) u
  let u ← wr u (← n -! 2) ((← rd s.low2 (← n -! 4)) • (← rd v (← n -! 4)))   -- 146
  wr u (← n -! 1) ((← rd s.low2 (← n -! 3)) • (← rd v (← n -! 3)))           -- 147

/-- helpers.rs:154-180 `solve_inplace`; returns the new content of `v`. -/
def solve (s : Stencil2 K) (u v : List T) : Res (List T) := do
  let v ← forRange 0 v.length (fun i v => do                                 -- 172-175
    wr v i ((← rd s.diag i) • (← rd u i) + (← rd s.low2 i) • (← rd u (i + 2)))) v
  tdma s.tdmaOff2 s.tdmaDiag s.tdmaOff2 v                                    -- 179

end Stencil2

namespace Stencil3

/-- helpers.rs:185-195 `new` with 197-212 `get_fdma_diagonals` inlined. -/
def new (diag low1 low2 : List K) : Res (Stencil3 K) := do
  let m := diag.length                                                       -- 198
  let main := List.replicate m (0 : K)                                       -- 199
  let off1 := List.replicate (← m -! 1) (0 : K)                              -- 200
  let off2 := List.replicate (← m -! 2) (0 : K)                              -- 201
  let main ← forRange 0 main.length (fun i v => do                           -- 202-204
    wrC v i ((← rdC diag i) * (← rdC diag i) + (← rdC low1 i) * (← rdC low1 i)
      + (← rdC low2 i) * (← rdC low2 i))) main
  let off1 ← forRange 0 off1.length (fun i v => do                           -- 205-207
    wrC v i ((← rdC diag (i + 1)) * (← rdC low1 i)
      + (← rdC low1 (i + 1)) * (← rdC low2 i))) off1
  let off2 ← forRange 0 off2.length (fun i v => do                           -- 208-210
    wrC v i ((← rdC diag (i + 2)) * (← rdC low2 i))) off2
  pure ⟨diag, low1, low2, main, off1, off2⟩

/-- helpers.rs:289-304 `to_array`. -/
def toArray (s : Stencil3 K) : Res (Mat K) := do
  let m := s.diag.length
  forRange 0 (min (min s.diag.length s.low1.length) s.low2.length) (fun i mat => do
    let mat ← mat.wrC i i (← rdC s.diag i)
    let mat ← mat.wrC (i + 1) i (← rdC s.low1 i)
    mat.wrC (i + 2) i (← rdC s.low2 i)) (Mat.zeros (m + 2) m)

/-- helpers.rs:312-333 `pinv`. -/
def pinv (s : Stencil3 K) : Res (Mat K) := do
  let m := s.diag.length
  let n := m + 2
  forRange 0 m (fun i p => do
    let p ← p.wrC i i (← divR (1 : K) (← rdC s.diag i))                      -- 318
    let p ← (if i ≥ 1 then do                                                -- 320-323
        let j ← i -! 1
        p.wrC i j (← divR (-1 * ((← p.rdC i (j + 1)) * (← rdC s.low1 j))) (← rdC s.diag j))
      else pure p)
    (if i ≥ 2 then do                                                        -- 324-330
      forRev 0 (← i -! 1) (fun j p => do
        p.wrC i j (← divR (-1 * ((← p.rdC i (j + 2)) * (← rdC s.low2 j)
          + (← p.rdC i (j + 1)) * (← rdC s.low1 j))) (← rdC s.diag j))) p
    else pure p)) (Mat.zeros m n)

/-- helpers.rs:217-247 `dot_inplace`. -/
def dot (s : Stencil3 K) (v u : List T) : Res (List T) := do
  assertR (v.length = s.diag.length)                                         -- 231
  let n := u.length
  let u ← wr u 0 ((← rd s.diag 0) • (← rd v 0))                              -- 235
  let u ← wr u 1 ((← rd s.diag 1) • (← rd v 1) + (← rd s.low1 0) • (← rd v 0)) -- 236-237
  let u ← forRange 2 (← n -! 2) (fun i u => do                               -- 238-242
    wr u i ((← rd s.diag i) • (← rd v i)
      + (← rd s.low1 (← i -! 1)) • (← rd v (← i -! 1))
      + (← rd s.low2 (← i -! 2)) • (← rd v (← i -! 2)))) u
  let u ← wr u (← n -! 2) ((← rd s.low1 (← n -! 3)) • (← rd v (← n -! 3))
    + (← rd s.low2 (← n -! 4)) • (← rd v (← n -! 4)))                        -- 243-244
  wr u (← n -! 1) ((← rd s.low2 (← n -! 3)) • (← rd v (← n -! 3)))           -- 245

/-- helpers.rs:252-286 `solve_inplace`. -/
def solve (s : Stencil3 K) (u v : List T) : Res (List T) := do
  let v ← forRange 0 v.length (fun i v => do                                 -- 270-274
    wr v i ((← rd s.diag i) • (← rd u i) + (← rd s.low1 i) • (← rd u (i + 1))
      + (← rd s.low2 i) • (← rd u (i + 2)))) v
  pdma s.fdmaOff2 s.fdmaOff1 s.fdmaDiag s.fdmaOff1 s.fdmaOff2 v              -- 278-285

end Stencil3

namespace Stencil4

/-- helpers.rs:338-348 `new` with 351-366 `get_fdma_diagonals` inlined. -/
def new (diag low2 low4 : List K) : Res (Stencil4 K) := do
  let m := diag.length                                                       -- 352
  let main := List.replicate m (0 : K)                                       -- 353
  let off2 := List.replicate (← m -! 2) (0 : K)                              -- 354
  let off4 := List.replicate (← m -! 4) (0 : K)                              -- 355
  let main ← forRange 0 main.length (fun i v => do                           -- 356-358
    wrC v i ((← rdC diag i) * (← rdC diag i) + (← rdC low2 i) * (← rdC low2 i)
      + (← rdC low4 i) * (← rdC low4 i))) main
  let off2 ← forRange 0 off2.length (fun i v => do                           -- 359-361
    wrC v i ((← rdC diag (i + 2)) * (← rdC low2 i)
      + (← rdC low2 (i + 2)) * (← rdC low4 i))) off2
  let off4 ← forRange 0 off4.length (fun i v => do                           -- 362-364
    wrC v i ((← rdC diag (i + 4)) * (← rdC low4 i))) off4
  pure ⟨diag, low2, low4, main, off2, off4⟩

/-- helpers.rs:450-465 `to_array`. -/
def toArray (s : Stencil4 K) : Res (Mat K) := do
  let m := s.diag.length
  forRange 0 (min (min s.diag.length s.low2.length) s.low4.length) (fun i mat => do
    let mat ← mat.wrC i i (← rdC s.diag i)
    let mat ← mat.wrC (i + 2) i (← rdC s.low2 i)
    mat.wrC (i + 4) i (← rdC s.low4 i)) (Mat.zeros (m + 4) m)

/-- helpers.rs:473-494 `pinv`. -/
def pinv (s : Stencil4 K) : Res (Mat K) := do
  let m := s.diag.length
  let n := m + 4
  forRange 0 m (fun i p => do
    let p ← p.wrC i i (← divR (1 : K) (← rdC s.diag i))                      -- 479
    let p ← (if i ≥ 2 then do                                                -- 481-484
        let j ← i -! 2
        p.wrC i j (← divR (-1 * ((← p.rdC i (j + 2)) * (← rdC s.low2 j))) (← rdC s.diag j))
      else pure p)
    (if i ≥ 4 then do                                                        -- 485-491
      forRev2 (← i -! 1) (fun j p => do
        p.wrC i j (← divR (-1 * ((← p.rdC i (j + 4)) * (← rdC s.low4 j)
          + (← p.rdC i (j + 2)) * (← rdC s.low2 j))) (← rdC s.diag j))) p
    else pure p)) (Mat.zeros m n)

/-- helpers.rs:388-400: the first part of `dot_inplace` (all rows up to `n-4`), `n = u.len()`. -/
def dotHead (s : Stencil4 K) (v u : List T) : Res (List T) := do
  let n := u.length
  let u ← wr u 0 ((← rd s.diag 0) • (← rd v 0))                              -- 388
  let u ← wr u 1 ((← rd s.diag 1) • (← rd v 1))                              -- 389
  let u ← wr u 2 ((← rd s.diag 2) • (← rd v 2) + (← rd s.low2 0) • (← rd v 0)) -- 390-391
  let u ← wr u 3 ((← rd s.diag 3) • (← rd v 3) + (← rd s.low2 1) • (← rd v 1)) -- 392-393
  let u ← forRange 4 (← n -! 4) (fun i u => do                               -- 394-398
    wr u i ((← rd s.diag i) • (← rd v i)
      + (← rd s.low2 (← i -! 2)) • (← rd v (← i -! 2))
      + (← rd s.low4 (← i -! 4)) • (← rd v (← i -! 4)))) u
  wr u (← n -! 4) ((← rd s.low2 (← n -! 6)) • (← rd v (← n -! 6))
    + (← rd s.low4 (← n -! 8)) • (← rd v (← n -! 8)))                        -- 399-400

/-- helpers.rs:401-406: the last three rows, with the index expressions of the source (401
reads `low2[n-6]`; 403 and 405 read `v[n-4]`, `v[n-3]`). -/
def dotTail (s : Stencil4 K) (v u : List T) : Res (List T) := do
  let n := u.length
  let u ← wr u (← n -! 3) ((← rd s.low2 (← n -! 6)) • (← rd v (← n -! 5))
    + (← rd s.low4 (← n -! 7)) • (← rd v (← n -! 7)))                        -- 401-402
  let u ← wr u (← n -! 2) ((← rd s.low2 (← n -! 4)) • (← rd v (← n -! 4))
    + (← rd s.low4 (← n -! 6)) • (← rd v (← n -! 6)))                        -- 403-404
  wr u (← n -! 1) ((← rd s.low2 (← n -! 3)) • (← rd v (← n -! 3))
    + (← rd s.low4 (← n -! 5)) • (← rd v (← n -! 5)))                        -- 405-406

/-- helpers.rs:371-408 `dot_inplace`. -/
def dot (s : Stencil4 K) (v u : List T) : Res (List T) := do
  assertR (v.length = s.diag.length)                                         -- 385
  let u ← s.dotHead v u
  s.dotTail v u

/-- helpers.rs:413-447 `solve_inplace`. -/
def solve (s : Stencil4 K) (u v : List T) : Res (List T) := do
  let v ← forRange 0 v.length (fun i v => do                                 -- 431-435
    wr v i ((← rd s.diag i) • (← rd u i) + (← rd s.low2 i) • (← rd u (i + 2))
      + (← rd s.low4 i) • (← rd u (i + 4)))) v
  pdma2 s.fdmaOff4 s.fdmaOff2 s.fdmaDiag s.fdmaOff2 s.fdmaOff4 v             -- 439-446

end Stencil4

end Verif
