/-
Model of src/chebyshev/linalg/pdma2.rs
-/
import Verif.Model.Pdma

namespace Verif
open Res
variable {K T : Type} [Zero K] [Sub K] [Mul K] [DivBy K K] [Zero T] [Sub T] [SMul K T] [DivBy K T]

/-- src/chebyshev/linalg/pdma2.rs:49-57 rows 0 and 1 of `pdma2`. -/
def pdma2Init01 (d0 u2 u4 : List K) (rhs : List T) (s : PentaWork K T) :
    Res (PentaWork K T) := do
  let mu ← wr s.mu 0 (← rd d0 0)
  let al ← wr s.al 0 (← divR (← rd u2 0) (← rd mu 0))
  let be ← wr s.be 0 (← divR (← rd u4 0) (← rd mu 0))
  let ze ← wr s.ze 0 (← divR (← rd rhs 0) (← rd mu 0))
  let mu ← wr mu 1 (← rd d0 1)
  let al ← wr al 1 (← divR (← rd u2 1) (← rd mu 1))
  let be ← wr be 1 (← divR (← rd u4 1) (← rd mu 1))
  let ze ← wr ze 1 (← divR (← rd rhs 1) (← rd mu 1))
  pure ⟨al, be, ze, s.ga, mu⟩

/-- src/chebyshev/linalg/pdma2.rs:59-70 row 2 of `pdma2`. -/
def pdma2Init2 (l2 d0 u2 u4 : List K) (rhs : List T) (s : PentaWork K T) :
    Res (PentaWork K T) := do
  let ga ← wr s.ga 2 (← rd l2 0)
  let mu ← wr s.mu 2 ((← rd d0 2) - (← rd s.al 0) * (← rd ga 2))
  let al ← wr s.al 2 (← divR ((← rd u2 2) - (← rd s.be 0) * (← rd ga 2)) (← rd mu 2))
  let be ← (if u4.length > 2 then do
      wr s.be 2 (← divR (← rd u4 2) (← rd mu 2))
    else pure s.be)
  let ze ← wr s.ze 2 (← divR ((← rd rhs 2) - (← rd ga 2) • (← rd s.ze 0)) (← rd mu 2))
  pure ⟨al, be, ze, ga, mu⟩

/-- src/chebyshev/linalg/pdma2.rs:72-83 row 3 of `pdma2`. -/
def pdma2Init3 (l2 d0 u2 u4 : List K) (rhs : List T) (s : PentaWork K T) :
    Res (PentaWork K T) := do
  let ga ← wr s.ga 3 (← rd l2 1)
  let mu ← wr s.mu 3 ((← rd d0 3) - (← rd s.al 1) * (← rd ga 3))
  let al ← wr s.al 3 (← divR ((← rd u2 3) - (← rd s.be 1) * (← rd ga 3)) (← rd mu 3))
  let be ← (if u4.length > 3 then do
      wr s.be 3 (← divR (← rd u4 3) (← rd mu 3))
    else pure s.be)
  let ze ← wr s.ze 3 (← divR ((← rd rhs 3) - (← rd ga 3) • (← rd s.ze 1)) (← rd mu 3))
  pure ⟨al, be, ze, ga, mu⟩

/-- src/chebyshev/linalg/pdma2.rs:86-98 body of the first loop of `pdma2`. -/
def pdma2Row (l4 l2 d0 u2 u4 : List K) (rhs : List T) (i : ℕ) (s : PentaWork K T) :
    Res (PentaWork K T) := do
  let ga ← wr s.ga i ((← rd l2 (← i -! 2)) - (← rd s.al (← i -! 4)) * (← rd l4 (← i -! 4)))
  let mu ← wr s.mu i ((← rd d0 i) - (← rd s.be (← i -! 4)) * (← rd l4 (← i -! 4))
    - (← rd s.al (← i -! 2)) * (← rd ga i))
  let al ← wr s.al i (← divR ((← rd u2 i) - (← rd s.be (← i -! 2)) * (← rd ga i)) (← rd mu i))
  let be ← wr s.be i (← divR (← rd u4 i) (← rd mu i))
  let ze ← wr s.ze i (← divR ((← rd rhs i) - (← rd l4 (← i -! 4)) • (← rd s.ze (← i -! 4))
    - (← rd ga i) • (← rd s.ze (← i -! 2))) (← rd mu i))
  pure ⟨al, be, ze, ga, mu⟩

/-- src/chebyshev/linalg/pdma2.rs:100-113 row `n-4` of `pdma2` (skipped if `l4` is short). -/
def pdma2RowN4 (l4 l2 d0 u2 : List K) (rhs : List T) (n : ℕ) (s : PentaWork K T) :
    Res (PentaWork K T) :=
  if l4.length > 3 then do
    let ga ← wr s.ga (← n -! 4)
      ((← rd l2 (← n -! 6)) - (← rd s.al (← n -! 8)) * (← rd l4 (← n -! 8)))
    let mu ← wr s.mu (← n -! 4) ((← rd d0 (← n -! 4))
      - (← rd s.be (← n -! 8)) * (← rd l4 (← n -! 8))
      - (← rd s.al (← n -! 6)) * (← rd ga (← n -! 4)))
    let al ← wr s.al (← n -! 4) (← divR ((← rd u2 (← n -! 4))
      - (← rd s.be (← n -! 6)) * (← rd ga (← n -! 4))) (← rd mu (← n -! 4)))
    let ze ← wr s.ze (← n -! 4) (← divR ((← rd rhs (← n -! 4))
      - (← rd l4 (← n -! 8)) • (← rd s.ze (← n -! 8))
      - (← rd ga (← n -! 4)) • (← rd s.ze (← n -! 6))) (← rd mu (← n -! 4)))
    pure ⟨al, s.be, ze, ga, mu⟩
  else pure s

/-- src/chebyshev/linalg/pdma2.rs:114-127 row `n-3` of `pdma2` (skipped if `l4` is short). -/
def pdma2RowN3 (l4 l2 d0 u2 : List K) (rhs : List T) (n : ℕ) (s : PentaWork K T) :
    Res (PentaWork K T) :=
  if l4.length > 2 then do
    let ga ← wr s.ga (← n -! 3)
      ((← rd l2 (← n -! 5)) - (← rd s.al (← n -! 7)) * (← rd l4 (← n -! 7)))
    let mu ← wr s.mu (← n -! 3) ((← rd d0 (← n -! 3))
      - (← rd s.be (← n -! 7)) * (← rd l4 (← n -! 7))
      - (← rd s.al (← n -! 5)) * (← rd ga (← n -! 3)))
    let al ← wr s.al (← n -! 3) (← divR ((← rd u2 (← n -! 3))
      - (← rd s.be (← n -! 5)) * (← rd ga (← n -! 3))) (← rd mu (← n -! 3)))
    let ze ← wr s.ze (← n -! 3) (← divR ((← rd rhs (← n -! 3))
      - (← rd l4 (← n -! 7)) • (← rd s.ze (← n -! 7))
      - (← rd ga (← n -! 3)) • (← rd s.ze (← n -! 5))) (← rd mu (← n -! 3)))
    pure ⟨al, s.be, ze, ga, mu⟩
  else pure s

/-- src/chebyshev/linalg/pdma2.rs:128-136 row `n-2` of `pdma2`. -/
def pdma2RowN2 (l4 l2 d0 : List K) (rhs : List T) (n : ℕ) (s : PentaWork K T) :
    Res (PentaWork K T) := do
  let ga ← wr s.ga (← n -! 2)
    ((← rd l2 (← n -! 4)) - (← rd s.al (← n -! 6)) * (← rd l4 (← n -! 6)))
  let mu ← wr s.mu (← n -! 2) ((← rd d0 (← n -! 2)) - (← rd s.be (← n -! 6)) * (← rd l4 (← n -! 6))
    - (← rd s.al (← n -! 4)) * (← rd ga (← n -! 2)))
  let ze ← wr s.ze (← n -! 2) (← divR ((← rd rhs (← n -! 2))
    - (← rd l4 (← n -! 6)) • (← rd s.ze (← n -! 6))
    - (← rd ga (← n -! 2)) • (← rd s.ze (← n -! 4))) (← rd mu (← n -! 2)))
  pure ⟨s.al, s.be, ze, ga, mu⟩

/-- src/chebyshev/linalg/pdma2.rs:138-147 row `n-1` of `pdma2`. -/
def pdma2RowN1 (l4 l2 d0 : List K) (rhs : List T) (n : ℕ) (s : PentaWork K T) :
    Res (PentaWork K T) := do
  let ga ← wr s.ga (← n -! 1)
    ((← rd l2 (← n -! 3)) - (← rd s.al (← n -! 5)) * (← rd l4 (← n -! 5)))
  let mu ← wr s.mu (← n -! 1) ((← rd d0 (← n -! 1)) - (← rd s.be (← n -! 5)) * (← rd l4 (← n -! 5))
    - (← rd s.al (← n -! 3)) * (← rd ga (← n -! 1)))
  let ze ← wr s.ze (← n -! 1) (← divR ((← rd rhs (← n -! 1))
    - (← rd l4 (← n -! 5)) • (← rd s.ze (← n -! 5))
    - (← rd ga (← n -! 1)) • (← rd s.ze (← n -! 3))) (← rd mu (← n -! 1)))
  pure ⟨s.al, s.be, ze, ga, mu⟩

/-- src/chebyshev/linalg/pdma2.rs:19-163 `pdma2`.  Returns the new content of `rhs`. -/
def pdma2 (l4 l2 d0 u2 u4 : List K) (rhs : List T) : Res (List T) := do
  let n := rhs.length
  assertR (n > 5)
  let s : PentaWork K T :=
    ⟨List.replicate (← n -! 2) 0, List.replicate (← n -! 4) 0, List.replicate n 0,
     List.replicate n 0, List.replicate n 0⟩
  let s ← pdma2Init01 d0 u2 u4 rhs s
  let s ← pdma2Init2 l2 d0 u2 u4 rhs s
  let s ← pdma2Init3 l2 d0 u2 u4 rhs s
  let s ← forRange 4 (← n -! 4) (pdma2Row l4 l2 d0 u2 u4 rhs) s
  let s ← pdma2RowN4 l4 l2 d0 u2 rhs n s
  let s ← pdma2RowN3 l4 l2 d0 u2 rhs n s
  let s ← pdma2RowN2 l4 l2 d0 rhs n s
  let s ← pdma2RowN1 l4 l2 d0 rhs n s
  let rhs ← wr rhs (← n -! 1) (← rd s.ze (← n -! 1))
  let rhs ← wr rhs (← n -! 2) (← rd s.ze (← n -! 2))
  let rhs ← wr rhs (← n -! 3)
    ((← rd s.ze (← n -! 3)) - (← rd s.al (← n -! 3)) • (← rd rhs (← n -! 1)))
  let rhs ← wr rhs (← n -! 4)
    ((← rd s.ze (← n -! 4)) - (← rd s.al (← n -! 4)) • (← rd rhs (← n -! 2)))
  forRev 0 (← n -! 4) (fun i rhs => do
    wr rhs i ((← rd s.ze i) - (← rd s.al i) • (← rd rhs (i + 2))
      - (← rd s.be i) • (← rd rhs (i + 4)))) rhs

/-- src/chebyshev/linalg/pdma2.rs:206-214 rows 0 and 1 of `pdma2_checked`. -/
def pdma2CheckedInit01 (d0 u2 u4 : List K) (rhs : List T) (s : PentaWork K T) :
    Res (PentaWork K T) := do
  let mu ← wrC s.mu 0 (← rdC d0 0)
  let al ← wrC s.al 0 (← divR (← rdC u2 0) (← rdC mu 0))
  let be ← wrC s.be 0 (← divR (← rdC u4 0) (← rdC mu 0))
  let ze ← wrC s.ze 0 (← divR (← rdC rhs 0) (← rdC mu 0))
  let mu ← wrC mu 1 (← rdC d0 1)
  let al ← wrC al 1 (← divR (← rdC u2 1) (← rdC mu 1))
  let be ← wrC be 1 (← divR (← rdC u4 1) (← rdC mu 1))
  let ze ← wrC ze 1 (← divR (← rdC rhs 1) (← rdC mu 1))
  pure ⟨al, be, ze, s.ga, mu⟩

/-- src/chebyshev/linalg/pdma2.rs:216-222 row 2 of `pdma2_checked`. -/
def pdma2CheckedInit2 (l2 d0 u2 u4 : List K) (rhs : List T) (s : PentaWork K T) :
    Res (PentaWork K T) := do
  let ga ← wrC s.ga 2 (← rdC l2 0)
  let mu ← wrC s.mu 2 ((← rdC d0 2) - (← rdC s.al 0) * (← rdC ga 2))
  let al ← wrC s.al 2 (← divR ((← rdC u2 2) - (← rdC s.be 0) * (← rdC ga 2)) (← rdC mu 2))
  let be ← (if u4.length > 2 then do
      wrC s.be 2 (← divR (← rdC u4 2) (← rdC mu 2))
    else pure s.be)
  let ze ← wrC s.ze 2 (← divR ((← rdC rhs 2) - (← rdC ga 2) • (← rdC s.ze 0)) (← rdC mu 2))
  pure ⟨al, be, ze, ga, mu⟩

/-- src/chebyshev/linalg/pdma2.rs:224-230 row 3 of `pdma2_checked`. -/
def pdma2CheckedInit3 (l2 d0 u2 u4 : List K) (rhs : List T) (s : PentaWork K T) :
    Res (PentaWork K T) := do
  let ga ← wrC s.ga 3 (← rdC l2 1)
  let mu ← wrC s.mu 3 ((← rdC d0 3) - (← rdC s.al 1) * (← rdC ga 3))
  let al ← wrC s.al 3 (← divR ((← rdC u2 3) - (← rdC s.be 1) * (← rdC ga 3)) (← rdC mu 3))
  let be ← (if u4.length > 3 then do
      wrC s.be 3 (← divR (← rdC u4 3) (← rdC mu 3))
    else pure s.be)
  let ze ← wrC s.ze 3 (← divR ((← rdC rhs 3) - (← rdC ga 3) • (← rdC s.ze 1)) (← rdC mu 3))
  pure ⟨al, be, ze, ga, mu⟩

/-- src/chebyshev/linalg/pdma2.rs:233-237 body of the first loop of `pdma2_checked`. -/
def pdma2CheckedRow (l4 l2 d0 u2 u4 : List K) (rhs : List T) (i : ℕ) (s : PentaWork K T) :
    Res (PentaWork K T) := do
  let ga ← wrC s.ga i ((← rdC l2 (← i -! 2)) - (← rdC s.al (← i -! 4)) * (← rdC l4 (← i -! 4)))
  let mu ← wrC s.mu i ((← rdC d0 i) - (← rdC s.be (← i -! 4)) * (← rdC l4 (← i -! 4))
    - (← rdC s.al (← i -! 2)) * (← rdC ga i))
  let al ← wrC s.al i (← divR ((← rdC u2 i) - (← rdC s.be (← i -! 2)) * (← rdC ga i)) (← rdC mu i))
  let be ← wrC s.be i (← divR (← rdC u4 i) (← rdC mu i))
  let ze ← wrC s.ze i (← divR ((← rdC rhs i) - (← rdC l4 (← i -! 4)) • (← rdC s.ze (← i -! 4))
    - (← rdC ga i) • (← rdC s.ze (← i -! 2))) (← rdC mu i))
  pure ⟨al, be, ze, ga, mu⟩

/-- src/chebyshev/linalg/pdma2.rs:239-244 row `n-4` of `pdma2_checked` (skipped if `l4` is short). -/
def pdma2CheckedRowN4 (l4 l2 d0 u2 : List K) (rhs : List T) (n : ℕ) (s : PentaWork K T) :
    Res (PentaWork K T) :=
  if l4.length > 3 then do
    let ga ← wrC s.ga (← n -! 4)
      ((← rdC l2 (← n -! 6)) - (← rdC s.al (← n -! 8)) * (← rdC l4 (← n -! 8)))
    let mu ← wrC s.mu (← n -! 4) ((← rdC d0 (← n -! 4))
      - (← rdC s.be (← n -! 8)) * (← rdC l4 (← n -! 8))
      - (← rdC s.al (← n -! 6)) * (← rdC ga (← n -! 4)))
    let al ← wrC s.al (← n -! 4) (← divR ((← rdC u2 (← n -! 4))
      - (← rdC s.be (← n -! 6)) * (← rdC ga (← n -! 4))) (← rdC mu (← n -! 4)))
    let ze ← wrC s.ze (← n -! 4) (← divR ((← rdC rhs (← n -! 4))
      - (← rdC l4 (← n -! 8)) • (← rdC s.ze (← n -! 8))
      - (← rdC ga (← n -! 4)) • (← rdC s.ze (← n -! 6))) (← rdC mu (← n -! 4)))
    pure ⟨al, s.be, ze, ga, mu⟩
  else pure s

/-- src/chebyshev/linalg/pdma2.rs:245-250 row `n-3` of `pdma2_checked` (skipped if `l4` is short). -/
def pdma2CheckedRowN3 (l4 l2 d0 u2 : List K) (rhs : List T) (n : ℕ) (s : PentaWork K T) :
    Res (PentaWork K T) :=
  if l4.length > 2 then do
    let ga ← wrC s.ga (← n -! 3)
      ((← rdC l2 (← n -! 5)) - (← rdC s.al (← n -! 7)) * (← rdC l4 (← n -! 7)))
    let mu ← wrC s.mu (← n -! 3) ((← rdC d0 (← n -! 3))
      - (← rdC s.be (← n -! 7)) * (← rdC l4 (← n -! 7))
      - (← rdC s.al (← n -! 5)) * (← rdC ga (← n -! 3)))
    let al ← wrC s.al (← n -! 3) (← divR ((← rdC u2 (← n -! 3))
      - (← rdC s.be (← n -! 5)) * (← rdC ga (← n -! 3))) (← rdC mu (← n -! 3)))
    let ze ← wrC s.ze (← n -! 3) (← divR ((← rdC rhs (← n -! 3))
      - (← rdC l4 (← n -! 7)) • (← rdC s.ze (← n -! 7))
      - (← rdC ga (← n -! 3)) • (← rdC s.ze (← n -! 5))) (← rdC mu (← n -! 3)))
    pure ⟨al, s.be, ze, ga, mu⟩
  else pure s

/-- src/chebyshev/linalg/pdma2.rs:252-254 row `n-2` of `pdma2_checked`. -/
def pdma2CheckedRowN2 (l4 l2 d0 : List K) (rhs : List T) (n : ℕ) (s : PentaWork K T) :
    Res (PentaWork K T) := do
  let ga ← wrC s.ga (← n -! 2)
    ((← rdC l2 (← n -! 4)) - (← rdC s.al (← n -! 6)) * (← rdC l4 (← n -! 6)))
  let mu ← wrC s.mu (← n -! 2) ((← rdC d0 (← n -! 2)) - (← rdC s.be (← n -! 6)) * (← rdC l4 (← n -! 6))
    - (← rdC s.al (← n -! 4)) * (← rdC ga (← n -! 2)))
  let ze ← wrC s.ze (← n -! 2) (← divR ((← rdC rhs (← n -! 2))
    - (← rdC l4 (← n -! 6)) • (← rdC s.ze (← n -! 6))
    - (← rdC ga (← n -! 2)) • (← rdC s.ze (← n -! 4))) (← rdC mu (← n -! 2)))
  pure ⟨s.al, s.be, ze, ga, mu⟩

/-- src/chebyshev/linalg/pdma2.rs:256-258 row `n-1` of `pdma2_checked`. -/
def pdma2CheckedRowN1 (l4 l2 d0 : List K) (rhs : List T) (n : ℕ) (s : PentaWork K T) :
    Res (PentaWork K T) := do
  let ga ← wrC s.ga (← n -! 1)
    ((← rdC l2 (← n -! 3)) - (← rdC s.al (← n -! 5)) * (← rdC l4 (← n -! 5)))
  let mu ← wrC s.mu (← n -! 1) ((← rdC d0 (← n -! 1)) - (← rdC s.be (← n -! 5)) * (← rdC l4 (← n -! 5))
    - (← rdC s.al (← n -! 3)) * (← rdC ga (← n -! 1)))
  let ze ← wrC s.ze (← n -! 1) (← divR ((← rdC rhs (← n -! 1))
    - (← rdC l4 (← n -! 5)) • (← rdC s.ze (← n -! 5))
    - (← rdC ga (← n -! 1)) • (← rdC s.ze (← n -! 3))) (← rdC mu (← n -! 1)))
  pure ⟨s.al, s.be, ze, ga, mu⟩

/-- src/chebyshev/linalg/pdma2.rs:176-269 `pdma2_checked`.  Returns the new content of `rhs`. -/
def pdma2Checked (l4 l2 d0 u2 u4 : List K) (rhs : List T) : Res (List T) := do
  let n := rhs.length
  assertR (n > 5)
  let s : PentaWork K T :=
    ⟨List.replicate (← n -! 2) 0, List.replicate (← n -! 4) 0, List.replicate n 0,
     List.replicate n 0, List.replicate n 0⟩
  let s ← pdma2CheckedInit01 d0 u2 u4 rhs s
  let s ← pdma2CheckedInit2 l2 d0 u2 u4 rhs s
  let s ← pdma2CheckedInit3 l2 d0 u2 u4 rhs s
  let s ← forRange 4 (← n -! 4) (pdma2CheckedRow l4 l2 d0 u2 u4 rhs) s
  let s ← pdma2CheckedRowN4 l4 l2 d0 u2 rhs n s
  let s ← pdma2CheckedRowN3 l4 l2 d0 u2 rhs n s
  let s ← pdma2CheckedRowN2 l4 l2 d0 rhs n s
  let s ← pdma2CheckedRowN1 l4 l2 d0 rhs n s
  let rhs ← wrC rhs (← n -! 1) (← rdC s.ze (← n -! 1))
  let rhs ← wrC rhs (← n -! 2) (← rdC s.ze (← n -! 2))
  let rhs ← wrC rhs (← n -! 3)
    ((← rdC s.ze (← n -! 3)) - (← rdC s.al (← n -! 3)) • (← rdC rhs (← n -! 1)))
  let rhs ← wrC rhs (← n -! 4)
    ((← rdC s.ze (← n -! 4)) - (← rdC s.al (← n -! 4)) • (← rdC rhs (← n -! 2)))
  forRev 0 (← n -! 4) (fun i rhs => do
    wrC rhs i ((← rdC s.ze i) - (← rdC s.al i) • (← rdC rhs (i + 2))
      - (← rdC s.be i) • (← rdC rhs (i + 4)))) rhs

end Verif
