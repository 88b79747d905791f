/-
Model of src/chebyshev/linalg/pdma.rs
-/
import Verif.Core.Tac

namespace Verif
open Res
variable {K T : Type} [Zero K] [Sub K] [Mul K] [DivBy K K] [Zero T] [Sub T] [SMul K T] [DivBy K T]

/-- The five work vectors allocated in `pdma` / `pdma2`
(src/chebyshev/linalg/pdma.rs:43-47, src/chebyshev/linalg/pdma2.rs:43-47). -/
structure PentaWork (K T : Type) where
  al : List K
  be : List K
  ze : List T
  ga : List K
  mu : List K

/-- src/chebyshev/linalg/pdma.rs:67-79 body of the first loop of `pdma`. -/
def pdmaRow (l2 l1 d0 u1 u2 : List K) (rhs : List T) (i : ℕ) (s : PentaWork K T) :
    Res (PentaWork K T) := do
  let ga ← wr s.ga i ((← rd l1 (← i -! 1)) - (← rd s.al (← i -! 2)) * (← rd l2 (← i -! 2)))
  let mu ← wr s.mu i ((← rd d0 i) - (← rd s.be (← i -! 2)) * (← rd l2 (← i -! 2))
    - (← rd s.al (← i -! 1)) * (← rd ga i))
  let al ← wr s.al i (← divR ((← rd u1 i) - (← rd s.be (← i -! 1)) * (← rd ga i)) (← rd mu i))
  let be ← wr s.be i (← divR (← rd u2 i) (← rd mu i))
  let ze ← wr s.ze i (← divR ((← rd rhs i) - (← rd l2 (← i -! 2)) • (← rd s.ze (← i -! 2))
    - (← rd ga i) • (← rd s.ze (← i -! 1))) (← rd mu i))
  pure ⟨al, be, ze, ga, mu⟩

/-- src/chebyshev/linalg/pdma.rs:50-64 initialisation (rows 0 and 1) of `pdma`. -/
def pdmaInit (l1 d0 u1 u2 : List K) (rhs : List T) (s : PentaWork K T) :
    Res (PentaWork K T) := do
  let mu ← wr s.mu 0 (← rd d0 0)
  let al ← wr s.al 0 (← divR (← rd u1 0) (← rd mu 0))
  let be ← wr s.be 0 (← divR (← rd u2 0) (← rd mu 0))
  let ze ← wr s.ze 0 (← divR (← rd rhs 0) (← rd mu 0))
  let ga ← wr s.ga 1 (← rd l1 0)
  let mu ← wr mu 1 ((← rd d0 1) - (← rd al 0) * (← rd ga 1))
  let al ← wr al 1 (← divR ((← rd u1 1) - (← rd be 0) * (← rd ga 1)) (← rd mu 1))
  let be ← wr be 1 (← divR (← rd u2 1) (← rd mu 1))
  let ze ← wr ze 1 (← divR ((← rd rhs 1) - (← rd ga 1) • (← rd ze 0)) (← rd mu 1))
  pure ⟨al, be, ze, ga, mu⟩

/-- src/chebyshev/linalg/pdma.rs:82-93 row `n-2` of `pdma`. -/
def pdmaRowN2 (l2 l1 d0 u1 : List K) (rhs : List T) (n : ℕ) (s : PentaWork K T) :
    Res (PentaWork K T) := do
  let ga ← wr s.ga (← n -! 2)
    ((← rd l1 (← n -! 3)) - (← rd s.al (← n -! 4)) * (← rd l2 (← n -! 4)))
  let mu ← wr s.mu (← n -! 2) ((← rd d0 (← n -! 2)) - (← rd s.be (← n -! 4)) * (← rd l2 (← n -! 4))
    - (← rd s.al (← n -! 3)) * (← rd ga (← n -! 2)))
  let al ← wr s.al (← n -! 2) (← divR ((← rd u1 (← n -! 2))
    - (← rd s.be (← n -! 3)) * (← rd ga (← n -! 2))) (← rd mu (← n -! 2)))
  let ze ← wr s.ze (← n -! 2) (← divR ((← rd rhs (← n -! 2))
    - (← rd l2 (← n -! 4)) • (← rd s.ze (← n -! 4))
    - (← rd ga (← n -! 2)) • (← rd s.ze (← n -! 3))) (← rd mu (← n -! 2)))
  pure ⟨al, s.be, ze, ga, mu⟩

/-- src/chebyshev/linalg/pdma.rs:95-103 row `n-1` of `pdma`. -/
def pdmaRowN1 (l2 l1 d0 : List K) (rhs : List T) (n : ℕ) (s : PentaWork K T) :
    Res (PentaWork K T) := do
  let ga ← wr s.ga (← n -! 1)
    ((← rd l1 (← n -! 2)) - (← rd s.al (← n -! 3)) * (← rd l2 (← n -! 3)))
  let mu ← wr s.mu (← n -! 1) ((← rd d0 (← n -! 1)) - (← rd s.be (← n -! 3)) * (← rd l2 (← n -! 3))
    - (← rd s.al (← n -! 2)) * (← rd ga (← n -! 1)))
  let ze ← wr s.ze (← n -! 1) (← divR ((← rd rhs (← n -! 1))
    - (← rd l2 (← n -! 3)) • (← rd s.ze (← n -! 3))
    - (← rd ga (← n -! 1)) • (← rd s.ze (← n -! 2))) (← rd mu (← n -! 1)))
  pure ⟨s.al, s.be, ze, ga, mu⟩

/-- src/chebyshev/linalg/pdma.rs:19-116 `pdma`.  Returns the new content of `rhs`. -/
def pdma (l2 l1 d0 u1 u2 : List K) (rhs : List T) : Res (List T) := do
  let n := rhs.length
  assertR (n > 3)
  let s : PentaWork K T :=
    ⟨List.replicate (← n -! 1) 0, List.replicate (← n -! 2) 0, List.replicate n 0,
     List.replicate n 0, List.replicate n 0⟩
  let s ← pdmaInit l1 d0 u1 u2 rhs s
  let s ← forRange 2 (← n -! 2) (pdmaRow l2 l1 d0 u1 u2 rhs) s
  let s ← pdmaRowN2 l2 l1 d0 u1 rhs n s
  let s ← pdmaRowN1 l2 l1 d0 rhs n s
  let rhs ← wr rhs (← n -! 1) (← rd s.ze (← n -! 1))
  let rhs ← wr rhs (← n -! 2)
    ((← rd s.ze (← n -! 2)) - (← rd s.al (← n -! 2)) • (← rd rhs (← n -! 1)))
  forRev 0 (← n -! 2) (fun i rhs => do
    wr rhs i ((← rd s.ze i) - (← rd s.al i) • (← rd rhs (i + 1))
      - (← rd s.be i) • (← rd rhs (i + 2)))) rhs

/-- src/chebyshev/linalg/pdma.rs:171-175 body of the first loop of `pdma_checked`. -/
def pdmaCheckedRow (l2 l1 d0 u1 u2 : List K) (rhs : List T) (i : ℕ) (s : PentaWork K T) :
    Res (PentaWork K T) := do
  let ga ← wrC s.ga i ((← rdC l1 (← i -! 1)) - (← rdC s.al (← i -! 2)) * (← rdC l2 (← i -! 2)))
  let mu ← wrC s.mu i ((← rdC d0 i) - (← rdC s.be (← i -! 2)) * (← rdC l2 (← i -! 2))
    - (← rdC s.al (← i -! 1)) * (← rdC ga i))
  let al ← wrC s.al i (← divR ((← rdC u1 i) - (← rdC s.be (← i -! 1)) * (← rdC ga i)) (← rdC mu i))
  let be ← wrC s.be i (← divR (← rdC u2 i) (← rdC mu i))
  let ze ← wrC s.ze i (← divR ((← rdC rhs i) - (← rdC l2 (← i -! 2)) • (← rdC s.ze (← i -! 2))
    - (← rdC ga i) • (← rdC s.ze (← i -! 1))) (← rdC mu i))
  pure ⟨al, be, ze, ga, mu⟩

/-- src/chebyshev/linalg/pdma.rs:159-168 initialisation (rows 0 and 1) of `pdma_checked`. -/
def pdmaCheckedInit (l1 d0 u1 u2 : List K) (rhs : List T) (s : PentaWork K T) :
    Res (PentaWork K T) := do
  let mu ← wrC s.mu 0 (← rdC d0 0)
  let al ← wrC s.al 0 (← divR (← rdC u1 0) (← rdC mu 0))
  let be ← wrC s.be 0 (← divR (← rdC u2 0) (← rdC mu 0))
  let ze ← wrC s.ze 0 (← divR (← rdC rhs 0) (← rdC mu 0))
  let ga ← wrC s.ga 1 (← rdC l1 0)
  let mu ← wrC mu 1 ((← rdC d0 1) - (← rdC al 0) * (← rdC ga 1))
  let al ← wrC al 1 (← divR ((← rdC u1 1) - (← rdC be 0) * (← rdC ga 1)) (← rdC mu 1))
  let be ← wrC be 1 (← divR (← rdC u2 1) (← rdC mu 1))
  let ze ← wrC ze 1 (← divR ((← rdC rhs 1) - (← rdC ga 1) • (← rdC ze 0)) (← rdC mu 1))
  pure ⟨al, be, ze, ga, mu⟩

/-- src/chebyshev/linalg/pdma.rs:178-181 row `n-2` of `pdma_checked`. -/
def pdmaCheckedRowN2 (l2 l1 d0 u1 : List K) (rhs : List T) (n : ℕ) (s : PentaWork K T) :
    Res (PentaWork K T) := do
  let ga ← wrC s.ga (← n -! 2)
    ((← rdC l1 (← n -! 3)) - (← rdC s.al (← n -! 4)) * (← rdC l2 (← n -! 4)))
  let mu ← wrC s.mu (← n -! 2) ((← rdC d0 (← n -! 2)) - (← rdC s.be (← n -! 4)) * (← rdC l2 (← n -! 4))
    - (← rdC s.al (← n -! 3)) * (← rdC ga (← n -! 2)))
  let al ← wrC s.al (← n -! 2) (← divR ((← rdC u1 (← n -! 2))
    - (← rdC s.be (← n -! 3)) * (← rdC ga (← n -! 2))) (← rdC mu (← n -! 2)))
  let ze ← wrC s.ze (← n -! 2) (← divR ((← rdC rhs (← n -! 2))
    - (← rdC l2 (← n -! 4)) • (← rdC s.ze (← n -! 4))
    - (← rdC ga (← n -! 2)) • (← rdC s.ze (← n -! 3))) (← rdC mu (← n -! 2)))
  pure ⟨al, s.be, ze, ga, mu⟩

/-- src/chebyshev/linalg/pdma.rs:183-185 row `n-1` of `pdma_checked`. -/
def pdmaCheckedRowN1 (l2 l1 d0 : List K) (rhs : List T) (n : ℕ) (s : PentaWork K T) :
    Res (PentaWork K T) := do
  let ga ← wrC s.ga (← n -! 1)
    ((← rdC l1 (← n -! 2)) - (← rdC s.al (← n -! 3)) * (← rdC l2 (← n -! 3)))
  let mu ← wrC s.mu (← n -! 1) ((← rdC d0 (← n -! 1)) - (← rdC s.be (← n -! 3)) * (← rdC l2 (← n -! 3))
    - (← rdC s.al (← n -! 2)) * (← rdC ga (← n -! 1)))
  let ze ← wrC s.ze (← n -! 1) (← divR ((← rdC rhs (← n -! 1))
    - (← rdC l2 (← n -! 3)) • (← rdC s.ze (← n -! 3))
    - (← rdC ga (← n -! 1)) • (← rdC s.ze (← n -! 2))) (← rdC mu (← n -! 1)))
  pure ⟨s.al, s.be, ze, ga, mu⟩

/-- src/chebyshev/linalg/pdma.rs:129-194 `pdma_checked`.  Returns the new content of `rhs`. -/
def pdmaChecked (l2 l1 d0 u1 u2 : List K) (rhs : List T) : Res (List T) := do
  let n := rhs.length
  assertR (n > 3)
  let s : PentaWork K T :=
    ⟨List.replicate (← n -! 1) 0, List.replicate (← n -! 2) 0, List.replicate n 0,
     List.replicate n 0, List.replicate n 0⟩
  let s ← pdmaCheckedInit l1 d0 u1 u2 rhs s
  let s ← forRange 2 (← n -! 2) (pdmaCheckedRow l2 l1 d0 u1 u2 rhs) s
  let s ← pdmaCheckedRowN2 l2 l1 d0 u1 rhs n s
  let s ← pdmaCheckedRowN1 l2 l1 d0 rhs n s
  let rhs ← wrC rhs (← n -! 1) (← rdC s.ze (← n -! 1))
  let rhs ← wrC rhs (← n -! 2)
    ((← rdC s.ze (← n -! 2)) - (← rdC s.al (← n -! 2)) • (← rdC rhs (← n -! 1)))
  forRev 0 (← n -! 2) (fun i rhs => do
    wrC rhs i ((← rdC s.ze i) - (← rdC s.al i) • (← rdC rhs (i + 1))
      - (← rdC s.be i) • (← rdC rhs (i + 2)))) rhs

end Verif
