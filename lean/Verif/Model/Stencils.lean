/-
Model of src/chebyshev/stencils.rs
-/
import Verif.Model.Helpers

namespace Verif
open Res
variable {K T : Type} [Zero K] [One K] [Neg K] [Add K] [Sub K] [Mul K] [NatCast K] [Pow K ℕ] [DivBy K K]
  [Zero T] [Add T] [Sub T] [SMul K T] [DivBy K T]

/-- stencils.rs:72-92 `Dirichlet::new`, `get_m`. -/
def dirichletNew (n : ℕ) : Res (Stencil2 K) := do
  let m ← n -! 2                                              -- 81, 89-91
  Stencil2.new (List.replicate m (1 : K)) (List.replicate m (-1 : K))

/-- stencils.rs:150-167 `Neumann::new`.  `k.pow(2) as f64` is exact here. -/
def neumannNew (n : ℕ) : Res (Stencil2 K) := do
  let m ← n -! 2                                              -- 152, 165-167
  let low2 ← forRange 0 m (fun k v => do                      -- 155-159
    wrC v k (← divR ((-1 : K) * ((k ^ 2 : ℕ) : K)) (((k + 2) ^ 2 : ℕ) : K)))
    (List.replicate m (0 : K))
  Stencil2.new (List.replicate m (1 : K)) low2

/-- stencils.rs:226-252 `DirichletNeumann::new`. -/
def dirichletNeumannNew (n : ℕ) : Res (Stencil3 K) := do
  let m ← n -! 2                                              -- 228, 250-252
  let lows ← forRange 0 m (fun k (v : List K × List K) => do  -- 232-244
    let kf := (k : K)
    let v1 ← wrC v.1 k (← divR (-1 * kf ^ 2 + (kf + 2) ^ 2) ((kf + 1) ^ 2 + (kf + 2) ^ 2))
    let v2 ← wrC v.2 k (← divR (-1 * kf ^ 2 - (kf + 1) ^ 2) ((kf + 1) ^ 2 + (kf + 2) ^ 2))
    pure (v1, v2)) (List.replicate m (0 : K), List.replicate m (0 : K))
  Stencil3.new (List.replicate m (1 : K)) lows.1 lows.2

/-- stencils.rs:310-331 `BiHarmonicA::new`. -/
def biharmonicANew (n : ℕ) : Res (Stencil4 K) := do
  let m ← n -! 4                                              -- 312, 329-331
  let lows ← forRange 0 m (fun ki (v : List K × List K) => do -- 317-323
    let k := (ki : K)
    let d2 ← divR (-2 * (k + 2)) (k + 3)
    let d4 ← divR (k + 1) (k + 3)
    pure (← wrC v.1 ki d2, ← wrC v.2 ki d4)) (List.replicate m (0 : K), List.replicate m (0 : K))
  Stencil4.new (List.replicate m (1 : K)) lows.1 lows.2

/-- stencils.rs:389-411 `BiHarmonicB::new`. -/
def biharmonicBNew (n : ℕ) : Res (Stencil4 K) := do
  let m ← n -! 4                                              -- 391, 409-411
  let lows ← forRange 0 m (fun ki (v : List K × List K) => do -- 396-403
    let k := (ki : K)
    let d2 ← divR (-1 * (2 * (k + 2) * (15 + 2 * k * (k + 4)))) ((k + 3) * (19 + 2 * k * (6 + k)))
    let d4 ← divR ((k + 1) * (3 + 2 * k * (k + 2))) ((k + 3) * (19 + 2 * k * (6 + k)))
    pure (← wrC v.1 ki d2, ← wrC v.2 ki d4)) (List.replicate m (0 : K), List.replicate m (0 : K))
  Stencil4.new (List.replicate m (1 : K)) lows.1 lows.2

/-- stencils.rs:20-29 `ChebyshevStencils`. -/
inductive Stencils (K : Type) where
  | dirichlet (s : Stencil2 K)
  | neumann (s : Stencil2 K)
  | dirichletNeumann (s : Stencil3 K)
  | biharmonicA (s : Stencil4 K)
  | biharmonicB (s : Stencil4 K)

namespace Stencils

/-- stencils.rs:131-134, 207-210, 292-295, 371-374, 451-454 `to_array` (enum dispatch). -/
def toArray : Stencils K → Res (Mat K)
  | dirichlet s => s.toArray
  | neumann s => s.toArray
  | dirichletNeumann s => s.toArray
  | biharmonicA s => s.toArray
  | biharmonicB s => s.toArray

/-- stencils.rs:136-139, 212-215, 297-300, 376-379, 456-459 `pinv` (enum dispatch). -/
def pinv : Stencils K → Res (Mat K)
  | dirichlet s => s.pinv
  | neumann s => s.pinv
  | dirichletNeumann s => s.pinv
  | biharmonicA s => s.pinv
  | biharmonicB s => s.pinv

/-- stencils.rs:95-111, 171-187, 256-272, 335-351, 415-431 `dot_inplace` (enum dispatch). -/
def dot : Stencils K → List T → List T → Res (List T)
  | dirichlet s, v, u => s.dot v u
  | neumann s, v, u => s.dot v u
  | dirichletNeumann s, v, u => s.dot v u
  | biharmonicA s, v, u => s.dot v u
  | biharmonicB s, v, u => s.dot v u

/-- stencils.rs:113-129, 189-205, 274-290, 353-369, 433-449 `solve_inplace` (enum dispatch). -/
def solve : Stencils K → List T → List T → Res (List T)
  | dirichlet s, u, v => s.solve u v
  | neumann s, u, v => s.solve u v
  | dirichletNeumann s, u, v => s.solve u v
  | biharmonicA s, u, v => s.solve u v
  | biharmonicB s, u, v => s.solve u v

end Stencils
end Verif
