/-
Model of src/space_mpi/decomp2d/distribute.rs: distribution of grid points to ranks.
Arrays `[usize; N]` are lists of length `N`.
-/
import Verif.Model.Spaces

namespace Verif
open Res

/-- `a + b` on `i32`. -/
def Mode.i32Add (o : Mode) (a b : ℤ) : Res ℤ :=
  if -2 ^ 31 ≤ a + b ∧ a + b < 2 ^ 31 then ok (a + b) else
    match o with
    | .debug => err .panic
    | .release => ok ((a + b + 2 ^ 31) % 2 ^ 32 - 2 ^ 31)

/-- distribute.rs:17-36 `Distribution<N>`. -/
structure Dist where
  sz : List ℕ
  st : List ℕ
  en : List ℕ
  szProcs : List (List ℕ)
  stProcs : List (List ℕ)
  enProcs : List (List ℕ)
  nprocs : ℕ
  nrank : ℕ
  axisContig : ℕ
  deriving DecidableEq

/-- distribute.rs:114-144 `Distribution::distribute`; returns `(st, en, sz)`. -/
def distribute (o : Mode) (nGlobal nprocs : ℕ) : Res (List ℕ × List ℕ × List ℕ) := do
  assertR (0 < nprocs)                                                    -- 115 (division)
  let size := nGlobal / nprocs                                            -- 115
  let st ← wrC (List.replicate nprocs 0) 0 0                              -- 116, 120
  let sz ← wrC (List.replicate nprocs 0) 0 size                           -- 118, 121
  let en ← wrC (List.replicate nprocs 0) 0 (← o.sub size 1)               -- 117, 122
  let nu ← o.sub nGlobal (← o.mul size nprocs)                            -- 124
  let nl ← o.sub nprocs nu                                                -- 126
  let (st, en, sz) ← forRange 1 nl (fun i s => do                         -- 128-132
    let st ← wrC s.1 i (← o.add (← rdC s.1 (← o.sub i 1)) size)
    let sz ← wrC s.2.2 i size
    let en ← wrC s.2.1 i (← o.add (← rdC s.2.1 (← o.sub i 1)) size)
    pure (st, en, sz)) (st, en, sz)
  let size ← o.add size 1                                                 -- 134
  let (st, en, sz) ← forRange nl nprocs (fun i s => do                    -- 135-139
    let st ← wrC s.1 i (← o.add (← rdC s.2.1 (← o.sub i 1)) 1)
    let sz ← wrC s.2.2 i size
    let en ← wrC s.2.1 i (← o.add (← rdC s.2.1 (← o.sub i 1)) size)
    pure (st, en, sz)) (st, en, sz)
  let last ← o.sub nprocs 1
  let en ← wrC en last (← o.sub nGlobal 1)                                -- 141
  let sz ← wrC sz last (← o.add (← o.sub (← rdC en last) (← rdC st last)) 1) -- 142
  pure (st, en, sz)

/-- distribute.rs:77-85: `for (i, j) in procs.iter_mut().zip(split.iter()) { i[axis] = *j; }`. -/
def setAxis (axis : ℕ) : List (List ℕ) → List ℕ → Res (List (List ℕ))
  | p :: ps, x :: xs => do
    let p ← wrC p axis x
    let ps ← setAxis axis ps xs
    pure (p :: ps)
  | ps, _ => pure ps

namespace Dist

/-- distribute.rs:51-103 `Distribution::new`. -/
def new (o : Mode) (nGlobal : List ℕ) (nprocs nrank axisContig : ℕ) : Res Dist := do
  assertR (axisContig ≤ 1)                                                -- 52-57
  let stProcs := List.replicate nprocs (List.replicate nGlobal.length 0)  -- 60
  let szProcs := List.replicate nprocs nGlobal                            -- 61
  let enProcs ← mapR (fun a => mapR (fun e => o.sub e 1) a)
    (List.replicate nprocs nGlobal)                                       -- 62-68
  let (stProcs, enProcs, szProcs) ← forRange 0 nGlobal.length (fun axis s =>
    (if axis = axisContig then pure s else do                             -- 71-73
      let n ← rdC nGlobal axis
      let (stSplit, enSplit, szSplit) ← distribute o n nprocs             -- 75
      let stProcs ← setAxis axis s.1 stSplit                              -- 77-79
      let enProcs ← setAxis axis s.2.1 enSplit                            -- 80-82
      let szProcs ← setAxis axis s.2.2 szSplit                            -- 83-85
      pure (stProcs, enProcs, szProcs))) (stProcs, enProcs, szProcs)
  let st ← rdC stProcs nrank                                              -- 88
  let en ← rdC enProcs nrank                                              -- 89
  let sz ← rdC szProcs nrank                                              -- 90
  pure ⟨sz, st, en, szProcs, stProcs, enProcs, nprocs, nrank, axisContig⟩

/-- distribute.rs:148-150 `length`. -/
def length (o : Mode) (d : Dist) : Res ℕ := o.prod d.sz

/-- distribute.rs:154-167 `check_shape`. -/
def checkShape {T : Type} (d : Dist) (a : Arr T) : Res Unit := assertR (a.shape = d.sz)

/-- distribute.rs:177-184, 200-207: the `scan` that turns counts into displacements. -/
def displs (o : Mode) : ℤ → List ℤ → Res (List ℤ)
  | _, [] => ok []
  | acc, x :: xs => do
    let acc' ← o.i32Add acc x
    let r ← displs o acc' xs
    pure (acc :: r)

/-- distribute.rs:170-186 `get_counts_all_gather`; returns `(counts, displs)`. -/
def countsAllGather (o : Mode) (d : Dist) : Res (List ℤ × List ℤ) := do
  let counts ← mapR (fun x => do pure (toI32 (← o.prod x))) d.szProcs     -- 172-176
  let ds ← displs o 0 counts                                              -- 177-184
  pure (counts, ds)

/-- distribute.rs:193-209 `get_counts_all_to_all`; returns `(counts, displs)`. -/
def countsAllToAll (o : Mode) (d recv : Dist) : Res (List ℤ × List ℤ) := do
  let counts ← mapR (fun x => do
    pure (toI32 (← o.mul (← rdC x d.axisContig) (← rdC d.sz recv.axisContig)))) recv.szProcs -- 195-199
  let ds ← displs o 0 counts                                              -- 200-207
  pure (counts, ds)

/-- `st..=en` as an ndarray slice (external) of an axis of extent `dim`: an end of `usize::MAX`
(`-1` as `isize`) means "to the end of the axis".  Returns start and number of elements. -/
def sliceIncl (st en dim : ℕ) : Res (ℕ × ℕ) := do
  let e := if en + 1 = usizeW then dim else en + 1
  assertR (st ≤ e ∧ e ≤ dim)
  pure (st, e - st)

/-- `global.slice(s![st[0]..=en[0], st[1]..=en[1]])` (in logical order; the layout flag of the
result is that of `global`, which is exact for standard layout). -/
def window {T : Type} [Zero T] (d : Dist) (global : Arr T) : Res (Arr T) := do
  let n0 ← rdC global.shape 0
  let n1 ← rdC global.shape 1
  let (s0, c0) ← sliceIncl (← rdC d.st 0) (← rdC d.en 0) n0
  let (s1, c1) ← sliceIncl (← rdC d.st 1) (← rdC d.en 1) n1
  pure ⟨[c0, c1], (List.range (c0 * c1)).map
    (fun k => nth global.data ((s0 + k / c1) * n1 + (s1 + k % c1))), global.std⟩

/-- distribute.rs:212-220 `split_array`. -/
def splitArray {T : Type} [Zero T] (d : Dist) (global : Arr T) : Res (Arr T) := d.window global

/-- distribute.rs:223-233 `split_array_inplace`.  `assign` (external) copies element by element if
the shapes agree, broadcasts axes of extent 1, and panics otherwise. -/
def splitArrayInplace {T : Type} [Zero T] (d : Dist) (global pencil : Arr T) : Res (Arr T) := do
  let w ← d.window global
  let c0 ← rdC w.shape 0
  let c1 ← rdC w.shape 1
  let p0 ← rdC pencil.shape 0
  let p1 ← rdC pencil.shape 1
  assertR ((c0 = p0 ∨ c0 = 1) ∧ (c1 = p1 ∨ c1 = 1))
  pure { pencil with data := (List.range (p0 * p1)).map (fun k =>
    nth w.data ((if c0 = p0 then k / p1 else 0) * c1 + (if c1 = p1 then k % p1 else 0))) }

end Dist
end Verif
