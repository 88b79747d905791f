/-
Model of src/space_mpi/decomp2d/mod.rs (`Decomp2d`), decomp2d/functions.rs and
src/space_mpi/decomp_handler.rs.
-/
import Verif.Model.Distribute
import Verif.Model.Mpi

namespace Verif
open Res Mpi

/-- decomp2d/mod.rs:59-74 `Decomp2d` (the MPI universe is represented by the number of ranks and
the own rank). -/
structure Decomp2d where
  nprocs : ℕ
  nrank : ℕ
  nGlobal : List ℕ
  xPencil : Dist
  yPencil : Dist
  deriving DecidableEq

/-- decomp2d/mod.rs:801-813 `check_shape`. -/
def checkShape {T : Type} (a : Arr T) (shape : List ℕ) : Res Unit := assertR (a.shape = shape)

/-- `swap_axes(0, 1)` of a two-dimensional array or view (external); the elements are listed in
the logical order of the new shape.  The layout flag is left alone: every array whose axes are
swapped is swapped back before anyone looks at its layout. -/
def swapAxes {T : Type} [Zero T] (a : Arr T) : Arr T :=
  match a.shape with
  | [n0, n1] => ⟨[n1, n0], (List.range (n1 * n0)).map
      (fun k => nth a.data ((k % n0) * n1 + k / n0)), a.std⟩
  | _ => a

/-- `data[[i, j]] = x` -/
def wr2 {T : Type} (a : Arr T) (i j : ℕ) (x : T) : Res (Arr T) := do
  let n0 ← rdC a.shape 0
  let n1 ← rdC a.shape 1
  assertR (i < n0 ∧ j < n1)
  let data ← wrC a.data (i * n1 + j) x
  pure { a with data := data }

namespace Decomp2d

/-- decomp2d/mod.rs:83-98 `new`, on rank `nrank` of `nprocs`. -/
def new (o : Mode) (nprocs nrank : ℕ) (nGlobal : List ℕ) : Res Decomp2d := do
  let x ← Dist.new o nGlobal nprocs nrank 0                               -- 87
  let y ← Dist.new o nGlobal nprocs nrank 1                               -- 88
  pure ⟨nprocs, nrank, nGlobal, x, y⟩

/-- decomp2d/mod.rs:102-104 `get_global_shape`. -/
def getGlobalShape (d : Decomp2d) : List ℕ := d.nGlobal

/-- decomp2d/mod.rs:108-110 `get_x_pencil_shape`. -/
def getXPencilShape (d : Decomp2d) : List ℕ := d.xPencil.sz

/-- decomp2d/mod.rs:114-116 `get_y_pencil_shape`. -/
def getYPencilShape (d : Decomp2d) : List ℕ := d.yPencil.sz

section
variable {T : Type} [Zero T]

/-- decomp2d/mod.rs:122-128 `split_array_x_pencil`. -/
def splitArrayXPencil (d : Decomp2d) (data : Arr T) : Res (Arr T) := d.xPencil.splitArray data

/-- decomp2d/mod.rs:134-140 `split_array_y_pencil`. -/
def splitArrayYPencil (d : Decomp2d) (data : Arr T) : Res (Arr T) := d.yPencil.splitArray data

/-- `vec![T::zero(); n]`. -/
def zeroVec (n : ℕ) : List T := List.replicate n 0

/-- decomp2d/mod.rs:176-184 `split_xy`. -/
def splitXy (data : Arr T) (buf : List T) : List T := zipSet id data.data buf

/-- decomp2d/mod.rs:187-203 `merge_xy`. -/
def mergeXy (o : Mode) (d : Decomp2d) (data : Arr T) (buf : List T) : Res (Arr T) := do
  let (data, _) ← forRange 0 d.nprocs (fun proc s => do                   -- 193
    let j1 ← rdC (← rdC d.xPencil.stProcs proc) 1                         -- 194
    let j2 ← rdC (← rdC d.xPencil.enProcs proc) 1                         -- 195
    let n ← rdC d.yPencil.sz 0
    forRange 0 n (fun i s =>                                              -- 196
      forRange j1 (j2 + 1) (fun j s => do                                 -- 197
        let data ← wr2 s.1 i j (← rdC buf s.2)                            -- 198
        pure (data, ← o.add s.2 1)) s) s) (data, 0)                       -- 199
  pure data

/-- decomp2d/mod.rs:143-173 `transpose_x_to_y`. -/
def transposeXToY (o : Mode) (d : Decomp2d) (snd rcv : Arr T) : Prog T (Arr T) := do
  checkShape snd d.xPencil.sz                                             -- 152
  checkShape rcv d.yPencil.sz                                             -- 153
  let send := zeroVec (← (d.xPencil.length o : Res ℕ))                    -- 156
  let recv := zeroVec (← (d.yPencil.length o : Res ℕ))                    -- 157
  let send := splitXy snd send                                            -- 158
  let (sc, sd) ← (d.xPencil.countsAllToAll o d.yPencil : Res _)           -- 160
  let (rc, rd) ← (d.yPencil.countsAllToAll o d.xPencil : Res _)           -- 161
  let sp ← (partition send sc sd : Res _)                                 -- 163
  let rp ← (partition recv rc rd : Res _)                                 -- 164-165
  let recv ← allToAllV d.nprocs send sp recv rp                           -- 166-167
  mergeXy o d rcv recv                                                    -- 172

/-- decomp2d/mod.rs:239-249 `split_yx`. -/
def splitYx (data : Arr T) (buf : List T) : List T := zipSet id (swapAxes data).data buf

/-- decomp2d/mod.rs:252-268 `merge_yx`. -/
def mergeYx (o : Mode) (d : Decomp2d) (data : Arr T) (buf : List T) : Res (Arr T) := do
  let (data, _) ← forRange 0 d.nprocs (fun proc s => do                   -- 258
    let i1 ← rdC (← rdC d.yPencil.stProcs proc) 0                         -- 259
    let i2 ← rdC (← rdC d.yPencil.enProcs proc) 0                         -- 260
    let n ← rdC d.xPencil.sz 1
    forRange 0 n (fun j s =>                                              -- 261
      forRange i1 (i2 + 1) (fun i s => do                                 -- 262
        let data ← wr2 s.1 i j (← rdC buf s.2)                            -- 263
        pure (data, ← o.add s.2 1)) s) s) (data, 0)                       -- 264
  pure data

/-- decomp2d/mod.rs:206-236 `transpose_y_to_x`. -/
def transposeYToX (o : Mode) (d : Decomp2d) (snd rcv : Arr T) : Prog T (Arr T) := do
  checkShape snd d.yPencil.sz                                             -- 215
  checkShape rcv d.xPencil.sz                                             -- 216
  let send := zeroVec (← (d.yPencil.length o : Res ℕ))                    -- 219
  let recv := zeroVec (← (d.xPencil.length o : Res ℕ))                    -- 220
  let send := splitYx snd send                                            -- 221
  let (sc, sd) ← (d.yPencil.countsAllToAll o d.xPencil : Res _)           -- 223
  let (rc, rd) ← (d.xPencil.countsAllToAll o d.yPencil : Res _)           -- 224
  let sp ← (partition send sc sd : Res _)                                 -- 226
  let rp ← (partition recv rc rd : Res _)                                 -- 227-228
  let recv ← allToAllV d.nprocs send sp recv rp                           -- 229-230
  mergeYx o d rcv recv                                                    -- 235

/-- `swap_axes(0, 1)`, copy of `src` in logical order, `swap_axes(0, 1)` (as in 363-367). -/
def copySwapped (rcv : Arr T) (src : List T) : Arr T :=
  let v := swapAxes rcv
  swapAxes { v with data := zipSet id src v.data }

/-- copy of `src` in logical order (as in 460-462) -/
def copyPlain (rcv : Arr T) (src : List T) : Arr T := { rcv with data := zipSet id src rcv.data }

/-- decomp2d/mod.rs:278-299 `gather_x`. -/
def gatherX (o : Mode) (d : Decomp2d) (snd : Arr T) : Prog T Unit := do
  checkShape snd d.xPencil.sz                                             -- 286
  let send := zeroVec (← (d.xPencil.length o : Res ℕ))                    -- 287
  let send := zipSet id (swapAxes snd).data send                          -- 288-292
  assertR (d.nrank ≠ 0)                                                   -- 294-295
  gatherV 0 send                                                          -- 297

/-- decomp2d/mod.rs:329-370 `gather_x_inplace_root`. -/
def gatherXInplaceRoot (o : Mode) (d : Decomp2d) (snd rcv : Arr T) : Prog T (Arr T) := do
  checkShape snd d.xPencil.sz                                             -- 342
  let send := zeroVec (← (d.xPencil.length o : Res ℕ))                    -- 343
  let send := zipSet id (swapAxes snd).data send                          -- 344-348
  assertR (d.nrank = 0)                                                   -- 350, 367-368
  let recv := zeroVec (← (o.prod d.nGlobal : Res ℕ))                      -- 351-352
  let (counts, ds) ← (d.xPencil.countsAllGather o : Res _)                -- 354
  let rp ← (partition recv counts ds : Res _)                             -- 356
  let recv ← gatherVRoot d.nprocs 0 send recv rp                          -- 357
  checkShape rcv d.nGlobal                                                -- 361
  pure (copySwapped rcv recv)                                             -- 362-366

/-- decomp2d/mod.rs:307-321 `gather_x_root`. -/
def gatherXRoot (o : Mode) (d : Decomp2d) (snd : Arr T) : Prog T (Arr T) := do
  assertR (d.nrank = 0)                                                   -- 314, 318-320
  gatherXInplaceRoot o d snd (Arr.zeros d.nGlobal)                        -- 315-317

/-- decomp2d/mod.rs:380-399 `gather_y`. -/
def gatherY (o : Mode) (d : Decomp2d) (snd : Arr T) : Prog T Unit := do
  checkShape snd d.yPencil.sz                                             -- 388
  let send := zeroVec (← (d.yPencil.length o : Res ℕ))                    -- 389
  let send := zipSet id snd.data send                                     -- 390-392
  assertR (d.nrank ≠ 0)                                                   -- 394-395
  gatherV 0 send                                                          -- 397

/-- decomp2d/mod.rs:430-466 `gather_y_inplace_root`. -/
def gatherYInplaceRoot (o : Mode) (d : Decomp2d) (snd rcv : Arr T) : Prog T (Arr T) := do
  checkShape snd d.yPencil.sz                                             -- 442
  let send := zeroVec (← (d.yPencil.length o : Res ℕ))                    -- 443
  let send := zipSet id snd.data send                                     -- 444-446
  assertR (d.nrank = 0)                                                   -- 448, 463-464
  let recv := zeroVec (← (o.prod d.nGlobal : Res ℕ))                      -- 449-450
  let (counts, ds) ← (d.yPencil.countsAllGather o : Res _)                -- 452
  let rp ← (partition recv counts ds : Res _)                             -- 454
  let recv ← gatherVRoot d.nprocs 0 send recv rp                          -- 455
  checkShape rcv d.nGlobal                                                -- 459
  pure (copyPlain rcv recv)                                               -- 460-462

/-- decomp2d/mod.rs:408-422 `gather_y_root`. -/
def gatherYRoot (o : Mode) (d : Decomp2d) (snd : Arr T) : Prog T (Arr T) := do
  assertR (d.nrank = 0)                                                   -- 415, 419-421
  gatherYInplaceRoot o d snd (Arr.zeros d.nGlobal)                        -- 416-418

/-- decomp2d/mod.rs:499-525 `scatter_x_inplace`. -/
def scatterXInplace (o : Mode) (d : Decomp2d) (rcv : Arr T) : Prog T (Arr T) := do
  checkShape rcv d.xPencil.sz                                             -- 504
  let recv := zeroVec (← (d.xPencil.length o : Res ℕ))                    -- 510
  assertR (d.nrank ≠ 0)                                                   -- 512-513
  let recv ← scatterV 0 recv                                              -- 515
  pure (copySwapped rcv recv)                                             -- 520-524

/-- decomp2d/mod.rs:477-489 `scatter_x`. -/
def scatterX (T : Type) [Zero T] (o : Mode) (d : Decomp2d) : Prog T (Arr T) := do
  assertR (d.nrank ≠ 0)                                                   -- 482-483
  scatterXInplace o d (Arr.zeros d.xPencil.sz)                            -- 485-487

/-- decomp2d/mod.rs:559-602 `scatter_x_inplace_root`. -/
def scatterXInplaceRoot (o : Mode) (d : Decomp2d) (snd rcv : Arr T) : Prog T (Arr T) := do
  checkShape snd d.nGlobal                                                -- 568
  checkShape rcv d.xPencil.sz                                             -- 569
  let recv := zeroVec (← (d.xPencil.length o : Res ℕ))                    -- 575
  assertR (d.nrank = 0)                                                   -- 577, 591-592
  let send := zeroVec (← (o.prod d.nGlobal : Res ℕ))                      -- 579-580
  let send := zipSet id (swapAxes snd).data send                          -- 581-585
  let (counts, ds) ← (d.xPencil.countsAllGather o : Res _)                -- 586
  let sp ← (partition send counts ds : Res _)                             -- 588
  let recv ← scatterVRoot d.nprocs 0 send sp recv                         -- 589
  pure (copySwapped rcv recv)                                             -- 597-601

/-- decomp2d/mod.rs:536-549 `scatter_x_root`. -/
def scatterXRoot (o : Mode) (d : Decomp2d) (snd : Arr T) : Prog T (Arr T) := do
  assertR (d.nrank = 0)                                                   -- 542, 546-548
  scatterXInplaceRoot o d snd (Arr.zeros d.xPencil.sz)                    -- 543-545

/-- decomp2d/mod.rs:635-658 `scatter_y_inplace`. -/
def scatterYInplace (o : Mode) (d : Decomp2d) (rcv : Arr T) : Prog T (Arr T) := do
  checkShape rcv d.yPencil.sz                                             -- 640
  let recv := zeroVec (← (d.yPencil.length o : Res ℕ))                    -- 646
  assertR (d.nrank ≠ 0)                                                   -- 648-649
  let recv ← scatterV 0 recv                                              -- 651
  pure (copyPlain rcv recv)                                               -- 655-657

/-- decomp2d/mod.rs:613-625 `scatter_y`. -/
def scatterY (T : Type) [Zero T] (o : Mode) (d : Decomp2d) : Prog T (Arr T) := do
  assertR (d.nrank ≠ 0)                                                   -- 618-619
  scatterYInplace o d (Arr.zeros d.yPencil.sz)                            -- 621-623

/-- decomp2d/mod.rs:691-730 `scatter_y_inplace_root`. -/
def scatterYInplaceRoot (o : Mode) (d : Decomp2d) (snd rcv : Arr T) : Prog T (Arr T) := do
  checkShape snd d.nGlobal                                                -- 700
  checkShape rcv d.yPencil.sz                                             -- 701
  let recv := zeroVec (← (d.yPencil.length o : Res ℕ))                    -- 707
  assertR (d.nrank = 0)                                                   -- 709, 721-722
  let send := zeroVec (← (o.prod d.nGlobal : Res ℕ))                      -- 711-712
  let send := zipSet id snd.data send                                     -- 713-715
  let (counts, ds) ← (d.yPencil.countsAllGather o : Res _)                -- 716
  let sp ← (partition send counts ds : Res _)                             -- 718
  let recv ← scatterVRoot d.nprocs 0 send sp recv                         -- 719
  pure (copyPlain rcv recv)                                               -- 727-729

/-- decomp2d/mod.rs:668-681 `scatter_y_root`. -/
def scatterYRoot (o : Mode) (d : Decomp2d) (snd : Arr T) : Prog T (Arr T) := do
  assertR (d.nrank = 0)                                                   -- 674, 678-680
  scatterYInplaceRoot o d snd (Arr.zeros d.yPencil.sz)                    -- 675-677

/-- decomp2d/mod.rs:733-765 `all_gather_x`. -/
def allGatherX (o : Mode) (d : Decomp2d) (snd rcv : Arr T) : Prog T (Arr T) := do
  checkShape snd d.xPencil.sz                                             -- 739
  checkShape rcv d.nGlobal                                                -- 740
  let send := zeroVec (← (d.xPencil.length o : Res ℕ))                    -- 742
  let send := zipSet id (swapAxes snd).data send                          -- 743-747
  let recv := zeroVec (← (o.prod d.nGlobal : Res ℕ))                      -- 749-750
  let (counts, ds) ← (d.xPencil.countsAllGather o : Res _)                -- 752
  let rp ← (partition recv counts ds : Res _)                             -- 754
  let recv ← allGatherV d.nprocs send recv rp                             -- 755-756
  pure (copySwapped rcv recv)                                             -- 760-764

/-- decomp2d/mod.rs:768-796 `all_gather_y`. -/
def allGatherY (o : Mode) (d : Decomp2d) (snd rcv : Arr T) : Prog T (Arr T) := do
  checkShape snd d.yPencil.sz                                             -- 774
  checkShape rcv d.nGlobal                                                -- 775
  let send := zeroVec (← (d.yPencil.length o : Res ℕ))                    -- 777
  let send := zipSet id snd.data send                                     -- 778-780
  let recv := zeroVec (← (o.prod d.nGlobal : Res ℕ))                      -- 782-783
  let (counts, ds) ← (d.yPencil.countsAllGather o : Res _)                -- 785
  let rp ← (partition recv counts ds : Res _)                             -- 787
  let recv ← allGatherV d.nprocs send recv rp                             -- 788-789
  pure (copyPlain rcv recv)                                               -- 793-795

end
end Decomp2d

/-! ### decomp2d/functions.rs -/

section
variable {T : Type}

/-- functions.rs:10-15 `broadcast_scalar`: the new value of `data`. -/
def broadcastScalar (nrank : ℕ) (data : T) : Prog T T := do
  let b ← broadcastInto nrank 0 [data]
  (rdC b 0 : Res T)

/-- functions.rs:18-34 `gather_sum`: the new value of `result`. -/
def gatherSum [AddCommMonoid T] (nprocs nrank : ℕ) (data result : T) : Prog T T :=
  if nrank = 0 then do
    let a ← gatherIntoRoot nprocs 0 data (List.replicate nprocs 0)        -- 28-29
    pure a.sum                                                            -- 30
  else do
    gatherInto 0 data                                                     -- 32
    pure result

/-- functions.rs:37-47 `all_gather_sum`: the new value of `result`. -/
def allGatherSum [AddCommMonoid T] (nprocs : ℕ) (data _result : T) : Prog T T := do
  let a ← allGatherInto nprocs data (List.replicate nprocs 0)             -- 44-45
  pure a.sum                                                              -- 46

end

/-! ### decomp_handler.rs -/

/-- decomp_handler.rs:11-18 `DecompHandler`: hash maps as partial functions, together with the
number of keys of the first. -/
structure DecompHandler where
  decomp : ℕ → Option Decomp2d
  keys : ℕ
  mapShapeGlobal : List ℕ → Option ℕ

namespace DecompHandler

/-- decomp_handler.rs:24-32 `new`. -/
def new : DecompHandler := ⟨fun _ => none, 0, fun _ => none⟩

/-- `HashMap::insert` on the map of decompositions: the number of keys grows if the key is new. -/
def insertDecomp (h : DecompHandler) (key : ℕ) (d : Decomp2d) : DecompHandler :=
  { h with
    decomp := Function.update h.decomp key (some d)
    keys := if (h.decomp key).isSome then h.keys else h.keys + 1 }

/-- decomp_handler.rs:37-44 `insert`.  The block passed to `or_insert` is evaluated in any case. -/
def insert (h : DecompHandler) (d : Decomp2d) : DecompHandler :=
  let shape := d.getGlobalShape                                           -- 38
  let lookupVal := h.keys                                                 -- 40
  let h' := h.insertDecomp lookupVal d                                    -- 41
  match h.mapShapeGlobal shape with                                       -- 39, 42
  | some _ => h'
  | none => { h' with mapShapeGlobal := Function.update h'.mapShapeGlobal shape (some lookupVal) }

/-- decomp_handler.rs:52-55 `get_decomp_from_global_shape`. -/
def getDecomp (h : DecompHandler) (shape : List ℕ) : Res Decomp2d :=
  match h.mapShapeGlobal shape with
  | none => err .panic
  | some v =>
    match h.decomp v with
    | none => err .panic
    | some d => ok d

end DecompHandler
end Verif
