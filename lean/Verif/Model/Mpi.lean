/-
Model of message passing: programs of the ranks, the collective operations of the crate `mpi`
(external) used by src/space_mpi, and their asynchronous execution.
-/
import Verif.Core.Res

namespace Verif.Mpi
open Res

/-- Which collective operation is called. -/
inductive CollKind where
  | allToAllV | allGatherV | gatherV | scatterV | broadcast | gather | allGather
  deriving DecidableEq, Repr

/-- One rank's part in a collective operation: what it sends to rank `r` (if anything), where the
data expected from rank `s` goes (displacement and count, if anything is expected), and the receive
buffer. -/
structure Coll (T : Type) where
  kind : CollKind
  out : ℕ → Option (List T)
  slot : ℕ → Option (ℕ × ℕ)
  buf : List T

/-- The program of one rank: local computation ends in a result, or in a collective operation after
which the program goes on with the new content of the receive buffer. -/
inductive Prog (T α : Type) where
  | ret (r : Res α)
  | coll (c : Coll T) (k : List T → Prog T α)

namespace Prog
variable {T α β : Type}

/-- sequencing -/
protected def bind : Prog T α → (α → Prog T β) → Prog T β
  | ret (ok a), f => f a
  | ret (err e), _ => ret (err e)
  | coll c k, f => coll c (fun b => (k b).bind f)

instance : Monad (Prog T) where
  pure a := ret (ok a)
  bind := Prog.bind

/-- local computation -/
instance : MonadLift Res (Prog T) := ⟨ret⟩

/-- call of a collective operation -/
def call (c : Coll T) : Prog T (List T) := coll c (fun b => ret (ok b))

end Prog

/-! ### Asynchronous execution

Every rank runs on its own.  On entering a collective operation it hands its messages over to the
network, which keeps them in order for each pair of ranks; it leaves the operation as soon as it has
received all the data it expects (other ranks may be behind or ahead).  This allows at least all
behaviours the MPI standard allows for these (blocking) operations. -/

/-- Where a rank is. -/
inductive Local (T α : Type) where
  /-- outside of collective operations -/
  | idle (p : Prog T α)
  /-- in the operation `c`, the receive buffer having content `buf`, messages of the ranks `got`
  having arrived -/
  | inside (c : Coll T) (buf : List T) (got : List ℕ) (k : List T → Prog T α)

/-- State of all ranks and of the network: `net s r` are the messages sent by `s` to `r` and not yet
received, oldest first. -/
structure World (T α : Type) where
  loc : ℕ → Local T α
  net : ℕ → ℕ → List (CollKind × List T)

namespace World
variable {T α : Type}

/-- Every rank is about to start, the network is empty. -/
def init (ps : ℕ → Prog T α) : World T α := ⟨fun r => .idle (ps r), fun _ _ => []⟩

end World

/-- Write `blk` at position `d`. -/
def place {T : Type} (buf : List T) (d : ℕ) (blk : List T) : List T :=
  buf.take d ++ blk ++ buf.drop (d + blk.length)

/-- The message `m` is what rank `s` was expected to send. -/
def Expected {T : Type} (c : Coll T) (s : ℕ) (m : CollKind × List T) : Prop :=
  ∃ d, c.slot s = some (d, m.2.length) ∧ d + m.2.length ≤ c.buf.length ∧ m.1 = c.kind

/-- One step of one of the `P` ranks. -/
inductive Step {T α : Type} (P : ℕ) : World T α → World T α → Prop
  /-- a rank enters a collective operation and sends its messages -/
  | enter {w : World T α} (r : ℕ) (hr : r < P) {c k} (h : w.loc r = .idle (.coll c k)) :
      Step P w ⟨Function.update w.loc r (.inside c c.buf [] k),
        fun s x => if s = r then w.net s x ++ ((c.out x).map (fun b => (c.kind, b))).toList
          else w.net s x⟩
  /-- a message arrives and is stored in the receive buffer -/
  | recv {w : World T α} (r s : ℕ) (hr : r < P) (hs : s < P) {c buf got k m ms d}
      (h : w.loc r = .inside c buf got k) (hg : s ∉ got) (hn : w.net s r = m :: ms)
      (hf : Expected c s m) (hd : c.slot s = some (d, m.2.length)) :
      Step P w ⟨Function.update w.loc r (.inside c (place buf d m.2) (s :: got) k),
        fun x y => if x = s ∧ y = r then ms else w.net x y⟩
  /-- a rank that has got everything it expects leaves the operation -/
  | leave {w : World T α} (r : ℕ) (hr : r < P) {c buf got k}
      (h : w.loc r = .inside c buf got k) (hg : ∀ s < P, (c.slot s).isSome → s ∈ got) :
      Step P w ⟨Function.update w.loc r (.idle (k buf)), w.net⟩

/-- `n` steps. -/
inductive Steps {T α : Type} (P : ℕ) : ℕ → World T α → World T α → Prop
  | refl (w) : Steps P 0 w w
  | tail {n w w' w''} : Steps P n w w' → Step P w' w'' → Steps P (n + 1) w w''

/-- A rank has failed (panic, undefined behaviour, …), or has a message in front of it, from a rank
it expects one from, that does not fit: another operation or another count (undefined behaviour). -/
def World.Failed {T α : Type} (P : ℕ) (w : World T α) : Prop :=
  (∃ r < P, ∃ e, w.loc r = .idle (.ret (err e))) ∨
  (∃ r < P, ∃ s < P, ∃ c buf got k m ms, w.loc r = .inside c buf got k ∧ s ∉ got ∧
    (c.slot s).isSome ∧ w.net s r = m :: ms ∧ ¬ Expected c s m)

/-- All ranks have returned. -/
def World.Finished {T α : Type} (P : ℕ) (w : World T α) : Prop :=
  ∀ r < P, ∃ x, w.loc r = .idle (.ret x)

/-- Ranks `0, …, P-1` running the programs `ps`: in every execution, whatever the interleaving, no
rank ever fails, the ranks are never stuck before all have returned, the number of steps is bounded,
and at the end rank `r` has returned `a r`, with no message left over. -/
def AllReturn {T α : Type} (P : ℕ) (ps : ℕ → Prog T α) (a : ℕ → α) : Prop :=
  (∀ n w, Steps P n (World.init ps) w →
    ¬ w.Failed P ∧
    (¬ w.Finished P → ∃ w', Step P w w') ∧
    (w.Finished P → ∀ r < P, w.loc r = .idle (.ret (ok (a r))) ∧ ∀ s < P, w.net s r = [])) ∧
  ∃ B, ∀ n w, Steps P n (World.init ps) w → n ≤ B

/-! ### The operations of the crate -/

section Ops
variable {T : Type}

/-- part of a buffer -/
def block (buf : List T) (p : ℕ × ℕ) : List T := (buf.drop p.1).take p.2

/-- `Partition::new(buf, counts, displs)` and `PartitionMut::new`: the number of elements has to be
an `i32`, and every part has to lie in the buffer.  (Negative counts and displacements are passed
on to MPI: undefined behaviour.) -/
def partition (buf : List T) (counts displs : List ℤ) : Res (List (ℕ × ℕ)) :=
  if buf.length < 2 ^ 31 ∧ ∀ cd ∈ counts.zip displs, cd.1 + cd.2 ≤ buf.length then
    if ∀ cd ∈ counts.zip displs, 0 ≤ cd.1 ∧ 0 ≤ cd.2 then
      ok ((counts.zip displs).map (fun cd => (cd.2.toNat, cd.1.toNat)))
    else err .ub
  else err .panic

/-- A buffer passed as `&send[..]`: the number of elements has to be an `i32`. -/
def slice (buf : List T) : Res Unit := assertR (buf.length < 2 ^ 31)

/-- MPI reads one part per rank. -/
def parts (P : ℕ) (ps : List (ℕ × ℕ)) : Res Unit := if P ≤ ps.length then ok () else err .ub

/-- `world.all_to_all_varcount_into(send, recv)`. -/
def allToAllV (P : ℕ) (send : List T) (sp : List (ℕ × ℕ)) (recv : List T) (rp : List (ℕ × ℕ)) :
    Prog T (List T) := do
  parts P sp
  parts P rp
  Prog.call ⟨.allToAllV, fun r => (sp[r]?).map (block send), fun s => rp[s]?, recv⟩

/-- `world.all_gather_varcount_into(send, recv)`. -/
def allGatherV (P : ℕ) (send recv : List T) (rp : List (ℕ × ℕ)) : Prog T (List T) := do
  slice send
  parts P rp
  Prog.call ⟨.allGatherV, fun _ => some send, fun s => rp[s]?, recv⟩

/-- `root.gather_varcount_into(send)`, called by the ranks other than `root`. -/
def gatherV (root : ℕ) (send : List T) : Prog T Unit := do
  slice send
  let _ ← Prog.call ⟨.gatherV, fun r => if r = root then some send else none, fun _ => none, []⟩

/-- `root.gather_varcount_into_root(send, recv)`, called by `root`. -/
def gatherVRoot (P root : ℕ) (send recv : List T) (rp : List (ℕ × ℕ)) : Prog T (List T) := do
  slice send
  parts P rp
  Prog.call ⟨.gatherV, fun r => if r = root then some send else none, fun s => rp[s]?, recv⟩

/-- `root.scatter_varcount_into(recv)`, called by the ranks other than `root`. -/
def scatterV (root : ℕ) (recv : List T) : Prog T (List T) := do
  slice recv
  Prog.call ⟨.scatterV, fun _ => none,
    fun s => if s = root then some (0, recv.length) else none, recv⟩

/-- `root.scatter_varcount_into_root(send, recv)`, called by `root`. -/
def scatterVRoot (P root : ℕ) (send : List T) (sp : List (ℕ × ℕ)) (recv : List T) :
    Prog T (List T) := do
  slice recv
  parts P sp
  Prog.call ⟨.scatterV, fun r => (sp[r]?).map (block send),
    fun s => if s = root then some (0, recv.length) else none, recv⟩

/-- `root.broadcast_into(data)`. -/
def broadcastInto (rank root : ℕ) (buf : List T) : Prog T (List T) :=
  Prog.call ⟨.broadcast, fun r => if rank = root ∧ r ≠ root then some buf else none,
    fun s => if rank ≠ root ∧ s = root then some (0, buf.length) else none, buf⟩

/-- `root.gather_into(x)`, called by the ranks other than `root`. -/
def gatherInto (root : ℕ) (x : T) : Prog T Unit := do
  let _ ← Prog.call ⟨.gather, fun r => if r = root then some [x] else none, fun _ => none, []⟩

/-- `root.gather_into_root(x, recv)`: MPI receives `recv.len() / size` elements per rank. -/
def gatherIntoRoot (P root : ℕ) (x : T) (recv : List T) : Prog T (List T) := do
  slice recv
  Prog.call ⟨.gather, fun r => if r = root then some [x] else none,
    fun s => if s < P then some (s * (recv.length / P), recv.length / P) else none, recv⟩

/-- `world.all_gather_into(x, recv)`. -/
def allGatherInto (P : ℕ) (x : T) (recv : List T) : Prog T (List T) := do
  slice recv
  Prog.call ⟨.allGather, fun _ => some [x],
    fun s => if s < P then some (s * (recv.length / P), recv.length / P) else none, recv⟩

end Ops

end Verif.Mpi
