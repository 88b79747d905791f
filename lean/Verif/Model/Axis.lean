/-
Model of the multidimensional operators: src/utils.rs (axis helpers) and the macros
`apply_along_axis!`, `par_apply_along_axis!` of src/internal_macros.rs, together with
`gradient_inplace` and `gradient_inplace_par` of src/traits.rs.
-/
import Verif.Core.Res

namespace Verif
open Res

/-- `ndarray::ArrayBase<_, D>` (external): the shape, the elements in row-major (logical)
order, and whether the memory layout is the standard one. -/
structure Arr (T : Type) where
  shape : List ℕ
  data : List T
  std : Bool
  deriving DecidableEq

namespace Arr
variable {S T : Type}

/-- Invariant of every `ndarray`: there are as many elements as the shape says. -/
def WF (a : Arr T) : Prop := a.data.length = a.shape.prod

/-- `Array::zeros(shape)` (external). -/
def zeros [Zero T] (shape : List ℕ) : Arr T := ⟨shape, List.replicate shape.prod 0, true⟩

end Arr

/-- `shape()[axis]`: panics when the array has no such axis. -/
def shapeAt (sh : List ℕ) (axis : ℕ) : Res ℕ := rdC sh axis

/-- utils.rs:97-115 `array_resized_axis`: zeros, the extent along `axis` replaced by `size`. -/
def arrayResizedAxis {S : Type} (T : Type) [Zero T] (input : Arr S) (size axis : ℕ) :
    Res (Arr T) := do
  let dim ← wrC input.shape axis size                                     -- 108-111
  pure (Arr.zeros dim)                                                    -- 114

/-- utils.rs:129-149 `check_array_axis`. -/
def checkArrayAxis {T : Type} (input : Arr T) (size axis : ℕ) : Res Unit := do
  assertR ((← shapeAt input.shape axis) = size)                           -- 139-148

/-! ### Lanes

`lanes(Axis(axis))` (external) enumerates, in row-major order of the remaining axes, the
one-dimensional lanes along `axis`.  With extent `n` along the axis and `inner` the product of
the extents behind it, lane `l` consists of the elements `(l / inner * n + k) * inner + l % inner`,
`k < n`, of the row-major data. -/

/-- number of elements of the axes behind `axis` -/
def innerSize (sh : List ℕ) (axis : ℕ) : ℕ := (sh.drop (axis + 1)).prod

/-- number of lanes along `axis` -/
def laneCount (sh : List ℕ) (axis : ℕ) : ℕ := (sh.eraseIdx axis).prod

/-- position in the row-major data of element `k` of lane `l` -/
def laneAddr (n inner l k : ℕ) : ℕ := (l / inner * n + k) * inner + l % inner

/-- content of lane `l` -/
def getLane {T : Type} [Zero T] (n inner : ℕ) (data : List T) (l : ℕ) : List T :=
  (List.range n).map (fun k => nth data (laneAddr n inner l k))

/-- `for (yi, si) in y.iter_mut().zip(src.iter()) { *yi = *si }` for the lane `y = l`. -/
def setLane {T : Type} [Zero T] (n inner : ℕ) (l : ℕ) (src data : List T) : List T :=
  (List.range (min n src.length)).foldl
    (fun d k => d.set (laneAddr n inner l k) (nth src k)) data

section Apply
variable {S T : Type} [Zero S] [Zero T]

/-- internal_macros.rs:202-211, 217-219 (also 251-260, 266-268; traits.rs:373-382, 388-390 and
432-441, 447-449): the checks made before any lane is touched.  `Zip::and` panics when the two
sets of lanes have different shapes. -/
def axisChecks (l1 l2 : ℕ) (indata : Arr S) (outdata : Arr T) (axis : ℕ) : Res Unit := do
  assertR (indata.std = true)
  assertR (outdata.std = true)
  checkArrayAxis indata l1 axis
  checkArrayAxis outdata l2 axis
  let _ ← indata.shape.length -! 1
  assertR (indata.shape.eraseIdx axis = outdata.shape.eraseIdx axis)

/-- internal_macros.rs:185-229 `apply_along_axis!`.  `f indata outdata` is the slice operator
`self.$f` (it returns the new content of its output slice, whose old content it may read).
traits.rs:362-398 `gradient_inplace` is the same code with `f := gradient_slice(.., n_times)`:
`rows()` of traits.rs:381-382 are the lanes along the last axis.
`order` is the order in which `Zip::for_each` visits the lanes (unspecified by ndarray). -/
def applyAlongAxis (order : List ℕ) (f : List S → List T → Res (List T)) (l1 l2 : ℕ)
    (indata : Arr S) (outdata : Arr T) (axis : ℕ) : Res (Arr T) := do
  axisChecks l1 l2 indata outdata axis                                    -- 202-205
  let n ← shapeAt indata.shape axis
  let m ← shapeAt outdata.shape axis
  let inI := innerSize indata.shape axis
  let inO := innerSize outdata.shape axis
  let outerAxis ← indata.shape.length -! 1                                -- 207
  (if axis = outerAxis then do                                            -- 208-214
    let data ← forList order (fun l data => do
      let y ← f (getLane n inI indata.data l) (getLane m inO data l)
      pure (setLane m inO l y data)) outdata.data
    pure { outdata with data := data }
  else do                                                                 -- 215-226
    let scratch := List.replicate m (0 : T)                               -- 217
    let (_, data) ← forList order (fun l (s : List T × List T) => do
      let scratch ← f (getLane n inI indata.data l) s.1                   -- 221
      pure (scratch, setLane m inO l scratch s.2)) (scratch, outdata.data) -- 222-224
    pure { outdata with data := data })

/-- The order in which the serial operators visit the lanes. -/
def serialOrder (outdata : Arr T) (axis : ℕ) : List ℕ :=
  List.range (laneCount outdata.shape axis)

/-! ### Parallel execution

`par_for_each` (rayon, external) runs one task per lane.  A task first computes the new content
of its lane and then writes the elements one by one; tasks interleave arbitrarily. -/

/-- Progress of the task of one lane. -/
inductive Task (T : Type) where
  | todo
  /-- new content of the lane and number of elements already written -/
  | writing (y : List T) (k : ℕ)

/-- State of a parallel run. -/
structure ParState (T : Type) where
  task : ℕ → Task T
  data : List T

/-- One step of the task of lane `l`.  In the contiguous branch (internal_macros.rs:261-263) the
slice operator works on the lane of the output array itself, in the other branch
(269-275) on a fresh zero vector. -/
def parStep (f : List S → List T → Res (List T)) (contiguous : Bool) (n m inI inO : ℕ)
    (indata : List S) (l : ℕ) (s : ParState T) : Res (ParState T) :=
  match s.task l with
  | .todo => do
    let y ← f (getLane n inI indata l)
      (if contiguous then getLane m inO s.data l else List.replicate m 0)
    pure { s with task := Function.update s.task l (.writing y 0) }
  | .writing y k =>
    if k < min m y.length then
      pure ⟨Function.update s.task l (.writing y (k + 1)),
        s.data.set (laneAddr m inO l k) (nth y k)⟩
    else pure s

/-- internal_macros.rs:233-279 `par_apply_along_axis!` and traits.rs:419-458
`gradient_inplace_par`, executed along the schedule `sched` (which lane's task moves at each
step). -/
def parApplyAlongAxis (sched : List ℕ) (f : List S → List T → Res (List T)) (l1 l2 : ℕ)
    (indata : Arr S) (outdata : Arr T) (axis : ℕ) : Res (Arr T) := do
  axisChecks l1 l2 indata outdata axis                                    -- 251-254
  let n ← shapeAt indata.shape axis
  let m ← shapeAt outdata.shape axis
  let inI := innerSize indata.shape axis
  let inO := innerSize outdata.shape axis
  let outerAxis ← indata.shape.length -! 1                                -- 256
  let s ← forList sched (fun l s =>
    parStep f (axis = outerAxis) n m inI inO indata.data l s) ⟨fun _ => .todo, outdata.data⟩
  pure { outdata with data := s.data }

end Apply

/-- A schedule of a parallel run on an output of shape `sh` that lets every task finish: it only
contains existing lanes, and each of them at least once for computing and once per element. -/
def FairSchedule (sh : List ℕ) (axis : ℕ) (sched : List ℕ) : Prop :=
  (∀ l ∈ sched, l < laneCount sh axis) ∧
  ∀ l < laneCount sh axis, sh.getD axis 0 + 1 ≤ sched.count l

end Verif
