# Formal model of preiter93/funspace in Lean 4 — design

(Generated by `tools/design.py` from `tools/design.tmpl.md`, `properties.jsonl` and `MANIFEST.json`.)

## 1. Approach

The Rust source in /repo is read as text. Every modelled function becomes a Lean function
that follows the code statement by statement (same loops, same index arithmetic, same
order of writes) and returns a value of `Res α` (`Core/Res.lean`):

* `ok a` – normal return,
* `err .panic` – an `assert!`, a bounds-checked index, overflow or underflow of `usize` in a debug
  build, `todo!()`, `unwrap()` on a missing key, a shape mismatch in ndarray,
* `err .ub` – an out-of-range `get_unchecked` / `get_unchecked_mut` (undefined behaviour),
* `err .div0` – a division by zero (the Rust code would produce inf/NaN and go on).

`&mut [T]` arguments become list-valued arguments and results; `for` loops become
`forRange` / `forRev` folds; panics are never totalised away. Theorems say either that a call returns
`ok` of a value with a specified property, or exactly when and how it fails.

Scalars: the model is generic in the numeric type `A` (f32/f64) and the data type `T` (real or complex): it
uses the operations the code uses (`+ - * /`, powers, `sin`, the external DCT and FFT, `powi`) as class
methods and no law about them. There are three readings.

* *Exact arithmetic* (most properties): `A` is a field `K` (linearly ordered where the sign of pivots
  matters; ℝ/ℂ for transforms), `T` a `K`-module; a division by zero is the failure `div0`, which C18 and
  C19 show not to occur in the bases. Statements about values (solutions, derivatives, round trips) are of
  this kind: **they say nothing about the size of rounding errors**.
* *Any arithmetic* (C20, C34 for spaces, C48, C49, C65, C68, C69, C70, C42-C47): no law is assumed, division
  is total (`Spec/Arith.lean`). These statements – success and failure, sizes, independence of buffers,
  schedules, message orders and numbers of ranks – hold bit for bit of floating-point programs; Lean's
  `Float` is an instance (`Spec/FloatArith.lean`).
* *Arithmetic with rounding* (C71 and later properties named "rounding error"): `A = T = Rnd R`, real numbers
  whose operations return the exact result with a relative error of at most `u` (`Spec/Rounding.lean`, the
  standard model of floating-point arithmetic; exponents are unbounded, so overflow, underflow and NaN are
  outside it). `Spec/Binary.lean` constructs round-to-nearest with `q+1` binary digits and shows that it is an
  instance. Integers are converted with one rounding and `powi` by small exponents is one rounding of the
  exact power. These statements compare the run in `Rnd R` with the run of the same program in ℝ.

`usize` arithmetic that can leave the 64-bit range is modelled with overflow in both build modes
(`Core/Usize.lean`): `_dmat` (C06, C07) and `distribute` (C42, C43); MPI counts are `i32`.

### Layers

| directory | content |
|---|---|
| `lean/Verif/Core` | `Res`, slices, loops, matrices and their proof rules |
| `lean/Verif/Model` | the model, one file per Rust source file (group), each definition citing file:lines |
| `lean/Verif/Spec` | small specifications, independent of the model (Chebyshev series via Mathlib's `Polynomial.Chebyshev.T`, trigonometric sums, matrices, arrays and lanes, partitions, pencils) |
| `lean/Verif/Proof` | helper lemmas |
| `lean/Verif/Props` | the property theorems `Cnn_…`, with examples meeting their hypotheses beside them |

### How the four kinds of quantification are handled

* **All inputs and sizes.** Loop invariants (`wp_forRange`) and closed forms; nothing is bounded
  except by the limits of machine integers named in the statements.
* **Arrays of any rank, layout and axis** (`Model/Axis.lean`). An `ndarray` is its shape, its elements in
  logical order and the flag "standard layout". `apply_along_axis!` visits the lanes in an arbitrary
  order and, in the strided branch, hands the same scratch vector from lane to lane.
  `Spec.Computes f n m g` – the slice operator `f` takes `n` elements to `m` elements as the function
  `g`, whatever the old output – is the interface between slice operators and lanes.
* **All schedules.** `par_apply_along_axis!` is a set of tasks, one per lane, that interleave element
  write by element write along an arbitrary fair schedule (C34; C63 for histories of calls).
* **All message orders.** A rank's program is a tree of local computations and collective operations
  (`Model/Mpi.lean`). Ranks run asynchronously: on entering an operation a rank hands its messages to
  the network (FIFO per pair of ranks), receives one by one in any order, and leaves when it has what
  it expects; other ranks may be behind or ahead. `AllReturn N ps a` says: in every execution no rank
  fails or meets a message of another operation or length, no state is stuck before all have returned,
  the number of steps is bounded, at the end rank `r` has returned `a r`, and no message is left. It is
  proved from the lock step semantics `Runs` (`Proof/Mpi.lean: Runs.allReturn`).

## 2. Per-property plan and status

For each property: the model is that of the functions named in its anchors.

| id | property | how it is modelled and proved | status |
|---|---|---|---|
@@ROWS@@

Where the code violates a property (C07, C12, C26, C40; clauses of C06, C16, C50) the negation is
proved with a witness or for every size, and the largest true part is proved under a `_partial` name.
None of the properties was found impossible to express in the model, except for rounding errors of the
operations C71 and later do not cover (see above).

## 3. Trusted base

* **Lean 4.33 kernel.** No `native_decide`, `bv_decide`, no own axioms.
* **Axioms.** Every theorem in the manifest depends on a subset of `propext`, `Classical.choice`,
  `Quot.sound`; all but three (which need only `propext` or `propext` and `Quot.sound`) depend on
  exactly these three. Check: `#print axioms` of each name in `MANIFEST.json` (`tools/axioms.sh`).
* **Reading of the Rust source.** There is no extraction tool; each definition of the model cites the
  lines it models, and numbers at the end of lines inside a definition are source lines.
* **The specifications** in `Spec/` and the statements in `Props/`.
* **External crates**, modelled by their documented behaviour next to the definition that uses them:
  * rustdct DCT-I, rustfft and realfft: the defining sums over ℝ/ℂ (realfft's inverse fails on
    non-real mean or Nyquist coefficients); plans of length 0 are not considered;
  * ndarray: shapes, row-major logical order, `lanes`, `zeros`, `assign` with broadcasting, `dot`,
    `slice`, the panics on mismatched shapes; `is_standard_layout` is a flag of the array; the order in
    which `Zip::for_each` visits lanes is arbitrary;
  * rayon `par_for_each`: one task per lane, arbitrary interleaving, every task finishes;
  * mpi: the collective operations all_to_all_v, all_gather_v, gather_v, scatter_v, broadcast, gather,
    all_gather with the asynchronous semantics above; `Partition` asserts its counts; element types
    are not checked (C64 sends two types over one network by an injection);
  * std: `Vec`, slices, iterators; `HashMap` of the decomposition handler as a partial
    function with its number of keys.

## 4. What is modelled and what is not

Functions of /repo with a body (tests excluded): @@NCOV@@ are cited by a definition of the model,
@@NMISS@@ are not. The third column lists the ones without a citation of their own
(`tools/coverage.py`).

| file | cited | without a citation |
|---|---|---|
@@COV@@

* `get_tdma_diagonals`, `get_fdma_diagonals` are inlined in the model of `new` (cited there by line).
* `main` of `examples/field.rs` is the subject of theorem `C63_main`; `main` of the MPI examples at the
  second line number is the stub for builds without MPI; `get_universe` returns the MPI handle, which
  is represented by the number of ranks and the own rank.
* Traits, type bounds and `types.rs` have no run-time content. `f32`/`f64` conversions
  (`A::from(..).unwrap()`) are the canonical maps into the field.
* The serial methods of `Space2Mpi` (space_mpi/space2.rs:71-460) are the same text as
  space/space2.rs (checked with `diff`) and are modelled by the field `space`.
* Not modelled: the values of rounded operations (in the any-arithmetic reading they are arbitrary),
  allocation failure, stack depth, unwinding across threads
  (a panicking lane task ends the model run), MPI errors of the transport.

## 5. Findings about the code

Stated and proved as theorems unless marked (reading).

1. `FourierC2c::gradient_slice` is wrong for every n ≥ 2: from the last
   coefficient backwards the factors are i·0, i·1, … instead of −i·1, −i·2, … (C26).
2. `to_ortho`, `backward`, `gradient` of the biharmonic bases read out of bounds for every size (C12).
3. `Space3::gradient` differentiates axis 2 with base 1 (C40).
4. `Chebyshev::_dmat` overflows `usize`: debug builds panic from n = 12 (order 3), 567 (order 4) and
   2642247 (order 2) on; release builds return wrong matrices (C07).
5. `stencil_inv` and `from_ortho` differ outside the range of the stencil (C16).
6. `approx_eq*` compare only the common prefix, and accept complex numbers that agree in one part (C50).
7. `chebyshev(2).gradient` and several slice methods called with short slices read out of bounds (C51).
8. `distribute` with more processes than points panics in debug builds and splits wrongly in release
   builds (C43).
9. A second `insert` of a shape into the decomposition handler is never found (C47).
10. `ingredients_for_hholtz` of examples/field.rs panics for every Chebyshev axis (C63).
11. `Display` spells the orthogonal base "Chebyhev" (`BaseKind.display`).
12. The number of Fourier nodes is the length of a floating-point range: in `f64` the grid of a Fourier base of
    size 61·2^t (t ≤ 47; also 197, …: reading) has one point too many, so sampling a function on the grid and
    transforming the samples panics (C81).
13. Communication counts and displacements are computed in `i32`: on grids of 2^31 points or more a release build
    computes wrong (negative) displacements, and a debug build panics even if only the unused total overflows; both
    are caught before data is moved because rsmpi refuses such buffers (C99).

## 6. Testing the theorems

`seeded/LOG.jsonl` records edits of the model in a scratch copy (`tools/mut.py`): the edited definition,
the edit, the claim it breaks, the theorems whose proofs then fail (directly or through a lemma), and
theorems tightened as a consequence.

## 7. Testing the model

`lean/Verif/Validate/Tests.lean` replays all 15 unit tests of the repository and its documentation examples on the
model, with Lean's `Float` for `f64`, the same inputs, expected values and tolerances; the build fails if one does not
pass.  These are tests, not proofs, and no claim rests on them: they guard against errors in transcribing the code.
