# Formal model of preiter93/funspace in Lean 4 — design

(Generated by `tools/design.py` from `tools/design.tmpl.md`, `properties.jsonl` and `MANIFEST.json`.)

## 1. Approach

The Rust source in /repo is read as text. Every modelled function becomes a Lean function
that follows the code statement by statement (same loops, same index arithmetic, same
order of writes) and returns a value of `Res α` (`Core/Res.lean`):

* `ok a` – normal return,
* `err .panic` – an `assert!`, a bounds-checked index, overflow or underflow of `usize` in a debug
  build, `todo!()`, `unwrap()` on a missing key, a shape mismatch in ndarray,
* `err .ub` – an out-of-range `get_unchecked` / `get_unchecked_mut` (undefined behaviour),
* `err .div0` – a division by zero (the Rust code would produce inf/NaN and go on).

`&mut [T]` arguments become list-valued arguments and results; `for` loops become
`forRange` / `forRev` folds; panics are never totalised away. Theorems say either that a call returns
`ok` of a value with a specified property, or exactly when and how it fails.

Scalars: the model is generic in the numeric type `A` (f32/f64) and the data type `T` (real or complex): it
uses the operations the code uses (`+ - * /`, powers, `sin`, the external DCT and FFT, `powi`) as class
methods and no law about them. There are three readings.

* *Exact arithmetic* (most properties): `A` is a field `K` (linearly ordered where the sign of pivots
  matters; ℝ/ℂ for transforms), `T` a `K`-module; a division by zero is the failure `div0`, which C18 and
  C19 show not to occur in the bases. Statements about values (solutions, derivatives, round trips) are of
  this kind: **they say nothing about the size of rounding errors**.
* *Any arithmetic* (C20, C34 for spaces, C48, C49, C65, C68, C69, C70, C42-C47): no law is assumed, division
  is total (`Spec/Arith.lean`). These statements – success and failure, sizes, independence of buffers,
  schedules, message orders and numbers of ranks – hold bit for bit of floating-point programs; Lean's
  `Float` is an instance (`Spec/FloatArith.lean`).
* *Arithmetic with rounding* (C71 and later properties named "rounding error"): `A = T = Rnd R`, real numbers
  whose operations return the exact result with a relative error of at most `u` (`Spec/Rounding.lean`, the
  standard model of floating-point arithmetic; exponents are unbounded, so overflow, underflow and NaN are
  outside it). `Spec/Binary.lean` constructs round-to-nearest with `q+1` binary digits and shows that it is an
  instance. Integers are converted with one rounding and `powi` by small exponents is one rounding of the
  exact power. These statements compare the run in `Rnd R` with the run of the same program in ℝ.

`usize` arithmetic that can leave the 64-bit range is modelled with overflow in both build modes
(`Core/Usize.lean`): `_dmat` (C06, C07) and `distribute` (C42, C43); MPI counts are `i32`.

### Layers

| directory | content |
|---|---|
| `lean/Verif/Core` | `Res`, slices, loops, matrices and their proof rules |
| `lean/Verif/Model` | the model, one file per Rust source file (group), each definition citing file:lines |
| `lean/Verif/Spec` | small specifications, independent of the model (Chebyshev series via Mathlib's `Polynomial.Chebyshev.T`, trigonometric sums, matrices, arrays and lanes, partitions, pencils) |
| `lean/Verif/Proof` | helper lemmas |
| `lean/Verif/Props` | the property theorems `Cnn_…`, with examples meeting their hypotheses beside them |

### How the four kinds of quantification are handled

* **All inputs and sizes.** Loop invariants (`wp_forRange`) and closed forms; nothing is bounded
  except by the limits of machine integers named in the statements.
* **Arrays of any rank, layout and axis** (`Model/Axis.lean`). An `ndarray` is its shape, its elements in
  logical order and the flag "standard layout". `apply_along_axis!` visits the lanes in an arbitrary
  order and, in the strided branch, hands the same scratch vector from lane to lane.
  `Spec.Computes f n m g` – the slice operator `f` takes `n` elements to `m` elements as the function
  `g`, whatever the old output – is the interface between slice operators and lanes.
* **All schedules.** `par_apply_along_axis!` is a set of tasks, one per lane, that interleave element
  write by element write along an arbitrary fair schedule (C34; C63 for histories of calls).
* **All message orders.** A rank's program is a tree of local computations and collective operations
  (`Model/Mpi.lean`). Ranks run asynchronously: on entering an operation a rank hands its messages to
  the network (FIFO per pair of ranks), receives one by one in any order, and leaves when it has what
  it expects; other ranks may be behind or ahead. `AllReturn N ps a` says: in every execution no rank
  fails or meets a message of another operation or length, no state is stuck before all have returned,
  the number of steps is bounded, at the end rank `r` has returned `a r`, and no message is left. It is
  proved from the lock step semantics `Runs` (`Proof/Mpi.lean: Runs.allReturn`).

## 2. Per-property plan and status

For each property: the model is that of the functions named in its anchors.

| id | property | how it is modelled and proved | status |
|---|---|---|---|
| C01 | Chebyshev grid points | `nodes` over ℝ; sine form = cosine form, monotone, symmetric, endpoints | proved |
| C02 | Chebyshev backward transform evaluates the series | forward/backward modelled statement by statement around DCT-I; evaluation with `Polynomial.Chebyshev.T` | proved |
| C03 | Chebyshev forward and backward are mutually inverse | orthogonality of the cosines at the Chebyshev points | proved |
| C04 | Chebyshev gradient is the exact derivative | loop invariant of `gradient_slice`; compared with `Polynomial.derivative^[k]` of Σ a_j T_j | proved |
| C05 | Chebyshev gradient composes and annihilates | from C04 and uniqueness of Chebyshev coefficients | proved |
| C06 | Chebyshev differentiation matrices are the derivative in the T basis | `_dmat` with 64-bit `usize` in debug and release mode; closed forms = derivative of T_j | proved |
| C07 | Integer overflow in the Chebyshev differentiation matrices | negation proved (witnesses for each derivative order and mode); partial: below the limits | partial |
| C08 | Pseudo-inverse of the Chebyshev derivative | `_pinv` rows; polynomial identities per band | proved |
| C09 | Chebyshev Laplacian and its pseudo-inverse | from C06, C08 | proved |
| C10 | Composite bases: inverse stencil is a left inverse | loops of `pinv`; normal equations of the stencil, any ordered field | proved |
| C100 | Repeated round trips: errors add up, they are not amplified | Spec/History (runAll; the ways to call a method), Proof/History (induction over the history: error of one trip measured at the current data, exact trip is the identity or an idempotent Lipschitz map by linearity), Props/History, Props/HistorySpaces | proved |
| C101 | Crashes: a rank that dies never makes another rank return wrong data | Spec/Crash (CrashStep: a rank stops, a suffix of its messages is lost), Proof/Crash (an execution with crashes is one without, with ends of channels cut off; every state of the latter extends to the end, and ranks that have returned do not move), Props/Crash | proved |
| C102 | Solving Poisson and Helmholtz problems with the matrices is well posed, exact and quasi-optimal | Spec/Tau (system, weighted integral), Proof/Tau (orthogonality, integration by parts and coercivity in the Chebyshev weight; the last two columns of the pseudo-inverse vanish, so the system drops the two highest coefficients of the residual), Proof/TauDirichlet (test with u'' resp. u'/(1-x^2); Green's function and Cauchy-Schwarz for pointwise bounds), Props/Tau | proved |
| C103 | The matrices are accurate in floating-point arithmetic | Spec/RndMat (two runs end alike; entrywise relative error; correct rounding), Proof/RndMat and Proof/RndMatStencil (relational simulation of the run with rounding and the exact run, statement by statement), Props/RndMat | proved |
| C104 | The two-dimensional Poisson problem assembled from the matrices of a space is well posed and exact | Every axis is reduced to a regular matrix Q, the coefficients N of its functions and M of their second derivatives (tau form of C102). Uniqueness and stability: test the truncated equation with the truncated u in the product of the Chebyshev weights, so that both second derivatives reduce to the one-dimensional energy (u, u'') <= 0 of C102. Fourier axes: one Helmholtz problem of C102 per mode. | proved |
| C105 | A field of one, two or three dimensions behaves the same through every history | The trait BaseSpace is a record of methods with one instance per dimension; one step of a history reduces to C34 and C41 of the dimension, histories by induction. | proved |
| C106 | Implicit time stepping with the matrices of the bases runs for ever, is stable and converges | The energy -<u'', u>_w of C102/C104 is positive definite on the finite-dimensional space, so it dominates a multiple of the squared norm (compactness of the sphere); the implicit step then decreases the weighted mean square by at least that much, the squares are summable and tend to zero; the error of a run with source is a run without source. | proved |
| C107 | Changing the resolution changes nothing, and products on a fine enough grid are exact (3/2 rule) | The forward transform of a function of higher degree folds its coefficients onto the resolved ones (C80-style aliasing lemma); under the stated condition the first n coefficients receive no folded contribution. Same for Fourier frequencies modulo N. | proved |
| C108 | The transforms of spaces of one, two and three dimensions preserve the energy (Parseval) | One-dimensional identities from C67 and C90; the transforms of a space act lane by lane, so the sum over one index is exchanged with the identity of the other direction. | proved |
| C109 | Working in a space is working in the space of its orthogonal bases; derivatives compose and commute | Each base operation is a real matrix or a linear lane map; sweeps along different axes commute and sweeps along the same axis compose. | proved |
| C11 | to_ortho is multiplication by the stencil (second order bases) | loop invariant of `dot_inplace` = `mulVec` of `to_array` | proved |
| C110 | Spaces act on products of functions factor by factor | Sweep by sweep: a linear operator along one axis acts on the factor of that axis only. | proved |
| C111 | Exchanging the axes of a space exchanges the axes of its results | The operations act factor by factor (C110); the transpose of a sum of products is the sum of the exchanged products. | proved |
| C112 | Summation by parts on the periodic grid | The inner product is expanded over the coefficients that forward computes (C28, r2c_eval); conjugation moves (ik)^d to the other factor. Two dimensions: the array is the sum of its columns times unit vectors (C110). | proved |
| C113 | Nonlinear terms: product rule and conservation on a fine enough grid | Band-limited data are samples of (trigonometric) polynomials (C28, C02); these form a graded algebra (TS_mul), their derivatives are exact (C59), and the derivative of a trigonometric polynomial of degree below n sums to zero over the grid. | proved |
| C114 | Time stepping on the periodic grid | Even orders: gradient keeps the Nyquist mode real, so forward of the derivative is diagonal in the coefficients (C28); histories by induction; Parseval (C67) for the energy. Odd orders: skew-symmetry (C112). The implicit step is solvable because id + dt/2 D is injective for skew D. | proved |
| C115 | Convolution theorems | Fourier: orthogonality of the exponentials (inverse transform) and the shift theorem (C89). Chebyshev: 2 T_i T_j = T_(i+j) + T_|i-j|, aliasing on the grid (C79) and uniqueness of the interpolant (C03). | proved |
| C116 | Convergence for all smooth functions, with rates | Integration by parts gives |a_k| <= M/|k|^p for the Fourier coefficients, so Mathlib's pointwise convergence of Fourier series applies; f(cos t) turns this into Chebyshev series; tails by comparison with sum 1/k^2; then C80, C98. | proved |
| C117 | The Helmholtz solver converges with a rate | The interpolant of Y lies in the base because the grid contains both ends (C17); C102 (error against any function of the base) and the rates of C116 for Y, Y'' and F. | proved |
| C118 | The heat equation solver converges in space and time | Energy estimate of a step with source (C106); the residual of the interpolants of Y is bounded at the grid points, where the interpolation of the equation is exact, and the discrete norm dominates the norm of the resolved coefficients (C90); coefficients of Y(t,.) decay uniformly in t (C116). | proved |
| C119 | The two-dimensional Poisson and Helmholtz solver converges with a rate for every smooth solution | The error satisfies the system with the residual of the two-dimensional interpolant of Y (C01, C02 per axis, tensor interpolation estimates from C116/C118 rates); the Dirichlet bilinear form is coercive on each axis and hence on the Kronecker system (C104), and the discrete norm dominates the norm of the resolved coefficients. | proved |
| C12 | to_ortho is multiplication by the stencil (biharmonic bases) | negation proved for every size (out-of-bounds read); partial: the rows that are computed | partial |
| C120 | The two-dimensional heat equation solver converges in space and time | Energy estimate of a two-dimensional step with source (Kronecker energy, C106); the residual of the interpolants of Y (interp2, C119) is bounded at the grid points and the discrete norm dominates the resolved coefficients; bounds of the derivatives uniform in time by compactness. | proved |
| C121 | Two-dimensional spectral differentiation converges with a rate for every smooth function | The pipeline differentiates the interpolant exactly (C59); one axis at a time: error of the interpolant along the first axis (C117, decay of Fourier coefficients), stability of Chebyshev differentiation in the values along the second axis (bound of the coefficients, Markov), and the interpolation error of the derivative in the first variable along the second axis; constants uniform by compactness. | proved |
| C122 | The Poisson and Helmholtz solver of a Fourier x Chebyshev space converges with a rate for every smooth solution | The system decouples into one Helmholtz problem with beta + c k^2 per mode and part. The modes of the samples of F are those of beta Y_k - c Y_k'' + c k^2 Y_k up to the error of the numerical second derivative along the periodic axis (C117: transforms of the numerical derivative are exactly -k^2 times the transforms). C102 bounds the error of each mode by the residual, interpolation in the wall direction bounds the residual, and the real Fourier series sums the modes. | proved |
| C123 | The heat equation solver of a Fourier x Chebyshev space converges in space and time | Each Fourier mode (real or imaginary part) makes steps of dY_k/dt = nu Y_k'' - nu k^2 Y_k + g_k; the modes of the samples of Y satisfy this equation up to the error of the numerical second derivative along x (C117). Energy stability with source (C106, C118) with the additional dissipation k^2 bounds the error of each mode; the initial coefficients are those of the interpolants because the samples vanish at the walls; the real Fourier series sums the modes. | proved |
| C124 | Time stepping of periodic grid data with the library's derivatives converges | The error of the grid data satisfies the same recurrence with a source: the truncation error in time (mean value theorem; trapezoidal rule) plus the error of the numerical derivative of a smooth function (C80, with constants). The explicit step does not enlarge the energy below the limit (C114); the derivative of odd order is skew (C112), so the implicit step preserves the norm up to the source. Minkowski sums the steps. | proved |
| C13 | from_ortho inverts to_ortho | factorisation invariants + C10 | proved |
| C14 | from_ortho is the least-squares projection | normal equations; minimiser over inner product spaces | proved |
| C15 | Projection is idempotent and keeps the space | from C13 | proved |
| C16 | stencil_inv versus from_ortho | equality on the range; counterexample outside | proved |
| C17 | Boundary conditions of the composite bases | values and derivatives of T_k at ±1; kernel of the boundary functionals = range of the stencil | proved |
| C18 | Banded solvers solve the system | loop invariants of tdma/pdma/pdma2 = LU factorisation, no bound on n | proved |
| C19 | from_ortho never divides by zero | Schur complement invariant: pivots positive | proved |
| C20 | Checked solvers are the unchecked ones with bounds checks | simulation: checked and unchecked loops step alike | proved |
| C21 | Composite transforms | composition of C02, C03, C13, C17 | proved |
| C22 | Composite gradient | composition of C04, C11 | proved |
| C23 | Fourier grid and wavenumbers | closed forms of the loops | proved |
| C24 | Complex Fourier transforms are mutually inverse | orthogonality of roots of unity | proved |
| C25 | Complex Fourier backward evaluates the trigonometric series | evaluation of the trigonometric sum | proved |
| C26 | Complex Fourier gradient | negation proved for n ≥ 2; partial: exact behaviour, non-negative frequencies | partial |
| C27 | Complex Fourier matrices | diagonal matrices, derivative of exp(ikx) | proved |
| C28 | Real-to-complex Fourier transforms | Hermitian extension; odd and even n | proved |
| C29 | Real-to-complex gradient | as C27 for r2c | proved |
| C30 | Real-to-complex matrices | as C27 | proved |
| C31 | Linearity | every slice operator = fixed linear map | proved |
| C32 | Results do not depend on the previous content of output buffers | `Computes`: result does not depend on the old output | proved |
| C33 | Operators act lane by lane | lane addresses partition the row-major data; fold over lanes | proved |
| C34 | Parallel equals serial | invariant of interleaved tasks, any fair schedule | proved |
| C35 | Wrong sizes are rejected | the checks of the array methods | proved |
| C36 | Space2 round trip | lane laws lift to axes; axes commute | proved |
| C37 | Axis order does not matter | operators along different axes commute | proved |
| C38 | Space1 and Space2 gradient | tensor functions; mixed derivatives | proved |
| C39 | Space3 round trip | as C36 | proved |
| C40 | Space3 gradient | negation proved; partial: bases 1 and 2 equal | partial |
| C41 | Shapes of results | shape computation | proved |
| C42 | Domain distribution is a balanced partition | invariant of `distribute` | proved |
| C43 | Too many processes are detected | underflow in `distribute`, both modes | proved |
| C44 | Pencil transposes preserve global data | asynchronous network of ranks; `Runs` (lock step) implies `AllReturn` (all interleavings) | proved |
| C45 | Gather and scatter | as C44 | proved |
| C46 | Communication counts match | counts of sender and receiver agree | proved |
| C47 | Decomposition lookup | history of inserts | proved |
| C48 | Distributed space never misses a decomposition | constructor inserts all shapes that are looked up | proved |
| C49 | Distributed results equal serial results | pencil of the result = result on pencils, C33 + C44 | proved |
| C50 | approx_eq | over ℝ, characterisations | proved |
| C51 | Minimum sizes and memory safety | exact size tables; unchecked accesses as `ub` | proved |
| C52 | Orthogonal bases are their own orthogonal space | direct | proved |
| C53 | Expansion to the orthogonal space multiplies by the stencils | tensor form of C11 | proved |
| C54 | backward evaluates the series on the tensor grid | tensor form of C02/C21/C25/C28 | proved |
| C55 | from_ortho is the tensor least-squares projection | tensor form of C14 | proved |
| C56 | Scalar communication | as C44 for scalars | proved |
| C57 | Distributed space: pencil arrays, transposes, gather and scatter | methods of the distributed space, C44, C45, C48 | proved |
| C58 | Distributed round trips | C36 + C49 | proved |
| C59 | Derivatives of sampled functions | interpolation of sampled functions, C03/C21/C28 + C38 | proved |
| C60 | Composite versus orthogonal transform of the same data | stencil and projection | proved |
| C61 | Accessors answer for the right base | case analysis | proved |
| C62 | Preconditioned Poisson and Helmholtz systems | C06, C08, C17: quasi-inverse systems are equivalent to the equations | proved |
| C63 | Fields: a space with its arrays | invariant over histories of calls and schedules | proved |
| C64 | The MPI example programs never fail or deadlock, and their serial/distributed comparison holds | whole programs, composition of C49, C57 on a network with two element types | proved |
| C65 | Any program over a distributed space is equivalent to the serial program | Model/Spmd.lean: sequences of calls of Space2Mpi on per-rank arrays; Spec/Spmd.lean: the same sequence on global arrays. Per call: a `Runs` derivation from the lemmas of C43–C48 that maps the parts of the global arrays to the parts of the new ones; then induction on the sequence. | proved |
| C66 | fourier_r2c computes the same spectrum and grid values as fourier_c2c for real data | Both transforms are written as the same sum `dft` (lemmas of C22 and C24); the Hermitian extension r2cHerm that C23 uses for the inverse is the given spectrum when it is symmetric. | proved |
| C67 | The Fourier transforms preserve energy and inner products | The inverse of the DFT (`dft_inv`) gives the Plancherel identity; for r2c the sum is folded with the conjugate symmetry. | proved |
| C68 | Success, failure and sizes of every base do not depend on the number type | The kernels of the model are generic in the number type; no algebraic law is available. Lengths of all vectors of the stencils and of all loop states are invariants; division is total; every operator is a function of its input (Computes). | proved |
| C69 | Parallel equals serial bit for bit, with floating-point numbers | From C68 with the lemmas on lanes and schedules of C32-C36, which never look at the values. | proved |
| C70 | Distributed programs give bit for bit the serial result, on any number of ranks | C65 is generic in the number type; its hypotheses on scales are void when division is total. | proved |
| C71 | The tridiagonal solver is backward stable | The elimination is written as the recurrence of its pivots; every rounding becomes a factor 1+δ; the factors are moved to the entries. Dominance keeps every rounded quotient at most 1 (monotone rounding), so no pivot vanishes and the fill of the diagonal is bounded. | proved |
| C72 | Rounding error of to_ortho | Each entry of to_ortho is one or two products and a sum: factors of at most five roundings. | proved |
| C73 | Rounding error of from_ortho | Residual of the computed solution in the exact normal equations (C71 and the errors of the right-hand side), times the norm of the inverse of SᵀS, bounded by a barrier function (Dirichlet) or the gap of dominance (Neumann). | proved |
| C74 | to_ortho followed by from_ortho returns the data up to n^2 roundings | C72 and the residual bound of C73 with the exact solution v. | proved |
| C75 | Rounding error of the Chebyshev gradient | One pass is characterised by its recurrence in any arithmetic; three runs (rounded on a, exact on a, exact on |a|) are compared entry by entry by downward induction on the index; then induction on d. | proved |
| C76 | Rounding error of the Chebyshev transforms | The program is written in closed form around the DCT in any arithmetic; every scaling is a factor of a few roundings; the exact DCT is Lipschitz in the sum of moduli. | proved |
| C77 | forward and backward are inverse up to rounding | C76 twice, the exact round trip C03, and the Lipschitz bounds of the exact transforms. | proved |
| C78 | Rounding error of the composite transforms | C76 composed with the residual bound of C73 for inexact data, and with C72. | proved |
| C79 | Aliasing | The function and its alias agree on the grid (trigonometric periodicity); forward inverts backward, which evaluates the represented function on the grid. | proved |
| C80 | Spectral accuracy | The coefficients computed are sums over alias classes of the series coefficients (summation by classes); the difference to the series is supported on k >= n; derivatives of T_k are bounded by k^(2d) since they are nonnegative combinations of Chebyshev polynomials; termwise differentiation. | proved |
| C81 | Grids in floating point | Closed forms of the two programs in arithmetic with rounding; factors of one rounding each; for size 61 the three roundings are computed exactly, with pi to 20 digits. | proved |
| C82 | Total error of numerical differentiation | Chain: exact run on exact samples (C80), stability of the exact operators, rounded runs (C75, C76); the constants are multiplied up by gamma_j + gamma_k + gamma_j gamma_k <= gamma_(j+k). | proved |
| C83 | Fourier differentiation with rounding | Complex numbers with rounded products (Spec.RndC); every pass of the gradient multiplies by a purely imaginary integer, so one product of each component is rounded and the others are exact zeros. | proved |
| C84 | Fourier transforms with rounding | The discrete Fourier transform scales the Euclidean norm by sqrt n (dft_energy); the normalisation by 1/n costs gamma_2. | proved |
| C85 | Fourier round trips with rounding | C84 twice; linearity and the norm identity carry the first error through the second transform. | proved |
| C86 | Total error of numerical differentiation of periodic functions | Chain: exact run on exact samples (C80), norm of the exact operators, rounded runs (C83, C84). | proved |
| C87 | Arrays that do not fit are rejected by the distributed layer | A program logic for one rank (Post: whatever the rank receives) with an invariant over the asynchronous executions; shapes are preserved by the merge loops (loop invariants). | proved |
| C88 | Spectral accuracy in two and three dimensions and for Dirichlet bases | Cardinal functions of the grid and aliasing of every term of the double series (infinite sums exchanged with the finite interpolation sums), C59 for the interpolant, termwise differentiation of the double series. | proved |
| C89 | Symmetries of the data are symmetries of the coefficients | T_k(-x) = (-1)^k T_k(x) and the symmetric grid; stencil entries link coefficients of equal parity only; normal equations of from_ortho; re-indexing of the discrete Fourier sums. In several dimensions: the spaces act factor by factor (C110), applied to the expansion of the data in unit vectors times rows. | proved |
| C90 | Chebyshev transform and discrete inner products | Discrete orthogonality of cosines on the grid (already needed for the inverse of the DCT), applied to the evaluation property C02/C03. | proved |
| C91 | Exactly when the banded solvers succeed | Non-zero pivots up to k give unique solvability of the leading blocks; a first vanishing pivot k gives a kernel vector of block k+1 (solve with the diagonal entry k raised by one); determinants via kernels. | proved |
| C92 | Spaces accept exactly the arrays of their shapes, and never leave memory | Weakest preconditions through the axis checks: whatever an axis step returns, its arrays fitted and the result has the resized shape; chain over the axes and compare shapes. | proved |
| C93 | The banded solvers are accurate in floating-point arithmetic | Rounded recurrences from the loop invariants (Proof/RndPenta), undoing of each rounding into a factor (Proof/RndPentaErr), an induction that keeps |al|+|be| ≤ 1 on dominant rows (Proof/RndPentaDom). | proved |
| C94 | Rounding errors of the mixed basis | Lockstep induction with majorants (NearV); the coefficients are quotients of sums whose relative errors may be large but whose absolute errors are 13 roundings of 1. from_ortho: the exact normal matrix is dominated by its diagonal with the margin 2/(i+3)^3 in row i (a rational inequality); the computed matrix keeps a margin, so the elimination of C93 is backward stable on it, and the margin bounds the inverse. | proved |
| C95 | Complex data are processed part by part | A functional relational logic (NatR φ r s: s is r with the result mapped by φ) with one rule per construct of the model; the kernels are decomposed structurally by a tactic, then lifted through the lanes, the parallel steps, the array methods and the spaces. | proved |
| C96 | Rounding errors of transforms and coefficient operators on arrays and spaces | Max-norm accuracy of every slice operator follows from the results in the 2-norm and componentwise (C71-C94); complex data are treated part by part (C95); a lifting theorem for mapAx carries it to arrays along any axis, to the parallel methods by the schedule lemmas and composes over the axes of the spaces. | proved |
| C97 | Total error of numerical differentiation in spaces, with Dirichlet and Fourier axes | Composition of the accuracy statements of C96 (forward, gradient, backward) with the exact run of C88 and C80 on the exact samples. | proved |
| C98 | Spectral accuracy of the composite bases under their boundary conditions | Spec/Boundary (conditions, FunctionBC, chebTail), Proof/Correct (a polynomial that nearly satisfies the conditions is close to one that does), Props/Boundary, Props/BoundaryTotal (with C96/C97), Proof/Chain2, Props/Boundary2 (two dimensions) | proved |
| C99 | Communication on large arrays: i32 overflow never moves data wrongly | Spec/Large (IsI32Of), Spec/LargeMpi (NoneReturns), Proof/Large (wrap-around by induction over ranks), Proof/LargeMpi (a rank that panics at the start sends nothing, so nobody who waits for it returns: invariant of all executions), Props/Large | proved |

Where the code violates a property (C07, C12, C26, C40; clauses of C06, C16, C50) the negation is
proved with a witness or for every size, and the largest true part is proved under a `_partial` name.
None of the properties was found impossible to express in the model, except for rounding errors of the
operations C71 and later do not cover (see above).

## 3. Trusted base

* **Lean 4.33 kernel.** No `native_decide`, `bv_decide`, no own axioms.
* **Axioms.** Every theorem in the manifest depends on a subset of `propext`, `Classical.choice`,
  `Quot.sound`; all but three (which need only `propext` or `propext` and `Quot.sound`) depend on
  exactly these three. Check: `#print axioms` of each name in `MANIFEST.json` (`tools/axioms.sh`).
* **Reading of the Rust source.** There is no extraction tool; each definition of the model cites the
  lines it models, and numbers at the end of lines inside a definition are source lines.
* **The specifications** in `Spec/` and the statements in `Props/`.
* **External crates**, modelled by their documented behaviour next to the definition that uses them:
  * rustdct DCT-I, rustfft and realfft: the defining sums over ℝ/ℂ (realfft's inverse fails on
    non-real mean or Nyquist coefficients); plans of length 0 are not considered;
  * ndarray: shapes, row-major logical order, `lanes`, `zeros`, `assign` with broadcasting, `dot`,
    `slice`, the panics on mismatched shapes; `is_standard_layout` is a flag of the array; the order in
    which `Zip::for_each` visits lanes is arbitrary;
  * rayon `par_for_each`: one task per lane, arbitrary interleaving, every task finishes;
  * mpi: the collective operations all_to_all_v, all_gather_v, gather_v, scatter_v, broadcast, gather,
    all_gather with the asynchronous semantics above; `Partition` asserts its counts; element types
    are not checked (C64 sends two types over one network by an injection);
  * std: `Vec`, slices, iterators; `HashMap` of the decomposition handler as a partial
    function with its number of keys.

## 4. What is modelled and what is not

Functions of /repo with a body (tests excluded): 382 are cited by a definition of the model,
7 are not. The third column lists the ones without a citation of their own
(`tools/coverage.py`).

| file | cited | without a citation |
|---|---|---|
| `examples/field.rs` | 9 | `main`:163 |
| `examples/space_complex_mpi.rs` | 1 | `main`:58 |
| `examples/space_mpi.rs` | 1 | `main`:60 |
| `src/chebyshev/compo.rs` | 22 |  |
| `src/chebyshev/linalg.rs` | 0 |  |
| `src/chebyshev/linalg/pdma.rs` | 2 |  |
| `src/chebyshev/linalg/pdma2.rs` | 2 |  |
| `src/chebyshev/linalg/tdma.rs` | 2 |  |
| `src/chebyshev/mod.rs` | 0 |  |
| `src/chebyshev/ortho.rs` | 23 |  |
| `src/chebyshev/stencils.rs` | 30 |  |
| `src/chebyshev/stencils/helpers.rs` | 15 | `get_tdma_diagonals`:78, `get_fdma_diagonals`:197, `get_fdma_diagonals`:351 |
| `src/chebyshev/stencils/traits.rs` | 0 |  |
| `src/enums.rs` | 1 |  |
| `src/fourier/c2c.rs` | 20 |  |
| `src/fourier/mod.rs` | 0 |  |
| `src/fourier/r2c.rs` | 20 |  |
| `src/internal_macros.rs` | 19 |  |
| `src/lib.rs` | 8 |  |
| `src/space/mod.rs` | 0 |  |
| `src/space/space1.rs` | 23 |  |
| `src/space/space2.rs` | 23 |  |
| `src/space/space3.rs` | 23 |  |
| `src/space/traits.rs` | 10 |  |
| `src/space_mpi/decomp2d/distribute.rs` | 8 |  |
| `src/space_mpi/decomp2d/functions.rs` | 3 |  |
| `src/space_mpi/decomp2d/mod.rs` | 29 |  |
| `src/space_mpi/decomp_handler.rs` | 3 |  |
| `src/space_mpi/mod.rs` | 0 |  |
| `src/space_mpi/space2.rs` | 67 | `get_universe`:474 |
| `src/space_mpi/traits.rs` | 0 |  |
| `src/traits.rs` | 12 |  |
| `src/types.rs` | 0 |  |
| `src/utils.rs` | 6 |  |

* `get_tdma_diagonals`, `get_fdma_diagonals` are inlined in the model of `new` (cited there by line).
* `main` of `examples/field.rs` is the subject of theorem `C63_main`; `main` of the MPI examples at the
  second line number is the stub for builds without MPI; `get_universe` returns the MPI handle, which
  is represented by the number of ranks and the own rank.
* Traits, type bounds and `types.rs` have no run-time content. `f32`/`f64` conversions
  (`A::from(..).unwrap()`) are the canonical maps into the field.
* The serial methods of `Space2Mpi` (space_mpi/space2.rs:71-460) are the same text as
  space/space2.rs (checked with `diff`) and are modelled by the field `space`.
* Not modelled: the values of rounded operations (in the any-arithmetic reading they are arbitrary),
  allocation failure, stack depth, unwinding across threads
  (a panicking lane task ends the model run), MPI errors of the transport.

## 5. Findings about the code

Stated and proved as theorems unless marked (reading).

1. `FourierC2c::gradient_slice` is wrong for every n ≥ 2: from the last
   coefficient backwards the factors are i·0, i·1, … instead of −i·1, −i·2, … (C26).
2. `to_ortho`, `backward`, `gradient` of the biharmonic bases read out of bounds for every size (C12).
3. `Space3::gradient` differentiates axis 2 with base 1 (C40).
4. `Chebyshev::_dmat` overflows `usize`: debug builds panic from n = 12 (order 3), 567 (order 4) and
   2642247 (order 2) on; release builds return wrong matrices (C07).
5. `stencil_inv` and `from_ortho` differ outside the range of the stencil (C16).
6. `approx_eq*` compare only the common prefix, and accept complex numbers that agree in one part (C50).
7. `chebyshev(2).gradient` and several slice methods called with short slices read out of bounds (C51).
8. `distribute` with more processes than points panics in debug builds and splits wrongly in release
   builds (C43).
9. A second `insert` of a shape into the decomposition handler is never found (C47).
10. `ingredients_for_hholtz` of examples/field.rs panics for every Chebyshev axis (C63).
11. `Display` spells the orthogonal base "Chebyhev" (`BaseKind.display`).
12. The number of Fourier nodes is the length of a floating-point range: in `f64` the grid of a Fourier base of
    size 61·2^t (t ≤ 47; also 197, …: reading) has one point too many, so sampling a function on the grid and
    transforming the samples panics (C81).
13. Communication counts and displacements are computed in `i32`: on grids of 2^31 points or more a release build
    computes wrong (negative) displacements, and a debug build panics even if only the unused total overflows; both
    are caught before data is moved because rsmpi refuses such buffers (C99).

## 6. Testing the theorems

`seeded/LOG.jsonl` records edits of the model in a scratch copy (`tools/mut.py`): the edited definition,
the edit, the claim it breaks, the theorems whose proofs then fail (directly or through a lemma), and
theorems tightened as a consequence.

## 7. Testing the model

`lean/Verif/Validate/Tests.lean` replays all 15 unit tests of the repository and its documentation examples on the
model, with Lean's `Float` for `f64`, the same inputs, expected values and tolerances; the build fails if one does not
pass.  These are tests, not proofs, and no claim rests on them: they guard against errors in transcribing the code.
