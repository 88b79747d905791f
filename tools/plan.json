{
 "C65": "Model/Spmd.lean: sequences of calls of Space2Mpi on per-rank arrays; Spec/Spmd.lean: the same sequence on global arrays. Per call: a `Runs` derivation from the lemmas of C43\u2013C48 that maps the parts of the global arrays to the parts of the new ones; then induction on the sequence.",
 "C66": "Both transforms are written as the same sum `dft` (lemmas of C22 and C24); the Hermitian extension r2cHerm that C23 uses for the inverse is the given spectrum when it is symmetric.",
 "C67": "The inverse of the DFT (`dft_inv`) gives the Plancherel identity; for r2c the sum is folded with the conjugate symmetry.",
 "C68": "The kernels of the model are generic in the number type; no algebraic law is available. Lengths of all vectors of the stencils and of all loop states are invariants; division is total; every operator is a function of its input (Computes).",
 "C69": "From C68 with the lemmas on lanes and schedules of C32-C36, which never look at the values.",
 "C70": "C65 is generic in the number type; its hypotheses on scales are void when division is total.",
 "C71": "The elimination is written as the recurrence of its pivots; every rounding becomes a factor 1+\u03b4; the factors are moved to the entries. Dominance keeps every rounded quotient at most 1 (monotone rounding), so no pivot vanishes and the fill of the diagonal is bounded.",
 "C72": "Each entry of to_ortho is one or two products and a sum: factors of at most five roundings.",
 "C73": "Residual of the computed solution in the exact normal equations (C71 and the errors of the right-hand side), times the norm of the inverse of S\u1d40S, bounded by a barrier function (Dirichlet) or the gap of dominance (Neumann).",
 "C74": "C72 and the residual bound of C73 with the exact solution v.",
 "C75": "One pass is characterised by its recurrence in any arithmetic; three runs (rounded on a, exact on a, exact on |a|) are compared entry by entry by downward induction on the index; then induction on d.",
 "C76": "The program is written in closed form around the DCT in any arithmetic; every scaling is a factor of a few roundings; the exact DCT is Lipschitz in the sum of moduli.",
 "C77": "C76 twice, the exact round trip C03, and the Lipschitz bounds of the exact transforms.",
 "C78": "C76 composed with the residual bound of C73 for inexact data, and with C72.",
 "C79": "The function and its alias agree on the grid (trigonometric periodicity); forward inverts backward, which evaluates the represented function on the grid.",
 "C80": "The coefficients computed are sums over alias classes of the series coefficients (summation by classes); the difference to the series is supported on k >= n; derivatives of T_k are bounded by k^(2d) since they are nonnegative combinations of Chebyshev polynomials; termwise differentiation.",
 "C81": "Closed forms of the two programs in arithmetic with rounding; factors of one rounding each; for size 61 the three roundings are computed exactly, with pi to 20 digits.",
 "C82": "Chain: exact run on exact samples (C80), stability of the exact operators, rounded runs (C75, C76); the constants are multiplied up by gamma_j + gamma_k + gamma_j gamma_k <= gamma_(j+k).",
 "C83": "Complex numbers with rounded products (Spec.RndC); every pass of the gradient multiplies by a purely imaginary integer, so one product of each component is rounded and the others are exact zeros.",
 "C84": "The discrete Fourier transform scales the Euclidean norm by sqrt n (dft_energy); the normalisation by 1/n costs gamma_2.",
 "C85": "C84 twice; linearity and the norm identity carry the first error through the second transform.",
 "C86": "Chain: exact run on exact samples (C80), norm of the exact operators, rounded runs (C83, C84).",
 "C87": "A program logic for one rank (Post: whatever the rank receives) with an invariant over the asynchronous executions; shapes are preserved by the merge loops (loop invariants).",
 "C88": "Cardinal functions of the grid and aliasing of every term of the double series (infinite sums exchanged with the finite interpolation sums), C59 for the interpolant, termwise differentiation of the double series.",
 "C89": "T_k(-x) = (-1)^k T_k(x) and the symmetric grid; stencil entries link coefficients of equal parity only; normal equations of from_ortho; re-indexing of the discrete Fourier sums. In several dimensions: the spaces act factor by factor (C110), applied to the expansion of the data in unit vectors times rows.",
 "C90": "Discrete orthogonality of cosines on the grid (already needed for the inverse of the DCT), applied to the evaluation property C02/C03.",
 "C91": "Non-zero pivots up to k give unique solvability of the leading blocks; a first vanishing pivot k gives a kernel vector of block k+1 (solve with the diagonal entry k raised by one); determinants via kernels.",
 "C92": "Weakest preconditions through the axis checks: whatever an axis step returns, its arrays fitted and the result has the resized shape; chain over the axes and compare shapes.",
 "C93": "Rounded recurrences from the loop invariants (Proof/RndPenta), undoing of each rounding into a factor (Proof/RndPentaErr), an induction that keeps |al|+|be| \u2264 1 on dominant rows (Proof/RndPentaDom).",
 "C94": "Lockstep induction with majorants (NearV); the coefficients are quotients of sums whose relative errors may be large but whose absolute errors are 13 roundings of 1. from_ortho: the exact normal matrix is dominated by its diagonal with the margin 2/(i+3)^3 in row i (a rational inequality); the computed matrix keeps a margin, so the elimination of C93 is backward stable on it, and the margin bounds the inverse.",
 "C95": "A functional relational logic (NatR \u03c6 r s: s is r with the result mapped by \u03c6) with one rule per construct of the model; the kernels are decomposed structurally by a tactic, then lifted through the lanes, the parallel steps, the array methods and the spaces.",
 "C96": "Max-norm accuracy of every slice operator follows from the results in the 2-norm and componentwise (C71-C94); complex data are treated part by part (C95); a lifting theorem for mapAx carries it to arrays along any axis, to the parallel methods by the schedule lemmas and composes over the axes of the spaces.",
 "C97": "Composition of the accuracy statements of C96 (forward, gradient, backward) with the exact run of C88 and C80 on the exact samples.",
 "C98": "Spec/Boundary (conditions, FunctionBC, chebTail), Proof/Correct (a polynomial that nearly satisfies the conditions is close to one that does), Props/Boundary, Props/BoundaryTotal (with C96/C97), Proof/Chain2, Props/Boundary2 (two dimensions)",
 "C99": "Spec/Large (IsI32Of), Spec/LargeMpi (NoneReturns), Proof/Large (wrap-around by induction over ranks), Proof/LargeMpi (a rank that panics at the start sends nothing, so nobody who waits for it returns: invariant of all executions), Props/Large",
 "C100": "Spec/History (runAll; the ways to call a method), Proof/History (induction over the history: error of one trip measured at the current data, exact trip is the identity or an idempotent Lipschitz map by linearity), Props/History, Props/HistorySpaces",
 "C101": "Spec/Crash (CrashStep: a rank stops, a suffix of its messages is lost), Proof/Crash (an execution with crashes is one without, with ends of channels cut off; every state of the latter extends to the end, and ranks that have returned do not move), Props/Crash",
 "C102": "Spec/Tau (system, weighted integral), Proof/Tau (orthogonality, integration by parts and coercivity in the Chebyshev weight; the last two columns of the pseudo-inverse vanish, so the system drops the two highest coefficients of the residual), Proof/TauDirichlet (test with u'' resp. u'/(1-x^2); Green's function and Cauchy-Schwarz for pointwise bounds), Props/Tau",
 "C103": "Spec/RndMat (two runs end alike; entrywise relative error; correct rounding), Proof/RndMat and Proof/RndMatStencil (relational simulation of the run with rounding and the exact run, statement by statement), Props/RndMat",
 "C104": "Every axis is reduced to a regular matrix Q, the coefficients N of its functions and M of their second derivatives (tau form of C102). Uniqueness and stability: test the truncated equation with the truncated u in the product of the Chebyshev weights, so that both second derivatives reduce to the one-dimensional energy (u, u'') <= 0 of C102. Fourier axes: one Helmholtz problem of C102 per mode.",
 "C105": "The trait BaseSpace is a record of methods with one instance per dimension; one step of a history reduces to C34 and C41 of the dimension, histories by induction.",
 "C106": "The energy -<u'', u>_w of C102/C104 is positive definite on the finite-dimensional space, so it dominates a multiple of the squared norm (compactness of the sphere); the implicit step then decreases the weighted mean square by at least that much, the squares are summable and tend to zero; the error of a run with source is a run without source.",
 "C107": "The forward transform of a function of higher degree folds its coefficients onto the resolved ones (C80-style aliasing lemma); under the stated condition the first n coefficients receive no folded contribution. Same for Fourier frequencies modulo N.",
 "C108": "One-dimensional identities from C67 and C90; the transforms of a space act lane by lane, so the sum over one index is exchanged with the identity of the other direction.",
 "C109": "Each base operation is a real matrix or a linear lane map; sweeps along different axes commute and sweeps along the same axis compose.",
 "C110": "Sweep by sweep: a linear operator along one axis acts on the factor of that axis only.",
 "C111": "The operations act factor by factor (C110); the transpose of a sum of products is the sum of the exchanged products.",
 "C112": "The inner product is expanded over the coefficients that forward computes (C28, r2c_eval); conjugation moves (ik)^d to the other factor. Two dimensions: the array is the sum of its columns times unit vectors (C110).",
 "C113": "Band-limited data are samples of (trigonometric) polynomials (C28, C02); these form a graded algebra (TS_mul), their derivatives are exact (C59), and the derivative of a trigonometric polynomial of degree below n sums to zero over the grid.",
 "C114": "Even orders: gradient keeps the Nyquist mode real, so forward of the derivative is diagonal in the coefficients (C28); histories by induction; Parseval (C67) for the energy. Odd orders: skew-symmetry (C112). The implicit step is solvable because id + dt/2 D is injective for skew D.",
 "C115": "Fourier: orthogonality of the exponentials (inverse transform) and the shift theorem (C89). Chebyshev: 2 T_i T_j = T_(i+j) + T_|i-j|, aliasing on the grid (C79) and uniqueness of the interpolant (C03).",
 "C116": "Integration by parts gives |a_k| <= M/|k|^p for the Fourier coefficients, so Mathlib's pointwise convergence of Fourier series applies; f(cos t) turns this into Chebyshev series; tails by comparison with sum 1/k^2; then C80, C98.",
 "C117": "The interpolant of Y lies in the base because the grid contains both ends (C17); C102 (error against any function of the base) and the rates of C116 for Y, Y'' and F.",
 "C118": "Energy estimate of a step with source (C106); the residual of the interpolants of Y is bounded at the grid points, where the interpolation of the equation is exact, and the discrete norm dominates the norm of the resolved coefficients (C90); coefficients of Y(t,.) decay uniformly in t (C116).",
 "C119": "The error satisfies the system with the residual of the two-dimensional interpolant of Y (C01, C02 per axis, tensor interpolation estimates from C116/C118 rates); the Dirichlet bilinear form is coercive on each axis and hence on the Kronecker system (C104), and the discrete norm dominates the norm of the resolved coefficients.",
 "C120": "Energy estimate of a two-dimensional step with source (Kronecker energy, C106); the residual of the interpolants of Y (interp2, C119) is bounded at the grid points and the discrete norm dominates the resolved coefficients; bounds of the derivatives uniform in time by compactness.",
 "C121": "The pipeline differentiates the interpolant exactly (C59); one axis at a time: error of the interpolant along the first axis (C117, decay of Fourier coefficients), stability of Chebyshev differentiation in the values along the second axis (bound of the coefficients, Markov), and the interpolation error of the derivative in the first variable along the second axis; constants uniform by compactness.",
 "C122": "The system decouples into one Helmholtz problem with beta + c k^2 per mode and part. The modes of the samples of F are those of beta Y_k - c Y_k'' + c k^2 Y_k up to the error of the numerical second derivative along the periodic axis (C117: transforms of the numerical derivative are exactly -k^2 times the transforms). C102 bounds the error of each mode by the residual, interpolation in the wall direction bounds the residual, and the real Fourier series sums the modes.",
 "C123": "Each Fourier mode (real or imaginary part) makes steps of dY_k/dt = nu Y_k'' - nu k^2 Y_k + g_k; the modes of the samples of Y satisfy this equation up to the error of the numerical second derivative along x (C117). Energy stability with source (C106, C118) with the additional dissipation k^2 bounds the error of each mode; the initial coefficients are those of the interpolants because the samples vanish at the walls; the real Fourier series sums the modes.",
 "C124": "The error of the grid data satisfies the same recurrence with a source: the truncation error in time (mean value theorem; trapezoidal rule) plus the error of the numerical derivative of a smooth function (C80, with constants). The explicit step does not enlarge the energy below the limit (C114); the derivative of odd order is skew (C112), so the implicit step preserves the norm up to the source. Minkowski sums the steps."
}