{"id": "C01", "title": "Chebyshev grid points", "statement": "coords() of a Chebyshev base of size n>=2 are the n Chebyshev points of the second kind -cos(pi j/(n-1)); they increase strictly from -1 to 1 and are symmetric about 0.", "quantifier": "every size n>=2 and every index j<n", "why_tests_cant": "a test checks a few sizes; the formula in the code (via sin) differs from the documented one and must agree for all n and j", "anchors": [{"file": "src/chebyshev/ortho.rs", "symbols": ["Chebyshev::nodes", "chebyshev_nodes_2nd_kind", "coords"]}]}
{"id": "C02", "title": "Chebyshev backward transform evaluates the series", "statement": "backward applied to coefficients a returns, at every grid point x_j of coords(), the value sum_k a_k T_k(x_j).", "quantifier": "every size n>=2, every coefficient vector, every grid index", "why_tests_cant": "infinitely many vectors and sizes; tests fix two or three", "anchors": [{"file": "src/chebyshev/ortho.rs", "symbols": ["backward_slice"]}]}
{"id": "C03", "title": "Chebyshev forward and backward are mutually inverse", "statement": "forward(backward(a)) = a and backward(forward(v)) = v exactly (in exact arithmetic) for a Chebyshev base.", "quantifier": "every size n>=2 and every vector", "why_tests_cant": "round trip must hold for every vector of every length", "anchors": [{"file": "src/chebyshev/ortho.rs", "symbols": ["forward_slice", "backward_slice"]}]}
{"id": "C04", "title": "Chebyshev gradient is the exact derivative", "statement": "gradient(a, k) returns the coefficients of the k-th derivative of the polynomial sum a_j T_j.", "quantifier": "every size n>=3, every coefficient vector (real or complex), every order k", "why_tests_cant": "arbitrary order and size; recurrence errors show up only at specific positions", "anchors": [{"file": "src/chebyshev/ortho.rs", "symbols": ["gradient_slice"]}]}
{"id": "C05", "title": "Chebyshev gradient composes and annihilates", "statement": "gradient(gradient(a, i), j) = gradient(a, i+j); gradient of order >= n is zero; order 0 is the identity.", "quantifier": "every n>=3, every vector, all orders i,j", "why_tests_cant": "quantifies over all pairs of orders and sizes", "anchors": [{"file": "src/chebyshev/ortho.rs", "symbols": ["gradient_slice"]}]}
{"id": "C06", "title": "Chebyshev differentiation matrices are the derivative in the T basis", "statement": "For deriv 1..4 column q of diffmat(deriv) holds the Chebyshev coefficients of the deriv-th derivative of T_q, so diffmat(deriv) times a equals gradient(a, deriv); any other deriv panics.", "quantifier": "every n up to the limit of the 64-bit integer formulas (deriv 1: 2^63; 2: 2642246; 3: 11 in debug, 7132 in release builds; 4: 566; see C07 for larger n), deriv in {1,2,3,4}, both overflow modes of usize", "why_tests_cant": "closed-form integer formulas evaluated in usize: correct at small n says nothing about large n, where intermediates underflow or overflow", "anchors": [{"file": "src/chebyshev/ortho.rs", "symbols": ["_dmat", "diffmat"]}]}
{"id": "C07", "title": "Integer overflow in the Chebyshev differentiation matrices", "statement": "The machine-integer evaluation of the entries of diffmat(deriv) never over- or underflows, so debug and release builds return the same exact matrix.", "quantifier": "every n and deriv", "why_tests_cant": "overflow appears only beyond particular sizes (false: deriv 3 underflows from n = 12 in debug builds, deriv 4 overflows for large n)", "anchors": [{"file": "src/chebyshev/ortho.rs", "symbols": ["_dmat"]}]}
{"id": "C08", "title": "Pseudo-inverse of the Chebyshev derivative", "statement": "diffmat_pinv(k) returns (P,I) with the rows k.. of P*D_k equal to I, I = identity without its first k rows, for k=1..4.", "quantifier": "every n>=2k up to the limits of C06, k in 1..4; below 2k construction panics", "why_tests_cant": "boundary diagonals are cut off differently for each k; must hold for each n", "anchors": [{"file": "src/chebyshev/ortho.rs", "symbols": ["_pinv", "_pinv_eye", "diffmat_pinv"]}]}
{"id": "C09", "title": "Chebyshev Laplacian and its pseudo-inverse", "statement": "laplacian() = diffmat(2), represents the second derivative, and laplacian_pinv() satisfies the pseudo-inverse identity, also on composite bases.", "quantifier": "every 4<=n<=2642246", "why_tests_cant": "for all sizes", "anchors": [{"file": "src/chebyshev/ortho.rs", "symbols": ["laplacian", "laplacian_pinv"]}, {"file": "src/chebyshev/compo.rs", "symbols": ["laplacian", "laplacian_pinv"]}]}
{"id": "C10", "title": "Composite bases: inverse stencil is a left inverse", "statement": "stencil_inv() * stencil() is the identity for each of the five composite Chebyshev bases.", "quantifier": "every size n for which the base can be constructed, every base kind", "why_tests_cant": "triangular recurrences must be right at every index", "anchors": [{"file": "src/chebyshev/stencils/helpers.rs", "symbols": ["to_array", "pinv"]}, {"file": "src/chebyshev/stencils.rs", "symbols": ["Dirichlet", "Neumann", "DirichletNeumann", "BiHarmonicA", "BiHarmonicB"]}]}
{"id": "C11", "title": "to_ortho is multiplication by the stencil (second order bases)", "statement": "For the Dirichlet, Neumann and Dirichlet-Neumann bases to_ortho(v) = stencil() * v, without out-of-bounds access.", "quantifier": "every n>=4, every coefficient vector", "why_tests_cant": "unsafe unchecked indexing; must hold for each size", "anchors": [{"file": "src/chebyshev/stencils/helpers.rs", "symbols": ["dot_inplace"]}, {"file": "src/chebyshev/compo.rs", "symbols": ["to_ortho_slice"]}]}
{"id": "C12", "title": "to_ortho is multiplication by the stencil (biharmonic bases)", "statement": "For the biharmonic bases to_ortho(v) = stencil() * v, without out-of-bounds access.", "quantifier": "every n>=8, every coefficient vector", "why_tests_cant": "unsafe unchecked indexing (false of the code: the last entries read past the end of the input)", "anchors": [{"file": "src/chebyshev/stencils/helpers.rs", "symbols": ["HelperStencil3Diag2::dot_inplace"]}]}
{"id": "C13", "title": "from_ortho inverts to_ortho", "statement": "from_ortho(stencil()*v) = v; in particular from_ortho(to_ortho(v)) = v for the second-order bases.", "quantifier": "every admissible n, every v, all five composite bases", "why_tests_cant": "needs nonzero pivots at every step for every n", "anchors": [{"file": "src/chebyshev/stencils/helpers.rs", "symbols": ["solve_inplace"]}, {"file": "src/chebyshev/compo.rs", "symbols": ["from_ortho_slice"]}]}
{"id": "C14", "title": "from_ortho is the least-squares projection", "statement": "from_ortho(u) is the unique v minimising |stencil()*v - u|^2, i.e. it solves the normal equations.", "quantifier": "every admissible n, every u, all five composite bases", "why_tests_cant": "optimality over all competitors cannot be tested", "anchors": [{"file": "src/chebyshev/stencils/helpers.rs", "symbols": ["solve_inplace", "get_tdma_diagonals", "get_fdma_diagonals"]}]}
{"id": "C15", "title": "Projection is idempotent and keeps the space", "statement": "to_ortho(from_ortho(u)) is idempotent, and fixes u exactly when u lies in the range of the stencil.", "quantifier": "every admissible n and u", "why_tests_cant": "quantifies over all vectors", "anchors": [{"file": "src/chebyshev/stencils/helpers.rs", "symbols": ["solve_inplace", "dot_inplace"]}]}
{"id": "C16", "title": "stencil_inv versus from_ortho", "statement": "stencil_inv()*u equals from_ortho(u) whenever u is in the range of the stencil; the documented unconditional equality is false.", "quantifier": "every admissible n and every u", "why_tests_cant": "a counterexample exists only off the range", "anchors": [{"file": "src/chebyshev/stencils/helpers.rs", "symbols": ["pinv", "solve_inplace"]}, {"file": "src/traits.rs", "symbols": ["BaseMatOpStencil"]}]}
{"id": "C17", "title": "Boundary conditions of the composite bases", "statement": "Every function represented in a composite base satisfies its boundary conditions exactly: Dirichlet u(+-1)=0, Neumann u'(+-1)=0, Dirichlet-Neumann u(-1)=0,u'(1)=0, biharmonic A u(+-1)=u'(+-1)=0, biharmonic B u(+-1)=u''(+-1)=0.", "quantifier": "every admissible n and every coefficient vector", "why_tests_cant": "holds for every linear combination; rational stencil coefficients depend on k", "anchors": [{"file": "src/chebyshev/stencils.rs", "symbols": ["Dirichlet::new", "Neumann::new", "DirichletNeumann::new", "BiHarmonicA::new", "BiHarmonicB::new"]}]}
{"id": "C18", "title": "Banded solvers solve the system", "statement": "The tri- and pentadiagonal solvers behind from_ortho return x with A x = rhs exactly, changing only the right-hand side, and never index out of bounds, whenever no pivot vanishes.", "quantifier": "every size above the asserted minimum, all band values with nonzero pivots, every right-hand side", "why_tests_cant": "all matrices and sizes", "anchors": [{"file": "src/chebyshev/linalg/tdma.rs", "symbols": ["tdma"]}, {"file": "src/chebyshev/linalg/pdma.rs", "symbols": ["pdma"]}, {"file": "src/chebyshev/linalg/pdma2.rs", "symbols": ["pdma2"]}]}
{"id": "C19", "title": "from_ortho never divides by zero", "statement": "All pivots met while projecting onto a composite base are strictly positive, so from_ortho always returns finite values in exact arithmetic.", "quantifier": "every admissible n, all five composite bases", "why_tests_cant": "a vanishing pivot could appear at any n", "anchors": [{"file": "src/chebyshev/stencils/helpers.rs", "symbols": ["solve_inplace"]}, {"file": "src/chebyshev/linalg/tdma.rs", "symbols": ["tdma"]}, {"file": "src/chebyshev/linalg/pdma.rs", "symbols": ["pdma"]}, {"file": "src/chebyshev/linalg/pdma2.rs", "symbols": ["pdma2"]}]}
{"id": "C20", "title": "Checked solvers are the unchecked ones with bounds checks", "statement": "On every input the bounds-checked variant of each banded solver does exactly what the unchecked one does, except that it panics where the unchecked one would access memory out of bounds; for bands of the expected lengths and sizes from the minimum on, the two give the same result.", "quantifier": "all band slices (of any lengths) and right-hand sides", "why_tests_cant": "all lengths combinations", "anchors": [{"file": "src/chebyshev/linalg/tdma.rs", "symbols": ["tdma_checked"]}, {"file": "src/chebyshev/linalg/pdma.rs", "symbols": ["pdma_checked"]}, {"file": "src/chebyshev/linalg/pdma2.rs", "symbols": ["pdma2_checked"]}]}
{"id": "C21", "title": "Composite transforms", "statement": "For Dirichlet, Neumann and Dirichlet-Neumann bases backward(v) evaluates the represented function on the grid, forward(backward(v)) = v, and backward(forward(u)) = u for grid data of functions satisfying the boundary conditions.", "quantifier": "every admissible n and every vector", "why_tests_cant": "all vectors and sizes", "anchors": [{"file": "src/chebyshev/compo.rs", "symbols": ["forward_slice", "backward_slice"]}]}
{"id": "C22", "title": "Composite gradient", "statement": "gradient(v,k) on a composite base gives the orthogonal Chebyshev coefficients of the k-th derivative of the represented function; for k=1..4 it equals diffmat(k)*stencil()*v.", "quantifier": "every admissible n, every v, every k", "why_tests_cant": "all orders and sizes", "anchors": [{"file": "src/chebyshev/compo.rs", "symbols": ["gradient_slice", "diffmat"]}]}
{"id": "C23", "title": "Fourier grid and wavenumbers", "statement": "coords() are 2 pi j/n, j<n; wavenumbers are 0..,-..-1 in FFT order with the Nyquist entry as coded (c2c), and i*k for k=0..n/2 (r2c).", "quantifier": "every n>=1 and index", "why_tests_cant": "all sizes, odd and even", "anchors": [{"file": "src/fourier/c2c.rs", "symbols": ["nodes", "wavenumber"]}, {"file": "src/fourier/r2c.rs", "symbols": ["nodes", "wavenumber"]}]}
{"id": "C24", "title": "Complex Fourier transforms are mutually inverse", "statement": "forward(backward(c)) = c and backward(forward(v)) = v.", "quantifier": "every n>=1 and every complex vector", "why_tests_cant": "all vectors and sizes", "anchors": [{"file": "src/fourier/c2c.rs", "symbols": ["forward_slice", "backward_slice"]}]}
{"id": "C25", "title": "Complex Fourier backward evaluates the trigonometric series", "statement": "backward(c) at x_j equals (1/n) sum_k c_k exp(i K_k x_j), K_k the wavenumber table of the base and x_j its coords().", "quantifier": "every n>=1, every c, every j", "why_tests_cant": "all vectors", "anchors": [{"file": "src/fourier/c2c.rs", "symbols": ["backward_slice", "wavenumber"]}]}
{"id": "C26", "title": "Complex Fourier gradient", "statement": "gradient(c,k) multiplies coefficient j by (i K_j)^k, i.e. equals diffmat(k)*c.", "quantifier": "every n, c, order k", "why_tests_cant": "false of the code for every n>=2: the negative half is multiplied by the wrong factor; the unit test uses a comparison that cannot see it", "anchors": [{"file": "src/fourier/c2c.rs", "symbols": ["gradient_slice", "diffmat"]}]}
{"id": "C27", "title": "Complex Fourier matrices", "statement": "diffmat(k) is diag((iK)^k); diffmat_pinv, laplacian and laplacian_pinv satisfy P*D = identity outside the zero mode.", "quantifier": "every n>=1, k>=1", "why_tests_cant": "all sizes and orders", "anchors": [{"file": "src/fourier/c2c.rs", "symbols": ["diffmat", "diffmat_pinv", "laplacian", "laplacian_pinv"]}]}
{"id": "C28", "title": "Real-to-complex Fourier transforms", "statement": "backward(forward(v)) = v for every real v; forward(backward(c)) = c for every c with real mean (and real Nyquist entry when n is even); backward ignores the imaginary parts of those entries. backward(c) samples the real trigonometric series with coefficients c at coords().", "quantifier": "every n>=1 (odd and even), every vector", "why_tests_cant": "Hermitian edge cases at DC/Nyquist for both parities", "anchors": [{"file": "src/fourier/r2c.rs", "symbols": ["forward_slice", "backward_slice"]}]}
{"id": "C29", "title": "Real-to-complex gradient", "statement": "gradient(c,k) multiplies coefficient j by (i j)^k, equals diffmat(k)*c, and composes: gradient(gradient(c,i),j) = gradient(c,i+j). It represents the k-th derivative of the function represented by c.", "quantifier": "every n, c, orders", "why_tests_cant": "all orders and sizes", "anchors": [{"file": "src/fourier/r2c.rs", "symbols": ["gradient_slice", "diffmat"]}]}
{"id": "C30", "title": "Real-to-complex matrices", "statement": "diffmat/diffmat_pinv/laplacian/laplacian_pinv satisfy P*D = identity outside the zero mode; laplacian = diffmat(2).", "quantifier": "every n>=1, k>=1", "why_tests_cant": "all sizes and orders", "anchors": [{"file": "src/fourier/r2c.rs", "symbols": ["diffmat", "diffmat_pinv", "laplacian", "laplacian_pinv"]}]}
{"id": "C31", "title": "Linearity", "statement": "forward, backward, to_ortho, from_ortho and gradient are linear maps for each base.", "quantifier": "all bases, sizes, vectors, scalars", "why_tests_cant": "superposition over all vectors", "anchors": [{"file": "src/traits.rs", "symbols": ["BaseTransform", "BaseFromOrtho", "BaseGradient"]}]}
{"id": "C32", "title": "Results do not depend on the previous content of output buffers", "statement": "The inplace methods overwrite every element of a correctly sized output; the result is a function of the input only.", "quantifier": "every prior content of the output buffer, all bases", "why_tests_cant": "stale data leaks only for particular contents", "anchors": [{"file": "src/traits.rs", "symbols": ["forward_inplace", "backward_inplace", "to_ortho_inplace", "from_ortho_inplace", "gradient_inplace"]}, {"file": "src/internal_macros.rs", "symbols": ["apply_along_axis"]}]}
{"id": "C33", "title": "Operators act lane by lane", "statement": "Applying a transform/gradient/ortho operator along an axis of a multidimensional array transforms each 1-d lane by the 1-d operator, independently of memory layout; the other axes' extents are unchanged.", "quantifier": "all shapes, axes, contents, contiguous or strided lanes", "why_tests_cant": "all shapes and layouts", "anchors": [{"file": "src/internal_macros.rs", "symbols": ["apply_along_axis", "par_apply_along_axis"]}, {"file": "src/traits.rs", "symbols": ["BaseTransform"]}]}
{"id": "C34", "title": "Parallel equals serial", "statement": "Every *_par method gives exactly the serial result whatever order the worker threads process the lanes in.", "quantifier": "all schedules (orders of lane processing), shapes, contents", "why_tests_cant": "schedules cannot be enumerated by tests", "anchors": [{"file": "src/internal_macros.rs", "symbols": ["par_apply_along_axis"]}, {"file": "src/traits.rs", "symbols": ["forward_par", "backward_par", "gradient_par"]}]}
{"id": "C35", "title": "Wrong sizes are rejected", "statement": "If the extent of the input or output along the transformed axis differs from the base's size, the inplace methods panic before writing; with correct extents they do not panic.", "quantifier": "all shapes and sizes", "why_tests_cant": "all mismatching shapes", "anchors": [{"file": "src/utils.rs", "symbols": ["check_array_axis"]}, {"file": "src/traits.rs", "symbols": ["forward_inplace"]}]}
{"id": "C36", "title": "Space2 round trip", "statement": "For every combination of bases, Space2 forward(backward(vhat)) = vhat and to_ortho/from_ortho round trip, when the component bases round trip.", "quantifier": "all pairs of bases, shapes, contents", "why_tests_cant": "product of all combos", "anchors": [{"file": "src/space/space2.rs", "symbols": ["forward", "backward", "to_ortho", "from_ortho"]}]}
{"id": "C37", "title": "Axis order does not matter", "statement": "The multidimensional transform equals applying the 1-d transforms along the axes in either order.", "quantifier": "all bases, shapes and arrays", "why_tests_cant": "holds by linearity only; not testable for all arrays", "anchors": [{"file": "src/space/space2.rs", "symbols": ["forward", "backward"]}, {"file": "src/space/space3.rs", "symbols": ["forward", "backward"]}]}
{"id": "C38", "title": "Space1 and Space2 gradient", "statement": "gradient(vhat,[d0,d1],scale) returns the orthogonal coefficients of the mixed derivative divided by scale0^d0*scale1^d1; without scale no division.", "quantifier": "all orders, scales, bases, arrays", "why_tests_cant": "all orders", "anchors": [{"file": "src/space/space1.rs", "symbols": ["gradient"]}, {"file": "src/space/space2.rs", "symbols": ["gradient"]}]}
{"id": "C39", "title": "Space3 round trip", "statement": "Space3 forward(backward(vhat)) = vhat and to_ortho/from_ortho round trip when the component bases round trip.", "quantifier": "all triples of bases, shapes, contents", "why_tests_cant": "all combos", "anchors": [{"file": "src/space/space3.rs", "symbols": ["forward", "backward", "to_ortho", "from_ortho"]}]}
{"id": "C40", "title": "Space3 gradient", "statement": "gradient(vhat,[d0,d1,d2],scale) differentiates along axis i with base i.", "quantifier": "all orders and triples of bases", "why_tests_cant": "false of the code when base 1 and base 2 differ: axis 2 is differentiated with base 1", "anchors": [{"file": "src/space/space3.rs", "symbols": ["gradient", "gradient_par"]}]}
{"id": "C41", "title": "Shapes of results", "statement": "forward/backward/to_ortho/from_ortho/gradient return arrays of exactly the documented physical, spectral and orthogonal shapes.", "quantifier": "all bases, sizes, shapes", "why_tests_cant": "all shapes", "anchors": [{"file": "src/traits.rs", "symbols": ["BaseSize"]}, {"file": "src/utils.rs", "symbols": ["array_resized_axis"]}, {"file": "src/space/space2.rs", "symbols": ["shape_physical", "shape_spectral"]}]}
{"id": "C42", "title": "Domain distribution is a balanced partition", "statement": "Splitting n grid points over P processes gives contiguous ranges in rank order that cover 0..n-1 exactly once, sizes differing by at most one.", "quantifier": "every n>=P>=1 and every rank", "why_tests_cant": "all n and P", "anchors": [{"file": "src/space_mpi/decomp2d/distribute.rs", "symbols": ["Distribution::new", "distribute"]}]}
{"id": "C43", "title": "Too many processes are detected", "statement": "When some process would own no points the construction panics (debug) instead of producing a wrong layout; non divisible grids of >= P points never panic.", "quantifier": "every n,P", "why_tests_cant": "boundary n<P", "anchors": [{"file": "src/space_mpi/decomp2d/distribute.rs", "symbols": ["distribute"]}]}
{"id": "C44", "title": "Pencil transposes preserve global data", "statement": "transpose x->y and y->x move every element of the global array to the right owner and local index, and are mutually inverse, for any grid and process count.", "quantifier": "all global shapes, process counts, contents", "why_tests_cant": "all uneven splits", "anchors": [{"file": "src/space_mpi/decomp2d/mod.rs", "symbols": ["transpose_x_to_y", "transpose_y_to_x", "split_xy", "merge_xy", "split_yx", "merge_yx"]}]}
{"id": "C45", "title": "Gather and scatter", "statement": "gather on root reassembles the global array from the pencils; scatter distributes it; gather(scatter(a)) = a and scatter(gather(p)) = p; all_gather gives every rank the global array.", "quantifier": "all shapes, process counts, contents", "why_tests_cant": "all uneven splits", "anchors": [{"file": "src/space_mpi/decomp2d/mod.rs", "symbols": ["gather_x_inplace_root", "gather_y_inplace_root", "scatter_x_inplace_root", "scatter_y_inplace_root", "all_gather_x", "all_gather_y"]}]}
{"id": "C46", "title": "Communication counts match", "statement": "In every all-to-all the count rank r sends to rank s equals the count s expects from r, displacements are the running sums, and totals equal the local buffer sizes.", "quantifier": "all shapes, process counts, rank pairs", "why_tests_cant": "a mismatch deadlocks or corrupts only for special splits", "anchors": [{"file": "src/space_mpi/decomp2d/distribute.rs", "symbols": ["get_counts_all_to_all", "get_counts_all_gather"]}]}
{"id": "C47", "title": "Decomposition lookup", "statement": "After any history of inserts, looking up a global shape returns a decomposition of exactly that shape, and panics iff the shape was never inserted; duplicate inserts do not change lookups.", "quantifier": "all histories of inserts", "why_tests_cant": "all histories", "anchors": [{"file": "src/space_mpi/decomp_handler.rs", "symbols": ["DecompHandler::insert", "get"]}]}
{"id": "C48", "title": "Distributed space never misses a decomposition", "statement": "Every shape the distributed transforms, ortho maps and gradients look up has been inserted by the constructor.", "quantifier": "all pairs of bases", "why_tests_cant": "all combos of phys/spec/orth sizes", "anchors": [{"file": "src/space_mpi/space2.rs", "symbols": ["Space2Mpi::new", "forward_mpi", "backward_mpi", "to_ortho_mpi", "from_ortho_mpi", "gradient_mpi"]}]}
{"id": "C49", "title": "Distributed results equal serial results", "statement": "Running forward/backward/to_ortho/from_ortho/gradient on pencils gives exactly the pencils of the serial result of the global array.", "quantifier": "all bases, shapes, process counts, data", "why_tests_cant": "all splits", "anchors": [{"file": "src/space_mpi/space2.rs", "symbols": ["forward_inplace_mpi", "backward_inplace_mpi", "to_ortho_mpi", "from_ortho_mpi", "gradient_mpi"]}]}
{"id": "C50", "title": "approx_eq", "statement": "approx_eq accepts iff all paired entries are within tolerance; it ignores length differences, and the complex variant accepts when only real or only imaginary parts agree (documented intent false).", "quantifier": "all vectors", "why_tests_cant": "semantics over all vectors", "anchors": [{"file": "src/utils.rs", "symbols": ["approx_eq", "approx_eq_complex", "approx_eq_ndarray"]}]}
{"id": "C51", "title": "Minimum sizes and memory safety", "statement": "For each base the exact set of sizes for which construct/forward/backward/from_ortho/to_ortho/gradient run without panic and without unchecked out-of-bounds access.", "quantifier": "every n", "why_tests_cant": "unchecked indexing is undefined behaviour below the minimum", "anchors": [{"file": "src/chebyshev/ortho.rs", "symbols": ["gradient_slice"]}, {"file": "src/chebyshev/stencils/helpers.rs", "symbols": ["new", "dot_inplace", "solve_inplace"]}, {"file": "src/chebyshev/linalg/tdma.rs", "symbols": ["tdma"]}, {"file": "src/chebyshev/linalg/pdma.rs", "symbols": ["pdma"]}, {"file": "src/chebyshev/linalg/pdma2.rs", "symbols": ["pdma2"]}]}
{"id": "C52", "title": "Orthogonal bases are their own orthogonal space", "statement": "For Chebyshev and Fourier bases to_ortho and from_ortho are the identity and stencil()/stencil_inv() are identity matrices.", "quantifier": "every n and vector", "why_tests_cant": "all vectors", "anchors": [{"file": "src/chebyshev/ortho.rs", "symbols": ["to_ortho_slice", "stencil"]}, {"file": "src/fourier/c2c.rs", "symbols": ["to_ortho_slice", "stencil"]}, {"file": "src/fourier/r2c.rs", "symbols": ["to_ortho_slice", "stencil"]}]}
{"id": "C53", "title": "Expansion to the orthogonal space multiplies by the stencils", "statement": "In every 1-d, 2-d and 3-d space, to_ortho(v) is the array obtained by multiplying v along each axis i by the matrix the space returns as stencil(i).", "quantifier": "every space of bases, every array of coefficients", "why_tests_cant": "all shapes and coefficient values", "anchors": [{"file": "src/space/space1.rs", "symbols": ["to_ortho", "stencil"]}, {"file": "src/space/space2.rs", "symbols": ["to_ortho", "stencil"]}, {"file": "src/space/space3.rs", "symbols": ["to_ortho", "stencil"]}]}
{"id": "C54", "title": "backward evaluates the series on the tensor grid", "statement": "In every 1-d, 2-d and 3-d space, backward(v)[j0,j1,..] is the value at the grid point (coords()[0][j0], coords()[1][j1], ..) of the series with coefficients v in the tensor products of the basis functions.", "quantifier": "every space of bases, every coefficient array, every grid point", "why_tests_cant": "all shapes, coefficients and points", "anchors": [{"file": "src/space/space1.rs", "symbols": ["backward", "coords"]}, {"file": "src/space/space2.rs", "symbols": ["backward", "coords"]}, {"file": "src/space/space3.rs", "symbols": ["backward", "coords"]}]}
{"id": "C55", "title": "from_ortho is the tensor least-squares projection", "statement": "In every 1-d, 2-d and 3-d space, from_ortho(a) satisfies the normal equations of the tensor product of the stencil matrices stencil(i), i.e. it is the best approximation of a in the space.", "quantifier": "every space of bases, every array of orthogonal coefficients", "why_tests_cant": "all shapes and coefficient values", "anchors": [{"file": "src/space/space1.rs", "symbols": ["from_ortho", "stencil"]}, {"file": "src/space/space2.rs", "symbols": ["from_ortho", "stencil"]}, {"file": "src/space/space3.rs", "symbols": ["from_ortho", "stencil"]}]}
{"id": "C56", "title": "Scalar communication", "statement": "broadcast_scalar gives every rank the value of rank 0; gather_sum stores on rank 0, and all_gather_sum on every rank, the sum of the values of all ranks; ranks other than 0 keep their result in gather_sum.", "quantifier": "every number of ranks, values, interleaving of ranks and messages", "why_tests_cant": "all schedules and process counts", "anchors": [{"file": "src/space_mpi/decomp2d/functions.rs", "symbols": ["broadcast_scalar", "gather_sum", "all_gather_sum"]}]}
{"id": "C57", "title": "Distributed space: pencil arrays, transposes, gather and scatter", "statement": "On a distributed space the pencil shapes are those of the decomposition of the physical and spectral shapes, the arrays created for them are the pencils of a zero array, transposes turn x-pencils of a global array into its y-pencils and conversely, gathering gives rank 0 (all_gather: every rank) the global array, scattering gives every rank its pencil; for physical and spectral arrays, whatever the receiving arrays contain.", "quantifier": "all pairs of bases, numbers of ranks, global arrays, interleavings of ranks and messages", "why_tests_cant": "all sizes, process counts and schedules", "anchors": [{"file": "src/space_mpi/space2.rs", "symbols": ["shape_physical_x_pen", "ndarray_spectral_y_pen", "transpose_x_to_y_phys", "transpose_y_to_x_spec", "gather_from_x_pencil_phys_root", "all_gather_from_y_pencil_spec", "scatter_to_x_pencil_phys_root"]}]}
{"id": "C58", "title": "Distributed round trips", "statement": "If backward undoes forward for both bases, running forward_mpi and then backward_mpi on all ranks returns every rank's pencil; likewise backward_mpi then forward_mpi, and to_ortho_mpi then from_ortho_mpi. Nobody panics or waits for ever.", "quantifier": "all pairs of bases, numbers of ranks, pencils of the right shapes, interleavings of ranks and messages", "why_tests_cant": "all inputs, splits and schedules", "anchors": [{"file": "src/space_mpi/space2.rs", "symbols": ["forward_mpi", "backward_mpi", "to_ortho_mpi", "from_ortho_mpi"]}]}
{"id": "C59", "title": "Derivatives of sampled functions", "statement": "Sample a polynomial of degree below n on the chebyshev(n) grid, or a real trigonometric polynomial with frequencies below n/2 on the fourier_r2c(n) grid: forward, gradient of order k and backward return exactly the samples of the k-th derivative. In two dimensions the same holds for finite sums of products of such functions (which satisfy the boundary conditions of composite bases): forward and gradient(d0, d1, scale) of the space and backward of the orthogonal space return the samples of the mixed partial derivative divided by scale0^d0*scale1^d1. In three dimensions the same holds for real-to-real spaces and for fourier_r2c in the first direction, if the second and third base are equal (C40).", "quantifier": "all sizes, functions of the class, derivative orders, scales and contents of output arrays", "why_tests_cant": "all functions, sizes and orders", "anchors": [{"file": "src/chebyshev/ortho.rs", "symbols": ["forward_slice", "gradient_slice", "backward_slice"]}, {"file": "src/fourier/r2c.rs", "symbols": ["forward_slice", "gradient_slice", "backward_slice"]}, {"file": "src/space/space2.rs", "symbols": ["forward", "gradient", "backward"]}, {"file": "src/lib.rs", "symbols": ["Space2"]}]}
{"id": "C60", "title": "Composite versus orthogonal transform of the same data", "statement": "Expanding the composite transform of grid data to the orthogonal base gives the orthogonal Chebyshev transform of the data if and only if the interpolating polynomial satisfies the boundary conditions of the base (for cheb_dirichlet: iff the first and last grid value vanish); otherwise the boundary conditions are enforced.", "quantifier": "all five composite bases (three for the to_ortho call), sizes and grid data", "why_tests_cant": "all data and sizes", "anchors": [{"file": "src/chebyshev/compo.rs", "symbols": ["forward_slice", "to_ortho_slice"]}, {"file": "README.md", "symbols": ["composite"]}]}
{"id": "C61", "title": "Accessors answer for the right base", "statement": "base_kind() and transform_kind() name the constructor that made a base, and kind plus number of grid points determine the base. In every 1-d, 2-d and 3-d space coords_axis, stencil, stencil_inv, laplacian, laplacian_pinv, base_kind, transform_kind of an axis return those of the base of this axis, coords and the shapes list them in order; 3-d spaces panic for an axis above 2, 2-d spaces answer for the second base.", "quantifier": "all bases, spaces and axes", "why_tests_cant": "all bases and axes", "anchors": [{"file": "src/space/space2.rs", "symbols": ["coords_axis", "stencil", "laplacian_pinv", "base_kind"]}, {"file": "src/space/space3.rs", "symbols": ["coords_axis", "stencil", "base_kind"]}, {"file": "src/chebyshev/compo.rs", "symbols": ["base_kind"]}]}
{"id": "C62", "title": "Preconditioned Poisson and Helmholtz systems", "statement": "With S = stencil() of a composite Chebyshev base and (P, I) = laplacian_pinv(): for a right hand side f whose two highest Chebyshev coefficients vanish, u = S v satisfies u'' = f if and only if (I S) v = (I P) f. For cheb_dirichlet and cheb_dirichlet_neumann this square system has exactly one solution for every such f, which also satisfies the boundary conditions; for cheb_neumann its kernel is the constants and it is solvable exactly if f has mean zero. Every solution of the Helmholtz problem u - alpha u'' = f satisfies the corresponding system.", "quantifier": "all sizes, right hand sides, coefficient vectors, alpha and composite bases", "why_tests_cant": "a solver must be correct for every size and right hand side; tests solve a handful of problems", "anchors": [{"file": "src/chebyshev/compo.rs", "symbols": ["laplacian_pinv", "stencil", "gradient_slice"]}, {"file": "src/chebyshev/ortho.rs", "symbols": ["laplacian_pinv", "_dmat"]}, {"file": "examples/field.rs", "symbols": ["ingredients_for_hholtz", "ingredients_for_poisson"]}]}
{"id": "C63", "title": "Fields: a space with its arrays", "statement": "For the field type of examples/field.rs: whatever sequence of array assignments, forward, backward and from_ortho calls a user makes, with whatever scheduling of the parallel passes, every call succeeds, arrays keep the shapes of the space, space, grid and deltas never change, and the arrays equal those of the serial operations. The grid deltas are positive and add up to the length of the grid. The solver matrices are returned for Fourier axes; for every Chebyshev-type axis ingredients_for_hholtz and ingredients_for_poisson panic (the example assigns an (n-2) x n matrix to an n x n one).", "quantifier": "all histories of calls, schedules, bases that run, array contents; all grids; all kinds and sizes for the solver matrices", "why_tests_cant": "all histories and interleavings", "anchors": [{"file": "examples/field.rs", "symbols": ["FieldBase", "new", "forward", "backward", "from_ortho", "get_dx", "ingredients_for_hholtz", "ingredients_for_poisson", "main"]}, {"file": "src/space/space2.rs", "symbols": ["forward_inplace_par", "backward_inplace_par", "from_ortho_inplace_par"]}]}
{"id": "C64", "title": "The MPI example programs never fail or deadlock, and their serial/distributed comparison holds", "statement": "The programs examples/space_mpi.rs and examples/space_complex_mpi.rs (construct the distributed space, scatter an array from the root, forward and backward transform in place, gather on all ranks, repeat the computation serially, assert equality of the two results, expand to the orthogonal basis and project back) return on every rank, in every order of message delivery: no rank panics, waits for a message that never comes, or receives a message of another operation; the assertion that the distributed result equals the serial one is true on every rank; and the common result is backward(forward(v)) of the array v of the numbers 0, 1, 2, ....", "quantifier": "every grid size, every number of ranks that leaves each rank a point of each grid, debug and release builds, every interleaving of the ranks and order of message delivery", "why_tests_cant": "The examples run one grid size with one number of ranks and whatever message timing the machine happens to produce.", "anchors": [{"file": "examples/space_mpi.rs", "symbols": ["main"]}, {"file": "examples/space_complex_mpi.rs", "symbols": ["main"]}, {"file": "src/space_mpi/space2.rs", "symbols": ["Space2Mpi"]}]}
{"id": "C65", "title": "Any program over a distributed space is equivalent to the serial program", "statement": "Let every rank run the same sequence of calls of the distributed space (transposes, forward, backward, to_ortho, from_ortho, gradient, gather, all_gather, scatter, with pointwise changes of the local arrays in between), of any length and in any order. If the same sequence on the undistributed arrays with the serial space returns, then in every interleaving and order of message delivery every rank returns and holds exactly its part of the serial result, in both pencil layouts; the serial sequence returns unless a gradient is asked for with a zero scale. In particular the gathered results do not depend on the number of ranks, and a rank that is ahead of another can not have its messages taken for those of another call.", "quantifier": "all sequences of calls, initial arrays, numbers of ranks that split the grids, bases that run, debug and release builds, interleavings and orders of delivery", "why_tests_cant": "unbounded sequences of calls, all interleavings; tests call each method once", "anchors": [{"file": "src/space_mpi/space2.rs", "symbols": ["Space2Mpi"]}, {"file": "src/space_mpi/traits.rs", "symbols": ["BaseSpaceMpi"]}, {"file": "src/space_mpi/decomp2d/mod.rs", "symbols": ["Decomp2d"]}]}
{"id": "C66", "title": "fourier_r2c computes the same spectrum and grid values as fourier_c2c for real data", "statement": "For real data, the coefficients fourier_r2c(n).forward returns are the first n/2+1 of the n coefficients fourier_c2c(n).forward returns for the same data as complex numbers, and the dropped ones are their complex conjugates (coefficient n-k is the conjugate of coefficient k). Conversely, for coefficients with that symmetry fourier_c2c(n).backward returns real values and fourier_r2c(n).backward of the first n/2+1 coefficients returns the same values. Whatever the output buffers held before does not matter. In two and three dimensions the space whose last axis is fourier_r2c and whose other axes are fourier_c2c returns, for real data, exactly the first half (along the last axis) of the coefficients of the all-complex space; those satisfy v[-k,-l(,-m)] = conj v[k,l(,m)], and for coefficients with this symmetry both spaces' backward return the same, real, grid values.", "quantifier": "every size n >= 1 (even and odd), every real data vector, every conjugate-symmetric coefficient vector, every old content of the output buffers", "why_tests_cant": "all vectors of all sizes; even and odd sizes have different last coefficients", "anchors": [{"file": "src/fourier/r2c.rs", "symbols": ["FourierR2c", "forward_slice", "backward_slice"]}, {"file": "src/fourier/c2c.rs", "symbols": ["FourierC2c", "forward_slice", "backward_slice"]}]}
{"id": "C67", "title": "The Fourier transforms preserve energy and inner products", "statement": "fourier_c2c(n).forward multiplies every inner product, and hence the energy sum |v_j|^2, by exactly n; for fourier_r2c(n).forward the same holds of the energy when every coefficient counts twice except the mean and, for even n, the Nyquist coefficient, which count once. The first coefficient is the sum of the data.", "quantifier": "every size n >= 1, all pairs of data vectors", "why_tests_cant": "an identity over all data vectors of all sizes", "anchors": [{"file": "src/fourier/r2c.rs", "symbols": ["FourierR2c", "forward_slice"]}, {"file": "src/fourier/c2c.rs", "symbols": ["FourierC2c", "forward_slice"]}]}
{"id": "C68", "title": "Success, failure and sizes of every base do not depend on the number type", "statement": "With any number type (f32, f64, any rounding, with infinities and NaNs; whatever values +, -, *, / give), the constructors return from the minimum size on and panic below; the sizes are len_phys = len_orth = n and the documented len_spec; forward, backward, to_ortho, from_ortho and gradient of every order of every base, on slices of the right lengths, either always return a vector of the right length that does not depend on the old content of the output slice, or always fail in the same way (panic of the solver below its minimum size; out-of-bounds read of the biharmonic bases and of the gradient of chebyshev(2)), depending on kind, size and order alone and never on the data.", "quantifier": "every number type and every arithmetic on it, all kinds of bases, all sizes, all data, all orders of differentiation", "why_tests_cant": "the control flow must be independent of the data for all inputs, including NaN and infinities, and all sizes", "anchors": [{"file": "src/lib.rs", "symbols": ["chebyshev", "cheb_dirichlet", "fourier_r2c", "fourier_c2c"]}, {"file": "src/chebyshev/compo.rs", "symbols": ["ChebyshevComposite"]}, {"file": "src/chebyshev/ortho.rs", "symbols": ["Chebyshev"]}, {"file": "src/chebyshev/linalg/tdma.rs", "symbols": ["tdma"]}, {"file": "src/chebyshev/linalg/pdma.rs", "symbols": ["pdma"]}, {"file": "src/chebyshev/linalg/pdma2.rs", "symbols": ["pdma2"]}, {"file": "src/fourier/r2c.rs", "symbols": ["FourierR2c"]}, {"file": "src/fourier/c2c.rs", "symbols": ["FourierC2c"]}, {"file": "src/types.rs", "symbols": ["FloatNum"]}]}
{"id": "C69", "title": "Parallel equals serial bit for bit, with floating-point numbers", "statement": "With any number type, every array method of every base replaces each lane by the result of the slice operator, its result does not depend on the old content of the output array, the parallel method returns exactly (bit for bit) what the serial method returns under every schedule of the threads, and arrays that do not fit are rejected; the same for the methods of Space1, Space2, Space3 (theorems C34_space*, which hold for every number type). gradient of a space returns for every scale, zero and NaN included.", "quantifier": "every arithmetic, all arrays, axes, schedules, scales", "why_tests_cant": "all interleavings and all data, without assuming associativity or any other law that rounding breaks", "anchors": [{"file": "src/traits.rs", "symbols": ["forward_inplace_par", "backward_inplace_par", "gradient_inplace_par"]}, {"file": "src/space/space1.rs", "symbols": ["gradient", "gradient_par"]}, {"file": "src/space/space2.rs", "symbols": ["gradient", "gradient_par"]}, {"file": "src/space/space3.rs", "symbols": ["gradient", "gradient_par"]}]}
{"id": "C70", "title": "Distributed programs give bit for bit the serial result, on any number of ranks", "statement": "With any number type, a program that constructs a distributed space of a real Fourier and a real-to-real base and then makes any sequence of calls (transforms, gradients with any scales, transposes, gather, scatter, elementwise updates) returns on every rank under every order of delivery of messages, and the ranks hold their parts of exactly the arrays the same calls give in one process: no rounding difference between serial and distributed runs or between different numbers of ranks.", "quantifier": "every arithmetic, all sizes that can be distributed, all numbers of ranks, all programs, all message orders", "why_tests_cant": "all programs and message orders, and equality of floating-point results without any law of arithmetic", "anchors": [{"file": "src/space_mpi/space2.rs", "symbols": ["Space2Mpi"]}, {"file": "src/space_mpi/decomp2d/mod.rs", "symbols": ["Decomp2d"]}]}
{"id": "C71", "title": "The tridiagonal solver is backward stable", "statement": "In arithmetic with rounding (round to nearest, unit roundoff u, no overflow or underflow) tdma on every diagonally dominant system with offsets -2, 0, 2 and at least 3 rows returns without dividing by zero, and the result is the exact solution of a system whose off-diagonal entries differ from the given ones by a relative error of at most 5u/(1-5u), and whose diagonal by that much of |d_i| + 2|l_{i-2}|.", "quantifier": "every rounding, all sizes, all diagonally dominant matrices, all right-hand sides", "why_tests_cant": "rounding errors accumulate over systems of any size; a sample of systems does not bound them", "anchors": [{"file": "src/chebyshev/linalg/tdma.rs", "symbols": ["tdma"]}]}
{"id": "C72", "title": "Rounding error of to_ortho", "statement": "In arithmetic with rounding the Dirichlet and Neumann bases of every size n >= 4 can be constructed, and for n >= 5 to_ortho(v) differs from the result of exact arithmetic by at most 2*gamma_5*max|v| in each entry (gamma_k = k u/(1-k u)), for all data.", "quantifier": "every rounding to nearest, all n, all data", "why_tests_cant": "all data and sizes", "anchors": [{"file": "src/chebyshev/stencils.rs", "symbols": ["Dirichlet", "Neumann", "DirichletNeumann", "BiHarmonicA", "BiHarmonicB", "dot_inplace", "solve_inplace"]}, {"file": "src/chebyshev/compo.rs", "symbols": ["dirichlet", "neumann"]}]}
{"id": "C73", "title": "Rounding error of from_ortho", "statement": "In arithmetic with rounding from_ortho of the Dirichlet basis of any size n >= 5 and of the Neumann basis with (n-1)^2 gamma_8 <= 1 returns for all data (no pivot is rounded to zero), and the result differs from that of exact arithmetic by at most (n+1)^2/32 * (6 gamma_5 max|x| + 2 gamma_2 max|u|) (Neumann: (n-1)^2/4 * (6 gamma_13 max|x| + 2 gamma_5 max|u|)) in each entry, x being the computed result; when n^2 roundings are small, twice that with the exact result in place of x.", "quantifier": "every rounding to nearest, all n, all data, whatever the output slice held", "why_tests_cant": "a bound that is uniform in the data and explicit in n needs the condition of the normal equations for every n", "anchors": [{"file": "src/chebyshev/stencils.rs", "symbols": ["Dirichlet", "Neumann", "DirichletNeumann", "BiHarmonicA", "BiHarmonicB", "dot_inplace", "solve_inplace"]}, {"file": "src/chebyshev/compo.rs", "symbols": ["dirichlet", "neumann"]}, {"file": "src/chebyshev/linalg/tdma.rs", "symbols": ["tdma"]}]}
{"id": "C74", "title": "to_ortho followed by from_ortho returns the data up to n^2 roundings", "statement": "In arithmetic with rounding from_ortho(to_ortho(v)) differs from v by at most (n+1)^2 gamma_5 max|v| (Dirichlet) or 8 (n-1)^2 gamma_13 max|v| (Neumann) in each entry, for every n with n^2 roundings small and all v; e.g. by 1e-9 for n = 1000 and numbers with 53 binary digits.", "quantifier": "every rounding to nearest, all n with n^2 u small, all data", "why_tests_cant": "the tests compare a few vectors with a tolerance; the bound is for all data and sizes", "anchors": [{"file": "src/chebyshev/stencils.rs", "symbols": ["Dirichlet", "Neumann", "DirichletNeumann", "BiHarmonicA", "BiHarmonicB", "dot_inplace", "solve_inplace"]}, {"file": "src/chebyshev/compo.rs", "symbols": ["dirichlet", "neumann"]}, {"file": "src/chebyshev/linalg/tdma.rs", "symbols": ["tdma"]}]}
{"id": "C75", "title": "Rounding error of the Chebyshev gradient", "statement": "In arithmetic with rounding the d-th gradient of coefficients a differs from that of exact arithmetic, entry by entry, by at most gamma_{d(n/2+6)} times the d-th exact gradient of the coefficients |a|, for every n >= 3, every d and all a; hence by at most gamma_{d(n/2+6)} (n^2/2)^d max|a|. For the Dirichlet and Neumann bases by at most 2 gamma_{5+d(n/2+6)} (n^2/2)^d max|v|.", "quantifier": "every rounding, all n, all orders d, all coefficients, whatever the output slice held", "why_tests_cant": "errors accumulate in the backward recurrence over n terms and d passes; the bound is for all data, sizes and orders", "anchors": [{"file": "src/chebyshev/ortho.rs", "symbols": ["Chebyshev", "gradient_slice", "forward_slice", "backward_slice"]}, {"file": "src/chebyshev/compo.rs", "symbols": ["forward_slice", "backward_slice", "gradient_slice"]}, {"file": "src/chebyshev/stencils.rs", "symbols": ["Dirichlet", "Neumann"]}]}
{"id": "C76", "title": "Rounding error of the Chebyshev transforms", "statement": "If the cosine transform of length n has an error of at most eta times the sum of the moduli of its input, forward differs from exact arithmetic by at most ((1+eta)(1+gamma_8)-1) * 2/(n-1) * sum|v| and backward by at most ((1+eta)(1+gamma_3)-1) * 2 sum|a| in each entry.", "quantifier": "every rounding, every accuracy eta of the external DCT, all n >= 2, all data", "why_tests_cant": "all data and sizes", "anchors": [{"file": "src/chebyshev/ortho.rs", "symbols": ["Chebyshev", "gradient_slice", "forward_slice", "backward_slice"]}]}
{"id": "C77", "title": "forward and backward are inverse up to rounding", "statement": "Under the hypothesis of C76, backward(forward(v)) differs from v by at most 8 n ((1+eta)^2(1+gamma_11)-1) max|v| and forward(backward(a)) from a by at most 8 ((1+eta)^2(1+gamma_11)-1) sum|a| in each entry, for all data and n >= 2.", "quantifier": "every rounding, every accuracy eta of the external DCT, all n >= 2, all data", "why_tests_cant": "the tests compare a few vectors with a tolerance; the bound is for all data and sizes", "anchors": [{"file": "src/chebyshev/ortho.rs", "symbols": ["Chebyshev", "gradient_slice", "forward_slice", "backward_slice"]}]}
{"id": "C78", "title": "Rounding error of the composite transforms", "statement": "Under the hypothesis of C76, for n >= 5: forward of the Dirichlet basis differs from exact arithmetic by at most (n+1)^2/32 * (6 gamma_5 max|x| + 8((1+eta)(1+gamma_10)-1) max|v|), x being the result (Neumann: (n-1)^2/4 * (6 gamma_13 max|x| + 8((1+eta)(1+gamma_13)-1) max|v|)), and backward of either by at most 4 n ((1+eta)(1+gamma_8)-1) max|coefficients|; when n^2 roundings are small, forward by at most twice that with the exact result in place of x.", "quantifier": "every rounding to nearest, every accuracy eta of the external DCT, all n, all data", "why_tests_cant": "all data and sizes; needs the condition of the normal equations for every n", "anchors": [{"file": "src/chebyshev/compo.rs", "symbols": ["forward_slice", "backward_slice", "gradient_slice"]}, {"file": "src/chebyshev/stencils.rs", "symbols": ["Dirichlet", "Neumann"]}, {"file": "src/chebyshev/ortho.rs", "symbols": ["Chebyshev", "gradient_slice", "forward_slice", "backward_slice"]}]}
{"id": "C79", "title": "Aliasing", "statement": "For every k, forward of the samples of the Chebyshev polynomial T_k on the n points of chebyshev(n) is the unit vector of the degree k reflected at 0 and n-1. Forward of fourier_c2c(n) of the samples of exp(iKx) is n times the unit vector at K mod n, for every integer K. Forward of fourier_r2c(n) of A cos(kx) + B sin(kx) has one non-zero entry, at k reflected at 0 and n/2; the sine changes sign with the reflection and is lost at frequencies 0 and n/2.", "quantifier": "all n, all degrees and frequencies, all amplitudes", "why_tests_cant": "infinitely many degrees and frequencies for each size", "anchors": [{"file": "src/chebyshev/ortho.rs", "symbols": ["Chebyshev", "gradient_slice", "forward_slice", "backward_slice", "nodes"]}, {"file": "src/fourier/c2c.rs", "symbols": ["FourierC2c", "forward_slice"]}, {"file": "src/fourier/r2c.rs", "symbols": ["FourierR2c", "forward_slice", "backward_slice", "gradient_slice"]}]}
{"id": "C80", "title": "Spectral accuracy", "statement": "Let f be the sum of an absolutely convergent Chebyshev series with sum |a_k| k^(2d) finite. Sampling f on the grid of chebyshev(n), forward computes a_j up to the tail sum_{k>=n}|a_k|, and the d-th gradient represents the d-th derivative of f everywhere on [-1,1], and after backward on the grid, up to twice the tail of sum |a_k| k^(2d); with geometric coefficients M rho^k the error is at most 2 M rho^n/(1-rho). The same for Fourier series: fourier_c2c interpolates up to twice the sum of the moduli of the coefficients outside the band, and the d-th gradient of fourier_r2c approximates the d-th derivative up to twice the tail of sum k^d (|A_k|+|B_k|) over 2k >= n.", "quantifier": "all functions with such a series, all n, all orders d, all points", "why_tests_cant": "ranges over an infinite-dimensional class of functions and every point of the interval", "anchors": [{"file": "src/chebyshev/ortho.rs", "symbols": ["Chebyshev", "gradient_slice", "forward_slice", "backward_slice", "nodes"]}, {"file": "src/fourier/c2c.rs", "symbols": ["FourierC2c", "forward_slice"]}, {"file": "src/fourier/r2c.rs", "symbols": ["FourierR2c", "forward_slice", "backward_slice", "gradient_slice"]}]}
{"id": "C81", "title": "Grids in floating point", "statement": "In arithmetic with rounding the grid of chebyshev(n) has n points in [-1,1], is exactly symmetric about zero, and differs from -cos(pi j/(n-1)) by at most gamma_3 pi/2 plus the error of the sine. The Fourier grids have n or n+1 points, within gamma_4 2 pi j/n of 2 pi j/n; exactly n if n is a power of two. In f64, fourier_r2c(n) and fourier_c2c(n) with n = 61*2^t have n+1 grid points although their physical size is n, and forward panics on a function sampled on this grid.", "quantifier": "every rounding to nearest, every library sine with a given error, all n (below the inverse of the roundoff), all grid points", "why_tests_cant": "the number of points depends on the rounding of 2 pi/(2 pi/n) and is wrong for sporadic n only", "anchors": [{"file": "src/chebyshev/ortho.rs", "symbols": ["chebyshev_nodes_2nd_kind", "coords"]}, {"file": "src/fourier/c2c.rs", "symbols": ["nodes", "coords"]}, {"file": "src/fourier/r2c.rs", "symbols": ["nodes", "coords"]}]}
{"id": "C82", "title": "Total error of numerical differentiation", "statement": "Let f be the sum of a Chebyshev series with sum |a_k| k^(2d) finite, bounded by F on [-1,1], and sample it on the grid of chebyshev(n) with errors of at most eps. In arithmetic with rounding and with a cosine transform of relative accuracy eta, forward, gradient of order d and backward return the d-th derivative of f at every grid point up to twice the tail of the series plus 8 n (n^2/2)^d (((1+eta)^2 (1+gamma)-1)(F+eps)+eps), gamma = gamma_(11+d(n/2+6)).", "quantifier": "every n >= 3, every order, every rounding, every such function, all sample errors, all contents of the output arrays", "why_tests_cant": "a bound for all functions of a class and all rounding errors", "anchors": [{"file": "src/chebyshev/ortho.rs", "symbols": ["forward_slice", "gradient_slice", "backward_slice"]}]}
{"id": "C83", "title": "Fourier differentiation with rounding", "statement": "In arithmetic with rounding to nearest, every coefficient of gradient of order d is returned with a relative error of at most gamma_d in the real and in the imaginary part: for fourier_r2c relative to (ik)^d c_k, for fourier_c2c relative to what the method computes without rounding.", "quantifier": "every size within the exact integers, every order, every rounding to nearest, all coefficients, all contents of the output array", "why_tests_cant": "a bound for all rounding errors and all inputs", "anchors": [{"file": "src/fourier/c2c.rs", "symbols": ["gradient_slice"]}, {"file": "src/fourier/r2c.rs", "symbols": ["gradient_slice"]}]}
{"id": "C84", "title": "Fourier transforms with rounding", "statement": "With Fourier transforms of relative accuracy eta in the Euclidean norm, forward returns the coefficients with a relative error of at most eta and backward the values with a relative error of at most (1+eta)(1+gamma_2)-1.", "quantifier": "every size, every rounding, every implementation of the external transforms of that accuracy, all inputs", "why_tests_cant": "a bound for all rounding errors and all inputs", "anchors": [{"file": "src/fourier/c2c.rs", "symbols": ["forward_slice", "backward_slice"]}, {"file": "src/fourier/r2c.rs", "symbols": ["forward_slice", "backward_slice"]}]}
{"id": "C85", "title": "Fourier round trips with rounding", "statement": "forward followed by backward returns the values, and backward followed by forward the coefficients (of a real signal, for fourier_r2c), with a relative error of at most (1+eta)^2(1+gamma_2)-1 in the Euclidean norm.", "quantifier": "every size, every rounding, every implementation of the external transforms of accuracy eta, all inputs", "why_tests_cant": "a bound for all rounding errors and all inputs", "anchors": [{"file": "src/fourier/c2c.rs", "symbols": ["forward_slice", "backward_slice"]}, {"file": "src/fourier/r2c.rs", "symbols": ["forward_slice", "backward_slice"]}]}
{"id": "C86", "title": "Total error of numerical differentiation of periodic functions", "statement": "Let f be the sum of a Fourier series with sum k^d(|a_k|+|b_k|) finite, bounded by F, sampled on the grid of fourier_r2c(n) with errors of at most eps. In arithmetic with rounding to nearest and with transforms of accuracy eta, forward, gradient of order d and backward return the d-th derivative of f at the grid points up to a root mean square error of twice the tail of the series plus (n/2)^d(((1+eta)^2(1+gamma_(d+2))-1)(F+eps)+eps).", "quantifier": "every size, every order, every rounding to nearest, every such function, all sample errors, all contents of the output arrays", "why_tests_cant": "a bound for all functions of a class and all rounding errors", "anchors": [{"file": "src/fourier/r2c.rs", "symbols": ["forward_slice", "gradient_slice", "backward_slice"]}]}
{"id": "C87", "title": "Arrays that do not fit are rejected by the distributed layer", "statement": "Every collective method of a decomposition or of a distributed space called on some rank with a local array that has not the shape of its pencil, or with a global array that has not the global shape, panics on that rank before it sends or waits for anything; the only arrays checked later (the target of a gather on the root and the outputs of the inplace transforms) keep the rank from ever returning. In no interleaving do all ranks return, and nothing wrong is delivered silently.", "quantifier": "all decompositions and distributed spaces, all ranks, all shapes and memory layouts of the arrays, whatever the other ranks do, all interleavings", "why_tests_cant": "ranges over all shapes and all interleavings of the ranks", "anchors": [{"file": "src/space_mpi/decomp2d/mod.rs", "symbols": ["check_shape", "transpose_x_to_y", "transpose_y_to_x", "gather_x", "gather_x_inplace_root", "scatter_x_inplace", "scatter_x_inplace_root", "all_gather_x", "gather_y", "scatter_y_inplace", "all_gather_y"]}, {"file": "src/space_mpi/decomp2d/distribute.rs", "symbols": ["check_shape"]}, {"file": "src/space_mpi/space2.rs", "symbols": ["forward_mpi", "forward_inplace_mpi", "backward_mpi", "backward_inplace_mpi", "to_ortho_mpi", "from_ortho_mpi", "gradient_mpi"]}]}
{"id": "C88", "title": "Spectral accuracy in two and three dimensions and for Dirichlet bases", "statement": "Sample a smooth function of two variables on the grid of a two-dimensional space: forward, gradient of any orders with optional scales, and backward of the space with the orthogonal bases return the mixed partial derivative on the grid, divided by the scales, up to twice the tail of the weighted coefficient series over the pairs of modes the grid does not resolve. This holds for Chebyshev and Fourier (r2c) bases, and for Dirichlet bases if the function vanishes at the ends of this axis. In three dimensions it holds for the spaces r2r×r2r×r2r and r2c×r2r×r2r whose second and third bases are equal (the case in which the gradient of the space is right), with the tail over the triples of modes that are not resolved.", "quantifier": "all sizes, all functions with an absolutely convergent (weighted) Chebyshev or Fourier-Chebyshev series in two or three variables, all derivative orders, all scales", "why_tests_cant": "ranges over all smooth functions, sizes and orders; tests use polynomials or single modes that are resolved exactly", "anchors": [{"file": "src/space/space2.rs", "symbols": ["Space2", "forward", "gradient", "backward"]}, {"file": "src/chebyshev/ortho.rs", "symbols": ["Chebyshev"]}, {"file": "src/chebyshev/compo.rs", "symbols": ["ChebyshevComposite"]}, {"file": "src/fourier/r2c.rs", "symbols": ["FourierR2c"]}]}
{"id": "C89", "title": "Symmetries of the data are symmetries of the coefficients", "statement": "Reversing the grid values of a Chebyshev, Dirichlet, Neumann or biharmonic base changes the sign of exactly the odd-numbered coefficients, and conversely; even (odd) data have only even (odd) coefficients and only they; gradient of the mirrored coefficients is the mirrored gradient with the sign (-1)^order. Shifting periodic data by s grid points multiplies coefficient k by exp(2 pi i k s/n), derivatives commute with shifts; reflecting periodic data exchanges the coefficients of k and -k (conjugates them for real data). In two- and three-dimensional spaces of every kind, data mirrored or shifted along any of the axes become coefficients multiplied by the factors of those axes.", "quantifier": "all sizes, all data, all derivative orders, all shifts, all contents of the output buffers", "why_tests_cant": "ranges over all data and shifts; a test checks single functions whose parity may hide an indexing error", "anchors": [{"file": "src/chebyshev/ortho.rs", "symbols": ["Chebyshev"]}, {"file": "src/chebyshev/compo.rs", "symbols": ["ChebyshevComposite"]}, {"file": "src/fourier/c2c.rs", "symbols": ["FourierC2c"]}, {"file": "src/fourier/r2c.rs", "symbols": ["FourierR2c"]}]}
{"id": "C90", "title": "Chebyshev transform and discrete inner products", "statement": "With the end points of the grid counted half and the first and last mode counted twice, forward preserves inner products and energy up to the factor (n-1)/2; every coefficient is the weighted inner product of the data with its Chebyshev polynomial on the grid; data bounded by M have coefficients bounded by 2M.", "quantifier": "all sizes, all real data, all contents of the output buffers", "why_tests_cant": "identities in all data vectors of all sizes", "anchors": [{"file": "src/chebyshev/ortho.rs", "symbols": ["Chebyshev", "forward_slice"]}]}
{"id": "C91", "title": "Exactly when the banded solvers succeed", "statement": "tdma, pdma and pdma2 return for bands of the right lengths if and only if all leading principal minors of the matrix are non-zero, and otherwise divide by zero (never panic or touch memory out of bounds), whatever the right-hand side. In particular every matrix with positive quadratic form and every strictly (row or column) diagonally dominant matrix is solved.", "quantifier": "all sizes from the minimum on, all bands of the right lengths, all right-hand sides, over any field", "why_tests_cant": "characterises success over all matrices; tests solve a few matrices that happen to have non-zero pivots", "anchors": [{"file": "src/chebyshev/linalg/tdma.rs", "symbols": ["tdma"]}, {"file": "src/chebyshev/linalg/pdma.rs", "symbols": ["pdma"]}, {"file": "src/chebyshev/linalg/pdma2.rs", "symbols": ["pdma2"]}]}
{"id": "C92", "title": "Spaces accept exactly the arrays of their shapes, and never leave memory", "statement": "Every method of Space1, Space2 and Space3 (forward, backward, to_ortho, from_ortho: allocating and in-place, serial and parallel; gradient, serial and parallel) panics on every input array that is not in standard layout with exactly the documented shape and on every output array that is not, whatever the other array is; whatever a method returns has the documented shape in standard layout; and no call accesses memory out of bounds. (Biharmonic bases and gradient of chebyshev(2) excepted, C12/C51; gradient of Space3 accepts the shape in which the last extent is that of base 1, C40.)", "quantifier": "all arrays of the right rank and any shape or layout, all schedules, all scales, all kinds and sizes of bases, exact numbers and any arithmetic", "why_tests_cant": "misuse has unboundedly many shapes, and a missing check shows only as a silent out-of-bounds access or wrong data", "anchors": [{"file": "src/space/space1.rs", "symbols": ["forward_inplace"]}, {"file": "src/space/space2.rs", "symbols": ["forward_inplace", "gradient"]}, {"file": "src/space/space3.rs", "symbols": ["forward_inplace", "gradient"]}, {"file": "src/internal_macros.rs", "symbols": ["apply_along_axis", "par_apply_along_axis"]}]}
{"id": "C93", "title": "The banded solvers are accurate in floating-point arithmetic", "statement": "Run with rounding after every operation, pdma and pdma2 on diagonals of matching lengths either stop at a zero pivot or return the exact solution of a nearby system: the matrix is the product of a lower and a unit upper band factor up to two roundings of the product of their moduli, and the system solved differs from the one given by at most seven roundings of it. If every row is dominated by its diagonal entry with a ratio below (1-u)^7, no pivot vanishes, the rows of the matrix are perturbed by at most 9 gamma_7 times the diagonal entry, and the result is the one of exact arithmetic up to 9 gamma_7 max|x| / (1 - ratio); for tdma the factor is 4 gamma_5.", "quantifier": "every rounding with 7u < 1, every size, every set of diagonals and right-hand side", "why_tests_cant": "The growth of rounding errors over an elimination of unbounded length cannot be observed on samples; a bound needs an induction over the rows.", "anchors": [{"file": "src/chebyshev/linalg/pdma.rs", "symbols": ["pdma"]}, {"file": "src/chebyshev/linalg/pdma2.rs", "symbols": ["pdma2"]}, {"file": "src/chebyshev/linalg/tdma.rs", "symbols": ["tdma"]}]}
{"id": "C94", "title": "Rounding errors of the mixed basis", "statement": "In arithmetic with rounding (relative error u per operation, also in the coefficients of the basis) the Chebyshev basis with a Dirichlet condition at one end and a Neumann condition at the other can be constructed for every size n >= 4, and for all data v: to_ortho(v) differs from the result of exact arithmetic by at most 3 gamma_16 max|v|, the d-th gradient by at most 3 gamma_(16+d(n/2+6)) (n^2/2)^d max|v|, and backward, for a cosine transform of relative accuracy eta, by at most 6 n ((1+eta)(1+gamma_19)-1) max|v|. If moreover 27 n^3 gamma_36 <= 1 and n >= 6, from_ortho of the mixed basis returns (it never meets a zero pivot), its result differs from that of exact arithmetic by at most n^3 (27 gamma_36 max|y| + 3 gamma_16 max|u|) with y the exact coefficients, from_ortho(to_ortho(v)) differs from v by at most 36 n^3 gamma_36 max|v|, and forward differs by at most n^3 (27 gamma_36 max|y| + 8((1+eta)(1+gamma_24)-1) max|v|).", "quantifier": "all sizes n >= 4, all coefficient vectors, all derivative orders, all roundings with (16+d(n/2+6))u < 1", "why_tests_cant": "Error bounds that hold for all data and sizes cannot be sampled; the coefficients of this basis are themselves computed with cancellation, -k^2+(k+2)^2.", "anchors": [{"file": "src/chebyshev/stencils.rs", "symbols": []}, {"file": "src/chebyshev/compo.rs", "symbols": []}, {"file": "src/chebyshev/ortho.rs", "symbols": []}, {"file": "src/chebyshev/linalg/pdma.rs", "symbols": []}]}
{"id": "C95", "title": "Complex data are processed part by part", "statement": "to_ortho, from_ortho and gradient of every Chebyshev base (slices, arrays along any axis, the parallel and the in-place versions, and the spaces of dimension 1, 2 and 3 built from such bases, with or without scaling) and the banded solvers commute with every map of the data that respects 0, +, -, and the product and quotient with a number: taking the real part, the imaginary part, the conjugate, multiplying by a complex constant. In particular the operator applied to complex data returns exactly when it returns for the real and for the imaginary parts, fails in the same way otherwise, and its result has the results for the parts as its parts; for data without imaginary part it is the result of the real operator. This holds in any arithmetic, bit for bit in floating point (with the products and quotients of a complex and a real number taken part by part).", "quantifier": "all bases (of any diagonals), all arrays, axes, lengths (also wrong ones), derivative orders, scales, schedules, all arithmetics", "why_tests_cant": "The tests exercise the operators on real data only; that the generic code treats complex data consistently is a statement about all data, including those on which it panics.", "anchors": [{"file": "src/chebyshev/compo.rs", "symbols": []}, {"file": "src/chebyshev/ortho.rs", "symbols": []}, {"file": "src/chebyshev/stencils.rs", "symbols": []}, {"file": "src/chebyshev/linalg/tdma.rs", "symbols": []}, {"file": "src/chebyshev/linalg/pdma.rs", "symbols": []}, {"file": "src/chebyshev/linalg/pdma2.rs", "symbols": []}, {"file": "src/space/space1.rs", "symbols": []}, {"file": "src/space/space2.rs", "symbols": []}, {"file": "src/space/space3.rs", "symbols": []}, {"file": "src/traits.rs", "symbols": []}, {"file": "src/internal_macros.rs", "symbols": []}]}
{"id": "C96", "title": "Rounding errors of transforms and coefficient operators on arrays and spaces", "statement": "In floating-point arithmetic (any arithmetic with relative errors at most u, conversions of the integers up to n exact, transforms with relative error eta in the 2-norm) forward, backward, to_ortho and from_ortho, serial or parallel under any schedule, of chebyshev, cheb_dirichlet, cheb_neumann, cheb_dirichlet_neumann (real or complex data), fourier_c2c and fourier_r2c, and of every Space1, Space2 or Space3 built from them, return, and on data that differ by at most delta from exact data bounded by X every entry of the result differs from the exact result by at most err*(X+delta) + gain*delta, with explicit gain and err depending only on the sizes, u and eta. The same for gradient, with or without scale (if powi is accurate up to d roundings), on slices, arrays, Space1 and Space2. For example forward of fourier_r2c(64) x cheb_dirichlet(33) in double precision, on values bounded by 1, is accurate to 1e-6, backward to 1e-12.", "quantifier": "all sizes (of at least the minimal size of the basis), all data, all axes, schedules, roundings, and all errors of the data", "why_tests_cant": "The error bound is over all data and all sizes; a test compares one array with a few digits.", "anchors": [{"file": "src/chebyshev/compo.rs", "symbols": []}, {"file": "src/chebyshev/ortho.rs", "symbols": []}, {"file": "src/chebyshev/stencils.rs", "symbols": []}, {"file": "src/chebyshev/linalg/tdma.rs", "symbols": []}, {"file": "src/chebyshev/linalg/pdma2.rs", "symbols": []}, {"file": "src/fourier/c2c.rs", "symbols": []}, {"file": "src/fourier/r2c.rs", "symbols": []}, {"file": "src/space/space1.rs", "symbols": []}, {"file": "src/space/space2.rs", "symbols": []}, {"file": "src/space/space3.rs", "symbols": []}, {"file": "src/internal_macros.rs", "symbols": []}]}
{"id": "C97", "title": "Total error of numerical differentiation in spaces, with Dirichlet and Fourier axes", "statement": "Sample a smooth function f, with errors of at most eps, on the grid of a two-dimensional space with axes chebyshev or cheb_dirichlet (f vanishing at the ends of this axis), the first axis possibly fourier_r2c. In arithmetic with rounding, with transforms of relative accuracy eta, forward, gradient of any orders, with or without scales, and backward of the space with the orthogonal bases return (also the parallel versions, under any schedules) the mixed partial derivative of f, divided by the powers of the scales, at every grid point up to twice the (scaled) tail of the series of f over the modes the grid does not resolve plus err*(F+eps) + gain*eps, F a bound of f, with explicit gain and err. The same on one axis for cheb_dirichlet and fourier_r2c. For example the mixed derivative of cos(x)(1-y^2) sampled in double precision on fourier_r2c(32) x cheb_dirichlet(17) is computed to 1e-5.", "quantifier": "all smooth functions, all sizes, derivative orders, sampling errors, roundings and schedules", "why_tests_cant": "The bound is over all functions, sizes and roundings; tests compare single derivatives of single functions.", "anchors": [{"file": "src/chebyshev/compo.rs", "symbols": []}, {"file": "src/chebyshev/ortho.rs", "symbols": []}, {"file": "src/chebyshev/linalg/tdma.rs", "symbols": []}, {"file": "src/fourier/r2c.rs", "symbols": []}, {"file": "src/space/space2.rs", "symbols": []}, {"file": "src/space/traits.rs", "symbols": []}, {"file": "src/internal_macros.rs", "symbols": []}]}
{"id": "C98", "title": "Spectral accuracy of the composite bases under their boundary conditions", "statement": "Sample a smooth function that satisfies the boundary conditions of a composite base (Dirichlet, Neumann, mixed, or one of the two biharmonic pairs) on the grid of the base, and apply forward. The coefficients describe a combination of the functions of the base that approximates the function with each of its derivatives everywhere on [-1,1]: the error is at most twice the tail (from n on) of the Chebyshev series of the function weighted by k^(2d), plus 6 sqrt(n) n^(2d) times the tail with the weight of the highest derivative in the boundary conditions. For the Dirichlet, Neumann and mixed bases, gradient followed by backward of chebyshev(n) returns these derivatives on the grid; in rounded arithmetic with inexact samples the rounding bound of C96/C97 is added. In two dimensions (any two real-to-real bases whose gradient runs, or fourier_r2c with such a base) forward, gradient and backward of the Chebyshev space return the mixed derivative of a function that satisfies the boundary conditions on each line, with an analogous bound.", "quantifier": "all five composite kinds, all sizes on which from_ortho runs, all orders d, all functions with a Chebyshev series summable with the required weight that satisfy the boundary conditions, all output buffers; total error: all roundings, transform errors and sample errors; two dimensions: all pairs of bases and sizes, all orders and scales", "why_tests_cant": "Tests compare a few functions on one grid; the claim is about every smooth function and every size, and about all points between the grid points.", "anchors": [{"file": "src/chebyshev/compo.rs", "symbols": ["forward_slice", "gradient_slice", "from_ortho_slice"]}, {"file": "src/chebyshev/stencils.rs", "symbols": []}, {"file": "src/chebyshev/ortho.rs", "symbols": ["forward_slice", "backward_slice"]}, {"file": "src/space/space2.rs", "symbols": ["forward", "gradient", "backward"]}]}
{"id": "C99", "title": "Communication on large arrays: i32 overflow never moves data wrongly", "statement": "The counts and displacements handed to MPI are i32. In a release build they are always returned and are the exact numbers modulo 2^32; in a debug build a displacement that leaves i32 (or the sum of all counts, which is not needed) panics, a count that does not fit is truncated silently. Whatever the build, no collective routine moves data with wrong counts: if a pencil of any rank has 2^31 points or more, both transposes panic on that rank before anything is sent and no rank ever returns from them, in any interleaving; if the grid has 2^31 points or more, all-gather panics on every rank, the root's gather and scatter routines panic before anything is sent, and no rank returns from a scatter. (Below the limits the routines are right: C44-C46.)", "quantifier": "all grids of at most 2^64 - 1 points with at least one point per rank in both directions, all numbers of ranks, both build modes, all arrays, all interleavings; the release counts of gather for any distribution at all", "why_tests_cant": "The limits are arrays of 16 GB and more; a test can neither allocate them nor see all interleavings.", "anchors": [{"file": "src/space_mpi/decomp2d/distribute.rs", "symbols": ["get_counts_all_gather", "get_counts_all_to_all"]}, {"file": "src/space_mpi/decomp2d/mod.rs", "symbols": ["transpose_x_to_y", "transpose_y_to_x", "gather_x_inplace_root", "scatter_x_inplace_root", "all_gather_x"]}]}
{"id": "C100", "title": "Repeated round trips: errors add up, they are not amplified", "statement": "In arithmetic with rounding, for any history of k round trips (forward then backward on grid values, backward then forward on coefficients, to_ortho then from_ortho; each call serial, parallel under any schedule, or into an array of the caller, in any order), every call returns and the data have changed by at most ((1+eps)^k - 1) times their maximum, where eps is the error of a single round trip, hence by at most 2 k eps times the maximum as long as k eps <= 1. Where a round trip is a projection (boundary conditions), the result of any k >= 1 round trips stays within ((1+L eps)^k - 1) L times the maximum of the exact projection of the data, L being the gain of one round trip: gains do not multiply from trip to trip.", "quantifier": "all histories (number, order and kind of calls), all schedules, all roundings with small unit, all transforms with relative error eta, all shapes, all data; spaces of one, two and three dimensions", "why_tests_cant": "A test runs one or a few round trips on one array; growth over long histories and all mixtures of serial and parallel calls can not be sampled.", "anchors": [{"file": "src/space/space1.rs", "symbols": ["forward", "backward", "to_ortho", "from_ortho"]}, {"file": "src/space/space2.rs", "symbols": ["forward", "backward", "forward_par", "backward_par", "to_ortho", "from_ortho"]}, {"file": "src/space/space3.rs", "symbols": ["forward", "backward", "to_ortho", "from_ortho"]}]}
{"id": "C101", "title": "Crashes: a rank that dies never makes another rank return wrong data", "statement": "Let any ranks of a distributed program stop at any moment: in the middle of a transpose, gather, scatter or transform, or between calls, with the last of their undelivered messages lost or not. No other rank then panics, takes a message for another one, or returns a wrong result: every rank that still returns holds exactly its part of the result of the serial program; the others wait. Ranks can be left waiting only if some rank has stopped.", "quantifier": "all sequences of calls (C65), all sets of ranks that stop, all moments at which they stop, all losses of their last messages, all interleavings, all numbers of ranks; any arithmetic", "why_tests_cant": "All crash points times all interleavings; a test can not even stop a rank inside of a collective operation.", "anchors": [{"file": "src/space_mpi/space2.rs", "symbols": ["forward_mpi", "backward_mpi", "to_ortho_mpi", "from_ortho_mpi", "gradient_mpi"]}, {"file": "src/space_mpi/decomp2d/mod.rs", "symbols": ["transpose_x_to_y", "transpose_y_to_x", "gather_x_inplace_root", "scatter_x_inplace_root", "all_gather_x"]}, {"file": "src/space_mpi/decomp2d/functions.rs", "symbols": ["broadcast_scalar", "gather_sum", "all_gather_sum"]}]}
{"id": "C102", "title": "Solving Poisson and Helmholtz problems with the matrices is well posed, exact and quasi-optimal", "statement": "Let S = stencil() and (P, I) = laplacian_pinv() of a base with boundary conditions, and let v solve the preconditioned system beta (I P S) v - c (I S) v = (I P) f of examples/field.rs for any right hand side f. Then u = S v satisfies the boundary conditions and beta u - c u'' = f up to multiples of the two highest Chebyshev polynomials of the orthogonal base, and conversely. For cheb_dirichlet and cheb_dirichlet_neumann (beta, c >= 0, not both zero) and cheb_neumann (beta > 0, c >= 0) the system has exactly one solution for every f; it returns every polynomial solution of the differential equation exactly. For cheb_dirichlet the solution depends on f stably with a constant that does not depend on n, |u| <= pi / (sqrt 8 c) max |f|, and its distance to the solution of the differential equation is at most a constant (independent of n) times the best approximation by functions of the base.", "quantifier": "all sizes n up to the largest one of _dmat (C07), all right hand sides, all beta and c in the stated ranges, both overflow modes; tau form for all five bases", "why_tests_cant": "Solvability and stability range over all sizes, all parameters and all right hand sides.", "anchors": [{"file": "src/chebyshev/ortho.rs", "symbols": ["laplacian_pinv", "_pinv", "_pinv_eye"]}, {"file": "src/chebyshev/compo.rs", "symbols": ["stencil", "laplacian_pinv"]}, {"file": "src/chebyshev/stencils.rs", "symbols": ["dirichlet", "neumann"]}, {"file": "examples/field.rs", "symbols": ["ingredients_for_hholtz", "ingredients_for_poisson"]}]}
{"id": "C103", "title": "The matrices are accurate in floating-point arithmetic", "statement": "The matrices returned by diffmat, laplacian, diffmat_pinv, laplacian_pinv and stencil are computed in floating point with a small relative error of every entry, independent of the size: at most six roundings for diffmat, five for diffmat_pinv, 24 for stencil of cheb_dirichlet, cheb_neumann and the biharmonic bases (13 roundings in absolute terms for cheb_dirichlet_neumann), 11 n for stencil_inv of cheb_dirichlet and cheb_neumann; a method returns in floating point exactly when it does in exact arithmetic. In a binary arithmetic the entries of diffmat(1..3) are correctly rounded and, as long as they fit into the significand (laplacian of 100000 points in f64), exact. Differentiating any polynomial with the computed matrix is off by at most gamma_6 sum |a_j| T_j^(k)(1) on [-1, 1].", "quantifier": "all sizes, derivative orders, overflow modes, base kinds, all roundings with unit roundoff u (24 u < 1), all coefficient vectors and points", "why_tests_cant": "The bound holds for every size, every entry and every rounding; a test compares a few entries at one size with a tolerance.", "anchors": [{"file": "src/chebyshev/ortho.rs", "symbols": ["_dmat", "_pinv", "_pinv_eye", "diffmat", "diffmat_pinv", "laplacian", "laplacian_pinv"]}, {"file": "src/chebyshev/stencils.rs", "symbols": ["to_array", "pinv"]}, {"file": "src/chebyshev/compo.rs", "symbols": ["stencil", "stencil_inv", "diffmat", "diffmat_pinv"]}]}
{"id": "C104", "title": "The two-dimensional Poisson problem assembled from the matrices of a space is well posed and exact", "statement": "Let S, (P, I) be stencil() and laplacian_pinv() of the base of one axis and S', (P', I') those of the other, A = I P S, B = I S (the products ingredients_for_poisson forms). V solves beta A V A'^T - c (A V B'^T + B V A'^T) = (I P) F (I' P')^T exactly when the function u with coefficients V satisfies beta u - c Laplace(u) = f up to products of Chebyshev polynomials of which one factor has one of the two highest degrees. For cheb_dirichlet x cheb_dirichlet, if c is not 0 and beta is 0 or has the sign of c (Poisson's equation Laplace(u) = f is beta = 0, c = -1), the system has exactly one solution for every F and any two sizes, u vanishes on the whole boundary, every function of the space with beta u - c Laplace(u) = f is returned exactly, and for beta, c >= 0 the weighted mean square of the resolved coefficients satisfies beta |u| <= |f| for all sizes. On fourier_r2c or fourier_c2c x cheb_dirichlet or cheb_dirichlet_neumann the Poisson system also has exactly one solution for every complex right hand side.", "quantifier": "all sizes of the two axes up to the largest one of _dmat (C07), all right hand sides, both overflow modes; tau form for all pairs of the five composite bases and all beta, c", "why_tests_cant": "Unique solvability ranges over all sizes of both axes and all right hand sides; a test inverts one matrix.", "anchors": [{"file": "src/chebyshev/ortho.rs", "symbols": ["laplacian_pinv", "_pinv", "_pinv_eye"]}, {"file": "src/chebyshev/compo.rs", "symbols": ["stencil", "laplacian_pinv"]}, {"file": "src/fourier/r2c.rs", "symbols": ["laplacian", "stencil"]}, {"file": "src/fourier/c2c.rs", "symbols": ["laplacian", "stencil"]}, {"file": "examples/field.rs", "symbols": ["ingredients_for_poisson", "ingredients_for_hholtz"]}]}
{"id": "C105", "title": "A field of one, two or three dimensions behaves the same through every history", "statement": "FieldBase<.., N> of examples/field.rs is generic in the space. For a one-, two- or three-dimensional space: new gives a zero field with the shapes, grids and grid deltas of the space and ndim = N; any sequence of assignments to v and vhat, forward, backward and from_ortho succeeds, keeps shapes, space, grid, deltas and ndim, gives the arrays that the serial methods of the space give, and does not depend on the schedules of the parallel passes; to_ortho and gradient return what the serial methods return; over Chebyshev and Fourier bases forward then backward restores v. The matrices of ingredients_for_hholtz and ingredients_for_poisson are the identity and the Laplacian for Fourier axes, and are never produced for Chebyshev-type axes.", "quantifier": "all one-, two- and three-dimensional spaces over bases that run, all contents of the arrays, all histories of calls, all fair schedules", "why_tests_cant": "Histories and schedules are unbounded, and the example only instantiates N = 2.", "anchors": [{"file": "examples/field.rs", "symbols": ["FieldBase", "Field1", "Field2", "get_dx", "ingredients_for_hholtz", "ingredients_for_poisson"]}, {"file": "src/space/traits.rs", "symbols": ["BaseSpace", "BaseSpaceTransform", "BaseSpaceGradient"]}]}
{"id": "C106", "title": "Implicit time stepping with the matrices of the bases runs for ever, is stable and converges", "statement": "A user who integrates the heat equation du/dt = nu Lap u + g, u = 0 on the boundary, by implicit Euler steps with the matrices of cheb_dirichlet (stencil, laplacian_pinv; one or two dimensions, or one dimension next to a periodic fourier_r2c or fourier_c2c direction) can continue for ever in exactly one way, whatever dt > 0 and nu > 0; without source no number of steps of whatever length amplifies the solution (weighted mean square of the resolved Chebyshev coefficients, constant 1); and with a constant source the coefficients and the function converge to the solution of the steady problem -nu Lap u = g from every initial function.", "quantifier": "all sizes up to 2642246, all nu, dt > 0, all sources and initial functions, all numbers of steps, one and two dimensions, Fourier x Chebyshev included", "why_tests_cant": "Stability and convergence are statements about infinitely many steps, for all step lengths and sizes.", "anchors": [{"file": "src/chebyshev/compo.rs", "symbols": ["laplacian_pinv", "stencil", "to_ortho"]}, {"file": "src/chebyshev/linalg.rs", "symbols": ["_pinv"]}, {"file": "src/chebyshev/stencils.rs", "symbols": ["dirichlet"]}, {"file": "examples/field.rs", "symbols": ["ingredients_for_hholtz"]}, {"file": "src/fourier/r2c.rs", "symbols": ["laplacian", "stencil"]}, {"file": "src/fourier/c2c.rs", "symbols": ["laplacian", "stencil"]}]}
{"id": "C107", "title": "Changing the resolution changes nothing, and products on a fine enough grid are exact (3/2 rule)", "statement": "A user who moves coefficients to a base with more points (zero padding; for the Fourier bases frequency by frequency, rescaled by the numbers of points) gets the same function: backward on the finer grid samples that very function and, for Chebyshev, the derivatives agree too. If two functions with n coefficients are multiplied point by point on the grid of m points and transformed forward, the first n coefficients are exactly those of the product, with no aliasing, whenever 3(n-1) < 2(m-1) for Chebyshev, 3n <= 2m+1 for the complex and 3 floor(n/2) < m for the real Fourier base (the 3/2 rule); with m >= 2n-1 Chebyshev points the whole product is exact. For Chebyshev and complex Fourier the condition is sharp: if it fails some product is returned wrongly. The composite bases cheb_dirichlet, cheb_neumann and cheb_dirichlet_neumann refine in the same way (to_ortho, from_ortho and backward agree with the coarse base), and products of two of their functions on a base of the same kind with m >= 2n-1 points are exact, boundary conditions included. In two dimensions (Chebyshev or composite in both directions, and real Fourier x Chebyshev) the pseudo-spectral evaluation of a product of derivatives - forward, gradient, backward, multiply, forward - is exact when the sizes exceed the sums of the degrees (twice the sum of the frequencies).", "quantifier": "all sizes of the coarse and fine bases, all pairs of functions, all coefficients in the stated range", "why_tests_cant": "The absence of aliasing must hold for all pairs of functions, sizes and coefficients.", "anchors": [{"file": "src/chebyshev/ortho.rs", "symbols": ["forward_slice", "backward_slice", "nodes"]}, {"file": "src/fourier/c2c.rs", "symbols": ["forward_slice", "backward_slice"]}, {"file": "src/fourier/r2c.rs", "symbols": ["forward_slice", "backward_slice"]}, {"file": "src/chebyshev/compo.rs", "symbols": ["forward_slice", "backward_slice", "to_ortho_slice", "from_ortho_slice"]}, {"file": "src/space/space2.rs", "symbols": ["forward", "backward", "gradient"]}]}
{"id": "C108", "title": "The transforms of spaces of one, two and three dimensions preserve the energy (Parseval)", "statement": "For spaces made of the orthogonal bases (chebyshev, fourier_r2c, fourier_c2c, in every combination the library offers) the weighted sum of the squares of the grid data equals the weighted sum of the squared moduli of the coefficients returned by forward: the weights are the products of those of the directions - grid: 1/2 at the two ends of a Chebyshev grid, 1 otherwise; modes: (n-1)/2, twice that for the first and last, for Chebyshev; 1/n for the mean and the Nyquist mode and 2/n otherwise for real Fourier; 1/n for complex Fourier.", "quantifier": "all sizes, all grid data, all combinations of bases in one, two and three dimensions", "why_tests_cant": "The identity must hold for all data and all sizes.", "anchors": [{"file": "src/space/space1.rs", "symbols": ["forward"]}, {"file": "src/space/space2.rs", "symbols": ["forward", "impl_space2"]}, {"file": "src/space/space3.rs", "symbols": ["forward"]}, {"file": "src/chebyshev/ortho.rs", "symbols": ["forward_slice"]}, {"file": "src/fourier/r2c.rs", "symbols": ["forward_slice"]}, {"file": "src/fourier/c2c.rs", "symbols": ["forward_slice"]}]}
{"id": "C109", "title": "Working in a space is working in the space of its orthogonal bases; derivatives compose and commute", "statement": "For every space and the space with the same grids made of chebyshev (and the same Fourier) bases: forward is the orthogonal forward followed by from_ortho, backward is to_ortho followed by the orthogonal backward, gradient of any orders is to_ortho followed by the orthogonal gradient, and a gradient followed by the orthogonal gradient is the gradient of the sums of the orders, with the same scale; so mixed derivatives do not depend on the order in which they are taken.", "quantifier": "all combinations of bases and sizes in one and two dimensions, all arrays, all derivative orders, all scales different from zero; three dimensions: all transforms, derivatives where the second and third bases are equal (C40)", "why_tests_cant": "The identities must hold for all arrays, orders and combinations of bases.", "anchors": [{"file": "src/space/space1.rs", "symbols": ["forward", "backward", "to_ortho", "from_ortho", "gradient"]}, {"file": "src/space/space2.rs", "symbols": ["forward", "backward", "to_ortho", "from_ortho", "gradient"]}, {"file": "src/space/space3.rs", "symbols": ["forward", "backward", "to_ortho", "from_ortho", "gradient"]}, {"file": "src/chebyshev/compo.rs", "symbols": ["forward_slice", "backward_slice", "gradient_slice"]}]}
{"id": "C110", "title": "Spaces act on products of functions factor by factor", "statement": "If the data are a sum of products of functions of one variable each (every array is such a sum), then forward, backward, to_ortho, from_ortho and gradient of a space return the sum of the products of what the same operation of the base of each axis returns for the factors, divided by the scales in the case of gradient. In three dimensions the derivative along the third axis is that of the second base (C40).", "quantifier": "all kinds of two- and three-dimensional spaces, all sizes, all numbers of summands, all factors, all derivative orders and scales different from zero", "why_tests_cant": "Must hold for all factors, sizes and kinds of spaces.", "anchors": [{"file": "src/space/space2.rs", "symbols": ["forward", "backward", "to_ortho", "from_ortho", "gradient"]}, {"file": "src/space/space3.rs", "symbols": ["forward", "backward", "to_ortho", "from_ortho", "gradient"]}]}
{"id": "C111", "title": "Exchanging the axes of a space exchanges the axes of its results", "statement": "A space with the same bases in another order gives the same results with the axes of the arrays exchanged: for two-dimensional spaces of two real-to-real or two fourier_c2c bases, forward, backward, to_ortho, from_ortho and gradient (with the orders and scales exchanged) of the transposed array in the space with exchanged bases return the transposed result. In three dimensions the same holds of forward, backward, to_ortho and from_ortho for the exchange of the first two and of the last two axes, hence for every order of the axes, and of gradient in spaces of three equal bases (it does not hold of gradient in general, C40).", "quantifier": "all bases and sizes, all arrays, all derivative orders and scales", "why_tests_cant": "a test compares a few arrays, usually of equal sizes in all directions, where a mixed-up axis index is invisible; the claim is for all sizes and all data", "anchors": [{"file": "src/space/space2.rs", "symbols": ["Space2::forward", "Space2::backward", "Space2::to_ortho", "Space2::from_ortho", "Space2::gradient"]}, {"file": "src/space/space3.rs", "symbols": ["Space3::forward", "Space3::backward", "Space3::to_ortho", "Space3::from_ortho", "Space3::gradient"]}]}
{"id": "C112", "title": "Summation by parts on the periodic grid", "statement": "Differentiating real grid data on a fourier_r2c base by forward, gradient of order d and backward satisfies the discrete integration by parts exactly: the inner product of y with the d-th derivative of x is (-1)^d times that of x with the d-th derivative of y, for all grid data x, y. Derivatives have mean zero, data are orthogonal to their odd derivatives, and the derivative of order 2m with the sign (-1)^m takes at least the energy of the deviation from the mean and at most (n/2)^(2m) times the energy. In spaces of fourier_r2c and chebyshev, gradient along the periodic axis does this in every column, with the factor of the scale.", "quantifier": "all sizes n, all grid data (smooth or not, resolved or not), all derivative orders, all scales", "why_tests_cant": "energy conservation and stability of a time stepping scheme rest on the identity for whatever data the computation produces; a test differentiates a few smooth functions, for which the Nyquist mode, the sign and the double counting of the inner modes do not matter", "anchors": [{"file": "src/fourier/r2c.rs", "symbols": ["FourierR2c::forward_slice", "FourierR2c::gradient_slice", "FourierR2c::backward_slice"]}, {"file": "src/space/space2.rs", "symbols": ["Space2::gradient"]}]}
{"id": "C113", "title": "Nonlinear terms: product rule and conservation on a fine enough grid", "statement": "Let the coefficients of grid data x and y vanish beyond the indices M and N. On fourier_r2c with 2(M+N) < n, and on chebyshev with M+N < n, the derivative of any order that the library computes of the pointwise product is the Leibniz sum of the products of the derivatives it computes of the factors: advective, conservative and skew-symmetric forms of a nonlinear term agree on the grid. On fourier_r2c with (p+1)M < n the sum of x^p times the derivative of x over the grid is zero, and with 3M < n the data are orthogonal to the derivative of their square (the 2/3 rule: the nonlinear term of the Burgers equation conserves the energy); with n = 3M this fails for some data.", "quantifier": "all sizes, bands, derivative orders and powers, all band-limited data", "why_tests_cant": "the identities hold exactly up to a sharp bound on the band and fail beyond it; a test multiplies a few smooth functions far below the bound", "anchors": [{"file": "src/fourier/r2c.rs", "symbols": ["FourierR2c::forward_slice", "FourierR2c::gradient_slice", "FourierR2c::backward_slice"]}, {"file": "src/chebyshev/ortho.rs", "symbols": ["Chebyshev::forward_slice", "Chebyshev::gradient_slice", "Chebyshev::backward_slice"]}]}
{"id": "C114", "title": "Time stepping on the periodic grid", "statement": "Let grid data on fourier_r2c(n) be advanced with the derivatives the library computes (forward, gradient, backward). Explicit Euler for diffusion of order 2m with step dt runs for ever from all data and multiplies the coefficient of the mode k with 1 - dt k^(2m) in every step; the mean is conserved. If dt floor(n/2)^(2m) <= 2 the energy (sum of squares) never grows; if < 2 the data converge to their mean; if > 2 the energy grows beyond all bounds unless the coefficient of the highest mode is exactly zero. For waves (derivatives of odd order) explicit Euler increases the energy by dt^2 times the energy of the derivative, at every dt; the leapfrog scheme conserves the sum of products of consecutive data for ever; the implicit midpoint rule always has a solution and conserves the energy exactly, at every dt.", "quantifier": "all sizes n >= 1, orders, step lengths, initial data and numbers of steps", "why_tests_cant": "stability is a statement about infinitely many steps and about all data; below the sharp limit every history is bounded and above it almost every one grows, which a run of finitely many steps from one initial state cannot tell", "anchors": [{"file": "src/fourier/r2c.rs", "symbols": ["FourierR2c::forward_slice", "FourierR2c::gradient_slice", "FourierR2c::backward_slice"]}]}
{"id": "C115", "title": "Convolution theorems", "statement": "For all data, resolved or not: forward of the pointwise product of grid data is, on fourier_c2c(n), the circular convolution of their coefficients divided by n; on fourier_r2c(n) the same with the conjugate halves of the spectra, which the library does not store; on chebyshev(n) the sum over all pairs of degrees i, j of half the product of the coefficients, at |i-j| and at i+j reflected at n-1. Conversely, multiplying the coefficients of Fourier data (filtering) and transforming backward gives the circular convolution of the grid data, and multiplying with the conjugate coefficients gives their circular correlation: the power spectrum is the transform of the autocorrelation.", "quantifier": "all sizes, all data, all contents of the output buffers", "why_tests_cant": "a quadratic identity between all coefficients of all data; tests with smooth functions never see the wrap-around terms", "anchors": [{"file": "src/fourier/c2c.rs", "symbols": ["FourierC2c::forward_slice", "FourierC2c::backward_slice"]}, {"file": "src/fourier/r2c.rs", "symbols": ["FourierR2c::forward_slice", "FourierR2c::backward_slice"]}, {"file": "src/chebyshev/ortho.rs", "symbols": ["Chebyshev::forward_slice"]}]}
{"id": "C116", "title": "Convergence for all smooth functions, with rates", "statement": "For every function with enough continuous derivatives there is a constant C such that on grids of every size n: forward, gradient of order d and backward on fourier_r2c(n) compute the d-th derivative of a 2 pi-periodic function with p >= d+2 continuous derivatives up to C/n^(p-d-1), at the grid points and everywhere; the interpolant of a complex periodic function on fourier_c2c(n) is within C/n^(p-1); on chebyshev(n) the d-th derivative of a function with p >= 2d+2 continuous derivatives on [-1,1] has an error of at most C/n^(p-2d-1); on the Dirichlet, Neumann and Dirichlet-Neumann bases (functions that satisfy the boundary conditions) at most C sqrt(n) n^(2d+2o+1)/n^p, o the order of the conditions.", "quantifier": "all functions with the stated smoothness, all sizes, all orders of derivative, all points", "why_tests_cant": "a rate of convergence concerns all functions of a class and all sizes; tests look at a few functions on a few grids", "anchors": [{"file": "src/fourier/r2c.rs", "symbols": ["FourierR2c::forward_slice", "FourierR2c::gradient_slice", "FourierR2c::backward_slice"]}, {"file": "src/fourier/c2c.rs", "symbols": ["FourierC2c::forward_slice"]}, {"file": "src/chebyshev/ortho.rs", "symbols": ["Chebyshev::forward_slice", "Chebyshev::gradient_slice", "Chebyshev::backward_slice"]}, {"file": "src/chebyshev/compo.rs", "symbols": ["ChebyshevComposite::forward_slice", "ChebyshevComposite::gradient_slice"]}]}
{"id": "C117", "title": "The Helmholtz solver converges with a rate", "statement": "Let Y be any function with p >= 6 continuous derivatives on [-1,1] that vanishes at both ends and F = beta Y - c Y'' (beta >= 0, c > 0; Poisson: beta = 0). On a grid of any size n transform the samples of F with the Chebyshev base, solve the cheb_dirichlet system formed from stencil() and laplacian_pinv(), and transform backward: the solution exists, is unique and differs from Y, at the grid points and everywhere between, by at most K/n^(p-5), with one constant K for all sizes.", "quantifier": "all smooth solutions Y, all coefficients beta >= 0 and c > 0, all sizes, all points, debug and release mode", "why_tests_cant": "a rate of convergence concerns all right hand sides and all sizes", "anchors": [{"file": "src/chebyshev/compo.rs", "symbols": ["ChebyshevComposite::stencil", "ChebyshevComposite::laplacian_pinv", "ChebyshevComposite::backward_slice"]}, {"file": "src/chebyshev/ortho.rs", "symbols": ["Chebyshev::forward_slice"]}, {"file": "examples/field.rs", "symbols": ["ingredients_for_hholtz"]}]}
{"id": "C118", "title": "The heat equation solver converges in space and time", "statement": "Let Y be any solution of the heat equation dY/dt = nu d2Y/dx2 + g on [0,T] x [-1,1], Y = 0 at both ends, with p >= 6 continuous derivatives. A user who transforms the samples of Y(0,.) with cheb_dirichlet and makes implicit Euler steps of any length dt with the matrices of the base (stencil, laplacian_pinv), transforming the samples of the source g for every step, has exactly one run, and at every step up to time T the coefficients differ from those of Y (weighted mean square of the resolved ones) by at most K (dt + 1/n^(p-5)); the function and the grid values that backward returns differ from Y by at most sqrt(n) times that. K depends neither on the size n nor on dt nor on the number of steps.", "quantifier": "all smooth solutions, sources and viscosities, all sizes, all step lengths, all numbers of steps up to time T, all points, debug and release mode", "why_tests_cant": "convergence of the whole method is a statement about all resolutions and step lengths at once", "anchors": [{"file": "src/chebyshev/compo.rs", "symbols": ["ChebyshevComposite::stencil", "ChebyshevComposite::laplacian_pinv", "ChebyshevComposite::forward_slice", "ChebyshevComposite::backward_slice"]}, {"file": "src/chebyshev/ortho.rs", "symbols": ["Chebyshev::forward_slice"]}, {"file": "examples/field.rs", "symbols": ["ingredients_for_hholtz"]}]}
{"id": "C119", "title": "The two-dimensional Poisson and Helmholtz solver converges with a rate for every smooth solution", "statement": "Let Y have p >= 6 continuous derivatives and vanish on the boundary of the square, and let F = beta Y - c Laplace(Y) with beta >= 0, c > 0 (Poisson: beta = 0). Transforming the samples of F with the chebyshev x chebyshev space, solving the system built from stencil and laplacian_pinv of cheb_dirichlet x cheb_dirichlet, and transforming backward gives, for all sizes, exactly one solution; as a function on the whole square and as the grid values that backward returns it differs from Y by at most K sqrt(n n') (1/n^(p-5) + 1/n'^(p-5)), with one constant K for all sizes.", "quantifier": "all smooth functions Y, all beta >= 0 and c > 0, all pairs of sizes, all points of the square, debug and release mode", "why_tests_cant": "a convergence rate is a statement about all resolutions at once", "anchors": [{"file": "src/space/space2.rs", "symbols": ["Space2"]}, {"file": "src/chebyshev/compo.rs", "symbols": ["ChebyshevComposite::stencil", "ChebyshevComposite::laplacian_pinv", "ChebyshevComposite::backward_slice"]}, {"file": "src/chebyshev/ortho.rs", "symbols": ["Chebyshev::forward_slice"]}, {"file": "examples/field.rs", "symbols": ["ingredients_for_poisson"]}]}
{"id": "C120", "title": "The two-dimensional heat equation solver converges in space and time", "statement": "Let Y be any solution of dY/dt = nu Laplace(Y) + g on [0,T] x [-1,1]^2, Y = 0 on the boundary of the square, with p >= 6 continuous derivatives. A user who transforms the samples of Y(0,.,.) with cheb_dirichlet x cheb_dirichlet and makes implicit Euler steps of any length dt with the matrices of the two bases (stencil, laplacian_pinv), transforming the samples of the source for every step, has exactly one run, and at every step up to time T the function, at every point of the square, and the grid values that backward returns differ from Y by at most K sqrt(n n') (dt + 1/n^(p-5) + 1/n'^(p-5)). K depends neither on the sizes nor on dt nor on the number of steps.", "quantifier": "all smooth solutions, sources and viscosities, all pairs of sizes, all step lengths, all numbers of steps up to time T, all points of the square, debug and release mode", "why_tests_cant": "convergence of the whole method is a statement about all resolutions and step lengths at once", "anchors": [{"file": "src/space/space2.rs", "symbols": ["Space2"]}, {"file": "src/chebyshev/compo.rs", "symbols": ["ChebyshevComposite::stencil", "ChebyshevComposite::laplacian_pinv", "ChebyshevComposite::forward_slice", "ChebyshevComposite::backward_slice"]}, {"file": "src/chebyshev/ortho.rs", "symbols": ["Chebyshev::forward_slice"]}, {"file": "examples/field.rs", "symbols": ["ingredients_for_hholtz"]}]}
{"id": "C121", "title": "Two-dimensional spectral differentiation converges with a rate for every smooth function", "statement": "For every function with p continuous derivatives there is a constant K such that, at all sizes, sampling it on the grid of Space2 and running forward, gradient with orders d0, d1 and optional scales, and backward returns its mixed derivative at every grid point, divided by the scales, up to K (1/n1^(p-d0-2 d1-1) + n1^(2 d1+1)/n0^(p-2 d0-1)) for Chebyshev x Chebyshev and K (1/n1^(p-d0-2 d1-1) + n1^(2 d1+1)/n0^(p-d0-1)) for Fourier x Chebyshev (functions periodic in the first variable). Each Chebyshev base may be cheb_dirichlet if the function vanishes on that side. Functions with all derivatives: the error on the n x n grid is below any power of 1/n.", "quantifier": "all functions with p continuous derivatives, all derivative orders with 2 d0 + 2 <= p and d0 + 2 d1 + 2 <= p, all scales, all pairs of sizes (three points or more on a Chebyshev axis, one or more on a Fourier axis), all grid points, debug and release mode", "why_tests_cant": "convergence is a statement about all resolutions and all functions; a test samples a few functions at a few sizes", "anchors": [{"file": "src/space/space2.rs", "symbols": ["Space2"]}, {"file": "src/space/traits.rs", "symbols": ["BaseSpace::gradient"]}, {"file": "src/chebyshev/ortho.rs", "symbols": ["Chebyshev::forward_slice", "Chebyshev::gradient_slice"]}, {"file": "src/fourier/r2c.rs", "symbols": ["FourierR2c::forward_slice", "FourierR2c::gradient_slice"]}]}
{"id": "C122", "title": "The Poisson and Helmholtz solver of a Fourier x Chebyshev space converges with a rate for every smooth solution", "statement": "Let Y(x, y) have p >= 6 continuous derivatives, be 2 pi-periodic in x and vanish at y = -1 and y = 1, and let F = beta Y - c Laplace(Y) with beta >= 0, c > 0 (Poisson: beta = 0). Transforming the samples of F with fourier_r2c x chebyshev, solving the system built from stencil and laplacian of fourier_r2c and stencil and laplacian_pinv of cheb_dirichlet, and transforming backward gives, for all sizes (odd and even Fourier sizes), exactly one solution, and the grid values that backward returns differ from Y by at most K n0 (1/n0^(p-3) + 1/n1^(p-5) + n0^2/n1^(p-1)), with one constant K for all sizes.", "quantifier": "all functions Y with p continuous derivatives, all beta >= 0 and c > 0, all Fourier sizes from one and Chebyshev sizes for which the base exists (up to the size where _dmat overflows), all grid points, debug and release mode", "why_tests_cant": "a convergence rate is a statement about all resolutions and all solutions; a test compares a few manufactured solutions at a few sizes", "anchors": [{"file": "src/space/space2.rs", "symbols": ["Space2::forward", "Space2::backward"]}, {"file": "src/fourier/r2c.rs", "symbols": ["FourierR2c::laplacian", "FourierR2c::stencil", "FourierR2c::forward_slice", "FourierR2c::backward_slice"]}, {"file": "src/chebyshev/compo.rs", "symbols": ["ChebyshevComposite::stencil", "ChebyshevComposite::laplacian_pinv", "ChebyshevComposite::backward_slice"]}, {"file": "examples/field.rs", "symbols": ["ingredients_for_hholtz"]}]}
{"id": "C123", "title": "The heat equation solver of a Fourier x Chebyshev space converges in space and time", "statement": "Let Y be any solution of dY/dt = nu Laplace(Y) + g for t in [0,T] in the channel -1 <= y <= 1, 2 pi-periodic in x, Y = 0 at both walls, with p >= 6 continuous derivatives. A user who transforms the samples of Y(0,.,.) with fourier_r2c x cheb_dirichlet and makes implicit Euler steps of any length dt with the matrices of the bases (stencil and laplacian of fourier_r2c, stencil and laplacian_pinv of cheb_dirichlet), transforming the samples of the source for every step with fourier_r2c x chebyshev, has exactly one run, and at every step up to time T the grid values that backward returns differ from Y by at most K n0 sqrt(n1) (dt + 1/n0^(p-3) + 1/n1^(p-5)). K depends neither on the sizes nor on dt nor on the number of steps.", "quantifier": "all smooth solutions, sources and viscosities, all Fourier sizes from one (odd and even) and Chebyshev sizes 5 to 2642246, all step lengths, all numbers of steps up to time T, all grid points, debug and release mode", "why_tests_cant": "convergence of the whole method is a statement about all resolutions and step lengths at once", "anchors": [{"file": "src/space/space2.rs", "symbols": ["Space2::forward", "Space2::backward"]}, {"file": "src/fourier/r2c.rs", "symbols": ["FourierR2c::laplacian", "FourierR2c::stencil", "FourierR2c::forward_slice", "FourierR2c::backward_slice"]}, {"file": "src/chebyshev/compo.rs", "symbols": ["ChebyshevComposite::stencil", "ChebyshevComposite::laplacian_pinv", "ChebyshevComposite::forward_slice", "ChebyshevComposite::backward_slice"]}, {"file": "examples/field.rs", "symbols": ["ingredients_for_hholtz"]}]}
{"id": "C124", "title": "Time stepping of periodic grid data with the library's derivatives converges", "statement": "Let Y(t,x) be 2 pi-periodic in x with p continuous x-derivatives, the p-th at most M for t in [0,T]. A user who samples Y(0,.) at the grid of fourier_r2c(n) and then only differentiates grid data with the library (forward, gradient, backward) (1) for dY/dt = -(-1)^m d^(2m)Y/dx^(2m) (diffusion, hyperdiffusion) makes explicit Euler steps dt with dt floor(n/2)^(2m) <= 2: at every step up to time T the root mean square distance of the grid data from Y is at most T (B dt + 16 M 2^(p-2m-1)/n^(p-2m-1)), B a bound of the second time derivative; (2) for dY/dt = -d^dY/dx^d, d odd (advection, dispersion) makes steps of the implicit midpoint rule of any length: the distance is at most T (B dt^2/2 + 16 M 2^(p-d-1)/n^(p-d-1)), B a bound of the third time derivative.", "quantifier": "all smooth solutions, all sizes n from one, odd and even, all orders of derivative, all step lengths (below the stability limit for the explicit method), all numbers of steps up to time T, all grid points, whatever the output buffers hold", "why_tests_cant": "convergence is a statement about all resolutions and step lengths at once; the constants must depend on neither", "anchors": [{"file": "src/fourier/r2c.rs", "symbols": ["FourierR2c::coords", "FourierR2c::forward_slice", "FourierR2c::gradient_slice", "FourierR2c::backward_slice"]}, {"file": "src/space/traits.rs", "symbols": ["BaseSpace"]}]}
