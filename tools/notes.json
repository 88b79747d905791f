{
 "C10": [
  "proved",
  "all five bases, every constructible size, any ordered field"
 ],
 "C11": [
  "proved",
  "list equality with stencil()*v; no panic, no out-of-bounds access"
 ],
 "C12": [
  "partial",
  "false of the code: to_ortho of the biharmonic bases always reads out of bounds (proved for every size); partial: the first n-3 rows are right"
 ],
 "C13": [
  "proved",
  ""
 ],
 "C14": [
  "proved",
  "normal equations characterise the result over any vector space; unique minimiser over real inner product spaces (real and complex data)"
 ],
 "C15": [
  "proved",
  ""
 ],
 "C16": [
  "proved",
  "equality on the range of the stencil; unconditional equality refuted by a witness"
 ],
 "C17": [
  "proved",
  "also the converse: the range of the stencil is exactly the set of coefficient vectors satisfying the boundary conditions"
 ],
 "C18": [
  "proved",
  "with uniqueness of the solution; exact arithmetic over any field"
 ],
 "C19": [
  "proved",
  ""
 ],
 "C20": [
  "proved",
  ""
 ],
 "C01": [
  "proved",
  ""
 ],
 "C02": [
  "proved",
  "exact reals; rustdct DCT-I modelled by its defining sum"
 ],
 "C03": [
  "proved",
  "exact reals"
 ],
 "C04": [
  "proved",
  "any field of characteristic 0, any vector space of data (real, complex); with uniqueness"
 ],
 "C05": [
  "proved",
  ""
 ],
 "C06": [
  "proved",
  "sizes up to the limits of the 64-bit formulas; C07 shows the limits are sharp"
 ],
 "C07": [
  "partial",
  "false of the code: proved that beyond the limits (n>=12 for deriv 3, n>=567 for deriv 4, n>=2642247 for deriv 2) debug builds panic and (beyond 7132 for deriv 3) release builds return a wrong matrix; partial: below the debug limits both modes return the same exact matrix"
 ],
 "C08": [
  "proved",
  "also: recovers coefficients >= k from the gradient; smaller sizes panic"
 ],
 "C09": [
  "proved",
  "orthogonal and composite bases"
 ],
 "C21": [
  "proved",
  "with an exact characterisation of the data reproduced by backward(forward); biharmonic bases: always out of bounds (C12)"
 ],
 "C22": [
  "proved",
  "biharmonic bases: always out of bounds (C12)"
 ],
 "C23": [
  "proved",
  "exact reals; in f64 the number of nodes is subject to rounding of the range length (not modelled)"
 ],
 "C24": [
  "proved",
  "FFT plans modelled by the discrete Fourier transform"
 ],
 "C25": [
  "proved",
  "both with the signed frequencies and with the library's own wavenumber table"
 ],
 "C26": [
  "partial",
  "false of the code for every n>=2 (C26_gradient_refuted); partial: exact behaviour, and the property for inputs without negative frequencies"
 ],
 "C27": [
  "proved",
  "also: diffmat(k)*c represents the k-th derivative; laplacian = diffmat(2)"
 ],
 "C28": [
  "proved",
  "odd and even n; also the evaluation formula for arbitrary c"
 ],
 "C29": [
  "proved",
  "also: represents and samples the k-th derivative"
 ],
 "C30": [
  "proved",
  ""
 ],
 "C31": [
  "proved",
  "Chebyshev and composite bases over any field of scalars and vector space of data, Fourier over complex numbers (r2c: reals); biharmonic to_ortho/backward/gradient read out of bounds (C12) and are excluded"
 ],
 "C32": [
  "proved",
  "every inplace method of every base, on arrays of any rank and layout"
 ],
 "C33": [
  "proved",
  "every base and method; row-major and strided memory layouts"
 ],
 "C34": [
  "proved",
  "every base and method, every fair schedule of lane updates; Space1/2/3 parallel methods with one schedule per axis pass"
 ],
 "C35": [
  "proved",
  ""
 ],
 "C52": [
  "proved",
  ""
 ],
 "C36": [
  "proved",
  "general theorem for arbitrary bases satisfying the 1-d law, plus every base combination of the library; r2c spaces: forward(backward(v))=v exactly when mean/Nyquist modes are real"
 ],
 "C37": [
  "proved",
  "all permutations of the axes, forward/backward where the types allow an exchange, coefficient operators for every space"
 ],
 "C38": [
  "proved",
  "the mixed derivative law holds whenever each base's own gradient differentiates its functions (Chebyshev bases, R2c); the C2c base violates it for n>=2, which is C26"
 ],
 "C39": [
  "proved",
  "as C36, for the five base combinations of Space3"
 ],
 "C40": [
  "partial",
  "false as stated: axis 2 is differentiated with base 1 (C40_gradient_uses_base1); it panics if sizes differ (C40_panics), wrong values otherwise (C40_wrong_values); holds when bases 1 and 2 agree (C40_gradient_partial)"
 ],
 "C41": [
  "proved",
  "general theorems plus C41_sizes_*, C41_bases_run, C41_gradients_run for the library bases (biharmonic to_ortho/backward/gradient do not run, C12)"
 ],
 "C53": [
  "proved",
  ""
 ],
 "C54": [
  "proved",
  ""
 ],
 "C55": [
  "proved",
  ""
 ],
 "C50": [
  "proved",
  "iff characterisations for the four functions, the panics, and the documented-intent failures (C50_ignores_length, C50_complex_accepts_one_part)"
 ],
 "C42": [
  "proved",
  "any number of directions; sizes below usize::MAX"
 ],
 "C43": [
  "proved",
  "debug builds: panic iff some rank would own nothing; also proved: a release build accepts such grids and then splits wrongly"
 ],
 "C44": [
  "proved",
  "for every interleaving of ranks and messages (asynchronous execution model of the collective operations); local arrays below 2^31 elements"
 ],
 "C45": [
  "proved",
  "for every interleaving; global array below 2^31 elements; also: calls on the wrong rank panic"
 ],
 "C46": [
  "proved",
  ""
 ],
 "C47": [
  "proved",
  "exact: the first decomposition inserted with the shape is returned"
 ],
 "C56": [
  "proved",
  "for every interleaving; sums exact (any commutative monoid)"
 ],
 "C48": [
  "proved",
  "exact characterisation of the lookups, for every construction that returns"
 ],
 "C49": [
  "proved",
  "for every interleaving of ranks and messages; every rank owns a point of every grid; pencils below 2^31 elements (MPI counts are i32); results are equal to those of the serial model"
 ],
 "C57": [
  "proved",
  "as C44, C45, for the methods of the distributed space"
 ],
 "C58": [
  "proved",
  "for every interleaving of ranks and messages; assumptions on the bases are those of C36"
 ],
 "C51": [
  "proved",
  "Exact size tables: construction (C51_new), forward/from_ortho (run from minSolve on, panic below), to_ortho/backward (run except for the biharmonic bases, which always read out of bounds), gradient (chebyshev(2) reads out of bounds), Fourier bases from n = 1 on. Array methods on arbitrary arrays, axes and schedules return or panic. The public slice methods do not check all lengths; the theorems C51_*_unchecked say when they read out of bounds. n = 0 of the Fourier bases (behaviour of the FFT planner) is not modelled."
 ],
 "C59": [
  "proved",
  "exact arithmetic. 2-d: BaseR2r x BaseR2r and BaseR2c x BaseR2r with the base kinds whose to_ortho runs (C12).; C59_space3_r2r and C59_space3_r2c_r2r: three dimensions (equal second and third bases)"
 ],
 "C60": [
  "proved",
  "C60_composite_transform: all five composite bases with the matrix stencil(); C60_to_ortho_forward: the call to_ortho, which runs for three of them (C12)"
 ],
 "C61": [
  "proved",
  ""
 ],
 "C62": [
  "proved",
  "exact arithmetic, n <= 2642246 (below the usize overflow of C07). The right hand side must have its two highest coefficients zero, as every second derivative of a degree < n polynomial has; without this the equation u'' = f has no solution in the space"
 ],
 "C63": [
  "proved",
  "two-dimensional fields; C63_ingredients_cheb_panics documents a defect of the example: the solver matrices are never produced for Chebyshev axes"
 ],
 "C64": [
  "proved",
  "Model of both example programs as one program over the bases, with messages of different element types on a common network (Codec). C64_main is for arbitrary bases whose slice operations run; C64_space_mpi and C64_space_complex_mpi instantiate it for the bases of the examples, all sizes and numbers of ranks. Exact arithmetic: serial and distributed results are equal because each lane goes through the same computation."
 ],
 "C65": [
  "proved",
  "C65_history: induction on the sequence of calls, from any global arrays the ranks hold their parts of. C65_serial: the serial sequence returns. C65_main: whole programs from the construction of the space. C65_ranks: independence of the number of ranks. The bases are arbitrary records whose slice operations run (Spec.Runs), instantiated by C41_bases_run; the example beside the theorem uses fourier_r2c x cheb_dirichlet on 8 and 1 ranks."
 ],
 "C66": [
  "proved",
  "exact arithmetic; bases: C66_forward, C66_backward; spaces: C66_space2_*, C66_space3_*"
 ],
 "C67": [
  "proved",
  "exact arithmetic; C67_c2c_inner, C67_c2c_energy, C67_r2c_energy, C67_mean"
 ],
 "C68": [
  "proved",
  "any arithmetic (Spec.Arith; Lean's Float is an instance); the external transforms are assumed to return the documented lengths"
 ],
 "C69": [
  "proved",
  "any arithmetic; spaces: C34_space*_\u2026 are stated for every number type, C69_space*_gradient for every scale"
 ],
 "C70": [
  "proved",
  "any arithmetic; instance with Float on 8 ranks beside the theorem"
 ],
 "C71": [
  "proved",
  "arithmetic with rounding (Spec.Rounding: standard model, relative error u per operation, unbounded exponents; Spec.Binary shows that round-to-nearest with any number of binary digits is an instance)"
 ],
 "C72": [
  "proved",
  "arithmetic with rounding (Spec.Rounding: standard model, relative error u per operation, unbounded exponents; Spec.Binary shows that round-to-nearest with any number of binary digits is an instance); C72_new: constructors, C72_to_ortho: error bound"
 ],
 "C73": [
  "proved",
  "arithmetic with rounding (Spec.Rounding: standard model, relative error u per operation, unbounded exponents; Spec.Binary shows that round-to-nearest with any number of binary digits is an instance); compared with the exact-arithmetic run of the same program"
 ],
 "C74": [
  "proved",
  "arithmetic with rounding (Spec.Rounding: standard model, relative error u per operation, unbounded exponents; Spec.Binary shows that round-to-nearest with any number of binary digits is an instance)"
 ],
 "C75": [
  "proved",
  "arithmetic with rounding (Spec.Rounding); compared with the exact-arithmetic run of the same program; needs no monotonicity of the rounding for the Chebyshev basis"
 ],
 "C76": [
  "proved",
  "arithmetic with rounding (Spec.Rounding); compared with the exact-arithmetic run of the same program; the accuracy of the external DCT is a parameter (Spec.DctError), met for instance by a correctly rounded DCT"
 ],
 "C77": [
  "proved",
  "arithmetic with rounding (Spec.Rounding); compared with the exact-arithmetic run of the same program; the accuracy of the external DCT is a parameter (Spec.DctError), met for instance by a correctly rounded DCT"
 ],
 "C78": [
  "proved",
  "arithmetic with rounding (Spec.Rounding); compared with the exact-arithmetic run of the same program; the accuracy of the external DCT is a parameter (Spec.DctError), met for instance by a correctly rounded DCT"
 ],
 "C79": [
  "proved",
  "exact arithmetic; Spec.chebAlias, fourierAlias, cosAlias and sinSign say which basis function agrees on the grid"
 ],
 "C80": [
  "proved",
  "exact arithmetic; combined with C71-C78 for rounding. No statement on the gradient of fourier_c2c, which is wrong (C26)"
 ],
 "C81": [
  "proved",
  "arithmetic with rounding (Spec.Rounding); Spec.LibmError is the accuracy of the external sin, ceil and the constant pi; f64 is rounding to 53 binary digits. The extra grid point of the sizes 61*2^t is a finding"
 ],
 "C82": [
  "proved",
  "truncation (C80), sampling and rounding errors (C75, C76) together; Spec.DctError is the assumed accuracy of the external cosine transform"
 ],
 "C83": [
  "proved",
  "for fourier_c2c the exact run is wrong for negative frequencies (C26), so the comparison is with the exact run of the code"
 ],
 "C84": [
  "proved",
  "Spec.FftError is the assumed accuracy of the external transforms; a rounding of the exact transforms meets it (roundedFft_error)"
 ],
 "C85": [
  "proved",
  "Spec.FftError is the assumed accuracy of the external transforms; a rounding of the exact transforms meets it (roundedFft_error)"
 ],
 "C86": [
  "proved",
  "truncation (C80), sampling and rounding errors (C83, C84) together; Spec.FftError is the assumed accuracy of the external transforms; a rounding of the exact transforms meets it (roundedFft_error)"
 ],
 "C87": [
  "proved",
  "the inplace forms of to_ortho and from_ortho do not check the memory layout of the output, only its shape; the others check both"
 ],
 "C88": [
  "proved",
  "real arithmetic; the derivative is the iterated derivative of the function of two (three) variables (within [-1,1] on the Chebyshev axes)"
 ],
 "C89": [
  "proved",
  "exact arithmetic; backward and gradient of the biharmonic bases are excluded because they read out of bounds (C12), Dirichlet-Neumann because its boundary conditions are not symmetric; the space-level theorems (C89_spaces2, C89_spaces3) take any symmetry of the bases' forward, C89_symmetric_* supply identity, mirror and shifts"
 ],
 "C90": [
  "proved",
  "real arithmetic"
 ],
 "C91": [
  "proved",
  "exact arithmetic over any field; division by zero is the error div0 of the model (the code would produce infinities)"
 ],
 "C92": [
  "proved",
  "hypothesis StaysInBounds is established for all constructible bases that are not biharmonic (C92_bases, C92_bases_any); that fitting arrays are accepted is C41 and C69"
 ],
 "C93": [
  "proved",
  "Backward error in terms of the computed factors (C93_pdma_backward, C93_pdma2_backward); return, row-wise backward error and forward error against the exact solver on dominant systems (C93_pdma_dominant, C93_pdma2_dominant, C93_tdma_dominant). The example instantiates them with 53 binary digits for every size."
 ],
 "C94": [
  "proved",
  "Rounding model of Spec/Rounding; extends C72, C75, C78 to the third base whose to_ortho is defined (the two biharmonic bases read out of bounds, C12)."
 ],
 "C95": [
  "proved",
  "In the source the gradient and the optional scaling convert the real factor to the data type first; for complex floating-point data this product agrees with the product part by part except for the sign of a zero and after an overflow, the scaled quotient up to rounding (see the comments at chebGradPass and divAll)."
 ],
 "C96": [
  "proved",
  "Not covered: gradient of Space3 (which uses the wrong base, C40), cheb_biharmonic_a/b (their to_ortho has undefined behaviour, C12). Gradient of Chebyshev bases on complex data is covered with products and quotients part by part (the source converts the factors to complex numbers, which is the same in a binary format without overflow). The scaling of gradients assumes that powi rounds at most d times (true for repeated multiplication: C96_powi_by_multiplication)."
 ],
 "C97": [
  "proved",
  "Extends C82 (chebyshev, one axis)."
 ],
 "C98": [
  "proved",
  "proved: C98_forward for all five kinds (least squares: the projection is no further from the interpolant than the interpolant corrected in its four leading coefficients); C98_derivative and C98_total for the bases whose gradient runs (for the biharmonic ones gradient is out of bounds, C12/C22); C98_space2_r2r and C98_space2_r2c_r2r: the derivative on the grid is a product of two matrices, compared factor by factor with those of the Chebyshev space (C88)"
 ],
 "C99": [
  "proved",
  "proved: C99_counts_all_gather_release/_debug/_limit, C99_counts_all_to_all_release (wrap-around and overflow checks); C99_transpose_panics, C99_transpose_none_returns, C99_global_panics, C99_scatter_none_returns; that rsmpi refuses buffers of 2^31 elements and more (its `Count` is an i32) is part of the model of the crate"
 ],
 "C100": [
  "proved",
  "proved: C100_space1/2/3_values, _coefficients, _projection, _ortho (any bases that satisfy C96 and the exact laws), C100_r2c_chebyshev, C100_r2c_r2r, C100_r2r_r2r (constructors of the library), C100_growth; C100_space*_projection keeps the hypothesis 1 <= gain, which C100_r2c_r2r discharges"
 ],
 "C101": [
  "proved",
  "proved: C101_crash (any programs that return without crashes), C101_history (programs of C65), C101_fourier_chebyshev (library spaces, any arithmetic); messages are lost from the end of a channel only (MPI keeps the order of messages)"
 ],
 "C102": [
  "proved",
  "proved: C102_tau (all five bases), C102_dirichlet, C102_neumann, C102_mixed (unique solvability), C102_exact, C102_quasi_optimal, C102_stable, C102_error. Stability with constants independent of n is proved for cheb_dirichlet; the biharmonic systems are not square (n - 2 equations, n - 4 unknowns)"
 ],
 "C103": [
  "proved",
  "proved: C103_diffmat, C103_laplacian, C103_diffmat_pinv, C103_laplacian_pinv, C103_stencil, C103_stencil_mixed, C103_stencil_inv (two-diagonal bases), C103_composite, C103_derivative, C103_correctly_rounded, C103_exact"
 ],
 "C104": [
  "proved",
  "proved: C104_tau (all pairs of composite bases), C104_helmholtz (unique solvability, boundary values; C104_poisson is beta = 0), C104_exact, C104_stable, C104_r2c, C104_c2c. Unique solvability with two Chebyshev axes is proved for two Dirichlet axes; with Neumann conditions on both axes and beta = 0 the constants are in the kernel"
 ],
 "C105": [
  "proved",
  "proved: C105_new, C105_history, C105_schedule_independent, C105_to_ortho, C105_gradient, C105_forward_backward, C105_axis_base, C105_ingredients_cheb, C105_ingredients_r2c, C105_ingredients_c2c. In three dimensions gradient needs the two last bases to have equal sizes, because of the bug of C40"
 ],
 "C106": [
  "proved",
  "proved: C106_run, C106_stable, C106_converges in one dimension, C106_run2, C106_stable2, C106_converges2 in two, C106_r2c, C106_c2c (all three statements, mode by mode) on Fourier x cheb_dirichlet spaces. Real arithmetic; the linear solver is the user's, a step is characterised by the equation it solves"
 ],
 "C107": [
  "proved",
  "proved: C107_refine_cheb, C107_product_cheb, C107_product_cheb_exact, C107_product_cheb_sharp, C107_refine_c2c, C107_product_c2c, C107_product_c2c_sharp, C107_refine_r2c, C107_product_r2c; for the composite bases C107_refine_compo, C107_product_compo; in two dimensions C107_product2, C107_product2_r2c (products of derivatives, whole pipeline). Exact arithmetic"
 ],
 "C108": [
  "proved",
  "proved: C108_bases (the three orthogonal bases), C108_space1, C108_space2, C108_space3 (energies multiply), C108_spaces2 (the four kinds of two-dimensional spaces with explicit weights). Exact arithmetic"
 ],
 "C109": [
  "proved",
  "proved: C109_space1, C109_space2_r2r_r2r, C109_space2_r2c_r2r, C109_space2_fourier, C109_space3_transforms, C109_space3_gradient (equal second and third bases), C109_mixed_commute. Exact arithmetic"
 ],
 "C110": [
  "proved",
  "proved: C110_space2_forward, C110_space2_backward, C110_space2_spectral, C110_space3_forward, C110_space3_backward, C110_space3_spectral, C110_space3_gradient (from the linearity of the bases), C110_spaces2 and C110_spaces3 (all nine kinds of spaces of the library), C110_every_array2. Exact arithmetic. backward needs a first factor whose grid values are real where the data of the space are real"
 ],
 "C111": [
  "proved",
  "exact arithmetic; spaces whose axes can be exchanged within the library (all axes real-to-real or all fourier_c2c: the library fixes the position of fourier_r2c); gradient in three dimensions only for equal bases because of C40"
 ],
 "C112": [
  "proved",
  "exact arithmetic; fourier_c2c is excluded because its gradient is wrong (C26)"
 ],
 "C113": [
  "proved",
  "exact arithmetic; the multiplication on the grid is done by the user"
 ],
 "C114": [
  "proved",
  "exact arithmetic; the update of the grid data is done by the user"
 ],
 "C115": [
  "proved",
  "exact arithmetic; the pointwise products are formed by the user"
 ],
 "C116": [
  "proved",
  "exact arithmetic (rounding: C82, C86, C97); the rates are those of the proof, for the Chebyshev bases not the best possible"
 ],
 "C117": [
  "proved",
  "exact arithmetic; the system is solved exactly (the library has no dense solver); sizes up to 2642246 (C07)"
 ],
 "C118": [
  "proved",
  "exact arithmetic; the systems are solved exactly; sizes 5 to 2642246; the solution is a smooth function on the whole plane that satisfies the equation on [0,T] x [-1,1]"
 ],
 "C119": [
  "proved",
  "exact arithmetic; the system is solved exactly; sizes 5 to 2642246 per axis"
 ],
 "C120": [
  "proved",
  "exact arithmetic; the systems are solved exactly; sizes 5 to 2642246 per axis; the solution is a smooth function on the whole space that satisfies the equation on [0,T] x [-1,1]^2"
 ],
 "C121": [
  "proved",
  "exact arithmetic; orders below 2^31 when scales are given; the function is smooth on the whole plane"
 ],
 "C122": [
  "proved",
  "exact arithmetic; the linear system is solved exactly; Y is smooth for all y, not only on [-1, 1]"
 ],
 "C123": [
  "proved",
  "exact arithmetic; the systems are solved exactly; the solution is a smooth function on the whole space that satisfies the equation, the boundary conditions and the periodicity on [0,T] x R x [-1,1]"
 ],
 "C124": [
  "proved",
  "exact arithmetic; the implicit systems are solved exactly"
 ]
}