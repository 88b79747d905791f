{
 "claims": [
  {
   "property": "C01",
   "status": "proved",
   "theorems": [
    "Verif.Props.C01_coords"
   ],
   "note": ""
  },
  {
   "property": "C02",
   "status": "proved",
   "theorems": [
    "Verif.Props.C02_backward_evaluates"
   ],
   "note": "exact reals; rustdct DCT-I modelled by its defining sum"
  },
  {
   "property": "C03",
   "status": "proved",
   "theorems": [
    "Verif.Props.C03_forward_backward",
    "Verif.Props.C03_backward_forward"
   ],
   "note": "exact reals"
  },
  {
   "property": "C04",
   "status": "proved",
   "theorems": [
    "Verif.Props.C04_gradient_is_derivative",
    "Verif.Props.C04_gradient_polynomial"
   ],
   "note": "any field of characteristic 0, any vector space of data (real, complex); with uniqueness"
  },
  {
   "property": "C05",
   "status": "proved",
   "theorems": [
    "Verif.Props.C05_gradient_composes",
    "Verif.Props.C05_gradient_annihilates",
    "Verif.Props.C05_gradient_order_zero"
   ],
   "note": ""
  },
  {
   "property": "C06",
   "status": "proved",
   "theorems": [
    "Verif.Props.C06_diffmat_columns",
    "Verif.Props.C06_diffmat_is_gradient",
    "Verif.Props.C06_other_deriv_panics"
   ],
   "note": "sizes up to the limits of the 64-bit formulas; C07 shows the limits are sharp"
  },
  {
   "property": "C07",
   "status": "partial",
   "theorems": [
    "Verif.Props.C07_debug_panics_beyond",
    "Verif.Props.C07_release_wrong_beyond",
    "Verif.Props.C07_no_overflow_partial"
   ],
   "note": "false of the code: proved that beyond the limits (n>=12 for deriv 3, n>=567 for deriv 4, n>=2642247 for deriv 2) debug builds panic and (beyond 7132 for deriv 3) release builds return a wrong matrix; partial: below the debug limits both modes return the same exact matrix"
  },
  {
   "property": "C08",
   "status": "proved",
   "theorems": [
    "Verif.Props.C08_pinv_identity",
    "Verif.Props.C08_pinv_undoes_gradient",
    "Verif.Props.C08_small_sizes_panic"
   ],
   "note": "also: recovers coefficients >= k from the gradient; smaller sizes panic"
  },
  {
   "property": "C09",
   "status": "proved",
   "theorems": [
    "Verif.Props.C09_laplacian",
    "Verif.Props.C09_laplacian_composite"
   ],
   "note": "orthogonal and composite bases"
  },
  {
   "property": "C10",
   "status": "proved",
   "theorems": [
    "Verif.Props.C10_stencil_inv_left_inverse"
   ],
   "note": "all five bases, every constructible size, any ordered field"
  },
  {
   "property": "C11",
   "status": "proved",
   "theorems": [
    "Verif.Props.C11_to_ortho_is_stencil"
   ],
   "note": "list equality with stencil()*v; no panic, no out-of-bounds access"
  },
  {
   "property": "C12",
   "status": "partial",
   "theorems": [
    "Verif.Props.C12_biharmonic_to_ortho_out_of_bounds",
    "Verif.Props.C12_biharmonic_head_rows_partial"
   ],
   "note": "false of the code: to_ortho of the biharmonic bases always reads out of bounds (proved for every size); partial: the first n-3 rows are right"
  },
  {
   "property": "C13",
   "status": "proved",
   "theorems": [
    "Verif.Props.C13_from_ortho_stencil",
    "Verif.Props.C13_round_trip"
   ],
   "note": ""
  },
  {
   "property": "C14",
   "status": "proved",
   "theorems": [
    "Verif.Props.C14_from_ortho_normal_equations",
    "Verif.Props.C14_from_ortho_least_squares"
   ],
   "note": "normal equations characterise the result over any vector space; unique minimiser over real inner product spaces (real and complex data)"
  },
  {
   "property": "C15",
   "status": "proved",
   "theorems": [
    "Verif.Props.C15_projection",
    "Verif.Props.C15_projection_api"
   ],
   "note": ""
  },
  {
   "property": "C16",
   "status": "proved",
   "theorems": [
    "Verif.Props.C16_stencil_inv_eq_from_ortho_on_range",
    "Verif.Props.C16_equality_false_in_general"
   ],
   "note": "equality on the range of the stencil; unconditional equality refuted by a witness"
  },
  {
   "property": "C17",
   "status": "proved",
   "theorems": [
    "Verif.Props.C17_boundary_conditions"
   ],
   "note": "also the converse: the range of the stencil is exactly the set of coefficient vectors satisfying the boundary conditions"
  },
  {
   "property": "C18",
   "status": "proved",
   "theorems": [
    "Verif.Props.C18_tdma_solves",
    "Verif.Props.C18_pdma_solves",
    "Verif.Props.C18_pdma2_solves",
    "Verif.Props.C18_too_small_panics"
   ],
   "note": "with uniqueness of the solution; exact arithmetic over any field"
  },
  {
   "property": "C19",
   "status": "proved",
   "theorems": [
    "Verif.Props.C19_from_ortho_total"
   ],
   "note": ""
  },
  {
   "property": "C20",
   "status": "proved",
   "theorems": [
    "Verif.Props.C20_checked_unchecked_agree",
    "Verif.Props.C20_same_on_sized"
   ],
   "note": ""
  },
  {
   "property": "C21",
   "status": "proved",
   "theorems": [
    "Verif.Props.C21_backward_evaluates",
    "Verif.Props.C21_forward_backward",
    "Verif.Props.C21_backward_forward_iff",
    "Verif.Props.C21_biharmonic_backward_out_of_bounds"
   ],
   "note": "with an exact characterisation of the data reproduced by backward(forward); biharmonic bases: always out of bounds (C12)"
  },
  {
   "property": "C22",
   "status": "proved",
   "theorems": [
    "Verif.Props.C22_gradient_is_derivative",
    "Verif.Props.C22_gradient_is_diffmat_stencil",
    "Verif.Props.C22_biharmonic_gradient_out_of_bounds"
   ],
   "note": "biharmonic bases: always out of bounds (C12)"
  },
  {
   "property": "C23",
   "status": "proved",
   "theorems": [
    "Verif.Props.C23_c2c_coords",
    "Verif.Props.C23_r2c_coords",
    "Verif.Props.C23_c2c_wavenumber",
    "Verif.Props.C23_r2c_wavenumber",
    "Verif.Props.C23_c2c_wavenumber_zero"
   ],
   "note": "exact reals; in f64 the number of nodes is subject to rounding of the range length (not modelled)"
  },
  {
   "property": "C24",
   "status": "proved",
   "theorems": [
    "Verif.Props.C24_forward_backward",
    "Verif.Props.C24_backward_forward"
   ],
   "note": "FFT plans modelled by the discrete Fourier transform"
  },
  {
   "property": "C25",
   "status": "proved",
   "theorems": [
    "Verif.Props.C25_backward_evaluates",
    "Verif.Props.C25_backward_wavenumbers"
   ],
   "note": "both with the signed frequencies and with the library's own wavenumber table"
  },
  {
   "property": "C26",
   "status": "partial",
   "theorems": [
    "Verif.Props.C26_gradient_refuted",
    "Verif.Props.C26_gradient_partial",
    "Verif.Props.C26_gradient_nonneg_partial"
   ],
   "note": "false of the code for every n>=2 (C26_gradient_refuted); partial: exact behaviour, and the property for inputs without negative frequencies"
  },
  {
   "property": "C27",
   "status": "proved",
   "theorems": [
    "Verif.Props.C27_diffmat",
    "Verif.Props.C27_diffmat_derivative",
    "Verif.Props.C27_diffmat_rejects",
    "Verif.Props.C27_diffmat_pinv",
    "Verif.Props.C27_laplacian",
    "Verif.Props.C27_laplacian_pinv"
   ],
   "note": "also: diffmat(k)*c represents the k-th derivative; laplacian = diffmat(2)"
  },
  {
   "property": "C28",
   "status": "proved",
   "theorems": [
    "Verif.Props.C28_backward_forward",
    "Verif.Props.C28_forward_backward",
    "Verif.Props.C28_backward_ignores_im",
    "Verif.Props.C28_backward_evaluates"
   ],
   "note": "odd and even n; also the evaluation formula for arbitrary c"
  },
  {
   "property": "C29",
   "status": "proved",
   "theorems": [
    "Verif.Props.C29_gradient",
    "Verif.Props.C29_gradient_composes",
    "Verif.Props.C29_gradient_sampled"
   ],
   "note": "also: represents and samples the k-th derivative"
  },
  {
   "property": "C30",
   "status": "proved",
   "theorems": [
    "Verif.Props.C30_diffmat",
    "Verif.Props.C30_diffmat_rejects",
    "Verif.Props.C30_diffmat_pinv",
    "Verif.Props.C30_laplacian",
    "Verif.Props.C30_laplacian_pinv"
   ],
   "note": ""
  },
  {
   "property": "C31",
   "status": "proved",
   "theorems": [
    "Verif.Props.C31_r2r_forward",
    "Verif.Props.C31_r2r_backward",
    "Verif.Props.C31_r2r_to_ortho",
    "Verif.Props.C31_r2r_from_ortho",
    "Verif.Props.C31_r2r_gradient",
    "Verif.Props.C31_c2c",
    "Verif.Props.C31_r2c"
   ],
   "note": "Chebyshev and composite bases over any field of scalars and vector space of data, Fourier over complex numbers (r2c: reals); biharmonic to_ortho/backward/gradient read out of bounds (C12) and are excluded"
  },
  {
   "property": "C32",
   "status": "proved",
   "theorems": [
    "Verif.Props.C32_r2r_forward",
    "Verif.Props.C32_r2r_backward",
    "Verif.Props.C32_r2r_to_ortho",
    "Verif.Props.C32_r2r_from_ortho",
    "Verif.Props.C32_r2r_gradient",
    "Verif.Props.C32_c2c",
    "Verif.Props.C32_r2c"
   ],
   "note": "every inplace method of every base, on arrays of any rank and layout"
  },
  {
   "property": "C33",
   "status": "proved",
   "theorems": [
    "Verif.Props.C33_r2r_forward",
    "Verif.Props.C33_r2r_backward",
    "Verif.Props.C33_r2r_to_ortho",
    "Verif.Props.C33_r2r_from_ortho",
    "Verif.Props.C33_r2r_gradient",
    "Verif.Props.C33_c2c",
    "Verif.Props.C33_r2c"
   ],
   "note": "every base and method; row-major and strided memory layouts"
  },
  {
   "property": "C34",
   "status": "proved",
   "theorems": [
    "Verif.Props.C34_r2r_forward",
    "Verif.Props.C34_r2r_backward",
    "Verif.Props.C34_r2r_to_ortho",
    "Verif.Props.C34_r2r_from_ortho",
    "Verif.Props.C34_r2r_gradient",
    "Verif.Props.C34_c2c",
    "Verif.Props.C34_r2c",
    "Verif.Props.C34_space1_forward",
    "Verif.Props.C34_space1_backward",
    "Verif.Props.C34_space1_to_ortho",
    "Verif.Props.C34_space1_from_ortho",
    "Verif.Props.C34_space1_gradient",
    "Verif.Props.C34_space2_forward",
    "Verif.Props.C34_space2_backward",
    "Verif.Props.C34_space2_to_ortho",
    "Verif.Props.C34_space2_from_ortho",
    "Verif.Props.C34_space2_gradient",
    "Verif.Props.C34_space3_forward",
    "Verif.Props.C34_space3_backward",
    "Verif.Props.C34_space3_to_ortho",
    "Verif.Props.C34_space3_from_ortho",
    "Verif.Props.C34_space3_gradient"
   ],
   "note": "every base and method, every fair schedule of lane updates; Space1/2/3 parallel methods with one schedule per axis pass"
  },
  {
   "property": "C35",
   "status": "proved",
   "theorems": [
    "Verif.Props.C35_rejects",
    "Verif.Props.C35_par_rejects",
    "Verif.Props.C35_alloc_rejects"
   ],
   "note": ""
  },
  {
   "property": "C36",
   "status": "proved",
   "theorems": [
    "Verif.Props.C36_space1_forward_backward",
    "Verif.Props.C36_space1_backward_forward",
    "Verif.Props.C36_space1_from_ortho_to_ortho",
    "Verif.Props.C36_forward_backward",
    "Verif.Props.C36_backward_forward",
    "Verif.Props.C36_forward_backward_forward",
    "Verif.Props.C36_from_ortho_to_ortho",
    "Verif.Props.C36_space1_ortho_r2r",
    "Verif.Props.C36_space1_forward_backward_r2r",
    "Verif.Props.C36_space1_backward_forward_cheb",
    "Verif.Props.C36_space1_ortho_r2c",
    "Verif.Props.C36_space1_backward_forward_r2c",
    "Verif.Props.C36_space1_ortho_c2c",
    "Verif.Props.C36_space1_forward_backward_c2c",
    "Verif.Props.C36_space1_backward_forward_c2c",
    "Verif.Props.C36_ortho_r2r_r2r",
    "Verif.Props.C36_forward_backward_r2r_r2r",
    "Verif.Props.C36_backward_forward_cheb_cheb",
    "Verif.Props.C36_ortho_r2c_r2r",
    "Verif.Props.C36_forward_backward_forward_r2c_r2r",
    "Verif.Props.C36_backward_forward_r2c_cheb",
    "Verif.Props.C36_ortho_c2c_r2c",
    "Verif.Props.C36_backward_forward_c2c_r2c",
    "Verif.Props.C36_ortho_c2c_c2c",
    "Verif.Props.C36_forward_backward_c2c_c2c",
    "Verif.Props.C36_backward_forward_c2c_c2c",
    "Verif.Props.C36_space1_forward_backward_r2c",
    "Verif.Props.C36_forward_backward_r2c_r2r",
    "Verif.Props.C36_forward_backward_c2c_r2c"
   ],
   "note": "general theorem for arbitrary bases satisfying the 1-d law, plus every base combination of the library; r2c spaces: forward(backward(v))=v exactly when mean/Nyquist modes are real"
  },
  {
   "property": "C37",
   "status": "proved",
   "theorems": [
    "Verif.Props.C37_r2r_r2r",
    "Verif.Props.C37_c2c_c2c",
    "Verif.Props.C37_r2c_r2r",
    "Verif.Props.C37_r2r_r2r_r2r",
    "Verif.Props.C37_c2c_c2c_c2c",
    "Verif.Props.C37_space2_forward",
    "Verif.Props.C37_space2_backward",
    "Verif.Props.C37_space2_to_ortho",
    "Verif.Props.C37_space2_from_ortho",
    "Verif.Props.C37_space2_gradient",
    "Verif.Props.C37_space3_forward",
    "Verif.Props.C37_space3_backward",
    "Verif.Props.C37_space3_to_ortho",
    "Verif.Props.C37_space3_from_ortho"
   ],
   "note": "all permutations of the axes, forward/backward where the types allow an exchange, coefficient operators for every space"
  },
  {
   "property": "C38",
   "status": "proved",
   "theorems": [
    "Verif.Props.C38_space1_gradient",
    "Verif.Props.C38_space2_gradient",
    "Verif.Props.C38_r2r_base",
    "Verif.Props.C38_r2c_base",
    "Verif.Props.C38_r2c_r2r",
    "Verif.Props.C38_r2r_r2r"
   ],
   "note": "the mixed derivative law holds whenever each base's own gradient differentiates its functions (Chebyshev bases, R2c); the C2c base violates it for n>=2, which is C26"
  },
  {
   "property": "C39",
   "status": "proved",
   "theorems": [
    "Verif.Props.C39_forward_backward",
    "Verif.Props.C39_backward_forward",
    "Verif.Props.C39_forward_backward_forward_one",
    "Verif.Props.C39_forward_backward_forward_two",
    "Verif.Props.C39_from_ortho_to_ortho",
    "Verif.Props.C39_ortho_r2r_r2r_r2r",
    "Verif.Props.C39_forward_backward_r2r_r2r_r2r",
    "Verif.Props.C39_backward_forward_cheb_cheb_cheb",
    "Verif.Props.C39_ortho_r2c_r2r_r2r",
    "Verif.Props.C39_forward_backward_forward_r2c_r2r_r2r",
    "Verif.Props.C39_backward_forward_r2c_cheb_cheb",
    "Verif.Props.C39_ortho_c2c_r2c_r2r",
    "Verif.Props.C39_forward_backward_forward_c2c_r2c_r2r",
    "Verif.Props.C39_backward_forward_c2c_r2c_cheb",
    "Verif.Props.C39_ortho_c2c_c2c_r2c",
    "Verif.Props.C39_backward_forward_c2c_c2c_r2c",
    "Verif.Props.C39_ortho_c2c_c2c_c2c",
    "Verif.Props.C39_forward_backward_c2c_c2c_c2c",
    "Verif.Props.C39_backward_forward_c2c_c2c_c2c",
    "Verif.Props.C39_forward_backward_r2c_r2r_r2r",
    "Verif.Props.C39_forward_backward_c2c_r2c_r2r",
    "Verif.Props.C39_forward_backward_c2c_c2c_r2c"
   ],
   "note": "as C36, for the five base combinations of Space3"
  },
  {
   "property": "C40",
   "status": "partial",
   "theorems": [
    "Verif.Props.C40_gradient_uses_base1",
    "Verif.Props.C40_panics",
    "Verif.Props.C40_gradient_partial",
    "Verif.Props.C40_wrong_values"
   ],
   "note": "false as stated: axis 2 is differentiated with base 1 (C40_gradient_uses_base1); it panics if sizes differ (C40_panics), wrong values otherwise (C40_wrong_values); holds when bases 1 and 2 agree (C40_gradient_partial)"
  },
  {
   "property": "C41",
   "status": "proved",
   "theorems": [
    "Verif.Props.C41_sizes_r2r",
    "Verif.Props.C41_sizes_r2c",
    "Verif.Props.C41_sizes_c2c",
    "Verif.Props.C41_bases_run",
    "Verif.Props.C41_gradients_run",
    "Verif.Props.C41_space1_forward",
    "Verif.Props.C41_space1_backward",
    "Verif.Props.C41_space1_to_ortho",
    "Verif.Props.C41_space1_from_ortho",
    "Verif.Props.C41_space1_gradient",
    "Verif.Props.C41_space2_forward",
    "Verif.Props.C41_space2_backward",
    "Verif.Props.C41_space2_to_ortho",
    "Verif.Props.C41_space2_from_ortho",
    "Verif.Props.C41_space2_gradient",
    "Verif.Props.C41_space3_forward",
    "Verif.Props.C41_space3_backward",
    "Verif.Props.C41_space3_to_ortho",
    "Verif.Props.C41_space3_from_ortho",
    "Verif.Props.C41_space3_gradient"
   ],
   "note": "general theorems plus C41_sizes_*, C41_bases_run, C41_gradients_run for the library bases (biharmonic to_ortho/backward/gradient do not run, C12)"
  },
  {
   "property": "C42",
   "status": "proved",
   "theorems": [
    "Verif.Props.C42_balanced_partition",
    "Verif.Props.C42_pencils"
   ],
   "note": "any number of directions; sizes below usize::MAX"
  },
  {
   "property": "C43",
   "status": "proved",
   "theorems": [
    "Verif.Props.C43_enough_points",
    "Verif.Props.C43_debug_panics_iff",
    "Verif.Props.C43_release_wrong_layout"
   ],
   "note": "debug builds: panic iff some rank would own nothing; also proved: a release build accepts such grids and then splits wrongly"
  },
  {
   "property": "C44",
   "status": "proved",
   "theorems": [
    "Verif.Props.C44_split",
    "Verif.Props.C44_assemble_x",
    "Verif.Props.C44_assemble_y",
    "Verif.Props.C44_transpose_x_to_y",
    "Verif.Props.C44_transpose_y_to_x",
    "Verif.Props.C44_transpose_round_trip_x",
    "Verif.Props.C44_transpose_round_trip_y",
    "Verif.Props.C44_wrong_shape_panics"
   ],
   "note": "for every interleaving of ranks and messages (asynchronous execution model of the collective operations); local arrays below 2^31 elements"
  },
  {
   "property": "C45",
   "status": "proved",
   "theorems": [
    "Verif.Props.C45_gather_x",
    "Verif.Props.C45_gather_y",
    "Verif.Props.C45_scatter_x",
    "Verif.Props.C45_scatter_y",
    "Verif.Props.C45_all_gather",
    "Verif.Props.C45_gather_scatter",
    "Verif.Props.C45_scatter_gather",
    "Verif.Props.C45_wrong_rank_panics"
   ],
   "note": "for every interleaving; global array below 2^31 elements; also: calls on the wrong rank panic"
  },
  {
   "property": "C46",
   "status": "proved",
   "theorems": [
    "Verif.Props.C46_counts_all_to_all",
    "Verif.Props.C46_counts_all_gather"
   ],
   "note": ""
  },
  {
   "property": "C47",
   "status": "proved",
   "theorems": [
    "Verif.Props.C47_lookup",
    "Verif.Props.C47_lookup_shape",
    "Verif.Props.C47_lookup_panics_iff",
    "Verif.Props.C47_duplicate_insert"
   ],
   "note": "exact: the first decomposition inserted with the shape is returned"
  },
  {
   "property": "C48",
   "status": "proved",
   "theorems": [
    "Verif.Props.C48_lookup_iff",
    "Verif.Props.C48_never_misses",
    "Verif.Props.C48_bases",
    "Verif.Props.C48_new"
   ],
   "note": "exact characterisation of the lookups, for every construction that returns"
  },
  {
   "property": "C49",
   "status": "proved",
   "theorems": [
    "Verif.Props.C49_forward",
    "Verif.Props.C49_backward",
    "Verif.Props.C49_to_ortho",
    "Verif.Props.C49_from_ortho",
    "Verif.Props.C49_gradient"
   ],
   "note": "for every interleaving of ranks and messages; every rank owns a point of every grid; pencils below 2^31 elements (MPI counts are i32); results are equal to those of the serial model"
  },
  {
   "property": "C50",
   "status": "proved",
   "theorems": [
    "Verif.Props.C50_approx_eq_iff",
    "Verif.Props.C50_approx_eq_panics",
    "Verif.Props.C50_approx_eq_complex_iff",
    "Verif.Props.C50_approx_eq_complex_panics",
    "Verif.Props.C50_approx_eq_ndarray_iff",
    "Verif.Props.C50_approx_eq_complex_ndarray_iff",
    "Verif.Props.C50_approx_eq_symm",
    "Verif.Props.C50_ignores_length",
    "Verif.Props.C50_complex_accepts_one_part"
   ],
   "note": "iff characterisations for the four functions, the panics, and the documented-intent failures (C50_ignores_length, C50_complex_accepts_one_part)"
  },
  {
   "property": "C51",
   "status": "proved",
   "theorems": [
    "Verif.Props.C51_new",
    "Verif.Props.C51_from_ortho",
    "Verif.Props.C51_forward",
    "Verif.Props.C51_to_ortho",
    "Verif.Props.C51_backward",
    "Verif.Props.C51_gradient",
    "Verif.Props.C51_fourier",
    "Verif.Props.C51_from_ortho_slice_unchecked",
    "Verif.Props.C51_to_ortho_slice_checked",
    "Verif.Props.C51_to_ortho_slice_unchecked",
    "Verif.Props.C51_forward_from_ortho_safe",
    "Verif.Props.C51_backward_to_ortho_safe",
    "Verif.Props.C51_gradient_safe",
    "Verif.Props.C51_fourier_safe"
   ],
   "note": "Exact size tables: construction (C51_new), forward/from_ortho (run from minSolve on, panic below), to_ortho/backward (run except for the biharmonic bases, which always read out of bounds), gradient (chebyshev(2) reads out of bounds), Fourier bases from n = 1 on. Array methods on arbitrary arrays, axes and schedules return or panic. The public slice methods do not check all lengths; the theorems C51_*_unchecked say when they read out of bounds. n = 0 of the Fourier bases (behaviour of the FFT planner) is not modelled."
  },
  {
   "property": "C52",
   "status": "proved",
   "theorems": [
    "Verif.Props.C52_chebyshev",
    "Verif.Props.C52_c2c",
    "Verif.Props.C52_r2c"
   ],
   "note": ""
  },
  {
   "property": "C53",
   "status": "proved",
   "theorems": [
    "Verif.Props.C53_space1_to_ortho",
    "Verif.Props.C53_space2_to_ortho",
    "Verif.Props.C53_space3_to_ortho",
    "Verif.Props.C53_bases"
   ],
   "note": ""
  },
  {
   "property": "C54",
   "status": "proved",
   "theorems": [
    "Verif.Props.C54_space1_backward",
    "Verif.Props.C54_space2_backward",
    "Verif.Props.C54_space3_backward",
    "Verif.Props.C54_bases"
   ],
   "note": ""
  },
  {
   "property": "C55",
   "status": "proved",
   "theorems": [
    "Verif.Props.C55_space1_from_ortho",
    "Verif.Props.C55_space2_from_ortho",
    "Verif.Props.C55_space3_from_ortho",
    "Verif.Props.C55_bases"
   ],
   "note": ""
  },
  {
   "property": "C56",
   "status": "proved",
   "theorems": [
    "Verif.Props.C56_broadcast_scalar",
    "Verif.Props.C56_gather_sum",
    "Verif.Props.C56_all_gather_sum"
   ],
   "note": "for every interleaving; sums exact (any commutative monoid)"
  },
  {
   "property": "C57",
   "status": "proved",
   "theorems": [
    "Verif.Props.C57_pencil_shapes",
    "Verif.Props.C57_transpose_x_to_y_phys",
    "Verif.Props.C57_transpose_y_to_x_phys",
    "Verif.Props.C57_gather_scatter_x_phys",
    "Verif.Props.C57_gather_scatter_y_phys",
    "Verif.Props.C57_transpose_x_to_y_spec",
    "Verif.Props.C57_transpose_y_to_x_spec",
    "Verif.Props.C57_gather_scatter_x_spec",
    "Verif.Props.C57_gather_scatter_y_spec"
   ],
   "note": "as C44, C45, for the methods of the distributed space"
  },
  {
   "property": "C58",
   "status": "proved",
   "theorems": [
    "Verif.Props.C58_backward_forward",
    "Verif.Props.C58_forward_backward",
    "Verif.Props.C58_from_ortho_to_ortho"
   ],
   "note": "for every interleaving of ranks and messages; assumptions on the bases are those of C36"
  },
  {
   "property": "C59",
   "status": "proved",
   "theorems": [
    "Verif.Props.C59_chebyshev",
    "Verif.Props.C59_fourier_r2c",
    "Verif.Props.C59_composite",
    "Verif.Props.C59_space2_r2r",
    "Verif.Props.C59_space2_r2c_r2r",
    "Verif.Props.C59_returns",
    "Verif.Props.C59_space3_r2r",
    "Verif.Props.C59_returns_r2c",
    "Verif.Props.C59_space3_r2c_r2r"
   ],
   "note": "exact arithmetic. 2-d: BaseR2r x BaseR2r and BaseR2c x BaseR2r with the base kinds whose to_ortho runs (C12).; C59_space3_r2r and C59_space3_r2c_r2r: three dimensions (equal second and third bases)"
  },
  {
   "property": "C60",
   "status": "proved",
   "theorems": [
    "Verif.Props.C60_composite_transform",
    "Verif.Props.C60_to_ortho_forward",
    "Verif.Props.C60_dirichlet"
   ],
   "note": "C60_composite_transform: all five composite bases with the matrix stencil(); C60_to_ortho_forward: the call to_ortho, which runs for three of them (C12)"
  },
  {
   "property": "C61",
   "status": "proved",
   "theorems": [
    "Verif.Props.C61_kind_r2r",
    "Verif.Props.C61_kind_fourier",
    "Verif.Props.C61_kind_determines_base",
    "Verif.Props.C61_space1",
    "Verif.Props.C61_space2",
    "Verif.Props.C61_space3",
    "Verif.Props.C61_display",
    "Verif.Props.C61_new"
   ],
   "note": ""
  },
  {
   "property": "C62",
   "status": "proved",
   "theorems": [
    "Verif.Props.C62_poisson",
    "Verif.Props.C62_poisson_gradient",
    "Verif.Props.C62_unique_solution",
    "Verif.Props.C62_neumann",
    "Verif.Props.C62_helmholtz"
   ],
   "note": "exact arithmetic, n <= 2642246 (below the usize overflow of C07). The right hand side must have its two highest coefficients zero, as every second derivative of a degree < n polynomial has; without this the equation u'' = f has no solution in the space"
  },
  {
   "property": "C63",
   "status": "proved",
   "theorems": [
    "Verif.Props.C63_get_dx",
    "Verif.Props.C63_dx_cheb",
    "Verif.Props.C63_dx_fourier",
    "Verif.Props.C63_new",
    "Verif.Props.C63_history",
    "Verif.Props.C63_schedule_independent",
    "Verif.Props.C63_forward_backward",
    "Verif.Props.C63_to_ortho",
    "Verif.Props.C63_ingredients_cheb_panics",
    "Verif.Props.C63_ingredients_cheb_panics_axis0",
    "Verif.Props.C63_ingredients_fourier",
    "Verif.Props.C63_gradient",
    "Verif.Props.C63_main"
   ],
   "note": "two-dimensional fields; C63_ingredients_cheb_panics documents a defect of the example: the solver matrices are never produced for Chebyshev axes"
  },
  {
   "property": "C64",
   "status": "proved",
   "theorems": [
    "Verif.Props.C64_input",
    "Verif.Props.C64_main",
    "Verif.Props.C64_space_mpi",
    "Verif.Props.C64_space_complex_mpi"
   ],
   "note": "Model of both example programs as one program over the bases, with messages of different element types on a common network (Codec). C64_main is for arbitrary bases whose slice operations run; C64_space_mpi and C64_space_complex_mpi instantiate it for the bases of the examples, all sizes and numbers of ranks. Exact arithmetic: serial and distributed results are equal because each lane goes through the same computation."
  },
  {
   "property": "C65",
   "status": "proved",
   "theorems": [
    "Verif.Props.C65_history",
    "Verif.Props.C65_scale",
    "Verif.Props.C65_serial",
    "Verif.Props.C65_main",
    "Verif.Props.C65_ranks"
   ],
   "note": "C65_history: induction on the sequence of calls, from any global arrays the ranks hold their parts of. C65_serial: the serial sequence returns. C65_main: whole programs from the construction of the space. C65_ranks: independence of the number of ranks. The bases are arbitrary records whose slice operations run (Spec.Runs), instantiated by C41_bases_run; the example beside the theorem uses fourier_r2c x cheb_dirichlet on 8 and 1 ranks."
  },
  {
   "property": "C66",
   "status": "proved",
   "theorems": [
    "Verif.Props.C66_forward",
    "Verif.Props.C66_backward",
    "Verif.Props.C66_space2_forward",
    "Verif.Props.C66_space2_backward",
    "Verif.Props.C66_space3_forward",
    "Verif.Props.C66_space3_backward"
   ],
   "note": "exact arithmetic; bases: C66_forward, C66_backward; spaces: C66_space2_*, C66_space3_*"
  },
  {
   "property": "C67",
   "status": "proved",
   "theorems": [
    "Verif.Props.C67_c2c_inner",
    "Verif.Props.C67_c2c_energy",
    "Verif.Props.C67_r2c_energy",
    "Verif.Props.C67_mean"
   ],
   "note": "exact arithmetic; C67_c2c_inner, C67_c2c_energy, C67_r2c_energy, C67_mean"
  },
  {
   "property": "C68",
   "status": "proved",
   "theorems": [
    "Verif.Props.C68_new",
    "Verif.Props.C68_sizes",
    "Verif.Props.C68_solvers",
    "Verif.Props.C68_from_ortho",
    "Verif.Props.C68_forward",
    "Verif.Props.C68_to_ortho",
    "Verif.Props.C68_backward",
    "Verif.Props.C68_gradient",
    "Verif.Props.C68_r2r",
    "Verif.Props.C68_r2c",
    "Verif.Props.C68_c2c"
   ],
   "note": "any arithmetic (Spec.Arith; Lean's Float is an instance); the external transforms are assumed to return the documented lengths"
  },
  {
   "property": "C69",
   "status": "proved",
   "theorems": [
    "Verif.Props.C69_arrays",
    "Verif.Props.C69_arrays_gradient",
    "Verif.Props.C69_space1_gradient",
    "Verif.Props.C69_space2_gradient",
    "Verif.Props.C69_space3_gradient"
   ],
   "note": "any arithmetic; spaces: C34_space*_\u2026 are stated for every number type, C69_space*_gradient for every scale"
  },
  {
   "property": "C70",
   "status": "proved",
   "theorems": [
    "Verif.Props.C70_main",
    "Verif.Props.C70_ranks",
    "Verif.Props.C70_fourier_chebyshev"
   ],
   "note": "any arithmetic; instance with Float on 8 ranks beside the theorem"
  },
  {
   "property": "C71",
   "status": "proved",
   "theorems": [
    "Verif.Props.C71_tdma_backward_stable"
   ],
   "note": "arithmetic with rounding (Spec.Rounding: standard model, relative error u per operation, unbounded exponents; Spec.Binary shows that round-to-nearest with any number of binary digits is an instance)"
  },
  {
   "property": "C72",
   "status": "proved",
   "theorems": [
    "Verif.Props.C72_new",
    "Verif.Props.C72_to_ortho"
   ],
   "note": "arithmetic with rounding (Spec.Rounding: standard model, relative error u per operation, unbounded exponents; Spec.Binary shows that round-to-nearest with any number of binary digits is an instance); C72_new: constructors, C72_to_ortho: error bound"
  },
  {
   "property": "C73",
   "status": "proved",
   "theorems": [
    "Verif.Props.C73_dirichlet",
    "Verif.Props.C73_neumann"
   ],
   "note": "arithmetic with rounding (Spec.Rounding: standard model, relative error u per operation, unbounded exponents; Spec.Binary shows that round-to-nearest with any number of binary digits is an instance); compared with the exact-arithmetic run of the same program"
  },
  {
   "property": "C74",
   "status": "proved",
   "theorems": [
    "Verif.Props.C74_dirichlet_round_trip",
    "Verif.Props.C74_neumann_round_trip"
   ],
   "note": "arithmetic with rounding (Spec.Rounding: standard model, relative error u per operation, unbounded exponents; Spec.Binary shows that round-to-nearest with any number of binary digits is an instance)"
  },
  {
   "property": "C75",
   "status": "proved",
   "theorems": [
    "Verif.Props.C75_gradient",
    "Verif.Props.C75_gradient_uniform",
    "Verif.Props.C75_composite_gradient"
   ],
   "note": "arithmetic with rounding (Spec.Rounding); compared with the exact-arithmetic run of the same program; needs no monotonicity of the rounding for the Chebyshev basis"
  },
  {
   "property": "C76",
   "status": "proved",
   "theorems": [
    "Verif.Props.C76_forward",
    "Verif.Props.C76_backward"
   ],
   "note": "arithmetic with rounding (Spec.Rounding); compared with the exact-arithmetic run of the same program; the accuracy of the external DCT is a parameter (Spec.DctError), met for instance by a correctly rounded DCT"
  },
  {
   "property": "C77",
   "status": "proved",
   "theorems": [
    "Verif.Props.C77_backward_forward",
    "Verif.Props.C77_forward_backward"
   ],
   "note": "arithmetic with rounding (Spec.Rounding); compared with the exact-arithmetic run of the same program; the accuracy of the external DCT is a parameter (Spec.DctError), met for instance by a correctly rounded DCT"
  },
  {
   "property": "C78",
   "status": "proved",
   "theorems": [
    "Verif.Props.C78_dirichlet_forward",
    "Verif.Props.C78_neumann_forward",
    "Verif.Props.C78_backward"
   ],
   "note": "arithmetic with rounding (Spec.Rounding); compared with the exact-arithmetic run of the same program; the accuracy of the external DCT is a parameter (Spec.DctError), met for instance by a correctly rounded DCT"
  },
  {
   "property": "C79",
   "status": "proved",
   "theorems": [
    "Verif.Props.C79_chebyshev",
    "Verif.Props.C79_fourier_c2c",
    "Verif.Props.C79_fourier_r2c"
   ],
   "note": "exact arithmetic; Spec.chebAlias, fourierAlias, cosAlias and sinSign say which basis function agrees on the grid"
  },
  {
   "property": "C80",
   "status": "proved",
   "theorems": [
    "Verif.Props.C80_chebyshev",
    "Verif.Props.C80_chebyshev_geometric",
    "Verif.Props.C80_fourier_c2c",
    "Verif.Props.C80_fourier_r2c"
   ],
   "note": "exact arithmetic; combined with C71-C78 for rounding. No statement on the gradient of fourier_c2c, which is wrong (C26)"
  },
  {
   "property": "C81",
   "status": "proved",
   "theorems": [
    "Verif.Props.C81_chebyshev",
    "Verif.Props.C81_fourier_c2c",
    "Verif.Props.C81_fourier_r2c",
    "Verif.Props.C81_fourier_powers",
    "Verif.Props.C81_fourier_extra_point",
    "Verif.Props.C81_fourier_samples_panic"
   ],
   "note": "arithmetic with rounding (Spec.Rounding); Spec.LibmError is the accuracy of the external sin, ceil and the constant pi; f64 is rounding to 53 binary digits. The extra grid point of the sizes 61*2^t is a finding"
  },
  {
   "property": "C82",
   "status": "proved",
   "theorems": [
    "Verif.Props.C82_chebyshev"
   ],
   "note": "truncation (C80), sampling and rounding errors (C75, C76) together; Spec.DctError is the assumed accuracy of the external cosine transform"
  },
  {
   "property": "C83",
   "status": "proved",
   "theorems": [
    "Verif.Props.C83_r2c_gradient",
    "Verif.Props.C83_c2c_gradient"
   ],
   "note": "for fourier_c2c the exact run is wrong for negative frequencies (C26), so the comparison is with the exact run of the code"
  },
  {
   "property": "C84",
   "status": "proved",
   "theorems": [
    "Verif.Props.C84_c2c_forward",
    "Verif.Props.C84_c2c_backward",
    "Verif.Props.C84_r2c_forward",
    "Verif.Props.C84_r2c_backward"
   ],
   "note": "Spec.FftError is the assumed accuracy of the external transforms; a rounding of the exact transforms meets it (roundedFft_error)"
  },
  {
   "property": "C85",
   "status": "proved",
   "theorems": [
    "Verif.Props.C85_c2c_backward_forward",
    "Verif.Props.C85_c2c_forward_backward",
    "Verif.Props.C85_r2c_backward_forward",
    "Verif.Props.C85_r2c_forward_backward"
   ],
   "note": "Spec.FftError is the assumed accuracy of the external transforms; a rounding of the exact transforms meets it (roundedFft_error)"
  },
  {
   "property": "C86",
   "status": "proved",
   "theorems": [
    "Verif.Props.C86_r2c_derivative"
   ],
   "note": "truncation (C80), sampling and rounding errors (C83, C84) together; Spec.FftError is the assumed accuracy of the external transforms; a rounding of the exact transforms meets it (roundedFft_error)"
  },
  {
   "property": "C87",
   "status": "proved",
   "theorems": [
    "Verif.Props.C87_at_once",
    "Verif.Props.C87_check_shape",
    "Verif.Props.C87_decomposition",
    "Verif.Props.C87_gather_target",
    "Verif.Props.C87_collectives_phys",
    "Verif.Props.C87_collectives_spec",
    "Verif.Props.C87_forward",
    "Verif.Props.C87_backward",
    "Verif.Props.C87_to_ortho",
    "Verif.Props.C87_from_ortho",
    "Verif.Props.C87_gradient"
   ],
   "note": "the inplace forms of to_ortho and from_ortho do not check the memory layout of the output, only its shape; the others check both"
  },
  {
   "property": "C88",
   "status": "proved",
   "theorems": [
    "Verif.Props.C88_dirichlet",
    "Verif.Props.C88_space2_r2r",
    "Verif.Props.C88_space2_r2c_r2r",
    "Verif.Props.C88_space3_r2r",
    "Verif.Props.C88_space3_r2c_r2r"
   ],
   "note": "real arithmetic; the derivative is the iterated derivative of the function of two (three) variables (within [-1,1] on the Chebyshev axes)"
  },
  {
   "property": "C89",
   "status": "proved",
   "theorems": [
    "Verif.Props.C89_backward_mirror",
    "Verif.Props.C89_forward_mirror",
    "Verif.Props.C89_parity",
    "Verif.Props.C89_gradient_mirror",
    "Verif.Props.C89_to_ortho_mirror",
    "Verif.Props.C89_from_ortho_mirror",
    "Verif.Props.C89_composite_gradient_mirror",
    "Verif.Props.C89_composite_forward_mirror",
    "Verif.Props.C89_composite_backward_mirror",
    "Verif.Props.C89_c2c_shift",
    "Verif.Props.C89_r2c_shift",
    "Verif.Props.C89_r2c_gradient_shift",
    "Verif.Props.C89_c2c_reflect",
    "Verif.Props.C89_r2c_reflect",
    "Verif.Props.C89_space2",
    "Verif.Props.C89_space3",
    "Verif.Props.C89_symmetric_id",
    "Verif.Props.C89_symmetric_mirror",
    "Verif.Props.C89_symmetric_c2c",
    "Verif.Props.C89_symmetric_r2c",
    "Verif.Props.C89_spaces2",
    "Verif.Props.C89_spaces3"
   ],
   "note": "exact arithmetic; backward and gradient of the biharmonic bases are excluded because they read out of bounds (C12), Dirichlet-Neumann because its boundary conditions are not symmetric; the space-level theorems (C89_spaces2, C89_spaces3) take any symmetry of the bases' forward, C89_symmetric_* supply identity, mirror and shifts"
  },
  {
   "property": "C90",
   "status": "proved",
   "theorems": [
    "Verif.Props.C90_inner",
    "Verif.Props.C90_energy",
    "Verif.Props.C90_coefficients",
    "Verif.Props.C90_bound"
   ],
   "note": "real arithmetic"
  },
  {
   "property": "C91",
   "status": "proved",
   "theorems": [
    "Verif.Props.C91_tdma",
    "Verif.Props.C91_pdma",
    "Verif.Props.C91_pdma2",
    "Verif.Props.C91_positive_definite",
    "Verif.Props.C91_dominant"
   ],
   "note": "exact arithmetic over any field; division by zero is the error div0 of the model (the code would produce infinities)"
  },
  {
   "property": "C92",
   "status": "proved",
   "theorems": [
    "Verif.Props.C92_space1_forward",
    "Verif.Props.C92_space1_backward",
    "Verif.Props.C92_space1_to_ortho",
    "Verif.Props.C92_space1_from_ortho",
    "Verif.Props.C92_space1_gradient",
    "Verif.Props.C92_space2_forward",
    "Verif.Props.C92_space2_backward",
    "Verif.Props.C92_space2_to_ortho",
    "Verif.Props.C92_space2_from_ortho",
    "Verif.Props.C92_space2_gradient",
    "Verif.Props.C92_space3_forward",
    "Verif.Props.C92_space3_backward",
    "Verif.Props.C92_space3_to_ortho",
    "Verif.Props.C92_space3_from_ortho",
    "Verif.Props.C92_space3_gradient",
    "Verif.Props.C92_bases_any",
    "Verif.Props.C92_bases"
   ],
   "note": "hypothesis StaysInBounds is established for all constructible bases that are not biharmonic (C92_bases, C92_bases_any); that fitting arrays are accepted is C41 and C69"
  },
  {
   "property": "C93",
   "status": "proved",
   "theorems": [
    "Verif.Props.C93_pdma_backward",
    "Verif.Props.C93_pdma2_backward",
    "Verif.Props.C93_pdma_dominant",
    "Verif.Props.C93_pdma2_dominant",
    "Verif.Props.C93_tdma_dominant"
   ],
   "note": "Backward error in terms of the computed factors (C93_pdma_backward, C93_pdma2_backward); return, row-wise backward error and forward error against the exact solver on dominant systems (C93_pdma_dominant, C93_pdma2_dominant, C93_tdma_dominant). The example instantiates them with 53 binary digits for every size."
  },
  {
   "property": "C94",
   "status": "proved",
   "theorems": [
    "Verif.Props.C94_new",
    "Verif.Props.C94_to_ortho",
    "Verif.Props.C94_gradient",
    "Verif.Props.C94_from_ortho",
    "Verif.Props.C94_round_trip",
    "Verif.Props.C94_forward",
    "Verif.Props.C94_backward"
   ],
   "note": "Rounding model of Spec/Rounding; extends C72, C75, C78 to the third base whose to_ortho is defined (the two biharmonic bases read out of bounds, C12)."
  },
  {
   "property": "C95",
   "status": "proved",
   "theorems": [
    "Verif.Props.C95_re",
    "Verif.Props.C95_im",
    "Verif.Props.C95_conj",
    "Verif.Props.C95_mul",
    "Verif.Props.C95_float_re",
    "Verif.Props.C95_float_im",
    "Verif.Props.C95_solvers",
    "Verif.Props.C95_slices",
    "Verif.Props.C95_arrays",
    "Verif.Props.C95_arrays_par",
    "Verif.Props.C95_space1",
    "Verif.Props.C95_space2",
    "Verif.Props.C95_space3",
    "Verif.Props.C95_gradient_parts",
    "Verif.Props.C95_of_real"
   ],
   "note": "In the source the gradient and the optional scaling convert the real factor to the data type first; for complex floating-point data this product agrees with the product part by part except for the sign of a zero and after an overflow, the scaled quotient up to rounding (see the comments at chebGradPass and divAll)."
  },
  {
   "property": "C96",
   "status": "proved",
   "theorems": [
    "Verif.Props.C96_r2r_to_ortho",
    "Verif.Props.C96_r2r_from_ortho",
    "Verif.Props.C96_r2r_forward",
    "Verif.Props.C96_r2r_backward",
    "Verif.Props.C96_r2r_gradient",
    "Verif.Props.C96_r2r_to_ortho_complex",
    "Verif.Props.C96_r2r_from_ortho_complex",
    "Verif.Props.C96_r2r_gradient_complex",
    "Verif.Props.C96_fourier_c2c",
    "Verif.Props.C96_fourier_r2c",
    "Verif.Props.C96_space1_gradient",
    "Verif.Props.C96_space2_gradient",
    "Verif.Props.C96_space1_forward",
    "Verif.Props.C96_space1_backward",
    "Verif.Props.C96_space1_to_ortho",
    "Verif.Props.C96_space1_from_ortho",
    "Verif.Props.C96_space2_forward",
    "Verif.Props.C96_space2_backward",
    "Verif.Props.C96_space2_to_ortho",
    "Verif.Props.C96_space2_from_ortho",
    "Verif.Props.C96_space3_forward",
    "Verif.Props.C96_space3_backward",
    "Verif.Props.C96_space3_to_ortho",
    "Verif.Props.C96_space3_from_ortho",
    "Verif.Props.C96_space1_gradient_scaled",
    "Verif.Props.C96_space2_gradient_scaled",
    "Verif.Props.C96_powi_by_multiplication",
    "Verif.Props.C96_division"
   ],
   "note": "Not covered: gradient of Space3 (which uses the wrong base, C40), cheb_biharmonic_a/b (their to_ortho has undefined behaviour, C12). Gradient of Chebyshev bases on complex data is covered with products and quotients part by part (the source converts the factors to complex numbers, which is the same in a binary format without overflow). The scaling of gradients assumes that powi rounds at most d times (true for repeated multiplication: C96_powi_by_multiplication)."
  },
  {
   "property": "C97",
   "status": "proved",
   "theorems": [
    "Verif.Props.C97_dirichlet",
    "Verif.Props.C97_fourier_r2c",
    "Verif.Props.C97_space2_r2r",
    "Verif.Props.C97_space2_r2c_r2r"
   ],
   "note": "Extends C82 (chebyshev, one axis)."
  },
  {
   "property": "C98",
   "status": "proved",
   "theorems": [
    "Verif.Props.C98_forward",
    "Verif.Props.C98_derivative",
    "Verif.Props.C98_space2_r2c_r2r",
    "Verif.Props.C98_space2_r2r",
    "Verif.Props.C98_total"
   ],
   "note": "proved: C98_forward for all five kinds (least squares: the projection is no further from the interpolant than the interpolant corrected in its four leading coefficients); C98_derivative and C98_total for the bases whose gradient runs (for the biharmonic ones gradient is out of bounds, C12/C22); C98_space2_r2r and C98_space2_r2c_r2r: the derivative on the grid is a product of two matrices, compared factor by factor with those of the Chebyshev space (C88)"
  },
  {
   "property": "C99",
   "status": "proved",
   "theorems": [
    "Verif.Props.C99_counts_all_gather_release",
    "Verif.Props.C99_counts_all_gather_debug",
    "Verif.Props.C99_counts_all_gather_limit",
    "Verif.Props.C99_counts_all_to_all_release",
    "Verif.Props.C99_transpose_panics",
    "Verif.Props.C99_transpose_none_returns",
    "Verif.Props.C99_global_panics",
    "Verif.Props.C99_scatter_none_returns"
   ],
   "note": "proved: C99_counts_all_gather_release/_debug/_limit, C99_counts_all_to_all_release (wrap-around and overflow checks); C99_transpose_panics, C99_transpose_none_returns, C99_global_panics, C99_scatter_none_returns; that rsmpi refuses buffers of 2^31 elements and more (its `Count` is an i32) is part of the model of the crate"
  },
  {
   "property": "C100",
   "status": "proved",
   "theorems": [
    "Verif.Props.C100_space1_values",
    "Verif.Props.C100_space1_coefficients",
    "Verif.Props.C100_space1_projection",
    "Verif.Props.C100_space1_ortho",
    "Verif.Props.C100_space2_values",
    "Verif.Props.C100_space2_coefficients",
    "Verif.Props.C100_space2_projection",
    "Verif.Props.C100_space2_ortho",
    "Verif.Props.C100_space3_values",
    "Verif.Props.C100_space3_coefficients",
    "Verif.Props.C100_space3_projection",
    "Verif.Props.C100_space3_ortho",
    "Verif.Props.C100_growth",
    "Verif.Props.C100_r2c_chebyshev",
    "Verif.Props.C100_r2c_r2r",
    "Verif.Props.C100_r2r_r2r"
   ],
   "note": "proved: C100_space1/2/3_values, _coefficients, _projection, _ortho (any bases that satisfy C96 and the exact laws), C100_r2c_chebyshev, C100_r2c_r2r, C100_r2r_r2r (constructors of the library), C100_growth; C100_space*_projection keeps the hypothesis 1 <= gain, which C100_r2c_r2r discharges"
  },
  {
   "property": "C101",
   "status": "proved",
   "theorems": [
    "Verif.Props.C101_crash",
    "Verif.Props.C101_history",
    "Verif.Props.C101_fourier_chebyshev"
   ],
   "note": "proved: C101_crash (any programs that return without crashes), C101_history (programs of C65), C101_fourier_chebyshev (library spaces, any arithmetic); messages are lost from the end of a channel only (MPI keeps the order of messages)"
  },
  {
   "property": "C102",
   "status": "proved",
   "theorems": [
    "Verif.Props.C102_tau",
    "Verif.Props.C102_dirichlet",
    "Verif.Props.C102_neumann",
    "Verif.Props.C102_mixed",
    "Verif.Props.C102_exact",
    "Verif.Props.C102_quasi_optimal",
    "Verif.Props.C102_stable",
    "Verif.Props.C102_error"
   ],
   "note": "proved: C102_tau (all five bases), C102_dirichlet, C102_neumann, C102_mixed (unique solvability), C102_exact, C102_quasi_optimal, C102_stable, C102_error. Stability with constants independent of n is proved for cheb_dirichlet; the biharmonic systems are not square (n - 2 equations, n - 4 unknowns)"
  },
  {
   "property": "C103",
   "status": "proved",
   "theorems": [
    "Verif.Props.C103_diffmat",
    "Verif.Props.C103_laplacian",
    "Verif.Props.C103_diffmat_pinv",
    "Verif.Props.C103_laplacian_pinv",
    "Verif.Props.C103_stencil",
    "Verif.Props.C103_stencil_mixed",
    "Verif.Props.C103_stencil_inv",
    "Verif.Props.C103_composite",
    "Verif.Props.C103_derivative",
    "Verif.Props.C103_correctly_rounded",
    "Verif.Props.C103_exact"
   ],
   "note": "proved: C103_diffmat, C103_laplacian, C103_diffmat_pinv, C103_laplacian_pinv, C103_stencil, C103_stencil_mixed, C103_stencil_inv (two-diagonal bases), C103_composite, C103_derivative, C103_correctly_rounded, C103_exact"
  },
  {
   "property": "C104",
   "status": "proved",
   "theorems": [
    "Verif.Props.C104_tau",
    "Verif.Props.C104_helmholtz",
    "Verif.Props.C104_poisson",
    "Verif.Props.C104_stable",
    "Verif.Props.C104_exact",
    "Verif.Props.C104_r2c",
    "Verif.Props.C104_c2c"
   ],
   "note": "proved: C104_tau (all pairs of composite bases), C104_helmholtz (unique solvability, boundary values; C104_poisson is beta = 0), C104_exact, C104_stable, C104_r2c, C104_c2c. Unique solvability with two Chebyshev axes is proved for two Dirichlet axes; with Neumann conditions on both axes and beta = 0 the constants are in the kernel"
  },
  {
   "property": "C105",
   "status": "proved",
   "theorems": [
    "Verif.Props.C105_new",
    "Verif.Props.C105_history",
    "Verif.Props.C105_schedule_independent",
    "Verif.Props.C105_to_ortho",
    "Verif.Props.C105_gradient",
    "Verif.Props.C105_forward_backward",
    "Verif.Props.C105_axis_base",
    "Verif.Props.C105_ingredients_cheb",
    "Verif.Props.C105_ingredients_r2c",
    "Verif.Props.C105_ingredients_c2c",
    "Verif.Props.C105_two",
    "Verif.Props.C105_one_three"
   ],
   "note": "proved: C105_new, C105_history, C105_schedule_independent, C105_to_ortho, C105_gradient, C105_forward_backward, C105_axis_base, C105_ingredients_cheb, C105_ingredients_r2c, C105_ingredients_c2c. In three dimensions gradient needs the two last bases to have equal sizes, because of the bug of C40"
  },
  {
   "property": "C106",
   "status": "proved",
   "theorems": [
    "Verif.Props.C106_run",
    "Verif.Props.C106_stable",
    "Verif.Props.C106_converges",
    "Verif.Props.C106_run2",
    "Verif.Props.C106_stable2",
    "Verif.Props.C106_converges2",
    "Verif.Props.C106_r2c",
    "Verif.Props.C106_c2c"
   ],
   "note": "proved: C106_run, C106_stable, C106_converges in one dimension, C106_run2, C106_stable2, C106_converges2 in two, C106_r2c, C106_c2c (all three statements, mode by mode) on Fourier x cheb_dirichlet spaces. Real arithmetic; the linear solver is the user's, a step is characterised by the equation it solves"
  },
  {
   "property": "C107",
   "status": "proved",
   "theorems": [
    "Verif.Props.C107_refine_cheb",
    "Verif.Props.C107_product_cheb",
    "Verif.Props.C107_product_cheb_exact",
    "Verif.Props.C107_product_cheb_sharp",
    "Verif.Props.C107_refine_c2c",
    "Verif.Props.C107_product_c2c",
    "Verif.Props.C107_product_c2c_sharp",
    "Verif.Props.C107_refine_r2c",
    "Verif.Props.C107_product_r2c",
    "Verif.Props.C107_product2",
    "Verif.Props.C107_product2_r2c",
    "Verif.Props.C107_refine_compo",
    "Verif.Props.C107_product_compo"
   ],
   "note": "proved: C107_refine_cheb, C107_product_cheb, C107_product_cheb_exact, C107_product_cheb_sharp, C107_refine_c2c, C107_product_c2c, C107_product_c2c_sharp, C107_refine_r2c, C107_product_r2c; for the composite bases C107_refine_compo, C107_product_compo; in two dimensions C107_product2, C107_product2_r2c (products of derivatives, whole pipeline). Exact arithmetic"
  },
  {
   "property": "C108",
   "status": "proved",
   "theorems": [
    "Verif.Props.C108_bases",
    "Verif.Props.C108_space1",
    "Verif.Props.C108_space2",
    "Verif.Props.C108_space3",
    "Verif.Props.C108_spaces2"
   ],
   "note": "proved: C108_bases (the three orthogonal bases), C108_space1, C108_space2, C108_space3 (energies multiply), C108_spaces2 (the four kinds of two-dimensional spaces with explicit weights). Exact arithmetic"
  },
  {
   "property": "C109",
   "status": "proved",
   "theorems": [
    "Verif.Props.C109_space1",
    "Verif.Props.C109_space2_r2r_r2r",
    "Verif.Props.C109_space2_r2c_r2r",
    "Verif.Props.C109_space2_fourier",
    "Verif.Props.C109_space3_transforms",
    "Verif.Props.C109_space3_gradient",
    "Verif.Props.C109_mixed_commute"
   ],
   "note": "proved: C109_space1, C109_space2_r2r_r2r, C109_space2_r2c_r2r, C109_space2_fourier, C109_space3_transforms, C109_space3_gradient (equal second and third bases), C109_mixed_commute. Exact arithmetic"
  },
  {
   "property": "C110",
   "status": "proved",
   "theorems": [
    "Verif.Props.C110_space2_forward",
    "Verif.Props.C110_space2_backward",
    "Verif.Props.C110_space3_forward",
    "Verif.Props.C110_space3_backward",
    "Verif.Props.C110_space2_spectral",
    "Verif.Props.C110_space3_spectral",
    "Verif.Props.C110_space3_gradient",
    "Verif.Props.C110_spaces2",
    "Verif.Props.C110_spaces3",
    "Verif.Props.C110_every_array2"
   ],
   "note": "proved: C110_space2_forward, C110_space2_backward, C110_space2_spectral, C110_space3_forward, C110_space3_backward, C110_space3_spectral, C110_space3_gradient (from the linearity of the bases), C110_spaces2 and C110_spaces3 (all nine kinds of spaces of the library), C110_every_array2. Exact arithmetic. backward needs a first factor whose grid values are real where the data of the space are real"
  },
  {
   "property": "C111",
   "status": "proved",
   "theorems": [
    "Verif.Props.C111_space2",
    "Verif.Props.C111_space3",
    "Verif.Props.C111_space3_gradient",
    "Verif.Props.C111_spaces2",
    "Verif.Props.C111_spaces3"
   ],
   "note": "exact arithmetic; spaces whose axes can be exchanged within the library (all axes real-to-real or all fourier_c2c: the library fixes the position of fourier_r2c); gradient in three dimensions only for equal bases because of C40"
  },
  {
   "property": "C112",
   "status": "proved",
   "theorems": [
    "Verif.Props.C112_exists",
    "Verif.Props.C112_pairing",
    "Verif.Props.C112_by_parts",
    "Verif.Props.C112_mean",
    "Verif.Props.C112_odd",
    "Verif.Props.C112_even",
    "Verif.Props.C112_bounds",
    "Verif.Props.C112_space2"
   ],
   "note": "exact arithmetic; fourier_c2c is excluded because its gradient is wrong (C26)"
  },
  {
   "property": "C113",
   "status": "proved",
   "theorems": [
    "Verif.Props.C113_leibniz_r2c",
    "Verif.Props.C113_powers",
    "Verif.Props.C113_conservative",
    "Verif.Props.C113_band_limited",
    "Verif.Props.C113_powers_sharp",
    "Verif.Props.C113_leibniz_cheb"
   ],
   "note": "exact arithmetic; the multiplication on the grid is done by the user"
  },
  {
   "property": "C114",
   "status": "proved",
   "theorems": [
    "Verif.Props.C114_runs",
    "Verif.Props.C114_modes",
    "Verif.Props.C114_mean",
    "Verif.Props.C114_stable",
    "Verif.Props.C114_converges",
    "Verif.Props.C114_unstable",
    "Verif.Props.C114_euler_waves",
    "Verif.Props.C114_leapfrog",
    "Verif.Props.C114_crank_nicolson",
    "Verif.Props.C114_waves_run"
   ],
   "note": "exact arithmetic; the update of the grid data is done by the user"
  },
  {
   "property": "C115",
   "status": "proved",
   "theorems": [
    "Verif.Props.C115_c2c_product",
    "Verif.Props.C115_c2c_filter",
    "Verif.Props.C115_c2c_correlation",
    "Verif.Props.C115_r2c_product",
    "Verif.Props.C115_r2c_filter",
    "Verif.Props.C115_r2c_correlation",
    "Verif.Props.C115_cheb_product"
   ],
   "note": "exact arithmetic; the pointwise products are formed by the user"
  },
  {
   "property": "C116",
   "status": "proved",
   "theorems": [
    "Verif.Props.C116_fourier_r2c",
    "Verif.Props.C116_chebyshev",
    "Verif.Props.C116_composite",
    "Verif.Props.C116_fourier_c2c"
   ],
   "note": "exact arithmetic (rounding: C82, C86, C97); the rates are those of the proof, for the Chebyshev bases not the best possible"
  },
  {
   "property": "C117",
   "status": "proved",
   "theorems": [
    "Verif.Props.C117_dirichlet"
   ],
   "note": "exact arithmetic; the system is solved exactly (the library has no dense solver); sizes up to 2642246 (C07)"
  },
  {
   "property": "C118",
   "status": "proved",
   "theorems": [
    "Verif.Props.C118_run",
    "Verif.Props.C118_heat"
   ],
   "note": "exact arithmetic; the systems are solved exactly; sizes 5 to 2642246; the solution is a smooth function on the whole plane that satisfies the equation on [0,T] x [-1,1]"
  },
  {
   "property": "C119",
   "status": "proved",
   "theorems": [
    "Verif.Props.C119_poisson"
   ],
   "note": "exact arithmetic; the system is solved exactly; sizes 5 to 2642246 per axis"
  },
  {
   "property": "C120",
   "status": "proved",
   "theorems": [
    "Verif.Props.C120_run",
    "Verif.Props.C120_heat"
   ],
   "note": "exact arithmetic; the systems are solved exactly; sizes 5 to 2642246 per axis; the solution is a smooth function on the whole space that satisfies the equation on [0,T] x [-1,1]^2"
  },
  {
   "property": "C121",
   "status": "proved",
   "theorems": [
    "Verif.Props.C121_chebyshev_chebyshev",
    "Verif.Props.C121_r2c_chebyshev",
    "Verif.Props.C121_faster_than_any_power"
   ],
   "note": "exact arithmetic; orders below 2^31 when scales are given; the function is smooth on the whole plane"
  },
  {
   "property": "C122",
   "status": "proved",
   "theorems": [
    "Verif.Props.C122_poisson"
   ],
   "note": "exact arithmetic; the linear system is solved exactly; Y is smooth for all y, not only on [-1, 1]"
  },
  {
   "property": "C123",
   "status": "proved",
   "theorems": [
    "Verif.Props.C123_run",
    "Verif.Props.C123_heat"
   ],
   "note": "exact arithmetic; the systems are solved exactly; the solution is a smooth function on the whole space that satisfies the equation, the boundary conditions and the periodicity on [0,T] x R x [-1,1]"
  },
  {
   "property": "C124",
   "status": "proved",
   "theorems": [
    "Verif.Props.C124_diffusion",
    "Verif.Props.C124_waves"
   ],
   "note": "exact arithmetic; the implicit systems are solved exactly"
  }
 ]
}