{
 "claims": [
  {
   "property": "C01",
   "status": "proved",
   "theorems": [
    "TooN.View.c01_views_address_right_element",
    "TooN.View.c01_matrix_identities",
    "TooN.View.c01_slice_slice"
   ],
   "note": "arbitrary chains of view operations"
  },
  {
   "property": "C02",
   "status": "proved",
   "theorems": [
    "TooN.View.c02_in_bounds",
    "TooN.View.c02_no_self_alias"
   ],
   "note": ""
  },
  {
   "property": "C03",
   "status": "proved",
   "theorems": [
    "TooN.View.c03_write_through",
    "TooN.View.c03_disjoint_slices"
   ],
   "note": ""
  },
  {
   "property": "C04",
   "status": "proved",
   "theorems": [
    "TooN.Checks.c04_dynamic_slice",
    "TooN.Checks.c04_static_slice",
    "TooN.Checks.c04_mixed_slice",
    "TooN.Checks.c04_int_overflow"
   ],
   "note": "also proves that int overflow of start+length is accepted by the run-time check (c04_int_overflow)"
  },
  {
   "property": "C05",
   "status": "proved",
   "theorems": [
    "TooN.Checks.c05_size_mismatch",
    "TooN.Checks.c05_result_size"
   ],
   "note": ""
  },
  {
   "property": "C06",
   "status": "proved",
   "theorems": [
    "TooN.Heap.c06_value_semantics",
    "TooN.Heap.c06_no_sharing_no_leak",
    "TooN.Heap.c06_write_independent",
    "TooN.Heap.c06_assign_to_moved_from_is_ub",
    "TooN.Heap.c06_dead_object_is_ub",
    "TooN.Heap.c06_dead_buffer_is_ub"
   ],
   "note": ""
  },
  {
   "property": "C07",
   "status": "partial",
   "theorems": [
    "TooN.Resize.c07_resize",
    "TooN.Resize.c07_assign_other_partial",
    "TooN.Resize.c07_self_assign_partial",
    "TooN.Resize.c07_self_assign_debug_destroys",
    "TooN.Resize.c07_assign_empty_ub",
    "TooN.Resize.c07_self_slice_ub"
   ],
   "note": "False of the code as stated: self assignment destroys contents when TOON_INITIALIZE_* is on (c07_self_assign_debug_destroys), assigning an empty vector is UB (c07_assign_empty_ub), assigning a proper suffix slice of itself is UB (c07_self_slice_ub). Proved on the complement."
  },
  {
   "property": "C08",
   "status": "proved",
   "theorems": [
    "TooN.View.c08_assign_vector",
    "TooN.View.c08_noHazard_disjoint",
    "TooN.View.c08_noHazard_self",
    "TooN.View.c08_shift_down",
    "TooN.View.c08_shift_up_smears",
    "TooN.View.c08_assign_matrix",
    "TooN.View.c08_transpose_in_place"
   ],
   "note": ""
  },
  {
   "property": "C09",
   "status": "proved",
   "theorems": [
    "TooN.View.c09_compound_vector",
    "TooN.View.c09_compound_matrix",
    "TooN.View.c09_scalar_vector",
    "TooN.View.c09_scalar_matrix",
    "TooN.Ops.c09_pairwise_vector",
    "TooN.Ops.c09_add_sub_vector",
    "TooN.Ops.c09_pairwise_matrix",
    "TooN.Ops.c09_add_sub_matrix",
    "TooN.Ops.c09_scalar",
    "TooN.Ops.c09_dot",
    "TooN.Ops.c09_cross",
    "TooN.Ops.c09_mul_matrix",
    "TooN.Ops.c09_mul_vector",
    "TooN.Ops.c09_diagmult_matrix"
   ],
   "note": ""
  },
  {
   "property": "C10",
   "status": "proved",
   "theorems": [
    "TooN.Ops.c10_mul_assoc",
    "TooN.Ops.c10_mul_transpose",
    "TooN.Ops.c10_mul_add",
    "TooN.Ops.c10_mul_vec_assoc",
    "TooN.Ops.c10_outer_product",
    "TooN.Ops.c10_cross_laws",
    "TooN.Ops.c10_identity_neutral"
   ],
   "note": ""
  },
  {
   "property": "C11",
   "status": "proved",
   "theorems": [
    "TooN.Ops.c11_fill",
    "TooN.Ops.c11_identity",
    "TooN.Ops.c11_identity_arith",
    "TooN.Ops.c11_identity_nonsquare",
    "TooN.Ops.c11_ones_arith"
   ],
   "note": ""
  },
  {
   "property": "C12",
   "status": "partial",
   "theorems": [
    "TooN.Fill.c12_fill_vector_partial",
    "TooN.Fill.c12_fill_vector_size_one",
    "TooN.Fill.c12_full_claim_false"
   ],
   "note": "False for size-1 vectors (c12_fill_vector_size_one, c12_full_claim_false); proved for every other size."
  },
  {
   "property": "C13",
   "status": "partial",
   "theorems": [
    "TooN.Fill.c13_fill_matrix_partial",
    "TooN.Fill.c13_row_major",
    "TooN.Fill.c13_one_column_never_succeeds",
    "TooN.Fill.c13_full_claim_false"
   ],
   "note": "False for one-column matrices (c13_one_column_never_succeeds); proved for all others."
  },
  {
   "property": "C14",
   "status": "proved",
   "theorems": [
    "TooN.Ops.c14_eq_raw",
    "TooN.Ops.c14_eq",
    "TooN.Ops.c14_ne_zeros"
   ],
   "note": ""
  },
  {
   "property": "C15",
   "status": "proved",
   "theorems": [
    "TooN.Stream.c15_vector_roundtrip",
    "TooN.Stream.c15_matrix_roundtrip"
   ],
   "note": "scalar formatting/parsing are parameters with a stated round-trip contract"
  },
  {
   "property": "C16",
   "status": "proved",
   "theorems": [
    "TooN.Elim.c16_gauss_jordan_solves",
    "TooN.Elim.c16_gauss_jordan_fails_iff_singular",
    "TooN.Elim.c16_gauss_jordan_inverse"
   ],
   "note": ""
  },
  {
   "property": "C17",
   "status": "proved",
   "theorems": [
    "TooN.Elim.c17_gaussian_elimination_solves",
    "TooN.Elim.c17_gaussian_elimination_vector",
    "TooN.Elim.c17_gaussian_elimination_fails_iff_singular",
    "TooN.Elim.c17_gaussian_elimination_eq_inv_mul"
   ],
   "note": ""
  },
  {
   "property": "C18",
   "status": "proved",
   "theorems": [
    "TooN.Elim.c18_determinant_gaussian_elimination",
    "TooN.Elim.c18_determinant"
   ],
   "note": ""
  },
  {
   "property": "C19",
   "status": "partial",
   "theorems": [
    "TooN.LU.c19_contract_satisfiable",
    "TooN.LU.c19_determinant",
    "TooN.LU.c19_backsub_vector",
    "TooN.LU.c19_backsub_matrix_partial",
    "TooN.LU.c19_backsub_dynamic_partial",
    "TooN.LU.c19_backsub_dynamic_wrong",
    "TooN.LU.c19_inverse",
    "TooN.LU.c19_get_lu"
   ],
   "note": "LAPACK contract is a hypothesis (shown satisfiable, c19_contract_satisfiable). backsub(Matrix) is false for dynamically sized right-hand sides (c19_backsub_dynamic_wrong, for every LAPACK meeting the contract): proved for statically sized ones and for the dynamic case without interchanges."
  },
  {
   "property": "C20",
   "status": "proved",
   "theorems": [
    "TooN.Chol.c20_ldl_of_full_rank",
    "TooN.Chol.c20_upper_half_ignored",
    "TooN.Chol.c20_posdef_full_rank",
    "TooN.Chol.c20_cholesky_of_posdef",
    "TooN.Chol.c20_posdef_iff_positive_pivots"
   ],
   "note": ""
  },
  {
   "property": "C21",
   "status": "proved",
   "theorems": [
    "TooN.Chol.c21_backsub",
    "TooN.Chol.c21_backsub_matrix",
    "TooN.Chol.c21_inverse",
    "TooN.Chol.c21_determinant",
    "TooN.Chol.c21_mahalanobis",
    "TooN.Chol.c21_get_L"
   ],
   "note": ""
  },
  {
   "property": "C22",
   "status": "proved",
   "theorems": [
    "TooN.Chol.c22_rank_full_iff",
    "TooN.Chol.c22_rank_is_first_zero_minor",
    "TooN.Chol.c22_backsub_needs_full_rank",
    "TooN.Chol.c22_psd_determinant",
    "TooN.Chol.c22_rank_is_not_matrix_rank",
    "TooN.Chol.c22_determinant_early_stop_wrong"
   ],
   "note": "includes negative witnesses: rank() after an early stop is not the matrix rank, determinant() after an early stop is wrong for indefinite matrices"
  },
  {
   "property": "C23",
   "status": "proved",
   "theorems": [
    "TooN.WLS.c23_information",
    "TooN.WLS.c23_minimiser"
   ],
   "note": ""
  },
  {
   "property": "C24",
   "status": "proved",
   "theorems": [
    "TooN.WLS.c24_order_independent",
    "TooN.WLS.c24_plusEq",
    "TooN.WLS.c24_clear"
   ],
   "note": ""
  },
  {
   "property": "C25",
   "status": "proved",
   "theorems": [
    "TooN.WLS.c25_upper_is_all",
    "TooN.WLS.c25_sparse",
    "TooN.WLS.c25_cov_is_rows",
    "TooN.WLS.c25_sparse_rows",
    "TooN.WLS.c25_sparse_rows2",
    "TooN.WLS.c25_mJs_is_rows",
    "TooN.WLS.c25_priors"
   ],
   "note": ""
  },
  {
   "property": "C26",
   "status": "partial",
   "theorems": [
    "TooN.IRLS.c26_robustI_true_scale",
    "TooN.IRLS.c26_robustI_objective",
    "TooN.IRLS.c26_robustII_objective",
    "TooN.IRLS.c26_robustII_weight_deriv",
    "TooN.IRLS.c26_robustII_true_scale_wrong",
    "TooN.IRLS.c26_linear_true_scale",
    "TooN.IRLS.c26_linear_objective_wrong",
    "TooN.IRLS.c26_robustIII_objective",
    "TooN.IRLS.c26_weights_positive",
    "TooN.IRLS.c26_set_sd",
    "TooN.IRLS.c26_history",
    "TooN.IRLS.c26_minimises",
    "TooN.IRLS.c26_true_C_inv_is_garbage",
    "TooN.IRLS.c26_plusEq_loses_residual",
    "TooN.IRLS.c26_plusEq_wls",
    "TooN.IRLS.c26_clear"
   ],
   "note": "False for RobustII::true_scale (c26_robustII_true_scale_wrong), ILinear::objective (c26_linear_objective_wrong) and true_C_inv (c26_true_C_inv_is_garbage: built from uninitialised memory); += drops the residual (c26_plusEq_loses_residual). Everything else proved."
  },
  {
   "property": "C27",
   "status": "proved",
   "theorems": [
    "TooN.QR.c27_factorisation",
    "TooN.QR.c27_step_fails_iff",
    "TooN.QR.c27_reduced_first_column_fails",
    "TooN.QR.c27_full_claim_false",
    "TooN.QR.c27_two_rows"
   ],
   "note": "rows <= columns as documented; also proves exactly when the code divides by zero (c27_step_fails_iff), e.g. on every upper triangular matrix and the identity"
  },
  {
   "property": "C28",
   "status": "partial",
   "theorems": [
    "TooN.SVD.c28_decomposition",
    "TooN.SVD.c28_no_division_by_zero",
    "TooN.SVD.c28_inv_diag",
    "TooN.SVD.c28_pinv_moore_penrose",
    "TooN.SVD.c28_pinv_truncated",
    "TooN.SVD.c28_backsub_eq_pinv",
    "TooN.SVD.c28_backsub_least_squares",
    "TooN.SVD.c28_invertible",
    "TooN.SVD.c28_determinant_partial",
    "TooN.SVD.c28_determinant_wrong",
    "TooN.SVD.c28_rank_returns",
    "TooN.SVD.c28_rank_partial",
    "TooN.SVD.c28_rank_wrong",
    "TooN.SVD.c28_contract_satisfiable"
   ],
   "note": "LAPACK contract is a hypothesis (satisfiable over R: c28_contract_satisfiable). False for rank() (inverted comparison: returns 1+min-rank(A), c28_rank_partial, c28_rank_wrong) and determinant() (absolute value, c28_determinant_partial, c28_determinant_wrong); everything else proved."
  },
  {
   "property": "C29",
   "status": "proved",
   "theorems": [
    "TooN.SymEigen.c29_compute2"
   ],
   "note": ""
  },
  {
   "property": "C30",
   "status": "proved",
   "theorems": [
    "TooN.SymEigen.c30_compute",
    "TooN.SymEigen.c30_contract_satisfiable",
    "TooN.SymEigen.c30_inv_diag",
    "TooN.SymEigen.c30_pinv",
    "TooN.SymEigen.c30_pinv_inverse",
    "TooN.SymEigen.c30_determinant",
    "TooN.SymEigen.c30_definiteness",
    "TooN.SymEigen.c30_sqrtm",
    "TooN.SymEigen.c30_isqrtm"
   ],
   "note": "the LAPACK syev contract is a hypothesis (satisfiable: c30_contract_satisfiable); the isqrtm threshold compares square roots as in the code"
  },
  {
   "property": "C31",
   "status": "partial",
   "theorems": [
    "TooN.SymEigen.c31_eigenvalues",
    "TooN.SymEigen.c31_zero_matrix_wrong",
    "TooN.SymEigen.c31_separated_partial",
    "TooN.SymEigen.c31_all_small",
    "TooN.SymEigen.c31_scalar",
    "TooN.SymEigen.c31_tiny_matrix_wrong",
    "TooN.SymEigen.c31_double_partial",
    "TooN.SymEigen.c31_all_ones_wrong",
    "TooN.SymEigen.c31_one_small_wrong"
   ],
   "note": "False of the code: zero matrix leaves the eigenvalues unset (c31_zero_matrix_wrong), tiny matrices get identity eigenvectors (c31_tiny_matrix_wrong), the all-ones matrix divides by zero (c31_all_ones_wrong), the one-small branch normalises the wrong rows (c31_one_small_wrong). Proved: eigenvalues for every nonzero symmetric matrix; complete decomposition for separated, double and triple eigenvalues outside those cases."
  },
  {
   "property": "C32",
   "status": "proved",
   "theorems": [
    "TooN.GRSVD.c32_returns",
    "TooN.GRSVD.c32_decomposition",
    "TooN.GRSVD.c32_exact",
    "TooN.GRSVD.c32_iteration_limit",
    "TooN.GRSVD.c32_orthogonal",
    "TooN.GRSVD.c32_nonneg",
    "TooN.GRSVD.c32_singular_values",
    "TooN.GRSVD.c32_flags",
    "TooN.GRSVD.c32_reorder",
    "TooN.GRSVD.c32_reorder_product",
    "TooN.GRSVD.c32_extremes",
    "TooN.GRSVD.c32_inv_diag",
    "TooN.GRSVD.c32_backsub_eq_pinv",
    "TooN.GRSVD.c32_pinv",
    "TooN.GRSVD.c32_backsub_least_squares",
    "TooN.GRSVD.c32_converges_two_columns"
   ],
   "note": "the comparison abs(x)+anorm==anorm is a parameter (any test that accepts 0 and only values <= eps*anorm); everything else exact. Convergence within 30 sweeps is proved for N<=2 in exact arithmetic (c32_converges_two_columns); for larger N the outcome of both cases is characterised. nError is protected, so a user cannot see which case occurred."
  },
  {
   "property": "C33",
   "status": "partial",
   "theorems": [
    "TooN.Lie.c33_exp_is_matrix_exponential",
    "TooN.Lie.c33_exp_is_rotation",
    "TooN.Lie.c33_exp_add",
    "TooN.Lie.c33_exp_action",
    "TooN.Lie.c33_group",
    "TooN.Lie.c33_inverse_exp",
    "TooN.Lie.c33_ln_exp",
    "TooN.Lie.c33_ln_exp_mod",
    "TooN.Lie.c33_exp_ln",
    "TooN.Lie.c33_coerce",
    "TooN.Lie.c33_coerce_rotation",
    "TooN.Lie.c33_coerce_fails_iff",
    "TooN.Lie.c33_coerce_reflection_wrong"
   ],
   "note": "coerce (and so construction from a matrix or stream) accepts reflections and leaves them reflections (c33_coerce_reflection_wrong); everything else proved."
  },
  {
   "property": "C34",
   "status": "proved",
   "theorems": [
    "TooN.Lie.c34_generators",
    "TooN.Lie.c34_exp_is_matrix_exponential",
    "TooN.Lie.c34_exp_error",
    "TooN.Lie.c34_exp_is_rotation",
    "TooN.Lie.c34_orthogonality_defect",
    "TooN.Lie.c34_exp_axis_and_negation",
    "TooN.Lie.c34_group",
    "TooN.Lie.c34_adjoint"
   ],
   "note": "the two series branches are truncated Taylor polynomials: entries within 2e-17 of the exponential and orthogonality defect at most 2e-16 (c34_exp_error); the third branch is exact"
  },
  {
   "property": "C35",
   "status": "proved",
   "theorems": [
    "TooN.Lie.c35_exp_ln",
    "TooN.Lie.c35_ln_exp_exact",
    "TooN.Lie.c35_ln_exp",
    "TooN.Lie.c35_code_exp_ln"
   ],
   "note": ""
  },
  {
   "property": "C36",
   "status": "proved",
   "theorems": [
    "TooN.Lie.c36_coerce",
    "TooN.Lie.c36_coerce_rotation",
    "TooN.Lie.c36_coerce_fails_iff",
    "TooN.Lie.c36_from_to",
    "TooN.Lie.c36_from_to_parallel"
   ],
   "note": "coerce aborts (assert) on negatively oriented rows and divides by zero on dependent rows: c36_coerce_fails_iff"
  },
  {
   "property": "C37",
   "status": "proved",
   "theorems": [
    "TooN.Lie.c37_mul_is_matrix_product",
    "TooN.Lie.c37_monoid",
    "TooN.Lie.c37_inverse",
    "TooN.Lie.c37_closed",
    "TooN.Lie.c37_action",
    "TooN.Lie.c37_homogeneous",
    "TooN.Lie.c37_homogeneous_points",
    "TooN.Lie.c37_mul_assign",
    "TooN.Lie.c37_rotation_times"
   ],
   "note": ""
  },
  {
   "property": "C38",
   "status": "proved",
   "theorems": [
    "TooN.Lie.c38_se2_adjoint_algebra",
    "TooN.Lie.c38_se2_adjoint_exponential",
    "TooN.Lie.c38_se2_adjoint_hom",
    "TooN.Lie.c38_se2_matrix_form",
    "TooN.Lie.c38_se2_adjoint_code",
    "TooN.Lie.c38_adjoint_algebra",
    "TooN.Lie.c38_adjoint_exponential",
    "TooN.Lie.c38_adjoint_code",
    "TooN.Lie.c38_adjoint_hom",
    "TooN.Lie.c38_trinvadjoint",
    "TooN.Lie.c38_matrix_forms"
   ],
   "note": "For the matrix exponential of the generators the identity holds exactly (c38_adjoint_exponential). For the code's exp it holds exactly in the main branch; in the branch |w|^2<1e-8 the translation differs by exactly (|w|^2/6) Rw x t (c38_adjoint_code), because that branch drops a term of the series."
  },
  {
   "property": "C39",
   "status": "proved",
   "theorems": [
    "TooN.Lie.c39_se2_generators",
    "TooN.Lie.c39_se2_exp_is_matrix_exponential",
    "TooN.Lie.c39_se2_exp_pure",
    "TooN.Lie.c39_se2_exp_error",
    "TooN.Lie.c39_se2_ln_exp",
    "TooN.Lie.c39_se2_exp_ln",
    "TooN.Lie.c39_se2_exp_derivative",
    "TooN.Lie.c39_generators",
    "TooN.Lie.c39_exp_is_matrix_exponential",
    "TooN.Lie.c39_exp_pure",
    "TooN.Lie.c39_exp_rotation",
    "TooN.Lie.c39_exp_error",
    "TooN.Lie.c39_ln_exp",
    "TooN.Lie.c39_exp_ln",
    "TooN.Lie.c39_exp_derivative"
   ],
   "note": "exp is the matrix exponential of the generators outside the Taylor branches and within 3e-9/1e-12 relative inside; ln round trip exact for angle 0 or >= 0.002, within 1e-10 relative in between."
  },
  {
   "property": "C40",
   "status": "partial",
   "theorems": [
    "TooN.Lie.c40_mul_is_matrix_product",
    "TooN.Lie.c40_monoid",
    "TooN.Lie.c40_inverse",
    "TooN.Lie.c40_action",
    "TooN.Lie.c40_homogeneous",
    "TooN.Lie.c40_mul_assign",
    "TooN.Lie.c40_stream_round_trip",
    "TooN.Lie.c40_adjoint_rigid",
    "TooN.Lie.c40_trinvadjoint_partial",
    "TooN.Lie.c40_sim2_adjoint_partial",
    "TooN.Lie.c40_adjoint_matrix_rigid",
    "TooN.Lie.c40_adjoint_matrix_unset",
    "TooN.Lie.c40_generators",
    "TooN.Lie.c40_exp_is_matrix_exponential",
    "TooN.Lie.c40_exp_pure",
    "TooN.Lie.c40_exp_small_wrong",
    "TooN.Lie.c40_ln_exp",
    "TooN.Lie.c40_exp_ln",
    "TooN.Lie.c40_sim2_exp_wrong",
    "TooN.Lie.c40_sim2_exp_partial",
    "TooN.Lie.c40_sim2_ln_exp",
    "TooN.Lie.c40_adjoint_unset",
    "TooN.Lie.c40_adjoint_scale_wrong",
    "TooN.Lie.c40_adjoint_partial",
    "TooN.Lie.c40_exp_derivative"
   ],
   "note": "Group laws, actions, *=, left_multiply_by, stream round trip, generators, SIM3 exp/ln proved. False of the code: SIM2::exp (maps pure translations to the identity, c40_sim2_exp_wrong), the adjoints (last coordinate unset, c40_adjoint_unset; scale ignored, c40_adjoint_scale_wrong), the small-angle branch of SIM3::exp (integer divisions 1/2, 1/6, c40_exp_small_wrong)."
  },
  {
   "property": "C41",
   "status": "proved",
   "theorems": [
    "TooN.SL.c41_generator_traceless",
    "TooN.SL.c41_generator_kinds",
    "TooN.SL.c41_generators_basis",
    "TooN.SL.c41_exp_tangent",
    "TooN.SL.c41_exp_det",
    "TooN.SL.c41_ln_coordinates",
    "TooN.SL.c41_ln_exp",
    "TooN.SL.c41_ln_exp_wrong",
    "TooN.SL.c41_group",
    "TooN.SL.c41_coerce",
    "TooN.SL.c41_coerce_other"
   ],
   "note": "matrix exp/log are parameters here (modelled in C44); the ln coordinate bug for N>=4 is proved for every N>=4 (c41_ln_exp_wrong)"
  },
  {
   "property": "C42",
   "status": "proved",
   "theorems": [
    "TooN.Helpers.c42_norm",
    "TooN.Helpers.c42_norm_sq",
    "TooN.Helpers.c42_norm_eq_zero",
    "TooN.Helpers.c42_norm_laws",
    "TooN.Helpers.c42_norm_1",
    "TooN.Helpers.c42_norm_inf",
    "TooN.Helpers.c42_norm_inf_sup",
    "TooN.Helpers.c42_matrix_norms",
    "TooN.Helpers.c42_matrix_norm_compatible",
    "TooN.Helpers.c42_norm_fro",
    "TooN.Helpers.c42_unit",
    "TooN.Helpers.c42_project_values",
    "TooN.Helpers.c42_project_unproject",
    "TooN.Helpers.c42_project_matrix",
    "TooN.Helpers.c42_inv",
    "TooN.Helpers.c42_vector_norms",
    "TooN.Helpers.c42_matrix_norm_laws"
   ],
   "note": ""
  },
  {
   "property": "C43",
   "status": "proved",
   "theorems": [
    "TooN.Helpers.c43_element_vector",
    "TooN.Helpers.c43_value_vector",
    "TooN.Helpers.c43_element_matrix",
    "TooN.Helpers.c43_value_matrix",
    "TooN.Helpers.c43_horizontal",
    "TooN.Helpers.c43_vertical",
    "TooN.Helpers.c43_empty_lines_ub"
   ],
   "note": "the per-row/per-column forms read out of bounds on a matrix with no columns/rows (c43_empty_lines_ub: the guard discards its return value)"
  },
  {
   "property": "C44",
   "status": "proved",
   "theorems": [
    "TooN.MatFun.c44_exp_taylor_partial_sum",
    "TooN.MatFun.c44_exp_taylor_error",
    "TooN.MatFun.c44_exp_taylor_exact",
    "TooN.MatFun.c44_exp_taylor_terminates",
    "TooN.MatFun.c44_exp_scaling_squaring",
    "TooN.MatFun.c44_exp_error",
    "TooN.MatFun.c44_exp_exact",
    "TooN.MatFun.c44_exp_terminates",
    "TooN.MatFun.c44_exp_ub",
    "TooN.MatFun.c44_sqrt_residual",
    "TooN.MatFun.c44_sqrt_exact",
    "TooN.MatFun.c44_sqrt_wrong",
    "TooN.MatFun.c44_sqrt_terminates_iff",
    "TooN.MatFun.c44_log_taylor_partial_sum",
    "TooN.MatFun.c44_log_taylor_error",
    "TooN.MatFun.c44_log_structure",
    "TooN.MatFun.c44_log_exact"
   ],
   "note": "exact arithmetic, except that the stopping comparisons carry a tolerance (tol=0 is the code); undefined behaviour for zero and for norm>2^30 proved (c44_exp_ub), sqrt([-3]) returns [-1] (c44_sqrt_wrong)"
  },
  {
   "property": "C45",
   "status": "partial",
   "theorems": [
    "TooN.Line.c45_best",
    "TooN.Line.c45_bracket",
    "TooN.Line.c45_unimodal",
    "TooN.Line.c45_geometric",
    "TooN.Line.c45_returns",
    "TooN.Line.c45_returns_exists",
    "TooN.Line.c45_maxiterations_one",
    "TooN.Line.c45_maxiterations_ignored_wrong",
    "TooN.Line.c45_budget_exceeded_wrong",
    "TooN.Line.c45_never_returns_wrong",
    "TooN.Line.c45_overload"
   ],
   "note": "maxiterations does not bound anything: the counter is never incremented (c45_maxiterations_ignored_wrong, c45_budget_exceeded_wrong), and with a minimiser at 0 the search never returns in exact arithmetic (c45_never_returns_wrong). Bracket, best value, geometric shrinking, termination away from 0: proved."
  },
  {
   "property": "C46",
   "status": "proved",
   "theorems": [
    "TooN.Line.c46_best",
    "TooN.Line.c46_evaluations",
    "TooN.Line.c46_tolerance",
    "TooN.Line.c46_parabola",
    "TooN.Line.c46_quadratic",
    "TooN.Line.c46_minimum_lost_wrong"
   ],
   "note": "also proves that a zero parabolic step can discard the minimum (c46_minimum_lost_wrong); the values of f are reals (NaN is not modelled)"
  },
  {
   "property": "C47",
   "status": "proved",
   "theorems": [
    "TooN.Simplex.c47_consistent",
    "TooN.Simplex.c47_restart",
    "TooN.Simplex.c47_best_worst",
    "TooN.Simplex.c47_best_never_increases",
    "TooN.Simplex.c47_best_history",
    "TooN.Simplex.c47_step",
    "TooN.Simplex.c47_evaluations",
    "TooN.Simplex.c47_finished",
    "TooN.Simplex.c47_finished_equal_values_wrong",
    "TooN.Simplex.c47_volume",
    "TooN.Simplex.c47_nondegenerate",
    "TooN.Simplex.c47_default_step"
   ],
   "note": "finished() is the documented test on values, not on size: it is true whenever all the vertex values are equal (c47_finished_equal_values_wrong)"
  },
  {
   "property": "C48",
   "status": "proved",
   "theorems": [
    "TooN.CG.c48_bracket",
    "TooN.CG.c48_zeros",
    "TooN.CG.c48_nan_halving",
    "TooN.CG.c48_nan_ends",
    "TooN.CG.c48_bracket_strict",
    "TooN.CG.c48_bracket_returns",
    "TooN.CG.c48_bracket_never_returns_wrong",
    "TooN.CG.c48_descent",
    "TooN.CG.c48_asserts",
    "TooN.CG.c48_assert_fails_wrong",
    "TooN.CG.c48_nan_assert_wrong",
    "TooN.CG.c48_polak_ribiere",
    "TooN.CG.c48_descent_direction",
    "TooN.CG.c48_iterate",
    "TooN.CG.c48_history",
    "TooN.CG.c48_conjugate",
    "TooN.CG.c48_quadratic_terminates"
   ],
   "note": "also proves assertion failures (c48_assert_fails_wrong, c48_nan_assert_wrong) and that bracketing need not return (c48_bracket_never_returns_wrong)"
  },
  {
   "property": "C49",
   "status": "partial",
   "theorems": [
    "TooN.Deriv.c49_extrapolate",
    "TooN.Deriv.c49_polynomial_exact",
    "TooN.Deriv.c49_even_quadratic_exact",
    "TooN.Deriv.c49_gradient",
    "TooN.Deriv.c49_gradient_quartic",
    "TooN.Deriv.c49_error_estimate_not_a_bound_wrong",
    "TooN.Deriv.c49_hessian_symmetric",
    "TooN.Deriv.c49_hessian_diagonal",
    "TooN.Deriv.c49_hessian_cross_partial",
    "TooN.Deriv.c49_hessian_two",
    "TooN.Deriv.c49_ridders_unique",
    "TooN.Deriv.c49_hessian_diagonal_quintic",
    "TooN.Deriv.c49_hessian_two_poly",
    "TooN.Deriv.c49_hessian_quadratic",
    "TooN.Deriv.c49_hessian_perturbed_wrong"
   ],
   "note": "gradient, diagonal entries, symmetry, n=2 and quadratics proved in full; off-diagonal entries for n>=3 only up to a perturbation of the other coordinates bounded by the largest step (c49_hessian_cross_partial), because the code does not restore the point (c49_hessian_perturbed_wrong)"
  },
  {
   "property": "C50",
   "status": "partial",
   "theorems": [
    "TooN.Fill.c50_make_vector",
    "TooN.Fill.c50_data_vector",
    "TooN.Fill.c50_data_matrix_partial",
    "TooN.Fill.c50_data_dynamic_writes_nothing"
   ],
   "note": "Data(...) on a Dynamic matrix writes nothing (c50_data_dynamic_writes_nothing); proved for vectors and static matrices."
  },
  {
   "property": "C51",
   "status": "proved",
   "theorems": [
    "TooN.View.c51_swap_exchanges",
    "TooN.View.c51_swap_twice",
    "TooN.Swap.c51_all_overloads",
    "TooN.Swap.c51_twice",
    "TooN.View.c51_overlap",
    "TooN.View.c51_self",
    "TooN.View.c51_overlap_twice_wrong"
   ],
   "note": ""
  },
  {
   "property": "C52",
   "status": "proved",
   "theorems": [
    "TooN.Helpers.c52_symmetrize",
    "TooN.Helpers.c52_symmetrize_matrix",
    "TooN.Helpers.c52_trace",
    "TooN.Helpers.c52_cross_product_matrix",
    "TooN.Ops.c52_diagonal",
    "TooN.Ops.c52_diag_inverse"
   ],
   "note": ""
  },
  {
   "property": "C53",
   "status": "partial",
   "theorems": [
    "TooN.Mixed.c53_right_scalar_and_vector",
    "TooN.Mixed.c53_left_scalar_matrix_partial",
    "TooN.Mixed.c53_int_times_double_matrix",
    "TooN.Mixed.c53_double_times_int_matrix",
    "TooN.Mixed.c53_full_claim_false"
   ],
   "note": "False for int*Matrix<double> and double*Matrix<int> (c53_full_claim_false, exact characterisation proved); exact in all other forms."
  },
  {
   "property": "C54",
   "status": "partial",
   "theorems": [
    "TooN.Mixed.c54_op_times",
    "TooN.Mixed.c54_op_divide_partial",
    "TooN.Mixed.c54_int_divide_gives_zero",
    "TooN.Mixed.c54_full_claim_false"
   ],
   "note": "False for division of int-valued operators (c54_full_claim_false)."
  },
  {
   "property": "C55",
   "status": "proved",
   "theorems": [
    "TooN.Helpers.c55_predicates",
    "TooN.Helpers.c55_fill"
   ],
   "note": ""
  },
  {
   "property": "C56",
   "status": "proved",
   "theorems": [
    "TooN.LapackChol.c56_rank",
    "TooN.LapackChol.c56_factor",
    "TooN.LapackChol.c56_backsub",
    "TooN.LapackChol.c56_backsub_matrix",
    "TooN.LapackChol.c56_inverse",
    "TooN.LapackChol.c56_determinant",
    "TooN.LapackChol.c56_compute_reuse",
    "TooN.LapackChol.c56_determinant_negative_wrong",
    "TooN.LapackChol.c56_lower_half_doc_wrong",
    "TooN.LapackChol.c56_rank_is_not_matrix_rank",
    "TooN.LapackChol.c56_contract_satisfiable"
   ],
   "note": "LAPACK contract (potrf, potrs, potri) is a hypothesis, shown satisfiable (c56_contract_satisfiable). Deviations from the documentation are theorems: c56_lower_half_doc_wrong, c56_rank_is_not_matrix_rank, c56_determinant_negative_wrong."
  },
  {
   "property": "C57",
   "status": "proved",
   "theorems": [
    "TooN.QRLapack.c57_factorisation",
    "TooN.QRLapack.c57_no_pivoting",
    "TooN.QRLapack.c57_pivoting_sorted",
    "TooN.QRLapack.c57_doc_permutation_wrong",
    "TooN.QRLapack.c57_tall_wrong",
    "TooN.QRLapack.c57_contract_satisfiable"
   ],
   "note": "LAPACK contract (geqp3, orgqr) is a hypothesis, shown satisfiable by constructing a pivoted Householder factorisation of every matrix (c57_contract_satisfiable). Deviations: c57_doc_permutation_wrong, c57_tall_wrong."
  },
  {
   "property": "C58",
   "status": "proved",
   "theorems": [
    "TooN.Fad.c58_arithmetic",
    "TooN.Fad.c58_make_fad_vector",
    "TooN.Fad.c58_get",
    "TooN.Fad.c58_get_matrix",
    "TooN.Fad.c58_jacobian",
    "TooN.Fad.c58_left_so3",
    "TooN.Fad.c58_left_se3",
    "TooN.Fad.c58_left_so2",
    "TooN.Fad.c58_left_se2",
    "TooN.Fad.c58_action"
   ],
   "note": "FADBAD itself is external: its numbers are modelled as the square-zero extension of the reals (value and partial derivatives). get_derivative/get_jacobian are for static sizes (with N=Dynamic the loop bound N is -1, with F<P> the result type has 0 columns; both outside the claim)."
  },
  {
   "property": "C59",
   "status": "proved",
   "theorems": [
    "TooN.GroupIO.c59_so2",
    "TooN.GroupIO.c59_so3",
    "TooN.GroupIO.c59_sl",
    "TooN.GroupIO.c59_se_layout",
    "TooN.GroupIO.c59_se2",
    "TooN.GroupIO.c59_se3",
    "TooN.GroupIO.c59_so3_valid",
    "TooN.GroupIO.c59_se3_valid",
    "TooN.GroupIO.c59_so2_valid",
    "TooN.GroupIO.c59_se2_valid",
    "TooN.GroupIO.c59_sl_valid"
   ],
   "note": "Number formatting/parsing are parameters; the written numbers are required to survive them (FaithfulAt). State of the target after failbit is not modelled. SIM2/SIM3 stream I/O is in C40."
  },
  {
   "property": "C60",
   "status": "partial",
   "theorems": [
    "TooN.Typed.c60_types_agree_partial",
    "TooN.Typed.c60_same_outcome_partial",
    "TooN.Typed.c60_in_bounds_partial",
    "TooN.Typed.c60_wrapped",
    "TooN.Typed.c60_resizable_wrong"
   ],
   "note": "Full claim is false of the code: as_slice/as_row/as_col of a Vector<Resizable> have size -0x7fffffff (c60_resizable_wrong). Proved for every other object and chain, of any length."
  },
  {
   "property": "C61",
   "status": "proved",
   "theorems": [
    "TooN.c61_elementwise",
    "TooN.c61_neg_exact",
    "TooN.c61_dot",
    "TooN.c61_dot_backward",
    "TooN.c61_mulMV",
    "TooN.c61_mulMM",
    "TooN.c61_cross",
    "TooN.c61_norm",
    "TooN.c61_unit",
    "TooN.c61_exact_symmetries",
    "TooN.c61_dot_exact",
    "TooN.c61_dot_integers"
   ],
   "note": ""
  },
  {
   "property": "C62",
   "status": "proved",
   "theorems": [
    "TooN.Chol.c62_factor",
    "TooN.Chol.c62_backsub",
    "TooN.Chol.c62_stable",
    "TooN.Chol.c62_success",
    "TooN.Chol.c62_solve",
    "TooN.Chol.c62_backsub_matrix",
    "TooN.Chol.c62_determinant",
    "TooN.Chol.c62_determinant_backward",
    "TooN.Chol.c62_determinant_forward",
    "TooN.Chol.c62_mahalanobis",
    "TooN.Chol.c62_inverse",
    "TooN.Chol.c62_forward"
   ],
   "note": ""
  },
  {
   "property": "C63",
   "status": "proved",
   "theorems": [
    "TooN.Elim.c63_backward",
    "TooN.Elim.c63_stable",
    "TooN.Elim.c63_stable_vector",
    "TooN.Elim.c63_fails_only_near_singular",
    "TooN.Elim.c63_dominant",
    "TooN.Elim.c63_forward",
    "TooN.Elim.c63_vector_overload",
    "TooN.Elim.c63_vector_overload_singular",
    "TooN.Elim.c63_vector_overload_dominant",
    "TooN.Elim.c63_vector_overload_double"
   ],
   "note": ""
  },
  {
   "property": "C64",
   "status": "proved",
   "theorems": [
    "TooN.Elim.c64_determinant_gauss",
    "TooN.Elim.c64_determinant_2x2",
    "TooN.Elim.c64_determinant",
    "TooN.Elim.c64_zero_near_singular",
    "TooN.Elim.c64_forward",
    "TooN.Elim.c64_sign"
   ],
   "note": ""
  },
  {
   "property": "C65",
   "status": "proved",
   "theorems": [
    "TooN.Expr.c65_sound",
    "TooN.Expr.c65_complete",
    "TooN.Expr.c65_safe",
    "TooN.Expr.c65_reject",
    "TooN.Expr.c65_static",
    "TooN.Expr.c65_functional",
    "TooN.Expr.c65_env_exists",
    "TooN.Expr.c65_cross_dynamic_wrong",
    "TooN.Expr.c65_as_col_resizable_wrong",
    "TooN.Expr.c65_index_unchecked_wrong"
   ],
   "note": ""
  },
  {
   "property": "C66",
   "status": "proved",
   "theorems": [
    "TooN.Expr.c66_deterministic",
    "TooN.Expr.c66_sound",
    "TooN.Expr.c66_complete",
    "TooN.Expr.c66_safe",
    "TooN.Expr.c66_reject",
    "TooN.Expr.c66_overlap_wrong",
    "TooN.Expr.c66_resize_self_wrong"
   ],
   "note": ""
  },
  {
   "property": "C67",
   "status": "proved",
   "theorems": [
    "TooN.Expr.c67_expr",
    "TooN.Expr.c67_prog",
    "TooN.Expr.c67_fate",
    "TooN.Expr.c67_safe",
    "TooN.Expr.c67_reject",
    "TooN.Expr.c67_safe_expr",
    "TooN.Expr.c67_hom",
    "TooN.Expr.c67_hom_expr",
    "TooN.Expr.c67_autodiff",
    "TooN.Expr.c67_autodiff_defined",
    "TooN.Expr.c67_float_exact"
   ],
   "note": ""
  },
  {
   "property": "C68",
   "status": "proved",
   "theorems": [
    "TooN.View.c68_views",
    "TooN.View.c68_elements",
    "TooN.View.c68_alloc",
    "TooN.View.c68_in_bounds",
    "TooN.View.c68_alloc_wrong",
    "TooN.View.c68_alloc_negative",
    "TooN.View.c68_slice_args_wrong",
    "TooN.View.c68_diag_wrong"
   ],
   "note": ""
  },
  {
   "property": "C69",
   "status": "proved",
   "theorems": [
    "TooN.FlRot.c69_coerce",
    "TooN.FlRot.c69_coerce2",
    "TooN.FlRot.c69_million",
    "TooN.FlRot.c69_coerce_exact",
    "TooN.FlRot.c69_product",
    "TooN.FlRot.c69_drift",
    "TooN.FlRot.c69_drift_linear",
    "TooN.FlRot.c69_defect",
    "TooN.FlRot.c69_inverse",
    "TooN.FlRot.c69_act",
    "TooN.FlRot.c69_pose_act",
    "TooN.FlRot.c69_pose_drift"
   ],
   "note": ""
  },
  {
   "property": "C70",
   "status": "proved",
   "theorems": [
    "TooN.FlRot.c70_exp",
    "TooN.FlRot.c70_exp_frob",
    "TooN.FlRot.c70_exp2",
    "TooN.FlRot.c70_exp_zero",
    "TooN.FlRot.c70_exp_neg",
    "TooN.FlRot.c70_integrate",
    "TooN.FlRot.c70_exp_exact"
   ],
   "note": ""
  },
  {
   "property": "C71",
   "status": "proved",
   "theorems": [
    "TooN.WLS.c71_accumulate",
    "TooN.WLS.c71_stable",
    "TooN.WLS.c71_forward",
    "TooN.WLS.c71_accumulate_mixed",
    "TooN.WLS.c71_stable_mixed",
    "TooN.WLS.c71_forward_mixed",
    "TooN.WLS.c71_double_same"
   ],
   "note": ""
  },
  {
   "property": "C72",
   "status": "proved",
   "theorems": [
    "TooN.Expr.c72_no_race",
    "TooN.Expr.c72_terminates",
    "TooN.Expr.c72_result",
    "TooN.Expr.c72_frame",
    "TooN.Expr.c72_deterministic",
    "TooN.Expr.c72_meaning",
    "TooN.Expr.c72_parallel_product",
    "TooN.Expr.c72_shared_wrong"
   ],
   "note": "one access loads each operand cell once; construction and resizing of a variable is one access. Sharing without separation is shown to race (c72_shared_wrong)."
  },
  {
   "property": "C73",
   "status": "partial",
   "theorems": [
    "TooN.DebugRandom.c73_full_period",
    "TooN.DebugRandom.c73_bytes",
    "TooN.DebugRandom.c73_seed",
    "TooN.DebugRandom.c73_fill_partial",
    "TooN.DebugRandom.c73_empty_wrong",
    "TooN.DebugRandom.c73_range",
    "TooN.DebugRandom.c73_threads_wrong"
   ],
   "note": "False for an empty array: Vector<> v(0) writes four bytes beyond it (c73_empty_wrong); and the generator is shared, so constructing separate objects in two threads is a data race (c73_threads_wrong). Proved for every non-zero number of bytes."
  },
  {
   "property": "C74",
   "status": "partial",
   "theorems": [
    "TooN.Mach.c74_golden_domain",
    "TooN.Mach.c74_brent_domain_partial",
    "TooN.Mach.Exact.c74_exact_golden",
    "TooN.Mach.Exact.c74_exact_brent",
    "TooN.Mach.Exact.c74_exact_simplex",
    "TooN.Mach.Exact.c74_exact_cg",
    "TooN.Mach.c74_formats",
    "TooN.Mach.c74_brent",
    "TooN.Mach.c74_golden",
    "TooN.Mach.c74_golden_nan_wrong",
    "TooN.Mach.c74_bracket",
    "TooN.Mach.c74_cg_next",
    "TooN.Mach.c74_cg",
    "TooN.Mach.c74_simplex_values",
    "TooN.Mach.c74_simplex_best",
    "TooN.Mach.c74_brent_nan_wrong",
    "TooN.Mach.c74_simplex_nan_wrong"
   ],
   "note": "False where NaN or infinite values occur: golden_section_search may return NaN although the given value is a number (c74_golden_nan_wrong); a single infinite function value makes brent_line_search evaluate the function at NaN (c74_brent_nan_wrong), so its domain theorem has NaN as an alternative; a NaN function value makes get_best of DownhillSimplex lose the best point (c74_simplex_nan_wrong). Everything else is proved for all arithmetics. The models are the ones of C45-C48 when the arithmetic is exact (c74_exact_*)."
  },
  {
   "property": "C75",
   "status": "partial",
   "theorems": [
    "TooN.Heap.c75_safe_partial",
    "TooN.Heap.c75_memory",
    "TooN.Heap.c75_no_copy",
    "TooN.Heap.c75_no_ub",
    "TooN.Heap.c75_copy_leak_wrong",
    "TooN.Heap.c75_swap_wrong"
   ],
   "note": "False as a whole: copying a vector, dynamic matrix or large static object loses the new array when copying an element throws (c75_copy_leak_wrong), because the copying is done in the constructor of the class that holds the bare pointer; an interrupted elementwise swap loses an element (c75_swap_wrong). Proved: everything else for every history and fault pattern, with the exact number of lost arrays (c75_safe_partial); none lost when only memory runs out (c75_memory) or without copy constructors (c75_no_copy). Element assignments are assumed to leave the element unchanged when they throw."
  },
  {
   "property": "C76",
   "status": "partial",
   "theorems": [
    "TooN.Special.c76_program",
    "TooN.Special.c76_program_infinite",
    "TooN.Special.c76_expr",
    "TooN.Special.c76_dot",
    "TooN.Special.c76_matrix_product",
    "TooN.Special.c76_norms",
    "TooN.Special.c76_solve_nan",
    "TooN.Special.c76_solve_update",
    "TooN.Special.c76_determinant_partial",
    "TooN.Special.c76_matrix_norm_wrong",
    "TooN.Special.c76_norm_inf_partial",
    "TooN.Special.c76_norm_inf_wrong",
    "TooN.Special.c76_extremum_wrong",
    "TooN.Special.c76_determinant_wrong",
    "TooN.Special.c76_exp_wrong",
    "TooN.Special.c76_log_wrong",
    "TooN.Special.c76_solve_infinite_wrong",
    "TooN.Special.c76_unit_wrong",
    "TooN.Special.c76_norm_underflow_wrong",
    "TooN.Special.c76_same_code",
    "TooN.Special.c76_same_solver"
   ],
   "note": "Proved for programs, expressions, dot and matrix products, 1/2/Frobenius norms, trace, and the solver. False where the library chooses with < (c76_matrix_norm_wrong, c76_norm_inf_wrong, c76_extremum_wrong, c76_determinant_wrong, c76_exp_wrong, c76_log_wrong) and for infinities in the solver and in unit (c76_solve_infinite_wrong, c76_unit_wrong, c76_norm_underflow_wrong)."
  },
  {
   "property": "C77",
   "status": "proved",
   "theorems": [
    "TooN.Special.c77_rounding",
    "TooN.Special.c77_flags",
    "TooN.Special.c77_program",
    "TooN.Special.c77_expr",
    "TooN.Special.c77_solve",
    "TooN.Special.c77_solve_accurate",
    "TooN.Special.c77_dot_range",
    "TooN.Special.c77_norm_range",
    "TooN.Special.c77_double",
    "TooN.Special.c77_float"
   ],
   "note": ""
  },
  {
   "property": "C78",
   "status": "proved",
   "theorems": [
    "TooN.Special.c78_exp_taylor",
    "TooN.Special.c78_exp",
    "TooN.Special.c78_exp_taylor_double",
    "TooN.Special.c78_exp_double",
    "TooN.Special.c78_exp_zero_ub",
    "TooN.Special.c78_exp_ub_iff",
    "TooN.Special.c78_exp_taylor_float"
   ],
   "note": ""
  },
  {
   "property": "C79",
   "status": "proved",
   "theorems": [
    "TooN.Special.c79_log_taylor",
    "TooN.Special.c79_log_taylor_double",
    "TooN.Special.c79_log_double",
    "TooN.Special.c79_log_roots_double",
    "TooN.Special.c79_log_taylor_float"
   ],
   "note": ""
  },
  {
   "property": "C80",
   "status": "proved",
   "theorems": [
    "TooN.IRLS.c80_runs",
    "TooN.IRLS.c80_descent",
    "TooN.IRLS.c80_limits",
    "TooN.IRLS.c80_robustI_converges",
    "TooN.IRLS.c80_robustI_rate",
    "TooN.IRLS.c80_linear_one_pass",
    "TooN.IRLS.c80_robustII_stuck_wrong"
   ],
   "note": ""
  },
  {
   "property": "C81",
   "status": "partial",
   "theorems": [
    "TooN.QRF.c81_same_code",
    "TooN.QRF.c81_backward_partial",
    "TooN.QRF.c81_succeeds_partial",
    "TooN.QRF.c81_orthogonality_partial",
    "TooN.QRF.c81_residual_partial",
    "TooN.QRF.c81_breakdown_wrong",
    "TooN.QRF.c81_not_orthogonal_wrong"
   ],
   "note": "Proved under the proviso that no column is almost reduced when its reflection is formed (Cond kappa at every step). The unconditional claim is false: QR.h:152-166 chooses the sign that cancels; c81_breakdown_wrong (division by zero for |y| <= 2^-27 in double, any further columns) and c81_not_orthogonal_wrong (Q not orthogonal and QR far from A for a well-conditioned double matrix) are proved witnesses."
  },
  {
   "property": "C82",
   "status": "proved",
   "theorems": [
    "TooN.Fused.c82_dot",
    "TooN.Fused.c82_dot_backward",
    "TooN.Fused.c82_mulMV",
    "TooN.Fused.c82_mulMM",
    "TooN.Fused.c82_cross",
    "TooN.Fused.c82_norm",
    "TooN.Fused.c82_fma",
    "TooN.Fused.c82_never",
    "TooN.Fused.c82_dot_comm",
    "TooN.Fused.c82_cross_self",
    "TooN.Fused.c82_cross_self_wrong",
    "TooN.Fused.c82_chol_factor",
    "TooN.Fused.c82_chol_backsub",
    "TooN.Fused.c82_chol_stable",
    "TooN.Fused.c82_chol_success",
    "TooN.Fused.c82_chol_solve",
    "TooN.Fused.c82_chol_backsub_matrix",
    "TooN.Fused.c82_chol_determinant",
    "TooN.Fused.c82_elim_backward",
    "TooN.Fused.c82_elim_stable",
    "TooN.Fused.c82_elim_stable_vector",
    "TooN.Fused.c82_elim_fails_only_near_singular",
    "TooN.Fused.c82_elim_dominant",
    "TooN.Fused.c82_wls_accumulate",
    "TooN.Fused.c82_wls_stable",
    "TooN.Fused.c82_wls_forward"
   ],
   "note": ""
  },
  {
   "property": "C83",
   "status": "proved",
   "theorems": [
    "TooN.Generated.c83_makeVector",
    "TooN.Generated.c83_data",
    "TooN.Generated.c83_schema",
    "TooN.Generated.c83_transformCovariance_symmetric",
    "TooN.Generated.c83_transformCovariance"
   ],
   "note": ""
  },
  {
   "property": "C84",
   "status": "proved",
   "theorems": [
    "TooN.Special.c84_backsub",
    "TooN.Special.c84_backsub_matrix",
    "TooN.Special.c84_inverse",
    "TooN.Special.c84_mahalanobis",
    "TooN.Special.c84_determinant",
    "TooN.Special.c84_determinant_wrong",
    "TooN.Special.c84_gauss_jordan",
    "TooN.Special.c84_wls",
    "TooN.Special.c84_same_code",
    "TooN.Special.c84_same_code_derived"
   ],
   "note": ""
  },
  {
   "property": "C85",
   "status": "proved",
   "theorems": [
    "TooN.PinvF.c85_truncation",
    "TooN.PinvF.c85_svd_backsub",
    "TooN.PinvF.c85_svd_backsub_matrix",
    "TooN.PinvF.c85_svd_pinv",
    "TooN.PinvF.c85_svd_determinant",
    "TooN.PinvF.c85_gr_largest",
    "TooN.PinvF.c85_gr_backsub",
    "TooN.PinvF.c85_gr_backsub_matrix",
    "TooN.PinvF.c85_gr_pinv",
    "TooN.PinvF.c85_sym_backsub",
    "TooN.PinvF.c85_sym_backsub_matrix",
    "TooN.PinvF.c85_sym_pinv",
    "TooN.PinvF.c85_sym_sqrtm",
    "TooN.PinvF.c85_sym_determinant",
    "TooN.PinvF.c85_same_code"
   ],
   "note": ""
  },
  {
   "property": "C86",
   "status": "partial",
   "theorems": [
    "TooN.Helpers.c86_vector",
    "TooN.Helpers.c86_matrix",
    "TooN.Helpers.c86_horizontal_partial",
    "TooN.Helpers.c86_vertical_partial",
    "TooN.Helpers.c86_index_exact",
    "TooN.Helpers.c86_index_wrong"
   ],
   "note": "Everything is proved for the values, and for the indices of the vector and matrix queries. For the per-row and per-column element queries the index is proved to be the right one converted to the element type (exact up to 2^p, c86_index_exact); the full claim is false beyond that because the index vectors have the element type (c86_index_wrong)."
  },
  {
   "property": "C87",
   "status": "proved",
   "theorems": [
    "TooN.HelpersF.c87_norm_1",
    "TooN.HelpersF.c87_norm_inf",
    "TooN.HelpersF.c87_matrix_norms",
    "TooN.HelpersF.c87_norm_fro",
    "TooN.HelpersF.c87_trace",
    "TooN.HelpersF.c87_project",
    "TooN.HelpersF.c87_symmetrize",
    "TooN.HelpersF.c87_inv",
    "TooN.HelpersF.c87_inv_accurate",
    "TooN.HelpersF.c87_cross_product_matrix"
   ],
   "note": ""
  },
  {
   "property": "C88",
   "status": "partial",
   "theorems": [
    "TooN.SymEigenF.c88_same_code",
    "TooN.SymEigenF.c88_orthonormal",
    "TooN.SymEigenF.c88_eigenvalues",
    "TooN.SymEigenF.c88_residual_partial",
    "TooN.SymEigenF.c88_diagonal",
    "TooN.SymEigenF.c88_diagonal_wrong"
   ],
   "note": "Orthonormality and eigenvalue accuracy hold for every matrix. The eigenvector claim holds with the factor ||A||/|b| (c88_residual_partial) and fails for diagonal matrices: c88_diagonal says what is returned there, c88_diagonal_wrong is a double matrix whose smaller eigenvalue gets the other eigenvalue's vector. float matrices (double locals) are not covered."
  },
  {
   "property": "C89",
   "status": "proved",
   "theorems": [
    "TooN.FlRot.c89_rotation",
    "TooN.FlRot.c89_translation",
    "TooN.FlRot.c89_translation_away",
    "TooN.FlRot.c89_pure_translation",
    "TooN.FlRot.c89_exact",
    "TooN.FlRot.c89_se2_rotation",
    "TooN.FlRot.c89_se2_translation",
    "TooN.FlRot.c89_se2_exact",
    "TooN.FlRot.c89_small_angle_wrong",
    "TooN.FlRot.c89_integrate"
   ],
   "note": "The bound has a constant 1.7e-9 below 1.0006e-4 radians because the first branch of the code drops the second-order term of the translation (c89_small_angle_wrong shows that it cannot be removed), and the error of the library's sin/cos is amplified by 1/theta, at most 1001. Rounding without overflow/underflow; literals rounded to the element type, so the model is the code for double."
  },
  {
   "property": "C90",
   "status": "partial",
   "theorems": [
    "TooN.FlRot.c90_from_to_partial",
    "TooN.FlRot.c90_branches",
    "TooN.FlRot.c90_exact",
    "TooN.FlRot.c90_nearly_parallel_wrong",
    "TooN.FlRot.c90_worked"
   ],
   "note": "the full claim (for every pair of vectors) is false of the code: c90_nearly_parallel_wrong exhibits two nearly parallel double vectors for which the stored matrix has an element above 1.2. c90_from_to_partial proves it when the sine of the angle is at least 1000u, with error 66u/s; c90_branches covers the branches for all inputs."
  },
  {
   "property": "C91",
   "status": "proved",
   "theorems": [
    "TooN.FlRot.c91_ln",
    "TooN.FlRot.c91_exp_ln",
    "TooN.FlRot.c91_ln_principal",
    "TooN.FlRot.c91_round_trip",
    "TooN.FlRot.c91_exact"
   ],
   "note": ""
  },
  {
   "property": "C92",
   "status": "proved",
   "theorems": [
    "TooN.FlRot.c92_inverse",
    "TooN.FlRot.c92_round_trip",
    "TooN.FlRot.c92_mul_inverse",
    "TooN.FlRot.c92_adjoint",
    "TooN.FlRot.c92_pairing",
    "TooN.FlRot.c92_se2_adjoint",
    "TooN.FlRot.c92_exact",
    "TooN.FlRot.c92_double"
   ],
   "note": ""
  },
  {
   "property": "C93",
   "status": "proved",
   "theorems": [
    "TooN.FlRot.c93_translation",
    "TooN.FlRot.c93_ln",
    "TooN.FlRot.c93_round_trip",
    "TooN.FlRot.c93_exact"
   ],
   "note": ""
  },
  {
   "property": "C94",
   "status": "proved",
   "theorems": [
    "TooN.FlRot.c94_so2_ln",
    "TooN.FlRot.c94_so2_angle",
    "TooN.FlRot.c94_se2_ln",
    "TooN.FlRot.c94_so2_round_trip",
    "TooN.FlRot.c94_exact_so2",
    "TooN.FlRot.c94_exact_se2"
   ],
   "note": "rounding without overflow/underflow; literals rounded to the element type. The loss below 1.1e-5 radians is the code's Taylor branch (shtot = 0.5). Accuracy of atan2, sin, cos is a hypothesis, met by a correctly rounded library (example)."
  },
  {
   "property": "C95",
   "status": "proved",
   "theorems": [
    "TooN.FlRot.c95_act",
    "TooN.FlRot.c95_mul",
    "TooN.FlRot.c95_chain",
    "TooN.FlRot.c95_sim3_inverse",
    "TooN.FlRot.c95_sim2_inverse",
    "TooN.FlRot.c95_sim3_round_trip",
    "TooN.FlRot.c95_sim2_round_trip",
    "TooN.FlRot.c95_exact"
   ],
   "note": "rounding without overflow/underflow; the adjoint functions of SIM2/SIM3 leave an element uninitialised (C40) and are not part of this property."
  },
  {
   "property": "C96",
   "status": "proved",
   "theorems": [
    "TooN.SLF.c96_coerce",
    "TooN.SLF.c96_coerce_double",
    "TooN.SLF.c96_coerce_outcomes",
    "TooN.SLF.c96_coerce_succeeds",
    "TooN.SLF.c96_mul",
    "TooN.SLF.c96_inverse_residual",
    "TooN.SLF.c96_inverse",
    "TooN.SLF.c96_mul_det",
    "TooN.SLF.c96_chain",
    "TooN.SLF.c96_inverse_det",
    "TooN.SLF.c96_coerce_det",
    "TooN.SLF.c96_action",
    "TooN.SLF.c96_action_left",
    "TooN.SLF.c96_exact"
   ],
   "note": ""
  }
 ]
}