# Axioms of every theorem in MANIFEST.json

Generated by `tools/gen_axioms.py` from `#print axioms` (795 theorems).

## no axioms (5)

* C06 `TooN.Heap.c06_dead_buffer_is_ub`
* C12 `TooN.Fill.c12_fill_vector_size_one`
* C12 `TooN.Fill.c12_full_claim_false`
* C43 `TooN.Helpers.c43_empty_lines_ub`
* C51 `TooN.View.c51_overlap_twice_wrong`

## `propext` (8)

* C06 `TooN.Heap.c06_dead_object_is_ub`
* C11 `TooN.Ops.c11_identity_nonsquare`
* C60 `TooN.Typed.c60_resizable_wrong`
* C68 `TooN.View.c68_alloc_wrong`
* C68 `TooN.View.c68_slice_args_wrong`
* C68 `TooN.View.c68_diag_wrong`
* C75 `TooN.Heap.c75_copy_leak_wrong`
* C75 `TooN.Heap.c75_swap_wrong`

## `Quot.sound`, `propext` (42)

* C01 `TooN.View.c01_matrix_identities`
* C06 `TooN.Heap.c06_value_semantics`
* C06 `TooN.Heap.c06_no_sharing_no_leak`
* C06 `TooN.Heap.c06_write_independent`
* C06 `TooN.Heap.c06_assign_to_moved_from_is_ub`
* C07 `TooN.Resize.c07_assign_other_partial`
* C07 `TooN.Resize.c07_self_assign_partial`
* C07 `TooN.Resize.c07_self_assign_debug_destroys`
* C07 `TooN.Resize.c07_assign_empty_ub`
* C08 `TooN.View.c08_noHazard_disjoint`
* C08 `TooN.View.c08_noHazard_self`
* C08 `TooN.View.c08_shift_up_smears`
* C09 `TooN.Ops.c09_pairwise_vector`
* C09 `TooN.Ops.c09_add_sub_vector`
* C10 `TooN.Ops.c10_cross_laws`
* C13 `TooN.Fill.c13_one_column_never_succeeds`
* C13 `TooN.Fill.c13_full_claim_false`
* C14 `TooN.Ops.c14_eq_raw`
* C14 `TooN.Ops.c14_eq`
* C15 `TooN.Stream.c15_vector_roundtrip`
* C42 `TooN.Helpers.c42_norm_inf`
* C42 `TooN.Helpers.c42_project_values`
* C43 `TooN.Helpers.c43_element_vector`
* C50 `TooN.Fill.c50_make_vector`
* C50 `TooN.Fill.c50_data_vector`
* C51 `TooN.View.c51_swap_exchanges`
* C51 `TooN.View.c51_swap_twice`
* C51 `TooN.Swap.c51_all_overloads`
* C51 `TooN.Swap.c51_twice`
* C60 `TooN.Typed.c60_wrapped`
* C67 `TooN.Expr.c67_expr`
* C67 `TooN.Expr.c67_prog`
* C67 `TooN.Expr.c67_fate`
* C67 `TooN.Expr.c67_hom`
* C67 `TooN.Expr.c67_hom_expr`
* C68 `TooN.View.c68_alloc`
* C68 `TooN.View.c68_alloc_negative`
* C73 `TooN.DebugRandom.c73_bytes`
* C76 `TooN.Special.c76_same_code`
* C76 `TooN.Special.c76_same_solver`
* C84 `TooN.Special.c84_same_code`
* C84 `TooN.Special.c84_same_code_derived`

## `Classical.choice`, `Quot.sound`, `propext` (740)

* C01 `TooN.View.c01_views_address_right_element`
* C01 `TooN.View.c01_slice_slice`
* C02 `TooN.View.c02_in_bounds`
* C02 `TooN.View.c02_no_self_alias`
* C03 `TooN.View.c03_write_through`
* C03 `TooN.View.c03_disjoint_slices`
* C04 `TooN.Checks.c04_dynamic_slice`
* C04 `TooN.Checks.c04_static_slice`
* C04 `TooN.Checks.c04_mixed_slice`
* C04 `TooN.Checks.c04_int_overflow`
* C05 `TooN.Checks.c05_size_mismatch`
* C05 `TooN.Checks.c05_result_size`
* C07 `TooN.Resize.c07_resize`
* C07 `TooN.Resize.c07_self_slice_ub`
* C08 `TooN.View.c08_assign_vector`
* C08 `TooN.View.c08_shift_down`
* C08 `TooN.View.c08_assign_matrix`
* C08 `TooN.View.c08_transpose_in_place`
* C09 `TooN.View.c09_compound_vector`
* C09 `TooN.View.c09_compound_matrix`
* C09 `TooN.View.c09_scalar_vector`
* C09 `TooN.View.c09_scalar_matrix`
* C09 `TooN.Ops.c09_pairwise_matrix`
* C09 `TooN.Ops.c09_add_sub_matrix`
* C09 `TooN.Ops.c09_scalar`
* C09 `TooN.Ops.c09_dot`
* C09 `TooN.Ops.c09_cross`
* C09 `TooN.Ops.c09_mul_matrix`
* C09 `TooN.Ops.c09_mul_vector`
* C09 `TooN.Ops.c09_diagmult_matrix`
* C10 `TooN.Ops.c10_mul_assoc`
* C10 `TooN.Ops.c10_mul_transpose`
* C10 `TooN.Ops.c10_mul_add`
* C10 `TooN.Ops.c10_mul_vec_assoc`
* C10 `TooN.Ops.c10_outer_product`
* C10 `TooN.Ops.c10_identity_neutral`
* C11 `TooN.Ops.c11_fill`
* C11 `TooN.Ops.c11_identity`
* C11 `TooN.Ops.c11_identity_arith`
* C11 `TooN.Ops.c11_ones_arith`
* C12 `TooN.Fill.c12_fill_vector_partial`
* C13 `TooN.Fill.c13_fill_matrix_partial`
* C13 `TooN.Fill.c13_row_major`
* C14 `TooN.Ops.c14_ne_zeros`
* C15 `TooN.Stream.c15_matrix_roundtrip`
* C16 `TooN.Elim.c16_gauss_jordan_solves`
* C16 `TooN.Elim.c16_gauss_jordan_fails_iff_singular`
* C16 `TooN.Elim.c16_gauss_jordan_inverse`
* C17 `TooN.Elim.c17_gaussian_elimination_solves`
* C17 `TooN.Elim.c17_gaussian_elimination_vector`
* C17 `TooN.Elim.c17_gaussian_elimination_fails_iff_singular`
* C17 `TooN.Elim.c17_gaussian_elimination_eq_inv_mul`
* C18 `TooN.Elim.c18_determinant_gaussian_elimination`
* C18 `TooN.Elim.c18_determinant`
* C19 `TooN.LU.c19_contract_satisfiable`
* C19 `TooN.LU.c19_determinant`
* C19 `TooN.LU.c19_backsub_vector`
* C19 `TooN.LU.c19_backsub_matrix_partial`
* C19 `TooN.LU.c19_backsub_dynamic_partial`
* C19 `TooN.LU.c19_backsub_dynamic_wrong`
* C19 `TooN.LU.c19_inverse`
* C19 `TooN.LU.c19_get_lu`
* C20 `TooN.Chol.c20_ldl_of_full_rank`
* C20 `TooN.Chol.c20_upper_half_ignored`
* C20 `TooN.Chol.c20_posdef_full_rank`
* C20 `TooN.Chol.c20_cholesky_of_posdef`
* C20 `TooN.Chol.c20_posdef_iff_positive_pivots`
* C21 `TooN.Chol.c21_backsub`
* C21 `TooN.Chol.c21_backsub_matrix`
* C21 `TooN.Chol.c21_inverse`
* C21 `TooN.Chol.c21_determinant`
* C21 `TooN.Chol.c21_mahalanobis`
* C21 `TooN.Chol.c21_get_L`
* C22 `TooN.Chol.c22_rank_full_iff`
* C22 `TooN.Chol.c22_rank_is_first_zero_minor`
* C22 `TooN.Chol.c22_backsub_needs_full_rank`
* C22 `TooN.Chol.c22_psd_determinant`
* C22 `TooN.Chol.c22_rank_is_not_matrix_rank`
* C22 `TooN.Chol.c22_determinant_early_stop_wrong`
* C23 `TooN.WLS.c23_information`
* C23 `TooN.WLS.c23_minimiser`
* C24 `TooN.WLS.c24_order_independent`
* C24 `TooN.WLS.c24_plusEq`
* C24 `TooN.WLS.c24_clear`
* C25 `TooN.WLS.c25_upper_is_all`
* C25 `TooN.WLS.c25_sparse`
* C25 `TooN.WLS.c25_cov_is_rows`
* C25 `TooN.WLS.c25_sparse_rows`
* C25 `TooN.WLS.c25_sparse_rows2`
* C25 `TooN.WLS.c25_mJs_is_rows`
* C25 `TooN.WLS.c25_priors`
* C26 `TooN.IRLS.c26_robustI_true_scale`
* C26 `TooN.IRLS.c26_robustI_objective`
* C26 `TooN.IRLS.c26_robustII_objective`
* C26 `TooN.IRLS.c26_robustII_weight_deriv`
* C26 `TooN.IRLS.c26_robustII_true_scale_wrong`
* C26 `TooN.IRLS.c26_linear_true_scale`
* C26 `TooN.IRLS.c26_linear_objective_wrong`
* C26 `TooN.IRLS.c26_robustIII_objective`
* C26 `TooN.IRLS.c26_weights_positive`
* C26 `TooN.IRLS.c26_set_sd`
* C26 `TooN.IRLS.c26_history`
* C26 `TooN.IRLS.c26_minimises`
* C26 `TooN.IRLS.c26_true_C_inv_is_garbage`
* C26 `TooN.IRLS.c26_plusEq_loses_residual`
* C26 `TooN.IRLS.c26_plusEq_wls`
* C26 `TooN.IRLS.c26_clear`
* C27 `TooN.QR.c27_factorisation`
* C27 `TooN.QR.c27_step_fails_iff`
* C27 `TooN.QR.c27_reduced_first_column_fails`
* C27 `TooN.QR.c27_full_claim_false`
* C27 `TooN.QR.c27_two_rows`
* C28 `TooN.SVD.c28_decomposition`
* C28 `TooN.SVD.c28_no_division_by_zero`
* C28 `TooN.SVD.c28_inv_diag`
* C28 `TooN.SVD.c28_pinv_moore_penrose`
* C28 `TooN.SVD.c28_pinv_truncated`
* C28 `TooN.SVD.c28_backsub_eq_pinv`
* C28 `TooN.SVD.c28_backsub_least_squares`
* C28 `TooN.SVD.c28_invertible`
* C28 `TooN.SVD.c28_determinant_partial`
* C28 `TooN.SVD.c28_determinant_wrong`
* C28 `TooN.SVD.c28_rank_returns`
* C28 `TooN.SVD.c28_rank_partial`
* C28 `TooN.SVD.c28_rank_wrong`
* C28 `TooN.SVD.c28_contract_satisfiable`
* C29 `TooN.SymEigen.c29_compute2`
* C30 `TooN.SymEigen.c30_compute`
* C30 `TooN.SymEigen.c30_contract_satisfiable`
* C30 `TooN.SymEigen.c30_inv_diag`
* C30 `TooN.SymEigen.c30_pinv`
* C30 `TooN.SymEigen.c30_pinv_inverse`
* C30 `TooN.SymEigen.c30_determinant`
* C30 `TooN.SymEigen.c30_definiteness`
* C30 `TooN.SymEigen.c30_sqrtm`
* C30 `TooN.SymEigen.c30_isqrtm`
* C31 `TooN.SymEigen.c31_eigenvalues`
* C31 `TooN.SymEigen.c31_zero_matrix_wrong`
* C31 `TooN.SymEigen.c31_separated_partial`
* C31 `TooN.SymEigen.c31_all_small`
* C31 `TooN.SymEigen.c31_scalar`
* C31 `TooN.SymEigen.c31_tiny_matrix_wrong`
* C31 `TooN.SymEigen.c31_double_partial`
* C31 `TooN.SymEigen.c31_all_ones_wrong`
* C31 `TooN.SymEigen.c31_one_small_wrong`
* C32 `TooN.GRSVD.c32_returns`
* C32 `TooN.GRSVD.c32_decomposition`
* C32 `TooN.GRSVD.c32_exact`
* C32 `TooN.GRSVD.c32_iteration_limit`
* C32 `TooN.GRSVD.c32_orthogonal`
* C32 `TooN.GRSVD.c32_nonneg`
* C32 `TooN.GRSVD.c32_singular_values`
* C32 `TooN.GRSVD.c32_flags`
* C32 `TooN.GRSVD.c32_reorder`
* C32 `TooN.GRSVD.c32_reorder_product`
* C32 `TooN.GRSVD.c32_extremes`
* C32 `TooN.GRSVD.c32_inv_diag`
* C32 `TooN.GRSVD.c32_backsub_eq_pinv`
* C32 `TooN.GRSVD.c32_pinv`
* C32 `TooN.GRSVD.c32_backsub_least_squares`
* C32 `TooN.GRSVD.c32_converges_two_columns`
* C33 `TooN.Lie.c33_exp_is_matrix_exponential`
* C33 `TooN.Lie.c33_exp_is_rotation`
* C33 `TooN.Lie.c33_exp_add`
* C33 `TooN.Lie.c33_exp_action`
* C33 `TooN.Lie.c33_group`
* C33 `TooN.Lie.c33_inverse_exp`
* C33 `TooN.Lie.c33_ln_exp`
* C33 `TooN.Lie.c33_ln_exp_mod`
* C33 `TooN.Lie.c33_exp_ln`
* C33 `TooN.Lie.c33_coerce`
* C33 `TooN.Lie.c33_coerce_rotation`
* C33 `TooN.Lie.c33_coerce_fails_iff`
* C33 `TooN.Lie.c33_coerce_reflection_wrong`
* C34 `TooN.Lie.c34_generators`
* C34 `TooN.Lie.c34_exp_is_matrix_exponential`
* C34 `TooN.Lie.c34_exp_error`
* C34 `TooN.Lie.c34_exp_is_rotation`
* C34 `TooN.Lie.c34_orthogonality_defect`
* C34 `TooN.Lie.c34_exp_axis_and_negation`
* C34 `TooN.Lie.c34_group`
* C34 `TooN.Lie.c34_adjoint`
* C35 `TooN.Lie.c35_exp_ln`
* C35 `TooN.Lie.c35_ln_exp_exact`
* C35 `TooN.Lie.c35_ln_exp`
* C35 `TooN.Lie.c35_code_exp_ln`
* C36 `TooN.Lie.c36_coerce`
* C36 `TooN.Lie.c36_coerce_rotation`
* C36 `TooN.Lie.c36_coerce_fails_iff`
* C36 `TooN.Lie.c36_from_to`
* C36 `TooN.Lie.c36_from_to_parallel`
* C37 `TooN.Lie.c37_mul_is_matrix_product`
* C37 `TooN.Lie.c37_monoid`
* C37 `TooN.Lie.c37_inverse`
* C37 `TooN.Lie.c37_closed`
* C37 `TooN.Lie.c37_action`
* C37 `TooN.Lie.c37_homogeneous`
* C37 `TooN.Lie.c37_homogeneous_points`
* C37 `TooN.Lie.c37_mul_assign`
* C37 `TooN.Lie.c37_rotation_times`
* C38 `TooN.Lie.c38_se2_adjoint_algebra`
* C38 `TooN.Lie.c38_se2_adjoint_exponential`
* C38 `TooN.Lie.c38_se2_adjoint_hom`
* C38 `TooN.Lie.c38_se2_matrix_form`
* C38 `TooN.Lie.c38_se2_adjoint_code`
* C38 `TooN.Lie.c38_adjoint_algebra`
* C38 `TooN.Lie.c38_adjoint_exponential`
* C38 `TooN.Lie.c38_adjoint_code`
* C38 `TooN.Lie.c38_adjoint_hom`
* C38 `TooN.Lie.c38_trinvadjoint`
* C38 `TooN.Lie.c38_matrix_forms`
* C39 `TooN.Lie.c39_se2_generators`
* C39 `TooN.Lie.c39_se2_exp_is_matrix_exponential`
* C39 `TooN.Lie.c39_se2_exp_pure`
* C39 `TooN.Lie.c39_se2_exp_error`
* C39 `TooN.Lie.c39_se2_ln_exp`
* C39 `TooN.Lie.c39_se2_exp_ln`
* C39 `TooN.Lie.c39_se2_exp_derivative`
* C39 `TooN.Lie.c39_generators`
* C39 `TooN.Lie.c39_exp_is_matrix_exponential`
* C39 `TooN.Lie.c39_exp_pure`
* C39 `TooN.Lie.c39_exp_rotation`
* C39 `TooN.Lie.c39_exp_error`
* C39 `TooN.Lie.c39_ln_exp`
* C39 `TooN.Lie.c39_exp_ln`
* C39 `TooN.Lie.c39_exp_derivative`
* C40 `TooN.Lie.c40_mul_is_matrix_product`
* C40 `TooN.Lie.c40_monoid`
* C40 `TooN.Lie.c40_inverse`
* C40 `TooN.Lie.c40_action`
* C40 `TooN.Lie.c40_homogeneous`
* C40 `TooN.Lie.c40_mul_assign`
* C40 `TooN.Lie.c40_stream_round_trip`
* C40 `TooN.Lie.c40_adjoint_rigid`
* C40 `TooN.Lie.c40_trinvadjoint_partial`
* C40 `TooN.Lie.c40_sim2_adjoint_partial`
* C40 `TooN.Lie.c40_adjoint_matrix_rigid`
* C40 `TooN.Lie.c40_adjoint_matrix_unset`
* C40 `TooN.Lie.c40_generators`
* C40 `TooN.Lie.c40_exp_is_matrix_exponential`
* C40 `TooN.Lie.c40_exp_pure`
* C40 `TooN.Lie.c40_exp_small_wrong`
* C40 `TooN.Lie.c40_ln_exp`
* C40 `TooN.Lie.c40_exp_ln`
* C40 `TooN.Lie.c40_sim2_exp_wrong`
* C40 `TooN.Lie.c40_sim2_exp_partial`
* C40 `TooN.Lie.c40_sim2_ln_exp`
* C40 `TooN.Lie.c40_adjoint_unset`
* C40 `TooN.Lie.c40_adjoint_scale_wrong`
* C40 `TooN.Lie.c40_adjoint_partial`
* C40 `TooN.Lie.c40_exp_derivative`
* C41 `TooN.SL.c41_generator_traceless`
* C41 `TooN.SL.c41_generator_kinds`
* C41 `TooN.SL.c41_generators_basis`
* C41 `TooN.SL.c41_exp_tangent`
* C41 `TooN.SL.c41_exp_det`
* C41 `TooN.SL.c41_ln_coordinates`
* C41 `TooN.SL.c41_ln_exp`
* C41 `TooN.SL.c41_ln_exp_wrong`
* C41 `TooN.SL.c41_group`
* C41 `TooN.SL.c41_coerce`
* C41 `TooN.SL.c41_coerce_other`
* C42 `TooN.Helpers.c42_norm`
* C42 `TooN.Helpers.c42_norm_sq`
* C42 `TooN.Helpers.c42_norm_eq_zero`
* C42 `TooN.Helpers.c42_norm_laws`
* C42 `TooN.Helpers.c42_norm_1`
* C42 `TooN.Helpers.c42_norm_inf_sup`
* C42 `TooN.Helpers.c42_matrix_norms`
* C42 `TooN.Helpers.c42_matrix_norm_compatible`
* C42 `TooN.Helpers.c42_norm_fro`
* C42 `TooN.Helpers.c42_unit`
* C42 `TooN.Helpers.c42_project_unproject`
* C42 `TooN.Helpers.c42_project_matrix`
* C42 `TooN.Helpers.c42_inv`
* C42 `TooN.Helpers.c42_vector_norms`
* C42 `TooN.Helpers.c42_matrix_norm_laws`
* C43 `TooN.Helpers.c43_value_vector`
* C43 `TooN.Helpers.c43_element_matrix`
* C43 `TooN.Helpers.c43_value_matrix`
* C43 `TooN.Helpers.c43_horizontal`
* C43 `TooN.Helpers.c43_vertical`
* C44 `TooN.MatFun.c44_exp_taylor_partial_sum`
* C44 `TooN.MatFun.c44_exp_taylor_error`
* C44 `TooN.MatFun.c44_exp_taylor_exact`
* C44 `TooN.MatFun.c44_exp_taylor_terminates`
* C44 `TooN.MatFun.c44_exp_scaling_squaring`
* C44 `TooN.MatFun.c44_exp_error`
* C44 `TooN.MatFun.c44_exp_exact`
* C44 `TooN.MatFun.c44_exp_terminates`
* C44 `TooN.MatFun.c44_exp_ub`
* C44 `TooN.MatFun.c44_sqrt_residual`
* C44 `TooN.MatFun.c44_sqrt_exact`
* C44 `TooN.MatFun.c44_sqrt_wrong`
* C44 `TooN.MatFun.c44_sqrt_terminates_iff`
* C44 `TooN.MatFun.c44_log_taylor_partial_sum`
* C44 `TooN.MatFun.c44_log_taylor_error`
* C44 `TooN.MatFun.c44_log_structure`
* C44 `TooN.MatFun.c44_log_exact`
* C45 `TooN.Line.c45_best`
* C45 `TooN.Line.c45_bracket`
* C45 `TooN.Line.c45_unimodal`
* C45 `TooN.Line.c45_geometric`
* C45 `TooN.Line.c45_returns`
* C45 `TooN.Line.c45_returns_exists`
* C45 `TooN.Line.c45_maxiterations_one`
* C45 `TooN.Line.c45_maxiterations_ignored_wrong`
* C45 `TooN.Line.c45_budget_exceeded_wrong`
* C45 `TooN.Line.c45_never_returns_wrong`
* C45 `TooN.Line.c45_overload`
* C46 `TooN.Line.c46_best`
* C46 `TooN.Line.c46_evaluations`
* C46 `TooN.Line.c46_tolerance`
* C46 `TooN.Line.c46_parabola`
* C46 `TooN.Line.c46_quadratic`
* C46 `TooN.Line.c46_minimum_lost_wrong`
* C47 `TooN.Simplex.c47_consistent`
* C47 `TooN.Simplex.c47_restart`
* C47 `TooN.Simplex.c47_best_worst`
* C47 `TooN.Simplex.c47_best_never_increases`
* C47 `TooN.Simplex.c47_best_history`
* C47 `TooN.Simplex.c47_step`
* C47 `TooN.Simplex.c47_evaluations`
* C47 `TooN.Simplex.c47_finished`
* C47 `TooN.Simplex.c47_finished_equal_values_wrong`
* C47 `TooN.Simplex.c47_volume`
* C47 `TooN.Simplex.c47_nondegenerate`
* C47 `TooN.Simplex.c47_default_step`
* C48 `TooN.CG.c48_bracket`
* C48 `TooN.CG.c48_zeros`
* C48 `TooN.CG.c48_nan_halving`
* C48 `TooN.CG.c48_nan_ends`
* C48 `TooN.CG.c48_bracket_strict`
* C48 `TooN.CG.c48_bracket_returns`
* C48 `TooN.CG.c48_bracket_never_returns_wrong`
* C48 `TooN.CG.c48_descent`
* C48 `TooN.CG.c48_asserts`
* C48 `TooN.CG.c48_assert_fails_wrong`
* C48 `TooN.CG.c48_nan_assert_wrong`
* C48 `TooN.CG.c48_polak_ribiere`
* C48 `TooN.CG.c48_descent_direction`
* C48 `TooN.CG.c48_iterate`
* C48 `TooN.CG.c48_history`
* C48 `TooN.CG.c48_conjugate`
* C48 `TooN.CG.c48_quadratic_terminates`
* C49 `TooN.Deriv.c49_extrapolate`
* C49 `TooN.Deriv.c49_polynomial_exact`
* C49 `TooN.Deriv.c49_even_quadratic_exact`
* C49 `TooN.Deriv.c49_gradient`
* C49 `TooN.Deriv.c49_gradient_quartic`
* C49 `TooN.Deriv.c49_error_estimate_not_a_bound_wrong`
* C49 `TooN.Deriv.c49_hessian_symmetric`
* C49 `TooN.Deriv.c49_hessian_diagonal`
* C49 `TooN.Deriv.c49_hessian_cross_partial`
* C49 `TooN.Deriv.c49_hessian_two`
* C49 `TooN.Deriv.c49_ridders_unique`
* C49 `TooN.Deriv.c49_hessian_diagonal_quintic`
* C49 `TooN.Deriv.c49_hessian_two_poly`
* C49 `TooN.Deriv.c49_hessian_quadratic`
* C49 `TooN.Deriv.c49_hessian_perturbed_wrong`
* C50 `TooN.Fill.c50_data_matrix_partial`
* C50 `TooN.Fill.c50_data_dynamic_writes_nothing`
* C51 `TooN.View.c51_overlap`
* C51 `TooN.View.c51_self`
* C52 `TooN.Helpers.c52_symmetrize`
* C52 `TooN.Helpers.c52_symmetrize_matrix`
* C52 `TooN.Helpers.c52_trace`
* C52 `TooN.Helpers.c52_cross_product_matrix`
* C52 `TooN.Ops.c52_diagonal`
* C52 `TooN.Ops.c52_diag_inverse`
* C53 `TooN.Mixed.c53_right_scalar_and_vector`
* C53 `TooN.Mixed.c53_left_scalar_matrix_partial`
* C53 `TooN.Mixed.c53_int_times_double_matrix`
* C53 `TooN.Mixed.c53_double_times_int_matrix`
* C53 `TooN.Mixed.c53_full_claim_false`
* C54 `TooN.Mixed.c54_op_times`
* C54 `TooN.Mixed.c54_op_divide_partial`
* C54 `TooN.Mixed.c54_int_divide_gives_zero`
* C54 `TooN.Mixed.c54_full_claim_false`
* C55 `TooN.Helpers.c55_predicates`
* C55 `TooN.Helpers.c55_fill`
* C56 `TooN.LapackChol.c56_rank`
* C56 `TooN.LapackChol.c56_factor`
* C56 `TooN.LapackChol.c56_backsub`
* C56 `TooN.LapackChol.c56_backsub_matrix`
* C56 `TooN.LapackChol.c56_inverse`
* C56 `TooN.LapackChol.c56_determinant`
* C56 `TooN.LapackChol.c56_compute_reuse`
* C56 `TooN.LapackChol.c56_determinant_negative_wrong`
* C56 `TooN.LapackChol.c56_lower_half_doc_wrong`
* C56 `TooN.LapackChol.c56_rank_is_not_matrix_rank`
* C56 `TooN.LapackChol.c56_contract_satisfiable`
* C57 `TooN.QRLapack.c57_factorisation`
* C57 `TooN.QRLapack.c57_no_pivoting`
* C57 `TooN.QRLapack.c57_pivoting_sorted`
* C57 `TooN.QRLapack.c57_doc_permutation_wrong`
* C57 `TooN.QRLapack.c57_tall_wrong`
* C57 `TooN.QRLapack.c57_contract_satisfiable`
* C58 `TooN.Fad.c58_arithmetic`
* C58 `TooN.Fad.c58_make_fad_vector`
* C58 `TooN.Fad.c58_get`
* C58 `TooN.Fad.c58_get_matrix`
* C58 `TooN.Fad.c58_jacobian`
* C58 `TooN.Fad.c58_left_so3`
* C58 `TooN.Fad.c58_left_se3`
* C58 `TooN.Fad.c58_left_so2`
* C58 `TooN.Fad.c58_left_se2`
* C58 `TooN.Fad.c58_action`
* C59 `TooN.GroupIO.c59_so2`
* C59 `TooN.GroupIO.c59_so3`
* C59 `TooN.GroupIO.c59_sl`
* C59 `TooN.GroupIO.c59_se_layout`
* C59 `TooN.GroupIO.c59_se2`
* C59 `TooN.GroupIO.c59_se3`
* C59 `TooN.GroupIO.c59_so3_valid`
* C59 `TooN.GroupIO.c59_se3_valid`
* C59 `TooN.GroupIO.c59_so2_valid`
* C59 `TooN.GroupIO.c59_se2_valid`
* C59 `TooN.GroupIO.c59_sl_valid`
* C60 `TooN.Typed.c60_types_agree_partial`
* C60 `TooN.Typed.c60_same_outcome_partial`
* C60 `TooN.Typed.c60_in_bounds_partial`
* C61 `TooN.c61_elementwise`
* C61 `TooN.c61_neg_exact`
* C61 `TooN.c61_dot`
* C61 `TooN.c61_dot_backward`
* C61 `TooN.c61_mulMV`
* C61 `TooN.c61_mulMM`
* C61 `TooN.c61_cross`
* C61 `TooN.c61_norm`
* C61 `TooN.c61_unit`
* C61 `TooN.c61_exact_symmetries`
* C61 `TooN.c61_dot_exact`
* C61 `TooN.c61_dot_integers`
* C62 `TooN.Chol.c62_factor`
* C62 `TooN.Chol.c62_backsub`
* C62 `TooN.Chol.c62_stable`
* C62 `TooN.Chol.c62_success`
* C62 `TooN.Chol.c62_solve`
* C62 `TooN.Chol.c62_backsub_matrix`
* C62 `TooN.Chol.c62_determinant`
* C62 `TooN.Chol.c62_determinant_backward`
* C62 `TooN.Chol.c62_determinant_forward`
* C62 `TooN.Chol.c62_mahalanobis`
* C62 `TooN.Chol.c62_inverse`
* C62 `TooN.Chol.c62_forward`
* C63 `TooN.Elim.c63_backward`
* C63 `TooN.Elim.c63_stable`
* C63 `TooN.Elim.c63_stable_vector`
* C63 `TooN.Elim.c63_fails_only_near_singular`
* C63 `TooN.Elim.c63_dominant`
* C63 `TooN.Elim.c63_forward`
* C63 `TooN.Elim.c63_vector_overload`
* C63 `TooN.Elim.c63_vector_overload_singular`
* C63 `TooN.Elim.c63_vector_overload_dominant`
* C63 `TooN.Elim.c63_vector_overload_double`
* C64 `TooN.Elim.c64_determinant_gauss`
* C64 `TooN.Elim.c64_determinant_2x2`
* C64 `TooN.Elim.c64_determinant`
* C64 `TooN.Elim.c64_zero_near_singular`
* C64 `TooN.Elim.c64_forward`
* C64 `TooN.Elim.c64_sign`
* C65 `TooN.Expr.c65_sound`
* C65 `TooN.Expr.c65_complete`
* C65 `TooN.Expr.c65_safe`
* C65 `TooN.Expr.c65_reject`
* C65 `TooN.Expr.c65_static`
* C65 `TooN.Expr.c65_functional`
* C65 `TooN.Expr.c65_env_exists`
* C65 `TooN.Expr.c65_cross_dynamic_wrong`
* C65 `TooN.Expr.c65_as_col_resizable_wrong`
* C65 `TooN.Expr.c65_index_unchecked_wrong`
* C66 `TooN.Expr.c66_deterministic`
* C66 `TooN.Expr.c66_sound`
* C66 `TooN.Expr.c66_complete`
* C66 `TooN.Expr.c66_safe`
* C66 `TooN.Expr.c66_reject`
* C66 `TooN.Expr.c66_overlap_wrong`
* C66 `TooN.Expr.c66_resize_self_wrong`
* C67 `TooN.Expr.c67_safe`
* C67 `TooN.Expr.c67_reject`
* C67 `TooN.Expr.c67_safe_expr`
* C67 `TooN.Expr.c67_autodiff`
* C67 `TooN.Expr.c67_autodiff_defined`
* C67 `TooN.Expr.c67_float_exact`
* C68 `TooN.View.c68_views`
* C68 `TooN.View.c68_elements`
* C68 `TooN.View.c68_in_bounds`
* C69 `TooN.FlRot.c69_coerce`
* C69 `TooN.FlRot.c69_coerce2`
* C69 `TooN.FlRot.c69_million`
* C69 `TooN.FlRot.c69_coerce_exact`
* C69 `TooN.FlRot.c69_product`
* C69 `TooN.FlRot.c69_drift`
* C69 `TooN.FlRot.c69_drift_linear`
* C69 `TooN.FlRot.c69_defect`
* C69 `TooN.FlRot.c69_inverse`
* C69 `TooN.FlRot.c69_act`
* C69 `TooN.FlRot.c69_pose_act`
* C69 `TooN.FlRot.c69_pose_drift`
* C70 `TooN.FlRot.c70_exp`
* C70 `TooN.FlRot.c70_exp_frob`
* C70 `TooN.FlRot.c70_exp2`
* C70 `TooN.FlRot.c70_exp_zero`
* C70 `TooN.FlRot.c70_exp_neg`
* C70 `TooN.FlRot.c70_integrate`
* C70 `TooN.FlRot.c70_exp_exact`
* C71 `TooN.WLS.c71_accumulate`
* C71 `TooN.WLS.c71_stable`
* C71 `TooN.WLS.c71_forward`
* C71 `TooN.WLS.c71_accumulate_mixed`
* C71 `TooN.WLS.c71_stable_mixed`
* C71 `TooN.WLS.c71_forward_mixed`
* C71 `TooN.WLS.c71_double_same`
* C72 `TooN.Expr.c72_no_race`
* C72 `TooN.Expr.c72_terminates`
* C72 `TooN.Expr.c72_result`
* C72 `TooN.Expr.c72_frame`
* C72 `TooN.Expr.c72_deterministic`
* C72 `TooN.Expr.c72_meaning`
* C72 `TooN.Expr.c72_parallel_product`
* C72 `TooN.Expr.c72_shared_wrong`
* C73 `TooN.DebugRandom.c73_full_period`
* C73 `TooN.DebugRandom.c73_seed`
* C73 `TooN.DebugRandom.c73_fill_partial`
* C73 `TooN.DebugRandom.c73_empty_wrong`
* C73 `TooN.DebugRandom.c73_range`
* C73 `TooN.DebugRandom.c73_threads_wrong`
* C74 `TooN.Mach.c74_golden_domain`
* C74 `TooN.Mach.c74_brent_domain_partial`
* C74 `TooN.Mach.Exact.c74_exact_golden`
* C74 `TooN.Mach.Exact.c74_exact_brent`
* C74 `TooN.Mach.Exact.c74_exact_simplex`
* C74 `TooN.Mach.Exact.c74_exact_cg`
* C74 `TooN.Mach.c74_formats`
* C74 `TooN.Mach.c74_brent`
* C74 `TooN.Mach.c74_golden`
* C74 `TooN.Mach.c74_golden_nan_wrong`
* C74 `TooN.Mach.c74_bracket`
* C74 `TooN.Mach.c74_cg_next`
* C74 `TooN.Mach.c74_cg`
* C74 `TooN.Mach.c74_simplex_values`
* C74 `TooN.Mach.c74_simplex_best`
* C74 `TooN.Mach.c74_brent_nan_wrong`
* C74 `TooN.Mach.c74_simplex_nan_wrong`
* C75 `TooN.Heap.c75_safe_partial`
* C75 `TooN.Heap.c75_memory`
* C75 `TooN.Heap.c75_no_copy`
* C75 `TooN.Heap.c75_no_ub`
* C76 `TooN.Special.c76_program`
* C76 `TooN.Special.c76_program_infinite`
* C76 `TooN.Special.c76_expr`
* C76 `TooN.Special.c76_dot`
* C76 `TooN.Special.c76_matrix_product`
* C76 `TooN.Special.c76_norms`
* C76 `TooN.Special.c76_solve_nan`
* C76 `TooN.Special.c76_solve_update`
* C76 `TooN.Special.c76_determinant_partial`
* C76 `TooN.Special.c76_matrix_norm_wrong`
* C76 `TooN.Special.c76_norm_inf_partial`
* C76 `TooN.Special.c76_norm_inf_wrong`
* C76 `TooN.Special.c76_extremum_wrong`
* C76 `TooN.Special.c76_determinant_wrong`
* C76 `TooN.Special.c76_exp_wrong`
* C76 `TooN.Special.c76_log_wrong`
* C76 `TooN.Special.c76_solve_infinite_wrong`
* C76 `TooN.Special.c76_unit_wrong`
* C76 `TooN.Special.c76_norm_underflow_wrong`
* C77 `TooN.Special.c77_rounding`
* C77 `TooN.Special.c77_flags`
* C77 `TooN.Special.c77_program`
* C77 `TooN.Special.c77_expr`
* C77 `TooN.Special.c77_solve`
* C77 `TooN.Special.c77_solve_accurate`
* C77 `TooN.Special.c77_dot_range`
* C77 `TooN.Special.c77_norm_range`
* C77 `TooN.Special.c77_double`
* C77 `TooN.Special.c77_float`
* C78 `TooN.Special.c78_exp_taylor`
* C78 `TooN.Special.c78_exp`
* C78 `TooN.Special.c78_exp_taylor_double`
* C78 `TooN.Special.c78_exp_double`
* C78 `TooN.Special.c78_exp_zero_ub`
* C78 `TooN.Special.c78_exp_ub_iff`
* C78 `TooN.Special.c78_exp_taylor_float`
* C79 `TooN.Special.c79_log_taylor`
* C79 `TooN.Special.c79_log_taylor_double`
* C79 `TooN.Special.c79_log_double`
* C79 `TooN.Special.c79_log_roots_double`
* C79 `TooN.Special.c79_log_taylor_float`
* C80 `TooN.IRLS.c80_runs`
* C80 `TooN.IRLS.c80_descent`
* C80 `TooN.IRLS.c80_limits`
* C80 `TooN.IRLS.c80_robustI_converges`
* C80 `TooN.IRLS.c80_robustI_rate`
* C80 `TooN.IRLS.c80_linear_one_pass`
* C80 `TooN.IRLS.c80_robustII_stuck_wrong`
* C81 `TooN.QRF.c81_same_code`
* C81 `TooN.QRF.c81_backward_partial`
* C81 `TooN.QRF.c81_succeeds_partial`
* C81 `TooN.QRF.c81_orthogonality_partial`
* C81 `TooN.QRF.c81_residual_partial`
* C81 `TooN.QRF.c81_breakdown_wrong`
* C81 `TooN.QRF.c81_not_orthogonal_wrong`
* C82 `TooN.Fused.c82_dot`
* C82 `TooN.Fused.c82_dot_backward`
* C82 `TooN.Fused.c82_mulMV`
* C82 `TooN.Fused.c82_mulMM`
* C82 `TooN.Fused.c82_cross`
* C82 `TooN.Fused.c82_norm`
* C82 `TooN.Fused.c82_fma`
* C82 `TooN.Fused.c82_never`
* C82 `TooN.Fused.c82_dot_comm`
* C82 `TooN.Fused.c82_cross_self`
* C82 `TooN.Fused.c82_cross_self_wrong`
* C82 `TooN.Fused.c82_chol_factor`
* C82 `TooN.Fused.c82_chol_backsub`
* C82 `TooN.Fused.c82_chol_stable`
* C82 `TooN.Fused.c82_chol_success`
* C82 `TooN.Fused.c82_chol_solve`
* C82 `TooN.Fused.c82_chol_backsub_matrix`
* C82 `TooN.Fused.c82_chol_determinant`
* C82 `TooN.Fused.c82_elim_backward`
* C82 `TooN.Fused.c82_elim_stable`
* C82 `TooN.Fused.c82_elim_stable_vector`
* C82 `TooN.Fused.c82_elim_fails_only_near_singular`
* C82 `TooN.Fused.c82_elim_dominant`
* C82 `TooN.Fused.c82_wls_accumulate`
* C82 `TooN.Fused.c82_wls_stable`
* C82 `TooN.Fused.c82_wls_forward`
* C83 `TooN.Generated.c83_makeVector`
* C83 `TooN.Generated.c83_data`
* C83 `TooN.Generated.c83_schema`
* C83 `TooN.Generated.c83_transformCovariance_symmetric`
* C83 `TooN.Generated.c83_transformCovariance`
* C84 `TooN.Special.c84_backsub`
* C84 `TooN.Special.c84_backsub_matrix`
* C84 `TooN.Special.c84_inverse`
* C84 `TooN.Special.c84_mahalanobis`
* C84 `TooN.Special.c84_determinant`
* C84 `TooN.Special.c84_determinant_wrong`
* C84 `TooN.Special.c84_gauss_jordan`
* C84 `TooN.Special.c84_wls`
* C85 `TooN.PinvF.c85_truncation`
* C85 `TooN.PinvF.c85_svd_backsub`
* C85 `TooN.PinvF.c85_svd_backsub_matrix`
* C85 `TooN.PinvF.c85_svd_pinv`
* C85 `TooN.PinvF.c85_svd_determinant`
* C85 `TooN.PinvF.c85_gr_largest`
* C85 `TooN.PinvF.c85_gr_backsub`
* C85 `TooN.PinvF.c85_gr_backsub_matrix`
* C85 `TooN.PinvF.c85_gr_pinv`
* C85 `TooN.PinvF.c85_sym_backsub`
* C85 `TooN.PinvF.c85_sym_backsub_matrix`
* C85 `TooN.PinvF.c85_sym_pinv`
* C85 `TooN.PinvF.c85_sym_sqrtm`
* C85 `TooN.PinvF.c85_sym_determinant`
* C85 `TooN.PinvF.c85_same_code`
* C86 `TooN.Helpers.c86_vector`
* C86 `TooN.Helpers.c86_matrix`
* C86 `TooN.Helpers.c86_horizontal_partial`
* C86 `TooN.Helpers.c86_vertical_partial`
* C86 `TooN.Helpers.c86_index_exact`
* C86 `TooN.Helpers.c86_index_wrong`
* C87 `TooN.HelpersF.c87_norm_1`
* C87 `TooN.HelpersF.c87_norm_inf`
* C87 `TooN.HelpersF.c87_matrix_norms`
* C87 `TooN.HelpersF.c87_norm_fro`
* C87 `TooN.HelpersF.c87_trace`
* C87 `TooN.HelpersF.c87_project`
* C87 `TooN.HelpersF.c87_symmetrize`
* C87 `TooN.HelpersF.c87_inv`
* C87 `TooN.HelpersF.c87_inv_accurate`
* C87 `TooN.HelpersF.c87_cross_product_matrix`
* C88 `TooN.SymEigenF.c88_same_code`
* C88 `TooN.SymEigenF.c88_orthonormal`
* C88 `TooN.SymEigenF.c88_eigenvalues`
* C88 `TooN.SymEigenF.c88_residual_partial`
* C88 `TooN.SymEigenF.c88_diagonal`
* C88 `TooN.SymEigenF.c88_diagonal_wrong`
* C89 `TooN.FlRot.c89_rotation`
* C89 `TooN.FlRot.c89_translation`
* C89 `TooN.FlRot.c89_translation_away`
* C89 `TooN.FlRot.c89_pure_translation`
* C89 `TooN.FlRot.c89_exact`
* C89 `TooN.FlRot.c89_se2_rotation`
* C89 `TooN.FlRot.c89_se2_translation`
* C89 `TooN.FlRot.c89_se2_exact`
* C89 `TooN.FlRot.c89_small_angle_wrong`
* C89 `TooN.FlRot.c89_integrate`
* C90 `TooN.FlRot.c90_from_to_partial`
* C90 `TooN.FlRot.c90_branches`
* C90 `TooN.FlRot.c90_exact`
* C90 `TooN.FlRot.c90_nearly_parallel_wrong`
* C90 `TooN.FlRot.c90_worked`
* C91 `TooN.FlRot.c91_ln`
* C91 `TooN.FlRot.c91_exp_ln`
* C91 `TooN.FlRot.c91_ln_principal`
* C91 `TooN.FlRot.c91_round_trip`
* C91 `TooN.FlRot.c91_exact`
* C92 `TooN.FlRot.c92_inverse`
* C92 `TooN.FlRot.c92_round_trip`
* C92 `TooN.FlRot.c92_mul_inverse`
* C92 `TooN.FlRot.c92_adjoint`
* C92 `TooN.FlRot.c92_pairing`
* C92 `TooN.FlRot.c92_se2_adjoint`
* C92 `TooN.FlRot.c92_exact`
* C92 `TooN.FlRot.c92_double`
* C93 `TooN.FlRot.c93_translation`
* C93 `TooN.FlRot.c93_ln`
* C93 `TooN.FlRot.c93_round_trip`
* C93 `TooN.FlRot.c93_exact`
* C94 `TooN.FlRot.c94_so2_ln`
* C94 `TooN.FlRot.c94_so2_angle`
* C94 `TooN.FlRot.c94_se2_ln`
* C94 `TooN.FlRot.c94_so2_round_trip`
* C94 `TooN.FlRot.c94_exact_so2`
* C94 `TooN.FlRot.c94_exact_se2`
* C95 `TooN.FlRot.c95_act`
* C95 `TooN.FlRot.c95_mul`
* C95 `TooN.FlRot.c95_chain`
* C95 `TooN.FlRot.c95_sim3_inverse`
* C95 `TooN.FlRot.c95_sim2_inverse`
* C95 `TooN.FlRot.c95_sim3_round_trip`
* C95 `TooN.FlRot.c95_sim2_round_trip`
* C95 `TooN.FlRot.c95_exact`
* C96 `TooN.SLF.c96_coerce`
* C96 `TooN.SLF.c96_coerce_double`
* C96 `TooN.SLF.c96_coerce_outcomes`
* C96 `TooN.SLF.c96_coerce_succeeds`
* C96 `TooN.SLF.c96_mul`
* C96 `TooN.SLF.c96_inverse_residual`
* C96 `TooN.SLF.c96_inverse`
* C96 `TooN.SLF.c96_mul_det`
* C96 `TooN.SLF.c96_chain`
* C96 `TooN.SLF.c96_inverse_det`
* C96 `TooN.SLF.c96_coerce_det`
* C96 `TooN.SLF.c96_action`
* C96 `TooN.SLF.c96_action_left`
* C96 `TooN.SLF.c96_exact`
