{
 "C01": {
  "note": "arbitrary chains of view operations"
 },
 "C04": {
  "note": "also proves that int overflow of start+length is accepted by the run-time check (c04_int_overflow)"
 },
 "C07": {
  "status": "partial",
  "note": "False of the code as stated: self assignment destroys contents when TOON_INITIALIZE_* is on (c07_self_assign_debug_destroys), assigning an empty vector is UB (c07_assign_empty_ub), assigning a proper suffix slice of itself is UB (c07_self_slice_ub). Proved on the complement."
 },
 "C12": {
  "status": "partial",
  "note": "False for size-1 vectors (c12_fill_vector_size_one, c12_full_claim_false); proved for every other size."
 },
 "C13": {
  "status": "partial",
  "note": "False for one-column matrices (c13_one_column_never_succeeds); proved for all others."
 },
 "C15": {
  "note": "scalar formatting/parsing are parameters with a stated round-trip contract"
 },
 "C50": {
  "status": "partial",
  "note": "Data(...) on a Dynamic matrix writes nothing (c50_data_dynamic_writes_nothing); proved for vectors and static matrices."
 },
 "C53": {
  "status": "partial",
  "note": "False for int*Matrix<double> and double*Matrix<int> (c53_full_claim_false, exact characterisation proved); exact in all other forms."
 },
 "C54": {
  "status": "partial",
  "note": "False for division of int-valued operators (c54_full_claim_false)."
 },
 "C19": {
  "status": "partial",
  "note": "LAPACK contract is a hypothesis (shown satisfiable, c19_contract_satisfiable). backsub(Matrix) is false for dynamically sized right-hand sides (c19_backsub_dynamic_wrong, for every LAPACK meeting the contract): proved for statically sized ones and for the dynamic case without interchanges."
 },
 "C22": {
  "note": "includes negative witnesses: rank() after an early stop is not the matrix rank, determinant() after an early stop is wrong for indefinite matrices"
 },
 "C27": {
  "note": "rows <= columns as documented; also proves exactly when the code divides by zero (c27_step_fails_iff), e.g. on every upper triangular matrix and the identity"
 },
 "C26": {
  "status": "partial",
  "note": "False for RobustII::true_scale (c26_robustII_true_scale_wrong), ILinear::objective (c26_linear_objective_wrong) and true_C_inv (c26_true_C_inv_is_garbage: built from uninitialised memory); += drops the residual (c26_plusEq_loses_residual). Everything else proved."
 },
 "C28": {
  "status": "partial",
  "note": "LAPACK contract is a hypothesis (satisfiable over R: c28_contract_satisfiable). False for rank() (inverted comparison: returns 1+min-rank(A), c28_rank_partial, c28_rank_wrong) and determinant() (absolute value, c28_determinant_partial, c28_determinant_wrong); everything else proved."
 },
 "C43": {
  "note": "the per-row/per-column forms read out of bounds on a matrix with no columns/rows (c43_empty_lines_ub: the guard discards its return value)"
 },
 "C30": {
  "note": "the LAPACK syev contract is a hypothesis (satisfiable: c30_contract_satisfiable); the isqrtm threshold compares square roots as in the code"
 },
 "C31": {
  "status": "partial",
  "note": "False of the code: zero matrix leaves the eigenvalues unset (c31_zero_matrix_wrong), tiny matrices get identity eigenvectors (c31_tiny_matrix_wrong), the all-ones matrix divides by zero (c31_all_ones_wrong), the one-small branch normalises the wrong rows (c31_one_small_wrong). Proved: eigenvalues for every nonzero symmetric matrix; complete decomposition for separated, double and triple eigenvalues outside those cases."
 },
 "C33": {
  "status": "partial",
  "note": "coerce (and so construction from a matrix or stream) accepts reflections and leaves them reflections (c33_coerce_reflection_wrong); everything else proved."
 },
 "C34": {
  "note": "the two series branches are truncated Taylor polynomials: entries within 2e-17 of the exponential and orthogonality defect at most 2e-16 (c34_exp_error); the third branch is exact"
 },
 "C36": {
  "note": "coerce aborts (assert) on negatively oriented rows and divides by zero on dependent rows: c36_coerce_fails_iff"
 },
 "C38": {
  "note": "For the matrix exponential of the generators the identity holds exactly (c38_adjoint_exponential). For the code's exp it holds exactly in the main branch; in the branch |w|^2<1e-8 the translation differs by exactly (|w|^2/6) Rw x t (c38_adjoint_code), because that branch drops a term of the series."
 },
 "C39": {
  "note": "exp is the matrix exponential of the generators outside the Taylor branches and within 3e-9/1e-12 relative inside; ln round trip exact for angle 0 or >= 0.002, within 1e-10 relative in between."
 },
 "C40": {
  "status": "partial",
  "note": "Group laws, actions, *=, left_multiply_by, stream round trip, generators, SIM3 exp/ln proved. False of the code: SIM2::exp (maps pure translations to the identity, c40_sim2_exp_wrong), the adjoints (last coordinate unset, c40_adjoint_unset; scale ignored, c40_adjoint_scale_wrong), the small-angle branch of SIM3::exp (integer divisions 1/2, 1/6, c40_exp_small_wrong)."
 },
 "C41": {
  "note": "matrix exp/log are parameters here (modelled in C44); the ln coordinate bug for N>=4 is proved for every N>=4 (c41_ln_exp_wrong)"
 },
 "C44": {
  "note": "exact arithmetic, except that the stopping comparisons carry a tolerance (tol=0 is the code); undefined behaviour for zero and for norm>2^30 proved (c44_exp_ub), sqrt([-3]) returns [-1] (c44_sqrt_wrong)"
 },
 "C45": {
  "status": "partial",
  "note": "maxiterations does not bound anything: the counter is never incremented (c45_maxiterations_ignored_wrong, c45_budget_exceeded_wrong), and with a minimiser at 0 the search never returns in exact arithmetic (c45_never_returns_wrong). Bracket, best value, geometric shrinking, termination away from 0: proved."
 },
 "C46": {
  "note": "also proves that a zero parabolic step can discard the minimum (c46_minimum_lost_wrong); the values of f are reals (NaN is not modelled)"
 },
 "C47": {
  "note": "finished() is the documented test on values, not on size: it is true whenever all the vertex values are equal (c47_finished_equal_values_wrong)"
 },
 "C48": {
  "note": "also proves assertion failures (c48_assert_fails_wrong, c48_nan_assert_wrong) and that bracketing need not return (c48_bracket_never_returns_wrong)"
 },
 "C49": {
  "status": "partial",
  "note": "gradient, diagonal entries, symmetry, n=2 and quadratics proved in full; off-diagonal entries for n>=3 only up to a perturbation of the other coordinates bounded by the largest step (c49_hessian_cross_partial), because the code does not restore the point (c49_hessian_perturbed_wrong)"
 },
 "C32": {
  "note": "the comparison abs(x)+anorm==anorm is a parameter (any test that accepts 0 and only values <= eps*anorm); everything else exact. Convergence within 30 sweeps is proved for N<=2 in exact arithmetic (c32_converges_two_columns); for larger N the outcome of both cases is characterised. nError is protected, so a user cannot see which case occurred."
 },
 "C56": {
  "note": "LAPACK contract (potrf, potrs, potri) is a hypothesis, shown satisfiable (c56_contract_satisfiable). Deviations from the documentation are theorems: c56_lower_half_doc_wrong, c56_rank_is_not_matrix_rank, c56_determinant_negative_wrong."
 },
 "C57": {
  "note": "LAPACK contract (geqp3, orgqr) is a hypothesis, shown satisfiable by constructing a pivoted Householder factorisation of every matrix (c57_contract_satisfiable). Deviations: c57_doc_permutation_wrong, c57_tall_wrong."
 },
 "C58": {
  "note": "FADBAD itself is external: its numbers are modelled as the square-zero extension of the reals (value and partial derivatives). get_derivative/get_jacobian are for static sizes (with N=Dynamic the loop bound N is -1, with F<P> the result type has 0 columns; both outside the claim)."
 },
 "C59": {
  "note": "Number formatting/parsing are parameters; the written numbers are required to survive them (FaithfulAt). State of the target after failbit is not modelled. SIM2/SIM3 stream I/O is in C40."
 },
 "C60": {
  "status": "partial",
  "note": "Full claim is false of the code: as_slice/as_row/as_col of a Vector<Resizable> have size -0x7fffffff (c60_resizable_wrong). Proved for every other object and chain, of any length."
 },
 "C73": {
  "status": "partial",
  "note": "False for an empty array: Vector<> v(0) writes four bytes beyond it (c73_empty_wrong); and the generator is shared, so constructing separate objects in two threads is a data race (c73_threads_wrong). Proved for every non-zero number of bytes."
 },
 "C72": {
  "note": "one access loads each operand cell once; construction and resizing of a variable is one access. Sharing without separation is shown to race (c72_shared_wrong)."
 },
 "C74": {
  "status": "partial",
  "note": "False where NaN or infinite values occur: golden_section_search may return NaN although the given value is a number (c74_golden_nan_wrong); a single infinite function value makes brent_line_search evaluate the function at NaN (c74_brent_nan_wrong), so its domain theorem has NaN as an alternative; a NaN function value makes get_best of DownhillSimplex lose the best point (c74_simplex_nan_wrong). Everything else is proved for all arithmetics. The models are the ones of C45-C48 when the arithmetic is exact (c74_exact_*)."
 },
 "C75": {
  "status": "partial",
  "note": "False as a whole: copying a vector, dynamic matrix or large static object loses the new array when copying an element throws (c75_copy_leak_wrong), because the copying is done in the constructor of the class that holds the bare pointer; an interrupted elementwise swap loses an element (c75_swap_wrong). Proved: everything else for every history and fault pattern, with the exact number of lost arrays (c75_safe_partial); none lost when only memory runs out (c75_memory) or without copy constructors (c75_no_copy). Element assignments are assumed to leave the element unchanged when they throw."
 },
 "C76": {
  "status": "partial",
  "note": "Proved for programs, expressions, dot and matrix products, 1/2/Frobenius norms, trace, and the solver. False where the library chooses with < (c76_matrix_norm_wrong, c76_norm_inf_wrong, c76_extremum_wrong, c76_determinant_wrong, c76_exp_wrong, c76_log_wrong) and for infinities in the solver and in unit (c76_solve_infinite_wrong, c76_unit_wrong, c76_norm_underflow_wrong)."
 },
 "C81": {
  "status": "partial",
  "note": "Proved under the proviso that no column is almost reduced when its reflection is formed (Cond kappa at every step). The unconditional claim is false: QR.h:152-166 chooses the sign that cancels; c81_breakdown_wrong (division by zero for |y| <= 2^-27 in double, any further columns) and c81_not_orthogonal_wrong (Q not orthogonal and QR far from A for a well-conditioned double matrix) are proved witnesses."
 },
 "C86": {
  "status": "partial",
  "note": "Everything is proved for the values, and for the indices of the vector and matrix queries. For the per-row and per-column element queries the index is proved to be the right one converted to the element type (exact up to 2^p, c86_index_exact); the full claim is false beyond that because the index vectors have the element type (c86_index_wrong)."
 },
 "C88": {
  "status": "partial",
  "note": "Orthonormality and eigenvalue accuracy hold for every matrix. The eigenvector claim holds with the factor ||A||/|b| (c88_residual_partial) and fails for diagonal matrices: c88_diagonal says what is returned there, c88_diagonal_wrong is a double matrix whose smaller eigenvalue gets the other eigenvalue's vector. float matrices (double locals) are not covered."
 },
 "C89": {
  "status": "proved",
  "note": "The bound has a constant 1.7e-9 below 1.0006e-4 radians because the first branch of the code drops the second-order term of the translation (c89_small_angle_wrong shows that it cannot be removed), and the error of the library's sin/cos is amplified by 1/theta, at most 1001. Rounding without overflow/underflow; literals rounded to the element type, so the model is the code for double."
 },
 "C90": {
  "status": "partial",
  "note": "the full claim (for every pair of vectors) is false of the code: c90_nearly_parallel_wrong exhibits two nearly parallel double vectors for which the stored matrix has an element above 1.2. c90_from_to_partial proves it when the sine of the angle is at least 1000u, with error 66u/s; c90_branches covers the branches for all inputs."
 },
 "C94": {
  "note": "rounding without overflow/underflow; literals rounded to the element type. The loss below 1.1e-5 radians is the code's Taylor branch (shtot = 0.5). Accuracy of atan2, sin, cos is a hypothesis, met by a correctly rounded library (example)."
 },
 "C95": {
  "note": "rounding without overflow/underflow; the adjoint functions of SIM2/SIM3 leave an element uninitialised (C40) and are not part of this property."
 }
}