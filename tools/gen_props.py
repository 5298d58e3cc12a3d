#!/usr/bin/env python3
# Generates /verif/properties.jsonl. Kept so that the list stays easy to edit.
import json
P=[]
def p(title, statement, quantifier, why, anchors):
    P.append(dict(id="C%02d"%(len(P)+1), title=title, statement=statement,
                  quantifier=quantifier, why_tests_cant=why, anchors=anchors))

p("Views address the right element",
  "Element i of v.slice(s,l) is element s+i of v; m[r][c], m(r,c), m.T()(c,r), m.T().T()(r,c), m.slice(r0,c0,..)(r-r0,c-c0), m.diagonal_slice()[k] = m(k,k), v.as_row()(0,i) = v.as_col()(i,0) = v[i] all name the same cell, and a chain of such views is again the single view it denotes.",
  "all buffers, sizes, row/column-major layouts, and every finite chain of view operations",
  "chains of views are unbounded; each composition is a different stride/offset pair",
  ["TooN/internal/vbase.hh GenericVBase","TooN/internal/mbase.hh GenericMBase, RowMajor, ColMajor"])
p("Views stay in bounds and never self-alias",
  "Every view obtained from an owning vector or matrix by any chain of accepted view operations refers only to cells of the owner's buffer, and two different index positions of one view are two different cells.",
  "all owners, all sizes, both layouts, every finite chain of accepted view operations",
  "memory safety is a for-all statement over offsets and strides",
  ["TooN/internal/vbase.hh","TooN/internal/mbase.hh","TooN/internal/slice_error.hh CheckSlice"])
p("Writing through a view is write-through and framed",
  "Assigning through a view element changes exactly the corresponding element of the owner (and of every other view of that cell) and no other element; two disjoint slices never affect each other.",
  "all owners, views, indices and values",
  "frame conditions quantify over every other index",
  ["TooN/internal/vbase.hh operator[]","TooN/internal/mbase.hh operator()"])
p("Slice checking accepts exactly the in-range slices",
  "With the default checks, v.slice(start,length) is accepted iff 0<=start, 0<=length and start+length<=v.size(); otherwise the program aborts (or fails to compile for static sizes). The run-time check is only meaningful when start+length does not overflow int.",
  "all (static or dynamic) sizes, starts and lengths, including negative ones",
  "boundary conditions over all ints; the overflow case needs adversarial ints",
  ["TooN/internal/slice_error.hh CheckSlice::check"])
p("Size mismatches are always caught",
  "A binary operation or assignment on operands whose sizes differ never runs (static mismatch: does not compile, otherwise abort), and one whose sizes agree is never rejected, whatever mixture of static, Dynamic and Resizable sizes is used; the static size of the result is consistent with the run-time size.",
  "all pairs of static/Dynamic/Resizable size parameters and run-time sizes",
  "the template case analysis has infinitely many instances",
  ["TooN/internal/size_mismatch.hh SizeMismatch","TooN/TooN.h Sizer"])
p("Owning vectors and matrices have value semantics and leak nothing",
  "For every history of construction, copy construction, move construction, assignment, swap and destruction, no buffer is freed twice or used after free, no live objects share a buffer, and when all objects are destroyed every buffer has been freed; copying yields an equal, independent object and writes to one object never change another.",
  "all finite histories of operations on any number of objects",
  "double free and sharing only appear in particular histories",
  ["TooN/internal/allocator.hh VectorAlloc<Dynamic>, StackOrHeap, MatrixAlloc"])
p("Resizable vectors resize correctly",
  "v.resize(n) gives size n and keeps the first min(n,old) elements; assigning any vector to a Resizable vector gives it that vector's size and contents; assigning it to itself leaves it unchanged.",
  "all sizes, contents and debug-initialisation configurations",
  "the size is unbounded, and self-assignment is a corner case dependent on configuration",
  ["TooN/internal/allocator.hh VectorAlloc<Resizable>","TooN/internal/vector.hh operator="])
p("Assignment copies elements, and overlap is the only hazard",
  "a = b between non-overlapping (or identical) views of equal size makes a elementwise equal to the old b and leaves b and everything else unchanged; M = M.T() on the same storage does not transpose in general but mirrors the lower triangle; an arithmetic right-hand side is evaluated completely before the assignment.",
  "all sizes, layouts and contents",
  "aliasing behaviour depends on every element and on evaluation order",
  ["TooN/internal/vector.hh operator=","TooN/internal/matrix.hh operator="])
p("Vector and matrix arithmetic computes the mathematical result",
  "+, -, unary -, scalar * and /, diagmult, dot product, cross product, matrix*vector, vector*matrix and matrix*matrix return the mathematically defined result; compound assignments update in place with the same result, also when the operand is the object itself.",
  "all sizes and element values (exact arithmetic)",
  "for-all over sizes and values",
  ["TooN/internal/operators.hh","TooN/internal/vector.hh","TooN/internal/matrix.hh"])
p("Algebraic laws of the product",
  "(A*B)*C = A*(B*C), (A*B).T() = B.T()*A.T(), A*(B+C) = A*B + A*C, Identity*A = A = A*Identity, a^b is orthogonal to a and b and a^b = -(b^a), and v.as_col()*w.as_row() is the outer product.",
  "all conforming sizes and values (exact arithmetic)",
  "laws over all operands",
  ["TooN/internal/operators.hh","TooN/internal/objects.h"])
p("Zeros, Identity, Ones and scaled forms",
  "Assigning Zeros, Ones, Identity*s, Ones*s and adding or subtracting them on either side sets/changes exactly the documented elements, for any size; Identity only on square matrices.",
  "all sizes and values",
  "for-all over sizes, both operand orders",
  ["TooN/internal/objects.h","TooN/internal/diagmatrix.h"])
p("Fill(v) = a,b,c accepts exactly size() values and stores them in order",
  "Fill(v)=x0,x1,...,x(k-1) on a vector of size n terminates normally iff k=n, and then v[i]=xi; with k>n it is reported as overfilled, with k<n as underfilled. (The code violates this for n=1.)",
  "all vector sizes n and all value lists",
  "the comma operator chain is unbounded and the n=1 case is special",
  ["TooN/internal/comma.hh VectorFiller","TooN/internal/overfill_error.hh"])
p("Fill(m) = ... fills row-major and accepts exactly rows*cols values",
  "Fill(m)=x0,...,x(k-1) terminates normally iff k=rows*cols and then m(r,c)=x(r*cols+c). (The code violates this for one-column matrices.)",
  "all matrix shapes and all value lists",
  "shape-dependent wrap-around logic",
  ["TooN/internal/comma.hh MatrixFiller"])
p("Equality comparisons",
  "v==w is true iff all corresponding elements are equal, v!=w is its negation, same for matrices.",
  "all sizes and values",
  "early-exit loops over unbounded sizes",
  ["TooN/internal/vector.hh operator==","TooN/internal/matrix.hh operator=="])
p("Stream output read back gives the same object",
  "Reading with >> what << wrote into an object of the same size restores every element (when the scalar type round-trips), consuming exactly the written tokens.",
  "all sizes, contents and any trailing stream content",
  "sizes unbounded",
  ["TooN/internal/operators.hh operator<<, operator>>"])
p("gauss_jordan turns [A|B] into [I | A^-1 B]",
  "For every n x m matrix (m>=n) whose left n x n block is invertible, the result's left block is the identity and A * right block = original right block; the routine never divides by zero on such input.",
  "all sizes n,m and all matrices with invertible left block (exact arithmetic)",
  "correctness of pivoting for all matrices",
  ["TooN/gauss_jordan.h gauss_jordan"])
p("gaussian_elimination solves A x = b",
  "For invertible A, gaussian_elimination(A,b) returns x with A x = b, for vector and matrix right-hand sides, never dividing by zero; arguments are taken by value so the caller's data are unchanged.",
  "all sizes and all invertible A and all b (exact arithmetic)",
  "for-all over matrices; pivot choice",
  ["TooN/gaussian_elimination.h gaussian_elimination"])
p("determinant_gaussian_elimination returns the determinant",
  "For every square matrix the function returns its determinant (including sign changes from row swaps and the early exit for singular matrices), and never divides by zero.",
  "all sizes and matrices, singular or not (exact arithmetic)",
  "sign bookkeeping and early exit for all matrices",
  ["TooN/determinant.h determinant_gaussian_elimination, determinant"])
p("LU: solve, inverse and determinant are consistent with the factorisation",
  "Given the LAPACK getrf factorisation contract, backsub(v) solves A x = v, backsub(M) solves A X = M, get_inverse() is A^-1, determinant() = det A. (backsub on a dynamically sized right-hand-side matrix violates this.)",
  "all sizes, invertible A, right-hand sides, pivot sequences",
  "permutation handling over all pivot sequences",
  ["TooN/LU.h LU"])
p("Cholesky computes A = L D L^T",
  "For every symmetric positive definite matrix, get_unscaled_L() is unit lower triangular, get_D() is diagonal with positive entries and L*D*L^T = A; no division by zero occurs; the strictly upper half of the input is never used.",
  "all sizes, all SPD matrices (exact arithmetic)",
  "for-all over SPD matrices; in-place algorithm with cached values",
  ["TooN/Cholesky.h Cholesky::do_compute"])
p("Cholesky solve, inverse, determinant and Mahalanobis",
  "After computing a full-rank factorisation of A: backsub(b) is the unique x with A x = b (vector and matrix), get_inverse() is A^-1, determinant() = det A, mahalanobis(v) = v^T A^-1 v, and get_L() is lower triangular with get_L()*get_L()^T = A.",
  "all sizes, SPD matrices and right-hand sides",
  "for-all over matrices and right-hand sides",
  ["TooN/Cholesky.h backsub, determinant, get_inverse, get_L, mahalanobis"])
p("Cholesky rank reporting",
  "rank() equals the matrix size iff every pivot is nonzero; for positive semidefinite matrices determinant() is the determinant even when the factorisation stops early. rank() is not the rank of A in general (diag(0,1)).",
  "all sizes and symmetric matrices",
  "the early-return path depends on the matrix",
  ["TooN/Cholesky.h do_compute, rank"])
p("WLS solves the weighted normal equations",
  "After any sequence of add_prior/add_mJ/add_mJ_rows/add_sparse_mJ calls with positive definite accumulated information, compute() makes get_mu() the solution of (sum w J^T J + priors) mu = sum w m J, i.e. the minimiser of the weighted sum of squares.",
  "all dimensions, all finite sequences of measurements, weights and priors",
  "the accumulated state depends on the whole history",
  ["TooN/wls.h WLS"])
p("WLS is order independent and additive",
  "The solution does not depend on the order in which measurements and priors are added; accumulating into two WLS objects and adding them with += is the same as accumulating everything into one; clear() forgets everything.",
  "all permutations and partitions of all measurement lists",
  "permutations are factorial in number",
  ["TooN/wls.h add_mJ, operator+=, clear"])
p("WLS sparse, row and covariance variants agree with the dense scalar form",
  "add_sparse_mJ(m,J1,i) equals add_mJ with J zero-padded; add_mJ_rows/add_sparse_mJ_rows with rows and inverse covariance equal the corresponding dense update; add_prior(vector) equals adding a diagonal prior, etc.",
  "all dimensions, block positions, Jacobians and weights",
  "index arithmetic for all blocks",
  ["TooN/wls.h add_sparse_mJ, add_mJ_rows, add_sparse_mJ_rows"])
p("IRLS reweighting and robust estimators",
  "Each estimator's reweight/true_scale/objective satisfy the documented relations true_scale = w + x w' and d(objective)/dx = x w(x); IRLS::add_mJ adds the measurement with weight reweight(m). (RobustII::true_scale, ILinear objective and the true_C_inv accumulation violate this.)",
  "all residuals, sigma>0 and measurement histories",
  "real-analytic identities over all x",
  ["TooN/irls.h RobustI, RobustII, RobustIII, ILinear, IRLS"])
p("QR factorisation",
  "When no Householder step degenerates, Q is orthogonal, R is upper triangular and Q*R = A. (The code divides by zero when a column is already a multiple of the first basis vector.)",
  "all shapes with rows <= columns (the documented domain) and all matrices (real arithmetic)",
  "degenerate columns are a measure-zero set random tests never hit",
  ["TooN/QR.h QR"])
p("SVD-based pseudo-inverse, solve, rank and determinant",
  "Given a valid SVD A = U D V^T, get_pinv() satisfies the Moore-Penrose equations when the condition number threshold keeps exactly the nonzero singular values, backsub = pinv*rhs (least squares), both branches of the tall/wide split agree. rank() and determinant() as documented (the code violates both).",
  "all shapes and all valid decompositions",
  "for-all over decompositions; sign of determinant",
  ["TooN/SVD.h SVD"])
p("SymEigen 2x2 closed form is an eigendecomposition",
  "For every symmetric 2x2 matrix the computed evectors are orthonormal rows, the evalues are ascending, and V^T diag(l) V = A.",
  "all real symmetric 2x2 matrices",
  "special cases b=0, a=c, are measure zero",
  ["TooN/SymEigen.h ComputeSymEigen<2>"])
p("SymEigen derived quantities",
  "Given an orthonormal eigendecomposition: backsub/get_pinv invert on the well-conditioned part, get_determinant is det A, get_sqrtm squares to A for PSD A, get_isqrtm inverts it, is_posdef iff positive definite, is_negdef iff negative definite.",
  "all sizes and valid eigendecompositions",
  "for-all over decompositions",
  ["TooN/SymEigen.h SymEigen"])
p("SymEigen 3x3 closed form",
  "For a symmetric 3x3 matrix the eigenvalues are the roots of the characteristic polynomial in ascending order, and the evectors are orthonormal rows with V^T diag(l) V = A. (Zero matrix: evalues are left unset; 'one small' branch normalises the wrong rows.)",
  "all real symmetric 3x3 matrices",
  "special branches are measure zero",
  ["TooN/SymEigen.h ComputeSymEigen<3>"])
p("GR_SVD is a singular value decomposition",
  "The constructor always returns (no division by zero, no throw, no out-of-range read, at most 31 steps per value). V is orthogonal and U has orthonormal columns (M>=N) or rows (M<=N). If the 30-iteration limit was not hit, U diag(d) V^T = A up to 186 N eps ||A|| (eps the threshold of the rounding test; equality in exact arithmetic), d >= 0, and the squares of d are the eigenvalues of A^T A. If the limit was hit, the error flag is nonzero and A is still U B V^T with B bidiagonal. The WANT_U/WANT_V flags do not affect other results. reorder() sorts the values in descending order and permutes the columns of U and V consistently so that U D V^T is unchanged; get_inv_diag zeroes exactly the values with d*condition <= largest; get_pinv/backsub are the Moore-Penrose inverse of the truncated matrix and the shortest least squares solution.",
  "all sizes M, N>=1, all matrices, all outcomes of the rounding test, all condition numbers and initial memory contents",
  "continuous quantifier, iteration count depends on the matrix",
  ["TooN/GR_SVD.h GR_SVD"])
p("SO2 is the rotation group",
  "SO2::exp(t) is a rotation, exp(a)*exp(b)=exp(a+b), inverse is the group inverse, ln(exp(t)) = t for t in (-pi,pi], exp(ln(R))=R, coerce yields an orthogonal matrix fixed on rotations.",
  "all angles and rotations",
  "continuous quantifier",
  ["TooN/so2.h SO2"])
p("SO3::exp yields rotations and inverse is transpose",
  "For rotation vectors with |w|^2 >= 1e-6, exp(w) is orthogonal with determinant 1 and fixes w; in the two Taylor branches the deviation from orthogonality is bounded by an explicit power of |w|; exp(-w) is the transpose; inverse() is a two-sided group inverse.",
  "all rotation vectors in R^3",
  "continuous quantifier, branch thresholds",
  ["TooN/so3.h SO3::exp, rodrigues_so3_exp"])
p("SO3 ln is inverse to exp",
  "ln(exp(w)) = w for 1e-6<=|w|^2 and |w|<pi (all three branches), and |ln R| <= pi.",
  "all rotation vectors below pi",
  "three branches; antipodal neighbourhood",
  ["TooN/so3.h SO3::ln"])
p("SO3 coerce and two-vector constructor",
  "coerce(M) on a matrix with linearly independent, positively oriented rows gives a rotation (negative orientation fails the assertion) and leaves rotations unchanged; SO3(a,b) is a rotation that maps the direction of a to the direction of b whenever a x b != 0.",
  "all 3x3 matrices with independent rows / all vector pairs",
  "continuous quantifier",
  ["TooN/so3.h coerce, SO3(a,b)"])
p("SE3 and SE2 are groups acting on points",
  "Multiplication is associative, inverse() is a two-sided inverse, (A*B)*p = A*(B*p), homogeneous 4-vector (3-vector) and matrix actions agree with the 4x4 (3x3) matrix, *= and left_multiply_by agree with *, including self-multiplication.",
  "all group elements and points",
  "continuous quantifier; aliasing",
  ["TooN/se3.h SE3","TooN/se2.h SE2"])
p("SE3/SE2 adjoint",
  "A * exp(v) * A^-1 = exp(adjoint(A,v)), trinvadjoint is the transpose-inverse (trinvadjoint(u).adjoint(v) = u.v), the matrix forms are Ad*M*Ad^T, adjoint(A*B)=adjoint(A) after adjoint(B).",
  "all group elements and tangent vectors",
  "continuous quantifier",
  ["TooN/se3.h adjoint, trinvadjoint","TooN/se2.h adjoint"])
p("SE3/SE2 exp and ln",
  "exp(ln) and ln(exp) round-trip outside the Taylor branches; exp of a pure translation is that translation; generator i is the derivative direction of exp.",
  "all tangent vectors away from the branch thresholds and |w|<pi",
  "continuous quantifier, branch thresholds",
  ["TooN/se3.h SE3::exp, SE3::ln","TooN/se2.h SE2::exp, SE2::ln"])
p("SIM3/SIM2 are groups acting on points",
  "Multiplication, inverse, *=, left_multiply_by and point/homogeneous actions are consistent group actions. exp/adjoint: exp of a pure translation is that translation, adjoint sets every coordinate (the code violates both).",
  "all group elements and points",
  "continuous quantifier",
  ["TooN/sim3.h SIM3","TooN/sim2.h SIM2"])
p("SL<N> group and generators",
  "generator(i), i<N*N-1 are traceless and linearly independent, coerce gives determinant 1, the group operations preserve determinant 1; ln inverts exp's coordinates for N<=3 (violated for N>=4).",
  "all N and all i",
  "index arithmetic for all N",
  ["TooN/sl.h SL"])
p("project/unproject and norms",
  "project(unproject(v)) = v, unproject(project(h))*h_last = h when h_last != 0; norm_sq = v.v, norm >= 0 with norm = 0 iff v=0, norm_1, norm_inf, Frobenius and matrix norms are norms; unit(v) has norm 1 for v != 0.",
  "all sizes and values",
  "for-all",
  ["TooN/helpers.h"])
p("min/max/element queries return a first extremum",
  "min_value/max_value (and the _element forms, also per-row and per-column) return the extremum of all elements and the index of its first occurrence, for nonempty input.",
  "all sizes and contents",
  "for-all; tie handling",
  ["TooN/helpers.h min_value, max_value, min_element, max_element"])
p("Matrix exponential and square root",
  "If exp_taylor stops, its result is the partial sum at which the next term vanished; exp(A) by scaling and squaring equals taylor(A/2^s)^(2^s) with norm_inf(A/2^s)<=1; a fixed point of the product Denman-Beavers iteration in sqrt is a square root under a spectral condition (sqrt([-3]) violates it); log inverts the scaling.",
  "all sizes and matrices",
  "for-all; termination",
  ["TooN/helpers.h exp, exp_taylor, sqrt, log"])
p("Golden section search",
  "The bracket a<b<c invariant is kept, the returned value is f(returned point), it never exceeds the best initial value, and the bracket shrinks geometrically to the tolerance. maxiterations bounds the evaluations (violated: never incremented).",
  "all functions, brackets and tolerances",
  "all functions",
  ["TooN/optimization/golden_section.h golden_section_search"])
p("Brent line search",
  "At most maxiterations evaluations, the returned value is f at the returned point, the point stays in [a,c] and the value never exceeds the initial one.",
  "all functions (including NaN-free discontinuous ones), brackets and tolerances",
  "all functions",
  ["TooN/optimization/brent.h brent_line_search"])
p("Downhill simplex",
  "values[i] = f(simplex[i]) always; the best value never increases; get_best/get_worst are a first minimum/maximum; finished() is decided by the documented size test.",
  "all functions and all iteration counts",
  "all functions and histories",
  ["TooN/optimization/downhill_simplex.h DownhillSimplex"])
p("Conjugate gradient bookkeeping",
  "The current value never increases across accepted iterations, the returned line-search triple brackets a minimum with f values recorded correctly, the conjugate direction update is Polak-Ribiere (without reset); on quadratics with exact line searches successive directions are conjugate and the method terminates in n steps.",
  "all functions and histories",
  "all functions and histories",
  ["TooN/optimization/conjugate_gradient.h ConjugateGradient"])
p("Numerical differentiation",
  "numerical_gradient computes at most 400 central differences (800 evaluations) per component, each at the given point perturbed along that component only; the value and error of a component are the first polynomial extrapolation of smallest error estimate among those computed until the documented stopping criterion first holds; an extrapolation of degree j is exact on polynomials of degree j, so components are exact where the function is a quartic along the axis. numerical_hessian is exactly symmetric, each diagonal entry is the same extrapolation of the second difference at the given point, each off-diagonal entry of the cross difference, and it is exact on quadratics. (In the code, cross differences after the first pair are taken at a point perturbed in the other coordinates, so for n>=3 the off-diagonal claim holds only up to that perturbation; the error estimate is not a bound.)",
  "all functions, points and dimensions",
  "all functions",
  ["TooN/functions/derivatives.h"])
p("Data and makeVector build the listed object",
  "makeVector(a0..ak) has size k+1 and element i equal to ai; Data(...) fills a static matrix row by row. (On a Dynamic matrix Data writes nothing.)",
  "all element lists and shapes",
  "for-all",
  ["TooN/internal/data.hh","TooN/internal/make_vector.hh"])
p("Vector swap exchanges contents",
  "swap(a,b) of two vectors that do not overlap, of any kinds of storage, exchanges their contents (elementwise or by pointer), so swapping twice is the identity; unequal sizes are rejected, except between two Resizable vectors of the same type, where the sizes are exchanged too. For views that overlap, swap only rearranges the memory they cover (no value is lost or duplicated) and swapping a view with itself does nothing, but swapping twice need not restore partly overlapping views.",
  "all sizes and contents, including overlapping views",
  "for-all",
  ["TooN/internal/operators.hh swap","TooN/internal/allocator.hh swap"])
p("Symmetrize, trace, cross_product_matrix, diagonal matrices",
  "Symmetrize(m) replaces m by (m + m^T)/2, trace sums the diagonal and trace(AB)=trace(BA), cross_product_matrix(a)*b = a^b, DiagonalMatrix products scale rows/columns.",
  "all sizes and values",
  "for-all",
  ["TooN/helpers.h Symmetrize, trace, cross_product_matrix","TooN/internal/diagmatrix.h"])
p("Scalar times matrix with mixed element types",
  "s*M, M*s, s*v, v*s give the exact products whatever the (arithmetic) types of the scalar and of the elements are; in particular 2*M for a double matrix M and an int literal 2 equals M*2. (The code violates this for s*M.)",
  "all element types, scalars and matrix entries",
  "silent truncation depends on the combination of types and on fractional values",
  ["TooN/internal/operators.hh Operator<ApplyScalarML>::eval"])
p("Scaling of Ones/Identity by multiplication and division",
  "(Ones*a)*b, (Identity*a)*b, (Ones*a)/b, (Identity*a)/b behave as Ones/Identity scaled by a*b resp. a/b for every element type. (The code violates this for division when a is an int.)",
  "all element types and values",
  "silent truncation depends on types and values",
  ["TooN/internal/objects.h operator/(Operator<Op<Pl>>, Pr)"])
p("Element predicates and Fill",
  "isnan(v)/isnan(m) are true exactly when some element is a NaN, isfinite(v) exactly when every element is finite, Fill(v or m, x) sets every element to x and touches nothing else.",
  "all sizes and contents, any element predicate",
  "for-all",
  ["TooN/helpers.h Fill, isfinite, isnan"])
p("Lapack_Cholesky",
  "For a positive definite matrix A given to Lapack_Cholesky: get_L is lower triangular with positive diagonal and L*L^T = A, backsub solves A x = b for vectors and for matrices with any number of columns, mahalanobis(v) = v^T A^-1 v, get_inverse is the full symmetric inverse, determinant is det A, rank is the size. For other matrices the constructor still returns, and rank() is the size of the largest positive definite leading block. compute() on a used object gives the same results as a new object. (A is read from the upper half of the argument, not the lower half as documented; rank() is not the matrix rank, determinant() is wrong for negative determinants.)",
  "all sizes and matrices, every LAPACK meeting its documentation",
  "all matrices; the half that is read only shows on non-symmetric input",
  ["TooN/Lapack_Cholesky.h"])
p("QR_Lapack",
  "For a matrix A with at least as many columns as rows, QR_Lapack gives Q orthogonal, R upper trapezoidal and a permutation P of the columns with column j of Q*R equal to column P(j) of A; without pivoting P is the identity, with pivoting the diagonal of R is sorted by decreasing magnitude. (The documentation of get_P states the inverse convention; for more rows than columns Q is not orthogonal, as the documented warning says.)",
  "all sizes with rows <= columns, all matrices, both pivoting modes, every LAPACK meeting its documentation",
  "all matrices; a wrong permutation convention is invisible when the permutation is an involution",
  ["TooN/QR_Lapack.h"])
p("Automatic differentiation through TooN types",
  "make_fad_vector(v, start) makes element i the independent variable start+i with value v[i]; make_left_fad_so2/so3/se2/se3(T, start) are exp(eps)*T at eps = 0 as a function of the variables from start on (all entries, values and all partial derivatives); get_value, get_derivative, get_jacobian read values and derivatives, so the Jacobian of every polynomial map is the matrix of its partial derivatives, and the Jacobian of a transformed point is the generator field at the transformed point.",
  "all points, transformations, start indices, numbers of variables, polynomial maps",
  "for all maps and points",
  ["TooN/functions/fadbad.h"])
p("Stream round trip of transformations",
  "Writing an SO2, SO3, SE2, SE3 or SL(N) to a stream (any field width) and reading it into any object of the same type gives the same transformation and leaves the rest of the stream untouched, also when objects are written one after the other; the text of an SE object is the matrix [R|t]; whatever text is read, an SO3/SE3 that comes out has a rotation, an SL(N) without NaNs has determinant 1, an SO2/SE2 is orthogonal.",
  "all transformations, field widths, target objects, surrounding text; all scalar formats that reproduce the written numbers",
  "all numbers and texts",
  ["TooN/so2.h operator<<, operator>>","TooN/so3.h operator<<, operator>>","TooN/se2.h operator<<, operator>>","TooN/se3.h operator<<, operator>>","TooN/sl.h operator<<, operator>>"])
p("Template and run-time sizes are interchangeable",
  "Any chain of slice/T/row/diagonal_slice/as_row/as_col/as_slice operations, each with any mixture of template and run-time sizes, on an owning or wrapped vector or matrix (row- or column-major, any static/dynamic dimension) has the same size and denotes the same elements as the chain with all numbers at run time; it is accepted in exactly the same cases; wrapped buffers, named elements and planar complex vectors index the given memory in the documented order. (as_slice, as_row, as_col of a Resizable vector violate this: the size comes out as -0x7fffffff.)",
  "all template arguments, sizes and chains of any length",
  "template arguments are infinitely many instantiations; a wrong stride in a type only shows for some chains",
  ["TooN/internal/mbase.hh","TooN/internal/vbase.hh","TooN/internal/allocator.hh SizeHolder, StrideHolder, VectorSlice","TooN/internal/reference.hh","TooN/named_elements.h","TooN/internal/planar_complex.hh"])
p("Rounding errors of vector and matrix arithmetic",
  "In floating point (every operation rounded once, no overflow or underflow), elementwise operations have relative error at most u, negation is exact, a dot product of length n has error at most gamma_n times the sum of the absolute products (and is the exact dot product of vectors within gamma_n of the given ones), matrix-vector and matrix-matrix products satisfy the bound |fl(AB)-AB| <= gamma |A||B| elementwise, norm and unit have small relative error; a*b = b*a and (A*B)^T = B^T*A^T hold bit for bit, and integer-valued data are handled exactly while the sums fit in the significand.",
  "all sizes, all values, every rounding with unit roundoff u (in particular IEEE round-to-nearest-even at any precision)",
  "error bounds over all reals and sizes",
  ["TooN/internal/operators.hh","TooN/helpers.h norm, unit, normalize"])
p("Backward stability of Cholesky",
  "In floating point, if the LDL^T factorisation of Cholesky reaches full rank then L*D*L^T differs from the given matrix by at most gamma_(n+1) |L||D||L|^T elementwise, and backsub(v) is the exact solution of a system whose matrix differs from the given one by at most gamma_(3n) |L||D||L|^T; if the pivots are positive the errors are bounded by gamma/(1-gamma) sqrt(a_ii a_jj); every matrix that is sufficiently positive definite relative to its diagonal is factored with full rank and positive pivots. The determinant is, up to n-1 roundings, the determinant of a matrix within gamma/(1-gamma) sqrt(a_ii a_jj) of the given one, and is off by a factor between (1-e)^n and (1+e)^n with e = n K gamma/(1-gamma) < 1 for K the row sums of the inverse of the matrix scaled to unit diagonal; mahalanobis(v) is the rounded dot product of v with a backward stable solution, and every column of get_inverse() solves a nearby system exactly. Forward error: with K the row sums of the inverse of the matrix scaled to unit diagonal, b = gamma_(3n)/(1-gamma_(n+1)) and K n b < 1, sqrt(a_ii)|x_i - z_i| <= K b/(1-K n b) sum sqrt(a_jj)|z_j| for the exact solution z.",
  "all sizes, matrices and right-hand sides, every rounding with unit roundoff u",
  "error bounds over all reals and sizes",
  ["TooN/Cholesky.h"])
p("Backward stability of gaussian_elimination",
  "In floating point, gaussian_elimination(A,b) with partial pivoting either returns an x that is the exact solution of (A+E)x = b with |E| <= gamma_(3n+1) |L||U| for the factors it computed (|L_rk| <= |L_kk|, U unit upper triangular), hence entrywise |E| <= gamma_(3n+1) 2^n (1+u)^(4n+2) max|A| (Wilkinson's bound), or divides by zero, and then a matrix within gamma_(n+1) 2^n (1+u)^(4n+2) max|A| of A is exactly singular; in particular it succeeds on every matrix that is diagonally dominant by more than the rounding errors. The vector overload declares two intermediates as double whatever the element type is: for double this changes nothing, for float the same bounds hold with u the combined unit roundoff of rounding to double and then to float (for long double the vector overload is not covered). Forward error: with K the absolute row sums of the exact inverse, beta the backward error bound and K n beta < 1, the elimination does not divide by zero and every component of the solution is within K beta/(1 - K n beta) |z|_1 of the exact solution z.",
  "all sizes, matrices and right-hand sides (vector or matrix), every rounding with unit roundoff u",
  "error bounds over all reals and sizes; instability shows only on special matrices",
  ["TooN/gaussian_elimination.h"])
p("Rounding errors of determinant",
  "In floating point, determinant_gaussian_elimination(A) always returns without dividing by zero, and the result is (1+delta) det(A+E) with |delta| <= gamma_n and |E| <= gamma_(n+1) 2^n (1+u)^(2n) max|A| entrywise; if it returns 0 a matrix within that distance of A is singular; determinant of a 2x2 matrix has error at most gamma_2 (|ad|+|bc|). With K the absolute row sums of the inverse of A, beta the bound above and e = K n beta < 1 the result is det(A) tau (1+delta) with (1-e)^n <= tau <= (1+e)^n, so its sign is right and it is not zero.",
  "all sizes and matrices, every rounding with unit roundoff u",
  "error bounds over all reals and sizes",
  ["TooN/determinant.h"])
p("Whole expressions",
  "An expression built by any nesting of vector and matrix operators (+, -, *, /, ^, unary minus, diagmult and DiagonalMatrix products, Ones and Identity terms, conversions between Vector/Matrix types, slice, T, [], (), as_row, as_col, diagonal_slice) over variables with any mixture of static, Dynamic and Resizable sizes never touches an element outside an object and never reads an uninitialised one; if it compiles and does not abort then it makes mathematical sense and its value and size are the mathematical ones; if it makes mathematical sense it compiles and does not abort. Exceptions: [] and () are unchecked, ^ exists only for Vector<3>, as_row/as_col fail for Resizable vectors, and a Resizable vector must not be empty. Whether it compiles, and the template sizes of the result, depend only on the declared sizes.",
  "all expressions of any depth, all environments, sizes and values",
  "infinitely many expressions and combinations of template sizes; a wrong size of one temporary shows only in some nestings",
  ["TooN/internal/operators.hh","TooN/internal/objects.h","TooN/internal/size_mismatch.hh","TooN/internal/allocator.hh","TooN/internal/vector.hh","TooN/internal/matrix.hh","TooN/internal/diagmatrix.h","TooN/internal/mbase.hh","TooN/internal/vbase.hh"])
p("Straight-line programs",
  "A sequence of declarations (Vector<S> v(e); Matrix<R,C> m(e);) and assignments (=, +=, -= from expressions, from Ones*s and Identity*s; *=, /=) to variables and to arbitrarily nested views of them (v.slice(), m[i], m.T()[j], m.slice(), diagonal_slice(), as_row(), as_col(), v[i], m(i,j)) leaves every variable with exactly the contents and declared sizes that the mathematics says: the elements of the view get the values of the right-hand side, every other element of every variable stays as it is; a program that makes sense compiles and runs to its end, one that does not is rejected by the compiler or by a run-time check, and neither reads or writes outside an object. Exceptions: those of expressions (C65); a view that is assigned another view of the same variable whose elements are overwritten before they are read (m = m.T()); a Vector<Resizable> assigned an empty vector or a slice of itself.",
  "all programs of any length, all environments, sizes and values",
  "infinitely many programs; aliasing bugs show only in some combinations of views",
  ["TooN/internal/vector.hh operator=, operator+=, operator-=, operator*=, operator/=","TooN/internal/matrix.hh operator=, operator+=, operator-=, operator*=, operator/=","TooN/internal/objects.h","TooN/internal/vbase.hh","TooN/internal/mbase.hh"])
p("The element type does not matter",
  "Expressions and programs (C65, C66) do the same thing for every element type: run on data related by any relation the arithmetic respects, they meet the same fate and leave related data. Hence, for every element type, including float, double and FADBAD's numbers, whether a program compiles, aborts or finishes and the sizes it leaves depend only on the sizes it starts with, and a program that avoids the restrictions of C66 never touches memory outside an object; converting data between fields commutes with running a program; a program run on FADBAD numbers yields the values and partial derivatives of the functions computed by the same program on real numbers, wherever no division by zero occurs; and a floating-point run gives exactly the real results wherever all intermediate results are representable.",
  "all programs and expressions, all element types (no algebraic laws assumed), all relations",
  "quantifies over all element types and all programs",
  ["TooN/internal/operators.hh","TooN/internal/vector.hh","TooN/internal/matrix.hh","TooN/functions/fadbad.h"])
p("Index arithmetic on machine ints",
  "For an object whose number of elements, plus its dimensions, plus the number of views in the chain is at most INT_MAX, no addition or multiplication of ints overflows in any chain of view operations (slice, T, [], diagonal_slice, as_row, as_col) nor in the address computation of any element; so the library's 32-bit arithmetic computes what unbounded arithmetic would (C01, C02) and every access is inside the block that was allocated. Exceptions shown: Matrix<> m(r,c) with r*c > INT_MAX asks for too few elements; slice(start,length) with start+length > INT_MAX overflows inside the check; diagonal_slice() of a 1 x INT_MAX matrix.",
  "all objects up to 2^31-1 elements, all chains of views of any length, all indices",
  "needs objects of billions of elements and arbitrary chains of views",
  ["TooN/internal/vbase.hh", "TooN/internal/mbase.hh", "TooN/internal/slice_error.hh", "TooN/internal/allocator.hh"])
p("Rotations and poses in floating point: drift of products and repair by coerce()",
  "With SO2/SO3/SE2/SE3 stored in a floating-point type (one rounding per operation, relative error at most u, no overflow): (1) if the stored factors are within \u03b5 (root of the sum of squared element errors) of rotations, the stored product of k+1 of them is within (1+\u03b5)((1+\u03b5)(1+n\u03b3n))^k \u2212 1 of the exact product, i.e. the drift is at most linear in k while small; (2) a matrix within e of a rotation has rows and columns orthonormal up to 2e+e\u00b2; (3) inverse() commits no rounding error; (4) R*v is within (e+\u03b3n(\u221an+e))|v| of the rotated vector and keeps its length up to that factor; (5) the translation of a chain of k+1 poses is within (1+u)^k (k+1)(\u03c3 + u(k+1)L) of the exact one; (6) coerce() on a matrix within 1/100 of a rotation divides by no zero, passes its assertion, and returns a matrix orthonormal up to 69u (SO2: 40u), independent of how far the input had drifted, and within 56\u03b5+247u of the rotation; (7) e.g. a million double products drift by at most 3e-9 and one coerce() restores orthonormality to 1e-14.",
  "every rounding function obeying the standard model (in particular round-to-nearest float and double), every dimension for (1)-(5), every chain length, all stored matrices within the stated distance of a rotation, all vectors, all uninitialised temporaries",
  "The error of a long chain depends on every factor and every rounding; a test samples some chains and one compiler's rounding.",
  ["TooN/so3.h: SO3::coerce, operator*, operator*=, inverse", "TooN/so2.h: SO2::coerce, operator*, inverse", "TooN/se3.h: SE3::operator*, SE3 * Vector<3>", "TooN/se2.h: SE2::operator*, SE2 * Vector<2>", "TooN/helpers.h: unit"])
p("Rotations from rotation vectors in floating point",
  "With one rounding of relative error at most u (u \u2264 1e-4) per operation and a C library whose sin and cos are within \u03b7 of the true values: every entry of SO3::exp(w) is within 2\u03b7 + (7|w|+34)u + 3e-17 of the entry of the matrix exponential of the cross-product matrix of w, in all three branches of the code and for every w, the zero vector included; SO2::exp(d) is within \u03b7 entrywise; exp(0) is exactly the identity; exp(-w) equals exp(w).inverse() bit for bit; and multiplying up to a million exponentials of vectors no longer than 1 in double precision stays within 2e-8 of the exact product of exact rotations, with rows orthonormal to 5e-8.",
  "every rounding function obeying the standard model with u \u2264 1e-4, every sin/cos implementation with error at most \u03b7, every representable w (any length), every uninitialised result storage, every number of steps up to a million and every sequence of vectors of length at most one",
  "The error depends on every argument, on the branch taken by the rounded squared angle and on every rounding; tests sample a few vectors, and cannot rule out a bad spot at a branch boundary.",
  ["TooN/so3.h: SO3::exp, rodrigues_so3_exp", "TooN/so2.h: SO2::exp", "TooN/so3.h: SO3::inverse, operator*="])
p("Weighted least squares in floating point",
  "A WLS object fed N calls of add_prior (scalar or vector), add_mJ and add_sparse_mJ and then compute(), all in a floating-point type with unit roundoff u (the intermediate Jw of add_mJ and add_sparse_mJ is a double whatever the type is: then u in gamma_{N+2} is the combined unit roundoff of the type and double; for double nothing changes): (1) every element of the accumulated normal equations is the exact sum up to \u03b3_{N+2} times the sum of absolute values of its terms; (2) if weights and priors are non-negative and the exact information matrix M scaled to unit diagonal has smallest eigenvalue at least \u03bc with n\u03b3_{N+2} + (1+\u03b3_{N+2}) n\u03b3_{n+1}/(1\u2212\u03b3_{n+1}) < \u03bc, compute() divides by no zero and get_mu() is the exact solution of normal equations whose matrix is perturbed by at most \u03ba\u221a(Mii Mjj), \u03ba = \u03b3_{N+2}+(1+\u03b3_{N+2})\u03b3_{3n}/(1\u2212\u03b3_{n+1}), and whose right-hand side by at most \u03b3_{N+2}\u221aMii \u221a(\u03a3 w m\u00b2); (3) hence get_mu() is within (\u03b3_{N+2}\u221an \u221a(\u03a3 w m\u00b2) + n\u03ba|mu|_D)/\u03bc of the exact minimiser in the norm weighted by the diagonal D of M.",
  "every rounding obeying the standard model, every number of parameters and calls, every order and mixture of the calls, all representable measurements, Jacobians and weights, all uninitialised storage",
  "The error of the estimate depends on every rounding of every measurement and on the conditioning of the accumulated system; tests sample a few systems.",
  ["TooN/wls.h: WLS::add_prior, add_mJ, add_sparse_mJ, compute, get_mu", "TooN/Cholesky.h: Cholesky::compute, backsub"])
p("Threads on separate parts of shared vectors and matrices",
  "Any number of threads run straight-line programs of declarations and assignments (those of C66) on shared variables, and no program writes a cell or a size that another one reads or writes (rows, slices, transposes of one matrix may be shared out between threads). Then under every interleaving of their memory accesses: no data race is reachable; all executions take the same finite number of accesses, and can always go on until all are finished; each finished thread has the outcome, and the cells it assigns have the values, that its program run alone gives - the mathematical value of the program where it makes sense; cells nobody assigns are unchanged; the final contents do not depend on the schedule. In particular a matrix product with one thread per row, m0[i] = m1[i]*m2, yields m1*m2 for all sizes.",
  "every number of threads, every program of C66 for each, every initial contents, every schedule (sequence of choices of the thread that performs the next memory access), every arithmetic (also rounded)",
  "The number of schedules is exponential and tests run a handful of them; a hidden shared temporary or an access outside the view would show up in few.",
  ["TooN/internal/vector.hh: Vector::operator=, operator+=", "TooN/internal/matrix.hh: Matrix::operator=, operator+=", "TooN/internal/vbase.hh, mbase.hh: slice, operator[], T", "TooN/internal/operators.hh"])
p("TOON_INITIALIZE_RANDOM fills exactly the new storage",
  "With TOON_INITIALIZE_RANDOM, constructing or growing a vector or matrix writes every byte of its new storage, from the generator, and no other byte; the fill ends; constructing separate objects in different threads is safe. The generator runs through all 2^32 states before it repeats, the bytes written are the little-endian bytes of its successive states, and different start times (modulo 2^32) give different states.",
  "every number of bytes (element size times number of elements, including 0), every seed, every previous contents; every schedule of two constructing threads",
  "The fill jumps into the middle of a loop depending on the number of bytes modulo four; each size is a different path, and memory outside the object is not looked at by tests.",
  ["TooN/internal/debug.hh: debug_initialize", "TooN/internal/allocator.hh: VectorAlloc, MatrixAlloc, resize"])
p("The optimisers in floating-point arithmetic",
  "Whatever the arithmetic of Precision does (rounding, overflow, underflow, NaN results), with comparisons that are false on NaN: brent_line_search returns the given point and value or an evaluated point with exactly its value, strictly smaller; no evaluated point has a smaller value; at most max(maxiterations,0) evaluations. golden_section_search returns a point and exactly its value, not above the value at any evaluated point, when the function is never NaN. DownhillSimplex: get_values()[i] is always exactly the functor at get_simplex()[i], and for a function without NaN the best value never increases until a restart at a new point. ConjugateGradient: y is always exactly the functor at x, never increases, and the documented loop runs at most 100 n iterations. In every IEEE binary format (gradual underflow, overflow to infinity): both line searches evaluate the function only inside the given finite bracket.",
  "every floating-point type (uninterpreted operations) resp. every binary format, every function, bracket, tolerance, iteration limit, client history",
  "Rounding can break an algorithm at isolated inputs; a test sees only the functions it tries, and NaN or infinite values only where it puts them.",
  ["TooN/optimization/brent.h: brent_line_search", "TooN/optimization/golden_section.h: golden_section_search", "TooN/optimization/downhill_simplex.h: DownhillSimplex", "TooN/optimization/conjugate_gradient.h: ConjugateGradient, Internal::bracket_minimum_forward"])
p("Owning objects survive exceptions",
  "Construct, copy, move, assign, swap, write to and destroy dynamic vectors, dynamic matrices and large static objects in any order, where any allocation can fail and copying any element can throw (elements of user-defined types), the caller catching the exceptions. Then there is never undefined behaviour; a construction that throws creates no object and changes none; an assignment that throws has replaced a prefix of the elements, in order; a swap that throws leaves each object with its own array and size; moves and swaps of dynamic vectors and destructors do not throw; no two objects ever share memory and every object keeps memory of its own size; and no memory is lost. In particular when only memory runs out (float, double) every array is owned by exactly one live object.",
  "every history of operations (any length, any number of objects, any sizes), every choice of the point at which each operation throws (or not)",
  "The points at which an exception can strike multiply with the sizes and the length of the history; tests inject a few.",
  ["TooN/internal/allocator.hh: StackOrHeap, VectorAlloc<Dynamic>, MatrixAlloc<R,C,P,false>", "TooN/internal/vector.hh: Vector(const Operator<Op>&), Vector(const Vector<..>&), operator=", "TooN/internal/matrix.hh: Matrix(const Matrix<..>&), operator=", "TooN/internal/operators.hh: Internal::Swap, swap"])
p("Invalid numbers (NaN, infinities) are not lost",
  "With float or double elements, a NaN among the elements of the operands reaches every result computed from it: every element that a program of vector and matrix expressions and assignments computes from a NaN is NaN, a sum, dot product, matrix product, norm, unit vector, trace or determinant over a NaN is NaN, the solution of a linear system with a NaN coefficient or right-hand side contains a NaN, and the matrix functions exp and log of a NaN matrix contain NaN. Likewise a result computed from an infinity is finite only if the infinity was divided by. So a caller who checks the result with isnan or isfinite learns that the computation failed.",
  "every program of expressions and assignments, every size, every position of the NaN or infinity, every precision and exponent range of the number format, every content of the other elements",
  "Tests put a NaN in one place of one small object; which comparisons see it depends on its position and on the other values.",
  ["TooN/internal/operators.hh", "TooN/helpers.h: norm, norm_1, norm_inf, unit, norm_fro, trace, max_value, min_value, exp, log", "TooN/gaussian_elimination.h: gaussian_elimination", "TooN/determinant.h: determinant_gaussian_elimination"])
p("Without overflow and underflow, float and double obey the standard error model",
  "The accuracy promises C61-C64 and C69-C71 are stated for rounded arithmetic with unbounded exponent. They hold for the actual formats float and double, which have subnormal numbers, infinities and NaN, whenever no invalid operation, division by zero, overflow or underflow occurs: each element that a program of vector and matrix expressions and assignments computes without such an exception is the element computed in the standard model, sums never underflow, and observing the exceptions changes nothing. gaussian_elimination that raises no exception divides by no zero, chooses the same pivots as in the standard model, and returns finite numbers that solve a nearby system. A dot product or norm whose elements lie in a stated range raises no exception, so its relative error is bounded.",
  "every precision and exponent range, every program, every size and every input for which no exception occurs; for dot and norm every vector in the range",
  "Where exceptions occur depends on the values; tests with ordinary numbers say nothing about the limits of the range.",
  ["TooN/internal/operators.hh: Dot", "TooN/helpers.h: norm", "TooN/gaussian_elimination.h: gaussian_elimination", "TooN/internal/vector.hh: operator=, operator+="])
p("The matrix exponential in IEEE floating point ends and is accurate",
  "exp_taylor adds terms until the addition changes nothing, so that its termination depends on rounding. In every binary floating-point format with rounding to nearest, subnormal numbers, overflow and underflow, for a matrix of finite numbers of norm at most about 2 the loop ends, after a number of iterations bounded by the size and the smallest exponent (4n+1084 for double, 4n+159 for float), no overflow occurs, and the distance of the result from the mathematical exponential is bounded: for norms up to 1 by (15n+211)*2^-53 in double and (15n+145)*2^-24 in float. exp(m) of a non-zero double matrix of norm up to 511 returns finite numbers, with a relative error that doubles with each squaring: at most 2^(s+1)*(17n+217)*2^-53 of exp(1.000001*2^s), where 2^s is the power of two the matrix is divided by. exp of the zero matrix is undefined.",
  "every format, every size within the stated limit, every matrix of finite numbers within the stated norm, every library logarithm of relative accuracy 1e-7, every content of uninitialised memory",
  "Termination hinges on the last bits and on underflow; the matrices that take the longest are those with elements near the underflow threshold. No finite set of runs bounds the iterations or the error.",
  ["TooN/helpers.h: exp", "TooN/helpers.h: Internal::exp_taylor", "TooN/helpers.h: norm_inf"])
p("The matrix logarithm near the identity in IEEE floating point ends and is accurate",
  "log_taylor adds terms of the series until the addition changes nothing, so its termination depends on rounding. In every binary floating-point format with rounding to nearest, subnormal numbers, overflow and underflow, for a matrix m of finite numbers close enough to the identity (\u2016m-I\u2016 up to about 2/3) the loop ends, after a number of iterations bounded by the size and the smallest exponent (12n^2+1841 for double, 12n^2+259 for float), no overflow occurs, and the result is close to the logarithm the series defines, whose exponential is m: for \u2016m-I\u2016 up to 1/2 within (9n+337)*2^-53*\u2016m-I\u2016 in double and (9n+169)*2^-24*\u2016m-I\u2016 in float, up to underflow, so that the error is relative even for matrices very close to the identity. log(m) with \u2016m-I\u2016 up to 0.499 takes no square root and returns this matrix; in general, when the square roots return and the last one passes the test, it returns 2^c times a matrix within this distance of the logarithm of the last root.",
  "every format, every size within the stated limit, every matrix of finite numbers within the stated distance of the identity, every content of uninitialised memory, every behaviour of the square root routine",
  "Termination hinges on the last bits and on underflow; elements that should be exactly zero keep the loop running until the terms underflow. No finite set of runs bounds the iterations or the error.",
  ["TooN/helpers.h: log", "TooN/helpers.h: Internal::log_taylor", "TooN/helpers.h: norm_inf"])
p("Iterating IRLS decreases the robust cost and converges",
  "Repeating irls.clear(); irls.add_mJ(y[i]-J[i]*x, J[i]) for all i; irls.compute(); x += irls.get_mu() never fails when the Jacobians determine the parameters. After each pass get_residual() is the robust cost at the x the pass started from; the cost never increases, strictly decreases whenever x moves (by at least kappa times the weighted square of the predicted change), and x stays put exactly at stationary points of the cost. For every shipped estimator the iterates stay bounded, the steps and the gradient tend to 0 and every limit point is stationary. With RobustI the iterates converge from any start to the unique minimiser, at an explicit linear rate; with ILinear one pass suffices; with RobustII the iteration may rest at a stationary point that is not a minimum.",
  "all sizes, measurement counts, data, full-rank Jacobians, starting points, previous histories of the object, contents of uninitialised memory, positive sd_inlier, numbers of passes",
  "a limit statement about an unbounded iteration, for every data set; tests can only run a few passes on a few data sets",
  ["TooN/irls.h: RobustI, RobustII, ILinear, IRLS::add_mJ, IRLS::clear, IRLS::get_residual", "TooN/wls.h: WLS::compute, WLS::get_mu"])
p("QR in floating point: backward stable while columns are not almost reduced, useless otherwise",
  "Run in float or double, QR returns an upper triangular R and a Q such that some exactly orthogonal U has R close to U^T A column by column and Q close to U row by row, so Q is orthogonal and Q R is the input up to a small multiple of the unit roundoff - as long as, at every reflection, the part of the column below the diagonal is a fixed fraction of the column. Without that proviso the claim is false: the code reflects onto the nearer axis, so for the well-conditioned double matrix [[1,0],[y,1]] it divides by zero when |y| <= 2^-27 and, for y = 5*2^-28, returns a Q with a row of squared length below 2/5 and factors whose product has 2/5 where the input has 1.",
  "all numbers of rows and columns with rows <= columns, all matrices of representable numbers, all rounding functions of the standard model (in particular IEEE float and double), every kappa with kappa*gamma <= 1/200",
  "Tests use a few random matrices, where the columns are never almost reduced; the error bound is for all matrices and the failures are on a thin set of inputs.",
  ["TooN/QR.h: class QR, compute, pre_multiply_by_householder, get_R, get_Q"])
p("Contracting multiply-adds (FMA) does not invalidate the accuracy guarantees",
  "A compiler may evaluate a+x*y and a-x*y with one rounding instead of two (GCC's default -ffp-contract=fast on processors with fused multiply-add). Whichever of the multiply-adds are contracted, the accuracy guarantees of the element-wise algorithms stand unchanged: dot, matrix and cross products have the forward and backward error bounds of C61; Cholesky factorises and solves with the bounds of C62, and succeeds on every matrix whose positive definiteness exceeds the rounding level; gaussian_elimination has the backward error bound of C63 and fails only near singular matrices; WLS accumulation and solution have the bounds of C71. What contraction does break is exact cancellation: v^v is exactly zero without it and, for v=(0,2^27+1,2^27+1) in double, has an element equal to -1 with it.",
  "all sizes, all representable inputs, all roundings with relative error at most u, all contraction policies (any choice, per operand pair, of which products are fused into the sum that uses them), all call histories of WLS",
  "whether a product is fused depends on compiler, flags, inlining and target; a test run observes one of the exponentially many programs, on a few inputs",
  ["TooN/internal/operators.hh: dot product, Operator<Internal::MatrixMultiply>, operator^", "TooN/Cholesky.h: class Cholesky", "TooN/gaussian_elimination.h: gaussian_elimination", "TooN/wls.h: add_mJ, add_sparse_mJ, compute", "TooN/helpers.h: norm"])
p("Every generated overload of makeVector and Data keeps its arguments in order; transformCovariance is J*C*J^T",
  "For every number of arguments from 1 to 30 there is exactly one makeVector for double and one for any element type, and for every number from 1 to 100 exactly one Data of each kind; each of these 260 functions returns an object of exactly as many elements as it was given arguments, with element i equal to argument i, every element initialised and none written out of bounds. transformCovariance(A,B,M) stores A*B*A^T in M for every symmetric B, whatever M contained, and the stored matrix is always exactly symmetric.",
  "all 260 generated functions, all arguments of any element type; all matrices A (2xN, 3xN, any N), B and all previous contents of M",
  "the functions are 11,800 lines of generated text; a test of a few arities does not see a wrong index in another one",
  ["TooN/internal/make_vector.hh: makeVector", "TooN/internal/data_functions.hh: Data", "TooN/generated.h: transformCovariance"])
p("A NaN is not lost by Cholesky, gauss_jordan or WLS",
  "In IEEE arithmetic, a NaN in the right-hand side or below the diagonal of the matrix makes every element of Cholesky::backsub, and of the column of backsub(Matrix), NaN; one on the diagonal makes the elements up to its row NaN, and all of them if rank() is the size; so mahalanobis() is NaN and get_inverse() contains NaNs, and determinant() is NaN if rank() is the size. gauss_jordan of [A|B] with a NaN in A has a NaN in every column of the result, and with one in a column of B a NaN in that column. In any history of calls on a WLS object, a NaN in an argument of a call that is not followed by clear() makes the estimate of every later compute() contain a NaN (its first element, and all of them if the normal equations have full rank or the NaN reached their right-hand side).",
  "all matrices and vectors of any size over IEEE numbers of any format, including infinities; all positions of the NaN; all histories of calls",
  "whether a comparison or an early return swallows a NaN depends on where it is and on what the other elements are",
  ["TooN/Cholesky.h: Cholesky::compute, backsub, get_inverse, mahalanobis, determinant", "TooN/gauss_jordan.h: gauss_jordan", "TooN/wls.h: WLS"])
p("Pseudo-inverse solves with SVD, GR_SVD and SymEigen in floating point",
  "With floating-point elements, and whatever numbers the decomposition routine stored: SVD::backsub, GR_SVD::backsub and SymEigen::backsub (vector and matrix) and get_pinv never divide by zero (SVD: first singular value not negative; SymEigen: eigenvalues in ascending order) and return, element by element, V diag(s+) U^T b (resp. V diag(s+) U^T) up to gamma_k times the same sums of absolute values, k = inner dimension + rows + 2 (resp. inner dimension + 2). s+ is the reciprocal of the stored value, or zero if it fails the rounded condition-number test: everything the exact test drops is dropped, and everything that exceeds the threshold by more than one rounding error is kept. determinant() has a small relative error, the right sign, and is zero exactly if a stored value is zero; get_sqrtm() has the same kind of bound.",
  "all rounding functions with relative error u (binary32 and binary64 included), all sizes with size*u < 1, all contents of the stored factors and diagonal, all condition numbers and right-hand sides, all contents of uninitialised temporaries",
  "rounding of the truncation test and of the sums depends on every value; the worst case over all decompositions cannot be enumerated",
  ["TooN/SVD.h: get_inv_diag, backsub, get_pinv, determinant", "TooN/GR_SVD.h: get_largest_singular_value, get_inv_diag, backsub, get_pinv", "TooN/SymEigen.h: get_inv_diag, backsub, get_pinv, get_sqrtm, get_determinant"])
p("Min/max queries on IEEE numbers: NaN positions and index vectors",
  "min_value, max_value, min_element, max_element (vector and matrix, and the per-row and per-column forms) on IEEE numbers: if the first element examined (of the vector, matrix, row or column) is NaN the result is that NaN with index 0; otherwise NaNs are ignored and the result is the smallest (largest) of the other elements, infinities included, with the first place where it occurs in row-major order. The per-row and per-column element queries return, for every row (column), that index as a number of the element type.",
  "all sizes >= 1, all contents including infinities and NaNs at any positions, all IEEE binary formats",
  "the outcome depends on the position of every NaN relative to every extremum; index vectors only go wrong beyond 2^24 (2^53) columns",
  ["TooN/helpers.h: min_value, max_value, min_element, max_element, *_horizontal, *_vertical, Internal::accumulate*"])
p("helpers.h in rounded arithmetic",
  "In float or double arithmetic (one rounding per operation, no overflow or underflow): norm_1 of a vector and norm_1, norm_inf of a matrix have a relative error of at most one rounding per addition; norm_inf of a vector is exact; norm_fro has relative error at most gamma(R*C+1); trace has an error of at most gamma(n-1) times the sum of the absolute values of the diagonal; project rounds every element once and project(unproject(v)) is exactly v; Symmetrize produces an exactly symmetric matrix whose elements are the averages with two roundings and whose diagonal is untouched; inv of a 2x2 matrix is the adjugate divided by a determinant whose error is two roundings of its two products, hence accurate to four roundings elementwise when those products do not cancel, and divides by zero only if the computed determinant is zero; cross_product_matrix rounds nothing.",
  "all sizes (with n*u < 1), all representable contents, every rounding to nearest (any precision), including float and double",
  "rounding errors accumulate with size and depend on the contents; a test sees one combination and needs a tolerance that only a proof can justify",
  ["TooN/helpers.h: norm_1, norm_inf, norm_fro, trace, project, unproject, Symmetrize, inv, cross_product_matrix"])
p("SymEigen<2> in rounded arithmetic",
  "In double arithmetic (one rounding per operation, no overflow or underflow) SymEigen of a symmetric 2x2 matrix never divides by zero; the two eigenvectors it returns are exactly orthogonal and have squared length within 11u of 1; the eigenvalues are accurate to 3*sqrt(u)*||A||_F, and to 9u*||A||_F^2/gap + 5u*||A||_F where gap is their distance; and every element of A v - lambda v is at most 60u*||A||_F^2/|b| where b is the off-diagonal element. The claim that v is always nearly an eigenvector for lambda is false: diag(1+3*2^-26, 3) gets (0,1) as the eigenvector of the smaller eigenvalue.",
  "all 2x2 matrices of representable numbers, every rounding to nearest with u <= 1e-4, including double",
  "which matrices come out wrong depends on the last bit of a cancelling difference; tests of random symmetric matrices never have an off-diagonal element of exactly zero, and tests of diagonal matrices with round entries never round",
  ["TooN/SymEigen.h: Internal::ComputeSymEigen<2>::compute"])
p("SE3::exp and SE2::exp in rounded arithmetic",
  "In rounded arithmetic, with a C library whose sin and cos are off by at most eta, every entry of the rotation part of SE3::exp(mu) is within 2 eta + (7|w|+34)u + 3e-17 of the matrix exponential of the twist (within eta for SE2), and every entry of the translation part is within (2.01 eta min(1001,1/|w|) + 75u + c)|t| (33u for SE2), where c is 3e-17 for rotations by at least 1.0006e-4 radians and 1.7e-9 below. A twist without rotation gives exactly the identity and the translation. The 1.7e-9 is real: in double precision a unit translation along y with a turn of 3*2^-15 about x comes out with y = 1 exactly, more than 1.3e-9 too long. In double precision, composing up to a million exponentials with turns of at most one radian and translation parts of length at most l gives a pose whose rotation is within 2e-8 and whose translation is within n (3e-9 + 1.7e-14 n) l of the product of the matrix exponentials, n being the number of steps.",
  "all twists of representable numbers, every rounding with u <= 1e-4 including double, every C library, any contents of the uninitialised storage",
  "three branches chosen by comparing a rounded squared norm with a rounded literal, each with its own truncation and cancellation; the loss of accuracy happens only in a band of angles that random tests do not hit, and a test tolerance of 1e-8 hides it",
  ["TooN/se3.h: SE3::exp", "TooN/se2.h: SE2::exp"])
p("SO3(a, b) in rounded arithmetic",
  "Claim: in rounded arithmetic SO3(a, b) returns a matrix close to a rotation that takes the direction of a to that of b. It does when the vectors are not nearly parallel: if the sine s of their angle is at least 1000u, the stored matrix is within 66u/s (Frobenius) of the rotation about a x b taking a to a positive multiple of b. For all vectors: it never divides by zero, the assertion fails only for vectors opposite to 4.1u, and the identity is returned only for directions equal to 4.1u. Without the condition on the angle the claim is false: in double precision, for a = (1, 1+e, 1.5+e), b = (11, 11+8e, 16.5+16e), e = 2^-52, the returned matrix has an element above 1.2.",
  "all vectors of representable numbers with the sine of their angle at least 1000u (the branch statements: all vectors), every rounding with u <= 1e-4 including double, any contents of the uninitialised storage",
  "the error grows as the inverse of the angle, and the failing inputs are an ulp away from parallel; the zero test that is meant to catch parallel vectors compares a rounded cross product with zero",
  ["TooN/so3.h: SO3(const Vector&, const Vector&)"])
p("SO3::ln in rounded arithmetic",
  "In rounded arithmetic, SO3::ln of a stored matrix m within delta (every element) of a rotation, with delta+4u at most 1/2500, never divides by zero, and the vector it returns is within 90(delta+4u)+2.8eta of a logarithm of that rotation, where eta is the relative accuracy of the library's asin and acos; its exponential is within 128(delta+4u)+4eta (Frobenius) of the rotation. For rotations by less than pi - 12.6(delta+4u) the result is within 65(delta+4u)+2.8eta of the principal logarithm, and within 20(delta+4u)+2.8eta if the cosine of the angle exceeds -0.7. In double precision, with an accurate library, SO3<double>::exp(w).ln() returns w to 5e-13 for |w| <= 3.14 and to 2e-13 for |w| <= 2.3.",
  "every rotation, every stored matrix near it, every rounding including double, every library with the stated accuracy, any contents of the uninitialised storage",
  "three formulas are used, each ill-conditioned outside its range, and the angle pi is a sign choice: only a bound over all rotations shows that the branch boundaries protect every angle and that no division by zero or wrong sign is left",
  ["TooN/so3.h: SO3::ln"])
p("Inverses and adjoints of poses in rounded arithmetic",
  "Let the stored matrix of an SE2 or SE3 pose be within e <= 0.01 (Frobenius) of a rotation Q. In rounded arithmetic: inverse() is within e of Q^-1 and its translation within tau + (e+5.25u)|t| of -Q^-1 b, if the stored translation is within tau of b. T.inverse()*(T*x) is x to within (2.01e+12.7u)|x| + 11.6u|t|, so a drifted rotation does not multiply the translation; T*T.inverse() is the identity to within 2.01e+9.2u and (2.01e+10.7u)|t|. adjoint(v) is within (e+6.3u)|v_t| + (e+9.2u)|t||v_r| and (e+5.25u)|v_r| of the twist conjugated by [Q t; 0 1] (SE2: (e+6.3u)|v_t| + 2.01u|t||v_r|, last entry exact), and trinvadjoint(a)*adjoint(b) = a*b up to (2.02e+11.7u)(|a_t||b_t|+|a_r||b_r|) + (4.04e+29.2u)|t||a_t||b_r|. In double precision, for T = SE3::exp(mu) with a turn of at most 3.15 and an accurate library, T.inverse()*(T*x) is x to within 1e-13|x| + 1.3e-15|t|.",
  "all stored poses near a rigid transformation, all points and twists of representable numbers, every rounding with u <= 1e-4 including double, any contents of the uninitialised storage",
  "transposing the matrix is only the inverse of an exact rotation; how the error splits between drift and rounding and which terms the translation multiplies cannot be seen from samples",
  ["TooN/se3.h: SE3::inverse, SE3::adjoint, SE3::trinvadjoint", "TooN/se2.h: SE2::inverse, SE2::adjoint"])
p("SE3::ln in rounded arithmetic",
  "Computed with rounded arithmetic, `SE3::ln(T)` never divides by zero for a stored pose whose matrix is close to a rotation (a few parts in ten thousand suffice), at any angle including zero and half a turn; the matrix exponential of the returned twist is a pose whose rotation is within `128(\u03b4+4u)+4\u03b7'` of the true one and whose translation differs from the stored one by a relative error of at most `16\u03b7 + 350u + 1.6e-15` (u: unit roundoff, \u03b7, \u03b7': accuracy of sin/cos and asin/acos, \u03b4: how far the stored matrix is from the rotation). Only for rotations by less than about 1e-5 radians is there an additional loss, up to a quarter of the square of the angle. In double precision `exp(ln(T))`, both as computed by the library, returns T to 3e-12 in the rotation and 1.1e-12 (relative) in the translation for angles above 1.1e-4. In exact arithmetic the model is the one of C39.",
  "for every rounding with u <= 1e-5, every stored pose, every rotation near its matrix, every C library with the stated accuracy, and every content of uninitialised storage",
  "the logarithm divides by quantities that vanish with the angle and switches formulas at 1e-5 and 1e-3 radians; a test sees a handful of poses and cannot bound the loss near the switches",
  ["TooN/se3.h:SE3::ln", "TooN/so3.h:SO3::ln", "TooN/so3.h:SO3::exp", "TooN/internal/vector.hh:operator/="])
p("SO2::ln and SE2::ln in rounded arithmetic",
  "Computed with rounded arithmetic, `SO2::ln` of a stored matrix within \u03b4 of a rotation returns an angle whose rotation is within `4.01\u03b4+4.45\u03b7'` of it, in [-\u03c0,\u03c0] up to the accuracy of atan2; `SO2::ln(SO2::exp(\u03b8))` returns \u03b8 to `4.5\u03b7+5\u03b7'` for |\u03b8| <= 3.1. `SE2::ln(T)` of a stored pose whose matrix is within \u03b4 <= 1/2 of a rotation never divides by zero, at any angle including zero and half a turn; the matrix exponential of the returned twist has rotation part within `4.01\u03b4+4.45\u03b7'` of the true rotation and translation part within a relative error `8\u03b7+80u` of the stored translation (u: unit roundoff, \u03b7, \u03b7': accuracy of sin/cos and of atan2). Only for rotations by less than about 1e-5 radians is there an additional loss, at most a fifth of the square of the angle. The translation part of the result is at most 2.4 times as long as the stored translation. In exact arithmetic the models are those of C33 and C39.",
  "for every rounding with u <= 1e-5, every stored pose, every rotation near its matrix, every C library with the stated accuracy, and every content of uninitialised storage",
  "the logarithm divides by a quantity computed by two different formulas that switch at 1e-5 radians, and is used at every angle; a test sees a handful of poses and cannot bound the loss",
  ["TooN/se2.h:SE2::ln", "TooN/so2.h:SO2::ln", "TooN/so2.h:SO2::exp", "TooN/internal/operators.hh:operator/"])
p("Similarity transformations in rounded arithmetic",
  "With one rounding per operation, for stored similarity transformations (SIM2, SIM3) whose matrix is within e of a rotation Q, whose scale is within a relative error \u03ba of \u03c3 and whose translation is within \u03c4 of b: `T*x` is within `\u03c4 + u\u2016t\u2016 + (1.012e + 1.001\u03ba + 7.33u)|\u03c3|\u2016x\u2016` of `b + Q(\u03c3x)`; a product has the product rotation, translation and scale up to the sum of the operands' errors plus a few u; a product of k+1 transformations drifts in rotation and scale at most geometrically however long the chain; `inverse()` never divides by zero when \u03c3 is not zero and returns the inverse up to a relative error of the same size, in the different orders of operations of SIM2 and SIM3; and `T.inverse()*(T*x)` is x up to `(2.011e + 15.8u)\u2016x\u2016 + 13.6u\u2016t\u2016/|s|` for every scale, large or small. In exact arithmetic the models are those of C40.",
  "for every rounding with u <= 1e-4, every stored transformation near a similarity, every point, every chain length, every nonzero scale of either sign, and every content of uninitialised storage",
  "a scale multiplies or divides every error made so far, and chains of frames are arbitrarily long; no set of sample poses bounds the drift or rules out a scale at which the inverse loses the point",
  ["TooN/sim3.h:SIM3::operator*", "TooN/sim3.h:SIM3::inverse", "TooN/sim2.h:SIM2::operator*", "TooN/sim2.h:SIM2::inverse", "TooN/internal/operators.hh:ApplyScalarVL"])
p("SL<N> in floating point: coerce, products and inverses",
  "With every operation of SL<N,double> rounded: (1) constructing an SL from a matrix never divides by zero; the assertion fails exactly when the computed determinant is 0, and (for N != 1) the result is a matrix of NaNs exactly when it is negative; every matrix whose neighbours within the rounding error of the determinant all have positive determinant is accepted. (2) When the computed determinant d is positive every element is divided by one number p that agrees with d^(1/N) up to the rounding of 1/N and the error of pow, and the stored matrix is, up to a perturbation bounded in terms of the largest element, a matrix with determinant exp(l), |l| <= 2 gamma_N + u|log d| + 2 N eta: in double precision and for N <= 100 the determinant is 1 to 2.5e-13 whatever d was. (3) Products have the elementwise error gamma_N |A||B|. (4) inverse() has a small residual whenever it does not divide by zero, and for every matrix that is not within the rounding errors of a singular one (K N beta < 1, K the row sums of the exact inverse) it does not divide by zero and each column is accurate relative to its size. (5) Determinants drift slowly: det(fl(ab)) = det a det b tau with (1-e)^N <= tau <= (1+e)^N for e = gamma_N cond(a) cond(b) < 1, a chain of k products is off by at most the k-th power of such a factor, det a det(a.inverse()) is 1 up to a factor of the same form, and so is the determinant of what coerce stores. (6) (a*b)*v and a*(b*v) both have the elementwise error gamma_2N |a||b||v|, v*a the error gamma_N |v||a|.",
  "every rounding function of the standard model (float, double, exact), every N, every stored matrix, every power function with relative error at most eta, and, for (4), every matrix with an exact inverse not too large",
  "The determinant of the stored matrix depends on the rounding of the determinant, of the exponent 1.0/N (amplified by |log d|) and of pow, for every input matrix and size; no set of samples bounds it.",
  ["TooN/sl.h: SL::coerce, SL::SL(const Matrix&), operator*, operator*=, inverse", "TooN/determinant.h: determinant", "TooN/gaussian_elimination.h: gaussian_elimination"])
if __name__=="__main__":
    import os
    here=os.path.dirname(os.path.abspath(__file__))
    with open(os.path.join(here,"..","properties.jsonl"),"w") as f:
        for x in P: f.write(json.dumps(x)+"\n")
    print(len(P))
