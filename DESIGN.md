# Formal model of edrosten/TooN in Lean 4

## Layout

* `lean/Verif/Model/*.lean` – the model: one Lean definition per C++ function (or per loop of
  a function), each with a comment citing file and lines in `/repo` and saying what is
  simplified.
* `lean/Verif/Spec/*.lean` – small specifications that do not mention the model.
* `lean/Verif/Proof/*.lean` – helper lemmas.
* `lean/Verif/Props/*.lean` – the property theorems (named `cNN_…` after the property), each
  with an `example` (or a `…_satisfiable`/`…_example` theorem) beside it which shows that a
  concrete non-trivial case meets the hypotheses.
* `properties.jsonl`, `MANIFEST.json` – generated by `tools/gen_props.py`,
  `tools/gen_manifest.py`; `AXIOMS.md` – axioms of every claimed theorem,
  `tools/gen_axioms.py`.
* `seeded/LOG.jsonl` – wrong-program experiments, `seeded/run_mutants.py` runs them.
* `tools/coverage.py` – which lines of `/repo` are cited by the model.

## Trusted base

1. **Lean 4.33.0's kernel**, and Mathlib as a library of definitions (statements use Mathlib's
   `Matrix`, `det`, `exp`, `HasDerivAt`, `PosDef`, …).
2. **Axioms**: every theorem depends on a subset of `propext`, `Classical.choice`,
   `Quot.sound` (per theorem in `AXIOMS.md`).  There are no axioms of our own, no compiled
   evaluation, no gaps.
3. **The transcription**: nothing is executed; that a definition says what the cited lines
   of C++ do is a matter of reading.  The definitions stay close to the text (same loops,
   same order, same comparisons, same temporaries) so that this can be reviewed line by line.
4. **The idealisations** listed next.

### Numbers

Two models of the element type are used.

* *Exact*: an arbitrary (ordered) field, or `ℝ` where `sqrt`, `sin`, … occur.  Division by
  zero and square roots of negative numbers (inf/NaN in the program) are a separate outcome
  (`none`/`Outcome.ub`) wherever it matters.
* *Rounded* (C61–C64 and later floating-point properties): `Fl ρ` for a rounding `ρ : Rounding` – a monotone, odd, idempotent map
  `rnd : ℝ → ℝ` with `|rnd x - x| ≤ u|x|`; each `+ - * / sqrt` is the exact operation followed
  by one rounding.  The standard model, shown to be satisfied by round-to-nearest with a `p`
  bit significand (`Rounding.nearest`, `Rounding.double`: `u = 2⁻⁵³`, `Rounding.float`:
  `u = 2⁻²⁴`).  **Not** in this number model: overflow, underflow, NaN, infinities (see *IEEE* below), fused multiply-add
  (see *Contracted*),
  extended-precision temporaries (except the `double` temporaries of `gaussian_elimination` for `float`, C63 and C71; those of
  `gauss_jordan` are not).
* *Contracted* (C82): `Fu ρ ϰ` (Model/Fused.lean), the same numbers when `a ± x*y` may be evaluated with one rounding; `ϰ` is an arbitrary
  choice, per pair of factors, of when it is.  Simplifications: the choice does not depend on the place in the program, and in
  `x*y ± z*w` only the right product can be fused.
* *Machine* (C74): a type `Mach` with uninterpreted operations and comparisons that are false on NaN; its IEEE
  instances `Mach.ofGrid (Grid.double)` etc. have subnormals, overflow to ±∞ and NaN (the sign of zero is not represented).
* *IEEE* (C76–C79, C84): the numbers `XF G` of those instances (bounded exponent, subnormals, ±∞, NaN, one zero) as element type of
  the generic models.  C77 connects them with *Rounded*: a computation in which no overflow, underflow, invalid operation or
  division by zero occurs gives the numbers of the standard model.

Structural theorems (views, assignment, fill, streams, sizes) are generic in a carrier type
without laws, so they hold for floats, integers or anything else.

### Memory, sizes, control flow

* C++ `for` loops become `forRange lo hi body state` (a fold over `lo ≤ i < hi`), early exits
  `Option`/`Outcome`-valued loops (`forNM`, `forRangeM`).  `while` loops and loops whose
  number of iterations depends on data are step functions with a reachability relation or a
  fuel parameter that is universally quantified ("if it returns…", "it returns iff…").
* In algorithms, a vector/matrix is a total function `Nat → K`/`Nat → Nat → K` together with
  its sizes; that no algorithm of `operators.hh` reads outside is what C65 adds.  Buffers,
  strides, aliasing and ownership are modelled concretely in `Model/View`, `Model/Assign`,
  `Model/Heap`, `Model/Typed`.
* Concurrency (C72, C73): threads are interleaved access by access with sequentially consistent memory, which is
  what C++ guarantees when no race is reachable.  C72 shows that none is.  TooN's only mutable static object
  is the generator of C73; its other statics are compile-time constants.
* Undefined behaviour, `abort()`/failed `assert` and compile errors are outcomes, never
  silently totalised.  Integers are unbounded except where the overflow is the point
  (C04 int wrap, C44 `1 << s`).
* `operator new` does not fail and element operations do not throw, except under C75 (which lets every allocation
  and element copy fail, for dynamic vectors, matrices and large static objects) and as said under C06.

### External code (parameters with contracts)

`LAPACK` (`getrf/trsm/getri`, `gesvd`, `syev`, `potrf/potrs/potri`, `geqp3/orgqr`), the
`iostream` number formatting/parsing, `FADBAD`, `std::vector`, the user's functions passed to
the optimisers.  What is assumed is a hypothesis of the theorem (`…Contract` in `Spec`), and
satisfiability of each contract is proved (`c19_contract_satisfiable`,
`c28_contract_satisfiable`, `c30_…`, `c56_…`, `c57_…`).

### Which parts of the code are modelled

| file | modelled | not modelled |
|---|---|---|
| `internal/vbase.hh mbase.hh slice_error.hh size_mismatch.hh reference.hh` | slicing, indexing, transposition, layout and stride arithmetic, static/dynamic size resolution, checks | documentation-only overloads, `operator[]` debug macros |
| `internal/allocator.hh vector.hh matrix.hh` | allocation, copy, move, assignment, `resize`, `swap`, destructors, self-assignment; construction from operators | `std::vector` internals, alignment attributes, allocation failure |
| `internal/operators.hh objects.h diagmatrix.h` | every operator: element loops, result sizes, size checks, mixed precision results | `Operator` overload resolution (taken from the signatures) |
| `internal/comma.hh overfill_error.hh data.hh debug.hh` | `Fill`, over/underfill errors, `Data` | nothing; the machine generated `data_functions.hh`, `make_vector.hh` are transcribed function by function (C83; elsewhere the schema they instantiate is used); `generated.h` (C83) uses types that no longer exist |
| `internal/planar_complex.hh introspection.hh` | element selection | metaprogramming |
| `TooN.h config` | constants, `DefaultPrecision` | build configuration |
| `helpers.h` | norms, `unit`, `project`, `exp`, `log`, `sqrt`, `trace`, cross product, extrema, fill, `Symmetrize` | – |
| `gauss_jordan.h gaussian_elimination.h determinant.h Cholesky.h QR.h GR_SVD.h wls.h irls.h` | every loop | `double` temporaries for other precisions |
| `LU.h SVD.h SymEigen.h Lapack_Cholesky.h QR_Lapack.h lapack.h` | everything around the LAPACK calls; row-major/column-major reinterpretation | LAPACK itself (contract) |
| `so2.h so3.h se2.h se3.h sim2.h sim3.h sl.h` | exp, ln, group operations, actions, generators, adjoints, coerce, stream I/O, SE3 WLS Jacobian helpers | `se3.h:463-628` (`#if 0`) |
| `optimization/*.h functions/derivatives.h functions/fadbad.h` | every iteration step | NaN comparisons (except where stated) |
| `named_elements.h` | accessor→index map (with C01) | macro expansion |
| `doc/ test/ optional/ benchmark/` | – | not library code |

Overall line coverage by citation: `python3 tools/coverage.py`.

## Plan per property

| id | model | proof |
|---|---|---|
| C01–C03 | `View`: (offset, sizes, strides) records over a buffer; chain of ops as a list | invariant by induction over the chain; injectivity of the index map |
| C04,C05 | decision functions over `Int` with static/dynamic parameters | case analysis; `Int32` wrap witness |
| C06 | heap state machine `step : State → Op → Outcome` | inductive invariant, refinement to map object→contents |
| C07 | list model of `std::vector` | induction |
| C08 | elementwise assignment loop over one memory with two views | loop invariant; mirrored-triangle theorem |
| C09–C11 | loops of `operators.hh`/`objects.h` | loop = `Finset.sum`; bridge to Mathlib matrices |
| C12,C13 | filler state machine | induction on the value list; negation witnesses at n=1 / one column |
| C14,C15 | early-exit loops; token streams | induction |
| C16–C18 | literal elimination loops | row-operation invariants |
| C19 | LAPACK result as parameter with contract | permutation algebra; negation witness |
| C20–C22 | in-place LDLᵀ loops | loop invariant; positivity of pivots from SPD |
| C23–C25 | WLS accumulator | fold invariant; permutation invariance |
| C26 | estimator functions over ℝ | derivatives (`HasDerivAt`); negation witnesses |
| C27 | Householder steps | orthogonality algebra |
| C28,C30 | decomposition as parameter with contract | matrix algebra |
| C29,C31 | closed forms | algebra over ℝ |
| C32 | GR_SVD line by line; the rounding test `abs(x)+anorm==anorm` is a parameter | Householder/Givens transformations as maps of row vectors, error bound accumulated over the sweeps |
| C33–C41 | Lie group classes over ℝ | algebra (`ring`, `linear_combination`), trigonometry, Mathlib's `exp` of matrices, explicit Taylor remainders for the small-angle branches |
| C42–C44 | helpers | algebra / loop invariants; `exp_taylor`, `sqrt` as iterations with an acceptance test |
| C45–C48 | optimisers as step functions over abstract `f` | invariants over all histories; convergence for quadratics (CG) |
| C49 | extrapolation tables | algebra, Taylor with explicit remainder |
| C50–C52 | small functions | induction / algebra |
| C53,C54 | element types as conversions (`toInt` truncation) | exact characterisation of when a conversion loses |
| C55 | predicates, Fill on matrices | induction |
| C56,C57 | LAPACK wrappers, Fortran view of a row-major buffer | matrix algebra; contract satisfiable by constructing a factorisation |
| C58 | FADBAD numbers as the square-zero extension of ℝ | every supported expression by structural induction (`HasFDerivAt`) |
| C59 | token streams of the group classes | round trip for all elements |
| C60 | typed views: template size/stride parameters vs. run-time values | simulation by induction over the chain |
| C61 | `Fl ρ` instances of C09's loops | product-of-`(1+δ)` factors (`Fac`), induction over the loop |
| C62 | Cholesky loops at `Fl ρ` | Higham-style backward error, one equation per entry; determinant, `mahalanobis`, `get_inverse` in `Props/FloatChol2.lean` (`c62_determinant_backward`, `c62_determinant_forward`, `c62_mahalanobis`, `c62_inverse`), forward error `c62_forward` in `Props/FloatChol3.lean` |
| C63 | Gaussian elimination at `Fl ρ`; the vector overload with its `double` intermediates in Model/ElimMixed | LU invariant with row interchanges, growth factor; forward error `c63_forward` |
| C64 | determinant at `Fl ρ` | as C63, plus perturbation of the product of pivots; forward error and sign (`c64_forward`, `c64_sign`) from `Proof/DetNear.lean` |
| C65 | expressions as an AST (`Spec/Expr.lean`, with a relational meaning `Den` in Mathlib vectors/matrices); compile-time typing `comp` and execution `run` on buffers with uninitialised cells (`Model/Expr.lean`) | induction on the expression; one lemma per operator (`Proof/ExprOps.lean`) |
| C66 | statements as an AST with a relational meaning `Step`/`Steps` (`Spec/Prog.lean`: a view is the set of cells it consists of, an assignment changes exactly these); execution cell by cell with live views (`Model/Prog.lean`) | views denote disjoint in-range cells (`Proof/ProgLoc.lean`), loops write the cells in order (`Proof/Prog.lean`, `Proof/ProgAsg.lean`), one lemma per kind of assignment, then induction on the program |
| C67 | the models of C65/C66 over an arbitrary element type with operations and no laws; `Ex.map`, `Respects` (`Spec/Param.lean`) | relational parametricity: one lemma per operator, induction on expressions and programs (`Proof/Param.lean`); instances: the total relation (safety), graphs of homomorphisms, `Represents` (derivatives, with divisions by zero marked), exact values (floats) |
| C68 | `Model/IntView.lean`: the functions of `Model/View.lean` with every `int` addition and multiplication of the source checked for overflow | an invariant bounding strides and extents by elements + dimensions + chain length; refinement to the unbounded model |
| C69 | SO/SE group operations and coerce() run at the rounded element type `Fl ρ` (Model/FloatRot); at exact rounding the coerce model equals the one of Model/SO | Frobenius-norm error recurrences by induction on the chain; Gram-Schmidt error analysis with explicit constants (Proof/FloatRot, Proof/FloatCoerce; Props/FloatRot, FloatCoerce, FloatCoerce2) |
| C70 | SO2::exp, SO3::exp and rodrigues_so3_exp at the rounded element type `Fl ρ` with sin/cos as parameters (Model/FloatExp); at exact rounding equal to the model of Model/SO (`c70_exp_exact`) | products of rounding factors for each coefficient, Taylor remainders in the two small-angle branches, then entrywise (Proof/FloatExp, Props/FloatExp); long products through C69 (Props/FloatExp2) |
| C71 | the WLS model of Model/WLS (now over the bare operations of the element type) run at `Fl ρ`; sessions of calls in Model/WLSRun; the `double Jw` of wls.h:103/161 in Model/WLSMixed; meaning of a call over ℝ in Spec/FloatWLS, Spec/FloatWLSCall | rounding factors carried through the accumulation by induction on the calls, Cauchy-Schwarz, then C62's backward stability of Cholesky on the accumulated matrix; forward bound by the coercivity of M (Proof/FloatWLS, Props/FloatWLS) |
| C72 | statements as sequences of atomic accesses (size, load, store, construct) to the variables, Model/Thread; generic interleaving semantics Spec/Thread; footprints Spec/ThreadFoot | every statement refined to its sequential meaning (`progT_sim`) with its accesses inside its footprint; a ghost-memory invariant over all schedules (Proof/Thread*, Props/Thread, Props/ThreadEx) |
| C73 | the switch into the loop as a partial first pass followed by passes of four bytes; access by access for threads (Model/DebugRandom) | induction on the passes; false for zero bytes and for threads, both with witnesses (Props/DebugRandom) |
| C74 | the four optimisers over a type with uninterpreted operations and NaN-aware comparisons (Model/Mach, Model/OptMach); IEEE formats with subnormals, infinities, NaN as instances (Spec/IEEE, Spec/MachIEEE) | loop invariants that use no arithmetic law (Props/OptMach, OptMachSx, OptMachCG), order/sign laws proved for the formats (Props/OptIEEE), bracket invariant (Props/OptBracket); false with NaN/infinite values in three ways, each with a witness (Props/OptNaN); instantiated with exact arithmetic the models equal those of C45–C48 (Props/OptExact) |
| C75 | the allocators element by element in a monad of state, fuse and exceptions, with the clean-up the language performs (Model/Throw); value-level effect of a fault at action k and count of lost arrays (Spec/Throw) | each operation meets the specification from every orderly state; lost arrays are framed away (Proof/Throw); histories by induction; false as a whole: copy constructors lose the new array when an element copy throws (Props/Throw) |
| C76 | the existing models of expressions, programs, products and elimination run on IEEE numbers with bounded exponent, infinities and NaN (`XF G`, Spec/MachIEEE); norms, exp and log written with `std::max` and `<` for any element type (Model/Special); total-division versions of the elimination (Model/Elim) | marks that every operation passes on, by the relational theorem C67; elimination: a bad element of the live part stays in the live part whatever rows are chosen (Proof/Special); false as a whole: everything that chooses with `<` loses NaN (`_wrong`) (Props/Special) |
| C77 | IEEE numbers with the status flags as ghost state (`FX G und`, Spec/Flags): `ok` = no exception so far; the same models run on them | rounding with bounded and unbounded exponent agree unless there is an underflow (Proof/Bridge); relational theorem C67 between flagged and standard numbers; elimination: a flag in the live part reaches the result, so pivots agree; induction on the partial sums for the ranges (Proof/Flags, Props/Bridge) |
| C78 | `expTaylor` (Model/Special) and `expM` (Model/ExpRun) on the numbers of a binary format `XF G` (Spec/MachIEEE); `Fmt G u eta` (Spec/Fmt) = relative error u, smallest number eta, sums do not underflow, nearest; proved for all IEEE formats; log2/ceil of the library by the contract `ScaleSpec` | invariant of the loop: term within c^j/j!-a^j/j! of the exact term plus underflow, partial sums within a growing relative error (Proof/ExpXF); from iteration 4(n+2) the largest element of the term halves, so it underflows to zero; error at the stop by the tail of the series; squaring by induction (Proof/ExpSq); numbers for float and double in Props/ExpXF |
| C79 | `logTaylor`, `logLoop` (Model/Special) on the numbers of a binary format `XF G`; `Fmt G u eta` (Spec/Fmt) as in C78; `IsLog a L` (Props/LogXF) = limit of the series and `exp L = a`; the square root routine is arbitrary | invariant of the loop: power within c^(j+1)-x^(j+1) of the exact one plus underflow, partial sums within a growing relative error (Proof/LogXF); once (2/3)^i is below the smallest number, the division by k makes the term zero; error at the stop by the tail of the series; the effect of rounding m-I by a Lipschitz bound; numbers for float and double in Props/LogXF |
| C80 | The documented client loop over the modelled calls (Model/IRLSLoop); exact reals. | Majorise-minimise argument: the quadratic with the current weights lies above the objective (mean value theorem), compute() minimises it (C23, C26); compactness for limit points; strong convexity of RobustI's objective for the rate. |
| C81 | QR.h written over an arbitrary element type (Model/QRF.lean) and run on `Fl ρ`; at ℝ it is Model/QR.lean (c81_same_code) | Perturbed exact reflection per step (Cauchy-Schwarz bounds for the computed Householder vector, factor and update), composed by induction into one orthogonal matrix; explicit double witnesses for the two failures. Partial: without the proviso the claim is false (c81_*_wrong) |
| C82 | the generic models of Ops, Cholesky, Elim and WLS run on numbers whose products remember what a sum may use instead of the rounded value (`Model/Fused.lean`) | relative-error factors as in C61-C63, C71 with one factor fewer or equal per fused product |
| C83 | every function of the two generated headers transcribed statement by statement by `tools/gen_tables.py` (which rejects any line of another form) into `Model/GenTables.lean`; an interpreter for such a body with uninitialised elements and index checks (`Model/Generated.lean`); `transformCovariance` as loop over its repeated block | the whole table is checked by kernel evaluation against the intended pattern, and the pattern is proved right for all argument lists by induction; loop invariants |
| C84 | `compute`, substitutions, `gauss_jordan` and the WLS calls as in C16, C20–C25, but with a total division as in IEEE arithmetic (`Model/NaNDecomp.lean`), over `XF G`; `c84_same_code` says they agree with the partial models wherever these return | loop invariants that say where the NaN is (`Proof/NaNDecomp.lean`), for any predicate inherited by the operations; finding: `determinant()` of a matrix of deficient rank loses a NaN |
| C85 | the functions of `Model/SVD.lean` (generic in the element type) and `Model/PinvF.lean` (GR_SVD and SymEigen, generic; `c85_same_code` ties them to the real models) run at `Fl ρ` | rounding factors `Fac u k` of every term of the double sum; `forNM_total` for the loop of `get_inv_diag` |
| C86 | the functions of `Model/Helpers.lean` at `XF G`; index conversion is `XF.ofReal` | loop invariants for any comparison that is a strict weak order on non-NaN elements; partial: `c86_index_wrong` – the index vector has the element type, so index `2^p+1` is not representable (float: 16777217), exact up to `2^p` (`c86_index_exact`) |
| C87 | the functions of `Model/Helpers.lean` and `Model/Special.lean` at `Fl ρ` | products of rounding factors (`Fac`), averaging of factors over nonnegative sums (`fac_mean`), stability of a maximum under relative perturbation |
| C88 | `Model/SymEigenF.lean`: the code of C29 for an arbitrary element type (`c88_same_code` ties it to the real model), run at `Fl ρ` | rounding factors through the discriminant, `|√a − √b| ≤ √|a−b|` and `≤ |a−b|/√b` for the eigenvalues, characteristic polynomial for the residual; a computed witness for the diagonal case |
| C89 | `Model/FloatSE.lean`: the code of C39 with every operation rounded and `sin`, `cos` of an arbitrary library (`c89_exact`, `c89_se2_exact` tie it to the real model) | relative error factors per operation, alternating Taylor bounds for the truncated coefficients, Cauchy-Schwarz for the cross products; a computed witness for the dropped term |
| C90 | `Model/FloatFromTo.lean`: the code of C36's constructor with every operation rounded (`c90_exact` ties it to the real model) | the cross product is accurate to `2.84u|a||b|`, so its direction to that over the sine; frames built from nearly orthogonal unit vectors are near orthonormal ones; a computed witness for the nearly parallel case |
| C91 | `Model/FloatLn.lean`: the three branches of `ln` with every operation rounded, the library functions as parameters (`c91_exact` ties it to the real model of C36) | the rotation in axis-angle form; errors of the cosine, of the skew part and of the largest column; `arcsin` is Lipschitz away from 1, a direction's error is that of the vector over its length; `exp` of skew matrices is Lipschitz (mean value theorem, `Proof/ExpLip.lean`) |
| C92 | `Model/FloatPose.lean`: inverse, adjoint, trinvadjoint with every operation rounded (`c92_exact` ties them to the real models of C37, C38) | norm bounds for products with a nearly orthogonal matrix, the cross product bound of C90, and the exact pairing and conjugation identities |
| C93 | `se3LnFl` is the function of se3.h:429-455 in `Fl ρ`, on top of `so3LnFl` (C91) and `so3ExpFl` (C70); the library functions are parameters. | the exact inverse of the translation part of the exponential written as the code writes it (`expTr_lnTr`), the 1-Lipschitz bound of the exponential's translation, then error propagation through `shtot`, the factor of `rot` (where `rot*rot` cancels) and the final division; `c93_translation`, `c93_ln`, `c93_round_trip`, `c93_exact`. |
| C94 | `so2LnFl`, `lnSh2Fl`, `se2LnFl` are the functions of so2.h:98 and se2.h:347-359 in `Fl ρ`; atan2, sin and cos are parameters with a stated accuracy. | the translation of the planar exponential is `2 sin(θ/2)/θ` times the rotation by half the angle (`expTr2_eq`), which is what the code divides by; error propagation through the half rotation, `shtot` and the division; `c94_so2_ln`, `c94_so2_angle`, `c94_so2_round_trip`, `c94_se2_ln`, `c94_exact_so2`, `c94_exact_se2`. |
| C95 | `simAct`, `simMul`, `simChain`, `sim3InvFl`, `sim2InvFl` are the functions of sim2.h/sim3.h in `Fl ρ` (scale * vector, matrix * vector, addition), on top of the model of C69. | error propagation through scaling, rotation and addition with the Euclidean and Frobenius norms; the round trip is a telescoping sum in which a drifted rotation or a rounded scale never multiplies the translation; `c95_act`, `c95_mul`, `c95_chain`, `c95_sim3_inverse`, `c95_sim2_inverse`, `c95_sim3_round_trip`, `c95_sim2_round_trip`, `c95_exact`. |
| C96 | `Model/FloatSL.lean`: `slMulFl`, `slInvFl`, `slCoerceFl` run the code of sl.h (Ops.mulMM, Elim.gaussElim, Elim.determinant) on `Fl ρ`; `pow` is a parameter with a stated relative error (`PowAcc`, shown satisfiable by correct rounding). Overflow is not modelled. | `c96_coerce`, `c96_coerce_double`, `c96_coerce_outcomes`, `c96_coerce_succeeds`, `c96_mul`, `c96_inverse_residual`, `c96_inverse`, `c96_mul_det`, `c96_chain`, `c96_inverse_det`, `c96_coerce_det`, `c96_action`, `c96_action_left` (`Proof/DetNear.lean`: `(1-ε)^n ≤ det(I+G) ≤ (1+ε)^n`): backward error of both determinant formulas (C64 plus the 2x2 case) and of the elimination (C63), and the exact algebra of `d/p^N` through logarithms. |

Every property is expressible in the model; none is `not_applicable`.  A property is `partial`
in the manifest exactly when the code falsifies part of the English claim (listed below); then
the negation is a theorem (suffix `_wrong`/`_ub`/…) and the complement is proved.

## Disagreements found between the code and its documentation or the obvious contract

Each item with an identifier is a theorem; the others are recorded from reading.

**Containers and construction**
* `Fill` of a size-1 vector and of a one-column matrix can never succeed (C12, C13).
* `Data(...)` on a Dynamic matrix writes nothing (C50).
* Resizable: self-assignment under `TOON_INITIALIZE_*` destroys the contents, assigning an
  empty vector is undefined, assigning a proper suffix slice of itself is undefined (C07).
* `Vector<Resizable>::as_slice/as_row/as_col/as_diagonal` have size `-0x7fffffff` (C60).
* `v0 ^ v1` does not compile unless both are `Vector<3>` (C65 `c65_cross_dynamic_wrong`); `[]`/`()` are
  unchecked in the default configuration (C65 `c65_index_unchecked_wrong`).
* The size of a *sized* operator is ignored when it meets a vector that already has one: `v + Ones(5)`,
  `v = Zeros(5)`, `Vector<3> v = Zeros(5)` are accepted for any size of `v` (objects.h:485-521; C65
  writes this as `Sz.sizeFor`).
* `m = m.T()` computes a wrong result, and `v = v.slice(1,1)` on a `Vector<Resizable>` reads storage it has
  given up (C66 `c66_overlap_wrong`, `c66_resize_self_wrong`).  Not covered by C66: uninitialised
  declarations (`Matrix<> m(2,3);`), comma initialisers (C12), `swap`, loops and branches of the user's program.
* `start+length` in the slice check can overflow `int` and is then accepted (C04).  `Matrix<> m(65536,65536)`
  overflows `rows*cols` and (when that wraps) allocates nothing; `diagonal_slice()` of a 1×INT_MAX matrix
  overflows (C68 `c68_alloc_wrong`, `c68_slice_args_wrong`, `c68_diag_wrong`).
* `int*Matrix<double>` truncates the elements (operators.hh:599, C53); `(Ones*int)/r`
  truncates the factor (objects.h:695, C54).
* `m - Identity`, `v - Ones` do not compile with the unscaled operators; the documentation says that
  assigning `Identity` to a non-square matrix zero-fills, the code aborts.
* Slicing a static size-0 vector does not compile.
* `TOON_INITIALIZE_RANDOM`: constructing an empty vector writes four bytes beyond it, and the generator is
  an unprotected static, so that two threads constructing separate objects race (C73).
* A moved-from dynamic vector keeps its size and a null pointer: assigning to it is undefined, hence so is `std::swap`
  on dynamic vectors (TooN's own `swap` is fine) and algorithms that move elements (C06).
* Copy constructors of dynamic vectors, dynamic matrices and large static objects copy the elements in the body of the
  constructor of the class that holds the bare pointer: when copying an element throws, the new array is lost (C75).
  `swap` of matrices is `std::swap` and has the same defect.

* NaN is lost wherever the library chooses with `<` (C76): `norm_inf`/`norm_1` of a matrix of NaNs are 0; `norm_inf`,
  `max_value`, `min_value` of a vector ignore NaNs after the first element; hence the Taylor loop of `exp` returns the identity
  and `log` returns zero for a matrix with a NaN in every row (`exp` itself first computes `(int)ceil(log2(0))`, which is
  undefined); `determinant` returns 0 when a column is zero before the NaN is reached.  `unit` of a vector with elements near
  the largest number is 0, of a vector of tiny elements infinite; the solver turns an infinite coefficient into 0.

**Decompositions**
* `Cholesky::determinant()` of `[[0, NaN], [NaN, 1]]` is 0 (C84, `c84_determinant_wrong`): `do_compute` returns at the zero pivot and the
  product of the diagonal never sees the other elements; `backsub` of the same matrix is NaN everywhere.
* Cholesky: `rank()`/`determinant()` after an early stop (C22); `determinant()` reads `(0,0)`
  for size 0.
* WLS: `get_C_inv` before `compute` has only its upper triangle valid (C25).
* LU: `backsub(Matrix)` with a dynamic number of right-hand sides skips the row interchanges
  (C19); `LU<N,float>::backsub` passes a `double*` alpha (does not compile); the documentation of
  `get_lu` puts the unit diagonal on the wrong factor.
* QR divides by zero when a column is already reduced, e.g. on every upper triangular
  matrix (C27).  In floating point the sign chosen (QR.h:152-154, reflection onto the *nearer* axis) makes the first entry of the
  Householder vector a cancelling difference: for the well-conditioned `double` matrix `[[1,0],[y,1]]` it divides by zero for
  `|y| ≤ 2⁻²⁷` and for `y = 5·2⁻²⁸` returns a `Q` with a row of squared length below 0.4 and factors whose product misses the input by
  more than 0.6 (C81 `c81_breakdown_wrong`, `c81_not_orthogonal_wrong`).
* SVD: `rank()` has an inverted comparison, `determinant()` is the absolute value (C28).
* GR_SVD: the 30-sweep failure is recorded in a protected field without accessor (C32);
  the documentation of `get_inv_diag` differs from the test; `backsub/get_pinv` of
  `GR_SVD<M,N,float>` do not compile.
* SymEigen 2×2 in doubles: for a diagonal matrix with `m[0][0] < m[1][1]` the eigenvector returned for the smaller eigenvalue is the
  second axis — the other eigenvalue's — unless the smaller value is computed without any rounding error, e.g. for
  `diag(1 + 3·2⁻²⁶, 3)`; eigenvalues are accurate to `√u` only when they are close together (C88).
* SymEigen 3×3: zero matrix, all-ones matrix, tiny matrices, one small eigenvalue (C31);
  `get_inv_diag/isqrtm` read `ev[0]` for size 0; `get_sqrtm/isqrtm` are NaN for negative
  eigenvalues (C30).
* Lapack_Cholesky uses the upper half, `rank()` is not the matrix rank, `determinant()` is a
  square (C56).  QR_Lapack: inverted permutation convention, tall matrices (C57).
* IRLS: `true_C_inv` from uninitialised memory, `+=` drops the residual, Dynamic size mismatch;
  `RobustII::true_scale`, `ILinear::objective`; `RobustIII` has no `true_scale` (C26).

**Helpers**
* `accumulate_horizontal/vertical` discard `null()` and then read out of bounds on empty
  lines (C43); index vectors are stored in the element type, so column `2^24+1` of a `float` matrix is reported as another one (C86); `norm_inf` of an empty vector reads `v[0]`.
* `TooN::exp(0)` and norms above 2³⁰ are undefined; `sqrt([-3]) = [-1]` (C44).

**Lie groups**
* `SO2::coerce` accepts reflections (C33).
* `SO3(a, b)` for nearly parallel `a`, `b` returns a matrix that is not a rotation (so3.h:80-84 tests the rounded cross product against
  exact zero; C90, an element above 1.2 in double precision);
* `SE3::exp` first Taylor branch drops a term (relative error up to θ²/6 ≈ 1.7e-9, C38, C39);
  `SE2::exp` ≤ 2e-9.  In doubles: exact y-translation 1 for a twist whose correct one is 1 − 1.4e-9 (C89).
* `SIM3::exp` has integer divisions `1/2`, `1/6`; `SIM2::exp` uses the wrong coefficient (pure
  translations map to the identity, then `ln` divides by zero); SIM adjoints leave the last
  coordinate unset and ignore the scale (C40).
* `SL::ln` for `N ≥ 4` (`last = l(i,i)`): coordinate i comes out `v_i − v_{i−2}`; `coerce` is NaN for
  negative determinants (C41).

**Optimisers and differentiation**
* `golden_section`: the iteration counter is never incremented (C45).  `brent`: no minimum
  step (C46).  `DownhillSimplex::finished` is true whenever all values are equal; contraction
  uses `<=` where the documentation says `<` (C47).  `ConjugateGradient`: assertion failures on
  plateaus and symmetric quadratics, dead NaN recovery branch, bracketing need not return (C48).
* With NaN or infinite function values: `golden_section_search` can return NaN although it was given a number, one `+inf`
  value makes `brent_line_search` evaluate the function at NaN, one NaN value makes `get_best` of the simplex
  return the NaN point (C74).
* Hessian cross terms are evaluated at a perturbed point for n ≥ 3; Ridders' error is not a
  bound; typo in the documented Neville recurrence (C49).
* fadbad.h: `get_derivative` with Dynamic N loops to `-1`; `get_jacobian` with `F<P>` writes out of bounds (C58).
* With contraction of multiply-adds (GCC default when the target has FMA) `v ^ v` is not zero: `-1` for `v = (0, 2²⁷+1, 2²⁷+1)` (C82).
* `planar_complex` hard-codes `complex<double>`.
