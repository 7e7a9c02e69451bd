# Formal model of aocl-sparse in Lean 4 — design

## 1. Approach

The model is a set of total, computable Lean functions, one per modelled C++
function, written so that they read like the loops of the source.  They live in
`lean/Verif/Model/*`.  Independent specifications (what a CSR array triple
denotes, what a symmetric matrix is, …) live in `lean/Verif/Spec/*`.  Helper
lemmas live in `lean/Verif/Proofs/*`.  The property theorems, and the
non-vacuity examples beside them, live in `lean/Verif/Props/*`.

### 1.1 Memory, undefined behaviour, loops

* A C array is a `List`.  A read or write goes through `rd` / `wr`
  (`Verif/Core/Mem.lean`), whose index is an `Int`.  A negative or too large
  index gives `none`, which stands for *undefined behaviour*.  Null
  dereferences give `none` too.  "The function does not exhibit UB" is therefore
  the statement `… = some …` and is part of every functional theorem.
* `for(i = lo; i < hi; ++i)` is `forC lo hi body`, recursion on the trip
  count; the body runs in the same `Option` monad.
* Early `return status` from inside loops is an `Except Status` layer.
* `aoclsparse_int` is modelled by unbounded `Int`, except in the overflow
  properties (C37, parts of C09, C10, C12, C13, C18, C29, C32, C42 and C51, and C82), where the
  integer range is explicit.
* Scalars are an arbitrary type `R`.  *Structural* theorems (conversions,
  sorting, schedule independence, beta = 0, gather/scatter, …) need no
  algebraic law, so they hold for IEEE floating point as well.  *Numerical*
  theorems (SpMV, solves, products) are stated over an arbitrary commutative
  (star-)ring or field: they establish exact-arithmetic correctness and say
  nothing about rounding.  The *rounding* properties C54, C55 and C58 state
  error bounds for a rounding function with bounded relative error.

### 1.2 Statement discipline

A property theorem mentions only the modelled entry point and the Spec.
Well-formedness hypotheses are explicit predicates; each theorem is followed by
an `example` that a concrete non-trivial input satisfies its hypotheses.
When the code violates a property, the negation is proved on a concrete witness
(`decide` / `rfl` evaluation of the model) and the part that holds is proved
under the suffix `_partial`.

## 2. Trusted base

* Lean 4.33.0 kernel; axioms at most `propext`, `Classical.choice`, `Quot.sound`.
* Reading of the C++ source: each model definition cites file and lines.
* Abstractions listed in §1.1 and, per property, in §3.
* Rounding is modelled in C54, C55, C58, C64, C67, C69, C70, C72, C73, C74, C75, C76, C77, C78, C79, C80 and C81 only, by relative errors: overflow,
  underflow, infinities and NaN are not part of that model.
* Vector instructions: a register is a list of lanes, and each intrinsic of the kernel
  templates is transcribed from the instruction manual (C59); kernels written directly with
  intrinsics (csrmv, ELL, DIA, blocked CSR) are modelled by what they do to the lanes.
* Not modelled anywhere: memory allocation failure (unless stated), compiler behaviour, the weak memory model (schedules are
  sequentially consistent interleavings of the modelled atomic steps).

## 3. Plan per property

| Id | Modelled | Proof |
|----|----------|-------|
| C01, C02 | doid enum, get_doid, trans_doid, conj_doid, get_effective_doid with integer encodings | denotation of a doid as an operator on matrices; case analysis over the finite table, lemma per case over all matrices |
| C03, C04 | aoclsparse_mat_check_internal with early returns | loop invariants; iff with the declarative well-formedness predicate |
| C05, C07 | aoclsparse_csr2csc_template, array level | counting-sort invariant |
| C06 | aoclsparse_coo2csr_template | same invariant |
| C08 | aoclsparse_csr2dense_template | frame + last-write invariant |
| C09–C11 | csr2ell_width, csr2ell, csr2ellt, csr2ellthybrid, ell mv | loop invariants; UB witness for empty leading row |
| C12 | csr2dia_ndiag, csr2dia, diamv | loop invariants |
| C13 | csr2bsr_nnz, csr2bsr | loop invariants |
| C14 | csr2blkcsr | invariant on consumed prefix of each sub-row |
| C15 | check_sort_diag, sort_idx_val, fill_diag, indices, optimize | composition of per-function theorems |
| C16 | Model/Conc: shared lock, handle, one access to shared memory per step, callers trsv/symgs, mv, sorv, failing allocations | inductive invariant over reachable states (Proofs/Conc), ranking for termination |
| C17–C20 | all reference kernels and lane-level models of vector kernels | row-wise sums over a ring |
| C21 | handle = user arrays + list of objects (Model/Mv): optimize (hint merging, transposes, full copies, block, four-row, hybrid formats), selection of the object by score, all kernels | invariant HandleOk over histories (MvReached), composition with C01, C11, C14, C15, C17-C20, C43 |
| C22 | handle state machine | refinement to "current values"; negation witnesses |
| C23 | Model/Own: heap of addresses, objects, handles, solvers, failing allocations | separation-style triples (Proofs/Own*), invariant over histories |
| C24–C26 | export/copy/order on handle | per-function theorems + negation witnesses |
| C27 | trsv API checks, clean copy, choice of operation, reference and vectorised kernels | row recurrence (`RowsOk`) and column-elimination invariant (`ColsOk`) over a field; step lemmas per kernel; composed with C15 and C02 |
| C28 | csr2m two-stage product | stamp invariant for counting, accumulator invariant for values, any team order |
| C29 | add: orientation, counting, prefix sum, main region | stamp/position invariants per row; rows independent of thread order (`team_inv`) |
| C30–C31 | sp2md, csrmm | row-wise accumulation invariants |
| C32 | syrk: estimate, transposition on the fly with linked lists of rows (Model/Oft), dense-row variant, csr2csc + conjugation, handle (Model/Syrk) | the lists chain the rows whose next element is in the column; so the visited rows of column j are exactly those storing j; product rows as `firsts` of the products; the estimate bounds a symmetric pattern by double counting |
| C33 | L1 reference kernels | loop invariants |
| C34 | Model/Ilu: factorisation loops with the column mapper, both solves, ilu_info of the handle, checks | row invariant on positions (RowPart, RowDone), sums over positions to matrices, invariant IluOk over histories |
| C35 | Model/Symgs: symgs checks, choice of triangles and operations, both sweeps through the modelled mv and trsv on the handle, fused product; sorv checks, diagonal check, sweep; trsv on handles | composition of C21 and C27 on handles; triangles of an operator (`gsModes_ok`); row invariant for sorv; invariant HandleOk over histories |
| C36 | Model/Dispatch: context from CPU flags and environment, ISA hint, enable_instructions, Oracle with scores, the library's tables | loop invariant (best row so far), score = fit (bit vectors), whole tables, histories of one thread |
| C37 | overflow helpers over bounded integers | case analysis + nonlinear arithmetic |
| C38 | Model/DescrObj: heap of descriptors, create, copy, destroy, setters, getters; Spec/DescrHist: value last accepted, from the calls alone | agreement of heap and history, by induction over call sequences (Props/Descr) |
| C39 | Model/Hint: every hint function with its checks, list of hints, memory policy, optimize on the handle (Model/Mv); Spec/Hints: which calls are accepted and what is remembered | induction over call sequences; optimize with all hints marked does nothing (Props/Hints) |
| C40 | option registry | invariant over call sequences |
| C41 | CG reverse communication, itsol handle, direct CG interface (Model/Cg, Model/Itsol) | refinement to a dialogue (Spec/Cg); measure; invariant; orthogonality of residuals and conjugacy in exact arithmetic |
| C42 | create_coo, convert_csr, convert_bsr of handles (Model/Convert): checks, dispatch over formats and op, allocation with arbitrary content, copy / csr2csc / coo2csr / csr2bsr | composition of C05, C06, C13 with the conjugation loop; rows as filtered lists of entries |
| C43 | convert_mat_to_general, set_mat_diag | composition |
| C44 | Model/Tcsr: create_tcsr, the mv and trsv branches of a TCSR handle, the AVX2 product; Spec/Tcsr: what a pair of triangles is, and the matrix it denotes | acceptance iff by row invariants, then composition with C19–C21 and C25 (Props/Tcsr) |
| C45 | set_value | loop invariants |
| C46 | Model/Dotmv: mv on a handle, then the dense dot kernels | composition of C21_mv and denseDot_ok |
| C47 | bsrmv kernels on column-major blocks | row-block accumulation = block rows of the matrix (Proofs/Bsrmv) |
| C48 | get_num_threads | case analysis |
| C49 | sypr: right factor, clean copy of B, symmetric product with transposition on the fly, transposed product, stages, handle (Model/Oft, Model/Sypr) | rows of sym(B) = own part + visited rows of the lists of C32; counts of both products as cardinalities of stored positions, hence functions of the patterns; invariant of the handle over all histories of stages |
| C50 | syrkd: visits of the columns with transposition on the fly, scaling of the triangle; syprd: dense rows of alpha·M·B for both layouts, dot products (Model/Syrkd) | additive effect on C (Proofs/Adds) of each visit, summed by the visits of C32; rows of M·B as sums over the stored elements; scaling cell by cell; frame from injectivity of the offsets |
| C51 | trsm: checks, layout, overflow, the parallel loop as a schedule of whole columns over the solver of C27 and C44 (Model/Trsm) | induction over the schedule with disjoint cells of different columns; uniqueness of the solution of an invertible triangular system gives independence of the schedule |
| C52 | GMRES reverse communication and its handle (Model/Gmres, Model/Itsol); the user (Model/GmTalk) | invariant over calls with the place in the cycle as measure (Proofs/GmRunInv); in exact arithmetic the Arnoldi relation, orthonormal basis and rotated least-squares system as invariant (Proofs/GmCycle, GmExRun), minimality from the triangular system |
| C53 | csrsv.hpp: the checks, both row loops with `break` and the remembered diagonal position; `x` and `y` separate or the same array | loop invariants (rows solved so far; unsolved rows still hold the right-hand side) + uniqueness of triangular systems |
| C54 | the general CSR kernels with the multiply-accumulate operations as parameters; floating point as a rounding function with relative error `u` (Spec/Rounding) | each kernel's dot product is the evaluation of a summation tree over the row's products (any arithmetic); induction over trees for the error |
| C55 | the eight kernels of the triangular solve for real data with the multiply-subtract operations as parameters (Model/RoundedTrsv) | each component is the evaluation of a tree of subtractions over the products of its row (invariants over the row and column loops, any arithmetic); every tree is `p (alpha b - s)` with factors within `(1-u)^n, (1-u)^-n`, moved into the matrix |
| C56 | the built-in preconditioner of direct CG and the parameters that itsol_solve takes from the handle of the matrix (Model/CgGs) | the two solves by C27 and the scaling by an invariant over its loop give `(L+D) D⁻¹ (D+U) z = r`; that operator is positive definite with the matrix; the environment built from the handle meets the hypotheses of C41_direct, with a zero-based clean copy kept by products (invariant over the copies), and C41_exact ends the solve |
| C57 | the built-in preconditioner of direct GMRES and the parameters that itsol_solve takes from the handle of the matrix (Model/GmIlu) | the environment built from the handle meets the hypotheses of C52_direct: products by C21_mv, the smoother by C34_ilu (its factors are unique, so every application is with the same inverse) or, when it fails, by a safety lemma (no read outside the arrays, output unchanged); C52_monotone and C52_success give the residual; the two counterexamples follow the loop through its first inner iteration |
| C58 | ilu0 with the difference a - l*u as a parameter, fused or not (Model/RoundedIlu) | loop invariant over positions as in C34, but with the sequence of operations instead of a sum; a weighted form of the error of a chain of differences gives the bounds on L U - A at a stored entry and on the two substitutions |
| C59 | every operation of kt_l0_sse/avx2/avx512, kt_l0, kt_l1 as a composition of intrinsics on lists of lanes (Model/KtLanes) | registers of the six shapes are split into lanes and the compositions evaluated; accumulators by an invariant over the blocks, which gives the assumption `Vec.Ok` of the kernel theorems |
| C60 | the inductive set `Life` of handles reachable by all the modelled calls with arbitrary arguments, together with the arrays the user believes in; csrmm on a handle (Model/Life) | each call that ends keeps the invariant HandleOk (Proofs/Life): case analysis on every return path; the solvers by induction on the loop for an arbitrary invariant of the callbacks; then the result theorems of the calls apply |
| C61 | the Boolean `sameType` of the models of all typed routines; the dispatch on two types and the stores of the finalize stage as bytes (Model/SpTypes) | one lemma per kind of check (Refuses.step, Refuses.typ), applied along the list of checks of each routine; the byte count by arithmetic |
| C62 | calls as threads with one shared access per step: compare the mark, rewrite the diagonal element by element, set the mark, read the values in any order (Model/ConcDiag) | invariants over all interleavings: when all want the same values, each thread knows which elements are right and right elements stay right; refinement to the sequential setMatDiag; a schedule as counterexample for mixed types |
| C63 | every call of the handle model again with a set of failing allocations as argument (Model/Oom); histories LifeM = those of C60 with failures | case analysis call by call: equal to the model without failures, or memory_error with a correct handle; the calls with no failure equal the old model (`*_plenty`), so all theorems about them carry over after any history; concrete runs as counterexamples for the two ignored statuses |
| C64 | the sp2m model of C28 over scalars without algebraic laws; rounded scalars as in C54, remembering the factors of a product so that `+=` may be fused | the proofs of C28 redone without laws: each stored value is a fold over the list of products in traversal order; then induction over that list for the error bound |
| C65 | sp2m and add with a record of failing allocations, per thread where threads allocate; every `catch(std::bad_alloc &)` clause of csr2m.cpp and csradd.hpp | invariant: what the handle holds stays ready for the finalize stage; a team with failing threads keeps it; induction over histories |
| C66 | the four parallel regions of csr2m.cpp and csradd.hpp as one program per thread whose steps are single reads and writes of the shared arrays; a step relation that lets any thread move | simulation of the sequential thread by its program (a weakest precondition), each thread stays in the cells it owns, so any interleaving commutes to the sequential run of Core/Team; induction over the number of steps |
| C67 | `add` over an arithmetic with no laws; the exact list of (column, value) pairs of every row | invariant of the two merge loops that gives the row as a fold; a lookup in that fold gives the element; the error bound is two applications of the rounding model |
| C68 | the kernels of csrmm and the scaling loop as one program per thread whose steps are single reads and writes of C (Model/SchedMm) | every program touches only the cells of its own rows, columns or column blocks and runs to the result of the sequential kernel; threads with disjoint cells commute, so every interleaving ends in the same memory (Core/SchedRows) |
| C69 | the kernels of csrmm over an arithmetic with no laws; an arithmetic in which any product may be fused (Spec/Contract) | invariants of the loops that give every element as a fold over the row (Spec/MmExact); induction over that fold and over the tree that adds up the lanes counts the roundings |
| C70 | csrmvt_kt one access at a time; threads with a critical section (Core/Crit); the order of operations per element (Spec/MvtExact) | invariant over all runs: free, or one thread inside with the rest of its program; runs for every order built by induction; exact values as folds, roundings counted along them |
| C71 | the row loops of csrmv, tcsrmv, ellmv, br4 as threads on the cells of y (Model/SchedMv); the shared status of trsm | a defined run in order makes every row's local computation defined; rows own disjoint cells, so rows_schedules applies; the race by running two threads alone up to the assignment |
| C72 | the mv kernels of ELL, transposed ELL, one triangle and its transpose, symmetric matrices, TCSR and br4 in an arithmetic with rounding (Spec/MvErr) | the same program run in three arithmetics (rounded, exact, absolute values) with NearC relating every intermediate; the exact runs are identified by the exactness properties |
| C73 | aoclsparse_sp2md_t and spmmd in an arithmetic without laws (Spec/MdExact: opVals, mdProds) | each loop adds a list of values to each cell in order (AddsL, induction over the loops); the list is the list of products up to the order of the row of A, equal to it when sorted; errors by induction over the list with NearC |
| C74 | aoclsparse_?bsrmv with all its kernels in an arithmetic without laws (Spec/BsrExact: bsrPairs, bsrElt) | each unrolled or vector step adds a list of products to each cell in order (AddsP, induction over the template recursions); the list does not depend on the register width; the error by induction over the list |
| C75 | aoclsparse_?diamv with all its kernels and modes in an arithmetic with at most commutative laws (Spec/DiaExact: diaPairs, diaByDiags, diaByRow) | every loop relates the old and the new value of each cell (Moves, windows of blocks and single cells); chains of additions by induction over the diagonals give the values and the error |
| C76 | sparse dot products, axpyi, roti and the dot product of dotmv in an arithmetic without laws (Spec/Level1Exact: dotVal, rotX) | blocks and remainder of the dot products as folds over the pairs; the errors by induction over the pairs and over the tree of the horizontal sum |
| C77 | aoclsparse_dblkcsrmv (its three kernels) in an arithmetic without laws (Spec/BlkCsrExact: blkPairs, blkSum, blkElt) | the accumulators hold, lane by lane, the products of the blocks so far; the errors by induction over the blocks and the sum of eight lanes |
| C78 | aoclsparse_?syprd for real types in an arithmetic without laws (Spec/SyprdExact: opRowL, symUp, pdT, pdElt) | the dense row holds the sums of products, each cell of C receives its products once and in order; the errors by a two-level sum; the exact value by running the model over the reals |
| C79 | aoclsparse_?syrkd for real types in an arithmetic without laws (Spec/SyrkdExact: gramProds) | the cursors into the rows visit the elements of each column once; each element adds its products with the rest of its row to the cells of C; the errors as for C73 |
| C80 | the loop over the columns of aoclsparse_?trsm around the kernels of C55 (Model/RoundedTrsm) | induction over the order of the columns: a relation between right-hand side and solution that one solve establishes is kept by the solves of the other columns, which write other cells; with the relations of C55; equality of bits by two runs side by side on arrays that agree on the elements written so far |
| C81 | scaling and forward sweep of aoclsparse_?sorv with the multiply-add as a parameter (Model/RoundedSor) | invariant over the entries of a row: the accumulated sum is near the exact one relative to the sizes; invariant over the rows: the bound of an updated row refers only to elements that no longer change |
| C82 | the counts of aoclsparse_optimize_mv in machine integers (Model/MvStats) | invariants over the rows: the counts as sums over rows, the extremal row lengths and the number of rows on each side of the average; the bounds follow from the sums; a family of four-row matrices for the overflow |

## 4. Findings (disagreements between code and property)

Each entry is a place where the code as written does not do what a user would
expect.  The model follows the code; where a theorem records the fact its name is given.

* F1 (C03) create_csr/csc/coo do not validate the base argument: base 7 is accepted
  (`C03_base_not_validated`).
* F2 (C01) `get_effective_doid` does not propagate the invalid id: two invalid ids give
  "general, no operation" (`C01_invalid_not_absorbing`).
* F3 (C05) csr2csc with m, n or nnz zero writes the output pointer array before
  checking it for null (modelled as UB).
* F4 (C03) creation also rejects rows that store the diagonal entry twice, while other
  duplicates are accepted; the statement of C03 was amended accordingly.
* F5 (C08) csr2dense: with duplicate entries the last one wins, they are not summed
  (`C08_duplicates_last_wins`); a non-general rectangular matrix with a unit diagonal
  writes a diagonal cell outside the m x n window (`C08_rectangular_writes_padding`).
* F6 (C37) the product guard refuses a product equal to the least integer
  (`C37_product_not_exact_at_min`); the sum guard can never fire in ILP64 builds
  (`C37_sum_vacuous_ilp64`).
* F7 (C09, C10) ELL products with width 0 (a matrix without entries) return success and
  leave y unscaled (`C09_zero_width_keeps_y`).
* F8 (C10, C11) csr2ellt and csr2ellthybrid read csr_col_ind[-1] when the first row is
  empty and the width positive (`C10_empty_first_row_ub`).
* F9 (C10, C11) ELLT padding cells multiply the value 0 with a genuine element of x; in
  floating point an infinity or NaN in x there would leak into rows whose matrix entries do
  not touch it.  The ring model cannot see this; proved in `C77_ellt_nan_counterexample`
  in an arithmetic with a NaN.
* F10 (C18) The multi-threaded transposed kernel splits rows by the number of threads requested,
  not by the size of the team it gets: a smaller team silently loses rows
  (`C18_smaller_team_loses_rows`).  Its bound `m * tid` is also computed in aoclsparse_int.
* F11 (C19) The public csrmv on a symmetric descriptor reads csr_col_ind[-1] when the first row
  is empty (`C19_public_empty_first_row`) and ignores fill mode and diagonal type: it is right
  only for lower triangular data with the diagonal last in its row (`C19_public_needs_lower`).
* F12 (C20) The double-precision triangular kernel replaces its running sum by the horizontal
  sum of the vector register, so for an upper triangle with a unit diagonal every row with at
  least four strictly upper entries is computed with a zero diagonal
  (`C20_avx2_loses_unit_diagonal`).
* F13 (C20) For more rows than columns, unit and zero diagonals are mishandled in the rows below
  the square part: `x` is read past its end, or the last stored entry of the row is dropped
  (`C20_tall_unit_out_of_bounds`, `C20_tall_zero_drops_entry`); mv checks squareness only for
  symmetric and Hermitian matrices.
* F14 (C15) The comparator given to `std::sort` is `<=`: it orders an element before itself, and two
  entries of a row with the same (off-diagonal, hence accepted) column both ways
  (`C15_comparator_not_strict`).  C15 therefore needs rows that are already grouped or free of
  duplicates; for those `StdSort` (Spec/StdSort.lean) states what is assumed of `std::sort`, and
  `insertionSortB_stdSort` shows that the assumption can be met.
* F15 (C12) `aoclsparse_csr2dia` does not clear `dia_val`: cells of populated diagonals without an entry keep the
  buffer's previous content (`C12_dirty_buffer`), so the caller must zero it. `aoclsparse_?diamv` with `n = 0` returns
  success without applying `beta` to `y` (`C12_no_columns`), unlike the CSR product.
- **F16** `csr2bsr` does not clear `bsr_val`: the padding inside the blocks keeps whatever the caller's buffer held, so a
  non-zeroed buffer denotes another matrix (`C13_dirty_buffer`); `csr2bsr_nnz` with m = 0 or n = 0 leaves the row pointer
  array unwritten (`C13_nnz_empty`).
- **F17** `bsrmv` called directly with mb = 0 or nb = 0 returns success without applying beta (`C47_empty_no_beta`).
- **F18** (C14): csr2blkcsr gives two equal column indices of a row the same mask bit but stores both values; the kernels then read all later values shifted, so the product is wrong for every following row. Matrices with repeated entries are classified fully sorted by the matrix check (`prev > j` is the only test), which is the condition the analysis uses to select this format. Witness: `C14_duplicates_break`. An unsorted row makes the conversion shift by a negative amount (`C14_unsorted_undefined`; not reachable through optimize, which requires fully sorted).
- **F19** (C14): blkcsrmv with nnz = 0 returns success without scaling y by beta (`C14_empty_no_beta`).
- **F20** (C27): the vectorised kernels of the transposed solve (`kt_trsv_lt`, `kt_trsv_ut`, trsv_kt.cpp 207-209, 442-444) skip the initialisation of x when alpha = 0; instead of zeros they return the solution of op(T)x' = x for the old content of x (`C27_alpha_zero`, `C27_alpha_zero_wrong`).
- **F21** (C27): the same kernels gather, update and scatter a block of a row at once, so a column stored twice in a block loses an update; such matrices are accepted by create and by the clean-copy builder (`C27_duplicates_wrong`).
- **F22** (C29): aoclsparse_?add with a B that stores a position twice (accepted by create, absent from A's row) adds the second value into `C_val[-1]` or into an entry of another row: `col_rec` is not updated for new entries of B (csradd.hpp:279-293). `C29_needs_nodup`, `C29_needs_nodup_value`.
- **F23** (C29): the main parallel region of add splits rows by the requested thread count, the counting region by the delivered one; if fewer threads are delivered (OMP_DYNAMIC, thread limit) rows of the result are uninitialised. `C29_needs_full_team`.
- **F24** (C29): `M * (thread + 1) / threads` is evaluated in aoclsparse_int; M*threads above its range is signed overflow (undefined). `C29_thread_overflow`. The same expression occurs in csr2m.
- **F25** (C28): the finalize stage of the two-stage product compares only the dimensions of the operands with the handle produced by the count stage. If an operand has gained entries in between, the kernel writes past the end of the index array of the result before its own entry-count check (`C28_needs_same_pattern`). The two-stage theorem therefore requires the stored positions to be those of the count stage; values, duplicates' values, descriptors, thread teams may change.
- **F26** (C31): aoclsparse_?csrmm returns success without touching C when the inner dimension is zero although beta may differ from one, so C is not beta*C (csrmm.hpp quick return; `C31_zero_inner_counterexample`). Also, a csrmm or mv call with another diagonal type rewrites the diagonal of the shared expanded copy while holding only a shared lock (aoclsparse_set_mat_diag), so concurrent calls with different diagonal types on one handle race; the C31 theorem is about one call at a time.
- **F27** (C43): `aoclsparse_convert_mat_to_general` (csr_util.hpp:311-457) keeps only the last of several stored diagonal entries of a row, whereas the symmetric kernels add them, so for a matrix with a duplicated diagonal entry the result of a symmetric product changes when the handle is optimized: `C43_duplicate_diagonal_counterexample`. The creation functions reject such matrices (F4), so this needs arrays changed by the user after creation; the theorem assumes `OneDiag`.
- **F28** (C33): the documentation of gthr/gthrz/sctr/axpyi/roti promises `invalid_index_value` for a negative index. Only the reference kernels check; the vectorised kernels (the default on AVX2 machines) read or write in front of the vector. `C33_negative_index_counterexample`.
- **F29** (C33): axpyi (documentation does not require distinct indices) adds both contributions of a repeated index on the reference kernel, but loses one when both are in the same vector register. `C33_axpyi_repeated_counterexample`.
- **F30** (C33): `aoclsparse_sdoti`/`ddoti` ignore the status of the inner call and return an uninitialised local when a pointer is null or the kernel id invalid. `C33_doti_null`.
- **F31** (C30): aoclsparse_?sp2md dereferences descrA/descrB before any check; a null descriptor crashes instead of returning invalid_pointer. `C30_null_descr_counterexample`.
- **F32** (C30): the operation codes of sp2md/spmmd are not validated. An undefined code counts as a transposition in the dimension checks and as no operation in the kernels, which then access memory outside the arrays. `C30_bad_operation_counterexample`.
- **F33** (C21): a general matrix with diag type unit or zero: mv on the plain CSR copy returns invalid_pointer, after a format copy was made by optimize it succeeds (`C21_diag_status_counterexample`).
- **F34** (C21): four-row format with one-based indices and an empty row at the start of a padded group: the padding column is 0, so the kernel reads `x[-1]` (`C21_br4_counterexample`). With an empty first row, optimize itself reads `col_ind[-1]` when it builds the hybrid format (`C21_hybrid_counterexample`).
- **F35** (C21): on a processor with AVX512F and without AVX512VL optimize makes the block copy and mv then returns not_implemented (`C21_avx512vl_counterexample`).
- **F36** (C21): a sorted matrix with repeated entries, for which create_csr succeeds, gives wrong products after optimize made the block copy (`C21_duplicates_counterexample`).
- **F37** (C21): conjugate transposed product with a complex CSC matrix: not_implemented, unless a hint for another operation made a general copy (`C21_conj_counterexample`).
- **F38** (C34): after numerical_error the handle keeps partly eliminated values; a second ilu_smoother call factorises those and may succeed with factors of another matrix (`C34_retry_counterexample`).
- **F39** (C34): ilu_smoother accepts partially sorted matrices, but the elimination runs in storage order: if the lower part of a row does not ascend the factors are wrong (`C34_partially_sorted_counterexample`).
- **F40** (C34): handles created from CSC arrays have input_format csr and pass the check `Only CSR input format supported`; the transpose is factorised (`C34_csc_counterexample`).
- **F41** (C35): symgs drops the status of the products inside the sweeps; for a complex Hermitian matrix in CSC the product with the conjugate transposed triangle is not implemented, the call returns success and x lacks that term (`C35_hermitian_csc_counterexample`).
- **F42** (C35): symgs drops the operation for symmetric and Hermitian matrices: complex symmetric with conjugate transpose and complex Hermitian with transpose are swept with A instead of conj(A), while the fused product uses the operation (`C35_symmetric_conj_counterexample`).
- **F43** (C35): symgs with nnz = 0 returns success and does nothing although no diagonal is stored (`C35_empty_counterexample`); diagonal type zero is accepted, the sweeps use the stored diagonal and the fused product a zero one (`C35_zero_diag_counterexample`); a real matrix declared Hermitian with the fused product fails after x was overwritten (`C35_real_hermitian_counterexample`).
- **F44** (C35): sorv checks the diagonal values only while the handle is not marked as having a full diagonal; a stored zero is invalid_value on a fresh handle and a division by zero with status success after any call that built the clean copy (`C35_sorv_history_counterexample`). A CSC handle passes its format check and is relaxed with the transpose (`C35_sorv_csc_counterexample`).
- **F45** (C22): `aoclsparse_?set_value` and `?update_values` delete the internal copies and set their pointers to null, but leave the nulls in the list. `get_best_matrix` dereferences every element of the list, so a product (or symgs, or dotmv) after "solve, set_value" crashes. `C22_null_counterexample`.
- **F46** (C22): neither call resets `ilu_info` or the marks `opt_csr_full_diag`, `optimized`. The ILU smoother goes on using the factors of the old matrix (`C22_ilu_counterexample`); a relaxation no longer notices a diagonal entry set to zero (`C22_sorv_counterexample`).
- **F47** (C26): `aoclsparse_order_mat` sorts as many columns of a CSC matrix as it has rows: with more columns than rows the last ones stay unsorted, with more rows than columns it reads past the array of pointers. `C26_csc_counterexample`.
- **F48** (C24): `aoclsparse_export_?csr` takes the last CSR object that is not a transpose; after a hint for symmetric products that is the expanded symmetric matrix, not the user's. `C24_symmetric_counterexample`.
- **F49** (C45): of several entries stored at one coordinate only the first changes. `C45_duplicate_counterexample`.
- **F50** (C23): `aoclsparse_optimize_ilu` releases `lu_diag_ptr` when its second allocation fails but leaves the pointer in the handle; `aoclsparse_destroy` releases it again (`C23_optimize_ilu_double_release`).
- **F51** (C23): `aoclsparse_convert_bsr` ignores the status of `aoclsparse_create_mat_descr` and goes on with an uninitialised descriptor (`C23_convert_bsr_no_descriptor`); when `push_back` fails the three arrays are released by the caller and again by the destructor of the object (`C23_convert_bsr_double_release`); when the object cannot be allocated the caller is left with a handle without objects.
- **F52** (C23): `aoclsparse_?_add` does not set its output to null; when the handle of the sum cannot be allocated it deletes whatever the output variable held (`C23_add_deletes_old`).
- **F53** (C23): `aoclsparse_sp2m` with the stage full returns an error but leaves a half-computed handle in the caller's variable when the computation fails (`sp2mDispatch`; it is owned by the caller, so nothing leaks).
- **F54** (C39): aoclsparse_optimize (analysis.cpp:486-511) marks every open hint as acted on before acting. If the work then fails (clean copy: memory, invalid arrays), calling optimize again returns success without doing anything (`C39_failure_forgets`, `C39_retry_counterexample`). The products and solves still give correct results (C21, C27 make their copies on demand); only the announced optimisation is lost. The statement of C39 speaks of repeated calls after a success.
- **F55** (C16): data races. `mv` reads `is_optimized` of the matrix it chose without the lock (mv.cpp:136-138) while a first use by another thread may be writing it under the lock (csr_util.hpp:868); `sorv` reads and writes `opt_csr_full_diag` without the lock (sorv.hpp:197,209) while a first use writes it. Undefined by the C++ memory model; under sequentially consistent memory all results are still right (`C16_flagged`). `syrk`, `syrkd` and `sypr` also read `sort` without the lock (not modelled). Witnesses: `C16_mv_race_counterexample`, `C16_sorv_race_counterexample`.
- **F56** (C36): csrmv.hpp:170, 198, 249, 363, 399: the tables of transposed, symmetric and Hermitian products declare a 256-bit kernel as GENERIC (comment: "Replace with reference"). On a machine without AVX2, or with GENERIC requested, that kernel is chosen and run. `C36_noref_counterexample`.
- **F57** (C36): aoclsparse_enable_instructions("ENV") never reads AOCL_ENABLE_INSTRUCTIONS: `env_get_var("AOCL_ENABLE_INSTRUCTIONS", "")` deduces T = const char *, for which env_get_var returns the fallback. `C36_env_counterexample`.
- **F58** (C36): Oracle receives the thread's cached kernel by value, so the cache is never filled and each call rescans the table. Were it filled, setting the same preference twice in a row would leave a stale kernel. `C36_cache_stale`.
- **F59** (C40): `aoclsparse_itsol_option_set` lets the exceptions of `std::stoi`/`std::stod` leave the C interface: setting "cg iteration limit" to "many" or to "3000000000" does not return a status (`C40_escape` characterises when; `handle_parse_option` has no try block). Text after the number is ignored ("37 turns" is 37), and integers beyond 32 bits are refused this way in 64-bit-integer builds as well.
- **F60** (C40): the documentation gives 0 as the default of "cg abs tolerance"; `register_options` uses `expected_precision()`, as for "gmres abs tolerance".
- **F61** (C41): `rci_input` during a solve gives up the solve but does not unlock the options: they stay locked until a later solve ends (`C41_input_keeps_lock`).
- **F62** (C41): the limit is tested with `niter > maxit`, so the CG solver does maxit + 1 iterations before it reports the limit (`C41_one_more_iteration`).
- **F63** (C41): the breakdown test `aoclsparse_is_negative_or_nearzero` compares with an absolute threshold (2e-2 eps): a positive definite system with a small right-hand side ends with numerical_error (`C41_small_rhs`).
- **F64** (C41): the monitor of the direct interface is documented to get the iterate x and the residual r; it gets the residual as x and a null pointer as r (`C41_monitor_gets_residual`).
- **F65** (C41): `itsol_symgs`, the built-in preconditioner, reads the diagonal as `aval[idiag[i]]` without subtracting the base of the matrix: wrong entries, and one element past the end, for one-based matrices (modelled in C56, see F92).
- **F66** (C44): creation of a TCSR matrix does not compare the two diagonals; if they differ, the general product uses the lower part's, and the products with either triangle use their own (`C44_two_diagonals`).
- **F67** (C44): the general product with a TCSR matrix exists only for op none in double precision with AVX2; float and machines without AVX2 get `not implemented` (`C44_general_served`).
- **F68** (C42): aoclsparse_convert_bsr of a CSC handle with op = none takes the column arrays for row arrays: a square matrix comes out transposed with status success (`C42_bsr_of_csc`), and one with more rows than columns makes it read past the column pointers (`C42_bsr_of_csc_reads_past`).
- **F69** (C42): aoclsparse_convert_bsr of a matrix without rows or without columns returns success with row pointers that were never written (`C42_bsr_empty`).
- **F70** (C42): aoclsparse_convert_csr does not check op; every value other than none is taken as a transpose (`C42_any_op`). Reading only: the BSR handle's matrix type is left unset; aoclsparse_create_?coo checks neither the base nor uses a counter of the index width.
- **F71** (C32): fully sorted matrices with a column stored twice in a row are accepted at creation, but aoclsparse_syrk (and syrkd, sypr, which share the on-the-fly transposition) loses elements: after the first copy the row is queued for the column that was just passed and is never visited again; the dense-row variant overwrites the first copy by the second (`C32_syrk_duplicates`).
- **F72** (C32, C42): the CSR object inside a handle returned by aoclsparse_syrk keeps the over-estimate as its number of elements, the handle the true number. aoclsparse_convert_csr allocates the latter and copies the former: heap overflow (`C32_convert_overrun`). For handles returned by aoclsparse_sypr the object keeps -1 (reading only).
- **F73** (C49): the second stage of aoclsparse_sypr checks only the dimensions of the handle it is given. After a first stage for another pattern it writes past the end of the arrays (`C49_needs_same_pattern`); into a one-based handle it writes zero-based arrays (`C49_base_ignored`). With empty inputs it returns success and leaves the handle as it was (reading only).
- **F74** (C49, C42, C25): the CSR object inside a handle returned by aoclsparse_sypr keeps -1 as its number of elements; aoclsparse_convert_csr passes it to memcpy (`C49_convert_overrun`); aoclsparse_copy also uses it (reading only).
- **F75** (C49): matrices with a column stored twice in a row: as F71, aoclsparse_sypr loses elements (`C49_duplicates`).
- **F76** (C50): matrices with a column stored twice in a row: as F71, aoclsparse_?syrkd loses elements (`C50_syrkd_duplicates`).
- **F77** (C50): for a matrix A without rows and op a transpose, op(A)·B·op(A)ᴴ is the zero matrix of order n and C should become beta·C; aoclsparse_?syprd returns success and leaves C alone, aoclsparse_?syrkd scales it (`C50_syprd_no_rows`).
- **F78** (C50): aoclsparse_?syprd returns invalid_pointer, not the documented not_implemented, for formats other than CSR and CSC (`C50_syprd_refused`).
- **F79** (C51): aoclsparse_?trsm compares ldb and ldx with 0 only, not with the documented minimum: with a smaller ldx the columns of X overlap, the call succeeds, and the result depends on the order in which the threads solve the columns (`C51_overlap`).
- **F80** (C51): aoclsparse_?trsm returns success without writing X for a matrix without stored entries; with a unit diagonal that matrix is the identity and X should become alpha·B; aoclsparse_?trsv reports invalid_size in the same case (`C51_unit_empty`).
- **F81** (C51; `C71_trsm_race`): all threads of the loop in trsm.hpp:150-157 assign the shared variable `status` without synchronisation (a data race by the language rules; the modelled values written are all equal, `C51_trsm`, `C51_singular`).
- **F82** (C52): the early end of an inner iteration (the new vector has norm below a tolerance, itsol_functions.hpp:1115-1135) returns success without updating x and reports that norm as the residual norm: for the identity matrix and b = (3, 4) with all options at their defaults the solver returns success with x = 0 and residual norm 0 (`C52_breakdown_success`). In exact arithmetic a solve with restart ≥ n never changes x (`C52_no_update`).
- **F83** (C52): a start vector that solves the system (also x = 0 with b = 0 when the absolute tolerance is positive) is not recognised, because the tests ask for a residual norm above zero; the solver divides by the norm and x becomes NaN (`C52_exact_start`).
- **F84** (C52): with complex scalars the update of x uses `cblas_dotc`, which conjugates the basis vectors: x moves in the wrong direction, the residual can grow, and the reported norm is not the norm of the residual (`C52_complex_diverges`). By reading: the rotations use s where complex rotations need its conjugate.
- **F85** (C52): rinfo[1], documented as the norm of the right-hand side, holds the relative tolerance times the norm (itsol_functions.hpp:1001; `C52_rhs_norm`).
- **F86** (C52): the number of inner iterations is not reset at the start of a solve: after a solve stopped by the user, a new solve with the same right-hand side starts in the middle of a cycle with stale basis vectors (`C52_stale_iteration`). By reading: after a numerical error it equals restart, and the next solve writes past the arrays; a changed "gmres restart iterations" is ignored until a new right-hand side is set.
- **F87** (C52, by reading): between inner iterations the reported residual norm is |g[j]| of the finished rotation, not |g[j+1]|; at the monitoring step the two pointers are left from the last product, so the direct interface gives its monitor function a basis vector and the product in place of x and the residual (`C52_monitor_gets_basis`); the direct interface ignores the status of the ILU(0) preconditioner.
- **F88** `aoclsparse_?csrsv`, lower: a row is read up to its first entry that is not below the diagonal (csrsv.hpp:117-125 `break`), so rows that are not grouped lose entries and the call reports success (`C53_unsorted_lower`). The upper solve reads whole rows and does not depend on the order.
- **F89** `aoclsparse_?csrsv`: the position of the diagonal entry is not reset from row to row (csrsv.hpp:102, 147). A row without a diagonal entry is divided by the diagonal of a row solved before (for the first row: by entry 0 of the matrix) and success is reported (`C53_missing_diagonal`). A zero diagonal entry is not detected either.
- **F90** `aoclsparse_?csrsv`: the diagonal type `zero` acts as `unit` (`C53_zero_diagonal`), and a symmetric descriptor is accepted although only the triangular system of the selected half is solved (`C53_symmetric_not_solved`); the documentation says that a type other than general is not implemented.
- **F91** The result of a matrix-vector product depends on the kernel that was selected (CPU features, requested kernel id, instruction-set override): the orders of summation differ, so the same call can return different bits on two machines (`C54_kernels_differ`). For a fixed kernel the result does not depend on the number of threads (`C54_reproducible`); in contrast the transposed kernel adds the buffers of the threads in the order in which they enter the critical section (csrmv_kt.cpp:196-203), which is not reproducible in floating-point arithmetic (`C54_transpose_order`).
- **F92** The built-in symmetric Gauss-Seidel preconditioner of CG reads past the end of the values for one-based matrices. A clean copy made in place keeps the user's base (aoclsparse_csr_csc_optimize), and aoclsparse_itsol_symgs (itsol_functions.hpp:452-453) reads `aval[idiag[i]]` without subtracting it. For one-based arrays grouped by triangle with full diagonal, the scaling uses the entry after the diagonal, and the last row reads `aval[nnz]`. One-based arrays that are not grouped get a zero-based copy and are solved correctly. C56_one_based_reads_outside, C56_one_based_example, C56_copy_base.
- **F93** (C57) GMRES drops the status of the ILU(0) smoother (itsol_functions.hpp:1586-1594). When the smoother refuses the matrix (symmetric, triangular or Hermitian descriptor, missing diagonal entries, unsorted rows) or meets a small pivot, the output vector keeps the zeros of its creation, the first product is zero, and the early end of F82 returns success with x unchanged and 0 as the norm of the residual. `C57_refused`: this is so for every such matrix and every start vector that is not the solution.
- **F94** (C57) When the incomplete factors are exact (no fill-in outside the pattern: tridiagonal, triangular, or full matrices), GMRES with the built-in preconditioner returns success with x unchanged and 0 as the norm of the residual, for every start vector that is not the solution: the first product is the first basis vector itself, and the early end of F82 does not update x. `C57_exact`.
- **F95** `aoclsparse_sp2m` with `aoclsparse_stage_finalize` checks the value types of A and B but not that of C (csr2m.cpp:311-408; the dispatch sp2m.cpp:40-49 looks at A and B): a C made by the counting stage for float matrices and finalized with double matrices of the same pattern gets 8-byte values written into a buffer of 4-byte values, beyond its end. C61_finalize characterises the defined calls; `finTypes .d .d .s 1 = none`.
- **F96** (C62): `aoclsparse_set_mat_diag` rewrites the diagonal of the shared full copy and then its mark `mtx_diag` with no lock (mv.cpp:221-226) or a shared lock (csrmm.hpp:625). Two concurrent products on one handle, one with a unit and one with a zero diagonal, can both compute with a mixed diagonal, and leave values that do not belong to the mark: later calls with the marked type, alone, go on computing wrong results until a call with another type rewrites the diagonal (`C62_mixed_counterexample`, `C62_recover`). With one type the values are right but two calls may write the same element at once (`C62_race_counterexample`).
- **F97** (C63): `aoclsparse_csr_csc_optimize` (csr_util.hpp:902-924) ignores the status of `aoclsparse_sort_idx_val`. When the permutation (csr_util.hpp:120-128) cannot be allocated, the clean copy keeps its unsorted rows, is marked optimized, and the call goes on with success: a unit triangular solve returns a wrong result with success, now and in every later call with enough memory (`C63_sort_counterexample`).
- **F98** (C63): `aoclsparse_optimize_mv` (analysis.cpp:168-179) ignores the status of `aoclsparse_csr2blkcsr`. When the temporary row pointers (convert.cpp:195-202) cannot be allocated, the block copy is put into the handle uninitialised and optimize returns success; later products multiply with garbage or read outside the arrays (`C63_block_counterexample`).
- **F99** (C63): `csrmvt_kt` (csrmv_kt.cpp:96-207) scales y by beta before the threads allocate their buffers and merges the buffers that could be allocated. It returns memory_error with y overwritten, so the call cannot be repeated (`C63_transposed_counterexample`).
- **F100** `aoclsparse_?add` does not reset `*C` at entry. If the allocation of the result handle fails (csradd.hpp:505), the handler deletes whatever `*C` pointed to before the call (line 516), a matrix of the caller or an indeterminate pointer. `C65_add_deletes`.
- **F101** A thread of the counting stage of `aoclsparse_?add` that runs out of memory (csradd.hpp:69-72) makes the call return internal_error instead of memory_error (line 208). `C65_add_internal_error`.
- **F102** A full call of sp2m that runs out of memory in its value stage returns memory_error and leaves a non-null handle in `*C`, whose arrays have indeterminate contents (csr2m.cpp:538-592); other failing calls leave `*C` null. It must be destroyed or finalized, and must not be used otherwise. `C65_full_leaves_handle`.
- **F103** (C69) csrmm_kt.cpp:293-356: in row-major order the vector kernel computes `(alpha*a)*b + c` in the columns that fill its registers and `c + (a*b)*alpha` in the remaining `n % K`. Equal columns of B can give columns of C that differ in the last bits, and a column changes its value with the number of columns in the call. The column-major kernels and the scalar ones do not have this effect. Theorems `C69_row_columns_counterexample`, `C69_row_alone_counterexample`.
- **F104** (C70) csrmv_kt.cpp:196-203: the buffers of the threads are added to y in the order in which the threads reach the critical section. With three threads (or two, if beta is not zero) the same call on the same data can give results that differ in the last bits; `C70_order_counterexample` has two runs that end with 12 and 10 in three-digit arithmetic. The non-transposed product does not have this property (C54_reproducible).
* F105 (C77) Block CSR products multiply every element of x inside a block by the value stored or by zero: an infinity or NaN in an element of x for which the matrix has no entry makes the result NaN, unlike the CSR product (`C77_nan_counterexample`).
* F106 (C78) syprd multiplies the elements of A by alpha when the arrays are row-major and the sums of products by alpha when they are column-major: the same call on the same data gives different bits in the two layouts (`C78_layout_counterexample`).
* F107 (C18) csrmv_kt.cpp:146-147: the rows of a thread are `m * tid / nthreads` in aoclsparse_int. If m times the number of threads is above its range (2^25 rows and 64 threads with 32-bit integers) the product overflows and the call is undefined, although the matrix is representable (`C18_split_overflow`; otherwise `C18_split_ok`).
* F108 (C32) syrk.cpp:96-100: the row sums `nnz_row += nnz_count[col] - 1` of the estimate are computed in aoclsparse_int, although the comment before the overflow check says that all arithmetic was 64-bit. A column stored k times in a row adds k(k-1): 50000 copies overflow 32-bit integers, and the call is undefined (`C32_estimate_overflow`). Without repeated columns the sums are at most the number of entries (`C32_estimate_range`).
* F109 (C82) aoclsparse_analysis.cpp:110-127: the sizes of the candidate formats are computed in aoclsparse_int. The size of the blocked format can be four times the number of entries, so that from 2^29 entries on (32-bit integers) aoclsparse_optimize can overflow although the matrix is representable (`C82_stats_overflow`; otherwise `C82_stats_range`).
* F110 (C13, C42) convert.cpp:642-643, 1260-1261, 1352 and convert.hpp:448-449: `m + block_dim - 1` and `bsr_nnz * block_dim * block_dim` are evaluated in aoclsparse_int and no check bounds block_dim. aoclsparse_csr2bsr_nnz with two rows and the largest block size is undefined (`C13_count_overflow`); aoclsparse_convert_bsr allocates the values by a 64-bit size but clears them in a loop whose bound overflows, for one block of size 46341 with 32-bit integers (`C42_zero_range`).
* F111 (C37) itsol_functions.hpp:111: the guard of the working arrays of GMRES is called with `m + 1`, evaluated in aoclsparse_int. The option "gmres restart iterations" accepts every value from 1 on; with the largest integer the operand overflows before the guard is evaluated (`C37_gmres_guard_overflow`; otherwise `C37_gmres_sizes`).
* F112 (C12) convert.cpp:542, convert.hpp:340, 359, 380: `m + n` and `i + m * diag_idx[offset]` are evaluated in aoclsparse_int without a check. A matrix of 2^30 rows and columns, or one of 65536 rows with 40000 diagonals (as few entries), cannot be converted with 32-bit integers: the calls are undefined (`C12_dia_overflow`, `C12_dia_put_overflow`; otherwise `C12_dia_range`).
* F113 (C09, C10) convert.hpp:86, 162-171: the positions `i * ell_width` (ELL) and `k * m + i` (transposed ELL) are evaluated in aoclsparse_int without a check. A matrix of 65537 rows with one row of 65536 entries (as few as 65536 entries) cannot be converted to ELL with 32-bit integers: the call is undefined (`C09_ell_overflow`, `C10_ellt_overflow`; otherwise `C09_ell_range`, `C10_ellt_range`).
