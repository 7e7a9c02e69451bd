{
 "claims": [
  {
   "property": "C01",
   "status": "proved",
   "theorems": [
    "Verif.C01_effective_sound",
    "Verif.C01_effective_defined",
    "Verif.C01_invalid_not_absorbing"
   ],
   "note": "soundness against the matrix-operator semantics of Spec/Operator; exact domain of definedness; finding: the invalid id is not absorbing"
  },
  {
   "property": "C02",
   "status": "proved",
   "theorems": [
    "Verif.C02_getDoid_meaning",
    "Verif.C02_getDoid_valid",
    "Verif.C02_getDoid_bad_op",
    "Verif.C02_getDoid_injective",
    "Verif.C02_involutive",
    "Verif.C02_invalid",
    "Verif.C02_trans_conj_meaning"
   ],
   "note": ""
  },
  {
   "property": "C03",
   "status": "proved",
   "theorems": [
    "Verif.C03_createCsr",
    "Verif.C03_createCsc",
    "Verif.C03_valid_iff_wf",
    "Verif.C03_rejects_bad_args",
    "Verif.C03_fast_check",
    "Verif.C03_createCoo",
    "Verif.C03_base_not_validated"
   ],
   "note": "iff for CSR, CSC and COO; no out-of-bounds read (result is never UB); finding: base enum is not validated"
  },
  {
   "property": "C04",
   "status": "proved",
   "theorems": [
    "Verif.C04_classification",
    "Verif.C04_classification_csc"
   ],
   "note": ""
  },
  {
   "property": "C05",
   "status": "proved",
   "theorems": [
    "Verif.C05_csr2csc",
    "Verif.C05_csr2csc_entry"
   ],
   "note": "aoclsparse_csr2csc_template at array level, quick return included"
  },
  {
   "property": "C06",
   "status": "proved",
   "theorems": [
    "Verif.C06_coo2csr"
   ],
   "note": "aoclsparse_coo2csr_template at array level"
  },
  {
   "property": "C07",
   "status": "proved",
   "theorems": [
    "Verif.C07_double_transpose"
   ],
   "note": "two calls of csr2csc"
  },
  {
   "property": "C08",
   "status": "proved",
   "theorems": [
    "Verif.C08_csr2dense",
    "Verif.C08_get_eq_entry",
    "Verif.C08_not_implemented",
    "Verif.C08_duplicates_last_wins",
    "Verif.C08_rectangular_writes_padding"
   ],
   "note": "all mtypes, fills, diagonal kinds and layouts the code supports; square for non-general types; no duplicate entries (finding: duplicates are overwritten)"
  },
  {
   "property": "C09",
   "status": "proved",
   "theorems": [
    "Verif.C09_width",
    "Verif.C09_csr2ell",
    "Verif.C09_ellmv",
    "Verif.C09_beta_zero",
    "Verif.C09_zero_width_keeps_y",
    "Verif.C09_ell_range",
    "Verif.C09_ell_overflow"
   ],
   "note": "product proved for both kernels; finding: width 0 leaves y unscaled C09_ell_range and C09_ell_overflow: the conversion in the integer type of the library."
  },
  {
   "property": "C10",
   "status": "proved",
   "theorems": [
    "Verif.C10_csr2ellt",
    "Verif.C10_elltmv",
    "Verif.C10_empty_first_row_ub",
    "Verif.C10_ellt_range",
    "Verif.C10_ellt_overflow"
   ],
   "note": "first row non-empty is needed and the complement is proved to be undefined behaviour C10_ellt_range and C10_ellt_overflow: the conversion in the integer type of the library."
  },
  {
   "property": "C11",
   "status": "proved",
   "theorems": [
    "Verif.C11_width",
    "Verif.C11_csr2ellthybrid",
    "Verif.C11_ellthybmv"
   ],
   "note": ""
  },
  {
   "property": "C12",
   "status": "proved",
   "theorems": [
    "Verif.C12_ndiag",
    "Verif.C12_csr2dia",
    "Verif.C12_same_matrix",
    "Verif.C12_diamv",
    "Verif.C12_end_to_end",
    "Verif.C12_dirty_buffer",
    "Verif.C12_no_columns",
    "Verif.C12_dia_range",
    "Verif.C12_dia_overflow",
    "Verif.C12_dia_put_overflow"
   ],
   "note": "counting, conversion and all DIA product kernels; C12_dirty_buffer and C12_no_columns record two caveats (F15) C12_dia_range, C12_dia_overflow and C12_dia_put_overflow (one entry): the conversion in the integer type of the library."
  },
  {
   "property": "C13",
   "status": "proved",
   "theorems": [
    "Verif.C13_csr2bsr",
    "Verif.C13_nnz_checks",
    "Verif.C13_nnz_empty",
    "Verif.C13_dirty_buffer",
    "Verif.C13_count_range",
    "Verif.C13_count_overflow"
   ],
   "note": "Counting, row pointers, conversion in both block orders, sorted blocks, exactly the populated blocks, same matrix. The value buffer must be zeroed by the caller (C13_dirty_buffer, F16). C13_count_range and C13_count_overflow: the numbers of blocks in the integer type of the library."
  },
  {
   "property": "C14",
   "status": "proved",
   "theorems": [
    "Verif.C14_csr2blkcsr",
    "Verif.C14_opt_blksize",
    "Verif.C14_blkcsrmv",
    "Verif.C14_csr_blk_mv",
    "Verif.C14_duplicates_break",
    "Verif.C14_unsorted_undefined",
    "Verif.C14_empty_no_beta"
   ],
   "note": "Masks decode to exactly the CSR rows; product over any semiring (exact arithmetic). Percentages of opt_blksize abstracted to arbitrary booleans."
  },
  {
   "property": "C15",
   "status": "proved",
   "theorems": [
    "Verif.C15_clean_copy",
    "Verif.C15_same_matrix",
    "Verif.C15_rejects",
    "Verif.C15_comparator_not_strict"
   ],
   "note": "std::sort enters as the hypothesis StdSort, proved satisfiable"
  },
  {
   "property": "C16",
   "status": "proved",
   "theorems": [
    "Verif.Props.C16_single",
    "Verif.Props.C16_flagged",
    "Verif.Props.C16_built_once",
    "Verif.Props.C16_flags",
    "Verif.Props.C16_errors",
    "Verif.Props.C16_race_free",
    "Verif.Props.C16_no_deadlock",
    "Verif.Props.C16_terminates",
    "Verif.Props.C16_clean",
    "Verif.Props.C16_mv_race_counterexample",
    "Verif.Props.C16_sorv_race_counterexample"
   ],
   "note": "Every number of threads, every interleaving of single accesses to shared memory, failing allocations included, sequentially consistent memory. Race freedom (which makes sequential consistency enough) for the operations that go straight to the copy; mv and sorv do race (F55)."
  },
  {
   "property": "C17",
   "status": "proved",
   "theorems": [
    "Verif.C17_value",
    "Verif.C17_kernels",
    "Verif.C17_beta_zero",
    "Verif.C17_schedule"
   ],
   "note": "exact arithmetic for values; beta=0 and bounds are law-free"
  },
  {
   "property": "C18",
   "status": "proved",
   "theorems": [
    "Verif.C18_transpose",
    "Verif.C18_conj_transpose",
    "Verif.C18_transpose_kt",
    "Verif.C18_smaller_team_loses_rows",
    "Verif.C18_split_ok",
    "Verif.C18_split_overflow"
   ],
   "note": "for a team of the requested size; a smaller team is proved to lose rows. C18_split_ok and C18_split_overflow: the row bounds in the integer type of the library."
  },
  {
   "property": "C19",
   "status": "proved",
   "theorems": [
    "Verif.C19_symmetric",
    "Verif.C19_symmetric_conj",
    "Verif.C19_hermitian",
    "Verif.C19_hermitian_conj",
    "Verif.C19_hermitian_trans",
    "Verif.C19_public_symmetric",
    "Verif.C19_public_empty_first_row",
    "Verif.C19_public_needs_lower"
   ],
   "note": "conjugate transpose of a Hermitian matrix needs the real diagonal such a matrix has"
  },
  {
   "property": "C20",
   "status": "proved",
   "theorems": [
    "Verif.C20_triangular",
    "Verif.C20_transpose",
    "Verif.C20_conj_transpose",
    "Verif.C20_avx2",
    "Verif.C20_avx2_loses_unit_diagonal",
    "Verif.C20_tall_unit_out_of_bounds",
    "Verif.C20_tall_zero_drops_entry"
   ],
   "note": "the cases where the claim fails are proved to fail"
  },
  {
   "property": "C21",
   "status": "proved",
   "theorems": [
    "Verif.C21_mv",
    "Verif.C21_invalid",
    "Verif.C21_invariant",
    "Verif.C21_optimize",
    "Verif.C21_history",
    "Verif.C21_independent",
    "Verif.C21_diag_status_counterexample",
    "Verif.C21_br4_counterexample",
    "Verif.C21_hybrid_counterexample",
    "Verif.C21_avx512vl_counterexample",
    "Verif.C21_duplicates_counterexample",
    "Verif.C21_conj_counterexample"
   ],
   "note": "Handle = user arrays + list of copies (transposed, full symmetric/Hermitian, clean, ELL hybrid, four-row, block) ; optimize and mv modelled including the choice of copy. Amended statement names the matrices for which the copies are correct; outside it six counterexamples (F33-F37)."
  },
  {
   "property": "C22",
   "status": "proved",
   "theorems": [
    "Verif.C22_invariant",
    "Verif.C22_trsv",
    "Verif.C22_sorv",
    "Verif.C22_mv",
    "Verif.C22_symgs",
    "Verif.C22_set",
    "Verif.C22_update_all",
    "Verif.C22_update",
    "Verif.C22_update_coo",
    "Verif.C22_null_counterexample",
    "Verif.C22_ilu_counterexample",
    "Verif.C22_sorv_counterexample"
   ],
   "note": "Statement amended (F45, F46). Histories of create, optimize, mv, trsv, symgs, sorv, set_value, update_values on CSR/CSC handles; solves and relaxations for all of them, products and symgs if no null pointer is left in the list of copies."
  },
  {
   "property": "C23",
   "status": "proved",
   "theorems": [
    "Verif.Props.C23_history",
    "Verif.Props.C23_all_released",
    "Verif.Props.C23_step",
    "Verif.Props.C23_destroy",
    "Verif.Props.C23_optimize_ilu_double_release",
    "Verif.Props.C23_convert_bsr_no_descriptor",
    "Verif.Props.C23_convert_bsr_double_release",
    "Verif.Props.C23_add_deletes_old"
   ],
   "note": "memory model Model/Own.lean (heap addresses never reused; releasing a dead address or an array of the caller is undefined behaviour): every history of create, hint, optimize and execution steps, update, order, copy, convert, syrk, sypr, add, sp2m, sp2md, destroy and solver calls, each with any pattern of failing allocations, runs, and what is live is exactly what the handles own, each address once; destroying everything leaves nothing. Excluded by hypothesis, and shown false of the code: failing allocations inside optimize with an ILU hint and inside convert_bsr, and add with an output variable that is not null"
  },
  {
   "property": "C24",
   "status": "proved",
   "theorems": [
    "Verif.C24_csr",
    "Verif.C24_csc",
    "Verif.C24_symmetric_counterexample"
   ],
   "note": "Statement amended (F48)."
  },
  {
   "property": "C25",
   "status": "proved",
   "theorems": [
    "Verif.C25_copy",
    "Verif.Props.C25_copy_holds",
    "Verif.Props.C25_source_never_shows",
    "Verif.Props.C25_copy_never_shows",
    "Verif.Props.C25_step"
   ],
   "note": "C25_copy: the copy has the same matrix (list model of the data); C25_copy_holds: its arrays are new and hold what those of the source hold; C25_source_never_shows / C25_copy_never_shows: no later history of calls on one shows in the other, nor do changes by the caller of the arrays the source was made from"
  },
  {
   "property": "C26",
   "status": "proved",
   "theorems": [
    "Verif.C26_order",
    "Verif.C26_matrix",
    "Verif.C26_csc_counterexample"
   ],
   "note": "Statement amended (F47). The handle is shown correct after ordering if it holds no copy in another format than CSR/CSC."
  },
  {
   "property": "C27",
   "status": "proved",
   "theorems": [
    "Verif.C27_kernel",
    "Verif.C27_trsv",
    "Verif.C27_missing_diagonal",
    "Verif.C27_alpha_zero",
    "Verif.C27_alpha_zero_wrong",
    "Verif.C27_duplicates_wrong",
    "Verif.C27_handle",
    "Verif.C27_handle_keeps"
   ],
   "note": "API level: aoclsparse_?trsv on CSR and CSC handles (TCSR handles are not covered here), reference and vectorised kernels, all 8 triangular operations, strided vectors; vectorised transposed kernels need alpha != 0 and no duplicate entries (counterexamples proved otherwise, findings F20, F21). C27_handle: the same on a handle with any history of copies."
  },
  {
   "property": "C28",
   "status": "proved",
   "theorems": [
    "Verif.C28_full",
    "Verif.C28_count",
    "Verif.C28_two_stage",
    "Verif.C28_too_large",
    "Verif.C28_size",
    "Verif.C28_needs_same_pattern",
    "Verif.C28_thread_overflow"
   ],
   "note": "Proved for every pair of well-formed CSR/CSC handles (any base, order, duplicates allowed), all nine operation pairs, real and complex, any team size and execution order (with rows*threads inside the integer range, see F24) and arbitrary contents of fresh memory. Two-stage histories are the inductive predicate Reach: count or full, then any number of finalize calls with new values of the same pattern. C28_needs_same_pattern shows what happens otherwise (F25)."
  },
  {
   "property": "C29",
   "status": "proved",
   "theorems": [
    "Verif.C29_add",
    "Verif.C29_size",
    "Verif.C29_too_large",
    "Verif.C29_needs_nodup",
    "Verif.C29_needs_nodup_value",
    "Verif.C29_needs_full_team",
    "Verif.C29_thread_overflow"
   ],
   "note": "Full API path (dispatch, orientation of CSC inputs, counting, prefix sum, main region) for every op, base, thread count and thread order. Preconditions B without duplicate positions, a delivered team of the requested size, and M*threads within range are shown necessary (F22-F24)."
  },
  {
   "property": "C30",
   "status": "proved",
   "theorems": [
    "Verif.C30_sp2md",
    "Verif.C30_spmmd",
    "Verif.C30_beta_zero",
    "Verif.C30_rejected",
    "Verif.C30_status",
    "Verif.C30_null_descr_counterexample",
    "Verif.C30_bad_operation_counterexample"
   ],
   "note": "All operations, CSR/CSC storage, bases, layouts. Null descriptors (F31) and undefined operation codes (F32) are not checked by the code."
  },
  {
   "property": "C31",
   "status": "proved",
   "theorems": [
    "Verif.C31_csrmm",
    "Verif.C31_empty",
    "Verif.C31_invalid_size",
    "Verif.C31_thread_overflow",
    "Verif.C31_zero_inner_counterexample"
   ],
   "note": "all kernels of the dispatch table (reference, vectorised col/row), all thread counts and chunk schedules, copies looked up and re-diagonalised; dimensions times threads must fit the integer type (C31_thread_overflow shows what happens otherwise). Copies must satisfy CopyOk; setMatDiag_ok proves changing the diagonal preserves it."
  },
  {
   "property": "C32",
   "status": "proved",
   "theorems": [
    "Verif.C32_syrk",
    "Verif.C32_syrk_refused",
    "Verif.C32_syrk_duplicates",
    "Verif.C32_convert_overrun",
    "Verif.C32_estimate_range",
    "Verif.C32_estimate_range_t",
    "Verif.C32_estimate_overflow"
   ],
   "note": "Includes the on-the-fly transposition (linked lists per column), the dense-row variant, the explicit transposition and the bound on the number of elements. C32_syrk_duplicates shows why repeated entries are excluded (the code drops them); C32_convert_overrun: a result handed to aoclsparse_convert_csr makes it write past its arrays. C32_estimate_range, C32_estimate_range_t and C32_estimate_overflow: the row sums of the estimate in the integer type of the library."
  },
  {
   "property": "C33",
   "status": "proved",
   "theorems": [
    "Verif.C33_gather",
    "Verif.C33_gatherz",
    "Verif.C33_scatter",
    "Verif.C33_gather_scatter",
    "Verif.C33_axpyi",
    "Verif.C33_roti",
    "Verif.C33_dot",
    "Verif.C33_doti",
    "Verif.C33_gather_rejected",
    "Verif.C33_scatter_rejected",
    "Verif.C33_axpyi_rejected",
    "Verif.C33_roti_rejected",
    "Verif.C33_gather_status",
    "Verif.C33_axpyi_negative",
    "Verif.C33_negative_index_counterexample",
    "Verif.C33_axpyi_repeated_counterexample",
    "Verif.C33_doti_null",
    "Verif.C33_dot_empty"
   ],
   "note": "Reference and vectorised kernels (any register width), indexed and strided variants. Distinct indices needed for gatherz/axpyi/roti (F29). Negative indices are only detected by the reference kernels (F28). doti with null vectors returns an uninitialised value (F30)."
  },
  {
   "property": "C34",
   "status": "proved",
   "theorems": [
    "Verif.C34_ilu",
    "Verif.C34_history",
    "Verif.C34_invalid",
    "Verif.C34_retry_counterexample",
    "Verif.C34_partially_sorted_counterexample",
    "Verif.C34_csc_counterexample"
   ],
   "note": "Factorisation, both solves, handle state and argument checks; any field, near-zero test left open. Amended statement: lower parts of the rows ascending, CSR handle, no earlier failed factorisation; counterexamples F38-F40."
  },
  {
   "property": "C35",
   "status": "proved",
   "theorems": [
    "Verif.C35_symgs",
    "Verif.C35_symgs_no_diag",
    "Verif.C35_symgs_rejected",
    "Verif.C35_sorv",
    "Verif.C35_sorv_bad_diag",
    "Verif.C35_sorv_keeps",
    "Verif.C35_sorv_rejected",
    "Verif.C35_invariant",
    "Verif.C35_history",
    "Verif.C35_sorv_history",
    "Verif.C35_hermitian_csc_counterexample",
    "Verif.C35_symmetric_conj_counterexample",
    "Verif.C35_empty_counterexample",
    "Verif.C35_zero_diag_counterexample",
    "Verif.C35_real_hermitian_counterexample",
    "Verif.C35_sorv_history_counterexample",
    "Verif.C35_sorv_csc_counterexample"
   ],
   "note": "Over any field with conjugation; histories of optimize, mv, trsv, symgs and sorv on one handle. The limits of the claim are the counterexamples (F41-F44)."
  },
  {
   "property": "C36",
   "status": "proved",
   "theorems": [
    "Verif.Props.C36_kid",
    "Verif.Props.C36_auto",
    "Verif.Props.C36_supported",
    "Verif.Props.C36_auto_succeeds",
    "Verif.Props.C36_tables",
    "Verif.Props.C36_tables_auto",
    "Verif.Props.C36_choice",
    "Verif.Props.C36_trsv",
    "Verif.Props.C36_history",
    "Verif.Props.C36_preference_runs",
    "Verif.Props.C36_getSupported",
    "Verif.Props.C36_arch",
    "Verif.Props.C36_noref_counterexample",
    "Verif.Props.C36_env_counterexample",
    "Verif.Props.C36_cache_stale"
   ],
   "note": "Oracle, context constructor, ISA hint, enable_instructions, library tables. F56, F57: counterexamples proved."
  },
  {
   "property": "C37",
   "status": "proved",
   "theorems": [
    "Verif.C37_product_sound",
    "Verif.C37_product_exact",
    "Verif.C37_product_not_exact_at_min",
    "Verif.C37_product_inexact_iff",
    "Verif.C37_sum_exact",
    "Verif.C37_sum_vacuous_ilp64",
    "Verif.C37_gmres_sizes",
    "Verif.C37_gmres_guard_overflow",
    "Verif.C37_row_pointers"
   ],
   "note": " C37_gmres_sizes and C37_gmres_guard_overflow: the guard as GMRES uses it; at the largest restart length its operand overflows first. C37_row_pointers: the 64-bit running sum with truncated stores and its check."
  },
  {
   "property": "C38",
   "status": "proved",
   "theorems": [
    "Verif.Props.C38_set",
    "Verif.Props.C38_history",
    "Verif.Props.C38_legal",
    "Verif.Props.C38_use_after_destroy"
   ],
   "note": "Every setter on every heap of descriptors; histories with any number of descriptors, null and aliased pointers, failed creations, copies and destructions. Spec/DescrHist.lean defines the value last accepted from the calls alone."
  },
  {
   "property": "C39",
   "status": "proved",
   "theorems": [
    "Verif.Props.C39_hint",
    "Verif.Props.C39_hint_null",
    "Verif.Props.C39_history",
    "Verif.Props.C39_kid",
    "Verif.Props.C39_optimize_settles",
    "Verif.Props.C39_idempotent",
    "Verif.Props.C39_stable",
    "Verif.Props.C39_failure_forgets",
    "Verif.Props.C39_retry_counterexample"
   ],
   "note": "All hint functions with arbitrary arguments and failing allocation; histories of hints, memory hints and optimize calls on CSR/CSC handles. Idempotence holds after a successful optimize; after a failed one the hints are forgotten (F54)."
  },
  {
   "property": "C40",
   "status": "proved",
   "theorems": [
    "Verif.Props.C40_history",
    "Verif.Props.C40_bounds",
    "Verif.Props.C40_key",
    "Verif.Props.C40_names",
    "Verif.Props.C40_stoi",
    "Verif.Props.C40_escape"
   ],
   "note": "Registry, constructors, PrepareString, setters, getters, handle_parse_option and register_options are modelled; std::stod is a parameter. C40_history refines every sequence of calls (set, lock, unlock) to the documented table of Spec/Opts; the integer reader is characterised in C40_stoi."
  },
  {
   "property": "C41",
   "status": "proved",
   "theorems": [
    "Verif.Props.C41_talk",
    "Verif.Props.C41_order",
    "Verif.Props.C41_terminates",
    "Verif.Props.C41_status",
    "Verif.Props.C41_step",
    "Verif.Props.C41_residual",
    "Verif.Props.C41_exact",
    "Verif.Props.C41_input",
    "Verif.Props.C41_input_refused",
    "Verif.Props.C41_input_keeps_lock",
    "Verif.Props.C41_direct",
    "Verif.Props.C41_mv",
    "Verif.Props.C41_options",
    "Verif.Props.C41_monitor_gets_residual",
    "Verif.Props.C41_one_more_iteration",
    "Verif.Props.C41_small_rhs"
   ],
   "note": "C41_talk refines the calls to the dialogue of Spec/Cg for all replies, handles and garbage; the other theorems are about that dialogue. Norms and the threshold of the breakdown test are parameters (Num); C41_exact asks for exact ones. The built-in symmetric Gauss-Seidel preconditioner of the direct interface is a parameter of C41_direct; its product is C21_mv (C41_mv)."
  },
  {
   "property": "C42",
   "status": "proved",
   "theorems": [
    "Verif.C42_convert_csr",
    "Verif.C42_convert_csr_mat",
    "Verif.C42_convert_coo",
    "Verif.C42_convert_coo_mat",
    "Verif.C42_round_trip",
    "Verif.C42_convert_csr_refused",
    "Verif.C42_any_op",
    "Verif.C42_create_coo",
    "Verif.C42_convert_bsr",
    "Verif.C42_convert_bsr_refused",
    "Verif.C42_bsr_of_csc",
    "Verif.C42_bsr_of_csc_reads_past",
    "Verif.C42_bsr_empty",
    "Verif.C42_zero_range"
   ],
   "note": "Any content of uninitialised memory. C42_bsr_of_csc, C42_bsr_of_csc_reads_past and C42_bsr_empty show why the excluded cases of convert_bsr are excluded: the code is wrong there. C42_any_op: convert_csr does not check op. C42_zero_range: clearing the values of a new BSR matrix in the integer type of the library."
  },
  {
   "property": "C43",
   "status": "proved",
   "theorems": [
    "Verif.C43_transform",
    "Verif.C43_not_square",
    "Verif.C43_diag_restore",
    "Verif.C43_same_product",
    "Verif.C43_duplicate_diagonal_counterexample"
   ],
   "note": "matrix_transform/convert_mat_to_general/set_mat_diag modelled function by function; hypothesis of at most one stored diagonal entry per row is necessary (counterexample, F27)."
  },
  {
   "property": "C44",
   "status": "proved",
   "theorems": [
    "Verif.C44_create",
    "Verif.C44_created",
    "Verif.C44_create_refused",
    "Verif.C44_mv",
    "Verif.C44_mv_one_matrix",
    "Verif.C44_same_as_csr",
    "Verif.C44_mv_complex",
    "Verif.C44_mv_invalid",
    "Verif.C44_trsv",
    "Verif.C44_two_diagonals",
    "Verif.C44_general_served"
   ],
   "note": "Nothing is assumed of the uninitialised position arrays. `hav` in C44_mv: the AVX2 kernel of a unit upper triangle (C20_avx2). C44_two_diagonals and C44_general_served record what the format does not do."
  },
  {
   "property": "C45",
   "status": "proved",
   "theorems": [
    "Verif.C45_set",
    "Verif.C45_set_coo",
    "Verif.C45_range",
    "Verif.C45_rejected",
    "Verif.C45_matrix",
    "Verif.C45_duplicate_counterexample"
   ],
   "note": "Statement amended (F49)."
  },
  {
   "property": "C46",
   "status": "proved",
   "theorems": [
    "Verif.C46_dotmv",
    "Verif.C46_invalid"
   ],
   "note": "Composition of mv on a handle with any correct copies and the dense dot kernels. x and y are distinct arrays (restrict)."
  },
  {
   "property": "C47",
   "status": "proved",
   "theorems": [
    "Verif.C47_bsrmv",
    "Verif.C47_csr_bsr_mv",
    "Verif.C47_empty_no_beta",
    "Verif.C47_refused"
   ],
   "note": "All kernels (generic, unrolled scalar, vector of any register width). Exact arithmetic over commutative semirings. Empty block dimensions skip beta (C47_empty_no_beta, F17)."
  },
  {
   "property": "C48",
   "status": "proved",
   "theorems": [
    "Verif.Props.C48_threads"
   ],
   "note": "closed form included"
  },
  {
   "property": "C49",
   "status": "proved",
   "theorems": [
    "Verif.C49_full",
    "Verif.C49_count",
    "Verif.C49_finalize",
    "Verif.C49_fits",
    "Verif.C49_refused",
    "Verif.C49_refused_dims",
    "Verif.C49_needs_same_pattern",
    "Verif.C49_base_ignored",
    "Verif.C49_convert_overrun",
    "Verif.C49_duplicates"
   ],
   "note": "C49_fits gives sizes for which the counts always fit. The last four are findings: why the second stage needs the same pattern, why repeated entries are excluded, a base that is not checked, and a result that cannot be converted."
  },
  {
   "property": "C50",
   "status": "proved",
   "theorems": [
    "Verif.C50_syrkd",
    "Verif.C50_syrkd_refused",
    "Verif.C50_syprd",
    "Verif.C50_syprd_refused",
    "Verif.C50_syrkd_duplicates",
    "Verif.C50_syprd_no_rows"
   ],
   "note": "The last two are findings: why repeated entries are excluded for syrkd and matrices without rows for syprd. C50_syprd_refused records invalid_pointer for formats other than CSR and CSC, where the documentation says not_implemented."
  },
  {
   "property": "C51",
   "status": "proved",
   "theorems": [
    "Verif.C51_trsm",
    "Verif.C51_schedule",
    "Verif.C51_tcsr",
    "Verif.C51_tcsr_refused",
    "Verif.C51_singular",
    "Verif.C51_refused",
    "Verif.C51_overflow",
    "Verif.C51_row_zero",
    "Verif.C51_empty",
    "Verif.C51_shared",
    "Verif.C51_overlap",
    "Verif.C51_unit_empty"
   ],
   "note": "A step of a schedule is the solve of a whole column (C51_shared shows the columns write nothing they share but the status variable). The last two are findings: why the leading dimension and a stored entry are required."
  },
  {
   "property": "C52",
   "status": "proved",
   "theorems": [
    "Verif.Props.C52_calls",
    "Verif.Props.C52_order",
    "Verif.Props.C52_terminates",
    "Verif.Props.C52_maxit",
    "Verif.Props.C52_again",
    "Verif.Props.C52_direct",
    "Verif.Props.C52_residual",
    "Verif.Props.C52_minimal",
    "Verif.Props.C52_krylov",
    "Verif.Props.C52_monotone",
    "Verif.Props.C52_success",
    "Verif.Props.C52_no_update",
    "Verif.Props.C52_breakdown_success",
    "Verif.Props.C52_rhs_norm",
    "Verif.Props.C52_stale_iteration",
    "Verif.Props.C52_complex_diverges",
    "Verif.Props.C52_exact_start",
    "Verif.Props.C52_monitor_gets_basis"
   ],
   "note": "The protocol theorems hold for all scalars and any replies. The exact-arithmetic theorems (residual ... no_update) ask for exact functions over an ordered field (gmR_exact: the real numbers are one). C52_direct: the direct interface is a solve with the answers of its environment, so the other theorems apply to it. The last six are findings with concrete solves."
  },
  {
   "property": "C53",
   "status": "proved",
   "theorems": [
    "Verif.C53_solve",
    "Verif.C53_unique",
    "Verif.C53_refused",
    "Verif.C53_unsorted_lower",
    "Verif.C53_missing_diagonal",
    "Verif.C53_zero_diagonal",
    "Verif.C53_symmetric_not_solved"
   ],
   "note": "Exact arithmetic over any field. The last four are findings with concrete calls."
  },
  {
   "property": "C54",
   "status": "proved",
   "theorems": [
    "Verif.C54_products_once",
    "Verif.C54_error",
    "Verif.C54_error_gamma",
    "Verif.C54_kernels_agree",
    "Verif.C54_integers_exact",
    "Verif.C54_reproducible",
    "Verif.C54_plain",
    "Verif.C54_kernels",
    "Verif.C54_kernels_differ",
    "Verif.C54_transpose_order"
   ],
   "note": "Standard model of floating-point arithmetic (rounding function with relative error u); real data. C54_products_once and C54_reproducible hold in any arithmetic. C54_plain identifies the kernels with those of C17. C54_kernels_differ: bitwise equality of two kernels is false."
  },
  {
   "property": "C55",
   "status": "proved",
   "theorems": [
    "Verif.C55_products_once",
    "Verif.C55_backward",
    "Verif.C55_residual",
    "Verif.C55_plain",
    "Verif.C55_kernels",
    "Verif.C55_overwrites"
   ],
   "note": "Standard model of floating-point arithmetic; real data. C55_products_once and C55_overwrites hold in any arithmetic. C55_plain identifies the kernels with those of C27. The vectorised transposed kernels need rows without repeated columns and alpha not zero (see C27_alpha_zero, C27 findings)."
  },
  {
   "property": "C56",
   "status": "proved",
   "theorems": [
    "Verif.Props.C56_precond",
    "Verif.Props.C56_copy_base",
    "Verif.Props.C56_one_based_reads_outside",
    "Verif.Props.C56_one_based_example",
    "Verif.Props.C56_precond_refused",
    "Verif.Props.C56_solve"
   ],
   "note": "C56_precond and C56_solve ask for a zero-based clean copy; C56_copy_base says exactly when a solve has one, C56_one_based_reads_outside what happens otherwise (F92). Exact arithmetic for C56_solve."
  },
  {
   "property": "C57",
   "status": "proved",
   "theorems": [
    "Verif.Props.C57_any",
    "Verif.Props.C57_ilu",
    "Verif.Props.C57_refused",
    "Verif.Props.C57_exact",
    "Verif.Props.C57_exact_example",
    "Verif.Props.C57_refused_example"
   ],
   "note": "Exact arithmetic with real entries. C57_refused and C57_exact are the counterexamples to 'success means solved' (F93, F94), for every matrix in question, not one instance."
  },
  {
   "property": "C58",
   "status": "proved",
   "theorems": [
    "Verif.C58_entries",
    "Verif.C58_factors",
    "Verif.C58_backward",
    "Verif.C58_solves",
    "Verif.C58_no_fill",
    "Verif.C58_plain"
   ],
   "note": "Relative errors only: no overflow, no underflow (as in C54 and C55). Real data. C58_plain: with separate products this is the smoother of C34."
  },
  {
   "property": "C59",
   "status": "proved",
   "theorems": [
    "Verif.Props.C59_mul",
    "Verif.Props.C59_complex",
    "Verif.Props.C59_hsum",
    "Verif.Props.C59_dot",
    "Verif.Props.C59_div",
    "Verif.Props.C59_blocks",
    "Verif.Props.C59_registers",
    "Verif.Props.C59_csrmv",
    "Verif.Props.C59_load",
    "Verif.Props.C59_maskz",
    "Verif.Props.C59_set1",
    "Verif.Props.C59_store",
    "Verif.Props.C59_scatter",
    "Verif.Props.C59_lanes"
   ],
   "note": "The meaning of each intrinsic is transcribed from the instruction manual and trusted. The order in which the compiler adds the lanes in _mm512_reduce_add is a parameter; only that it adds all of them is assumed. Half precision and integer registers are not modelled."
  },
  {
   "property": "C60",
   "status": "proved",
   "theorems": [
    "Verif.C60_invariant",
    "Verif.C60_mv",
    "Verif.C60_dotmv",
    "Verif.C60_csrmm",
    "Verif.C60_trsv",
    "Verif.C60_trsm",
    "Verif.C60_symgs",
    "Verif.C60_sorv",
    "Verif.C60_order",
    "Verif.C60_change"
   ],
   "note": "Calls are counted if they end (undefined behaviour, such as arrays shorter than the sizes say, ends the history). Products and smoothing need that no value was changed while the handle held copies, because the list then keeps null pointers (C22_null_counterexample). Ordering is part of a history while the handle holds only CSR objects and no coordinate is stored twice (otherwise F-entries of C26 apply). Inside a solve, the state after a product or built-in preconditioner that fails is the one before it."
  },
  {
   "property": "C61",
   "status": "proved",
   "theorems": [
    "Verif.C61_mv",
    "Verif.C61_dotmv",
    "Verif.C61_csrmm",
    "Verif.C61_trsv",
    "Verif.C61_trsm",
    "Verif.C61_symgs",
    "Verif.C61_sorv",
    "Verif.C61_ilu",
    "Verif.C61_set",
    "Verif.C61_set_coo",
    "Verif.C61_update",
    "Verif.C61_update_coo",
    "Verif.C61_export",
    "Verif.C61_mv_tcsr",
    "Verif.C61_trsv_tcsr",
    "Verif.C61_two_matrices",
    "Verif.C61_finalize"
   ],
   "note": "The value types are a Boolean of the call (same type or not) in the models of the routines. C61_finalize states what is true of the second stage of sp2m, which does not look at the type of C (F95). The iterative solvers on a handle are modelled for the type of the handle only."
  },
  {
   "property": "C62",
   "status": "proved",
   "theorems": [
    "Verif.C62_same",
    "Verif.C62_calm",
    "Verif.C62_any_types",
    "Verif.C62_recover",
    "Verif.C62_progress",
    "Verif.C62_after_optimize",
    "Verif.C62_mixed_counterexample",
    "Verif.C62_race_counterexample"
   ],
   "note": "Sequentially consistent memory, one access per step; the shared lock of csrmm is left out because it excludes no other reader. With different diagonal types the expected property is false (F96): C62_mixed_counterexample; C62_any_types and C62_recover state what is true."
  },
  {
   "property": "C63",
   "status": "proved",
   "theorems": [
    "Verif.C63_invariant",
    "Verif.C63_life",
    "Verif.C63_any",
    "Verif.C63_optimize",
    "Verif.C63_mv",
    "Verif.C63_csrmm",
    "Verif.C63_trsv",
    "Verif.C63_trsm",
    "Verif.C63_symgs",
    "Verif.C63_sort_counterexample",
    "Verif.C63_block_counterexample",
    "Verif.C63_transposed_counterexample"
   ],
   "note": "Each allocation site has its own flag; a site reached several times in one call fails every time or never, except thread buffers and hint copies. sorv, the iterative solvers, set_value and update_values are part of the histories but run with enough memory. The full property is false at two sites whose status is ignored (F97, F98: counterexamples; excluded by Noticed), and y is not preserved in the transposed kernel (F99)."
  },
  {
   "property": "C64",
   "status": "proved",
   "theorems": [
    "Verif.C64_reproducible",
    "Verif.C64_value",
    "Verif.C64_formats_agree",
    "Verif.C64_error",
    "Verif.C64_integers",
    "Verif.C64_needs_sorted"
   ],
   "note": "(d) and (e) are for the real types, without overflow and underflow; the floating-point numbers remember the factors of a product so that the compiler may contract c += a*b or not. Sorted rows are needed for independence of the format (C64_needs_sorted)."
  },
  {
   "property": "C65",
   "status": "proved",
   "theorems": [
    "Verif.C65_plenty",
    "Verif.C65_product",
    "Verif.C65_count",
    "Verif.C65_full_leaves_handle",
    "Verif.C65_add",
    "Verif.C65_add_plenty",
    "Verif.C65_add_deletes",
    "Verif.C65_add_internal_error"
   ],
   "note": "The clause on the output pointer of the sum is needed (C65_add_deletes, F100). A counting thread of the sum without memory is reported as internal_error (F101). A full product that fails in its value stage leaves a non-null handle with indeterminate arrays (F102). Allocations of destructors and of the OpenMP runtime are outside the model."
  },
  {
   "property": "C66",
   "status": "proved",
   "theorems": [
    "Verif.C66_product_counts",
    "Verif.C66_product_values",
    "Verif.C66_product_values_csc",
    "Verif.C66_sum_counts",
    "Verif.C66_sum_values",
    "Verif.C66_race_excluded",
    "Verif.C66_stale_excluded"
   ],
   "note": "Shared cells are sequentially consistent; as every schedule is free of races this is what C++ guarantees. The arrays of the operands are only read in these regions and are constants of the thread programs. C66_race_excluded and C66_stale_excluded show that the specification refuses racy teams."
  },
  {
   "property": "C67",
   "status": "proved",
   "theorems": [
    "Verif.C67_values",
    "Verif.C67_error",
    "Verif.C67_formats_agree",
    "Verif.C67_commutes"
   ],
   "note": "The rounding model is that of C54: relative errors, no overflow or underflow. A value of op(A) is stored before the one of B is added in another loop, so the two operations are not fused. Complex values: C67_values holds for any arithmetic, the error bound is for real ones."
  },
  {
   "property": "C68",
   "status": "proved",
   "theorems": [
    "Verif.C68_schedules",
    "Verif.C68_scaling"
   ],
   "note": "The shared memory is C; A and B are only read. Schedules are sequentially consistent interleavings. A vector load or store is a sequence of single accesses."
  },
  {
   "property": "C69",
   "status": "proved",
   "theorems": [
    "Verif.C69_values",
    "Verif.C69_columns",
    "Verif.C69_error",
    "Verif.C69_row_columns_counterexample",
    "Verif.C69_row_alone_counterexample"
   ],
   "note": "The arithmetic of the error bound (Spec/Contract.lean) may fuse any product with the addition that uses it, the choice may depend on anything. No overflow or underflow. The vector kernel of the error bound multiplies and adds lane by lane (real data); C69_values and C69_columns hold for complex data too. F103: the row-major vector kernel uses another order of multiplication in the left-over columns."
  },
  {
   "property": "C70",
   "status": "proved",
   "theorems": [
    "Verif.C70_scaling",
    "Verif.C70_schedules",
    "Verif.C70_values",
    "Verif.C70_error",
    "Verif.C70_serial",
    "Verif.C70_exact",
    "Verif.C70_order_counterexample"
   ],
   "note": "One step is one access to y inside the critical section, entering it or leaving it; a thread can enter only while no other one is inside. Reading the matrix and x and working on the private buffer are not steps (they touch nothing that is written by another thread). The barrier between scaling and product is the end of the first parallel region. The team has the requested size (C18_smaller_team_loses_rows shows what a smaller one does). The products m*tid are not checked for overflow. Memory order inside the section is that of a lock (entering sees all earlier sections)."
  },
  {
   "property": "C71",
   "status": "proved",
   "theorems": [
    "Verif.Props.C71_csr",
    "Verif.Props.C71_triangle",
    "Verif.Props.C71_tcsr",
    "Verif.Props.C71_ell",
    "Verif.Props.C71_ell_avx2",
    "Verif.Props.C71_ellt",
    "Verif.Props.C71_ellt_avx2",
    "Verif.Props.C71_blocked",
    "Verif.Props.C71_hybrid",
    "Verif.Props.C71_trsm_race"
   ],
   "note": "The hypothesis is that the loop run in order is defined (C09, C10, C11, C17, C20 and C44 show when it is); everything else follows for all schedules. Reading the matrix and x are not steps (nobody writes them). A vector access to four elements of y is four steps. Loops that follow each other are separated by the barrier at the end of a parallel loop. In the hybrid the list of CSR rows must not repeat a row. trsm: the solver is any program of accesses that does not interfere with that of another column; the race is the negation of the property for that loop (F81)."
  },
  {
   "property": "C72",
   "status": "proved",
   "theorems": [
    "Verif.Props.C72_ell",
    "Verif.Props.C72_ellt",
    "Verif.Props.C72_triangle",
    "Verif.Props.C72_triangle_avx2",
    "Verif.Props.C72_triangle_trans",
    "Verif.Props.C72_symmetric",
    "Verif.Props.C72_symmetric_scalar",
    "Verif.Props.C72_tcsr",
    "Verif.Props.C72_blocked"
   ],
   "note": "The kernel is run side by side in the rounded, the exact and the absolute-value arithmetic; the exact run is the product by C18, C19, C20 and the other exactness properties. K: ELL width+3 (AVX2 width/4+9), transposed ELL width+3, triangle rowlength+4 (AVX2 rowlength/4+9), transposed triangle columncount+4, symmetric columncount+rowlength+6 (plus the levels of the horizontal sum), TCSR lower/4+upper/4+10, blocked width+3. C72_triangle_avx2 excludes upper unit triangles with a row of four or more strict entries, which the kernel computes wrongly (F12). No overflow or underflow. DIA, BSR and the hybrid are not covered."
  },
  {
   "property": "C73",
   "status": "proved",
   "theorems": [
    "Verif.C73_value",
    "Verif.C73_same",
    "Verif.C73_error",
    "Verif.C73_spmmd"
   ],
   "note": "The values hold in any arithmetic (no laws assumed); for unsorted rows of A traversed by rows the products are added in storage order, a permutation of the order of k. Errors by relative errors, no overflow or underflow; complex types are not covered."
  },
  {
   "property": "C74",
   "status": "proved",
   "theorems": [
    "Verif.C74_value",
    "Verif.C74_isa",
    "Verif.C74_error"
   ],
   "note": "The values hold in any arithmetic (no laws assumed). Errors by relative errors, no overflow or underflow; the bound is for real types. `a * b + c` of the vector code is one operation of the arithmetic in either kernel."
  },
  {
   "property": "C75",
   "status": "proved",
   "theorems": [
    "Verif.C75_value",
    "Verif.C75_isa",
    "Verif.C75_ref",
    "Verif.C75_error"
   ],
   "note": "Bits: a * b + c is one operation of the arithmetic in vector and scalar code; if the vector code fuses it and the scalar code does not, C75_isa compares builds that treat both alike. Errors by relative errors, no overflow or underflow, real types."
  },
  {
   "property": "C76",
   "status": "proved",
   "theorems": [
    "Verif.C76_dot",
    "Verif.C76_dotmv",
    "Verif.C76_doti_error",
    "Verif.C76_dotmv_error",
    "Verif.C76_axpyi_error",
    "Verif.C76_roti_error",
    "Verif.C76_roti_same"
   ],
   "note": "Errors by relative errors, no overflow or underflow, real types. The error of dotmv is relative to the vector y that the call returns. C76_roti_same needs an arithmetic in which a * b + c is treated alike in vector and scalar code."
  },
  {
   "property": "C77",
   "status": "proved",
   "theorems": [
    "Verif.C77_value",
    "Verif.C77_error",
    "Verif.C77_nan_counterexample",
    "Verif.C77_ellt_nan_counterexample"
   ],
   "note": "Errors by relative errors, no overflow or underflow. The counterexamples (findings F105, F9) use integers with one NaN."
  },
  {
   "property": "C78",
   "status": "proved",
   "theorems": [
    "Verif.C78_value",
    "Verif.C78_error",
    "Verif.C78_layout_counterexample"
   ],
   "note": "Real types. Errors by relative errors, no overflow or underflow."
  },
  {
   "property": "C79",
   "status": "proved",
   "theorems": [
    "Verif.C79_value",
    "Verif.C79_error"
   ],
   "note": "Real types. The order of the additions is some order, not named. Errors by relative errors, no overflow or underflow."
  },
  {
   "property": "C80",
   "status": "proved",
   "theorems": [
    "Verif.C80_backward",
    "Verif.C80_residual",
    "Verif.C80_plain",
    "Verif.C80_bits",
    "Verif.C80_schedule"
   ],
   "note": "Real types; from the prepared (sorted, full diagonal) arrays on, as C55; checks and preparation are C51. No overflow or underflow in the error bounds; C80_bits and C80_schedule use no law of the arithmetic."
  },
  {
   "property": "C81",
   "status": "proved",
   "theorems": [
    "Verif.C81_sweep",
    "Verif.C81_plain"
   ],
   "note": "Standard model of floating-point arithmetic, no overflow or underflow. The checks of the arguments and of the diagonal are C35; C81_plain identifies the program with the one of C35. The bound is for one step of the recurrence given the computed elements (a local bound), not for the distance to the exact sweep."
  },
  {
   "property": "C82",
   "status": "proved",
   "theorems": [
    "Verif.C82_stats_meaning",
    "Verif.C82_stats_range",
    "Verif.C82_stats_overflow",
    "Verif.C82_same_width"
   ],
   "note": "The average is compared exactly instead of in double precision (no difference below 2^52 entries); the thresholds on the ratio of the counts are not modelled."
  }
 ]
}