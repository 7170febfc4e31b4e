{
 "claims": [
  {
   "property": "C01",
   "status": "proved",
   "theorems": [
    "Verif.C01_revert_restores"
   ],
   "note": "all histories of the array state's operations, commits and reverts"
  },
  {
   "property": "C02",
   "status": "proved",
   "theorems": [
    "Verif.C02_history_refines",
    "Verif.C02_scalar"
   ],
   "note": "all histories; array and scalar states"
  },
  {
   "property": "C03",
   "status": "proved",
   "theorems": [
    "Verif.C03_commit_fixes"
   ],
   "note": "all histories"
  },
  {
   "property": "C04",
   "status": "partial",
   "theorems": [
    "Verif.C04_dedup_partial",
    "Verif.C04_dedup_ub_iff",
    "Verif.C04_dedup_fails"
   ],
   "note": "false of the code (out-of-bounds read, C04_dedup_fails); net effect proved whenever the function returns, and the exact set of legal scripts on which it does not"
  },
  {
   "property": "C05",
   "status": "proved",
   "theorems": [
    "Verif.C05_collection_explicit",
    "Verif.C05_explicit_accepts_iff",
    "Verif.C05_collection_default",
    "Verif.C05_list_default_never_reaches"
   ],
   "note": "explicit and default initial contents, all histories; a default list symbol with max_size<n only ever draws from 0..max_size-1 (C05_list_default_never_reaches)"
  },
  {
   "property": "C06",
   "status": "proved",
   "theorems": [
    "Verif.C06_collection_history"
   ],
   "note": "all collections and histories"
  },
  {
   "property": "C07",
   "status": "partial",
   "theorems": [
    "Verif.C07_bitsets_default",
    "Verif.C07_bitsets_explicit",
    "Verif.C07_bitsets_rejects_partial",
    "Verif.C07_bitsets_rejects_fails"
   ],
   "note": "partition, diffs and reverts proved for all histories; rejection of non-partitions is false of the code (C07_bitsets_rejects_fails), the checks it does make are proved"
  },
  {
   "property": "C08",
   "status": "proved",
   "theorems": [
    "Verif.C08_lists_history",
    "Verif.C08_lists_partition",
    "Verif.C08_lists_explicit",
    "Verif.C08_lists_default"
   ],
   "note": "all histories; bulk assignment of single lists can leave the partition in between, as the code documents"
  },
  {
   "property": "C09",
   "status": "proved",
   "theorems": [
    "Verif.C09_init_accepts_iff",
    "Verif.C09_init_default",
    "Verif.C09_integer_history",
    "Verif.C09_binary_history",
    "Verif.C09_make"
   ],
   "note": "integer and binary symbols, all histories, caught rejections included"
  },
  {
   "property": "C10",
   "status": "proved",
   "theorems": [
    "Verif.C10_fit_python",
    "Verif.C10_zero_step",
    "Verif.C10_negative_size",
    "Verif.C10_size_counts",
    "Verif.C10_fitted_size",
    "Verif.C10_unfitted_size_fails"
   ],
   "note": "all starts, stops, steps and sizes that fit ssize_t (step = minimum value excluded where negating it overflows); size() before fit overflows (C10_unfitted_size_fails)"
  },
  {
   "property": "C11",
   "status": "proved",
   "theorems": [
    "Verif.C11_broadcast_ok",
    "Verif.C11_broadcast_rejects",
    "Verif.C11_broadcast_unique",
    "Verif.C11_broadcast_comm",
    "Verif.C11_broadcast_dynamic"
   ],
   "note": "all shapes, dynamic leading dimensions included"
  },
  {
   "property": "C12",
   "status": "proved",
   "theorems": [
    "Verif.C12_unravel_ravel",
    "Verif.C12_ravel_unravel"
   ],
   "note": "all shapes and in-range indices"
  },
  {
   "property": "C13",
   "status": "partial",
   "theorems": [
    "Verif.C13_size",
    "Verif.C13_size_dynamic",
    "Verif.C13_strides_row_major",
    "Verif.C13_contiguous_iff",
    "Verif.C13_contiguous_zero_dim",
    "Verif.C13_own_strides_contiguous",
    "Verif.C13_contiguous_dynamic_iff",
    "Verif.C13_contiguous_empty",
    "Verif.C13_contiguous_empty_fails"
   ],
   "note": "sizes, strides, and contiguity of non-empty and dynamic arrays proved; an empty array can be reported non-contiguous (C13_contiguous_empty_fails)"
  },
  {
   "property": "C14",
   "status": "partial",
   "theorems": [
    "Verif.C14_iterator_row_major",
    "Verif.C14_iterator_reaches",
    "Verif.C14_same_total",
    "Verif.C14_difference_partial",
    "Verif.C14_difference_fails",
    "Verif.C14_difference_zero_stride_fails"
   ],
   "note": "all moves proved; taking a difference corrupts the operands (C14_difference_fails) and divides by zero for a zero stride; the value of a difference is proved otherwise"
  },
  {
   "property": "C15",
   "status": "proved",
   "theorems": [
    "Verif.C15_make",
    "Verif.C15_ofInt",
    "Verif.C15_operations",
    "Verif.C15_equality",
    "Verif.C15_equality_int",
    "Verif.C15_toInt"
   ],
   "note": "all operation sequences, without machine overflow"
  },
  {
   "property": "C16",
   "status": "partial",
   "theorems": [
    "Verif.C16_whole_partial",
    "Verif.C16_program_partial",
    "Verif.C16_rows_fails",
    "Verif.C16_substitute_partial",
    "Verif.C16_slice_substitute_fails",
    "Verif.C16_step_substitute_fails",
    "Verif.C16_step_fails",
    "Verif.C16_start_step_fails",
    "Verif.C16_slice_partial"
   ],
   "note": "whole models of the catalog's symbols and of programs with indexing: reports are right and substitution to any depth is sound for unsliced symbols; chains with non-negative slices; the general slice bounds are false of the code (C16_slice_substitute_fails, C16_step_substitute_fails, C16_step_fails, C16_start_step_fails), and so are those of A[x, :] (C16_rows_fails)"
  },
  {
   "property": "C17",
   "status": "proved",
   "theorems": [
    "Verif.C17_lock_sorts",
    "Verif.C17_cycle_rejected",
    "Verif.C17_no_cycle"
   ],
   "note": "every history of model operations up to a lock of a cyclic model; the state a failed lock leaves behind is not modelled"
  },
  {
   "property": "C18",
   "status": "partial",
   "theorems": [
    "Verif.C18_lock_count",
    "Verif.C18_locked_frozen",
    "Verif.C18_locked_same",
    "Verif.C18_decision_index",
    "Verif.C18_locked_inplace_fails"
   ],
   "note": "lock counting, frozen structure and decision indices proved for all histories; x += y on a locked model is not refused but runs into an assertion (C18_locked_inplace_fails)"
  },
  {
   "property": "C19",
   "status": "partial",
   "theorems": [
    "Verif.C19_descendants",
    "Verif.C19_descendants_sources",
    "Verif.C19_nested_sources_fails"
   ],
   "note": "Full statement for distinct, independent sources (C19_descendants, C19_descendants_sources). When one changed source depends on another or is repeated it is processed twice: C19_nested_sources_fails."
  },
  {
   "property": "C20",
   "status": "proved",
   "theorems": [
    "Verif.C20_remove_unused"
   ],
   "note": "every model without a cycle reached by any history"
  },
  {
   "property": "C21",
   "status": "proved",
   "theorems": [
    "Verif.C21_propose_atomic"
   ],
   "note": "For every model whose symbols keep the symbol contract (Spec/Node.lean); the contract is proved for concrete symbols under C22-C34."
  },
  {
   "property": "C22",
   "status": "proved",
   "theorems": [
    "Verif.C22_unary",
    "Verif.C22_sizes"
   ],
   "note": "Unary symbols: value after any history of accepted and rejected proposals equals the pointwise function of the operand."
  },
  {
   "property": "C23",
   "status": "partial",
   "theorems": [
    "Verif.C23_binary_partial",
    "Verif.C23_dynamic_fails",
    "Verif.C23_size_partial",
    "Verif.C23_shape_partial",
    "Verif.C23_shape_fails",
    "Verif.C23_chain_fails",
    "Verif.C23_slice_fails",
    "Verif.C23_size_diff_partial"
   ],
   "note": "Values, reports, commit and revert proved except for a one-element operand of as many dimensions as the dynamic one, where C23_dynamic_fails reaches undefined behaviour. Reported size proved for the same shapes; reported shape except when the dynamic left operand has one element, where it is wrong (C23_shape_fails) and makes a further operation or a slice undefined (C23_chain_fails, C23_slice_fails)."
  },
  {
   "property": "C24",
   "status": "proved",
   "theorems": [
    "Verif.C24_nary_recompute",
    "Verif.C24_nary_inverse",
    "Verif.C24_sum",
    "Verif.C24_product"
   ],
   "note": "N-ary symbols, both the recomputing and the inverse-based update strategies; arithmetic is exact."
  },
  {
   "property": "C25",
   "status": "proved",
   "theorems": [
    "Verif.C25_sum",
    "Verif.C25_prod",
    "Verif.C25_all",
    "Verif.C25_any",
    "Verif.C25_max",
    "Verif.C25_min"
   ],
   "note": "All six whole-array reductions, dynamic arrays included; arithmetic is exact."
  },
  {
   "property": "C26",
   "status": "partial",
   "theorems": [
    "Verif.C26_partial_sum_partial",
    "Verif.C26_axis_fails"
   ],
   "note": "Every shape with positive dimensions and every axis less than the number of elements; C26_axis_fails: for other axes a wrong assertion fires on the first change."
  },
  {
   "property": "C27",
   "status": "proved",
   "theorems": [
    "Verif.C27_where",
    "Verif.C27_sizes"
   ],
   "note": "Selection between two arrays: value, diff, commit and revert for array and single conditions, including dynamic operands"
  },
  {
   "property": "C28",
   "status": "partial",
   "theorems": [
    "Verif.C28_shape",
    "Verif.C28_value_partial",
    "Verif.C28_first_elements_partial",
    "Verif.C28_diff_fails",
    "Verif.C28_revert_fails"
   ],
   "note": "Accepted shapes characterised; value correct after initialisation and along committed histories; exact reports and reverts when only first elements of operands change. The reported change and revert are wrong in general (C28_diff_fails, C28_revert_fails: manipulation.cpp 163 records the first element of the block as the old value)"
  },
  {
   "property": "C29",
   "status": "proved",
   "theorems": [
    "Verif.C29_reshape",
    "Verif.C29_reshape_accepts",
    "Verif.C29_size"
   ],
   "note": "Reshape passes its operand through with the new shape; accepted exactly when sizes agree; size reports the current number of elements"
  },
  {
   "property": "C30",
   "status": "partial",
   "theorems": [
    "Verif.C30_accepts",
    "Verif.C30_view",
    "Verif.C30_contiguous_partial",
    "Verif.C30_strided_partial",
    "Verif.C30_columns_fails",
    "Verif.C30_late_start_fails",
    "Verif.C30_column_fails",
    "Verif.C30_empty_fails",
    "Verif.C30_python_partial",
    "Verif.C30_zero_step_fails"
   ],
   "note": "Which index tuples are accepted and that the view has NumPy's elements is proved for every fixed-shape operand and index tuple; that every change is reported is proved for contiguous views and for one-dimensional views whose start is below the step; for other strided views it is false (C30_columns_fails, C30_late_start_fails, C30_column_fails) and some empty selections violate an assertion (C30_empty_fails). A zero step terminates a Python program instead of raising (C30_zero_step_fails; C30_python_partial for the others)."
  },
  {
   "property": "C31",
   "status": "partial",
   "theorems": [
    "Verif.C31_view_partial",
    "Verif.C31_tracks_partial",
    "Verif.C31_view_fails",
    "Verif.C31_shrinking_fails",
    "Verif.C31_negative_strided_fails",
    "Verif.C31_rows_negative_fails",
    "Verif.C31_rows_fails",
    "Verif.C31_empty_fails",
    "Verif.C31_column_fails",
    "Verif.C31_sizes_partial"
   ],
   "note": "Proved: views of dynamic arrays have NumPy's elements whenever the step is 1 or the start is 0 (C31_view_partial); contiguous views of lists with any [a:b], and whole-row views, follow every history of growing, shrinking and changing exactly (C31_tracks_partial). The property is false of the code for strided views (wrong elements, missed removals, assertion), for row slices with more than one element per row, for empty row selections and for columns (C31_*_fails)."
  },
  {
   "property": "C32",
   "status": "partial",
   "theorems": [
    "Verif.C32_accepts",
    "Verif.C32_constant_partial",
    "Verif.C32_indexed_partial",
    "Verif.C32_reverse_partial",
    "Verif.C32_separated_fails",
    "Verif.C32_column_fails",
    "Verif.C32_rows_fails",
    "Verif.C32_replaced_fails",
    "Verif.C32_empty_fails"
   ],
   "note": "Constant or fixed-size array without zero dimensions, changing together with the index arrays (which may grow and shrink): value, reported changes, revert and reverse lookup, for every mode except index arrays separated by a slice behind a leading slice, where it is false (C32_separated_fails). Missing: indexed arrays of varying size, for which C32_column_fails, C32_rows_fails and C32_replaced_fails show failures; zero dimensions fail (C32_empty_fails)."
  },
  {
   "property": "C33",
   "status": "partial",
   "theorems": [
    "Verif.C33_matrix_partial",
    "Verif.C33_composition",
    "Verif.C33_accepts",
    "Verif.C33_vector_fails",
    "Verif.C33_cube_fails",
    "Verif.C33_range_fails",
    "Verif.C33_empty_fails",
    "Verif.C33_large_fails"
   ],
   "note": "Two dimensions, at least 1 x 1 and at most 2^28 elements: proved for every history, shown to be the composition of the two indexings, and part of whole programs when the order is a list or a constant (C40, C58). False in one and three dimensions, for out-of-range orders (accepted), empty matrices and matrices of more than 2^28 elements (C33_*_fails)."
  },
  {
   "property": "C34",
   "status": "proved",
   "theorems": [
    "Verif.C34_biases",
    "Verif.C34_value",
    "Verif.C34_shape",
    "Verif.C34_export"
   ],
   "note": "exact arithmetic; bulk add/get methods are loops over the modelled ones"
  },
  {
   "property": "C35",
   "status": "partial",
   "theorems": [
    "Verif.C35_unary_partial",
    "Verif.C35_unary_defined",
    "Verif.C35_square_fails",
    "Verif.C35_absolute_empty_fails",
    "Verif.C35_binary",
    "Verif.C35_binary_defined_partial",
    "Verif.C35_divide_fails",
    "Verif.C35_nary",
    "Verif.C35_where",
    "Verif.C35_whole_partial",
    "Verif.C35_history_partial",
    "Verif.C35_program_partial"
   ],
   "note": "per symbol and for whole models and programs with indexing after any history of proposals; false of the code for square of a possibly negative operand, abs of an empty range and divide (proved); exact arithmetic, finite results"
  },
  {
   "property": "C36",
   "status": "partial",
   "theorems": [
    "Verif.C36_reduce",
    "Verif.C36_partialSum",
    "Verif.C36_extreme_partial",
    "Verif.C36_extreme_empty_fails",
    "Verif.C36_whole_partial",
    "Verif.C36_rows_fails"
   ],
   "note": "sum, product, all, any, partial sum, per symbol and for whole models and programs with indexing; greatest and least only for non-empty arrays (false for empty ones with an initial value, proved); false for sums of A[x, :] (C36_rows_fails)"
  },
  {
   "property": "C37",
   "status": "partial",
   "theorems": [
    "Verif.C37_whole_partial",
    "Verif.C37_isInteger",
    "Verif.C37_unary",
    "Verif.C37_binary",
    "Verif.C37_nary",
    "Verif.C37_reduce",
    "Verif.C37_extreme",
    "Verif.C37_partialSum",
    "Verif.C37_where",
    "Verif.C37_program_partial"
   ],
   "note": "all modelled symbols, per symbol and for whole models and supported programs with indexing, in exact arithmetic"
  },
  {
   "property": "C38",
   "status": "proved",
   "theorems": [
    "Verif.C38_modulus_eq_numpy",
    "Verif.C38_modulus"
   ],
   "note": "exact arithmetic"
  },
  {
   "property": "C39",
   "status": "proved",
   "theorems": [
    "Verif.C39_never_stale",
    "Verif.C39_program_partial",
    "Verif.C39_never_stale_catalog"
   ],
   "note": "Every history of setting, resetting, reading, initialising and relocking, for symbols that keep the symbol contract; C39_never_stale_catalog discharges the contract for the symbols of the catalog, C39_program_partial for models made by supported programs."
  },
  {
   "property": "C40",
   "status": "partial",
   "theorems": [
    "Verif.C40_built_partial",
    "Verif.C40_program_initialises_partial",
    "Verif.C40_program_partial",
    "Verif.C40_program_proposal_partial",
    "Verif.C40_program_shapes_partial",
    "Verif.C40_initialises",
    "Verif.C40_incremental_eq_fresh_partial",
    "Verif.C40_proposal_partial"
   ],
   "note": "Models of any shape built from the catalog of symbols (all decisions, constants, outputs of disjoint collections, element-wise operations, n-ary operations, reductions, partial sums, reshape, size, where, quadratic models), and supported programs which also contain basic and advanced indexing and A[x, :][:, x] with lists and constants x (Script.Supported), for every history of constructions and then every history of proposals; missing: A[x, :][:, x] with other x, concatenate (whose incremental evaluation is wrong, C28), indexing that Script.Supported excludes, parts of which go wrong (C30, C31, C32). Whole models: symbols are taken to report the shape of their values (DESIGN section 1; the exception is C23_shape_fails)."
  },
  {
   "property": "C41",
   "status": "partial",
   "theorems": [
    "Verif.C41_round_trip_partial",
    "Verif.C41_only_decision_partial",
    "Verif.C41_without_inplace",
    "Verif.C41_same_order",
    "Verif.C41_malformed",
    "Verif.C41_loaded_as_built",
    "Verif.C41_sparse_fails",
    "Verif.C41_parts_fails",
    "Verif.C41_inplace_fails",
    "Verif.C41_negative_objective_fails",
    "Verif.C41_constraint_number_fails",
    "Verif.C41_truncated_fails",
    "Verif.C41_repeated_part_fails"
   ],
   "note": "Round trip proved for every history of the modelled symbol kinds and every number of states, complete and with only the decisions, including order, operands, objective, constraints and values; the hypotheses about ranges are proved for histories without in-place additions. Every accepted file describes a model a user could have built. Indexing symbols are in C69. Six ways in which the claim fails are proved (sparse states of disjoint lists, saving again after only_decision, in-place changes, unchecked numbers, truncated files, repeated parts)."
  },
  {
   "property": "C42",
   "status": "partial",
   "theorems": [
    "Verif.C42_list",
    "Verif.C42_future_once",
    "Verif.C42_resize",
    "Verif.C42_chained_fails"
   ],
   "note": "For hooks that neither raise nor hand over another future, every history of operations shows what the eager list shows (C42_list); for hooks that may raise, each is called exactly once before any other access (C42_future_once). It fails for hooks that hand over another future (C42_chained_fails): the access goes on with a future pending, and from_future drops it."
  },
  {
   "property": "C43",
   "status": "proved",
   "theorems": [
    "Verif.C43_answers",
    "Verif.C43_threads"
   ],
   "note": "Exact arithmetic; each query is a sequence of sequentially consistent steps, interleaved arbitrarily."
  },
  {
   "property": "C44",
   "status": "partial",
   "theorems": [
    "Verif.C44_power_partial",
    "Verif.C44_nonpositive",
    "Verif.C44_accepted",
    "Verif.C44_product_fails"
   ],
   "note": "Proved for all models that can be built and all symbols that are not themselves NaryMultiply; false for NaryMultiply symbols (C44_product_fails): m ** 3 changes m into a product with itself."
  },
  {
   "property": "C45",
   "status": "partial",
   "theorems": [
    "Verif.C45_choice",
    "Verif.C45_feasible_energy",
    "Verif.C45_history",
    "Verif.C45_zero_one_partial",
    "Verif.C45_in_place_fails",
    "Verif.C45_program_partial"
   ],
   "note": "choice and reading proved for all models of the catalog's symbols, for supported programs with indexing, and all histories; an accepted constraint can later be changed in place so that it is no longer logical (C45_in_place_fails). Whole models: symbols are taken to report the shape of their values (DESIGN section 1; the exception is C23_shape_fails)."
  },
  {
   "property": "C46",
   "status": "partial",
   "theorems": [
    "Verif.C46_integer_partial",
    "Verif.C46_binary_partial",
    "Verif.C46_list_partial",
    "Verif.C46_set",
    "Verif.C46_bit_sets_partial",
    "Verif.C46_lists_partial",
    "Verif.C46_integer_negative_fails",
    "Verif.C46_integer_empty_fails",
    "Verif.C46_list_empty_fails",
    "Verif.C46_bit_sets_empty_fails",
    "Verif.C46_lists_empty_fails",
    "Verif.C46_set_never_reaches"
   ],
   "note": "all histories of default moves, commits and reverts keep valid states: sets fully, others except empty arrays and integers with a negative lower bound, for which the move is undefined (proved); a set started by default never reaches elements from max_size on (C46_set_never_reaches)"
  },
  {
   "property": "C47",
   "status": "partial",
   "theorems": [
    "Verif.C47_fixed_partial",
    "Verif.C47_dynamic_partial",
    "Verif.C47_rejected_fails",
    "Verif.C47_shape_fails",
    "Verif.C47_division_fails"
   ],
   "note": "Proved for every non-empty selection from fixed-size and dynamic arrays: the reported indices are accepted again, give the same shape and select the same coordinates. False of the code for empty selections (A[1, 3:] cannot be loaded; A[:, 3:, 2] changes shape) and for arrays of shape (3, 0) (division by zero): C47_*_fails."
  },
  {
   "property": "C48",
   "status": "partial",
   "theorems": [
    "Verif.C48_unchanged_partial",
    "Verif.C48_nary_leftover",
    "Verif.C48_nary_fails",
    "Verif.C48_concatenate_fails",
    "Verif.C48_indexing",
    "Verif.C48_getitem_partial",
    "Verif.C48_getitem_ends",
    "Verif.C48_getitem_fails"
   ],
   "note": "Proved for every catalogued symbol except n-ary ones, and for in-place additions, objectives and constraints; false for n-ary symbols and Concatenate (C48_nary_fails, C48_concatenate_fails), with an exact description of what is left behind. The constructors of indexing symbols change nothing when they throw (C48_indexing); x[...] leaves at most an unused slice (C48_getitem_partial), and sometimes does (C48_getitem_fails)."
  },
  {
   "property": "C49",
   "status": "proved",
   "theorems": [
    "Verif.C49_tsp",
    "Verif.C49_rejects",
    "Verif.C49_no_cities_fails"
   ],
   "note": "proved for every square matrix with at least one city (C49_tsp); rejected otherwise (C49_rejects); a matrix without cities raises IndexError (C49_no_cities_fails). Elements and sums are rational numbers."
  },
  {
   "property": "C50",
   "status": "proved",
   "theorems": [
    "Verif.C50_knapsack",
    "Verif.C50_rejects"
   ],
   "note": "proved for at least one item (C50_knapsack), rejected otherwise (C50_rejects); without items the set is not dynamic and is left out. Elements and sums are rational numbers."
  },
  {
   "property": "C51",
   "status": "proved",
   "theorems": [
    "Verif.C51_jobShop",
    "Verif.C51_accepts_only"
   ],
   "note": "job_shop_scheduling modelled symbol by symbol; states, feasibility and objective are those of the problem, also after every history of proposals; what is accepted is characterised. Times are whole numbers as numpy's integer conversion has made them; upper bound at most 2e9 as for every integer variable."
  },
  {
   "property": "C52",
   "status": "partial",
   "theorems": [
    "Verif.C52_quadraticAssignment_partial",
    "Verif.C52_rejects",
    "Verif.C52_no_facilities_fails"
   ],
   "note": "quadratic_assignment modelled symbol by symbol; proved for 1 x 1 up to 2^28 elements, in every state and after every history of proposals; rejected arguments characterised. False for 0 x 0 matrices (C52_no_facilities_fails: accepted, then undefined behaviour when a state is initialised) and beyond 2^28 elements (C33_large_fails)."
  },
  {
   "property": "C53",
   "status": "proved",
   "theorems": [
    "Verif.C53_binPacking",
    "Verif.C53_rejects",
    "Verif.C53_solvable"
   ],
   "note": "binPacking follows bin_packing call by call; the states, objective and feasibility of the built model are those of binPackingProblem, in every state and after every history; rejected arguments; every accepted problem is solvable. Rational weights; infinities and NaN not represented."
  },
  {
   "property": "C54",
   "status": "proved",
   "theorems": [
    "Verif.C54_distances",
    "Verif.C54_locations",
    "Verif.C54_depot",
    "Verif.C54_rejects",
    "Verif.C54_distances_rejects"
   ],
   "note": "vehicleRouting follows capacitated_vehicle_routing call by call, in all three forms of its arguments; the states, objective and feasibility of the built model are those of Routing.problem, in every state and after every history; rejected arguments. Rational numbers; the square root is an arbitrary function; at most 2^63 - 1 customers."
  },
  {
   "property": "C55",
   "status": "partial",
   "theorems": [
    "Verif.C55_makespan",
    "Verif.C55_flowShop_partial",
    "Verif.C55_rejects",
    "Verif.C55_three_machines_fails"
   ],
   "note": "Proved for one machine or two (C55_flowShop_partial), with the makespan characterised for all numbers of machines (C55_makespan). False for three machines (C55_three_machines_fails): the generator uses += on a symbol that is a sum already, which changes the end time of the first job on the machine before."
  },
  {
   "property": "C56",
   "status": "partial",
   "theorems": [
    "Verif.C56_in_bounds_partial",
    "Verif.C56_slices_fails",
    "Verif.C56_derived_slices_fails",
    "Verif.C56_empty_slice_fails"
   ],
   "note": "Supported programs: all whose reliable index arrays have declared ranges that hold and comparable sizes (Script.Supported); for those, all visible states of all histories; false in general for slices whose sizes are compared wrongly (C56_slices_fails, C56_derived_slices_fails, C56_empty_slice_fails). Whole models: symbols are taken to report the shape of their values (DESIGN section 1; the exception is C23_shape_fails)."
  },
  {
   "property": "C57",
   "status": "partial",
   "theorems": [
    "Verif.C57_limited_partial",
    "Verif.C57_stops_partial",
    "Verif.C57_partial",
    "Verif.C57_few_vehicles_fails",
    "Verif.C57_one_vehicle_fails",
    "Verif.C57_many_vehicles_fails",
    "Verif.C57_oneway_fails",
    "Verif.C57_stops_fails",
    "Verif.C57_late_fails",
    "Verif.C57_rejects",
    "Verif.C57_shape_rejects"
   ],
   "note": "timeWindows follows the generator call by call. C57_limited_partial says for all arguments with 1 <= 3 * (n / vehicles) <= n + 1 what the built model encodes, in every state and after every history; this is the problem itself if moreover times between customers are symmetric, the depot closes by 1000000 and n <= 3 * (n / vehicles) (C57_partial). Outside these conditions the property is false: C57_few_vehicles_fails, C57_one_vehicle_fails, C57_many_vehicles_fails, C57_oneway_fails, C57_stops_fails, C57_late_fails. Rejected arguments are proved."
  },
  {
   "property": "C58",
   "status": "partial",
   "theorems": [
    "Verif.C58_partial",
    "Verif.C58_varying_partial",
    "Verif.C58_permutation_partial",
    "Verif.C58_steps",
    "Verif.C58_layout_fails",
    "Verif.C58_gaps_fails"
   ],
   "note": "For supported programs: any mixture of integers, slices and index arrays, with x of fixed or varying size, shows NumPy's x[...] in everything that can be seen (C58_partial, C58_varying_partial), except where an integer is separated from index arrays by a slice (false, C58_layout_fails); arrays with gaps cannot be indexed (false, C58_gaps_fails). Programs may use x[...] (C58_steps). This includes A[i, :][:, i] for lists and constants i; for other i it has the value of the second indexing (C58_permutation_partial). Missing: histories for A[i, :][:, i] with other i. Whole models: symbols are taken to report the shape of their values (DESIGN section 1; the exception is C23_shape_fails)."
  },
  {
   "property": "C59",
   "status": "partial",
   "theorems": [
    "Verif.C59_exact",
    "Verif.C59_equivalence",
    "Verif.C59_partial",
    "Verif.C59_quantity_partial",
    "Verif.C59_decisions_fails",
    "Verif.C59_index_fails",
    "Verif.C59_axis_fails"
   ],
   "note": "equals decides whether two symbols are the same expression (C59_exact) and is an equivalence relation (C59_equivalence); for plain symbols with the same decisions in the same places it implies equal values (C59_partial, C59_quantity_partial).  The claim that equal symbols represent the same quantity is false for different decisions, indexing and sums along different axes."
  },
  {
   "property": "C60",
   "status": "partial",
   "theorems": [
    "Verif.C60_partial",
    "Verif.C60_defined_partial",
    "Verif.C60_model_partial",
    "Verif.C60_rows_fails",
    "Verif.C60_slice_fails",
    "Verif.C60_unary_fails",
    "Verif.C60_disjoint_fails"
   ],
   "note": "state_size is exact for arrays of fixed size and an upper bound for symbols of varying size that do not depend on slices (C60_partial), it is defined for those that depend on sets, lists and disjoint lists through binary operations and indexing (C60_defined_partial), and so for models (C60_model_partial).  False for A[x, :], slices with steps, unary operations of sets, and disjoint sets and lists."
  },
  {
   "property": "C61",
   "status": "partial",
   "theorems": [
    "Verif.C61_hard_partial",
    "Verif.C61_partial",
    "Verif.C61_rejects",
    "Verif.C61_soft_fails",
    "Verif.C61_no_variables_fails"
   ],
   "note": "Proved for all models with at least one variable and only hard constraints (C61_partial), with soft constraints read as hard (C61_hard_partial), and rejection of other variables (C61_rejects). The full statement is false for soft constraints (C61_soft_fails) and without variables (C61_no_variables_fails)."
  },
  {
   "property": "C62",
   "status": "partial",
   "theorems": [
    "Verif.C62_expressions_partial",
    "Verif.C62_extended_fails",
    "Verif.C62_doubled_fails",
    "Verif.C62_where_fails",
    "Verif.C62_where_varying_fails"
   ],
   "note": "Proved for all programs of the listed statements that do not extend a sum or product in place after it has been used, outside the exceptions of C23 and C26 and of where (C62_expressions_partial). Indexing, several axes and decisions with several outputs are not among the statements. The full statement is false: C62_extended_fails, C62_doubled_fails, C62_where_fails, C62_where_varying_fails. Whole models: symbols are taken to report the shape of their values (DESIGN section 1; the exception is C23_shape_fails)."
  },
  {
   "property": "C63",
   "status": "partial",
   "theorems": [
    "Verif.C63_states_partial",
    "Verif.C63_program_states_partial",
    "Verif.C63_set_get",
    "Verif.C63_program_set_get",
    "Verif.C63_shape_fails",
    "Verif.C63_fraction_fails",
    "Verif.C63_lost_fails"
   ],
   "note": "All histories of operations on the states of a locked model show what a table of the decisions' values says, for the symbols of the catalog (C63_states_partial) and for models made by supported programs, with indexing (C63_program_states_partial); set then get gives the same array (C63_set_get, C63_program_set_get). Partial: disjoint bit sets that are no partition, and what Script.Supported excludes. Fails: other shapes and fractions are accepted, a rejected value loses the earlier state. Whole models: symbols are taken to report the shape of their values (DESIGN section 1; the exception is C23_shape_fails)."
  },
  {
   "property": "C64",
   "status": "proved",
   "theorems": [
    "Verif.C64_sessions"
   ],
   "note": "Symbols are given by their contracts (C11), which the catalogued symbols meet. Values that a symbol neither accepts nor refuses with an exception are excluded. Loading of files into states is given by the values in the file; the files themselves are C65."
  },
  {
   "property": "C65",
   "status": "partial",
   "theorems": [
    "Verif.C65_saved_states_partial",
    "Verif.C65_mismatch",
    "Verif.C65_order_fails",
    "Verif.C65_values_fails",
    "Verif.C65_later_fails"
   ],
   "note": "For locked models, and models whose decisions are their first symbols (C65_order_fails otherwise); the saved model meets the conditions of C41; decisions of both models are of the same kinds with the same sizes and bounds (these are not compared by the code: C65_values_fails, C65_later_fails)."
  },
  {
   "property": "C66",
   "status": "partial",
   "theorems": [
    "Verif.C66_no_false_alarms_partial",
    "Verif.C66_no_misses_partial",
    "Verif.C66_dynamic",
    "Verif.C66_random_moves",
    "Verif.C66_twice_fails",
    "Verif.C66_large_fails",
    "Verif.C66_shape_fails",
    "Verif.C66_empty_fails",
    "Verif.C66_accepted"
   ],
   "note": "No false alarms for arrays that start with fewer than 2^31 elements and are committed or reverted between any two propagations (C66_twice_fails, C66_large_fails otherwise); all misreports of elements, changes, sizes and ranges are caught, those of shapes not all (C66_shape_fails). The dynamic decision is exact for all histories in which its own assertions hold (C66_dynamic), and its random moves are always defined (C66_random_moves)."
  },
  {
   "property": "C67",
   "status": "partial",
   "theorems": [
    "Verif.C67_elementwise",
    "Verif.C67_sum_partial",
    "Verif.C67_product_partial",
    "Verif.C67_sum_fails",
    "Verif.C67_product_fails",
    "Verif.C67_nary_add",
    "Verif.C67_nary_multiply",
    "Verif.C67_partial_sum",
    "Verif.C67_quadratic",
    "Verif.C67_quadratic_fails"
   ],
   "note": "Proved for whole numbers within 2^53 (sums, sums along axes, n-ary sums and products, quadratic models; products when non-zero factors change to multiples), and for element-wise symbols with any rounding. Fails for products in general and for numbers that are not whole."
  },
  {
   "property": "C68",
   "status": "partial",
   "theorems": [
    "Verif.C68_sum",
    "Verif.C68_drift_fails",
    "Verif.C68_nary_add",
    "Verif.C68_nary_multiply",
    "Verif.C68_partial_sum",
    "Verif.C68_product"
   ],
   "note": "Proved for sums and products of arrays, sums along axes and sums and products of several arrays, with the bounds given; quadratic models are not treated. A bound that does not depend on the number of changes fails."
  },
  {
   "property": "C69",
   "status": "partial",
   "theorems": [
    "Verif.C69_round_trip_partial",
    "Verif.C69_values_partial",
    "Verif.C69_empty_fails",
    "Verif.C69_states_partial"
   ],
   "note": "Round trip proved for every program of catalog symbols, slices that select something, arrays indexed by arrays and permutations: same symbols, operands, declarations, decisions and their order, objective, constraints and values; the loaded model can be locked; states and header with and without the check of the header (C69_states_partial). Missing: slices that select nothing (proved to fail), in-place additions."
  },
  {
   "property": "C70",
   "status": "partial",
   "theorems": [
    "Verif.C70_export",
    "Verif.C70_same",
    "Verif.C70_order_fails",
    "Verif.C70_rejected_fails"
   ],
   "note": "Proved for all histories of operations that leave no dangling successors, i.e. without rejected n-ary symbols (C70_rejected_fails); two models with the same graph are the same up to the order of operands, which the graph does not show (C70_order_fails)."
  },
  {
   "property": "C71",
   "status": "partial",
   "theorems": [
    "Verif.C71_separate_partial",
    "Verif.C71_outcome_partial",
    "Verif.C71_mixed",
    "Verif.C71_inplace_fails",
    "Verif.C71_objective_fails",
    "Verif.C71_constraint_fails"
   ],
   "note": "proved for interleaved histories of any number of models that use no symbol of one model as objective, constraint or added operand of another (C71_separate_partial, C71_outcome_partial); new symbols with operands of different models are refused without effect (C71_mixed); += and *=, minimize and add_constraint make no check, shown by C71_inplace_fails, C71_objective_fails and C71_constraint_fails"
  },
  {
   "property": "C72",
   "status": "partial",
   "theorems": [
    "Verif.C72_feasible_partial",
    "Verif.C72_program_feasible_partial",
    "Verif.C72_no_state_fails"
   ],
   "note": "feasible(i) after any history of states for catalog models and supported programs; fails: indices are not checked without constraints. Whole models: symbols are taken to report the shape of their values (DESIGN section 1; the exception is C23_shape_fails)."
  },
  {
   "property": "C73",
   "status": "partial",
   "theorems": [
    "Verif.C73_program",
    "Verif.C73_partial",
    "Verif.C73_decisions",
    "Verif.C73_layout_fails"
   ],
   "note": "Code builds a program (C73_program), and for supported programs names, objective and constraints show what NumPy computes in everything that can be seen (C73_partial). Missing: programs outside Script.Supported, where with scalars of varying size, in-place extension of sums and products (see C62). False if a slice separates an integer from index arrays (C73_layout_fails). Whole models: symbols are taken to report the shape of their values (DESIGN section 1; the exception is C23_shape_fails)."
  },
  {
   "property": "C74",
   "status": "partial",
   "theorems": [
    "Verif.C74_history",
    "Verif.C74_contexts",
    "Verif.C74_refused",
    "Verif.C74_protected_partial",
    "Verif.C74_restores",
    "Verif.C74_after",
    "Verif.C74_block_partial",
    "Verif.C74_unlock_fails",
    "Verif.C74_exception_fails",
    "Verif.C74_inplace_fails"
   ],
   "note": "Code with nested with-blocks, kept context managers, exceptions, handlers and refused locks; every execution without undefined behaviour. Refuted for x += y in a block (C74_inplace_fails), and, beyond the statement, for bodies that call unlock() or lock() themselves (C74_unlock_fails, C74_exception_fails)."
  },
  {
   "property": "C75",
   "status": "partial",
   "theorems": [
    "Verif.C75_python_partial",
    "Verif.C75_terminates",
    "Verif.C75_no_extension",
    "Verif.C75_terminates_fails",
    "Verif.C75_histories",
    "Verif.C75_refused_partial",
    "Verif.C75_stays_refused",
    "Verif.C75_index_fails",
    "Verif.C75_state_fails",
    "Verif.C75_extend_fails"
   ],
   "note": "Proved for locks, symbols, operands, order, decisions and their indices, objective and constraints, after any operation that raises, and that refusals are repeated after any continuation (C++ functions). From Python, operations that raise leave the model exactly as it was (C75_python_partial), but sorting a model with a cycle terminates the program instead of raising (C75_terminates, C75_terminates_fails); this needs an extension in place (C75_no_extension). Refuted for the indices of other symbols, for callers that catch the C++ exception (C75_index_fails, C75_state_fails, C75_extend_fails)."
  },
  {
   "property": "C76",
   "status": "partial",
   "theorems": [
    "Verif.C76_code_partial",
    "Verif.C76_raises_partial",
    "Verif.C76_unequal",
    "Verif.C76_constant",
    "Verif.C76_number",
    "Verif.C76_truth",
    "Verif.C76_index_partial",
    "Verif.C76_power",
    "Verif.C76_unequal_fails",
    "Verif.C76_chained_fails",
    "Verif.C76_number_fails",
    "Verif.C76_truth_fails",
    "Verif.C76_index_fails"
   ],
   "note": "Code with comparisons shows what NumPy computes (C76_code_partial, with C62's conditions); comparisons of constants with numbers, truth values, conversions and powers proved. Exceptions leave the model unchanged except for != of two symbols (C76_raises_partial, C76_unequal_fails, C76_chained_fails). False: x == 5 (C76_number_fails), bool of one-element arrays (C76_truth_fails), __index__ from 2^63 on (C76_index_fails)."
  },
  {
   "property": "C77",
   "status": "partial",
   "theorems": [
    "Verif.C77_undisturbed_partial",
    "Verif.C77_locked",
    "Verif.C77_new_symbols_fails",
    "Verif.C77_successors_fails",
    "Verif.C77_removed_fails",
    "Verif.C77_lock_fails"
   ],
   "note": "All histories, collections and capacities; bodies that do not do anything to the collection (C77_undisturbed_partial), and all bodies without unlock() in a locked model, except for constraints (C77_locked). Refuted for bodies that create (C77_new_symbols_fails, C77_successors_fails) or remove symbols (C77_removed_fails) or lock the model (C77_lock_fails)."
  },
  {
   "property": "C78",
   "status": "partial",
   "theorems": [
    "Verif.C78_alive",
    "Verif.C78_copied",
    "Verif.C78_shared",
    "Verif.C78_unwritten_partial",
    "Verif.C78_single",
    "Verif.C78_stats_fails",
    "Verif.C78_index_fails",
    "Verif.C78_stale_fails",
    "Verif.C78_readonly_fails",
    "Verif.C78_order_fails"
   ],
   "note": "Memory safety, copies, sharing and small constants are proved for all programs; correctness of cached statistics of shared arrays needs that nothing is written into them (C78_unwritten_partial). False after writes, for read-only arrays and for arrays of doubles in another order."
  },
  {
   "property": "C79",
   "status": "partial",
   "theorems": [
    "Verif.C79_partial",
    "Verif.C79_total",
    "Verif.C79_operands",
    "Verif.C79_negative_fails",
    "Verif.C79_array_fails",
    "Verif.C79_unchecked_fails",
    "Verif.C79_dynamic_fails"
   ],
   "note": "Proved for sequences of array symbols of fixed sizes (empty ones included) and axes counted from the front; no undefined behaviour for any argument. False for negative axes, single arrays, the axis of a single operand, symbols of changing size."
  },
  {
   "property": "C80",
   "status": "partial",
   "theorems": [
    "Verif.C80_accepted",
    "Verif.C80_others_partial",
    "Verif.C80_checked",
    "Verif.C80_shares",
    "Verif.C80_model",
    "Verif.C80_none_fails",
    "Verif.C80_function_fails",
    "Verif.C80_functions"
   ],
   "note": "What is accepted is proved for all classes; undefined for None in typed parameters (C80_none_fails, C80_function_fails)."
  },
  {
   "property": "C81",
   "status": "partial",
   "theorems": [
    "Verif.C81_accepted_partial",
    "Verif.C81_value",
    "Verif.C81_biases",
    "Verif.C81_rows_fails",
    "Verif.C81_third_row_fails",
    "Verif.C81_wrap_fails",
    "Verif.C81_fraction_fails"
   ],
   "note": "Proved for indices of 32 bits and arrays of coordinates with two rows: which arguments are accepted, the value after every history, the coefficients. False otherwise: one row reads beyond the array, further rows are ignored, indices beyond 32 bits wrap around and fractions are truncated."
  },
  {
   "property": "C82",
   "status": "partial",
   "theorems": [
    "Verif.C82_integer_partial",
    "Verif.C82_binary_partial",
    "Verif.C82_states",
    "Verif.C82_fixed",
    "Verif.C82_fraction_fails",
    "Verif.C82_range_fails",
    "Verif.C82_size_fails",
    "Verif.C82_size"
   ],
   "note": "Proved for bounds that are whole numbers of 32 bits and shapes with fewer than 2^31 elements. False otherwise: the number of elements is kept in 32 bits, fractions are truncated and larger bounds are undefined."
  },
  {
   "property": "C83",
   "status": "partial",
   "theorems": [
    "Verif.C83_list_partial",
    "Verif.C83_set_partial",
    "Verif.C83_dynamic",
    "Verif.C83_states",
    "Verif.C83_disjoint",
    "Verif.C83_size_fails"
   ],
   "note": "Proved for fixed sizes below 2^31 and for sets of changing size and divisions without a limit. False for longer lists, whose number of elements is kept in 32 bits."
  },
  {
   "property": "C84",
   "status": "proved",
   "theorems": [
    "Verif.C84_edges",
    "Verif.C84_new",
    "Verif.C84_counts",
    "Verif.C84_pruned"
   ],
   "note": "All histories of operations; the empty model, every operation that is carried out, and pruning."
  },
  {
   "property": "C85",
   "status": "partial",
   "theorems": [
    "Verif.C85_indexed_partial",
    "Verif.C85_constant_partial",
    "Verif.C85_kept_fails"
   ],
   "note": "Constant or fixed-size A without zero dimensions, all accepted index tuples (those of C32_indexed_partial when A changes), all histories, pending changes and earlier questions in other states. Missing: A of varying size (where C32 itself fails). A span kept past a question in another state shows that state's shape (C85_kept_fails)."
  }
 ]
}