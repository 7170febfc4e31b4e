{
 "C01": ["proved", "all histories of the array state's operations, commits and reverts"],
 "C02": ["proved", "all histories; array and scalar states"],
 "C03": ["proved", "all histories"],
 "C04": ["partial", "false of the code (out-of-bounds read, C04_dedup_fails); net effect proved whenever the function returns, and the exact set of legal scripts on which it does not"],
 "C05": ["proved", "explicit and default initial contents, all histories; a default list symbol with max_size<n only ever draws from 0..max_size-1 (C05_list_default_never_reaches)"],
 "C06": ["proved", "all collections and histories"],
 "C07": ["partial", "partition, diffs and reverts proved for all histories; rejection of non-partitions is false of the code (C07_bitsets_rejects_fails), the checks it does make are proved"],
 "C08": ["proved", "all histories; bulk assignment of single lists can leave the partition in between, as the code documents"],
 "C09": ["proved", "integer and binary symbols, all histories, caught rejections included"],
 "C10": ["proved", "all starts, stops, steps and sizes that fit ssize_t (step = minimum value excluded where negating it overflows); size() before fit overflows (C10_unfitted_size_fails)"],
 "C11": ["proved", "all shapes, dynamic leading dimensions included"],
 "C12": ["proved", "all shapes and in-range indices"],
 "C13": ["partial", "sizes, strides, and contiguity of non-empty and dynamic arrays proved; an empty array can be reported non-contiguous (C13_contiguous_empty_fails)"],
 "C14": ["partial", "all moves proved; taking a difference corrupts the operands (C14_difference_fails) and divides by zero for a zero stride; the value of a difference is proved otherwise"],
 "C15": ["proved", "all operation sequences, without machine overflow"],
 "C16": ["partial", "whole models of the catalog's symbols and of programs with indexing: reports are right and substitution to any depth is sound for unsliced symbols; chains with non-negative slices; the general slice bounds are false of the code (C16_slice_substitute_fails, C16_step_substitute_fails, C16_step_fails, C16_start_step_fails), and so are those of A[x, :] (C16_rows_fails)"],
 "C17": ["proved", "every history of model operations up to a lock of a cyclic model; the state a failed lock leaves behind is not modelled"],
 "C18": ["partial", "lock counting, frozen structure and decision indices proved for all histories; x += y on a locked model is not refused but runs into an assertion (C18_locked_inplace_fails)"],
 "C19": ["partial", "Full statement for distinct, independent sources (C19_descendants, C19_descendants_sources). When one changed source depends on another or is repeated it is processed twice: C19_nested_sources_fails."],
 "C20": ["proved", "every model without a cycle reached by any history"],
 "C21": ["proved", "For every model whose symbols keep the symbol contract (Spec/Node.lean); the contract is proved for concrete symbols under C22-C34."],
 "C22": ["proved", "Unary symbols: value after any history of accepted and rejected proposals equals the pointwise function of the operand."],
 "C23": ["partial", "Values, reports, commit and revert proved except for a one-element operand of as many dimensions as the dynamic one, where C23_dynamic_fails reaches undefined behaviour. Reported size proved for the same shapes; reported shape except when the dynamic left operand has one element, where it is wrong (C23_shape_fails) and makes a further operation or a slice undefined (C23_chain_fails, C23_slice_fails)."],
 "C24": ["proved", "N-ary symbols, both the recomputing and the inverse-based update strategies; arithmetic is exact."],
 "C25": ["proved", "All six whole-array reductions, dynamic arrays included; arithmetic is exact."],
 "C26": ["partial", "Every shape with positive dimensions and every axis less than the number of elements; C26_axis_fails: for other axes a wrong assertion fires on the first change."],
 "C27": ["proved", "Selection between two arrays: value, diff, commit and revert for array and single conditions, including dynamic operands"],
 "C28": ["partial", "Accepted shapes characterised; value correct after initialisation and along committed histories; exact reports and reverts when only first elements of operands change. The reported change and revert are wrong in general (C28_diff_fails, C28_revert_fails: manipulation.cpp 163 records the first element of the block as the old value)"],
 "C29": ["proved", "Reshape passes its operand through with the new shape; accepted exactly when sizes agree; size reports the current number of elements"],
 "C30": ["partial", "Which index tuples are accepted and that the view has NumPy's elements is proved for every fixed-shape operand and index tuple; that every change is reported is proved for contiguous views and for one-dimensional views whose start is below the step; for other strided views it is false (C30_columns_fails, C30_late_start_fails, C30_column_fails) and some empty selections violate an assertion (C30_empty_fails). A zero step terminates a Python program instead of raising (C30_zero_step_fails; C30_python_partial for the others)."],
 "C31": ["partial", "Proved: views of dynamic arrays have NumPy's elements whenever the step is 1 or the start is 0 (C31_view_partial); contiguous views of lists with any [a:b], and whole-row views, follow every history of growing, shrinking and changing exactly (C31_tracks_partial). The property is false of the code for strided views (wrong elements, missed removals, assertion), for row slices with more than one element per row, for empty row selections and for columns (C31_*_fails)."],
 "C32": ["partial", "Constant or fixed-size array without zero dimensions, changing together with the index arrays (which may grow and shrink): value, reported changes, revert and reverse lookup, for every mode except index arrays separated by a slice behind a leading slice, where it is false (C32_separated_fails). Missing: indexed arrays of varying size, for which C32_column_fails, C32_rows_fails and C32_replaced_fails show failures; zero dimensions fail (C32_empty_fails)."],
 "C33": ["partial", "Two dimensions, at least 1 x 1 and at most 2^28 elements: proved for every history, shown to be the composition of the two indexings, and part of whole programs when the order is a list or a constant (C40, C58). False in one and three dimensions, for out-of-range orders (accepted), empty matrices and matrices of more than 2^28 elements (C33_*_fails)."],
 "C34": ["proved", "exact arithmetic; bulk add/get methods are loops over the modelled ones"],
 "C35": ["partial", "per symbol and for whole models and programs with indexing after any history of proposals; false of the code for square of a possibly negative operand, abs of an empty range and divide (proved); exact arithmetic, finite results"],
 "C36": ["partial", "sum, product, all, any, partial sum, per symbol and for whole models and programs with indexing; greatest and least only for non-empty arrays (false for empty ones with an initial value, proved); false for sums of A[x, :] (C36_rows_fails)"],
 "C37": ["partial", "all modelled symbols, per symbol and for whole models and supported programs with indexing, in exact arithmetic"],
 "C38": ["proved", "exact arithmetic"],
 "C39": ["proved", "Every history of setting, resetting, reading, initialising and relocking, for symbols that keep the symbol contract; C39_never_stale_catalog discharges the contract for the symbols of the catalog, C39_program_partial for models made by supported programs."],
 "C40": ["partial", "Models of any shape built from the catalog of symbols (all decisions, constants, outputs of disjoint collections, element-wise operations, n-ary operations, reductions, partial sums, reshape, size, where, quadratic models), and supported programs which also contain basic and advanced indexing and A[x, :][:, x] with lists and constants x (Script.Supported), for every history of constructions and then every history of proposals; missing: A[x, :][:, x] with other x, concatenate (whose incremental evaluation is wrong, C28), indexing that Script.Supported excludes, parts of which go wrong (C30, C31, C32). Whole models: symbols are taken to report the shape of their values (DESIGN section 1; the exception is C23_shape_fails)."],
 "C41": ["partial", "Round trip proved for every history of the modelled symbol kinds and every number of states, complete and with only the decisions, including order, operands, objective, constraints and values; the hypotheses about ranges are proved for histories without in-place additions. Every accepted file describes a model a user could have built. Indexing symbols are in C69. Six ways in which the claim fails are proved (sparse states of disjoint lists, saving again after only_decision, in-place changes, unchecked numbers, truncated files, repeated parts)."],
 "C42": ["partial", "For hooks that neither raise nor hand over another future, every history of operations shows what the eager list shows (C42_list); for hooks that may raise, each is called exactly once before any other access (C42_future_once). It fails for hooks that hand over another future (C42_chained_fails): the access goes on with a future pending, and from_future drops it."],
 "C43": ["proved", "Exact arithmetic; each query is a sequence of sequentially consistent steps, interleaved arbitrarily."],
 "C44": ["partial", "Proved for all models that can be built and all symbols that are not themselves NaryMultiply; false for NaryMultiply symbols (C44_product_fails): m ** 3 changes m into a product with itself."],
 "C45": ["partial", "choice and reading proved for all models of the catalog's symbols, for supported programs with indexing, and all histories; an accepted constraint can later be changed in place so that it is no longer logical (C45_in_place_fails). Whole models: symbols are taken to report the shape of their values (DESIGN section 1; the exception is C23_shape_fails)."],
 "C46": ["partial", "all histories of default moves, commits and reverts keep valid states: sets fully, others except empty arrays and integers with a negative lower bound, for which the move is undefined (proved); a set started by default never reaches elements from max_size on (C46_set_never_reaches)"],
 "C47": ["partial", "Proved for every non-empty selection from fixed-size and dynamic arrays: the reported indices are accepted again, give the same shape and select the same coordinates. False of the code for empty selections (A[1, 3:] cannot be loaded; A[:, 3:, 2] changes shape) and for arrays of shape (3, 0) (division by zero): C47_*_fails."],
 "C48": ["partial", "Proved for every catalogued symbol except n-ary ones, and for in-place additions, objectives and constraints; false for n-ary symbols and Concatenate (C48_nary_fails, C48_concatenate_fails), with an exact description of what is left behind. The constructors of indexing symbols change nothing when they throw (C48_indexing); x[...] leaves at most an unused slice (C48_getitem_partial), and sometimes does (C48_getitem_fails)."],
 "C49": ["proved", "proved for every square matrix with at least one city (C49_tsp); rejected otherwise (C49_rejects); a matrix without cities raises IndexError (C49_no_cities_fails). Elements and sums are rational numbers."],
 "C50": ["proved", "proved for at least one item (C50_knapsack), rejected otherwise (C50_rejects); without items the set is not dynamic and is left out. Elements and sums are rational numbers."],
 "C51": ["proved", "job_shop_scheduling modelled symbol by symbol; states, feasibility and objective are those of the problem, also after every history of proposals; what is accepted is characterised. Times are whole numbers as numpy's integer conversion has made them; upper bound at most 2e9 as for every integer variable."],
 "C52": ["partial", "quadratic_assignment modelled symbol by symbol; proved for 1 x 1 up to 2^28 elements, in every state and after every history of proposals; rejected arguments characterised. False for 0 x 0 matrices (C52_no_facilities_fails: accepted, then undefined behaviour when a state is initialised) and beyond 2^28 elements (C33_large_fails)."],
 "C53": ["proved", "binPacking follows bin_packing call by call; the states, objective and feasibility of the built model are those of binPackingProblem, in every state and after every history; rejected arguments; every accepted problem is solvable. Rational weights; infinities and NaN not represented."],
 "C54": ["proved", "vehicleRouting follows capacitated_vehicle_routing call by call, in all three forms of its arguments; the states, objective and feasibility of the built model are those of Routing.problem, in every state and after every history; rejected arguments. Rational numbers; the square root is an arbitrary function; at most 2^63 - 1 customers."],
 "C55": ["partial", "Proved for one machine or two (C55_flowShop_partial), with the makespan characterised for all numbers of machines (C55_makespan). False for three machines (C55_three_machines_fails): the generator uses += on a symbol that is a sum already, which changes the end time of the first job on the machine before."],
 "C56": ["partial", "Supported programs: all whose reliable index arrays have declared ranges that hold and comparable sizes (Script.Supported); for those, all visible states of all histories; false in general for slices whose sizes are compared wrongly (C56_slices_fails, C56_derived_slices_fails, C56_empty_slice_fails). Whole models: symbols are taken to report the shape of their values (DESIGN section 1; the exception is C23_shape_fails)."],
 "C57": ["partial", "timeWindows follows the generator call by call. C57_limited_partial says for all arguments with 1 <= 3 * (n / vehicles) <= n + 1 what the built model encodes, in every state and after every history; this is the problem itself if moreover times between customers are symmetric, the depot closes by 1000000 and n <= 3 * (n / vehicles) (C57_partial). Outside these conditions the property is false: C57_few_vehicles_fails, C57_one_vehicle_fails, C57_many_vehicles_fails, C57_oneway_fails, C57_stops_fails, C57_late_fails. Rejected arguments are proved."],
 "C58": ["partial", "For supported programs: any mixture of integers, slices and index arrays, with x of fixed or varying size, shows NumPy's x[...] in everything that can be seen (C58_partial, C58_varying_partial), except where an integer is separated from index arrays by a slice (false, C58_layout_fails); arrays with gaps cannot be indexed (false, C58_gaps_fails). Programs may use x[...] (C58_steps). This includes A[i, :][:, i] for lists and constants i; for other i it has the value of the second indexing (C58_permutation_partial). Missing: histories for A[i, :][:, i] with other i. Whole models: symbols are taken to report the shape of their values (DESIGN section 1; the exception is C23_shape_fails)."],
 "C59": ["partial", "equals decides whether two symbols are the same expression (C59_exact) and is an equivalence relation (C59_equivalence); for plain symbols with the same decisions in the same places it implies equal values (C59_partial, C59_quantity_partial).  The claim that equal symbols represent the same quantity is false for different decisions, indexing and sums along different axes."],
 "C60": ["partial", "state_size is exact for arrays of fixed size and an upper bound for symbols of varying size that do not depend on slices (C60_partial), it is defined for those that depend on sets, lists and disjoint lists through binary operations and indexing (C60_defined_partial), and so for models (C60_model_partial).  False for A[x, :], slices with steps, unary operations of sets, and disjoint sets and lists."],
 "C61": ["partial", "Proved for all models with at least one variable and only hard constraints (C61_partial), with soft constraints read as hard (C61_hard_partial), and rejection of other variables (C61_rejects). The full statement is false for soft constraints (C61_soft_fails) and without variables (C61_no_variables_fails)."],
 "C62": ["partial", "Proved for all programs of the listed statements that do not extend a sum or product in place after it has been used, outside the exceptions of C23 and C26 and of where (C62_expressions_partial). Indexing, several axes and decisions with several outputs are not among the statements. The full statement is false: C62_extended_fails, C62_doubled_fails, C62_where_fails, C62_where_varying_fails. Whole models: symbols are taken to report the shape of their values (DESIGN section 1; the exception is C23_shape_fails)."],
 "C63": ["partial", "All histories of operations on the states of a locked model show what a table of the decisions' values says, for the symbols of the catalog (C63_states_partial) and for models made by supported programs, with indexing (C63_program_states_partial); set then get gives the same array (C63_set_get, C63_program_set_get). Partial: disjoint bit sets that are no partition, and what Script.Supported excludes. Fails: other shapes and fractions are accepted, a rejected value loses the earlier state. Whole models: symbols are taken to report the shape of their values (DESIGN section 1; the exception is C23_shape_fails)."],
 "C64": ["proved", "Symbols are given by their contracts (C11), which the catalogued symbols meet. Values that a symbol neither accepts nor refuses with an exception are excluded. Loading of files into states is given by the values in the file; the files themselves are C65."],
 "C65": ["partial", "For locked models, and models whose decisions are their first symbols (C65_order_fails otherwise); the saved model meets the conditions of C41; decisions of both models are of the same kinds with the same sizes and bounds (these are not compared by the code: C65_values_fails, C65_later_fails)."],
 "C66": ["partial", "No false alarms for arrays that start with fewer than 2^31 elements and are committed or reverted between any two propagations (C66_twice_fails, C66_large_fails otherwise); all misreports of elements, changes, sizes and ranges are caught, those of shapes not all (C66_shape_fails). The dynamic decision is exact for all histories in which its own assertions hold (C66_dynamic), and its random moves are always defined (C66_random_moves)."],
 "C67": ["partial", "Proved for whole numbers within 2^53 (sums, sums along axes, n-ary sums and products, quadratic models; products when non-zero factors change to multiples), and for element-wise symbols with any rounding. Fails for products in general and for numbers that are not whole."],
 "C68": ["partial", "Proved for sums and products of arrays, sums along axes and sums and products of several arrays, with the bounds given; quadratic models are not treated. A bound that does not depend on the number of changes fails."],
 "C69": ["partial", "Round trip proved for every program of catalog symbols, slices that select something, arrays indexed by arrays and permutations: same symbols, operands, declarations, decisions and their order, objective, constraints and values; the loaded model can be locked; states and header with and without the check of the header (C69_states_partial). Missing: slices that select nothing (proved to fail), in-place additions."],
 "C70": ["partial", "Proved for all histories of operations that leave no dangling successors, i.e. without rejected n-ary symbols (C70_rejected_fails); two models with the same graph are the same up to the order of operands, which the graph does not show (C70_order_fails)."],
 "C71": ["partial", "proved for interleaved histories of any number of models that use no symbol of one model as objective, constraint or added operand of another (C71_separate_partial, C71_outcome_partial); new symbols with operands of different models are refused without effect (C71_mixed); += and *=, minimize and add_constraint make no check, shown by C71_inplace_fails, C71_objective_fails and C71_constraint_fails"],
 "C72": ["partial", "feasible(i) after any history of states for catalog models and supported programs; fails: indices are not checked without constraints. Whole models: symbols are taken to report the shape of their values (DESIGN section 1; the exception is C23_shape_fails)."],
 "C73": ["partial", "Code builds a program (C73_program), and for supported programs names, objective and constraints show what NumPy computes in everything that can be seen (C73_partial). Missing: programs outside Script.Supported, where with scalars of varying size, in-place extension of sums and products (see C62). False if a slice separates an integer from index arrays (C73_layout_fails). Whole models: symbols are taken to report the shape of their values (DESIGN section 1; the exception is C23_shape_fails)."],
 "C74": ["partial", "Code with nested with-blocks, kept context managers, exceptions, handlers and refused locks; every execution without undefined behaviour. Refuted for x += y in a block (C74_inplace_fails), and, beyond the statement, for bodies that call unlock() or lock() themselves (C74_unlock_fails, C74_exception_fails)."],
 "C75": ["partial", "Proved for locks, symbols, operands, order, decisions and their indices, objective and constraints, after any operation that raises, and that refusals are repeated after any continuation (C++ functions). From Python, operations that raise leave the model exactly as it was (C75_python_partial), but sorting a model with a cycle terminates the program instead of raising (C75_terminates, C75_terminates_fails); this needs an extension in place (C75_no_extension). Refuted for the indices of other symbols, for callers that catch the C++ exception (C75_index_fails, C75_state_fails, C75_extend_fails)."],
 "C76": ["partial", "Code with comparisons shows what NumPy computes (C76_code_partial, with C62's conditions); comparisons of constants with numbers, truth values, conversions and powers proved. Exceptions leave the model unchanged except for != of two symbols (C76_raises_partial, C76_unequal_fails, C76_chained_fails). False: x == 5 (C76_number_fails), bool of one-element arrays (C76_truth_fails), __index__ from 2^63 on (C76_index_fails)."],
 "C77": ["partial", "All histories, collections and capacities; bodies that do not do anything to the collection (C77_undisturbed_partial), and all bodies without unlock() in a locked model, except for constraints (C77_locked). Refuted for bodies that create (C77_new_symbols_fails, C77_successors_fails) or remove symbols (C77_removed_fails) or lock the model (C77_lock_fails)."],
 "C78": ["partial", "Memory safety, copies, sharing and small constants are proved for all programs; correctness of cached statistics of shared arrays needs that nothing is written into them (C78_unwritten_partial). False after writes, for read-only arrays and for arrays of doubles in another order."],
 "C79": ["partial", "Proved for sequences of array symbols of fixed sizes (empty ones included) and axes counted from the front; no undefined behaviour for any argument. False for negative axes, single arrays, the axis of a single operand, symbols of changing size."],
 "C80": ["partial", "What is accepted is proved for all classes; undefined for None in typed parameters (C80_none_fails, C80_function_fails)."],
 "C81": ["partial", "Proved for indices of 32 bits and arrays of coordinates with two rows: which arguments are accepted, the value after every history, the coefficients. False otherwise: one row reads beyond the array, further rows are ignored, indices beyond 32 bits wrap around and fractions are truncated."],
 "C82": ["partial", "Proved for bounds that are whole numbers of 32 bits and shapes with fewer than 2^31 elements. False otherwise: the number of elements is kept in 32 bits, fractions are truncated and larger bounds are undefined."],
 "C83": ["partial", "Proved for fixed sizes below 2^31 and for sets of changing size and divisions without a limit. False for longer lists, whose number of elements is kept in 32 bits."],
 "C84": ["proved", "All histories of operations; the empty model, every operation that is carried out, and pruning."],
 "C85": ["partial", "Constant or fixed-size A without zero dimensions, all accepted index tuples (those of C32_indexed_partial when A changes), all histories, pending changes and earlier questions in other states. Missing: A of varying size (where C32 itself fails). A span kept past a question in another state shows that state's shape (C85_kept_fails)."]
}
