{"id": "C01", "title": "Reverting an array symbol restores its committed contents", "statement": "Whatever sequence of element assignments, exchanges, appends, removals, bulk assignments and replayed updates was made to an array node's values since the last commit, reverting leaves exactly the committed values (same length, same elements) and no pending changes.", "quantifier": "every committed array, every finite sequence of the buffer operations (including ones that shrink below and regrow past the committed length)", "why_tests_cant": "the sequences are unbounded and the failing ones interleave removals and placements at the same positions; tests exercise a handful of short scripts", "anchors": ["dwave/optimization/src/nodes/_state.hpp: ArrayNodeStateData::{assign,emplace_back,exchange,pop_back,set,update,revert}"]}
{"id": "C02", "title": "A node's reported diff is an exact edit script", "statement": "At any moment between commits, replaying a node's reported updates one after another on its last committed contents is always legal (placements only at the end, removals only of the last element, every stated old value is the value present at that moment) and yields exactly the current contents.", "quantifier": "every committed array and every finite sequence of buffer operations", "why_tests_cant": "successor nodes compute incrementally from the diff, so one wrong `old` in one interleaving silently corrupts downstream values; the space of interleavings is infinite", "anchors": ["dwave/optimization/src/nodes/_state.hpp: ArrayNodeStateData", "dwave/optimization/include/dwave-optimization/array.hpp: Update", "dwave/optimization/src/nodes/testing.cpp: ArrayValidationNode::propagate"]}
{"id": "C03", "title": "Committing fixes the new baseline", "statement": "After a commit the values are unchanged, no changes are pending, the size difference is zero, and a later revert comes back to the values at the commit. Between commits the reported size difference is the current length minus the committed length.", "quantifier": "every history of operations, commits and reverts", "why_tests_cant": "histories are unbounded", "anchors": ["dwave/optimization/src/nodes/_state.hpp: ArrayNodeStateData::{commit,size_diff}; ScalarNodeStateData"]}
{"id": "C04", "title": "Deduplicating a diff preserves its net effect", "statement": "For every legal edit script, deduplication terminates without reading outside the list, leaves at most one update per index in increasing index order, never reports an element as both placed and removed, and the reduced list has the same net effect on the array.", "quantifier": "every legal diff of any length over any array", "why_tests_cant": "needs all interleavings of placements and removals on many indices; the failing one needs two fresh indices both placed and removed", "anchors": ["dwave/optimization/src/utils.cpp: deduplicate_diff", "dwave/optimization/include/dwave-optimization/utils.hpp"]}
{"id": "C05", "title": "Set and list decision symbols always hold distinct in-range elements", "statement": "Starting from any valid initial contents, after any sequence of exchange, rotate, grow, shrink, commit and revert, the elements of a set/list symbol together with its hidden tail are a permutation of 0..n-1, so the visible elements are pairwise distinct integers in range and the visible size stays within the declared minimum and maximum size.", "quantifier": "every n, every admissible initial contents, every sequence of moves, commits and reverts", "why_tests_cant": "an invariant over unbounded histories", "anchors": ["dwave/optimization/src/nodes/collections.cpp: CollectionStateData, CollectionNode", "dwave/optimization/include/dwave-optimization/nodes/collections.hpp: ListNode, SetNode"]}
{"id": "C06", "title": "Set and list moves are reversible and reported exactly", "statement": "After any sequence of moves on a set/list symbol the reported diff replays the committed visible elements to the current visible elements, and revert restores the committed visible elements and size.", "quantifier": "every symbol, every finite sequence of moves", "why_tests_cant": "needs every interleaving of grow/shrink with exchanges across the visible boundary", "anchors": ["dwave/optimization/src/nodes/collections.cpp: CollectionStateData::{exchange,rotate,grow,shrink,revert,commit}"]}
{"id": "C07", "title": "Disjoint bit sets always partition the primary set", "statement": "In every state reachable by moves, commits and reverts, each element of the primary set is in exactly one of the disjoint bit sets; each set's diff replays its committed bits to its current bits and revert restores them. Initial contents that are not a partition are rejected.", "quantifier": "every primary set size and number of sets, every initial contents, every sequence of moves", "why_tests_cant": "unbounded histories; rejected inputs range over all bit matrices", "anchors": ["dwave/optimization/src/nodes/collections.cpp: DisjointBitSetsNodeData, DisjointBitSetsNode"]}
{"id": "C08", "title": "Disjoint lists always partition the primary set", "statement": "In every state reachable by swaps, rotations, pops to another list, bulk assignment, commits and reverts, the concatenation of the lists is a permutation of 0..n-1; every list's diff replays its committed contents to its current contents and revert restores every list. Initial contents which are not a partition are rejected.", "quantifier": "every n, every number of lists, every valid initial contents, every sequence of moves", "why_tests_cant": "unbounded histories of moves over several lists", "anchors": ["dwave/optimization/src/nodes/collections.cpp: DisjointListStateData, DisjointListsNode"]}
{"id": "C09", "title": "Number symbols never leave their bounds", "statement": "After any sequence of accepted mutations (set, exchange, flip, commit, revert) every element of an integer/binary symbol is an integer between the declared lower and upper bound, rejected initial values never create a state, and the diff is exact.", "quantifier": "every shape, every bounds pair, every history of mutations", "why_tests_cant": "unbounded histories, all bounds", "anchors": ["dwave/optimization/src/nodes/numbers.cpp: NumberNode, IntegerNode, BinaryNode", "dwave/optimization/include/dwave-optimization/nodes/numbers.hpp"]}
{"id": "C10", "title": "Slices follow Python's semantics", "statement": "Fitting a slice to a dimension of size n and taking its size gives the same start, stop, step and length as Python's slice.indices(n) and len(range(...)) for every start/stop (present, absent or negative), every non-zero step and every n; a zero step is rejected.", "quantifier": "all start, stop, step values and all sizes", "why_tests_cant": "three unbounded integers with sign/clamp cases", "anchors": ["dwave/optimization/include/dwave-optimization/array.hpp: Slice::{Slice,fit,size,empty}"]}
{"id": "C11", "title": "Shape broadcasting follows NumPy", "statement": "Broadcasting two shapes succeeds exactly when NumPy's rule allows, returns NumPy's shape, is symmetric in its arguments, and is rejected otherwise; dynamic leading dimensions are handled consistently.", "quantifier": "all pairs of shapes of any rank", "why_tests_cant": "unbounded ranks and dimensions", "anchors": ["dwave/optimization/src/array.cpp: broadcast_shape, broadcast_shapes"]}
{"id": "C12", "title": "Flat and multi-dimensional indices are inverse", "statement": "For every shape, unravelling a valid flat index gives in-range coordinates and ravelling those coordinates gives the flat index back, and conversely.", "quantifier": "all shapes, all in-range indices", "why_tests_cant": "unbounded ranks and dimensions", "anchors": ["dwave/optimization/src/array.cpp: unravel_index, ravel_multi_index"]}
{"id": "C13", "title": "Strides, sizes and contiguity agree", "statement": "The strides derived from a shape are row-major; the element count is the product of the dimensions; an array is reported contiguous exactly when walking it in row-major order visits consecutive memory.", "quantifier": "all shapes and stride vectors", "why_tests_cant": "unbounded ranks", "anchors": ["dwave/optimization/include/dwave-optimization/array.hpp: Array::{shape_to_size,shape_to_strides,is_contiguous}"]}
{"id": "C14", "title": "Iterating a strided array visits every element once in row-major order", "statement": "Advancing an array iterator n times, in one jump or step by step, forwards or backwards, reaches the n-th element in row-major order, and stepping forward then backward returns to the same element; taking a difference of two iterators leaves them usable.", "quantifier": "all shapes, strides and jumps", "why_tests_cant": "unbounded rank, wrap-around cases in every dimension", "anchors": ["dwave/optimization/include/dwave-optimization/array.hpp: ArrayIterator, ShapeInfo::{increment,increment1,decrement1}"]}
{"id": "C15", "title": "Fractions are exact rationals in lowest terms", "statement": "Every fraction produced by construction, multiplication and division equals the mathematical rational, is in lowest terms with positive denominator, a zero denominator is rejected, and equality is mathematical equality.", "quantifier": "all integers and all operation sequences", "why_tests_cant": "infinite domain", "anchors": ["dwave/optimization/include/dwave-optimization/utils.hpp: fraction"]}
{"id": "C16", "title": "Static size bounds contain the run-time size", "statement": "The minimum and maximum size a dynamic symbol reports statically contain its run-time size in every reachable state, also after following the chain of symbols it derives its size from.", "quantifier": "every chain of size-deriving symbols, every slice, every run-time size", "why_tests_cant": "the bound has to hold for every future state and every slice parameter", "anchors": ["dwave/optimization/src/array.cpp: SizeInfo::substitute", "dwave/optimization/src/nodes/indexing.cpp: BasicIndexingNode::sizeinfo", "dwave/optimization/src/nodes/manipulation.cpp: SizeNode::{min,max}"]}
{"id": "C17", "title": "Locking orders the model topologically", "statement": "Locking a model succeeds for every acyclic model, gives each symbol a distinct index 0..n-1, keeps every decision first with the index it had, and every symbol comes after all of its predecessors; a cyclic model is rejected; relocking after unlock gives decisions the same indices.", "quantifier": "every finite graph", "why_tests_cant": "all graph shapes and insertion orders", "anchors": ["dwave/optimization/src/graph.cpp: Graph::{topological_sort,reset_topological_sort}", "dwave/optimization/include/dwave-optimization/graph.hpp: Graph::emplace_node"]}
{"id": "C18", "title": "Locks nest and protect the structure", "statement": "A model is locked exactly while more locks than unlocks have been issued (extra unlocks are ignored); while locked no symbol can be added or removed; decisions keep their index for life.", "quantifier": "every sequence of lock, unlock, add, remove", "why_tests_cant": "unbounded histories", "anchors": ["dwave/optimization/_model.pyx: _Graph.{lock,unlock,is_locked,remove_unused_symbols}", "dwave/optimization/include/dwave-optimization/graph.hpp: emplace_node"]}
{"id": "C19", "title": "A proposal updates exactly the affected symbols in dependency order", "statement": "For changed decisions, the set of symbols processed is exactly the decisions plus everything reachable from them, each once, in an order where predecessors come first, and no bookkeeping marks are left behind.", "quantifier": "every graph, every set of changed decisions", "why_tests_cant": "all graph shapes", "anchors": ["dwave/optimization/src/graph.cpp: Graph::descendants"]}
{"id": "C20", "title": "Removing unused symbols removes exactly the unneeded ones", "statement": "Removal keeps every decision, objective, constraint, symbol still referenced by the user, symbol that is never removable, and everything these depend on; it removes every other symbol; it returns the number removed and leaves the edges among survivors intact.", "quantifier": "every graph, every choice of objective/constraints/references", "why_tests_cant": "all graph shapes; requires both directions (nothing needed removed, nothing unneeded kept)", "anchors": ["dwave/optimization/src/graph.cpp: Graph::remove_unused_nodes"]}
{"id": "C21", "title": "A proposal is atomic", "statement": "After proposing moves, if the acceptance test says yes then all symbols hold the new consistent values as the committed state; if it says no then every symbol is exactly as before. The acceptance test sees the fully propagated state.", "quantifier": "every model, every state, every set of moves, every acceptance function", "why_tests_cant": "all models and histories", "anchors": ["dwave/optimization/src/graph.cpp: Graph::{propose,propagate,commit,revert}"]}
{"id": "C22", "title": "Element-wise unary symbols equal recomputation", "statement": "After any change of the input (including growth and shrinking) the incrementally updated value of a unary symbol equals applying the function to every element of the input; its diff is exact; revert restores.", "quantifier": "every function, every input history", "why_tests_cant": "unbounded input histories", "anchors": ["dwave/optimization/src/nodes/mathematical.cpp: UnaryOpNode"]}
{"id": "C23", "title": "Element-wise binary symbols equal recomputation", "statement": "After any change of either input, the value of a binary symbol equals element-wise application with scalar broadcasting; its diff is exact, its size matches and revert restores.", "quantifier": "every operation, all pairs of shapes accepted by the constructor (including dynamic ones), every input history", "why_tests_cant": "the wrong cases depend on run-time sizes coinciding", "anchors": ["dwave/optimization/src/nodes/mathematical.cpp: BinaryOpNode"]}
{"id": "C24", "title": "N-ary symbols equal recomputation", "statement": "After any change of any operand the n-ary sum, product, maximum or minimum equals the element-wise fold over all operands, including when a factor passes through zero; diff exact; revert restores.", "quantifier": "any number of operands, every history of changes in exact arithmetic", "why_tests_cant": "division by a zero factor occurs only in particular histories", "anchors": ["dwave/optimization/src/nodes/mathematical.cpp: NaryOpNode"]}
{"id": "C25", "title": "Reductions equal recomputation", "statement": "After any change of the input (including growth and shrinking) sum, prod, all, any, max and min equal the reduction of the current elements with the initial value; revert restores the value and the hidden counters.", "quantifier": "every input history in exact arithmetic", "why_tests_cant": "running counters and running maxima can drift only after long histories", "anchors": ["dwave/optimization/src/nodes/mathematical.cpp: ReduceNode"]}
{"id": "C26", "title": "Partial sums equal recomputation", "statement": "For every shape and axis, each element of a partial sum equals the sum along that axis after any sequence of input changes, and every input element contributes to exactly the right output element.", "quantifier": "all shapes, axes and histories in exact arithmetic", "why_tests_cant": "index arithmetic over unbounded ranks", "anchors": ["dwave/optimization/src/nodes/mathematical.cpp: PartialReduceNode"]}
{"id": "C27", "title": "where() selects element-wise and stays correct when the condition flips", "statement": "After any changes of condition, x and y, a where symbol equals the element-wise (or whole-array, for a scalar condition) selection, including size changes; diff exact; revert restores.", "quantifier": "all conditions and histories", "why_tests_cant": "flip parity and simultaneous changes", "anchors": ["dwave/optimization/src/nodes/flow.cpp: WhereNode"]}
{"id": "C28", "title": "Concatenation equals recomputation and reverts exactly", "statement": "After any change of the inputs, the concatenation holds the inputs' elements at the right positions, its diff is exact, and revert restores the committed values.", "quantifier": "all shapes, axes, histories", "why_tests_cant": "wrong old values only show when the change is not at the first element and is then rejected", "anchors": ["dwave/optimization/src/nodes/manipulation.cpp: ConcatenateNode"]}
{"id": "C29", "title": "Reshape and size reflect their input", "statement": "A reshaped symbol has the same elements in the same order as its input and the same diff; a size symbol always equals the current number of elements.", "quantifier": "all shapes and histories", "why_tests_cant": "infinite shapes", "anchors": ["dwave/optimization/src/nodes/manipulation.cpp: ReshapeNode, SizeNode"]}
{"id": "C30", "title": "Basic indexing of fixed-size arrays reports every change", "statement": "For every fixed-size array and every basic index, the elements of the view are those NumPy would select, and after any change of the array the reported diff is an exact edit script for the view.", "quantifier": "all shapes, all index tuples, all changes", "why_tests_cant": "strided multi-dimensional views have infinitely many layouts", "anchors": ["dwave/optimization/src/nodes/indexing.cpp: BasicIndexingNode"]}
{"id": "C31", "title": "Basic indexing of dynamic arrays tracks resizing", "statement": "For a slice of a dynamic array, after any sequence of changes, growth and shrinking of the array, the view equals the Python slice of the current contents and the reported diff is an exact edit script; revert restores.", "quantifier": "all slices with positive step, all edit scripts of the array", "why_tests_cant": "the false-removal and delta windows interact in unboundedly many ways", "anchors": ["dwave/optimization/src/nodes/indexing.cpp: BasicIndexingNode::propagate"]}
{"id": "C32", "title": "Advanced indexing equals gathering", "statement": "After any change of the index arrays and of the indexed array, A[i, j, ...] equals gathering the addressed elements, the reverse lookup used for incremental updates is consistent, the diff is exact and revert restores.", "quantifier": "all index histories, all array histories", "why_tests_cant": "simultaneous change of indices and indexed array", "anchors": ["dwave/optimization/src/nodes/indexing.cpp: AdvancedIndexingNode"]}
{"id": "C33", "title": "Permuting a square array equals recomputation", "statement": "For an order array that is a permutation, the permuted array equals A[order][:, order] after any change of the order; out-of-range orders are rejected.", "quantifier": "all square arrays of any rank, all order histories", "why_tests_cant": "ranks other than two", "anchors": ["dwave/optimization/src/nodes/indexing.cpp: PermutationNode"]}
{"id": "C34", "title": "The quadratic model's incremental energy equals its definition", "statement": "After building a model from any sequence of bias updates and any sequence of state changes, the value equals sum of linear, square and pairwise terms; set/get/add of biases obey the map laws and are symmetric.", "quantifier": "all sequences of bias updates, all state histories in exact arithmetic", "why_tests_cant": "algebraic identity over all states", "anchors": ["dwave/optimization/src/nodes/quadratic_model.cpp: QuadraticModel, QuadraticModelNode"]}
{"id": "C35", "title": "Declared value ranges contain all element-wise results", "statement": "The minimum and maximum a unary, binary, n-ary or where symbol declares bound every value it can take when its inputs stay within their own declared ranges.", "quantifier": "all input ranges and all input values", "why_tests_cant": "infinite ranges with sign cases", "anchors": ["dwave/optimization/src/nodes/mathematical.cpp: BinaryOpNode::{min,max}, NaryOpNode::{min,max}, UnaryOpNode::{min,max}", "dwave/optimization/src/nodes/flow.cpp: WhereNode::{min,max}"]}
{"id": "C36", "title": "Declared value ranges contain all reduction results", "statement": "The minimum and maximum a reduction or partial sum declares bound its value for every input within its declared range and every admissible size, including empty arrays.", "quantifier": "all ranges, sizes and initial values", "why_tests_cant": "unbounded sizes; the empty case", "anchors": ["dwave/optimization/src/nodes/mathematical.cpp: ReduceNode::{min,max}, PartialReduceNode::{min,max}"]}
{"id": "C37", "title": "Symbols declared integral only take integer values", "statement": "If a symbol declares itself integral then its value is an integer whenever its inputs satisfy their own integrality declarations.", "quantifier": "all operations and inputs", "why_tests_cant": "infinite inputs", "anchors": ["dwave/optimization/src/nodes/mathematical.cpp: *::integral", "dwave/optimization/src/utils.cpp: is_integer"]}
{"id": "C38", "title": "Modulus agrees with NumPy", "statement": "The modulus operation returns 0 for a zero divisor and otherwise the remainder with the sign of the divisor, smaller than it in magnitude and congruent to the dividend.", "quantifier": "all pairs of numbers in exact arithmetic", "why_tests_cant": "infinite domain with four sign cases", "anchors": ["dwave/optimization/include/dwave-optimization/nodes/mathematical.hpp: functional::modulus"]}
{"id": "C39", "title": "Lazily computed states are never stale", "statement": "After any sequence of setting decision states, resetting and reading symbols, the state read for any symbol is the one computed from the current decision states, and reading initialises only what is needed.", "quantifier": "every model, every sequence of set/reset/read on a state", "why_tests_cant": "unbounded histories over all graphs", "anchors": ["dwave/optimization/src/graph.cpp: Graph::{recursive_initialize,recursive_reset,initialize_state}", "dwave/optimization/states.pyx"]}
{"id": "C40", "title": "Incremental evaluation of a whole model equals evaluation from scratch", "statement": "For every model built from the supported symbols and every history of proposals, each symbol's values equal those obtained by initialising a fresh state from the current decision values.", "quantifier": "every model (any DAG of supported symbols), every history", "why_tests_cant": "composition over all DAGs and all histories", "anchors": ["dwave/optimization/src/graph.cpp", "dwave/optimization/src/nodes/"]}
{"id": "C41", "title": "Serialisation round-trips", "statement": "Saving a model and loading it back gives a model with the same symbols in the same order, the same connections, objective, constraints and saved decision states; malformed node lists are rejected.", "quantifier": "every locked model and every number of saved states", "why_tests_cant": "all graph shapes", "anchors": ["dwave/optimization/_model.pyx: _Graph.{into_file,from_file}"]}
{"id": "C42", "title": "The state list behaves like a resizable list", "statement": "Resizing keeps the first states, adds uninitialised ones, clearing removes all, negative sizes are rejected, a pending future is resolved exactly once before any access, and indices outside the list are rejected.", "quantifier": "every sequence of resize, clear, from_future and access", "why_tests_cant": "unbounded histories", "anchors": ["dwave/optimization/states.pyx: States"]}
{"id": "C43", "title": "Constants describe their own values correctly", "statement": "A constant's declared minimum, maximum and integrality are exactly those of its elements (0, 0 and true when empty), whether or not they are cached and in whatever order they are queried.", "quantifier": "all constant arrays, all query orders", "why_tests_cant": "infinite inputs, cache histories", "anchors": ["dwave/optimization/src/nodes/constants.cpp: ConstantNode"]}
{"id": "C44", "title": "Symbol powers equal repeated multiplication", "statement": "x ** n for a positive integer n denotes the n-fold product of x and does not change x.", "quantifier": "all symbols including ones that are themselves n-ary products, all n", "why_tests_cant": "depends on the kind of symbol x is", "anchors": ["dwave/optimization/_model.pyx: ArraySymbol.{__pow__,__imul__}", "dwave/optimization/symbols.pyx: NaryMultiply.__imul__"]}
{"id": "C45", "title": "Constraints and objective read the right values", "statement": "A model is feasible exactly when every constraint's single value is non-zero, the energy is the objective's value (0 without objective), constraints must be logical scalars and objectives scalars.", "quantifier": "every model and state", "why_tests_cant": "all models", "anchors": ["dwave/optimization/src/graph.cpp: Graph::{feasible,energy,add_constraint,set_objective}", "dwave/optimization/include/dwave-optimization/array.hpp: Array::logical"]}
{"id": "C46", "title": "Random moves stay within the solution space", "statement": "Any default random move, for every outcome of the random generator, leaves a decision symbol in a valid state.", "quantifier": "all decision symbols and all random outcomes", "why_tests_cant": "all outcomes of the generator", "anchors": ["dwave/optimization/src/nodes/collections.cpp: *::default_move", "dwave/optimization/src/nodes/numbers.cpp: *::default_move"]}
{"id": "C47", "title": "Inferred indices reproduce the view", "statement": "The indices a basic-indexing symbol reports (used for saving) describe the same view of the array as the ones it was built with.", "quantifier": "all shapes and index tuples", "why_tests_cant": "infinite layouts", "anchors": ["dwave/optimization/src/nodes/indexing.cpp: BasicIndexingNode::infer_indices"]}
{"id": "C48", "title": "Rejected constructions leave the model unchanged", "statement": "If constructing a symbol is rejected, the model's symbols and connections are exactly as before.", "quantifier": "all symbol kinds and all rejected argument lists", "why_tests_cant": "every argument position can be the offending one", "anchors": ["dwave/optimization/src/nodes/mathematical.cpp: NaryOpNode, PartialReduceNode", "dwave/optimization/src/nodes/manipulation.cpp: ConcatenateNode", "dwave/optimization/include/dwave-optimization/graph.hpp: emplace_node, add_predecessor"]}
{"id": "C49", "title": "The traveling-salesperson generator encodes the problem", "statement": "For every square matrix of nonnegative distances between at least one city, the generated model locks, its states are exactly the orders of the cities, its objective is the length of the round trip in every state and after every sequence of moves, and other matrices are rejected.", "quantifier": "all distance matrices, all states, all histories of proposals", "why_tests_cant": "all numbers of cities, matrices and tours", "anchors": ["dwave/optimization/generators.py: traveling_salesperson, _require"]}
{"id": "C50", "title": "The knapsack generator encodes the problem", "statement": "For all nonnegative values and weights of at least one item and every positive capacity, the states of the generated model are exactly the choices of items, it is feasible exactly if their weight is at most the capacity, and its objective is the negative of their value, after every sequence of moves; other arguments are rejected.", "quantifier": "all values, weights and capacities, all states, all histories of proposals", "why_tests_cant": "all instances and choices", "anchors": ["dwave/optimization/generators.py: knapsack, _require"]}
{"id": "C51", "title": "The job-shop generator encodes the problem", "statement": "For every matrix of nonnegative whole processing times and every matrix whose rows are orders of the machines (counted from 0 or from 1), the states of the generated model are exactly the assignments of start times up to the bound, it is feasible exactly if every job visits its machines one after the other in its order and no two jobs occupy a machine at the same time, and its objective is the time at which the last operation ends, after every sequence of moves; other arguments are rejected.", "quantifier": "all numbers of jobs and machines, all times and orders, all states, all histories of proposals", "why_tests_cant": "all instances and schedules", "anchors": ["dwave/optimization/generators.py: job_shop_scheduling, _require"]}
{"id": "C52", "title": "The quadratic-assignment generator encodes the problem", "statement": "For all square matrices of nonnegative distances and flows of the same size, the states of the generated model are exactly the assignments of facilities to locations, and its objective is the sum over all pairs of facilities of flow times distance between their locations, after every sequence of moves; other arguments are rejected.", "quantifier": "all distance and flow matrices, all states, all histories of proposals", "why_tests_cant": "all sizes, matrices and assignments", "anchors": ["dwave/optimization/generators.py: quadratic_assignment, _require", "dwave/optimization/symbols.pyx: AdvancedIndexing.__getitem__"]}
{"id": "C53", "title": "Generated bin packing models are models of bin packing", "statement": "For every nonempty list of nonnegative weights and every positive capacity that no weight exceeds, the model returned by bin_packing can be locked and used; its states correspond one to one to the ways of putting each item into one of as many bins as there are items, its objective is the number of bins in use, and its constraints hold exactly if no bin holds more than the capacity. This also holds in every state reached by proposing, accepting and rejecting changes, although the objective is a sum to which the terms were added in place after it had been made. Problems without items, with negative weights, nonpositive capacity or an item that fits into no bin are rejected, and every accepted problem has a feasible solution.", "quantifier": "all weight vectors, capacities, assignments of items to bins, and histories of proposals", "why_tests_cant": "Tests look at a few small instances and states; the claim is about all numbers of items, all weights and all states reachable through incremental evaluation of a sum whose operands grew after construction.", "anchors": ["dwave/optimization/generators.py: bin_packing, _require", "dwave/optimization/_model.pyx: ArraySymbol.__iadd__", "dwave/optimization/symbols.pyx: NaryAdd.__iadd__, DisjointBitSet", "dwave/optimization/src/nodes/mathematical.cpp: NaryOpNode::add_node", "dwave/optimization/src/nodes/collections.cpp: DisjointBitSetsNode"]}
{"id": "C54", "title": "Generated vehicle routing models are models of capacitated vehicle routing", "statement": "For every number of vehicles, positive capacity, nonnegative distances (not necessarily symmetric) between a depot and at least one customer, or locations in the plane with the depot first or given apart, and positive demands which all vehicles together can carry, the model returned by capacitated_vehicle_routing can be locked and used; its states correspond one to one to the ways of dividing the customers into one ordered route for each vehicle, possibly empty, its objective is the total length of the routes, each from the depot through its customers and back, and its constraints hold exactly if no route has more demand than the capacity. This also holds in every state reached by proposing, accepting and rejecting changes. A number of vehicles or capacity that is not positive, negative or missing demands of customers, a demand at the depot, too much demand in total, matrices that are not square or do not fit the demands, and contradictory arguments are rejected.", "quantifier": "all distance matrices, locations, demands, numbers of vehicles, capacities, routes, and histories of proposals", "why_tests_cant": "Tests look at a few small instances; the claim is about all instances and all states reachable through incremental evaluation of slices and look-ups whose lengths change.", "anchors": ["dwave/optimization/generators.py: capacitated_vehicle_routing, _require", "dwave/optimization/mathematical.py: add", "dwave/optimization/model.py: disjoint_lists", "dwave/optimization/src/nodes/indexing.cpp: BasicIndexingNode, AdvancedIndexingNode", "dwave/optimization/src/nodes/collections.cpp: DisjointListsNode"]}
{"id": "C55", "title": "Generated flow-shop models are models of flow-shop scheduling", "statement": "For every array of nonnegative processing times of at least one job on at least one machine, the model returned by flow_shop_scheduling can be locked and used; its states are exactly the orders of the jobs, its objective is the makespan of the order (the least time by which all jobs can have gone through all machines, the machines one after the other and every machine taking the jobs in this order, one at a time), and it has no infeasible states. This also holds in every state reached by proposing, accepting and rejecting changes. Arrays with more than two dimensions, negative elements or no elements are rejected.", "quantifier": "all arrays of processing times, orders, schedules, and histories of proposals", "why_tests_cant": "Tests look at a few small instances, mostly with two machines; the claim is about all numbers of machines and jobs, and the makespan is a minimum over infinitely many schedules.", "anchors": ["dwave/optimization/generators.py: flow_shop_scheduling, _require", "dwave/optimization/_model.pyx: ArraySymbol.__iadd__, ArraySymbol.__getitem__", "dwave/optimization/symbols.pyx: NaryAdd.__iadd__", "dwave/optimization/mathematical.py: maximum"]}
{"id": "C56", "title": "Index arrays stay in bounds", "statement": "When a model has been built without an exception, every symbol that indexes an array by other symbols, such as A[x, y], only ever looks up valid positions: in every state that users can give the model or reach through proposals, and also while a proposal is evaluated, the elements of each index array are nonnegative integers smaller than the length of the axis they index, and the index arrays of one symbol all have the same number of elements. No memory outside the arrays is read or written.", "quantifier": "all programs of symbols, admissible states and histories of proposals, including all sizes that dynamic index arrays can take", "why_tests_cant": "The bounds are checked once, when the symbol is made, from declared ranges and symbolic sizes; nothing checks them again in release builds. Whether the declared ranges and sizes bound everything that happens later is a statement about all states and histories.", "anchors": ["dwave/optimization/src/nodes/indexing.cpp: AdvancedIndexingNode, BasicIndexingNode::sizeinfo", "dwave/optimization/src/array.cpp: SizeInfo::substitute, array_shape_equal", "dwave/optimization/include/dwave-optimization/array.hpp: Array::min, Array::max, Array::integral", "dwave/optimization/_model.pyx: ArraySymbol.__getitem__"]}
{"id": "C57", "title": "Generated models of vehicle routing with time windows are models of it", "statement": "For every number of vehicles, positive capacity, nonnegative times (not necessarily symmetric) between a depot and at least one customer, positive demands which all vehicles together can carry, and nonnegative opening, closing and service times, the model returned by capacitated_vehicle_routing_with_time_windows can be locked and used; its states correspond one to one to the ways of dividing the customers into one ordered route for each vehicle, possibly empty, its objective is the total length of the routes, each from the depot through its customers and back, and its constraints hold exactly if no route has more demand than the capacity and every vehicle can be on time: there are times, beginning after it reached the customer and after the customer's opening time, at which it serves its customers one after the other, each before the closing time, and is back before the depot closes. This also holds in every state reached by proposing, accepting and rejecting changes. Invalid arguments are rejected.", "quantifier": "all matrices of times, demands, time windows, service times, numbers of vehicles, capacities, routes, schedules, and histories of proposals", "why_tests_cant": "Tests look at a few instances; being on time is a statement about infinitely many schedules, and the claim is about all instances and all states reachable through incremental evaluation of conditional look-ups.", "anchors": ["dwave/optimization/generators.py: capacitated_vehicle_routing_with_time_windows, _require", "dwave/optimization/mathematical.py: add, maximum, where", "dwave/optimization/model.py: disjoint_lists", "dwave/optimization/src/nodes/indexing.cpp: BasicIndexingNode, AdvancedIndexingNode", "dwave/optimization/src/nodes/flow.cpp: WhereNode"]}
{"id": "C58", "title": "x[...] is what NumPy's indexing gives", "statement": "For an array symbol x and indices between brackets that are integers, slices and array symbols in any mixture, with missing indices standing for ':', x[...] raises an exception if the indices are not valid for the shape of x and otherwise makes a symbol which, in every state that users can give the model or reach through proposals, has the shape and the elements that NumPy's x[...] gives for the arrays that x and the index symbols then show. This includes the position of the index arrays' dimensions in the result and the special case A[i, :][:, i], which is made as one symbol.", "quantifier": "all array symbols, all tuples of indices, all states and histories of proposals", "why_tests_cant": "One expression becomes one or two symbols of different kinds depending on the mixture of indices; that their composition is NumPy's selection must hold for all shapes, all mixtures and all values of the index arrays.", "anchors": ["dwave/optimization/_model.pyx: ArraySymbol.__getitem__, _split_indices", "dwave/optimization/symbols.pyx: AdvancedIndexing.__getitem__, AdvancedIndexing.__init__, BasicIndexing.__init__, Permutation", "dwave/optimization/src/nodes/indexing.cpp: BasicIndexingNode, AdvancedIndexingNode, PermutationNode"]}
{"id": "C59", "title": "equals compares what symbols represent", "statement": "a.equals(b) is an equivalence relation on the symbols of one model and across models; in particular, every symbol equals itself and its copy in a model that was made in the same way. It says whether the two symbols are the same expression: same classes, shapes and constants, and equal predecessors in the same order. Equal symbols represent the same quantity in the model: in every state, they have the same value.", "quantifier": "all models, all pairs and triples of symbols, all states", "why_tests_cant": "equals recurses through two graphs at once with early exits, shortcuts for symbols of one model and a truncating comparison of predecessors; that it is transitive and that it implies equal values are statements about all pairs of expressions and all states.", "anchors": ["dwave/optimization/_model.pyx: Symbol.equals, Symbol.maybe_equals, ArraySymbol.maybe_equals, Symbol.iter_predecessors", "dwave/optimization/symbols.pyx: Constant.maybe_equals"]}
{"id": "C60", "title": "state_size accounts for the largest states", "statement": "state_size() of an array symbol is the number of bytes of its elements if the symbol has a fixed size, and otherwise is not less than the number of bytes of its elements in any state that users can give the model or reach through proposals; it never raises. state_size() and decision_state_size() of a model are not less than the number of bytes of the elements of all its symbols, or all its decisions.", "quantifier": "all models, all symbols, all states and histories of proposals", "why_tests_cant": "The bound is found by following a chain of references between symbols of varying size, through as many steps as the model has symbols; that it bounds every reachable state is a statement about all chains and all states.", "anchors": ["dwave/optimization/_model.pyx: Symbol.state_size, ArraySymbol.state_size, _Graph.state_size, _Graph.decision_state_size", "dwave/optimization/src/array.cpp: SizeInfo::substitute", "dwave/optimization/src/nodes: sizeinfo of all array nodes"]}
{"id": "C61", "title": "Models made from constrained quadratic models mean the same", "statement": "Converting a constrained quadratic model with binary variables gives a model whose states are exactly the assignments of bits to the variables, whose objective is the cost of the assignment (the value of the quadratic objective, plus the penalties of violated soft constraints), and which is feasible exactly if all hard constraints hold; this stays so after every history of proposals. Models with other variables are rejected.", "quantifier": "all constrained quadratic models, all assignments, all histories of proposals", "why_tests_cant": "The translation goes through positions of variables in expressions, index arrays and sparse matrices whose sizes depend on the input; that value and feasibility agree is a statement about all expressions and all assignments. The only test converts the empty model.", "anchors": ["dwave/optimization/generators.py: _from_constrained_quadratic_model", "dwave/optimization/symbols.pyx: QuadraticModel._init_from_coords", "dwave/optimization/src/nodes/quadratic_model.cpp: QuadraticModelNode"]}
{"id": "C62", "title": "Python expressions of symbols compute what NumPy computes", "statement": "Code that builds a model with the operators, functions and methods of array symbols (+, -, *, /, %, **, ==, <=, negation, absolute, square roots, the logical functions, add, multiply, maximum and minimum of several arrays, all, any, sum, prod, max, min, sum over an axis, reshape, where, += and *=), gives names to symbols, and sets an objective and constraints, means what the same code means with NumPy arrays: if it runs without an exception, then for all values of the decisions and after every history of proposals, NumPy computes without an exception, and every name, the objective and the constraints show exactly the arrays that NumPy computes, in shape and elements.", "quantifier": "all programs, all initial values of the decisions, all histories of proposals", "why_tests_cant": "Operators choose between several symbols, reuse symbols and change them in place, so that what a name shows depends on the whole program before and after it; programs, shapes and values are unbounded. Tests evaluate single operators on a few arrays.", "anchors": ["dwave/optimization/_model.pyx: ArraySymbol.__add__, __iadd__, __imul__, __pow__, sum, reshape", "dwave/optimization/mathematical.py: add, multiply, maximum, minimum, where", "dwave/optimization/symbols.pyx: NaryAdd.__iadd__, NaryMultiply.__imul__", "dwave/optimization/src/nodes/mathematical.cpp: BinaryOpNode, NaryOpNode, ReduceNode", "dwave/optimization/src/nodes/flow.cpp: WhereNode"]}
{"id": "C63", "title": "States set, reset and read from Python show what the decisions' values say", "statement": "A model has any number of states, which can be added and removed with states.resize. Setting the state of a decision to an array that it can be (its shape, its values) succeeds, and state(i) gives that array back, right away and later, until that state of that decision is set again, reset or removed. Reading any other symbol in a state shows what follows from the decisions' values in that state alone; decisions that have not been set have their default values. Setting, resetting, reading, initialising all states and unlocking and locking again change nothing else. Indices out of range and values that a decision cannot be raise exceptions, and the model and its states can still be used after that.", "quantifier": "all locked models of the catalogued symbols, all histories of operations on states with any indices and values, including the ones that raise exceptions", "why_tests_cant": "States are filled in lazily, reset along the graph and converted by NumPy before they are checked, so what is seen depends on the whole history, on exceptions in it and on the order of operations in several states; tests try a few short histories.", "anchors": ["dwave/optimization/states.pyx: States.resize, initialize, _reset_intermediate_states, StateView", "dwave/optimization/_model.pyx: Symbol.reset_state, ArraySymbol.state", "dwave/optimization/symbols.pyx: set_state of BinaryVariable, IntegerVariable, ListVariable, SetVariable, DisjointLists, DisjointBitSets", "dwave/optimization/src/graph.cpp: recursive_initialize, recursive_reset"]}
{"id": "C64", "title": "States survive working on the model", "statement": "A user builds a model, locks it, unlocks it, adds and removes symbols and locks it again, and in between creates, removes, sets, resets, loads and reads states, in any order. The values of decisions stay in the states until they are set again, reset or removed, no matter what is done to the model. Reading a symbol shows what follows from the decisions' values in that state in the model as it is now: never a value that was computed before the model changed, and never something that another symbol, since removed, has left behind. Decisions that have been added later have their default values in all states.", "quantifier": "all sessions: any sequence of operations on the model and on its states, including those that raise exceptions, for all symbols that keep their contract", "why_tests_cant": "States are indexed by positions in the model's order, which change whenever the model is unlocked, extended, cleaned up and locked. Whether a stale entry is ever used depends on the whole interleaving of operations on the model and on the states.", "anchors": ["dwave/optimization/states.pyx: States.resize, initialize, from_file, _reset_intermediate_states, attach_states", "dwave/optimization/_model.pyx: _Graph.lock, unlock, remove_unused_symbols, Symbol.reset_state, Symbol.has_state", "dwave/optimization/src/graph.cpp: Graph.topological_sort, reset_topological_sort, recursive_initialize, recursive_reset"]}
{"id": "C65", "title": "States saved to a file can be loaded into every model with the same decisions", "statement": "states.to_file() saves the values of the decisions in all states. states.from_file() of a locked model with the same decisions in the same order, whatever other symbols, objective and constraints it has, replaces its states by the saved ones: every decision has the value it was saved with in every state, and no value in states in which it was not initialised. Files with a decision of another class at the same place are refused with an exception.", "quantifier": "all saved models that meet the conditions of C41 with all their states, all other models with the same decisions", "why_tests_cant": "The file only holds positions; whether the right decision gets the right value depends on the orders of symbols in two models of any size and history. The test of one list symbol cannot show that, and the test for other shapes is disabled.", "anchors": ["dwave/optimization/states.pyx: States.from_file, to_file, into_file", "dwave/optimization/_model.pyx: _Graph.into_file, from_file, iter_symbols", "tests/test_states.py: test_serialization, test_serialization_bad"]}
{"id": "C66", "title": "The validation symbol fails exactly for arrays that do not say what they do", "statement": "In builds with assertions, an ArrayValidationNode attached to an array fails an assertion if, at any event in the life of a state, the reported changes do not lead from the array's old elements to its new ones, a change of size is wrong, a commit or a reversal does not leave the right elements, or elements are outside of the declared range; and it never fails for an array for which all this is right. A DynamicArrayTestingNode reports its changes exactly, whatever sequence of growing, shrinking, setting and random moves it undergoes, so that a validation symbol attached to it does not fail. It can be made exactly with shapes whose first dimension is -1.", "quantifier": "all arrays, all sequences of propagations, commits and reversals, all reported changes", "why_tests_cant": "These symbols are what the tests of all other symbols rest on; tests can show that they catch some wrong changes, not that they catch all of them and only those.", "anchors": ["dwave/optimization/src/nodes/testing.cpp: ArrayValidationNode, check_shape, DynamicArrayTestingNode", "dwave/optimization/include/dwave-optimization/nodes/testing.hpp"]}
{"id": "C67", "title": "In double arithmetic, whole numbers stay exact whatever the history", "statement": "With IEEE doubles instead of exact numbers: symbols that calculate their elements anew from their operands have, after every history of changes, commits and reversals, exactly the value a fresh state with the same operands has. Symbols that update an accumulated value - sums, products, sums along axes, sums and products of several arrays, quadratic models - have exactly the mathematical value after every history, whatever the machine does with ties and in whatever order sums are added, provided that all values and biases are whole numbers and no intermediate magnitude exceeds 2^53.", "quantifier": "all roundings to nearest, all orders of summation, all arrays of whole numbers within the bounds, all histories", "why_tests_cant": "Whether an accumulated value is off by one unit in the last place depends on the whole history of changes; equality and feasibility comparisons then give different answers for equal states, which no finite set of histories excludes.", "anchors": ["dwave/optimization/src/nodes/mathematical.cpp: ReduceNode::propagate, PartialReduceNode, NaryOpNode", "dwave/optimization/src/nodes/quadratic_model.cpp: QuadraticModelNode::propagate", "dwave/optimization/include/dwave-optimization/utils.hpp: double_kahan"]}
{"id": "C68", "title": "Rounding errors of sums and products grow at most linearly with the number of accepted changes", "statement": "With IEEE doubles: after every history in which k changes of an array have been accepted, the sum differs from the exact sum of the array's elements by at most (n + k) 2^-50 times the greatest possible sum (n elements at most), and the product from the exact product by a factor of at most 1 + (n + 2k) 2^-52; it is zero exactly if an element is zero. Likewise every element of a sum along an axis, and every element of a sum or product of several arrays, stays within such a bound of the exact value. Rejected changes leave no error at all. The changes that the symbol reports lead exactly from its former value to its present one.", "quantifier": "all roundings to nearest, all orders of summation, all arrays of doubles within the bounds, all histories of changes, commits and reversals", "why_tests_cant": "The error after a million moves of a search is the sum of a million roundings; only a proof shows that it cannot be larger than the bound for some sequence of moves.", "anchors": ["dwave/optimization/src/nodes/mathematical.cpp: ReduceNode<std::plus>::propagate, ReduceNode<std::multiplies>::propagate, ReduceNode::reduce, PartialReduceNode<std::plus>::propagate, NaryOpNode<std::plus>::propagate, NaryOpNode<std::multiplies>::propagate"]}
{"id": "C69", "title": "Saved models with indexing load as the same models", "statement": "A model made of any symbols of the catalog, slices, arrays indexed by arrays and permutations, locked and saved to a file, loads again. The loaded model has the same symbols with the same operands, shapes, ranges, sizes and constants, the same decisions in the same order with the same moves, the same objective and constraints; from the same decisions all symbols get the same values. It can be locked and used at once. States saved with it come back: as many states, with the same values of the decisions, or without a value where there was none.", "quantifier": "all programs of any length that build a model from these symbols with the Python classes, all shapes and all indices, all numbers of states and values of decisions", "why_tests_cant": "Slices are saved as indices which are calculated back from strides and shapes; whether they always denote the same elements, also for dynamic arrays and with symbols on top of slices, depends on every combination of shapes and indices.", "anchors": ["dwave/optimization/_model.pyx: _Graph.into_file, _Graph.from_file", "dwave/optimization/symbols.pyx: BasicIndexing._into_zipfile, BasicIndexing._from_zipfile, AdvancedIndexing._into_zipfile, AdvancedIndexing._from_zipfile, Permutation", "dwave/optimization/src/nodes/indexing.cpp: BasicIndexingNode::infer_indices"]}
{"id": "C70", "title": "The exported graph is the model", "statement": "to_networkx() always succeeds and returns a graph with exactly one node per symbol in the order of the symbols, one edge per operand (an operand used twice gives two edges), one edge from the objective to 'minimize' and one from each constraint to 'constraint(s)'. Two models with the same exported graph have the same symbols, operands, objective and constraints.", "quantifier": "all histories of constructing, extending, locking, unlocking and cleaning up models, all addresses and class names", "why_tests_cant": "Names are derived from addresses, and edges from lists of successors that are maintained by every operation on the model; every order of operations can break them.", "anchors": ["dwave/optimization/model.py: Model.to_networkx", "dwave/optimization/_model.pyx: Symbol.__repr__, Symbol.iter_successors"]}
{"id": "C71", "title": "Models are separate", "statement": "A program can use several models at once. Whatever is done with one model (new symbols, operands, objectives, constraints, locking, unlocking, removing unused symbols) leaves the others as they are, and has the same effect as in a program with no other model. Using symbols of different models together is refused and changes nothing.", "quantifier": "all numbers of models and all interleaved histories of operations on them", "why_tests_cant": "Symbols refer to each other through raw pointers in one memory; any interleaving of operations on several models could reach a symbol of another one.", "anchors": ["dwave/optimization/symbols.pyx: lhs.model is not rhs.model, NaryAdd.__iadd__, NaryMultiply.__imul__", "dwave/optimization/_model.pyx: _Graph.minimize, _Graph.add_constraint, _Graph.lock, _Graph.remove_unused_symbols", "dwave/optimization/src/graph.cpp: topological_sort, remove_unused_nodes"]}
{"id": "C72", "title": "feasible(i) tells whether state i satisfies the constraints", "statement": "Whatever has been done with a locked model's states before, model.feasible(i) is true exactly if every constraint has a non-zero value when the decisions have their values in state i (unset ones their default values), negative i counting from the end. It raises an exception if there is no such state. Asking changes nothing that can be seen later.", "quantifier": "all models, all histories of resizing, setting, resetting, reading, initialising and asking for feasibility, all indices", "why_tests_cant": "The answer is computed from states that are created lazily and partly; only some constraints are read, up to the first that is violated, so what is stored depends on the whole history.", "anchors": ["dwave/optimization/model.py: Model.feasible", "dwave/optimization/_model.pyx: _Graph.iter_constraints, ArraySymbol.state", "dwave/optimization/states.pyx: StateView"]}
{"id": "C73", "title": "Python code with indexing, sizes and disjoint decisions computes what NumPy computes", "statement": "Code that builds a model from decisions (also disjoint lists and disjoint bit sets, whose parts get names of their own) with the operators, functions and methods of array symbols, x[...] with integers, slices and array symbols in any mixture, and x.size(), gives names to symbols, and sets an objective and constraints, means what the same code means with NumPy arrays: if it runs without an exception, then for all values of the decisions and after every history of proposals, NumPy computes without an exception, and every name, the objective and the constraints show exactly the arrays that NumPy computes from the arrays that the decisions then show, in shape and elements.", "quantifier": "all programs, all initial values of the decisions, all histories of proposals", "why_tests_cant": "An expression like A[i, x].sum() <= x.size() is spread over several symbols of different kinds whose sizes vary during proposals; that all of them together mean the NumPy expression must hold for every nesting, every shape and every history.", "anchors": ["dwave/optimization/_model.pyx: ArraySymbol.__getitem__, ArraySymbol.size, ArraySymbol.__pow__, ArraySymbol.__iadd__, _split_indices", "dwave/optimization/model.py: Model.disjoint_lists, Model.disjoint_bit_sets, Model.minimize, Model.add_constraint", "dwave/optimization/symbols.pyx: AdvancedIndexing, BasicIndexing, Permutation, Size, DisjointList, DisjointBitSet", "dwave/optimization/mathematical.py: add, multiply, where"]}
{"id": "C74", "title": "A with model.lock() block protects the model inside and leaves it as it was", "statement": "Within a `with model.lock():` block whose body does not call unlock() itself, at every statement, in nested blocks and in exception handlers: the model is locked, its symbols and their operands are the ones from before the block, creating or removing symbols raises an exception, and states of all symbols can be asked for. However a block is left whose body does not lock or unlock otherwise, normally or by an exception, the model afterwards has as many locks as before, so it is locked exactly if it was locked before. Exceptions of the body leave the block, and the block raises none of its own. A context manager returned by lock() that is kept holds its lock until it has been entered and left, and can be entered once.", "quantifier": "all code made of calls, exceptions, handlers and nested blocks, and all models before", "why_tests_cant": "Locks are counted, unlocking an unlocked model does nothing, and exceptions can leave any number of nested blocks at any statement; whether a lock is missing or left over depends on the whole way taken through the code.", "anchors": ["dwave/optimization/model.py: locked, Model.lock, Model.unlock", "dwave/optimization/_model.pyx: _Graph.lock, _Graph.unlock, _Graph.is_locked, _Graph.remove_unused_symbols, ArraySymbol.state, Symbol.has_state"]}
{"id": "C75", "title": "A refused operation leaves the model as it was", "statement": "When an operation on a model raises an exception and the exception is caught, the model is as before: the locks, the symbols, their operands and order, the decisions and their indices, the objective and the constraints are unchanged, states of intermediate symbols of an unlocked model are still refused, and later operations do what they would have done without the refused one. In particular, if lock() or remove_unused_symbols() is refused because the model has a cycle, the model stays unlocked and can still be extended, and both are refused again, whatever is done later.", "quantifier": "all histories of operations on a model, with any number of caught exceptions", "why_tests_cant": "Sorting writes indices into the symbols while it runs, and an exception stops it at a point that depends on the whole graph; what is left behind matters only in combination with later operations, so all graphs and all continuations have to be considered.", "anchors": ["dwave/optimization/src/graph.cpp: Graph::topological_sort, Graph::remove_unused_nodes, Graph::recursive_initialize", "dwave/optimization/_model.pyx: _Graph.lock, _Graph.remove_unused_symbols, ArraySymbol.state", "dwave/optimization/include/dwave-optimization/graph.hpp: Node::add_predecessor, Graph::emplace_node"]}
{"id": "C76", "title": "Comparisons, truth values and conversions of symbols agree with NumPy", "statement": "Code that compares symbols with <, <=, ==, !=, > and >= means what it means with NumPy arrays: if it runs without an exception, then in every state after any history of proposals the results show what NumPy's comparisons show. Constants compared with numbers, on either side, give what NumPy gives. bool(c) and c.__index__() of a constant give its value, or raise an exception; x ** c is the power by the constant's value. A comparison that raises an exception leaves the model unchanged.", "quantifier": "all programs with comparisons, all models, symbols, constants and numbers, all histories of proposals", "why_tests_cant": "Python chooses between the methods of both operands and falls back to identity; which combination of operator and operands reaches which method, and with which effect on the model, holds or fails for all operands and shapes.", "anchors": ["dwave/optimization/_model.pyx: ArraySymbol.__eq__, ArraySymbol.__le__, ArraySymbol.__bool__, ArraySymbol.__pow__", "dwave/optimization/symbols.pyx: Constant.__richcmp__, Constant.__bool__, Constant.__index__"]}
{"id": "C77", "title": "Iterating over a model", "statement": "A loop over iter_symbols(), iter_decisions() or iter_constraints() of a model, or over iter_predecessors() or iter_successors() of a symbol, goes through exactly the symbols that were in the collection when it started, in their order, each as often as it is there, whatever the body of the loop does to the model; the body acts as it would outside of a loop.", "quantifier": "all models built by any history of operations, all loops, all bodies (which may depend on the symbol and create, extend, remove and constrain symbols, lock and unlock the model), all ways to choose the capacities of vectors", "why_tests_cant": "The generators keep pointers into C++ vectors while the program goes on; whether an operation in the body moves or reorders their elements depends on the operation, on the capacity of the vector, which depends on the history, and on the lock. A read of memory that was given back often goes unnoticed in a test.", "anchors": ["dwave/optimization/_model.pyx: _Graph.iter_symbols, _Graph.iter_decisions, _Graph.iter_constraints, Symbol.iter_predecessors, Symbol.iter_successors", "dwave/optimization/include/dwave-optimization/graph.hpp: Graph::nodes, Graph::decisions, Graph::constraints, Node::predecessors, Node::successors, Graph::emplace_node", "dwave/optimization/src/graph.cpp: Graph::topological_sort, Graph::remove_unused_nodes"]}
{"id": "C78", "title": "Constants and the arrays they come from", "statement": "model.constant(a) gives a constant with the values of a. If a is an array of doubles it is not copied: the constant shows what is in a at any time; otherwise the constant keeps the values a had, whatever is done with a later. The constant can be read for as long as the model exists, even if the program drops or rebinds every name of a. Its min(), max() and integral() are those of the values it shows, and so is everything computed from it.", "quantifier": "all programs that create, rebind, write into and drop arrays of any type, order, shape and contents, and make, read and query constants in any order", "why_tests_cant": "The constant holds a raw pointer into memory owned by NumPy. Whether the memory is private, shared or already given back, and whether a cached minimum or a checked index is still right, depends on the whole history of the arrays, the constants and the queries.", "anchors": ["dwave/optimization/symbols.pyx: Constant.__init__, Constant.state", "dwave/optimization/model.py: Model.constant", "dwave/optimization/include/dwave-optimization/nodes/constants.hpp: ConstantNode::buff", "dwave/optimization/src/nodes/constants.cpp: ConstantNode::min, ConstantNode::max, ConstantNode::integral"]}
{"id": "C79", "title": "concatenate agrees with NumPy", "statement": "concatenate(symbols, axis) accepts exactly what numpy.concatenate accepts for the states of the symbols, and the result's state is what numpy.concatenate gives: for sequences of one or more array symbols of any shapes, empty ones included, for single arrays, and for every axis, negative ones included. Anything else (objects that are no array symbols, symbols of different models) is refused with an exception.", "quantifier": "all arguments: single symbols, sequences of any length and contents, other objects; all shapes, values and axes", "why_tests_cant": "Acceptance depends on all shapes together and the axis; the position of each element in the result depends on the extents of all operands before it, and empty operands and negative axes are corner cases of their own.", "anchors": ["dwave/optimization/mathematical.py: concatenate", "dwave/optimization/symbols.pyx: Concatenate.__init__", "dwave/optimization/src/nodes/manipulation.cpp: make_concatenate_shape, ConcatenateNode::ConcatenateNode, ConcatenateNode::initialize_state"]}
{"id": "C80", "title": "What is no symbol is refused", "statement": "Every constructor and function that takes symbols makes a symbol exactly when all its operands are array symbols of one model, and hands on their nodes in the order given; any other object (None, numbers, strings, symbols that are no arrays, objects that only look like symbols, symbols of another model) raises an exception and never undefined behaviour. add_constraint and minimize refuse what is no array symbol, and shares_memory is true exactly for symbols of the same node.", "quantifier": "all classes of symbols with operands, all arguments of any kind and number", "why_tests_cant": "There are forty classes and every position of each can get any object; reading a missing attribute of None in compiled code may seem to work or crash depending on memory.", "anchors": ["dwave/optimization/symbols.pyx: constructors of the classes", "dwave/optimization/mathematical.py: _op, add, maximum, minimum, multiply", "dwave/optimization/_model.pyx: _Graph.add_constraint, _Graph.minimize, Symbol.shares_memory", "dwave/optimization/states.pyx: StateView.__init__"]}
{"id": "C81", "title": "quadratic_model computes the polynomial it is given", "statement": "model.quadratic_model(x, quadratic, linear) makes a symbol exactly when x is a one-dimensional symbol of fixed size with at least one element and the two arguments, dictionaries or arrays, describe a polynomial in its elements with at least one product; anything else raises an exception and never undefined behaviour. The symbol's value is that polynomial's value in every state and after every history of changes, whether coefficients are given once or several times, in either order of the indices, and for squares of binary variables. get_linear and get_quadratic return the sums of the coefficients given.", "quantifier": "all shapes of x, all dictionaries and arrays of coefficients and coordinates of any size, all values of x and all histories of changes", "why_tests_cant": "Indices range over all integers and arrays over all sizes; repeated, swapped and equal indices combine with linear coefficients, and reads beyond an array go unnoticed in a test.", "anchors": ["dwave/optimization/symbols.pyx: QuadraticModel.__init__, _init_from_coords, _init_from_qubo, get_linear, get_quadratic", "dwave/optimization/model.py: Model.quadratic_model", "dwave/optimization/src/nodes/quadratic_model.cpp: QuadraticModel, QuadraticModelNode"]}
{"id": "C82", "title": "Integer and binary variables have the shape and bounds they are given", "statement": "model.integer(shape, lower_bound, upper_bound) makes a variable exactly when shape is None, a non-negative integer or a sequence of them, and the bounds (0 and 2000000000 if not given) are whole numbers between -2000000000 and 2000000000 with the lower not above the upper; model.binary(shape) does so with the bounds 0 and 1. The variable has that shape, as many elements as the shape says, and exactly the states with that many whole numbers within the bounds. Anything else raises an exception and never undefined behaviour.", "quantifier": "all shapes with any number of dimensions of any size, all bounds, all lists of values", "why_tests_cant": "Sizes and bounds range over all integers and numbers, and what goes wrong shows only beyond 32 bits or for fractions; arrays that large do not fit into a test.", "anchors": ["dwave/optimization/symbols.pyx: _as_cppshape, BinaryVariable.__init__, IntegerVariable.__init__", "dwave/optimization/include/dwave-optimization/array.hpp: Array::shape_to_size, Array::shape_to_strides, ArrayOutputMixin", "dwave/optimization/src/nodes/numbers.cpp: IntegerNode::IntegerNode, NumberNode::initialize_state"]}
{"id": "C83", "title": "Lists, sets and divisions have the sizes they are given", "statement": "model.list(n) makes a list of n elements exactly when n is a non-negative integer; model.set(n, min_size, max_size) makes a set exactly when 0 <= min_size <= max_size <= n (0 and n if not given), of fixed size exactly when both are the same; disjoint_lists and disjoint_bit_sets are made exactly when the set's size is not negative and there is at least one part, and return all parts once and in order. The states of lists and sets are exactly the sequences of different numbers of range(n) of an allowed length. Anything else raises an exception.", "quantifier": "all arguments, integers of any size or none, all sequences as states", "why_tests_cant": "Sizes range over all integers, and what goes wrong beyond 32 bits does not fit into a test.", "anchors": ["dwave/optimization/model.py: Model.list, Model.set, Model.disjoint_lists, Model.disjoint_bit_sets", "dwave/optimization/symbols.pyx: ListVariable, SetVariable, DisjointLists, DisjointBitSets, DisjointList, DisjointBitSet", "dwave/optimization/include/dwave-optimization/nodes/collections.hpp: CollectionNode", "dwave/optimization/include/dwave-optimization/array.hpp: Array::shape_to_size"]}
{"id": "C84", "title": "A model's counts follow its history", "statement": "num_symbols() and num_nodes(), num_decisions(), num_constraints() and num_edges() are zero for a new model. Whatever has been done to a model, a new decision adds one symbol and one decision, a new symbol computed from k operands adds one symbol and k edges, an operand added in place adds one edge, a constraint adds one constraint, and objectives, references, locks and unlocks change none of them. num_edges() is always the total number of operands of the symbols. remove_unused_symbols() keeps the numbers of decisions and constraints; the others go down by the number of removed symbols and the total number of their operands.", "quantifier": "all histories of operations on a model, also with rejected ones, and every next operation", "why_tests_cant": "Edges are counted at the operands' side, by lists of successors that each operation and each pruning must keep right; the numbers must agree after every history.", "anchors": ["dwave/optimization/_model.pyx: _Graph.num_constraints, num_decisions, num_edges, num_nodes, num_symbols, remove_unused_symbols", "dwave/optimization/include/dwave-optimization/graph.hpp: Graph::num_nodes, num_decisions, num_constraints, emplace_node, Node::add_predecessor", "dwave/optimization/src/graph.cpp: Graph::remove_unused_nodes"]}
{"id": "C85", "title": "Size and shape of an indexed array belong to the state asked about", "statement": "The size, the shape and the change of size that A[i, j, ...] reports in a state are those of the values it shows in that state, after every history of changes of A and of the index arrays and while a change is pending, whatever has been asked about the same symbol in other states before.", "quantifier": "all accepted index tuples, all histories, all sequences of questions in other states", "why_tests_cant": "the dimensions are kept in one place shared by all states of the model, so that the answer depends on the order of questions over all states", "anchors": ["dwave/optimization/src/nodes/indexing.cpp: AdvancedIndexingNode::size, shape, size_diff, dynamic_shape_"]}
