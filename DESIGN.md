# A Lean 4 model of dwave-optimization: design

Subject: dwavesystems/dwave-optimization (C++ core `dwave/optimization/src`,
`dwave/optimization/include`, and the thin Python layer `_model.pyx`, `states.pyx`)
as found in /repo.  Nothing of it is built or run here; the model is written
from the source text, function by function.

## 1. Trusted base

* Lean 4.33.0's kernel, and Mathlib's definitions as far as theorem *statements* use them
  (`List`, `Int`, `Nat`, `Rat`, linear ordered fields, `List.Perm`, ...).
* Axioms: at most `propext`, `Classical.choice`, `Quot.sound`.  No axiom is added, there is no
  `sorry`, `admit`, `native_decide` or `bv_decide`.
* The hand translation from C++ to the definitions in `lean/Verif/Model`.  Every definition
  cites the file and lines it models and says what it leaves out.
* The specifications in `lean/Verif/Spec`: short, and independent of the model's helpers.

### What the model abstracts from

* **Numbers.** Array elements are `double`.  Where the code only compares, copies and stores
  them, elements are an arbitrary type with decidable equality.  Where it does arithmetic,
  they are rational numbers, concretely `Rat`.  (A square root is a parameter, any function.)  Rounding, overflow to infinity,
  signed zero and NaN *as an element value* are outside the model.  (`NaN` as the marker
  "nothing" in `Update` is modelled: it is `none`.)  Consequently the claims about sums and
  products are claims in exact arithmetic; C67 and C68 relate them to the arithmetic of doubles, where rounding is modelled
  but infinities, NaN and signed zero still are not.
* **Machine integers.** `ssize_t` is `Int` or `Nat`, except where a property is about overflow.
  Products of dimensions and strides are assumed to fit; for numbers of elements that means 31 bits, since the code keeps them in an
  `int` (C82, finding 67).
* **Undefined behaviour** is a separate outcome `Res.ub`, exceptions are `Res.throw`; neither is
  ever identified with a normal result.  A violated assertion also counts as `ub`: a debug build
  aborts, a release build runs on outside the function's stated contract.
* **Memory.** Pointers between nodes are indices into the node list.  Allocation failure,
  destruction order and the Python reference counts are not modelled, except `shared_ptr`
  expiry (used by `remove_unused_nodes`), which is an oracle `referenced : Nat -> Bool`.
* **Shapes seen by successors.** In whole models every symbol is taken to report to its successors the shape of its values.  That is
  proved of `where`, indexing and element-wise operations (C27_sizes, C31_sizes_partial, C85, C23_shape_partial) with one exception,
  `C23_shape_fails`: `x + 1`, `x` of changing size, reports the shape `()` while `x` has one element.  So the theorems about whole models
  (C39-C41, C45, C48-C58, C61-C63, C69, C72, C73) do not cover models in which such a symbol, at a moment when it has one element, is an
  operand of another element-wise operation with a number (`C23_chain_fails`), of an indexing (`C23_slice_fails`) or of `where`, or is
  shown as an array.  Element-wise operations are affected only where the false shape changes the comparison of the two shapes
  (`binaryPropagate_reach`).
* **Concurrency.** A state is used by one thread.  What several threads may share, the statistics of
  constants, is modelled with interleaved queries (C43).
* **Random numbers.** A random draw is an arbitrary element of the distribution's range.
* **Zip/JSON/NumPy byte formats** are trusted; serialisation is modelled at the level of records.

## 2. Central notions

* `Update` (Spec): index, old value (`none` = there was nothing), new value (`none` = nothing).
* `Replays before diff after` (Spec): running the updates one by one on `before`, each being legal
  at that moment, ends in `after`.  A placement must be at the end of the list, a removal must
  remove the last element and name it, a change must name the present value.  This is the same
  contract the project's own test oracle `ArrayValidationNode::propagate`
  (src/nodes/testing.cpp 81-186) checks at run time.
* *Correct incremental node*: from a clean state for inputs `xs`, whenever the inputs' diffs
  replay `xs` to `xs'`, `propagate` terminates normally, shows `f xs'`, and its own diff replays
  `f xs` to `f xs'`; `commit` makes the state clean for `xs'`; `revert` makes it clean for `xs`.
  Here `f` is a *specification function* written without reference to the node's code.
* Whole models: by induction along the topological order, correct nodes compose (C40).

* *Settled* and *Contract* split this in two: `Settled` is everything about initialisation, commit and revert,
  `Contract` adds that propagation reports exactly what changed.  Concatenate, whose reports are wrong, only has the former.
* The *catalog* (`Verif/Model/Catalog*.lean`, `Kind`) lists every symbol but the indexing ones with its constructor checks,
  operands, meaning, size information and declared range; `kind_facts` gives the contract of each.  A *program* is a
  history of constructor calls as Python makes them (C40, C41, C48).
* A *script* (`Verif/Model/Script.lean`) is a finished list of such calls which may also index; the generators produce
  scripts, and `Generated.Tracks problem` says that the model built from the script is a model of the problem: the accepted states
  are the solutions, the objective is the cost, feasibility is feasibility, initially and after every history (C49-C55, C57, C61).
  `Model/Programs.lean` runs arbitrary such lists as programs (C56). `Model/Getitem.lean` is `x[...]` in
  Python, which makes one or two symbols of such a list (C58).
  `Model/Equality.lean` compares two symbols of one or two scripts (C59).

## 3. Layout

* `Verif/Spec/*`    small independent specifications
* `Verif/Model/*`   the code, function by function, with citations
* `Verif/Lemmas/*`  helper lemmas
* `Verif/Props/*`   the property theorems (named `Cxx_...`), each with an `example`
  showing a concrete case which meets its hypotheses

Naming: `Cxx_name` proves (part of) property Cxx; suffix `_partial` marks a theorem which proves
less than the English property; suffix `_fails` marks a theorem stating that the property is
*false of the code*, with a concrete witness.

## 4. Plan per property

| id | what is modelled | how it is proved |
|----|------------------|------------------|
| C01 | `ArrayNodeStateData` as buffer + update list + previous size, all mutators, `revert` | invariant `Replays committed updates buffer` for all op sequences; undoing a replay backwards, where resizing happens first, restores the start |
| C02 | same | the invariant itself, by induction on the op sequence |
| C03 | same, plus `ScalarNodeStateData` | from the invariant |
| C04 | `deduplicate_diff` with explicit out-of-bounds outcome | stable sort + merge per index; net effect by first-old/last-new per index; the out-of-bounds read is exhibited (`_fails`), absence under a stated condition |
| C05 | `CollectionStateData`, `CollectionNode` ops and constructors | invariant `Perm (range n)` by induction over ops |
| C06 | same | replay invariant + revert |
| C07 | `DisjointBitSetsNodeData` | partition invariant by induction; replay; explicit initial contents rejected only partly (`_fails`) |
| C08 | `DisjointListStateData` | permutation invariant of the concatenation, replay per list |
| C09 | `NumberNode` & co. | bounds invariant + replay by induction over ops |
| C10 | `Slice` | case analysis against a transcription of Python's documented rule and a set-of-indices specification |
| C11 | `broadcast_shape` | against a specification by right-aligned dimensions |
| C12 | `ravel_multi_index`, `unravel_index` | mixed-radix induction on shape |
| C13 | shape/stride helpers | induction on shape |
| C14 | iterator state machine (location vector + pointer) | refinement to flat row-major position |
| C15 | `fraction` | refinement to `Rat` |
| C16 | `SizeInfo`, per-node `sizeinfo` | inequalities; slices with step>1 give `_fails` |
| C17 | `topological_sort` with marks | DFS invariant; both directions |
| C18 | lock counter + graph ops | invariant by induction over ops |
| C19 | `descendants` | DFS invariant: reachability closure |
| C20 | `remove_unused_nodes` | marking pass invariants in reverse topological order |
| C21 | `propose` over abstract nodes | per-node contracts composed |
| C22 | `UnaryOpNode` | correct incremental node; reported size, shape and change of size (C22_sizes) |
| C23 | `BinaryOpNode` | same; the coincidence case (1,) vs dynamic size 1 is `_fails`; reported size and shape (C23_size_partial, C23_shape_partial) and change of size (C23_size_diff_partial), with `x + 1` of one element `_fails` |
| C24 | `NaryOpNode` | same |
| C25 | `ReduceNode` x 6 | same |
| C26 | `PartialReduceNode` | same |
| C27 | `WhereNode` | same; what it reports about its own size and shape, asked of its operands, is right (C27_sizes) |
| C28 | `ConcatenateNode` | values: proved; diff/revert: `_fails` + restricted `_partial` |
| C29 | `ReshapeNode`, `SizeNode` | same |
| C30 | `BasicIndexingNode` static | contiguous: proved; strided: `_fails` + `_partial` |
| C31 | `BasicIndexingNode` dynamic | 1-D: proved; other cases `_fails`; reported size, shape and change of size (C31_sizes_partial) |
| C32 | `AdvancedIndexingNode` | 1-D index arrays: correct node with offset map invariant |
| C33 | `PermutationNode` | 2-D proved, other ranks `_fails` |
| C34 | `QuadraticModel(Node)` | map laws; algebraic identity for each single change |
| C35-C37 | `min`, `max`, `integral` | real inequalities; SquareNode, empty reductions `_fails` |
| C38 | `modulus` | floor characterisation |
| C39 | `recursive_initialize`, `recursive_reset` | invariant: every present state is the recomputed one |
| C40 | composition of C21-C34 | induction on topological order, then on history |
| C41 | records written/read by `into_file`/`from_file` | round-trip law |
| C42 | `States` list operations | refinement to list |
| C43 | `ConstantNode` cache | invariant over query histories |
| C44 | `__pow__`, `__imul__` | proved for non-NaryMultiply; `_fails` for NaryMultiply |
| C45 | `feasible`, `energy`, `add_constraint` | decision logic |
| C46 | `default_move`s with arbitrary draws | from C05-C09 |
| C47 | `infer_indices` | round trip |
| C48 | constructor sequencing | `_fails` for span constructors, proved for the others |
| C49 | `generators.traveling_salesperson` | script rules: each call preserves "row i computes g"; the composed function equals the cost in the specification |
| C50 | `generators.knapsack` | same |
| C51 | `generators.job_shop_scheduling` | same, with induction over jobs and machines |
| C52 | `generators.quadratic_assignment` | same; `_fails` for no facilities |
| C53 | `generators.bin_packing` | same, and rules for a sum that gets operands after it was made |
| C54 | `generators.capacitated_vehicle_routing` | same, and rules for slices of lists of variable length |
| C55 | `generators.flow_shop_scheduling`, `+=` on symbols | same, for at most two machines; the early-start recursion is the makespan by induction over machines and jobs; counterexample for three machines |
| C56 | all programs of constructor calls with indexing (`Model/Programs.lean`) | for `Script.Supported` programs: declared ranges, integrality and symbolic sizes bound every visible state (induction over the symbols), so constructors' checks imply valid indices; with this the indexing symbols keep their contracts and C16, C35, C36, C37, C40, C45 extend to programs with indexing; `_fails` for slices whose sizes are compared wrongly |
| C57 | `generators.capacitated_vehicle_routing_with_time_windows` (`Model/GeneratorsWindows.lean`) | same, and rules for conditional look-ups; the leaving times the symbols compute are those of the earliest schedule, and a route is punctual exactly if the earliest schedule is; what the model encodes in general is `TimedRouting.limited`, which is the problem under the conditions of `C57_partial`; `_fails` otherwise |
| C58 | `ArraySymbol.__getitem__`, `_split_indices`, the special case in `AdvancedIndexing.__getitem__` (`Model/Getitem.lean`) | NumPy's combined indexing is specified on its own (`Spec/Combined.lean`); selecting with integers and slices first and with arrays afterwards selects the same coordinates in the same order, by induction over the dimensions; combined with C40 and C56 for programs. False for integers separated from arrays by a slice, and for arrays with gaps |
| C59 | `Symbol.equals`, `maybe_equals` of symbols, array symbols and constants (`Model/Equality.lean`) | being the same expression is an inductive relation (`Spec/Equality.lean`); `equals` decides it, by induction along the order of construction; equal symbols have equal values by induction over the expressions, if their class and shape say what they compute and matching decisions have equal values. False otherwise: two decisions, two indexings, sums along different axes |
| C60 | `state_size` of symbols and models (`Model/StateSize.lean`), on scripts | exact for fixed arrays and an upper bound for unsliced symbols, from C16 and C40 for programs; defined if the chain of references ends in a set, list or disjoint list, by induction along the chain. False for `A[x, :]`, slices with steps, `-x`, and disjoint sets and lists |
| C61 | `generators._from_constrained_quadratic_model` (`Model/GeneratorsCqm.lean`), `QuadraticModel(x, (data, coords), linear)` | same as C49-C55: rules for arrays of bits and quadratic models; the requests made for an expression add up to its value, by induction over the requests; the constraints by induction over the list. False for soft constraints, which become hard, and for models without variables, whose objective and constraints are dropped |
| C62 | Python code as a list of statements (`Model/Expressions.lean`): operators, functions and methods of `ArraySymbol` as in _model.pyx, mathematical.py and symbols.pyx on top of the model of constructors (C48) and powers (C44); the specification runs the same statements on NumPy arrays with NumPy's rules of broadcasting, defined by coordinates (`Spec/Expressions.lean`) | invariant over the statements: names stand for symbols whose present arrays are NumPy's; symbols that are extended in place are unused (`Careful`); every constructor's value equals NumPy's for arrays of its accepted shapes; then C40 for initialisation and histories. False for sums that are extended after use, `v += v`, and `where` with conditions of more dimensions or arrays of varying size |
| C63 | the list of states of a model, and `resize`, `set_state`, `reset_state`, `state`, `initialize` and relocking on it, with NumPy's conversions (`Model/PyStates.lean`, on top of the lazily filled states of C39); an exception is an outcome and the history goes on | the specification is a table with the decisions' values in every state (`PyStateOp.Sees`, `Spec/PyStates.lean`); simulation: every state is up to date with its row (`Kept`, from C39), by induction over the history; rejected values by C05, C07, C08, C09. Not for disjoint bit sets that are no partition but have the right number of ones (C07). Python sets are given to set symbols only |
| C64 | a model (C12–C14) and its states together: states are vectors indexed by topological indices, each entry remembers which symbol made it, so that the use of a foreign entry is undefined behaviour (`Model/Sessions.lean`) | the specification is the model and a table of the decisions' values (`Spec/Sessions.lean`, `SessionOp.Sees`); simulation: entries are owned by the symbols that will find them (`StateVec.Owned`), unlocked models keep only entries of decisions, decisions never change their index; by induction over the session. Symbols are given by contracts (`Settled`), as in C11 |
| C65 | `States.to_file` and `from_file` on top of the archives of C41 (`Model/StateFile.lean`), with the comparison of classes by `zip` | from C41 for files with only the decisions, and the order of symbols in locked models (decisions first); the loaded rows are those that the operation `load` of C64 takes |
| C66 | `ArrayValidationNode` and `DynamicArrayTestingNode` as state machines (`Model/Oracle.lean`), with NaN in the data of the former; assertions that fail are `ub` | the specification (`Spec/Oracle.lean`) says in terms of `Replays` what an honest array shows; both directions by induction over the events, where a NaN that has got into the data is never forgotten; the decision keeps `Pile.Sound`; the accepted shapes by cases (C66_accepted). This also shows that `Replays`, on which C04–C40 rest, is what the project's own run-time check checks |
| C67 | the symbols that accumulate, with a rounding after every operation (`Model/Floating.lean`), `std::reduce` with any order and grouping, `double_kahan`, `long double` as any arithmetic that keeps whole numbers up to 2^53 | `Spec/Rounding.lean` defines doubles and rounding to nearest (any tie rule; `roundDouble` is one, so the definition is met); whole numbers up to 2^53 are doubles, so they are not rounded; each loop is shown to do what the exact loop of C22-C26, C34 does as long as its exact intermediate results are small, and the exact invariant gives the bounds |
| C68 | sums and products of `Model/Floating.lean`, along axes and of several arrays | `Spec/Drift.lean` and, element by element, `Spec/DriftArrays.lean` say what a drift bound is; one rounding errs by at most one part in 2^53 (sums of doubles also in the range of subnormal numbers); the invariant of the loop over a diff bounds the error after `j` changes by `4 A ((1+2^-53)^(n+j) - 1)`, for products the relative error by `(1+2^-53)^(n+2j) - 1`; in products of several arrays a position at which a zero was replaced holds zero until it is calculated anew; a history of four changes that always errs upwards shows that the bound cannot be independent of the number of changes |
| C69 | `into_file` and `from_file` for programs with indexing symbols (`Model/ProgramFile.lean`, on top of `Model/Archive.lean`, `Model/Programs.lean` and `infer_indices`) | the loaded rows are the saved rows up to the renumbering by the topological order (`Row.Loads`), by induction on the lines of the file; constructors commute with renumbering (`Lemmas/ConstructRename.lean`); C47 gives the slices, now also with the same contiguity; the graph of the loaded program is built by the same theorem as that of any program; header and states (`Model/ProgramStates.lean`): sizes of state vectors are unchanged by the renumbering, decisions come first in the file, and values are saved by C41's theorem for single decisions |
| C70 | `to_networkx` (`Model/Networkx.lean`): NetworkX multigraphs as lists of nodes and edges, names of symbols as text | the exported lists in closed form; names are injective because the address is what follows the last `x`; the numbers of edges are those of operands by the invariant of the graph |
| C71 | Several models in one memory (`Model/Workspace.lean`), with the checks of `symbols.pyx` on operands | a congruence lemma (operations only read and write the memory of their own symbols, `Lemmas/Agree.lean`), then induction over interleaved histories: each model agrees with the one its own operations give |
| C72 | `Model.feasible` of model.py on top of the states of C63 (`Model/PyFeasible.lean`) | the table of C63 as specification; induction over the constraints with lazily created states, then over histories |
| C73 | Python code with `x[...]`, `x.size()` and disjoint decisions as a list of statements (`Model/IndexedCode.lean`), on top of programs with indexing (C40, C58) | NumPy's meaning of the statements (`Spec/IndexedCode.lean`); code builds a program (C73_program), and its decisions are those it asks for (C73_decisions); induction over the statements keeps names and NumPy's arrays together, with the lemmas of C62 for single operators and C58_varying_partial for `x[...]`.  False where C58 is |
| C74 | Python code with `with model.lock():` blocks, kept context managers, exceptions and handlers as a syntax tree with an interpreter that also gives the scopes before and after every statement (`Model/Blocks.lean`), on top of `PyModel` | induction over the code: every scope is reached by a sequence of calls (C74_history), locks ≥ open blocks + kept context managers (C74_contexts), so that C18 applies at every statement in a block (C74_protected_partial); blocks keep the count (C74_restores, C74_block_partial).  False for code that calls `unlock()` or `lock()` itself (C74_unlock_fails, C74_exception_fails) and for `x += y` (C74_inplace_fails) |
| C75 | `visit` of `topological_sort` with the indices that an exception leaves behind, and histories that go on after refused sorts (`Model/Refused.lean`) | `visitOn` refines `visit`; a mark left behind (-2) is never removed, so every later sort meets it (C75_stays_refused); invariant of jammed models through all operations; nothing but indices changes (C75_refused_partial).  False for the indices of symbols that are no decisions (C75_index_fails, C75_state_fails, C75_extend_fails).  From Python the missing `except+` matters (`Model/Escape.lean`): C75_python_partial, C75_terminates, C75_no_extension, C75_terminates_fails |
| C76 | the comparison methods of `ArraySymbol` and `Constant`, Python's choice between the operands' methods, truth values, `__index__` (`Model/Comparisons.lean`) | comparisons of symbols are reduced to the constructors that they call (`compare_symbols`), code with comparisons to code of C62 with the same meaning; numbers and conversions by cases on the methods that are tried |
| C77 | vectors as blocks of memory with capacities, generators as block and length, loops with arbitrary bodies, on top of `PyModel.attemptPython` (`Model/Iteration.lean`, `Spec/Iteration.lean`) | operations that do not concern a collection keep its elements, hence its length and its block; induction over the rest of the loop (C77_undisturbed_partial); locked models by C18 (C77_locked).  False for bodies that add or remove elements (use after free: C77_new_symbols_fails, C77_successors_fails, C77_removed_fails) or lock the model (C77_lock_fails) |
| C78 | NumPy arrays as named objects with memory that is given back when nothing refers to it, constants as pointers into it, cached statistics of C43 (`Model/ConstantArrays.lean`) | invariant: all that a name or a constant refers to is there (C78_alive); memory of a copy has no name, so nothing writes into it (C78_copied); a constant keeps its place and memory (C78_shared); caches stay right while nothing is written (C78_unwritten_partial), and are not used for at most one element (C78_single).  False after writes (C78_stats_fails, C78_index_fails, C78_stale_fails), for read-only arrays (C78_readonly_fails) and, against the documentation, for arrays in another order (C78_order_fails) |
| C79 | the Python function, the constructor of the symbol and its state (`Model/ConcatenateFunction.lean` on top of C28's node), NumPy's function (`Spec/NumpyConcatenate.lean`) | acceptance by cases; empty operands write nothing and can be left out, which reduces to C28's initial state (C79_partial); C79_total, C79_operands.  False for negative axes (C79_negative_fails), single arrays (C79_array_fails), the axis of a single operand (C79_unchecked_fails) and symbols of changing size (C79_dynamic_fails) |
| C80 | the checks of operands in the constructors of symbols, `add_constraint`, `minimize`, `shares_memory` and the functions with varying numbers of operands (`Model/TypedArguments.lean`) | by cases and induction on the operands: what is accepted (C80_accepted, C80_functions, C80_model, C80_shares), no undefined behaviour without `None` (C80_others_partial), functions that refuse `None` (C80_checked).  False for `None` in typed parameters (C80_none_fails, C80_function_fails) |
| C81 | the arguments of `quadratic_model` as dictionaries and arrays, the conversions of indices to 32 bits, the model made of them and `get_linear`, `get_quadratic` (`Model/QuadraticArguments.lean`, on top of C34's quadratic models) | by induction on the entries: which arguments are accepted, without undefined behaviour (C81_accepted_partial, indices of 32 bits and two rows of coordinates), the value after every history (C81_value) and the coefficients (C81_biases).  False for one row of coordinates, more than two, indices beyond 32 bits and fractions (C81_rows_fails, C81_third_row_fails, C81_wrap_fails, C81_fraction_fails) |
| C82 | the arguments of `integer` and `binary`, the conversions of shapes and bounds, and sizes and strides in machine integers (`Model/NumberArguments.lean`) | by induction on the shape: what is accepted and what is made of it (C82_integer_partial, C82_binary_partial, for whole bounds of 32 bits and fewer than 2^31 elements), the states (C82_states, C82_fixed, on top of C09), sizes up to multiples of 2^32 (C82_size).  False for fractions, bounds beyond 32 bits and larger arrays (C82_fraction_fails, C82_range_fails, C82_size_fails) |
| C83 | the arguments of `list`, `set`, `disjoint_lists` and `disjoint_bit_sets`, the constructors' checks, the sizes and the parts that are returned (`Model/CollectionArguments.lean`) | by cases on the arguments and induction on the parts: what is accepted and what is made (C83_list_partial, C83_set_partial, for fixed sizes below 2^31, C83_dynamic, C83_disjoint), the states (C83_states, on top of C05).  False for longer lists (C83_size_fails) |
| C84 | `num_symbols`, `num_decisions`, `num_constraints` and `num_edges` (`Model/Counts.lean`) on the histories of C17-C20 | double counting of successors and predecessors with the invariant of all histories (C84_edges), then by cases on the operation (C84_new, C84_counts, C84_pruned) |
| C85 | size, shape and change of size of indexed arrays (`AdvancedIndexingNode`), with the dimensions shared by all states as an explicit memory | the memory keeps all dimensions but the first through any questions; the first is the size over the row size; histories by the contract of C32; a span kept past a question in another state shows that state (`_fails`) |

## 5. Known disagreements between the properties and the code

Found by reading; each will be (or is) stated as a `_fails` theorem with a concrete witness.

1. `deduplicate_diff` can read before the start of the list (utils.cpp 23-78).
2. `ConcatenateNode::propagate` records the first element of the input's block as `old`
   (manipulation.cpp 163).
3. `SquareNode` (UnaryOpNode<square>) `min`/`max` are wrong for ranges containing negatives.
4. `ReduceNode` max/min bounds ignore that an empty array yields the initial value.
5. `BasicIndexingNode` non-contiguous `propagate` drops or misplaces updates for
   multi-dimensional strided views and for dynamic views with a positive start.
6. `BasicIndexingNode::sizeinfo` rounds down for steps greater than one.
7. `PermutationNode` accepts out-of-range orders and is right only for two dimensions.
8. `DisjointBitSetsNode` accepts explicit initial contents that are no partition.
9. `BinaryOpNode` with a fixed one-element operand and a dynamic operand of run-time size one: the removal of the second element is
    undefined for operands of as many dimensions (C23_dynamic_fails).  `x + 1` reports the shape `()` while the dynamic `x` has one
    element (C23_shape_fails; states.pyx 329 then hands a shape without entries to a buffer of one dimension), and `(x + 1) + 1` is
    undefined when `x` shrinks to one element (C23_chain_fails), and so is a slice `(x + 1)[1:]` (C23_slice_fails).
10. `x ** n` for an n-ary product adds the symbol to itself.
11. Constructors which add predecessors one by one leave dangling successor entries on throw.
12. `Graph::descendants` lists a source twice if it is given twice.
13. A default-initialised `ListNode` with `max_size < n` can never contain the values from
    `max_size` on (collections.cpp 756-763).
14. `Slice(0, None, -1).size()` on a slice not yet fitted overflows a signed integer
    (array.hpp 146-167).
15. Taking the difference of two strided iterators resets the location of the operands
    (array.hpp 455-469), and divides by zero when axis 0 has stride zero.
16. An empty array can be reported as not contiguous (array.hpp 816-836): harmless, but the
    "exactly when" of C13 is false there.
17. `SizeInfo::substitute` applied more than once (it is called with depth 100) applies a multiplier
    or offset to bounds which already contain it: `Set(10, min 4, max 10)[1:5]` is reported to have
    exactly 3 elements although it can have 4 (array.cpp 45-102).
18. `SizeInfo::substitute` takes the predecessor's minimum size also when a slice imposes a maximum:
    `Set(10, min 7, max 10)[:5]` is reported to have at least 7 elements (array.cpp 71-84).
19. `array_shape_equal` accepts arrays of different size: `A[-5:3]` and `A[:3]`, or `A[:4:2]` and
    `A[:5:2]`, have equal size information (indexing.cpp 1517-1583).
20. `x += y` for a sum on a locked model is not refused (C18_locked_inplace_fails), may change a constraint that has been checked
    (C45_in_place_fails), may contradict what was checked when other symbols were made, does not check that both operands belong
    to the same model, and makes a model that cannot be loaded (C41_inplace_fails).
21. A source of a proposal that depends on another one, or is named twice, is processed twice (C19_nested_sources_fails).
22. `Array` shapes (1, 1) combined with a dynamic array give the shape (1, -1), which no array can have.
23. The declared maximum of a quotient violates an assertion (C35_divide_fails); so does the absolute value of an empty range
    (C35_absolute_empty_fails).
24. PartialReduce with an axis not less than the number of elements violates an assertion at the first change (C26_axis_fails);
    an invalid axis is undefined behaviour in the constructor, before the check.
25. `DisjointBitSetsNode::swap_between_sets` does not check its arguments (collections.cpp 269).
26. Double-checked locking of the statistics of constants on an object that is not atomic.
27. Default moves: undefined for empty arrays and for integers with a negative lower bound; a set started by default never contains the
    elements from `max_size` on (C46).
28. A combined index expression (`A[x, 1:3]`) which fails in its second part leaves the first symbol behind (_model.pyx 1168-1177).
29. Basic indexing (C30, C31): strided views miss changes; rows, columns and empty selections of dynamic arrays.  `infer_indices` (C47): empty selections; `int` accumulators (indexing.cpp 1671,
    manipulation.cpp 39).
30. Advanced indexing (C32): index arrays separated by a slice behind a leading slice; indexed arrays of varying size; arrays without
    elements.  Its shape, too, is kept in the node for all states: a span kept past a question in another state changes (C85_kept_fails).
    The conversion of NaN to an index and a dead read at removals are formally undefined and not modelled.
31. `A[x, :][:, x]` for a symbol `x` which is not a list raises TypeError, and for a list shorter than the matrix ValueError, because it is
    turned into a Permutation.
32. States (C42): a future that hands over another one; `set_state` resets before it validates, so a rejected value loses the state;
    views are counted but the count is never looked at; `state(-1)` is allowed, `set_state(-1)` is not; `States.from_file` compares only as
    many symbols as the shorter model has; `from_file(str)` drops `check_header`.
33. Serialisation (C41): disjoint collections with unset states; saving again after `only_decision`; negative objective numbers;
    unchecked constraint numbers; truncated node lists; the same part twice; unknown class names raise TypeError; models with a dynamic
    symbol without known maximum size cannot be saved although they can be used.
34. `minimize` of a dynamic symbol makes a Size symbol before it raises.
35. Generators: `traveling_salesperson` raises IndexError for no cities (C49_no_cities_fails); `job_shop_scheduling` subtracts one from the
    caller's own array when the machines are counted from one, and cuts off fractions of times silently; `quadratic_assignment`
    accepts an empty matrix, which is undefined behaviour once a state is made (C52_no_facilities_fails), and leaves an unused symbol.
36. `flow_shop_scheduling` for three or more machines: `end_job_j = end_times[machine_m - 1][job_j]; end_job_j += ...` changes the end
    time of the first job on the machine before, which is a sum already, so that the objective is too large and orders are ranked
    wrongly (C55_three_machines_fails).
37. Sizes of slices are compared wrongly: `x[-4:3]` and `x[:3]` are taken to have equal sizes (BasicIndexingNode::sizeinfo replaces the
    bound by another), and so are `y[3:5]` and `y[3:6]` of a computed vector `y` (array_shape_equal substitutes until the differences
    are gone), and `x` and `x[:0]`.  `A[x[-4:3], x[:3]]` and `A[y[3:5], y[3:6]]` are accepted and then write beyond arrays when a state
    is made (C56_slices_fails, C56_derived_slices_fails); `A[x, x[:0]]` shows a column of `A` (C56_empty_slice_fails).
38. `A[x, :]` reports the size of `x` instead of a multiple of it (C16_rows_fails); its sum then declares a maximum that is too small
    (C36_rows_fails).
39. `capacitated_vehicle_routing_with_time_windows`: the loop over places runs to `3 * (n // vehicles)` while the constants have `n + 1`
    elements, so that few vehicles (always one vehicle) raise IndexError (C57_few_vehicles_fails, C57_one_vehicle_fails), and so do more
    vehicles than customers (C57_many_vehicles_fails); routes are limited to `3 * (n // vehicles)` customers (C57_stops_fails); between
    customers the objective adds the times of the opposite direction (C57_oneway_fails); the padding's closing time of 1000000 makes
    problems infeasible that have later time windows (C57_late_fails).  The opening and service times of the depot are not used.
40. C58: `A[0, :, x]` takes the integer first, so that the dimensions of `x` are put last; in NumPy they come first
    (C58_layout_fails).  Arrays selected with gaps, like `A[:, 0]`, cannot be sliced again (C58_gaps_fails).
41. C59: `equals` looks at classes, shapes and constants only.  Two different decisions of one model with one shape are equal
    (C59_decisions_fails), and so are `x[0]` and `x[1]` (C59_index_fails), and the sums of a square matrix along its two axes
    (C59_axis_fails), although "equal symbols represent the same quantity".
42. C60: `state_size` says too little for `A[x, :]` (C60_rows_fails) and `x[::2]` (C60_slice_fails), raises "size is unbounded", which
    "shouldn't happen", for `-x` of a set `x` and for models with such symbols (C60_unary_fails), and is 0 for disjoint sets and lists,
    although these hold all of the decision (C60_disjoint_fails).
43. C61: soft constraints of a constrained quadratic model become hard constraints without penalty (C61_soft_fails); objective and
    constraints of a model without variables are dropped, so that an infeasible one becomes feasible (C61_no_variables_fails).
44. C62: `v += y` on a sum changes all symbols and names that use the sum already, other than with NumPy (C62_extended_fails);
    `v += v` makes a sum its own operand, so that the model cannot be locked (C62_doubled_fails); `where` with a one-element condition
    of more dimensions than the arrays has NumPy's elements but not its shape (C62_where_fails), and shows one array where NumPy
    raises an exception as the other one has another size (C62_where_varying_fails).
45. C63: `set_state` accepts arrays of any shape with the right number of elements (C63_shape_fails), rounds fractions toward zero
    without notice (C63_fraction_fails), and when it rejects a value, the state that had been set before is lost (C63_lost_fails).
46. C65: an unlocked model refuses states of a model built in exactly the same way, when a constant was made before a decision
    (C65_order_fails); sizes and bounds are not compared, so that a list of two items can get a state with three (C65_values_fails);
    states of a model with more decisions are accepted, and symbols added later find entries of other classes (C65_later_fails).
47. C66: two propagations before a commit make the validation symbol fail although nothing is wrong (C66_twice_fails), and so does an
    array with 2³¹ elements (C66_large_fails); an array of declared fixed size that grows is not noticed (C66_shape_fails);
    `DynamicArrayTestingNode::shrink` of an empty array and rows without elements violate assertions (C66_empty_fails).
48. C67: the product of an array of integers need not be an integer, although the symbol declares that it is: 7 changed to 29 gives
    29.000000000000004, as the code multiplies by the rounded quotient 29/7 (C67_product_fails).  A sum of fractions depends on the
    history: `[0, 0.3]` has the sum 0.3, and 0.30000000000000004 after the first element was 0.8 for a while, so that a constraint that
    was satisfied becomes violated in an equal state (C67_sum_fails).  A quadratic model with biases 1 and 2^55 loses the 1 when the
    other variable is set and unset, in spite of compensated summation (C67_quadratic_fails).
49. C68: the error of a sum grows without bound as a search goes on: with every four changes of an element the sum becomes greater by
    two, although the array is the same again (C68_drift_fails); the code never calculates a sum anew.
50. C69: a slice that selects nothing can be made and saved, but the file cannot be loaded: `A[1, 3:]` of a matrix with three columns
    is saved with a first index that is out of range (C69_empty_fails).
51. C48: a refused combined index leaves a slice behind: `A[0, i]` with `i` out of range leaves `A[0, :]` in the model
    (C48_getitem_fails); C48_getitem_partial says that this is all that can be left.
52. C70: the order of operands is not in the exported graph: `x - y` and `y - x` give the same one (C70_order_fails); after a rejected
    `NaryAdd` the export has undefined behaviour (C70_rejected_fails).
53. C71: `n += y` and `n *= y` on symbols with several operands, `minimize(y)` and `add_constraint(y)` do not check whose symbol `y` is
    (C71_inplace_fails: the other model cannot be locked any more; C71_objective_fails, C71_constraint_fails: objectives and
    constraints that do not exist any more).  C71_separate_partial and C71_outcome_partial are for histories without these.
54. C72: without constraints `feasible` does not look at the index, and says True for states that do not exist (C72_no_state_fails).  The
    positive theorems are partial as those of C63 are (sets that are no partition; what the catalog and `Script.Supported` exclude).
55. Supported programs may contain `A[x, :][:, x]` if `x` is a list or a constant order.  Such a symbol reads the order at every reported
    change, so the order must not report entries out of range even for a moment, which other symbols might do; for this each symbol of
    a model has its own relation between old value, reported changes and new value (`Lemmas/Related.lean`, `Script.OrderlyRel`).
56. C73: `A[1, :, i]` is the transpose of NumPy's, as in C58 (C73_layout_fails).  C62 has sums and products that are extended in place, C73
    has indexing, sizes and disjoint decisions; code that has both is not covered.
57. C58: `x[...]` of an array whose size varies is compared with NumPy for the arrays' present sizes (C58_varying_partial).  In supported
    programs it begins with a slice; index arrays for such arrays are not among them (C32_column_fails, C32_rows_fails).
58. C74: `x += y` in a block is undefined behaviour (C74_inplace_fails, as C18_locked_inplace_fails); `unlock()` in a block releases the
    block's lock (C74_unlock_fails).  The states are not part of this model (C63 has them).
59. C75: a `lock()` that is refused because of a cycle (`y += y` makes one) leaves indices behind in symbols that it has already
    numbered.  Their states can then be asked for although the model is not locked, and decisions created later may get the same
    index, so that two symbols share a place in the states (C75_index_fails), and reading one after setting the other is undefined behaviour (C75_state_fails).  `+=` trips an assertion (C75_extend_fails).
60. C76: `x != y` raises an exception but leaves the symbol of `x == y` in the model (C76_unequal_fails), since Cython makes `!=` from
    `==`; so does `x <= y <= z` (C76_chained_fails).  `x == 5` is `False` for every symbol that is no constant (C76_number_fails).
    `bool(c)` raises an exception for constants with one element and dimensions (C76_truth_fails).  `c.__index__()` is undefined for
    whole numbers from 2^63 on (C76_index_fails).  CPython's `do_richcompare` and the methods made by Cython are part of the model.
61. C75, C74, C17, C10, C30: libcpp/graph.pxd and libcpp/array.pxd declare `topological_sort`, `remove_unused_nodes` and the constructors of
    `Slice` without `except+`, so Cython does not translate their exceptions: called from Python, `lock()` and
    `remove_unused_symbols()` of a model with a cycle, and `x[::0]`, terminate the program instead of raising (C75_terminates_fails,
    C30_zero_step_fails; `Model/Escape.lean`, which counts termination as `ub`).  `PyModel.step`, `PyModel.attempt`, `Model/Blocks.lean`
    and `basicParse` have the exceptions of the C++ functions; what is said about refused locks (C75_refused_partial, C75_stays_refused,
    C75_index_fails, C75_state_fails, C75_extend_fails, C74_refused) is about callers of the C++ functions that catch them, and about
    Python if the two declarations get their `except+`.  Histories of Python programs as it is: C75_python_partial, C75_terminates,
    C75_no_extension, C30_python_partial.
62. C77: generators keep pointers into the vectors.  A body that creates symbols while iterating over symbols or successors reads memory
    that has been given back (C77_new_symbols_fails, C77_successors_fails), one that removes symbols reads elements that are gone
    (C77_removed_fails), and one that locks the model meets a symbol twice and misses another (C77_lock_fails).  The capacities of vectors
    are a parameter of the positive theorems; the counterexamples use doubling, as in libstdc++.  Memory of symbols that are removed while
    a generator of their own is alive is not modelled in detail: reading is `ub`.
63. C78: constants share the memory of arrays of doubles, and nothing tells the model that the array was written.  `max()` stays what it
    was when first asked (C78_stats_fails), an index that was checked reads beyond the indexed array (C78_index_fails), sums keep old
    values (C78_stale_fails).  Read-only arrays of doubles are refused, other read-only arrays are not (C78_readonly_fails), and arrays of
    doubles that are not in C order are copied although the documentation says otherwise (C78_order_fails).  Views that share memory with
    another array are not modelled: each array owns its memory.
64. C79: `concatenate` refuses negative axes (C79_negative_fails) and symbols of changing size (C79_dynamic_fails), returns a single symbol
    as it is instead of joining its rows (C79_array_fails), and does not look at the axis when a sequence has one element
    (C79_unchecked_fails).
65. C80: typed Cython parameters take `None`, and no file sets `nonecheck` or says `not None`: all classes with typed operands and
    `shares_memory` read from `None` as if it were a symbol (C80_none_fails).  `add(x, None)` is undefined although `add(x, None, y)`
    raises an exception (C80_function_fails).
66. C81: coordinates with one row, as from a one-dimensional array, make `quadratic_model` read beyond the array, since bounds are not
    checked there (C81_rows_fails); a third row and more are ignored (C81_third_row_fails); the index `2 ** 32` is taken for 0
    (C81_wrap_fails), and fractions are accepted as indices (C81_fraction_fails).
67. C82: `shape_to_size` multiplies with `std::reduce(…, 1, …)`, so that the number of elements is kept in an `int`: a matrix of 2^16 rows
    and columns has none, and a vector of 2^31 elements counts as an array of changing size (C82_size_fails).  Bounds become `int`
    without a check: fractions are cut, so that a variable with the lower bound 0.5 may be 0 (C82_fraction_fails), and for bounds
    beyond 32 bits, infinite ones and NaN the conversion is undefined, while 2000000001 raises an exception (C82_range_fails).
68. C83: for the same reason a list of 2^31 items counts as an array of changing size and one of 2^32 has no elements (C83_size_fails).
