# Verification of rust-autograd: design

Source: `/repo` (crate `autograd` 2.0.0-rc3, Rust), read as text; nothing was built or run.
Properties: `properties.jsonl`. Model and proofs: `lean/` (Lean 4.33, single Mathlib modules where needed).
Status per property: `MANIFEST.json`. Mutation log: `seeded/LOG.jsonl`.

## Layout

* `lean/Verif/Model/*.lean`  the model of the code; each definition cites file and lines and states its simplifications.
* `lean/Verif/Spec/*.lean`   specifications, written without helpers of the model.
* `lean/Verif/Lemmas/*.lean` helper lemmas and the sample graphs used by examples.
* `lean/Verif/Props/*.lean`  the property theorems (`Cnn_...`), each with an `example` that a concrete case meets its hypotheses.

Naming: `Cnn_*` a property theorem; `Cnn_*_partial` a weaker form of the English statement (its comment says what is missing);
`Cnn_*_violated` a proof, with a concrete witness, that the code does not satisfy the English statement.

How to check: `cd lean && lake build`; `#print axioms Verif.Props.<name>`.

## Trusted base

**Kernel and axioms.** Lean's kernel. The axioms each property theorem depends on are listed in the last section; they are always among
`propext`, `Classical.choice`, `Quot.sound`.

**Reading of the code.** The correspondence between the Rust text and the Lean model was made by hand. The theorems say
nothing about the code beyond that correspondence.

**What is modelled** (file: Lean module):

| Rust | Lean |
|------|------|
| `src/graph.rs`, `TensorBuilder` of `src/tensor.rs`, `control_dependencies`, `placeholder`, variable tensor cache | `Model/Graph` |
| `src/evaluation.rs` (`Graph::eval`, `OpOutputStorage`, feeds, `validate_feed_shape`), `src/op.rs` (inputs, outputs, errors) | `Model/Eval` |
| the same with memory: views, in-place writes, freed arrays | `Model/Aliasing` |
| `src/gradient.rs`, `tensor_ops::grad`, `grad_with_default` | `Model/Gradient` |
| `src/variable.rs` (registry, namespaces, save/load, variable tensors by name) | `Model/Variables` |
| `Adam::new`, `MomentumSGD::new`, `AdaGrad::new` and state lookups | `Model/OptimizerState` |
| `src/optimizers/*`, `src/tensor_ops/gradient_descent_ops/*`, `assign` | `Model/Optimizers` |
| programs: constructors, `compute` and `grad` of the ops of 38 kinds of calls put together | `Model/Program` |
| the `ndarray` functions used by the ops | `Model/NdArray` (assumed, see below) |
| `src/tensor_ops/binary_ops.rs`, `InferBinOpShape` | `Model/BinaryOps` |
| `src/tensor_ops/reduction_ops.rs` | `Model/Reductions`, `Model/Compare`, `Model/ArgMax` |
| comparison ops, `maximum`/`minimum` of `src/tensor_ops/math_ops.rs` | `Model/Compare` |
| elementwise ops of `math_ops.rs`, `activation_ops.rs`, `clip` | `Model/Elementwise` |
| `softmax`, `log_softmax`, `reduce_logsumexp` | `Model/Softmax` |
| `src/tensor_ops/xent_ops.rs` | `Model/CrossEntropy` |
| `src/tensor_ops/array_ops.rs`, `Transpose` | `Model/ArrayOps` |
| `src/tensor_ops/dot_ops.rs` | `Model/MatMul`, `Model/Tensordot` |
| `src/tensor_ops/conv_ops/*` | `Model/Conv`, `Model/MaxPool` |
| `TensorBuilder::set_shape`, `shape(x)` and the constructors of `src/tensor_ops/mod.rs` | `Model/ShapeHint` |
| `ArrayRng` of `src/ndarray_ext.rs`, `src/tensor_ops/random_ops.rs` | `Model/Random` |
| `SetDiff1D` of `src/tensor_ops/array_ops.rs` | `Model/SetDiff` |
| the network of `examples/mlp_mnist.rs` as a program | `Model/Classifier` |
| its training loop: fresh graph, `grad`, `Optimizer::update`, write back | `Model/TrainLoop` |
| programs of constructor calls that may fail, calls of `grad` inside programs, `_hessian_vector_product` | `Model/Calls`, `Model/HigherOrder`, `Model/Hvp` |
| the program of `examples/lstm_lm.rs` | `Model/Lstm` |
| the programs (loss and accuracy) of `examples/cnn_mnist.rs` | `Model/Cnn` |
| `grad_helper`, `get_update_op` | `Model/UpdateOp` |
| `check_theoretical_grads` | `Model/TestHelper` |
| `src/hooks.rs`, `HookOp`, `Tensor::register_hook` | `Model/Hooks` |
| `examples/mnist_data.rs`, loops over epochs and batches of the MNIST examples | `Model/Mnist` |
| `main` of `examples/mlp_mnist.rs` | `Model/MlpMnist` |
| `main` of `examples/cnn_mnist.rs` | `Model/CnnMnist` |

**What is not modelled.**

* IEEE floating point. Elements live in an arbitrary (semi)ring, field, linear order or in ℝ. Rounding, overflow and NaN appear only where a
  comment says so. `T::min_value()`/`T::max_value()` are parameters with the hypotheses stated in the theorems.
* The `blas`/`mkl` features. `matrixmultiply`, `rayon`, `serde_json`, `uuid`, `rand`, `special` are replaced by their mathematical meaning or
  left out (`lgamma`, `digamma`).
* Threads: `RefCell` borrow panics, `ctx` re-entrancy, and the order of `par_iter` bodies (they are independent).
* Integer overflow, except where the code relies on wrapping (`usize` in max pooling and transposed convolution, `u32` comparisons in `im2col`).
* Allocation failure, IO errors.

**Assumptions about `ndarray`** (the crate's source was not available; the statements are from its documentation and from memory):

* `into_shape`: same number of elements; row-major arrays are reread in row-major order, column-major arrays of rank ≥ 2 in column-major order, everything else is an error.
* `x[IxDyn(&[])]` panics unless the rank is 0.
* `&a op &b` broadcasts both operands to the common shape; `a op= &b`, `zip_mut_with`, `assign` broadcast the right operand; `Zip::and` requires equal shapes.
* `fold_axis` and `map_axis` visit a lane from front to back and give row-major results. The layout of `sum_axis` and `concatenate` results is a parameter of the theorems.
* `map` and `to_owned` keep the strides of arrays without gaps and give row-major results otherwise. `&a op &b` gives a column-major result if the operands prefer it (`prefersF`),
  else a row-major one. `a op= &b` keeps the strides of `a`.
* `slice` bounds: negative values count from the back; start and end must lie within the axis; an end below the start is raised to it.
* `concatenate` returns an error for incompatible shapes; different ranks are counted as incompatible.
* `num_traits::ToPrimitive::to_usize` of a float truncates; negative values give `None`.
* `matrixmultiply::sgemm/dgemm` compute the matrix product of the strided operands, zeros if the inner size is 0. `par_iter().step_by(0)` panics.
* In release builds `get_unchecked_mut` behind the length of a `Vec` (transpose, max pooling) is taken as a plain write (formally it is undefined behaviour). That
  debug builds check the index is remembered from the Rust release notes; `C30_debug_build_violated` rests on it.

**Further simplifications worth knowing.**

* Ops are arbitrary functions in the graph-level theorems (C01–C14, C18–C23): inputs, world (random state, output) ↦ world, outputs or error or panic, writes to mutable inputs.
* Optimizer ops read their inputs when called; this is exact unless the gradient tensor is itself the tensor of a state variable.
* `1e-7` in AdaGrad is the rational number; `powf` on natural exponents is assumed to be the power.
* In C40 the product of two matrices is taken on row-major views, which is justified by `C39_matmul` (the layout does not matter).
* The model of max pooling stores positions as naturals; the code stores them as floats (exact below 2^24 for `f32`).
* In the view machine (C10) an op that writes to a variable and then appends a view of it is described as appending an owned array (the code copies it in that case).
* The gradient functions of single ops take evaluated inputs; `shape(x)` inside them is taken to be the true shape of `x`, which is C43. Where C43 fails (`flatten`), those
  gradients fail as well (`C43_flatten_gradient_violated`).

## Per property: what is modelled, how it is proved

The full statements are in `properties.jsonl`.

### C01 Tensor handles are stable: building tensors never disturbs existing ones (proved)

Model: Histories of construction calls (`GOp`, `execList`) on `Model/Graph`; ids are positions in the node list.
Proof: Frame lemma per call, induction over the history.
Every history of graph construction calls.

* `C01_handles_stable` (Graph.lean): Whatever is built afterwards, an existing handle keeps designating the same node; only tensors on which `depends_on` was called change, and there only the tensor that the first input refers to.
* `C01_created_is_fresh` (Graph.lean): A created tensor is new: its handle differs from every handle valid before, and the node it designates has the requested op, inputs, differentiability and back-propagation inputs.
* `C01_handles_distinct` (Graph.lean): In a whole history, starting from the empty graph, the handle of a created tensor is different from all the handles handed out before, and all handles handed out are valid at the end.

### C02 Graphs are acyclic unless depends_on closes a loop (proved)

Model: The same histories; the dependency relation of the spec is the transitive closure of incoming edges.
Proof: Invariant "the rank of a node is above the ranks of its inputs"; `depends_on` by surgery on paths; the rank is the longest path.
Every history; exact criterion for depends_on.

* `C02_ranks_and_acyclic` (Graph.lean): Without `depends_on` the recorded topological rank of a tensor is above the rank of each of its inputs, and the graph is acyclic.
* `C02_rank_exact` (Graph.lean): The rank of a newly built tensor is 0 without inputs, and otherwise exactly one more than the highest rank of an input.
* `C02_depends_on_iff` (Graph.lean): One `depends_on` call keeps the graph acyclic exactly when no dependency already is, or depends on, the tensor.
* `C02_acyclic_iff_safe_history` (Graph.lean): After any history of builder calls the graph is acyclic if and only if every `depends_on` call was safe when it was made: cycles arise in no other way and, once made, never disappear.

### C03 Evaluation terminates on every acyclic graph (proved)

Model: The evaluation machine with fuel.
Proof: A weight that every step decreases on acyclic graphs; on a cycle a finished run would give a topological order.
Fuel bound for every acyclic reachable graph; no fuel suffices on a cycle below a target; every panic has one of the listed causes.

* `C03_terminates` (Eval.lean): On an acyclic graph evaluation finishes (with results or a panic) within `2 * (targets + edges)` loop iterations, and what it finishes with does not depend on the bound.
* `C03_cycle_never_returns` (Eval.lean): If a target is or depends on a tensor that depends on itself, evaluation never returns, however many iterations are granted; and unless something panics it runs forever.
* `C03_panic_causes` (Eval.lean): An evaluation panics only for one of the causes listed in `PanicCause`: the code of a needed op panics, a needed placeholder is unfed or fed with the wrong shape, a variable or output does not exist, or an op tensor is requested twice.

### C04 Only what is needed is computed, and only once (proved)

Model: The machine with a ghost log of executed ops.
Proof: Machine invariants: the log has no repetition, equals the storage domain, and every stack entry is reachable from a target.
Every evaluation that returns.

* `C04_needed_exactly_once` (Eval.lean): An evaluation that returns has processed exactly the needed op tensors, each exactly once, and it amounts to executing them one after the other in the order of the log, with the effects on variables and world that this has.

### C05 Ops run after all of their inputs (proved)

Model: The same log.
Proof: Invariant: the inputs of an expanded stack entry are stored or above it.
Every evaluation that returns.

* `C05_topological_order` (Eval.lean): The order of execution is a topological order: each op tensor comes after all op tensors it uses.

### C06 Evaluation computes the mathematical meaning of the graph (proved)

Model: Pure ops; `Means`/`TargetMeans` is an inductive relation that does not mention the machine.
Proof: Invariant "stored = meaning"; existence by rank induction; uniqueness.
Partial correctness, totality and independence of the other targets.

* `C06_results_are_meanings` (Eval.lean): Partial correctness: if evaluation returns, each result is the mathematical meaning of its target, and no variable has changed.
* `C06_total` (Eval.lean): Total correctness: if all targets have a meaning (no op panics, all needed placeholders are fed, ...) and no op tensor is requested twice, evaluation of an acyclic graph does return, and the results are these meanings.
* `C06_independent` (Eval.lean): The value of a target does not depend on the other targets, nor on their order, nor on what else is built afterwards: two evaluations, of different target lists and the second one in a graph that has grown, agree on a common target.

### C07 Results come back in request order, one per target (partial)

Model: Aggregation of results.
Proof: Induction over the targets; a two-element target list is the witness for repeated targets.
Holds for distinct op targets; the code panics when an op tensor is requested twice (witness).

* `C07_request_order_partial` (Eval.lean): (partial: no op tensor may be requested twice, see `C07_repeated_target_violated`) One result per target, in the order of the request: the result at a position is the one of the tensor requested at this position.
* `C07_repeated_target_violated` (Eval.lean): violated: whenever an op tensor is requested twice, evaluation never returns results, whatever the graph. (Requesting a variable or placeholder twice is fine.)

### C08 Op errors propagate to exactly the dependents (partial)

Model: Errors as values; the spec is a relation "fails with e" on the dependency graph.
Proof: Invariant of the machine; debug builds are a flag of the semantics.
Holds in release builds; in debug builds an op that fails before appending an output panics instead (witness).

* `C08_errors_reach_dependents` (Eval.lean): A requested op tensor yields an error exactly when an op call at or below it failed, and then its error is the error returned by one of these calls.
* `C08_called_iff_no_failure_below` (Eval.lean): A needed op is called exactly when no op call below it failed.
* `C08_first_failing_input` (Eval.lean): An op that is not called inherits the error of its first failing input.
* `C08_debug_build_violated` (Eval.lean): violated in debug builds: an op that reports an error without having appended an output (as the ops of this crate do when they return `Err`) makes the evaluation panic instead of yielding the error.

### C09 Variables change only through ops that take them as mutable inputs (proved)

Model: Writes of ops to mutable inputs.
Proof: Frame invariant over the machine.
Every evaluation that returns.

* `C09_variable_frame` (Eval.lean): The number of variables does not change, a variable that no called op takes as a mutable input keeps its array, and a requested variable tensor yields the array after all ops have run.

### C10 Computed results never alias live variables (partial)

Model: `Model/Aliasing`: slots that are owned or views (location and projections), a heap, freeing on `take`.
Proof: Simulation between the machine with views and the machine on values; a witness with a freed sibling.
Memory model with views, in-place writes and freed arrays: all graphs, interleavings and target lists during the evaluation. What is returned is readable unless a target is a view of a further (second, third, ...) output of another target; then freed memory is read (witness; needs the hidden function nth_tensor).

* `C10_snapshot` (Aliasing.lean): Every result is a snapshot: whatever a tensor's outputs were when its op had run, they are the same (and readable, and not memory of a variable) in every later state of the evaluation, whatever variables were written in between.
* `C10_states` (Aliasing.lean): In every state of the evaluation the results are those of the evaluation in which every output is copied when its op has run.
* `C10_no_dangling_input` (Aliasing.lean): No op is ever called with a view of freed memory.
* `C10_equivalence_partial` (Aliasing.lean): (partial: not if a target may be a view of a further output of another target, see `C10_siblings_violated`) The evaluation returns what the evaluation in which every output is copied returns: the same results, variables, executed ops and panics. In particular nothing that is returned was freed.
* `C10_single_target` (Aliasing.lean): For a single target the evaluation returns what the evaluation in which every output is copied returns.
* `C10_siblings_violated` (Aliasing.lean): fails for targets of which one is a view of a further output of another: after the first was returned, its other outputs are freed and the second is read from freed memory.

### C11 Feeds: the first matching feed wins, an unfed needed placeholder is reported (proved)

Model: Feed lookup.
Proof: List induction against "the first feed that matches".
First matching feed, for op inputs and for requested placeholders.

* `C11_op_inputs_are_first_feeds` (Eval.lean): /C12** When an op is called, each input that is a placeholder has the value of the first feed, in push order, that names the placeholder by tensor or by name; so an unfed placeholder is never silently given a value. Its shape is accepted by the declared shape.
* `C11_target_is_first_feed` (Eval.lean): /C12** A requested placeholder yields the value of its first matching feed, whose shape is accepted.
* `C11_unrelated_feed_ignored` (Eval.lean): A feed that matches no needed placeholder has no effect at all.
* `C11_same_name_same_value` (Eval.lean): Two placeholders with the same name, of which none is fed by tensor, get the same value.
* `C03_panic_causes` (Eval.lean): An evaluation panics only for one of the causes listed in `PanicCause`: the code of a needed op panics, a needed placeholder is unfed or fed with the wrong shape, a variable or output does not exist, or an op tensor is requested twice.
* `C12_accepted_exactly` (DependsOn.lean): /C11** Evaluating a placeholder of declared shape `d`: the first matching feed is returned if and only if its shape is accepted; otherwise evaluation panics, as it does without a matching feed.

### C12 Placeholder shapes are enforced (proved)

Model: `KnownShape` and `validate_feed_shape`.
Proof: Exact condition by list induction.
Exact acceptance condition.

* `C12_declaration` (DependsOn.lean): Declaring a placeholder succeeds only if every dimension is positive or -1 (and the graph is not too large); then the tensor has the declared name and shape.
* `C12_declaration_succeeds` (DependsOn.lean): Conversely a declaration with positive or -1 dimensions succeeds as long as the graph is not too large.
* `C12_accepted_exactly` (DependsOn.lean): /C11** Evaluating a placeholder of declared shape `d`: the first matching feed is returned if and only if its shape is accepted; otherwise evaluation panics, as it does without a matching feed.

### C13 depends_on orders side effects before the tensor (partial)

Model: `control_dependencies` and the machine.
Proof: Edge lemma plus C04/C05; values by `Means`; three witnesses.
The op itself runs after the dependencies and values are kept in the stated cases; other inputs are evaluated before the dependencies, selected first outputs and mutable first inputs make evaluation panic (witnesses).

* `C13_runs_after_dependencies_partial` (DependsOn.lean): (partial: only the op of the tensor itself is ordered after the dependencies, see `C13_other_inputs_violated`) After `x.depends_on(deps)`, whenever `x` is executed each dependency that is an op has been executed before, and `x` is executed in a state in which all their effects have happened.
* `C13_values_unchanged_partial` (DependsOn.lean): (partial: the first input must not be a selected output `k > 0` nor a mutable input, see `C13_selected_output_violated` and `C13_assign_violated`) In a graph of pure ops `depends_on` changes no meaning: every tensor that had a meaning keeps it, provided the dependencies have values.
* `C13_other_inputs_violated` (DependsOn.lean): violated for inputs other than the first: with `v = 1`, after `y.depends_on(&[u])` where `u` sets `v` to 5, evaluating `y` returns `0 + 2 * 1`, although `u` did run; evaluating `u` first and then `y` gives `0 + 2 * 5`.
* `C13_selected_output_violated` (DependsOn.lean): violated for a tensor whose first input is a selected output: `nth_tensor(two(3), 1)`-style inputs ask the control node for an output that it does not have, and evaluation panics.
* `C13_assign_violated` (DependsOn.lean): violated for ops with a mutable first input: after `assign(v, 5).depends_on(..)` the assignment panics.

### C14 One tensor per variable per graph (proved)

Model: The cache `variable2node`.
Proof: Invariant over histories including `clear`.
Every reachable graph, including after clear.

* `C14_variable_tensor_unique` (Graph.lean): The tensor returned for a variable belongs to the current graph and is bound to this variable (so no stale tensor is returned after `clear`); and every tensor of the graph that is bound to this variable is this one.
* `C14_lookups_agree` (Graph.lean): Two lookups, with any builder calls in between, return the same tensor exactly when they are for the same variable.

### C15 The variable registry behaves like a map from (namespace, name) to arrays (proved)

Model: The registry.
Proof: Refinement to a map from (namespace, name) and to a list of arrays.
Every history of registrations and in-place updates.

* `C15_registration_id` (Variables.lean): The id handed out by a registration is the number of registrations made before: it designates the new array and was never handed out before.
* `C15_lookup_by_id` (Variables.lean): Looking up an id gives the array of that registration with its later in-place updates, whatever was registered since under the same or other names; an id that was not handed out gives nothing.
* `C15_lookup_by_name` (Variables.lean): Looking up a name never panics. It gives the array of the latest registration under that namespace and name, with its later in-place updates, and nothing exactly if no registration was made under that namespace and name.
* `C15_iteration` (Variables.lean): Iterating over the whole environment lists every id handed out, once and in order, with its current array.

### C16 Namespaces are isolated (proved)

Model: The registry with namespaces; iteration order of the hash map is any permutation.
Proof: Refinement as in C15.
Every history, every iteration order of the hash map. An update through an id of another namespace is possible in the API (get_array_by_id) and is not an update of this namespace.

* `C16_registration_isolated` (Variables.lean): Registering in one namespace changes nothing that is visible in another one: names, ids and values. Only the order in which a listing comes out may change.
* `C16_update_isolated` (Variables.lean): Updating an array found by its name in one namespace changes no value visible in another namespace, and no other name of the same namespace; no name appears or disappears.
* `C16_listing` (Variables.lean): The ids and names listed for a namespace are exactly its currently valid registrations, each listed once, whatever the iteration order of the map.
* `C16_namespace_iteration` (Variables.lean): Iterating over a namespace does not panic and lists every name registered in it, once, with the array a lookup by that name gives.
* `C16_variable_by_name` (Variables.lean): , C14** The tensor found by namespace and name in a graph is the (unique) tensor of the variable registered latest under them; looking up a name that was never registered is a panic.

### C17 Saving and loading an environment gives it back (partial)

Model: Key encoding `ns U+0001 name`, `collect` into hash maps with collisions, decoding of arrays as a partial inverse.
Proof: Round trip; exact condition; witness for a name with U+0001.
Exact condition: the environment comes back iff no namespace or name contains U+0001 (witness for the failure). The JSON text format is an assumption about arrays.

* `C17_save_load_iff` (Variables.lean): (exact condition)** Let every array survive the JSON encoding. Saving an environment and loading the file never panics and never fails, and gives the environment back **if and only if** no namespace and no name contains the character U+0001.
* `C17_save_load_partial` (Variables.lean): (part that holds)** If no namespace and no name contains U+0001 and every array survives the JSON encoding, then loading a saved file, or initialising any existing environment from it, restores every array under its id and every name for its id, and nothing else. Missing: names containing U+0001 (see `C17_violated`), and the JSON text format itself, which is an assumption (`hdec`).
* `C17_violated` (Variables.lean): (violated)** There is an environment, with arrays that survive the encoding, for which loading the saved file succeeds but does not give it back: the variable named `"x\u{1}y"` comes back under the name `"x"`.
* `C17_undecodable` (Variables.lean): If some array does not survive the encoding (in JSON: an infinite or NaN element), loading reports an error, and `initialize` then leaves the environment as it was.

### C18 grad is exact reverse-mode differentiation (proved)

Model: `compute_gradients` with any tie-breaking of the binary heap; gradient tensors are built in the graph.
Proof: Values of the built gradient tensors in an additive monoid; invariant of the loop "sum of pending products = adjoint of the linearisation"; independent spec by movements of all tensors.
For every graph, every Op::grad that is the adjoint of the op's linearisation, every tie-breaking of the priority queue.

* `C18_grad_with_default_exact` (Gradient.lean): `grad_with_default` for leaves `xs` returns gradients `cov` of all leaves: however the leaves move (tangents `t`), the change of the objectives, weighted with the given output gradients `cy`, is the sum of the gradients applied to the movements of the leaves.
* `C18_grad_exact` (Gradient.lean): `grad` for leaves: it adds the tensors `sys` (`sum_all` of each objective) to the graph, giving `g0`. If the calculus is right for `g0`, `σ y` is what `sum_all` does to tangents of `y` (for arrays: adding up the entries) and the constant one represents the identity on the tangents of the `sys`, then the returned tensors are gradients of the sum of all entries of all objectives.
* `C18_movements_exist` (Gradient.lean): The statements are not empty: every movement of the leaves (more generally of any set `X` of tensors) extends to a movement of all tensors.
* `C18_graphs_are_dags` (Gradient.lean): Graphs made without `depends_on` satisfy the hypothesis `BpDag` of the theorems below, provided custom back-propagation inputs (only used by the convolution ops) are inputs, or inputs of inputs, and so on.

### C19 grad of a real-valued graph is its derivative (proved)

Model: C18 with real numbers.
Proof: Chain rule along the graph (Mathlib `HasDerivAt`), then C18.
Scalar graphs of real ops with correct partial derivatives; floating point rounding is not modelled.

* `C19_grad_is_derivative` (GradReal.lean): For every graph of differentiable real ops (of any size and shape), the tensors that `grad(ys, xs)` returns for leaves `xs` have as values the partial derivatives of the sum of the objectives: `val u` are the values of all tensors as functions of the value `u` of leaf `x`.
* `C19_variation_exists` (GradReal.lean): The statement is not empty: the values of the tensors as functions of one leaf exist, for every leaf.
* `C19_evaluated_gradient` (GradReal.lean): Evaluating the gradient tensor gives the derivative: `eval` of the returned tensor, in the graph that `grad` leaves behind, returns (given enough loop iterations) the number `v` that is the derivative of the sum of the objectives. `Q` interprets the ops as `S` does.

### C20 Gradients with respect to intermediate tensors (partial)

Model: As C18.
Proof: Exact for tensors with one consumer path; witnesses.
Exact for intermediate tensors used once; wrong for intermediate tensors used more than once and for repeated xs (witnesses).

* `C20_interior_partial` (Gradient.lean): partial: exactness for distinct `xs` and every set `X` of them that do not depend on each other, if those that are not leaves are used only once. Missing: intermediate tensors that are used more than once and repeated `xs`; there the code is wrong (`C20_interior_violated`, `C20_repeated_violated`).
* `C20_interior_violated` (GradWitness.lean): violated: with `h = a * b` and `y = h * h` the gradient of `y` with respect to the intermediate tensor `h` comes out as `3 h` instead of `2 h` (18 instead of 12 for `a = 2`, `b = 3`), although all ops are correct and `h` is requested only once.
* `C20_repeated_violated` (GradWitness.lean): violated: if the same tensor is requested twice (`xs = [x, x]` with `y = x * x`), the second returned gradient is wrong, `3 x` instead of `2 x` (15 instead of 10 for `x = 5`).

### C21 Tensors that ys do not depend on get a zero gradient (partial)

Model: As C18.
Proof: Case analysis of all panics of the loop.
Zeros for unreachable xs, all causes of panics characterised; panics on differentiable ops that return no gradient (witness).

* `C21_grad_with_default_total_partial` (Gradient.lean): `grad_with_default` always finishes. It returns zeros (of the right shape) for every x that the objectives do not reach through differentiable tensors, and it panics only if the graph gets too large, an `Op::grad` panics, or some differentiable op does not return a gradient for an input that leads to `xs`.
* `C21_grad_total_partial` (Gradient.lean): The same for `grad`, for any objectives (repeated or not). Missing from the claim: ops that are declared differentiable but return no gradient; for these the code panics (`C21_no_gradient_violated`).
* `C21_no_gradient_violated` (GradWitness.lean): violated: `y` depends on `x` only through an op that is declared differentiable but returns no gradient (as e.g. the comparison ops do); `grad(&[y], &[x])` then panics (index out of range in `gradients[0]`) instead of returning zeros. No `Op::grad` panics.

### C22 Several objectives add up (partial)

Model: As C18.
Proof: Additivity of the exact result; witness for repeated objectives.
Additivity for distinct objectives; wrong when grad_with_default gets an objective twice (witness).

* `C22_additive_partial` (Gradient.lean): partial (distinct objectives): `grad_with_default` is additive in the objectives and linear in the output gradients. If the objective of a first run (a list of objectives with output gradients) is the sum of the objectives of two other runs on the same graph, the gradients of all leaves are the sums of the gradients of these runs.
* `C22_repeated_violated` (GradWitness.lean): violated: if an objective is listed twice in `grad_with_default`, with output gradients 1, the gradient of `y = a * x` with respect to `x` is `5 a` instead of `2 a` (10 instead of 4 for `a = 2`), whereas the gradient of the objective listed once is `a`.

### C23 Back-propagation visits each op once, consumers first (proved)

Model: As C18 with a ghost log.
Proof: Heap order by ranks; every id enters the heap once.
Every run.

* `C23_once_consumers_first` (Gradient.lean): In a run of `grad_with_default`: `Op::grad` is called at most once for each tensor; it is called only for differentiable tensors that are reached from the objectives and either are objectives or lead to `xs`; all consumers of a tensor for which it is called at all come before that tensor; and (if ops give the gradients that are asked for) it is called for *all* tensors in between.
* `C23_grad_once_consumers_first` (Gradient.lean): The same for `grad` (its objectives are the `sum_all` tensors `sys` of the graph `g0`, which are always distinct).

### C24 Broadcasting arithmetic (partial)

Model: `Model/BinaryOps`.
Proof: Pointwise formula with right-aligned indices; spec by `Broadcasts`.
Exact elementwise broadcasting for all shapes and values; C24_accepts_iff_partial says for all operands which are accepted by each of the four ops, and that all others panic; division by an array of shape [1] and operands of shape [0] panic, and the shape inference disagrees for different ranks (witnesses).

* `C24_accepts_iff_partial` (BinaryAccepts.lean): exactly the operands of the hypotheses of `C24_add_partial`, `C24_mul_partial`, `C24_sub` and `C24_div_partial` are accepted; all others panic (none is reported as an error).
* `C24_add_partial` (BinaryOps.lean): (sum): for operands with a common broadcast shape the result has that shape and every element is the sum of the elements read there. Full statement: no condition on `[0]`-shaped operands, see `C24_empty_violated`.
* `C24_mul_partial` (BinaryOps.lean): (product), as `C24_add_partial`.
* `C24_sub` (BinaryOps.lean): (difference), for every pair of broadcast-compatible shapes.
* `C24_div_partial` (BinaryOps.lean): (quotient). Missing with respect to the full statement: divisors of shape `[1]` (see `C24_div_violated`) and dividends of shape `[0]`.
* `C24_incompatible` (BinaryOps.lean): Operands without a common broadcast shape make every one of the four ops panic (they are not reported as errors).
* `C24_inferred_shape_partial` (BinaryOps.lean): (inferred shape tensor): for two arrays of the same rank, or with a scalar, without empty dimensions, the shape computed by `InferBinOpShape` is the common broadcast shape. Missing: empty dimensions, see `C24_inferred_shape_violated`.
* `C24_div_violated` (BinaryOps.lean): is violated for quotients: dividing any array that is not a scalar by an array of shape `[1]` panics, although the shapes are compatible (`DivOp` indexes the rank-1 divisor with the empty index); `exTwo / exOne` is a concrete case with a common shape.
* `C24_empty_violated` (BinaryOps.lean): is violated for empty operands of shape `[0]`, which `+` and `*` take for scalars: combined with any array that is not a scalar they panic.
* `C24_inferred_shape_violated` (BinaryOps.lean): is violated for the inferred shape with an empty dimension: the common shape of `[1, 2]` and `[0, 2]` is `[0, 2]`, `InferBinOpShape` gives `[1, 2]`.

### C25 Gradients of broadcasting arithmetic have the operand's shape and are exact (partial)

Model: The gradients with `MaybeReduceSum`, `MaybeBroadcast`.
Proof: Adjoint identity by sums over fibres of the broadcast map.
Adjointness for operands that are scalars or have the rank of the result; for operands of lower rank the gradient panics or is silently wrong (summed over the wrong axis), see the witnesses.

* `C25_add_partial` (BinaryOps.lean): (sum): the gradients have the shapes of the operands, and pairing the incoming gradient with the change of the sum caused by any changes `d0`, `d1` of the operands gives the pairing of the gradients with these changes. `r0`, `r1` give the position read. Full statement: every pair of broadcast-compatible shapes; missing are operands of lower rank that are not scalars (`C25_violated`) and empty dimensions.
* `C25_sub_partial` (BinaryOps.lean): (difference), as `C25_add_partial`.
* `C25_mul_partial` (BinaryOps.lean): (product): the change of the product is `d0 * x1 + x0 * d1`.
* `C25_div_partial` (BinaryOps.lean): (quotient): the change of the quotient is `d0 / x1 - x0 * d1 / (x1 * x1)`. Additionally missing: divisors of shape `[1]`.
* `C25_broadcast` (BinaryOps.lean): The second-order op: the gradient op of `MaybeReduceSum`, `MaybeBroadcast`, reads the incoming gradient at the position to which an element was summed.
* `C25_violated` (BinaryOps.lean): is violated when the operands have different ranks: the sum of arrays of shapes `[2]` and `[3, 2]` is computed (by broadcasting), the gradient panics.
* `C25_wrong_axis_violated` (BinaryRank.lean): is violated for operands of lower rank also without a panic: the sum of arrays of shapes `[2, 1]` and `[2, 2, 1]` is elementwise, and gradients of the right shapes are reported, but the gradient of the first operand is summed over the wrong axis (`MaybeReduceSum` aligns the shapes at the first instead of the last dimension). A change of the first operand by 1 at position `[0, 0]` changes the weighted sum of the result by 1; the reported gradient says that it does not change.

### C26 Axis reductions (partial)

Model: `Model/Reductions`.
Proof: Descending axes; sums over fibres of the index projection.
All shapes, axes lists and strides; the empty vector (shape [0]) is returned unreduced (witness, and for every empty vector C26_all_empty_violated).

* `C26_sum_partial` (Reductions.lean): (sum). Full statement: without the hypothesis that `x` is not an empty vector, see `C26_violated`.
* `C26_prod_partial` (Reductions.lean): (product), as `C26_sum_partial`.
* `C26_min_partial` (Reductions.lean): (minimum): the least of the reduced elements, when there is one. `top` is `T::max_value()`; the elements must not exceed it (no infinities and NaNs).
* `C26_max_partial` (Reductions.lean): (maximum), as `C26_min_partial`; `bot` is `T::min_value()`.
* `C26_mean_partial` (Reductions.lean): (mean): the sum divided by the number of reduced elements.
* `C26_violated` (Reductions.lean): is violated for an empty vector: `reduce_sum` of an array of shape `[0]` over its only axis returns the array itself (of shape `[0]`), not a scalar, because shape `[0]` is treated as a scalar.
* `C26_all_empty_violated` (ReductionPanics.lean): is violated for every empty vector: reducing its only axis without keeping dimensions returns the vector itself, which does not have the shape of a reduction.

### C27 Gradients of sum and mean reductions (partial)

Model: `ReduceGradCommon`.
Proof: Adjoint identity; witnesses for layouts.
Adjointness for all shapes and axes; incoming gradients in non-contiguous layouts and the mean over no axes panic (witnesses). C27_all_layouts_violated: every non-contiguous incoming gradient panics when dimensions are not kept. C27_mean_noaxes_all_violated: over no axes the gradient of the mean panics for every array. C27_sizes_are_gathered: the model of the sizes that the mean divides by agrees with the model of Gather (C33).

* `C27_sum_partial` (Reductions.lean): (sum): the reported gradient is the adjoint of the reduction and every element receives the gradient of the output element to which it was reduced. Missing with respect to the full statement: incoming gradients without `keep_dims` that are neither row-major nor column-major contiguous (`C27_layout_violated`), and empty vectors.
* `C27_mean_partial` (Reductions.lean): (mean): every element receives the gradient of its output element divided by the number of reduced elements. Missing: as for the sum, and the empty list of axes (`C27_mean_noaxes_violated`).
* `C27_sum_all` (Reductions.lean): (sum of all elements): the forward value is the sum over all positions, and the gradient is its adjoint, for every shape.
* `C27_layout_violated` (Reductions.lean): is violated for incoming gradients in other layouts: summing an array of shape [2,2,2,1] over the last axis and back-propagating a gradient with swapped dimensions panics (`into_shape` is called on a non-contiguous view).
* `C27_mean_noaxes_violated` (Reductions.lean): is violated for the mean over no axes: the forward op returns its input, the gradient panics.
* `C27_all_layouts_violated` (ReductionPanics.lean): is violated for every incoming gradient in another memory layout (neither row-major nor column-major without gaps), when dimensions are not kept: the gradients of the sum and of the mean over at least one axis panic.
* `C27_mean_noaxes_all_violated` (ReductionPanics.lean): is violated for the mean over no axes of any array: the forward op returns its input, the gradient panics (`gather` refuses an empty list of indices).
* `C27_sizes_are_gathered` (SizesGather.lean): `reductionSizes` of `Model/Reductions`, which C27 divides by, agrees with the op `Gather` (C33) on the shape vector for all shapes and axes: one panics iff the other does, and otherwise the shape and the elements are the same. (The gradient builds the op `Gather`, src/tensor_ops/reduction_ops.rs:232.)

### C28 argmax and argmin (partial)

Model: `argx_helper` with the memory layout of the mask.
Proof: The product with the index column picks the first maximum; witnesses for other axes.
Proved for axis 0 of row-major arrays of any rank and for every axis of contiguous arrays of rank at most two; missing: the other axes and layouts, where the code is wrong (axis rotation wrong for axis >= 2, panic for rank 3 axis 1, result depends on the memory layout: witnesses).

* `C28_argmax_partial` (ArgMax.lean): for `argmax`: at every remaining index the result is the first position of the greatest element along the axis. Full statement: every axis of arrays of every rank; the code is right for arrays of rank at most 2, and for axis 0 of arrays of any rank if the copy of `x` is row-major (`st` are the strides of `x.to_owned()`, which of rank at most 2 is row- or column-major). See the violations below.
* `C28_argmin_partial` (ArgMax.lean): for `argmin`, as `C28_argmax_partial`.
* `C28_wrong_violated` (ArgMax.lean): is violated: in `[[[0, 1], [0, 1]]]` the maximum along the last axis is at position 1 for both rows; the code returns `[[0, 1]]`, because `roll_axis` does not move the axis to the front (and no error is raised).
* `C28_panic_violated` (ArgMax.lean): is violated: `argmax` along axis 1 of a row-major array of shape [2,2,2] panics (`into_shape` on a non-contiguous array).
* `C28_layout_violated` (ArgMax.lean): is violated for axis 0 of a column-major array of rank 3: `x[i,j,k] = i * j` has its first maximum along axis 0 at 0 for `j = 0` and at 1 for `j = 1`; the code returns the transposed table.

### C29 reshape keeps the elements in order (proved)

Model: `Reshape` with -1 and all layouts.
Proof: Row-major position is preserved.
All shapes, targets with at most one -1 and all memory layouts.

* `C29_reshape` (Rearrange.lean): every array (any memory layout), every target that denotes a shape with the same number of elements.
* `C29_never_wrong` (Rearrange.lean): for no target at all does `reshape` return anything but the same elements in the same order.
* `C29_incompatible` (Rearrange.lean): a target without -1 and with another number of elements is reported as an error.
* `C29_flatten` (Rearrange.lean): `flatten`.
* `C29_back` (Rearrange.lean): the gradient op applied to a reshaped array gives the array back.
* `C29_gradient` (Rearrange.lean): the gradient is the adjoint of the forward op, for every target that denotes a shape and all memory layouts.

### C30 transpose permutes and its gradient undoes it (partial)

Model: `Transpose` with `invert`.
Proof: Permutation algebra.
All permutations and layouts in release builds, where the unchecked writes behind the length of a Vec are taken as plain writes; with the checks of debug builds on get_unchecked_mut the op always panics (witness theorem).

* `C30_transpose` (Rearrange.lean): the forward op; every position of the result is the permuted image of exactly one position of `x`.
* `C30_wrong_length` (Rearrange.lean): wrong number of axes.
* `C30_not_permutation` (Rearrange.lean): a list of axes (all in range) in which an axis is repeated panics, it never gives a result.
* `C30_gradient_inverse` (Rearrange.lean): the gradient op is the inverse of the forward op.
* `C30_gradient` (Rearrange.lean): the gradient op is the adjoint of the forward op.
* `C30_second_gradient` (Rearrange.lean): the gradient of the gradient op (the forward op again) is the adjoint of the gradient op: second derivatives are exact as well.
* `C30_debug_build_violated` (Rearrange.lean): is violated in builds with debug assertions of current toolchains: for every array of rank at least 1 and every permutation, the op aborts because it writes through `get_unchecked_mut` beyond the length of an empty vector. The other theorems on C30 describe builds without these checks.

### C31 concat and split (partial)

Model: `Concat`, `ConcatGrad`, `Split`, `SplitGrad`.
Proof: Partial sums; adjoint identity; the wrong offset is proved in general.
Forward ops and the gradient of split in full; the gradient of concat is right only for parts that start at offset 0: the other parts get the wrong block (proved in general and by witnesses).

* `C31_concat` (Slices.lean): (concat), for all lists of arrays that agree outside the axis, all layouts `st` of the result.
* `C31_concat_incompatible` (Slices.lean): arrays that do not agree outside the axis are reported as an error.
* `C31_split` (Slices.lean): (split): part `i` of a split, for all sizes that fit.
* `C31_split_concat` (Slices.lean): splitting a concatenation with the sizes of the parts gives the parts back.
* `C31_split_gradient` (Slices.lean): the gradient of a part of a split is the adjoint of taking the part, and zero outside the part.
* `C31_concat_gradient_partial` (Slices.lean): (gradient of concat). Full statement: for every part `i`, `g[o] = gy[o shifted by the offset of part i]`. Proved for the parts whose offset is 0, in particular for the first one; it is false for the others, see `C31_concat_gradient_violated`.
* `C31_concat_gradient_always_begin` (Slices.lean): is violated: for every concatenation the gradient reported for the second part is the beginning of the incoming gradient, whatever the size of the first part.
* `C31_concat_gradient_violated` (Slices.lean): is violated: witness with a value that differs from the region of the second part.
* `C31_concat_gradient_shape_violated` (Slices.lean): is violated: for the third part even the shape is wrong (vectors of sizes 1, 1, 2; the gradient reported for the third has size 1).

### C32 slice bounds (proved)

Model: `slice` and `SliceGrad`.
Proof: Normalised bounds; adjoint identity.
All shapes and bounds.

* `C32_slice` (Slices.lean): the selected positions, for all shapes and all bounds in range.
* `C32_out_of_range` (Slices.lean): bounds out of range, or of the wrong number, always panic.
* `C32_gradient_elements` (Slices.lean): the gradient holds the incoming gradient at the selected positions and zero elsewhere.
* `C32_gradient` (Slices.lean): the gradient is the adjoint of the forward op.

### C33 gather and its gradient (partial)

Model: `Gather`, `GatherGrad`, memory order of the indices.
Proof: Adjoint identity by sums over the positions.
All shapes, repeated and negative indices for non-empty index arrays; the gradient for non-negative axes, indices other than -1 and row-major incoming gradients; the remaining cases panic or are wrong (witnesses; for all index arrays with -1, all negative axes of the gradient and all empty index arrays in general).

* `C33_gather_common_partial` (Gather.lean): (`gather_common`). `sel i` is the row denoted by the index at position `i`. Full statement: also for empty index arrays, see `C33_empty_violated`.
* `C33_gather_partial` (Gather.lean): (`gather`, without normalisation of negative indices). Full statement: for all memory layouts of the indices, see `C33_layout_violated`.
* `C33_out_of_range` (Gather.lean): an index out of range always panics.
* `C33_gradient_elements_partial` (Gather.lean): (gradient). Full statement: for all axes, indices and memory layouts of the incoming gradient. Proved for non-negative axes, indices other than -1 and a row-major incoming gradient (or indices of shape `[m]` or `[m, 1]` and a gradient in row- or column-major layout); see the `_violated` theorems for the rest. The elements: the sum of the incoming gradients of all positions that selected the row.
* `C33_gradient_partial` (Gather.lean): the gradient is the adjoint of `gather_common`, under the hypotheses of `C33_gradient_elements_partial`.
* `C33_layout_violated` (Gather.lean): is violated: an index array in column-major layout (for example a transposed one) is read in memory order: row `[0,1]` of the indices selects what position `[1,0]` asks for.
* `C33_empty_violated` (Gather.lean): is violated: an empty index array panics, for every array and every valid axis.
* `C33_gradient_axis_violated` (Gather.lean): is violated: for a negative axis (accepted by the forward op, see `C33_gather_common_partial`) the gradient always panics.
* `C33_gradient_index_violated` (Gather.lean): is violated: the index -1 (the last row, accepted by `gather_common`) makes the gradient panic.
* `C33_gradient_index_all_violated` (AxesAll.lean): is violated for every index array that contains -1 (the last position, accepted by `gather_common`): the gradient panics, whatever the shapes.
* `C33_gradient_layout_violated` (Gather.lean): is violated: with a column-major incoming gradient and an index array of rank 2 the gradient goes to the wrong rows (here the gradient of the position that selected row 1 should be 7, which arrives at row 2).

### C34 expand_dims and squeeze (partial)

Model: `ExpandDims`, `Squeeze`.
Proof: Sorted axes; row-major position is preserved.
All shapes and lists of non-negative axes in any order (expand_dims: contiguous inputs), single negative axes of squeeze; negative axes of expand_dims and several axes with negative ones in squeeze go wrong (witnesses; C34_expand_negative_all_violated says for every single negative axis what expand_dims returns), non-contiguous inputs of expand_dims always panic.

* `C34_expand_partial` (ExpandSqueeze.lean): (`expand_dims`). Full statement: for all axes that denote distinct positions of the result, also negative ones, and for all memory layouts; see `C34_expand_negative_violated` and `C34_expand_layout_violated`.
* `C34_expand_out_of_range` (ExpandSqueeze.lean): past the end of the result expand_dims panics.
* `C34_squeeze_partial` (ExpandSqueeze.lean): (`squeeze`). Full statement: also for lists with several axes some of which are negative, see `C34_squeeze_negative_violated`. Every position of the result is the image of exactly one position of the input.
* `C34_squeeze_one` (ExpandSqueeze.lean): a single axis may be negative.
* `C34_squeeze_not_one` (ExpandSqueeze.lean): dimensions of another size are never removed.
* `C34_roundtrip_partial` (ExpandSqueeze.lean): squeeze undoes expand_dims (axes as in `C34_expand_partial`).
* `C34_expand_negative_violated` (ExpandSqueeze.lean): is violated: a negative axis is counted from the end of the input instead of the result; -1 on a vector inserts the dimension at the front.
* `C34_expand_negative_all_violated` (AxesAll.lean): is violated for every negative axis: on an array of rank `r` in a layout without gaps, the axis `-(m + 1)` with `m < r` inserts the new dimension at position `r - m - 1` instead of `r - m` (counted from the end of the result, as for `squeeze`), so the shape is wrong unless the dimension there is 1 as well.
* `C34_expand_layout_violated` (ExpandSqueeze.lean): is violated: an input in a layout that is neither row- nor column-major (a sliced or permuted array) always panics, for all valid axes.
* `C34_squeeze_negative_violated` (ExpandSqueeze.lean): is violated: of several axes, the ones after a negative one are off: axes 1 and 3 of shape [2,1,3,1] given as [-3,-1] panic (the code looks at the dimension of size 3), axes 0 and 2 of [1,3,1] given as [-1,0] panic.
* `C34_squeeze_other_violated` (ExpandSqueeze.lean): is violated: a dimension of size 2 requested to be removed is not rejected; another dimension is removed instead. Axes 0 and 2 of [1,1,2] given as [-3,-1] yield [2] (given as [0,2] they are rejected).

### C35 tile repeats and its gradient sums the copies (partial)

Model: `Tile` and its gradient.
Proof: Concatenation of copies; shape mismatch in general.
Forward in full; the gradient has the wrong shape for every n other than 1 (proved for all inputs).

* `C35_tile` (Slices.lean): (forward): `num` copies along the axis.
* `C35_zero` (Slices.lean): `num = 0` is reported as an error.
* `C35_gradient_partial` (Slices.lean): (gradient). Full statement: for every size `n` along the axis. Proved for `n = 1`; false for all other sizes, see `C35_gradient_violated`.
* `C35_gradient_violated` (Slices.lean): is violated: for every array whose size `n` along the axis is not 1, the reported gradient has size 1 along the axis and not the shape of `x`.

### C36 Elementwise math ops report their true derivatives (partial)

Model: `Model/Elementwise`: every op with the gradient *expression* that `Op::grad` builds, evaluated with the broadcasting ops.
Proof: Mathlib derivatives; the expression evaluates to derivative times incoming gradient.
All thirty differentiable elementwise ops, all shapes, all real inputs at which the function is differentiable (real analysis, no rounding). Shapes [1] and [0] panic for the five ops whose gradient divides arrays, and pow(x, 0) at zero is NaN (witnesses). lgamma and digamma are not modelled.

* `C36_gradient_partial` (Elementwise.lean): the gradient tensor built by an elementwise op, evaluated on arrays of any shape, has the shape of the input, and each of its elements is the incoming gradient times the derivative of the forward function, at every input at which the forward function is differentiable; the evaluation applies no function outside of its domain and does not divide by zero. Missing from the full statement: the shapes `[0]` and `[1]` for the ops whose gradient divides arrays (`C36_shape_one_violated`, `C36_shape_zero_violated`), and `pow(x, 0)` at zero (`C36_pow_zero_violated`).
* `C36_no_gradient` (Elementwise.lean): the only op that reports no gradient has derivative zero wherever it is differentiable.
* `C36_forward` (Elementwise.lean): `sigmoid`, computed with `tanh`, is the logistic function; `clip` clamps to the given range.
* `C36_shape_one_violated` (Elementwise.lean): is violated for one-element vectors: the gradients of `ln`, `log2`, `log10`, `tan` and `softplus` panic for every input of shape `[1]` (and so for `ln` at 3, where it is differentiable): the division op takes a divisor of shape `[1]` for a scalar and reads it with an empty index.
* `C36_shape_zero_violated` (Elementwise.lean): is violated for empty vectors: the gradient of `ln` panics for inputs of shape `[0]`, where there is nothing to compute.
* `C36_pow_zero_violated` (Elementwise.lean): is violated for `pow(x, 0)` at zero: the function is constantly one, with derivative zero, but the gradient evaluates zero to the power `-1`, which is an infinity (and zero times that is NaN).

### C37 softmax, log_softmax and logsumexp (partial)

Model: `Model/Softmax`.
Proof: Real analysis; gradients as derivatives along every direction (`IsGradient`).
softmax and its gradient, log_softmax, and reduce_logsumexp with keep_dim and its gradient: all shapes, axes and real values. The gradient of log_softmax is right for axis 1 only, reduce_logsumexp without keep_dim (value and gradient) for the first axis only (witnesses); the latter without arrays of shape [n, 0].

* `C37_softmax` (Softmax.lean): (softmax): for every shape, memory layout and axis (negative ones count from the back), softmax is the exponential divided by the sum of the exponentials along the axis; the values are positive and sum to one along the axis. `bot` is the smallest float, `st` the layout ndarray chooses for the sums.
* `C37_shift_invariant` (Softmax.lean): (softmax): adding numbers that do not change along the axis does not change the result.
* `C37_no_overflow` (Softmax.lean): (softmax, logsumexp): the numbers that are exponentiated are at most zero, and one of them along every line is zero, as long as no input is below `T::min_value()`: neither overflow nor a zero sum is possible.
* `C37_softmax_gradient` (Softmax.lean): (softmax): the reported gradient is the gradient, for every shape and axis.
* `C37_logsumexp_keep` (Softmax.lean): (reduce_logsumexp with `keep_dim`): the logarithm of the sum of the exponentials along the axis, for every shape, layout and axis.
* `C37_logsumexp_keep_gradient` (Softmax.lean): (reduce_logsumexp with `keep_dim`): the reported gradient is the gradient.
* `C37_log_softmax` (Softmax.lean): (log_softmax): the logarithm of softmax, for every shape, layout and axis.
* `C37_log_softmax_gradient_partial` (Softmax.lean): (log_softmax): the reported gradient is the gradient when the axis is axis 1. Missing from the full statement: all other axes, for which it is wrong or panics, see `C37_log_softmax_gradient_violated`.
* `C37_out_of_range` (Softmax.lean): axes out of range panic.
* `C37_logsumexp_drop_partial` (Softmax.lean): (reduce_logsumexp without `keep_dim`): correct when the axis is the first one. Missing from the full statement: all other axes, for which the result is wrong or a panic, see `C37_logsumexp_axis_violated`.
* `C37_logsumexp_drop_gradient_partial` (Softmax.lean): (reduce_logsumexp without `keep_dim`): the reported gradient is the gradient when the axis is the first one (for other axes already the value is wrong, see `C37_logsumexp_axis_violated`). Excluded: arrays of shape `[n, 0]`, for which the product with a gradient of shape `[0]` panics (C24).
* `C37_logsumexp_axis_violated` (Softmax.lean): is violated by reduce_logsumexp without `keep_dim` for axes other than the first: for the array `[[0, 0], [1, 1]]` and axis 1 the first element of the result is `log (1 + exp (-1))`, not `log 2`; for every array of shape `[2, 3]` it panics.
* `C37_log_softmax_gradient_violated` (Softmax.lean): is violated by the gradient of log_softmax for axes other than 1: for the zero 2x2 array, axis 0 and the incoming gradient that is one at `[0, 0]` and zero elsewhere the reported gradient is not the gradient; for vectors (axis 0) evaluating the gradient panics.

### C38 Cross-entropy losses and their gradients (partial)

Model: `Model/CrossEntropy`.
Proof: As C37.
Values of all three losses for all sizes and real inputs; gradients for the logits of the sigmoid loss (all shapes but [0] and [1]) and of the sparse loss. The gradient of softmax_cross_entropy for the logits is right for one row only: for other batch sizes it panics or is wrong (witnesses). The gradients reported for targets and labels are wrong (witnesses). More labels than rows are accepted (C38_sparse_extra_labels), fewer panic.

* `C38_sigmoid` (CrossEntropy.lean): (sigmoid_cross_entropy): the value is `-(t log s(x) + (1 - t) log (1 - s(x)))` for all shapes, logits and targets (the targets need not be probabilities); different shapes panic, as documented.
* `C38_sigmoid_gradient_partial` (CrossEntropy.lean): (sigmoid_cross_entropy): the gradient reported for the logits is the gradient. Missing from the full statement: the shapes `[0]` and `[1]`, for which evaluating it panics (`C38_sigmoid_shape_violated`).
* `C38_sigmoid_shape_violated` (CrossEntropy.lean): is violated for vectors of length one: evaluating the gradient reported for the logits of sigmoid_cross_entropy panics.
* `C38_sigmoid_target_gradient_violated` (CrossEntropy.lean): is violated by the gradient that sigmoid_cross_entropy reports for the targets: it is `-gy * t`, which is the gradient only if `gy * (t - x)` is zero everywhere.
* `C38_sparse` (CrossEntropy.lean): (sparse_softmax_cross_entropy): for logits of shape `[b, c]` and integer labels below `c` given as `[b]` or `[b, 1]`, the value has shape `[b, 1]` and is minus the logarithm of the softmax probability of the label.
* `C38_sparse_gradient` (CrossEntropy.lean): (sparse_softmax_cross_entropy): the gradient reported for the logits is the gradient.
* `C38_sparse_bad_label` (CrossEntropy.lean): (sparse_softmax_cross_entropy): a label that is -1 or less, or (truncated) not below the number of classes, panics.
* `C38_sparse_bad_shape` (CrossEntropy.lean): (sparse_softmax_cross_entropy): labels of any other shape than one or two dimensions with the second of length one are reported as an error.
* `C38_sparse_extra_labels` (CrossEntropy.lean): (sparse_softmax_cross_entropy): more labels than rows are accepted. The result is that of the first `b` labels, the others are not looked at (they need not even be labels).
* `C38_sparse_few_labels` (CrossEntropy.lean): (sparse_softmax_cross_entropy): fewer labels than rows panic.
* `C38_sparse_label_gradient_violated` (CrossEntropy.lean): is violated by the gradient that sparse_softmax_cross_entropy reports for its labels: it has the shape of the logits, not that of the labels.
* `C38_softmax_partial` (CrossEntropy.lean): (softmax_cross_entropy): for logits and targets of shape `[b, c]` the value is minus the sum of the targets times the logarithms of the softmax probabilities. Missing from the full statement: the documented shape `[b, 1]`; the result has shape `[b]` (`C38_softmax_shape_violated`).
* `C38_softmax_shape_violated` (CrossEntropy.lean): is violated by the shape of softmax_cross_entropy: it is documented to be `[b, 1]` but is `[b]`.
* `C38_softmax_gradient_partial` (CrossEntropy.lean): (softmax_cross_entropy): the gradient reported for the logits is the gradient if there is one row, or if the array is square and all incoming gradients are equal. Missing from the full statement: every other case; see `C38_softmax_gradient_panic_violated` and `C38_softmax_gradient_violated`.
* `C38_softmax_gradient_panic_violated` (CrossEntropy.lean): is violated by the gradient of softmax_cross_entropy for the logits: whenever the number of rows differs from the number of classes (both at least two) evaluating it panics, because the incoming gradient has shape `[b]`.
* `C38_softmax_gradient_violated` (CrossEntropy.lean): is violated by the gradient of softmax_cross_entropy for the logits when the array is square: for zero 2x2 logits, the targets `[[1, 0], [0, 1]]` and the incoming gradient `[1, 0]` the incoming gradient is applied to the columns.
* `C38_softmax_target_gradient_violated` (CrossEntropy.lean): is violated by the gradient that softmax_cross_entropy reports for the targets: for the logits `[[0, 0]]` and the target `[[1, 0]]` it is zero, but the loss depends on the targets.

### C39 matmul and batch_matmul with exact gradients (partial)

Model: `Model/MatMul`: arrays with memory, strides and pointers.
Proof: Finite sums; witnesses for the copy, gaps and flags.
matmul: all sizes, layouts and flags, gradients without flags. The gradients ignore the flags, so that the second derivatives of matmul fail for all non-square sizes and are wrong for square ones (proved in general and by a witness). batch_matmul: all batch shapes and positive sizes when the batch axes are row-major without gaps; other layouts give wrong products, rank two panics, inner sizes are not checked (witnesses). Missing: empty batched operands.

* `C39_matmul` (MatMul.lean): (matmul): for matrices of any sizes (0 included), in any memory layout and for all flags, the result is the product of the (transposed) operands.
* `C39_matmul_inner` (MatMul.lean): (matmul, shapes): different inner sizes are reported as an error.
* `C39_matmul_rank_violated` (MatMul.lean): (matmul, shapes), the code violates the property: operands that are not matrices are not reported as errors, the op panics.
* `C39_matmul_gradient` (MatMul.lean): (gradients of matmul without flags): for all sizes and memory layouts both gradients have the shape of their operand and are the adjoints of the change of the product: `da * b` and `a * db`, computed by the op itself, for all changes of the operands.
* `C39_flags_violated` (MatMul.lean): (second derivatives of matmul), the code violates the property: the gradient of matmul is `MatMul` with `transpose_b`, and the gradient of that op ignores the flag. Unless `n = k`, the gradient of its first operand fails for all values, and that of the second operand has the shape `[k, n]` although the operand has the shape `[n, k]`.
* `C39_flags_square_violated` (MatMul.lean): (second derivatives of matmul), the code violates the property: with square matrices the gradients have the right shape and wrong values.
* `C39_batch_partial` (MatMul.lean): (batch_matmul, batch_matmul_t): the batched product for all batch shapes, positive sizes and all flags, when the batch axes are in row-major order without gaps (for instance a row-major array, also with its last two axes swapped). Missing: the other layouts and empty operands.
* `C39_batch_gradient_partial` (MatMul.lean): (gradients of batch_matmul, and of batch_matmul_t without flags): as `C39_matmul_gradient`, for the layouts of `C39_batch_partial`.
* `C39_batch_shapes` (MatMul.lean): (batch_matmul, shapes): operands of rank below two, different ranks and different batch axes are reported as errors.
* `C39_batch_rank_two_violated` (MatMul.lean): (batch_matmul, shapes), the code violates the property: matrices (rank two) are accepted by the check and then panic, for all values and sizes.
* `C39_batch_inner_violated` (MatMul.lean): (batch_matmul, shapes), the code violates the property: different inner sizes are not reported as an error. (The code then reads behind the end of the second operand.)
* `C39_batch_copy_violated` (MatMul.lean): (batch_matmul, layouts), the code violates the property: for a column-major operand the strides of a row-major copy are applied to the memory of the original, and the product is wrong.
* `C39_batch_gap_violated` (MatMul.lean): (batch_matmul, layouts), the code violates the property: batches are assumed to follow each other in memory, so that for an operand with every second matrix of an array (stride 2) the second product is wrong.
* `C39_batch_flags_violated` (MatMul.lean): (gradients of batch_matmul_t), the code violates the property: the gradients ignore the flags.

### C40 tensordot contracts the given axes (proved)

Model: `Model/Tensordot`: transpose, reshape, matmul, reshape.
Proof: Row-major positions of split index lists; composition of adjoints.
All ranks, shapes, memory layouts and lists of distinct axes; gradients as adjoints. As in C30 the unchecked writes of transpose are taken as plain writes. The paired sizes are only compared by their product: different sizes with equal products are accepted, C40_equal_products says what is computed (outside the property).

* `C40_tensordot` (Tensordot.lean): for all arrays in all memory layouts and all lists of distinct (possibly negative) axes with matching sizes, the result has the free dimensions of `a` followed by those of `b`, and its element at `(i, j)` is the sum of `a[oa] * b[ob]` over all pairs of positions whose free coordinates are `i` and `j` and whose contracted coordinates agree.
* `C40_incompatible` (Tensordot.lean): contracted dimensions with different products are reported as an error.
* `C40_repeated` (Tensordot.lean): an axis given twice is reported as an error.
* `C40_equal_products` (Tensordot.lean): what happens for paired axes of different sizes whose products are equal (for example sizes 2 and 3 paired with 3 and 2): no error is reported. The contracted axes of each operand are counted in row-major order, and elements with the same number are paired, although their coordinates differ.
* `C40_gradient` (Tensordot.lean): (gradients): for all arrays, layouts and axes as in `C40_tensordot` both gradients have the shape of their operand and are the adjoints of the change of the result, computed by `tensordot` itself on the changed operand.

### C41 Convolution and transposed convolution (partial)

Model: `Model/Conv`: `im2col`, `col2im`, gemm, batches.
Proof: The list of columns is indexed by row-major position; adjoint identities by re-summation.
Forward, filter gradient and transposed convolution: all geometries (sizes below 2^31) and layouts. The input gradient is exact when the stride divides evenly; otherwise its shape is always wrong (proved), and in debug builds it panics when the filter exceeds the unpadded image. The filter gradient of the transposed convolution is wrong for several non-square images and for layouts that are not row-major (witnesses). Without images the filter gradient is uninitialised memory. The documented size of the transposed convolution is wrong for every padding.

* `C41_forward` (Conv.lean): (forward): for all numbers of images and channels, all image and filter sizes, memory layouts, paddings, strides and dilations, the convolution succeeds and is the direct cross-correlation of the zero-padded images.
* `C41_filter_gradient` (Conv.lean): (filter gradient): for all geometries and memory layouts and at least one image, the gradient given for the filter has the shape of the filter and is exact: it is the adjoint of the (linear) dependence of the result on the filter.
* `C41_input_gradient_partial` (Conv.lean): (input gradient): whenever the strides divide evenly (and, in debug builds, the extent of the filter does not exceed the unpadded image), for all geometries and memory layouts, the gradient given for the images writes only inside its memory, has the shape of the images and is exact. Missing: strides that do not divide evenly (`C41_input_gradient_violated`), larger filters in debug builds (`C41_debug_violated`).
* `C41_transpose` (Conv.lean): (transposed convolution): for all geometries and memory layouts (in debug builds: with `2 * pad ≤ stride * (size - 1)`), the transposed convolution writes only inside its memory and is the adjoint of the convolution with the same filter.
* `C41_with_cols` (Conv.lean): (second order): the op that computes a convolution from the stored columns computes the convolution of the images with the new filter.
* `C41_transpose_gradient_partial` (Conv.lean): (gradients of the transposed convolution): for row-major arrays and either one image or square inputs, the gradients given for the input and the filter of the transposed convolution are exact. Missing: several images that are not square and other layouts (`C41_transpose_gradient_violated`, `C41_transpose_layout_violated`).
* `C41_input_gradient_violated` (Conv.lean): (input gradient), the code violates the property: whenever the stride does not divide evenly along one of the axes, the gradient given for the images does not have their shape, whatever the values are.
* `C41_debug_violated` (Conv.lean): (input gradient), the code violates the property: in debug builds the gradient panics whenever the extent of the filter exceeds the height of the image (so that padding is needed), although the convolution itself succeeds.
* `C41_no_images_violated` (Conv.lean): (filter gradient), the code violates the property: without images the filter gradient (which should be zero) is memory that was never written.
* `C41_transpose_gradient_violated` (Conv.lean): (gradients of the transposed convolution), the code violates the property: for two images of one row and two columns the filter gradient is computed from the wrong part of the columns.
* `C41_transpose_layout_violated` (Conv.lean): (gradients of the transposed convolution), the code violates the property: arrays that are not row-major are read in the wrong order.
* `C41_documented_size_violated` (Conv.lean): disagrees with the documentation (src/tensor_ops/mod.rs:2795-2796, 2830-2831), which says that the transposed convolution has `stride * (h - 1) - pad + extent` rows: with any padding there are `pad` fewer rows.

### C42 Max pooling (partial)

Model: `Model/MaxPool` with wrapping `usize`.
Proof: Fold over the window; gradient by scatter; witnesses for padding and sizes.
Forward: all sizes, layouts, windows and strides; with padding only the windows that do not reach into the padding at the top or left (release builds): all others give the lowest finite number, debug builds panic. Gradient and second gradient: no padding, strides that divide evenly; otherwise the shape is always wrong and the code writes outside of the array (witness). Positions are exact numbers in the model (the code stores them as floats).

* `C42_forward_partial` (MaxPool.lean): (forward): for all sizes, memory layouts, windows, strides and paddings smaller than the window, the output has the documented shape, and every output whose window does not reach into the padding at the top or on the left is the maximum of its window. Missing: the windows that reach into that padding (see `C42_padding_violated`), inputs with values not above the lowest finite number `m` and, in debug builds, any padding. Sizes below 2^63.
* `C42_padding_violated` (MaxPool.lean): (padding), the code violates the property: in release builds every output whose window reaches into the padding at the top or on the left is the lowest finite number, whatever the image is.
* `C42_padding_debug_violated` (MaxPool.lean): (padding), the code violates the property: in debug builds any padding panics, for every non-empty image.
* `C42_infinity_violated` (MaxPool.lean): (forward), the code violates the property: for a value below the lowest finite number (negative infinity) the result is that number.
* `C42_gradient_partial` (MaxPool.lean): (gradient): without padding and with strides that divide evenly, for all images with values above the lowest finite number and all incoming gradients in any memory layout, the gradient op succeeds, writes only inside the gradient array, has the shape of the image, and adds each incoming gradient at a position where the window has its maximum. The gradient of that op reads the same positions and is its adjoint. Missing: padding, strides that do not divide evenly.
* `C42_gradient_shape_violated` (MaxPool.lean): (gradient), the code violates the property: whenever the stride does not divide evenly, the gradient op does not return an array of the shape of the image, whatever the image and the incoming gradient are.
* `C42_gradient_write_violated` (MaxPool.lean): (gradient), the code violates the property: with a stride that does not divide evenly the gradient op writes outside of the gradient array, here for the 3x3 image 0, 1, ..., 8 with 2x2 windows and stride 2 (position 4 of an array of length 4).

### C43 shape(x) is the shape x has when evaluated (partial)

Model: `Model/ShapeHint`.
Proof: Invariant over constructor calls relating every recorded shape tensor to the meaning of the tensor; witnesses.
All sequences of constructor calls whose ops have the shape recorded for them; flatten, placeholders with an unknown later dimension, and arithmetic on operands of different rank or with an empty dimension record a wrong shape (witnesses). The gradients of concat and gather also record the shape of the wrong tensor (witnesses).

* `C43_shape_partial` (ShapeHint.lean): (partial: for calls that satisfy `CtorOk`, see the theorems `C43_.._violated` for calls that do not) After any sequence of constructor calls, if `x` evaluates to `v` then the tensor returned by `shape(x)` evaluates to the shape of `v`.
* `C43_eval_partial` (ShapeHint.lean): (partial: as `C43_shape_partial`) The same for the evaluator: in every evaluation of a list of targets that contains `x` and `shape(x)`, the result for `shape(x)` is the shape of the result for `x`.
* `C43_arithmetic_rule` (ShapeHint.lean): The result of an arithmetic op has the common broadcast shape of its operands.
* `C43_flatten_violated` (ShapeHint.lean): is violated by `flatten`, which records the shape of its input: the flattened array of shape `[2, 3]` has shape `[6]`, its shape tensor is the vector `(2, 3)`.
* `C43_placeholder_violated` (ShapeHint.lean): is violated by placeholders with an unknown dimension that is not the first one: a placeholder of shape `[2, -1]`, fed with an array of shape `[2, 3]`, has the shape tensor `(2, -1)`.
* `C43_rank_violated` (ShapeHint.lean): is violated by arithmetic ops on arrays with different numbers of dimensions: the sum of arrays of shapes `[2, 3]` and `[3]` has shape `[2, 3]`, evaluation of its shape tensor fails.
* `C43_empty_violated` (ShapeHint.lean): is violated by arithmetic ops on empty arrays: the sum of arrays of shapes `[1, 2]` and `[0, 2]` has shape `[0, 2]`, its shape tensor is `(1, 2)`.
* `C43_flatten_gradient_violated` (ShapeHint.lean): A consequence of `C43_flatten_violated`: the gradient of `flatten(x) + b` with respect to `flatten(x)` is reduced to the recorded shape (src/tensor_ops/binary_ops.rs:291-302), which panics for `x` of shape `[2, 3]`.
* `C43_concat_gradient_violated` (ShapeHint.lean): is violated by the gradient of `concat` (src/tensor_ops/array_ops.rs:606), which records the shape of the first part for the gradients of all parts: for parts of sizes 1 and 2 the gradient for the second part (tensor 6) has shape `[2]`, its shape tensor is `(1)`.
* `C43_gather_gradient_violated` (ShapeHint.lean): is violated by the gradient of `gather` (src/tensor_ops/array_ops.rs:394), which records the shape of the indices for the gradient of the gathered array: for an array of shape `[3, 1]` and two indices the gradient (tensor 6) has shape `[3, 1]`, its shape tensor is `(2)`.

### C44 Optimizer update formulas over any history (proved)

Model: `Model/Optimizers`: steps, ops, `Optimizer::update`.
Proof: Closed formulas by induction over the training history; frame of the update evaluation.
All histories, shapes, gradients and hyper-parameters, over any field (no rounding; powf on natural exponents is assumed to be the power). The link to Optimizer::update assumes distinct parameters, none of which is itself a state variable of the optimizer, and gradients without side effects. AdaGrad succeeds only if the gradient has exactly the shape of the parameter, the others broadcast it.

* `C44_sgd` (Optimizers.lean): SGD: after any training history with the gradients `gs` the parameter is given by `p ← p - α g`.
* `C44_momentum` (Optimizers.lean): MomentumSGD, with the state made by `MomentumSGD::new`: after any training history with the gradients `gs` parameter and velocity are given by `v ← μ v - η g`, `p ← p + v`, starting from `v = 0`.
* `C44_adagrad` (Optimizers.lean): AdaGrad, with the state made by `AdaGrad::new`: `h ← h + g²`, `p ← p - η g / (√h + 10⁻⁷)`, starting from `h = 0`.
* `C44_adam` (Optimizers.lean): Adam, with the state made by `Adam::new`: both moments are the exponential moving averages of the gradients and of their squares, the parameter follows the bias-corrected rule, and the step counter is one more than the number of updates.
* `C44_update` (Optimizers.lean): `update` of the optimizers with state. If the parameters are different variables and none of them is itself a state variable of this optimizer, and if the gradients have no side effects, then a successful `update` uses each parameter's own state and makes exactly one update of it; it changes nothing but the parameters and their states. (`stateNames` is `adamNames` or `singleNames`, see `adamNames_separate`, `singleNames_separate` for the hypothesis `hsep`.)
* `C44_update_sgd` (Optimizers.lean): `update` of SGD: if the parameters are tensors of different variables and the gradients have no side effects, a successful `update` makes exactly one update of each parameter and changes nothing else.
* `C44_update_is_step` (Optimizers.lean): Together with the theorems on training histories: a successful `update` prolongs the history of each of its parameters by one gradient, the value which the gradient tensor has when the update op is called.
* `C44_step_succeeds` (UpdateStep.lean): The update ops do not panic when the gradient can be broadcast to the parameter (SGD, MomentumSGD, Adam); AdaGrad succeeds exactly when the gradient has the shape of the parameter. State arrays have the shape of the parameter.

### C45 An update step is simultaneous (partial)

Model: As C44 on the machine with writes; `ReadsFirst` (Spec/Order).
Proof: Snapshot invariant; with the order of execution of C65 (`readsFirst_means`); witnesses `w1 * w2` and `(w1 * w2)² / 2` with both orders of the parameters.
False in general (witness y = w1 * w2): updates run one after the other while gradients are evaluated lazily in between, so a gradient may see parameters that were already updated. Proved when every gradient op reading an updated variable is also below the update of this variable, in particular for a single parameter; and, with the order of execution of C65, when every op that reads an updated variable is executed before the update because an earlier update needs it too. The result can depend on the order in which the parameters are listed (witness: right in one order, wrong in the other).

* `C45_gradients_before_step_partial` (UpdateStep.lean): (partial: under the hypotheses `hind` and `hvar`, see `C45_update_violated`) All updates of one run use the gradients at the variable values before the run, provided that every gradient op which reads an updated variable is also needed by the update of this very variable (`hind`), and no gradient tensor is itself the tensor of another updated variable (`hvar`). Ops below the updates are pure.
* `C45_single_parameter_partial` (UpdateStep.lean): With a single parameter the claim holds without further hypotheses.
* `C45_sgd_step_partial` (UpdateStep.lean): For SGD: under the hypotheses of `C45_gradients_before_step_partial` the new parameter is `p - α g` with the old parameter `p` and the gradient `g` at the variable values before the run.
* `C45_execution_order_partial` (Order.lean): (partial: under `hrf`, which depends on the order of the parameters, see `C45_update_violated`) All updates of one run use the gradients at the variable values before the run, and all other targets are evaluated at these values, provided that in the order of execution (the targets from last to first) no variable is read by a new op after an update of it: `ReadsFirst`. Unlike in `C45_gradients_before_step_partial` an update may precede others that need the old value of its variable, if they need it through ops that are executed earlier.
* `C45_update_violated` (UpdateStep.lean): violated: `y = w1 * w2` with `w1 = 2`, `w2 = 3` and SGD with learning rate 1. The gradients before the step are 3 and 2, so the step should give `w1 = -1`, `w2 = 1`. But the update of `w2` runs first, the gradient of `w1` is then evaluated with the *new* `w2`, and `w1` becomes `2 - 1 = 1`.
* `C45_order_violated` (Order.lean): violated, and the order of the parameters matters: `y² / 2` with `y = w1 * w2`, `w1 = 2`, `w2 = 3` and learning rate 1. The gradients are 18 and 12. With the parameters in the order `w2`, `w1` the step is `2 - 18`, `3 - 12`; in the order `w1`, `w2` the parameter `w1` becomes `2 - 6 * (3 - 12) = 56`.

### C46 Optimizer state is per parameter and per optimizer (proved)

Model: `Model/OptimizerState` on the registry.
Proof: Injectivity of decimal names; registry lemmas.
Every environment with a history, every list of parameters and every namespace.

* `C46_adam_fresh_state` (OptimizerState.lean): Creating an Adam optimizer (for the first time or again on the same namespace) gives every parameter in its list state of its own that starts fresh: new arrays, zeros of the shape of the parameter for both moments and one for the step counter; existing arrays keep their values.
* `C46_single_fresh_state` (OptimizerState.lean): The same for `MomentumSGD` and `AdaGrad`, which keep one state array per parameter.
* `C46_creation_succeeds` (OptimizerState.lean): Creating an optimizer succeeds for any list of registered parameters, and panics on an unregistered one.
* `C46_state_not_shared` (OptimizerState.lean): State found by an optimizer for one parameter is never state found for another parameter, nor state found by an optimizer with another namespace: the ids are all different. The three arrays of one parameter are different as well. Adam never shares state with an optimizer that keeps one array, even in the same namespace.
* `C46_namespaces_independent` (OptimizerState.lean): Creating an optimizer leaves the state of optimizers with other namespaces alone: the same arrays are found, with the same values (for Adam and for the optimizers with one state array).
* `C46_same_namespace_shares` (OptimizerState.lean): Outside the claim, recorded as a warning: a `MomentumSGD` and an `AdaGrad` created on the *same* namespace use the same array, so creating the second one resets the state of the first.

### C47 assign stores the value and returns (proved)

Model: `Assign` on the machine.
Proof: Frame and C04.
All graphs, variables and values. assign(..) with control dependencies panics (C13_assign_violated).

* `C47_assign` (UpdateStep.lean): When `assign(v, y)` is called in an evaluation, the variable gets the value which `y` has then, broadcast to the shape of the variable; no other variable changes. Ops of the same evaluation that read the variable later (before another op writes to it) see the new array, and so do later evaluations.
* `C47_assign_called` (UpdateStep.lean): If `assign` is one of the targets and the results are arrays (no errors), its op was called, exactly once: `C47_assign` applies.
* `C47_assign_succeeds` (UpdateStep.lean): A call of `assign` does not panic exactly when the value can be broadcast to the shape of the variable.

### C48 Second-order gradients of the reductions (partial)

Model: `ReduceGradCommon::grad`.
Proof: Shape computation in general.
The code violates the property for every input: the reported gradient always has the wrong shape (proved for all shapes and non-empty axes). The remaining part (elements, empty axes) is proved.

* `C48_violated` (Reductions.lean): is violated: the gradient that back-propagation through the gradient of `reduce_sum`/`reduce_mean` (op `ReduceGradCommon`) assigns to the incoming gradient has the wrong shape for *every* input and every non-empty list of axes: dimensions are kept where the incoming gradient has none and removed where it has them.
* `C48_partial` (Reductions.lean): What remains of C48: apart from the shape, the elements are the right sums (those of the reduction with the other `keep_dims`), and without axes the gradient is right.

### C49 Gradients of product, minimum and maximum reductions (partial)

Model: Gradients of `reduce_prod`, `reduce_min`, `reduce_max`.
Proof: Product rule / indicator of the extremum; witness at zero.
All shapes and axes; the product gradient is wrong at zeros (witness, and in general for every element that is the only zero of its product). The gradients of minimum and maximum panic for all incoming gradients that are not contiguous, when dimensions are not kept (C49_all_layouts_violated).

* `C49_prod_partial` (Reductions.lean): (product): where no element is zero, every element receives the incoming gradient times the product of the other elements reduced to the same output. Missing: zero elements (`C49_prod_violated`) and the shapes `[0]` and `[1]` (for `[1]` the division panics, see C24).
* `C49_min_partial` (Reductions.lean): (minimum): elements that are minimal among those reduced to the same output receive the incoming gradient, all others 0. Missing: as in `C27_sum_partial`.
* `C49_max_partial` (Reductions.lean): (maximum), as `C49_min_partial`.
* `C49_prod_violated` (Reductions.lean): is violated at a zero element: the product of `[0, 2]` has derivative 2 with respect to the first element, the reported gradient is `0 / 0` (0 in a field of the model, NaN in floating point).
* `C49_all_zeros_violated` (BinaryAccepts.lean): is violated at every element that is the only zero among those multiplied with it, whatever the shape and axes: the true derivative is not zero there, but the reported gradient is the quotient of zero by zero (0 in a field of the model, NaN in floating point).
* `C49_all_layouts_violated` (ReductionPanics.lean): is violated in the same way for the gradients of minimum and maximum: they panic for every incoming gradient that is not contiguous, when dimensions are not kept (`y` is the output of the forward op).

### C50 Comparison ops, maximum and minimum broadcast (partial)

Model: `impl_cmp_op`.
Proof: Pointwise formula; the accepted shapes by going through the branches (`Lemmas/CompareAccepts`).
First operand broadcast to the second, or scalars; the other order panics (witness). C50_accepts_iff_partial says for all operands with elements which are accepted, and that all others panic. The functions of the six comparisons in programs are given by Compares in Spec/Calls (C61).

* `C50_accepts_iff_partial` (Compare.lean): exactly which operands are accepted, if both have elements: one of them is a scalar, or they have the same rank and the first can be broadcast to the shape of the second. (Full statement: all operands with a common broadcast shape.) In these cases the result is elementwise and has the common shape; in all others the op panics.
* `C50_partial` (Compare.lean): a comparison op (or `maximum`, `minimum`) with elementwise function `f` whose first operand can be broadcast to the shape of the second is elementwise. Full statement: for every pair of shapes with a common broadcast shape (as for `+`); the code rejects a second operand that is smaller than the first, see `C50_violated`.
* `C50_scalar_partial` (Compare.lean): for a scalar second operand.
* `C50_violated` (Compare.lean): is violated when the second operand is the one to be broadcast: `maximum` of a 2x2 and a 1x2 array panics although the shapes are compatible (the reverse order works).

### C51 Gradients of maximum and minimum (partial)

Model: `min_max_grad`.
Proof: Indicator of the larger operand; witnesses.
Operands of the same shape that differ, for maximum and minimum; wrong at all ties (both operands get the whole gradient) and for every first operand that is broadcast (wrong shape), proved in general and by witnesses.

* `C51_partial` (Compare.lean): for operands of the same shape, `maximum` passes the incoming gradient to the larger operand and 0 to the smaller one. Missing with respect to the full statement: ties (`C51_tie_violated`) and broadcast operands (`C51_broadcast_violated`).
* `C51_minimum_partial` (Compare.lean): for `minimum`: for operands of the same shape the incoming gradient goes to the smaller operand and 0 to the larger one. Missing as for `C51_partial`.
* `C51_all_ties_violated` (Compare.lean): is violated at every tie, for `maximum` and `minimum` (and all operands of the same shape): each of the two operands gets the whole incoming gradient, so that their total is twice the incoming gradient.
* `C51_all_broadcasts_violated` (Compare.lean): is violated for every first operand that is broadcast, for `maximum` and `minimum`: its gradient has the shape of the other operand, not its own.
* `C51_tie_violated` (Compare.lean): is violated at ties: `maximum(x, x)` is `x`, moving both operands by `t` moves it by `t`; the reported gradients give the rate of change 2 for that direction.
* `C51_broadcast_violated` (Compare.lean): is violated for broadcast operands: the gradient of a 1x2 operand that was broadcast to 2x2 has shape 2x2.

### C52 access_elem returns the element in row-major order and its gradient (partial)

Model: `IndexOp`, `IndexOpGrad`.
Proof: Row-major position.
Row-major inputs; column-major inputs give another element, other layouts always panic (witnesses).

* `C52_access_partial` (ExpandSqueeze.lean): (`access_elem`). Full statement: for all memory layouts, see `C52_layout_violated` and `C52_panic_violated`.
* `C52_out_of_range` (ExpandSqueeze.lean): an index out of range is reported as an error.
* `C52_gradient_partial` (ExpandSqueeze.lean): (gradient): the incoming gradient at the accessed position, zero elsewhere; the adjoint of the access (row-major inputs).
* `C52_layout_violated` (ExpandSqueeze.lean): is violated: for a column-major array (a transposed tensor) element 1 is not `x[0,1]` but `x[1,0]`.
* `C52_panic_violated` (ExpandSqueeze.lean): is violated: every access to an array in another layout panics, whatever the index.

### C53 add_n adds up all inputs (partial)

Model: `AddN`.
Proof: Induction over the inputs.
Inputs of the same shape, any number; C53_accepts_iff_partial says for all shapes which inputs are accepted, that these are added elementwise, and that all others panic; different shapes panic or get gradients of the wrong shape (witnesses).

* `C53_add_n_partial` (ExpandSqueeze.lean): (`add_n`). Full statement: also for inputs of different, broadcast-compatible shapes, see `C53_broadcast_violated`.
* `C53_accepts_iff_partial` (AddN.lean): exactly which inputs `add_n` accepts, for two or more inputs of any shapes: those where the first two have a common shape to which all others can be broadcast. (Full statement: all inputs with a common shape, in any order.) Then every element of the result is the sum of the elements of the inputs that are read there; all other inputs make the op panic.
* `C53_gradient_partial` (ExpandSqueeze.lean): (gradient): every input gets the incoming gradient, and this is the adjoint of add_n for inputs of the same shape.
* `C53_broadcast_violated` (ExpandSqueeze.lean): is violated: shapes [1], [1], [2] panic although they are broadcast-compatible (and [2], [1], [1] works), and with shapes [1], [2] the gradient reported for the first input has shape [2].

### C54 Gradients of expand_dims and squeeze (partial)

Model: Gradients of C34.
Proof: Inverse pairs; `C54_transposed_gradient_violated` evaluates the graph for every incoming gradient.
All shapes and non-negative axes (contiguous arrays); negative axes give the wrong shape or panic (witnesses; for every single negative axis in general, unless the neighbouring dimension is 1). Incoming gradients that are not contiguous make the gradient of squeeze panic: a squeeze followed by a transpose of three dimensions, or by elu or clip for a variable with permuted axes (witnesses, for every incoming gradient).

* `C54_expand_gradient_partial` (ExpandSqueeze.lean): the gradient of expand_dims (`squeeze` of the incoming gradient with the same axes) is the adjoint of expand_dims. Full statement: also for negative axes and all layouts.
* `C54_squeeze_gradient_partial` (ExpandSqueeze.lean): the gradient of squeeze (`expand_dims` of the incoming gradient with the same axes) is the adjoint of squeeze, for non-negative axes and a contiguous incoming gradient.
* `C54_squeeze_gradient_violated` (ExpandSqueeze.lean): is violated: squeeze accepts the axis -1, but its gradient has the wrong shape: for [3,1] the incoming gradient of shape [3] becomes [1,3].
* `C54_expand_gradient_violated` (ExpandSqueeze.lean): is violated: expand_dims with the axis -1 turns a vector of length 3 into [1,3], and its gradient then panics, because `squeeze` takes -1 as the last dimension of its own input.
* `C54_expand_negative_all_violated` (AxesAll.lean): is violated for every negative axis of `expand_dims` where the dimension of the input is not 1: the gradient (a `squeeze` with the same axis) panics for every incoming gradient of the shape of the result.
* `C54_squeeze_negative_all_violated` (AxesAll.lean): is violated for every negative axis of `squeeze` whose preceding dimension is not 1 (or that has none): the gradient (an `expand_dims` with the same axis) panics or has not the shape of the input.
* `C54_transposed_gradient_violated` (ExpandSqueeze.lean): is violated: the gradient of `transpose` is a view, for three dimensions in general not contiguous. So the gradient of `transpose(squeeze(x, [0]), [0, 2, 1])`, for x of shape [1, 2, 3, 4] and every incoming gradient, panics: `expand_dims` refuses the view.
* `C54_layout_gradient_violated` (ExpandSqueeze.lean): is violated: `ELUGrad` and `ClipGrad` write into a copy of the input, which keeps the strides of an input without gaps. So the gradients of `elu(squeeze(x, [0]))` and `clip(squeeze(x, [0]))`, for a variable x of shape [1, 2, 3, 4] whose axes were permuted, panic for every incoming gradient.

### C55 Gradients of array programs are derivatives, end to end (partial)

Model: `Model/Program`: programs of calls; constructors of `Model/ShapeHint`, array functions of `Model/BinaryOps`, `Elementwise`, `MatMul`, `Reductions`, `ArrayOps`; `Op::grad` builds tensors with the same constructors.
Proof: Every gradient function is shown to represent the adjoint of the linearised op (`GradSound`, over the calculus of arrays), which C18 composes; the tangents are the derivatives of the values along curves (induction over the graph, Mathlib derivatives); C06 turns values into results of the evaluator. The statement about programs is an instance of one about any graph of such ops (`graph_gradient`), including the ops that only gradients use, which C62 needs. Tensors that do not depend on the parameters (`Still`) carry the zero cotangent, so nothing is required of the ops that compute them. Convolution and pooling use C41 and C42 (`ProgramConv`): the derivative of a maximum is that of the position of the maximum, or zero where all candidates have derivative zero. Maxima of two arrays and along axes (`ProgramExtremum`) are near the given values equal to the largest element, by continuity.
Composes the graph, the constructors with their shape tensors, the array functions, Op::grad, back-propagation (C18) and the evaluator (C06): for all programs of the 38 kinds of calls of Model/Program (variables, placeholders, constants, scalars, zeros, ones, add, sub, mul, div, 30 elementwise functions, matmul without flags, sum_all, reduce_sum, reduce_mean, add_n, softmax, log_softmax, sigmoid_cross_entropy, sparse_softmax_cross_entropy with its second output, slice, squeeze, reshape, gather, expand_dims, conv2d, max_pool2d, dropout, argmax, the six comparisons (equal, not_equal, greater, lesser, greater_equal, lesser_equal), identity, shape, size, transpose, register_hook, maximum and minimum, reduce_max and reduce_min; stop_gradient of tensors that do not depend on the xs, otherwise see C76) and all real values (expand_dims, argmax and the comparisons only where they do not depend on the differentiated tensors). Excluded are, for calls that depend on the differentiated tensors, those at which earlier properties show the code to be wrong or the function not to be differentiable (StmtOk): see C25, C26, C36, C37, C38, C41, C42, C43, C49, C51, C53, C56 (maximum, reduce_max and the like: where the extremum is attained only once; max_pool2d: several positions of a window may have its maximum only where the derivative is zero, as after relu); calls that do not depend on them (Still: data, shapes, constants, masks) are unrestricted. Assumes that grad returns (see C58) and that all tensors have values. Missing: further ops, stop_gradient.

* `C55_gradient_of_program_partial` (Program.lean): For every program, in any order of processing tensors of equal rank: the tensors that `grad(ys, xs)` returns for variables and placeholders `xs` evaluate to arrays `G x` of the shapes of the `xs`, and these are the gradients of the sum of all elements of the `ys`: when the arrays of the `xs` move along differentiable curves `V x` with velocities `d x`, and all other variables and placeholders keep their values, then all tensors evaluate at each point of the curve (to arrays of the same shape as before; those that do not depend on the `xs` do not change) and the derivative of the sum of the elements of the `ys` is the inner product of the `G x` with the `d x`.
* `C55_partial_derivatives_partial` (Program.lean): In terms of the evaluator: evaluating a gradient tensor with respect to a variable returns (given enough loop iterations) an array `v` of the shape of the variable, whose element at every index `i` is the partial derivative of the sum of all elements of the `ys`: if the element of the variable at `i` is changed by `u`, the `ys` evaluate to arrays `Y u y` and the sum of their elements has at `u = 0` the derivative `v.get i`.

### C56 Random arrays and dropout (partial)

Model: `Model/Random`: buffer filling over an arbitrary generator, `Dropout` as a function and as an op of the evaluator, Glorot scales.
Proof: Induction over the samples; interval integral for the mean; the log of the evaluation (each op is called once) for the shared mask.
All shapes, ratios, generators, graphs and evaluations. Outside of training the gradient reads an output that does not exist and can never be evaluated; layers with default generators use the same seed and hence the same mask; the Glorot scale ignores the number of columns (all proved in general). Missing: the distributions themselves (rand crate) and the conversion from f64.

* `C56_random_array` (Random.lean): A random tensor has the shape given by its input; its elements are the next samples of the generator in row-major order, and the generator has then drawn exactly as many samples as the array has elements.
* `C56_bad_shape` (Random.lean): A shape input with an entry that is not a size (a negative number, say) panics.
* `C56_fresh_draws` (Random.lean): Evaluating a random tensor again draws fresh samples: the elements of the `j`-th evaluation follow those of all earlier ones in the sequence of samples, so no sample is used twice.
* `C56_dropout_train` (Random.lean): Dropout while training: the outputs are the input times a mask, and the mask; the mask is 1 where the uniform sample is below one minus the ratio, and 0 elsewhere; one sample per element is drawn.
* `C56_dropout_test` (Random.lean): Dropout outside of training scales the input and draws nothing.
* `C56_test_is_mean` (Random.lean): The output outside of training is the mean of the output while training: averaged over the uniform sample that decides about it, each element of the latter is the element of the former. `u` are the samples, of which the one that belongs to position `i` varies over the unit interval.
* `C56_dropout_gradient` (Random.lean): For every mask the tensor that dropout reports as the gradient is the gradient of multiplying with this mask.
* `C56_mask_shared` (Random.lean): In every evaluation the gradient of a dropout tensor uses the mask that was used in the forward direction: let `y = dropout(x)` (while training), `m` be the tensor of its second output and `gx = gy * m`, which is what `Dropout::grad` builds. If an evaluation returns an array `v` for `gx`, then there is one mask of zeros and ones such that `y` is the input times this mask and `v` is the gradient of multiplying with this mask. The input of the op is the array returned for `x`, if it is requested too, and likewise for `y` and `gy`.
* `C56_evaluation_draws` (Random.lean): An evaluation that computes a dropout tensor `y` advances the generator of its op by exactly one sample per element of its input, and these samples decide about the mask; an evaluation that does not need `y` leaves the generator alone. `cell` is the place of the generator in the world, which the ops of the other tensors do not touch; so the next evaluation continues with the following samples.
* `C56_test_gradient_violated` (Random.lean): violated for the gradient of dropout outside of training: scaling has the obvious gradient, but no evaluation ever returns an array for the tensor that `Dropout::grad` builds, in any graph: it reads the second output of an op that has only one (unless an error from below gets in the way, the evaluation panics).
* `C56_default_seed_violated` (Random.lean): violated for independence of layers: generators created by default start from the same seed, so two dropout layers drop the same elements when they are first evaluated; the second of two layers with the same ratio drops nothing, whatever the generator, the ratio and the input.
* `C56_glorot_partial` (Random.lean): partial (Glorot initialisation): `glorot_normal` has the variance `2 / (rows + columns)` of the Glorot scheme for square matrices. Missing: all other matrices, and `glorot_uniform`, see `C56_glorot_violated`.
* `C56_glorot_violated` (Random.lean): violated by the Glorot initialisers: the variance of `glorot_normal` is that of the Glorot scheme, `2 / (rows + columns)`, only for square matrices, and the bound of `glorot_uniform` is that of the scheme, `sqrt (6 / (rows + columns))`, for no matrix at all: the number of columns is ignored.

### C57 setdiff1d is the sorted set difference (partial)

Model: `Model/SetDiff`.
Proof: Sets as lists without duplicates; any permutation before sorting.
Arrays of integers in row-major layout, all sizes and iteration orders. Other numbers are truncated (witness), other layouts panic (proved in general). Missing: numbers beyond the range of isize.

* `C57_truncated` (SetDiff.lean): For row-major arrays without gaps the result is a strictly increasing vector of the integers that truncation makes of elements of the first array, but of no element of the second.
* `C57_difference_partial` (SetDiff.lean): partial (arrays of integers, row-major and without gaps): the result is the strictly increasing vector of the numbers that occur in the first array and not in the second. Missing: other numbers and other layouts, for which this is false, see below.
* `C57_fractions_violated` (SetDiff.lean): violated for numbers that are not integers: `3/2` is lost although the second array does not contain it, and it is replaced by `1` when the second array is empty.
* `C57_layout_violated` (SetDiff.lean): violated for arrays that are not row-major without gaps, a transposed matrix for example: `setdiff1d` panics.

### C58 grad of a program never panics (partial)

Model: As C55.
Proof: Every gradient function builds from existing tensors only and finds every recorded shape tensor (`Safe`, induction over its construction); with gradient functions that refuse graphs with missing shape tensors C21 applies, and a simulation of the loop shows that such graphs are never met. Tensors that do not depend on the parameters do not lead to them, so the missing gradients are not asked for. `C58_small_returns_partial` counts the tensors (`Adds`, GradCount): at most 28 per gradient function, two per sum of gradients, and one iteration for each tensor.
For all programs of the 38 kinds of calls of Model/Program, all choices among tensors of equal rank and all variables and placeholders, independent of any values: given enough loop iterations grad returns or the graph has become too large (never for programs of up to 3900 calls, C58_small_returns_partial); no index is out of range, no gradient is missing. Violated: the objective may not depend on the parameters through sign, the axes of a reduction or of squeeze, the shapes and indices given to reshape, gather, zeros and ones, the axes of expand_dims, or argmax and equal, for which no gradient is reported (grad panics; witness sign). Missing: further ops.

* `C58_grad_returns_partial` (Program.lean): `grad` with respect to variables and placeholders returns one tensor per parameter for every program, given enough loop iterations, unless the graph gets too large: whatever calls the program consists of, no gradient function panics and no gradient is missing. Required is only that inputs for which no gradients are reported (axes, target shapes, indices, arguments of `sign`: `GradGivenFor`) do not depend on the `xs`.
* `C58_small_returns_partial` (Program.lean): The graph does not get too large for programs of moderate size: `grad` adds at most about thirty tensors for each tensor of the graph, and a program has at most four tensors for each of its calls. Programs of up to 3900 calls therefore have gradients, without exception.
* `C58_sign_violated` (Program.lean): The condition is needed: `grad(sign(x), x)` panics, since `Sign` reports no gradient.

### C59 The MNIST example classifier computes its mean cross entropy and the exact gradient (proved)

Model: The calls of the example as a program (Model/Classifier), run, differentiated and evaluated by the models of C55.
Proof: The graph and the back-propagation loop are computed symbolically (the heap never holds two tensors, so the order of equal ranks does not matter: `grad_thin`); the values of all 13 tensors are derived from the theorems about the single ops; C55 gives the derivatives along all curves, and evaluation is deterministic.
For the model of the calls in examples/mlp_mnist.rs:72-79 (classifier in Model/Classifier; README.md:68-75 has the same calls with the placeholders first), over the real numbers: the graph is built, grad returns two tensors for every order of tensors of equal rank, and for every data set (Dataset in Spec/Classifier) and all variables of fitting shapes the evaluator returns the mean cross entropy and its partial derivatives. Assumes that sum_axis of ndarray lays out the n row sums as a vector without gaps; floating point is not modelled; for the updates by an optimizer see C60.

* `C59_classifier` (Classifier.lean): The training code of the example `mlp_mnist`, from the calls that build the graph to the evaluated gradients. The calls succeed, and `grad(&[mean_loss], &[w, b])` returns two tensors (after at most a fixed number of loop iterations, and whatever tensor is processed first among those of equal rank). For every data set, fed in any way (by name or by tensor), and all arrays `w`, `b` of the right shapes: evaluating the loss and both gradients together returns, given enough loop iterations, an array holding the mean cross entropy, and arrays of the shapes of `w` and `b` whose elements are the partial derivatives of the mean cross entropy.

### C60 Training the MNIST example classifier follows the optimizer's formula with the exact gradients (proved)

Model: The loop over the mini-batches (Model/TrainLoop): a new graph, `grad`, `compute_updates` and the evaluation of the update tensors, all by the models of the earlier claims. `POp.upd` are the update ops; `stepSem` interprets them by the writes of Model/Optimizers.
Proof: `update_step` (Lemmas/UpdateStep): if every op that reads a parameter or its state below another gradient is also needed for the gradient of that parameter, all update tensors succeed and each reads its gradient at the old variables. For the classifier this condition is computed symbolically on the gradient graph (Lemmas/ClassifierGradient, Lemmas/Below). State variables of different parameters are different (`state_separate`), the update ops succeed because gradients have the shapes of the parameters (C44, C59), and the histories of C44 give the recurrences.
For the model of the training loop (iteration, training in Model/TrainLoop) over the real numbers, for each of the four optimizers and every list of mini-batches that are data sets in the sense of Spec/Classifier: no panic, gradients at the variables before the step, and the recurrences of Spec/Optimizers for every element. The number of loop iterations allowed inside grad and eval is any number above a bound that does not depend on the data. Assumes that sum_axis of ndarray lays out the n row sums as a vector without gaps; floating point is not modelled.

* `C60_training` (TrainLoop.lean): The training loop of the example `mlp_mnist`, for all data and every optimizer of the crate: with variables `w0`, `b0` of fitting shapes and an optimizer created for them (and for any other variables), the loop runs through any list of mini-batches without a panic, given enough loop iterations inside `grad` and the evaluator, and whatever tensor `grad` processes first among those of equal rank. Let `W k` and `b k` be the variables after `k` mini-batches. The gradients used in step `k` are the partial derivatives of the mean cross entropy of the `k`-th mini-batch at `W k` and `b k`, and every element of `W k` and `b k` results from the update formula of the optimizer with these gradients.

### C61 Programs compute what they say, and grad differentiates this function (partial)

Model: `Model/Calls`: programs whose arguments are numbers of earlier calls, built in an empty graph by the constructors of C55; `Spec/Calls`: the function that such a program denotes (`Denotes`), calls that cannot depend on given variables (`Fixed`).
Proof: An invariant of the growing graph (`CInv`: every tensor of the graph has a value, recorded shapes are correct) gives the values of all tensors, hidden ones included; every constructor adds at most four tensors, so the limit is not reached; `Fixed` calls are tensors that cannot be reached from the parameters (`Still`), so C55 and C58 apply, and the curves of C55 are the values of the program for changed variables by uniqueness of evaluation. `C61_feeds`: every placeholder in the graph was returned by a call (Lemmas/CallsFeeds), `grad` adds none, and the evaluator looks at the feeds only through them (the lemma behind C11_unrelated_feed_ignored).
For all programs of the 38 kinds of calls of Model/Program (transpose of at most two dimensions where it is differentiated). The function denoted by a program is defined in Spec/Calls without graphs or evaluation. The conditions (StmtOk, GradGivenFor in Spec/Program) only concern calls whose recorded shape would be wrong (values) or which depend on the differentiated variables (Fixed in Spec/Calls) where earlier properties show the code to be wrong or the function not to be differentiable. The gradient theorem leaves the case that the graph gets larger than the limit, which is impossible for programs of up to about 3900 calls. The two theorems are about feeds given by name; C61_feeds extends them to all feeds, by tensor or by name, that give each placeholder the same array. Missing: further ops; placeholders with unknown dimensions after the first (violated, C43); two placeholders of the same name that are fed differently (by tensor).

* `C61_values_partial` (Calls.lean): Values. Let `val k` be the array that the `k`-th call of a program returns, when each call is applied to the arrays returned by the calls that are its arguments. Then the graph of the program can be built (if it has at most 125000 calls), and evaluating the tensors of any calls `ks` (different tensors) returns the arrays `val k`. Required is that recorded shapes are correct (`StmtOk` with no differentiated tensors: arithmetic on shapes from which the shape of the result is inferred correctly, `add_n` on equal shapes, placeholders with known or leading unknown dimensions).
* `C61_gradients_partial` (Calls.lean): Gradients. For the graph of a program, `grad(ys, xs)` with respect to variables `vids` (used by the calls `xs`), in any order of processing tensors of equal rank, given enough loop iterations, either panics because the graph gets too large (for programs of more than about 3900 calls) or returns tensors that evaluate to the partial derivatives of the sum of all elements of the `ys`, as functions of the elements of the variables: when the element at `i` of the variable `vid` is changed by `u`, the calls of the program return the arrays `Vals u k` (of the same shapes), and the sum of the elements of the `Vals u y` has at `u = 0` the derivative that the gradient array holds at `i`.
* `C61_feeds` (CallsFeeds.lean): Feeds. In the graph of a program, and after any number of calls of `grad`, an evaluation returns (or panics with) the same for all feeds that give every placeholder of the program the array that its name has in `fs`, whether they are given with the tensor or with the name (of several feeds for a placeholder the first one is meant): the same as with the feeds `fs` given by name. So C61_values_partial and C61_gradients_partial hold for all such feeds.

### C62 Gradients of gradients are the derivatives of all orders (partial)

Model: `Model/HigherOrder`: programs with calls of `grad` as one kind of call (`Call.exec`), on the constructors, gradient functions and back-propagation loop of C55; `Spec/HigherOrder`: the meaning of such a program as functions of the arrays of variables and placeholders, in which `grad` is `deriv` (Mathlib).
Proof: `SInv` (Lemmas/HoInv): an invariant of graphs which says that every op is applied where it is smooth and that all shape tensors are independent of the parameters; it is kept by every constructor, by every gradient function (HoGrad) and by the loop (HoLoop), so the graph that `grad` leaves behind can be differentiated again by the theorem of C55 about any graph (`graph_gradient`). The values at changed inputs are compared in one and the same graph, because the invariant holds at all points near a point of the domain (HoMeaning). That the calls return is `grad_returns` (ProgramTotal), the theorem of C58 for any graph of the right form, applied to the graph after each call (HoTotal); one sufficient number of iterations is found for all calls, since more iterations do not change a result. `room` bounds the number of tensors: `Adds` (GradCount) counts the tensors added by each constructor, gradient function and iteration, and the loop makes at most one iteration for each tensor.
For all programs of variables, placeholders, constants, scalars, add, sub, mul, div, the elementwise functions, sum_all, add_n, size, identity and any number of calls of grad (nested to any depth) with respect to different variables and placeholders, at all points where the functions are smooth: every result evaluates to the array of Spec/HigherOrder, where grad means the partial derivatives of calculus (shown to exist). README.md:22-46 is an instance (x and y are fed in all evaluations, while the README feeds only what is needed). Violated: the second gradient of abs, elu and clip panics (sign, ELUGrad, ClipGrad report no gradient). Excluded because earlier claims show their gradients of gradients to be wrong or missing: relu, matmul with flags, reductions along axes (C48), slice. C62_returns_partial: without abs and sign the calls return, in bounded time and without a panic, unless the graph exceeds the hard limit on its size, which cannot happen if `room l`, a bound found by counting calls, is at most 500000. Missing: matmul, softmax and cross entropies in differentiated gradients.

* `C62_values_partial` (HigherOrder.lean): Values. A program makes calls one after the other, and any number of them are calls of `grad`, also on results of earlier calls of `grad`. If all calls return, then evaluating any of their results, at every point `I` at which the program is considered, returns the array that `meaning` says: for a call of `grad` the partial derivatives of the sum of the elements of the `ys`, for other calls the usual function of arrays.
* `C62_differentiable_partial` (HigherOrder.lean): The functions that are differentiated are differentiable, so that the partial derivatives of `C62_values_partial` exist: for every call `grad(ys, xs)` in the program, the sum of the elements of the `ys` is differentiable when an element of the variable or placeholder `x` is changed. Also, the program is considered at all points near `I`.
* `C62_returns_partial` (HigherOrder.lean): The calls return. Given enough iterations of the loops in `grad`, a program that is considered at some point, whose calls of `grad` have an objective, and which does not apply `abs` and `sign` (see `C62_abs_violated`), runs to its end unless the graph gets too large: no gradient is missing, however deeply calls of `grad` are nested. A program never gets too large if `room l`, which is found by counting its calls, is at most 500000.
* `C62_readme` (HigherOrder.lean): The README: `gy` is 3, `gx` is `4 * x` (so 8 at `x = 2`) and `ggx`, the gradient of `gx`, is 4, for all numbers `x` and `y`.
* `C62_abs_violated` (HigherOrder.lean): (`abs`), the code violates the property: the gradient of the gradient of `abs` panics, because `sign`, which occurs in the gradient, reports no gradient, and so `x` is on the path of differentiation but gets no gradient. At all non-empty arrays without zeros the gradient should be an array of zeros.
* `C62_elu_clip_violated` (HigherOrder.lean): (`elu`, `clip`), the code violates the property: their second derivatives panic in the same way, because `ELUGrad` and `ClipGrad` report no gradients. That of `elu` exists and is not zero below zero, that of `clip` exists between the bounds.

### C63 The Hessian-vector product is the product of the second derivatives with the vectors (partial)

Model: `Model/Hvp`: the two calls of `grad` and the products between them; `Spec/Hvp`: second partial derivatives by `deriv` of `deriv`, and their product with vectors.
Proof: `hvp_exec` (Lemmas/Hvp): the function adds the tensors that the calls `grad`, `mul`, ..., `mul`, `grad` of a program add, so C62 gives its values as the derivative of the sum of the elements of the products; C62 also gives that the first derivatives are differentiable, so this derivative is the sum of the second derivatives times the (constant) elements of the vectors (`hvp_deriv`, `deriv_pairs`). For the violation both sides are computed for `x * x` (Lemmas/HvpSquare).
For all programs, points and ops of C62, all lists ys, all lists xs of different variables and placeholders, and vectors of the shapes of the xs that do not depend on them: the results evaluate to the product of the matrix of second derivatives with the vectors, and the call returns unless the graph gets too large (with a bound on the number of tensors). Violated for vectors computed from the xs: they are differentiated as well (x * x and the vector x give 4x instead of 2x). Missing: the ops missing in C62, vectors of other shapes (broadcasting), fewer vectors than xs.

* `C63_values_partial` (Hvp.lean): After any program, `_hessian_vector_product(ys, xs, vs)` for different variables and placeholders `xs` (`ls`) and vectors of their shapes that do not change with them returns one tensor for each of the `xs`, and evaluating it returns the product of the matrix of the second derivatives (of the sum of all elements of the `ys`) with the vectors.
* `C63_returns_partial` (Hvp.lean): It returns, given enough iterations of the loops, unless the graph gets too large, which happens only for large graphs; as in C62 the program does not apply `abs` and `sign`.
* `C63_vectors_violated` (Hvp.lean): (vectors that depend on the `xs`), the code violates the property: the vector is differentiated as well. For the vector `x` itself and `x * x` the product of the Hessian with it is `2 * x`, but the evaluated result is `4 * x`.

### C64 The LSTM example computes the loss of an LSTM language model and its gradients (partial)

Model: `Model/Lstm`: the functions of the example as programs that make calls (`emit`), on the calls of C61; `Spec/Lstm`: the equations of an LSTM and of the loss, for real numbers.
Proof: `Wp` (Lemmas/CallsWp) is a Hoare logic for such programs, which keeps the conditions of C61 as an invariant; Lemmas/MatrixCalls has one rule for each kind of call on matrices, proved from the theorems about the array functions (C24, C31, C33, C36, C38, C39, C54). Lemmas/Lstm derives the values of the step, of the loop by induction over the words, and of the loss, and counts the calls. C61 gives the results of the evaluator and the derivatives; the values of a program are unique (`denotes_unique`), so the differentiated function is the loss at changed weights.
For all sizes, sentences and weights. Limited to sentences of up to 5000 words (the graph of longer ones may exceed the limit on its size); for more than 160 words `grad` may panic because the graph gets too large. The numbers are real numbers, and the words are assumed to be numbers of words of the vocabulary. The variable tensors are made in the order of `vars`, not in the order of a hash map; the placeholder is fed by its name instead of its tensor.

* `C64_loss_partial` (Lstm.lean): Loss. The program of the example `lstm_lm`, for any number of sentences, of words (up to 5000), of words in the vocabulary, and any size of the vectors, can be built, and evaluating its loss returns, for each sentence, the loss of the LSTM language model as given by its equations.
* `C64_gradients_partial` (Lstm.lean): Gradients. `grad(&[loss], vars)`, in any order of processing tensors of equal rank, given enough loop iterations, either panics because the graph gets too large, which happens only for sentences of more than 160 words, or returns one tensor for each of the five weights, which evaluates to the partial derivatives of the sum of the losses of all sentences with respect to the elements of the weight.

### C65 Ops are executed in the order of a depth-first traversal (proved)

Model: The evaluator of C04; `Spec/Order`: `Visits`, a depth-first traversal without a stack.
Proof: `loop_works` (Lemmas/EvalOrder): the entries of the stack that are still to be expanded are visited from the top down, where entries that wait for their inputs contribute themselves only; `Visits` is a function of graph and list (`Visits.unique`) and splits along the list.
All reachable graphs, targets, ops, feeds and variables; evaluations that return.

* `C65_depth_first` (Order.lean): The ops of an evaluation are executed in the order of a depth-first traversal: the targets from last to first, the inputs of an op from last to first, every op once, after its inputs.
* `C65_determined` (Order.lean): The order depends on the graph and the targets only: two evaluations execute the same ops in the same order, whatever the ops compute, and whatever is fed and stored in variables.
* `C65_position` (Order.lean): When a target is executed: if no later target needs it, then exactly the ops needed by it and by the targets after it in the list have been executed up to it.

### C66 grad_helper returns exactly the variables the losses depend on, with their gradients (proved)

Model: `Model/UpdateOp`: `grad_helper` (sums, variable tensors by name, `compute_gradients`, the loop that skips variables without gradient).
Proof: Marks of the gradient map never change after the search (`bpLoop_marked`), and the search enters exactly what is reached (`mapOk_reached`, `initMap_reached`), so the marked variables are the reached ones, whatever the ops do. Variable tensors are sources, hence independent; the loop invariant of C18 (`BpInv.eqn`) gives the sum over all variables, and unmarked ones have no terms. Panics as in C21.
For every graph, every order of iteration and every calculus in which the ops have correct gradients (as in C18); the variables of the namespace must have different ids, as the registry guarantees (C66_ids).

* `C66_helper_gradients` (GradHelper.lean): `grad_helper(losses, namespace)`: it adds `sum_all` of each loss to the graph (`sys`) and the missing tensors of the variables of the namespace (`xs`, in the order of iteration). It returns, in this order, exactly the variables of the namespace that the losses depend on (through differentiable tensors), each with its gradient: however the variables of the namespace move, the change of the sum of all entries of all losses is the sum of the returned gradients applied to the movements of their variables; variables that are left out do not contribute.
* `C66_helper_total` (GradHelper.lean): `grad_helper` terminates: it returns, or the graph is full, or `Op::grad` of a tensor between the losses and the variables panics, or an op that is declared differentiable gives no gradient for an input that leads to a variable (then the missing gradient is a panic).
* `C66_ids` (GradHelper.lean): The hypothesis on `order` holds for every order of iteration of the names of an environment made by registrations and updates, and the ids are those of the current registrations in the namespace.

### C67 get_update_op does the same step as update, and the loss evaluated with it is the loss before the step (partial)

Model: `Model/UpdateOp`: `get_update_op` as `add_n` of the update tensors; the evaluator with writes.
Proof: `loop_below`: the evaluator works on the upper part of a stack as if the lower part were not there; `loop_ext`: tensors that are added later do not change an evaluation. The first step of evaluating the tensor pushes the updates, hence the evaluation of the updates follows, and then one call of `add_n` on zeros. Executions of the same ids in the same order are equal (`execList_ids`), which gives the claim about other targets. The loss: as C45, on the order of C65 with the updates first (`Visits.inputs_first`).
The step is proved for all graphs, optimizers and variables (the update tensors are different op tensors whose ops only write to variables; add_n computes the array function of C53). The claim about the loss is false in general: the update ops run first, so ops of the loss that the gradients do not need are evaluated after the step (witness: the loss 1 * w). Proved when no op reads a variable for the first time after its update.

* `C67_same_step` (Order.lean): Evaluating the tensor made by `get_update_op` does what `update` does: if the evaluation of the update tensors returns with the variables `env'`, then evaluating the tensor returns, with the same variables, and its result is the scalar 0; if it panics, so does evaluating the tensor. (`us`: the tensors made by `compute_updates`, whose ops write to variables and return the scalar 0; at least one.)
* `C67_with_other_targets` (Order.lean): Other targets evaluated in the same run, before the tensor in the list, do not change what it does to the variables, if they need no ops that write apart from the updates.
* `C67_loss_before_step_partial` (Order.lean): (partial: under `hrf`, see `C67_loss_violated`) The loss of the training loops that push the loss and the tensor made by `get_update_op` in one evaluation: the updates are executed before the loss. If no variable is read by a new op after its update, then the value returned for the loss is its value before the step, and the gradients read by the updates are those before the step.
* `C67_loss_violated` (Order.lean): violated: the loss `1 * w` with `w = 5` and learning rate 1. Evaluated together with the tensor of `get_update_op`, as in the examples `cnn_mnist` and `sine` (`push(loss).push(update_op)`), the loss is 4, the value after the step; alone, or when the tensor is listed first, it is 5.

### C68 The gradient checker accepts exactly the gradients that agree with the difference quotients (partial)

Model: `Model/TestHelper`: the loops of `check_theoretical_grads` on the evaluator of C04, with variables as arrays in memory; reads and writes outside of an array are a failure of their own.
Proof: `checkElem_eq`: writing at an offset in memory is a change of the element stored there (`writeMem_eq`), and writing the old value restores the array; induction over elements and variables. The central difference quotient of a function with a derivative converges to it (`central_limit`); for finitely many elements one `eps` serves all (`small_all`). For programs, `calls_derivs` (the core of C61) gives the gradients and their meaning.
C68_compares says what is compared, for variables in any memory order without gaps. The claim is proved for variables that are row-major, for every graph and op; violated for others, as the elements of the variable are taken in the order of memory and those of the gradient in row-major order (witness: a column-major variable, for which the true gradient is rejected and the transposed one accepted). C68_grad_passes_partial: the gradients that grad computes for programs of C61 with up to about 3900 calls pass, if they are different tensors (the evaluator panics on repeated targets, C07). Variables without a gradient in the list are not checked at all. The gradients are assumed to have the shapes of the variables. Numbers are exact: a difference that is not a number is not greater than the tolerance and passes in the code.

* `C68_compares` (TestHelper.lean): What is compared. Let evaluating the gradients return the arrays `grad` of the items and let evaluating the objective (its `sum_all`) return the number `f env'` whenever the variables hold `env'`, where only one element of the variable of an item differs from `env` by `eps` or `-eps`, both without changing variables or the world. For variables stored without gaps in memory, in the order `order`, the check compares the central difference quotient for the `k`-th element in memory with the `k`-th element of the gradient in row-major order. It returns iff all of these differ by at most `tol`; else it panics with one of the pairs that differ by more. In both cases all variables have their values from before the check. Variables `rest` for which there are no gradients are not checked.
* `C68_accepts_iff_partial` (TestHelper.lean): For variables that are row-major in memory: the check returns iff every element of every gradient differs from the difference quotient for the same element of the variable by at most `tol`, and otherwise panics; the variables are left as they were.
* `C68_limit_partial` (TestHelper.lean): Real numbers: if the objective is differentiable in every element of the (row-major) variables and the gradients are its derivatives, then the check returns for every tolerance, for all `eps` that are small enough; if some element of a gradient differs from the derivative by more than the tolerance, then the check panics for all `eps` that are small enough.
* `C68_grad_passes_partial` (TestHelper.lean): The gradients that `grad` computes for an objective `y` of a program (C61) of up to about 3900 calls pass the check, for every tolerance and all `eps` that are small enough: for all variables that are row-major, if the gradients are different tensors (else the evaluator panics, C07).
* `C68_layout_violated` (TestHelper.lean): False for variables that are not row-major. The objective is the sum of the elements of a 2 x 2 array weighted with 1, 2, 3, 4 (tensor 1), the variable is stored column-major. The check rejects the true gradient and accepts the transposed one, for all contents of the variable, all `eps > 0` and all tolerances less than 1.

### C69 The CNN example computes the loss of a convolutional network, its gradients and its accuracy (partial)

Model: `Model/Cnn`: the functions `conv_pool` and `compute_logits`, the training loss and the test accuracy of the example as calls of a program (`emit`), with the sizes as parameters; the arrays that the three `dropout` ops draw are parameters of the program, so they are the same for the whole of one evaluation.
Proof: Rules for calls on batches of images (`Lemmas/ImageCalls`), each giving the result of a call from those of its arguments together with the conditions that C61 asks for; the conditions of rectification and max pooling hold if the values are `Clear` (where a window is rectified to zero everywhere, all its elements have derivative zero). The gradients come from `calls_derivs`; at changed weights the values of the same calls are those of the network with the changed weights (no differentiability needed there: `fixed_nil`). Accuracy: `argmax` (C28), `equal` (C50), `reduce_mean` (C26).
For all sizes with at least one image, channel and class (image side below 2^31), all images, labels less than the number of classes, weights and drawn arrays. Missing: numbers are real; the distribution of the drawn arrays (C56); the least float is any negative number, and for the accuracy all scores are assumed not to be below it; the layouts of sums and copies made by ndarray are any that into_shape accepts. Gradients only where the network is differentiable for the stated reason. The training loop is C71.

* `C69_loss_partial` (Cnn.lean): Loss, at all weights.
* `C69_gradients_partial` (Cnn.lean): Loss and gradients. The program of the example `cnn_mnist`, for any number of images, image size (a multiple of four), numbers of channels and classes, can be built. `grad(&[loss], vars)`, in any order of processing tensors of equal rank, given enough loop iterations, returns one tensor for each of the six weights. One evaluation of any of these tensors and the loss, in which the `dropout` ops draw the arrays of `r`, returns the mean loss of the network as given by its equations, with the drawn arrays as factors, and its partial derivatives with respect to the elements of the weights; at weights where the network is differentiable because no rectified number is zero and no positive maximum of a window is attained twice.
* `C69_accuracy_partial` (Cnn.lean): Accuracy. The test program of the example can be built, and evaluating its result returns the number of images whose label is the class with the greatest score (the first, if there are several), divided by the number of images; the scores are those of the network in which all three `dropout` ops multiply with 3/4. All scores are assumed not to be below the least float.

### C70 The sine example trains its network by the exact gradients, simultaneously for all weights (partial)

Model: `Model/TrainStep`: a step as in the examples (a new graph, the calls of the loss, `grad_helper`, `get_update_op`, one evaluation of loss and update tensor with writes to variables) and the loop of steps; `Model/Sine`: the calls of the example; `Spec/Sine`: the equations of the network.
Proof: `train_step` (Lemmas/TrainStep): if every op that reads a variable and that the loss or a gradient needs is also below the gradient of this variable or of one that is updated earlier, the evaluation reads all variables in time (`StepGraph`, `TimelyStep`, on the order of execution of C65) and returns (`eval_ordered`). `step_ready` (Lemmas/CallsStep): the condition is computed once for the links of the graph with the gradients (`skel`; obtained by symbolic evaluation of the constructors and of the back-propagation loop, whose heap never holds two tensors of equal rank) and holds for all listings in which certain variables come later (`lateS`, `ListedAfter`), because the gradients do not depend on the listing (Lemmas/GradPerm). The gradients are exact by the core of C61 (`calls_derivs`); the loop by induction (`steps_train`), the recurrences by C44. The violation is computed symbolically for all weights of the two-layer program.
Proved for the two of six orders in which the name map lists w1 after w2 and w3, for any list of drawn columns. Violated for general programs with two layers: with another order the variables that are listed last are updated first, and gradients of other layers are evaluated with them (witness: the loss (-w1 * w2)^2, where both orders are computed). That the sine example itself is wrong in the other four orders is not proved: it follows from its graph (the gradient of w1 reads w2 and w3 directly), but the wrong values are not computed. The order is the same in all steps, as nothing is inserted in the map. One number N of iterations is found for each list of columns. Numbers are real; the drawn array is a parameter of each step.

* `C70_sine_partial` (Sine.lean): (partly) The training loop of the example `sine`, for every optimizer of the crate: with variables `w1`, `w2`, `w3` of fitting shapes and an optimizer created for them, and if the name map lists `w1` after the other two, the loop runs through any list of drawn columns without a panic, given enough loop iterations inside `grad` and the evaluator, and whatever tensor `grad` processes first among those of equal rank. Let `W k` be the weights after `k` steps. The loss that step `k` returns is the mean squared error of the network with the weights `W k` for the `k`-th column; the gradients used in step `k` are its partial derivatives at `W k`, and every element of `W k` results from the update formula of the optimizer with these gradients. Missing: the other four orders of the name map, for which the updates are not simultaneous (`C70_order_violated`).
* `C70_order_violated` (Sine.lean): violated: two layers with one weight each, the loss `(-w1 * w2)²` at `w1 = 2`, `w2 = 3`, and SGD with learning rate 1. The derivatives are 36 and 24. If the name map lists `w2` before `w1`, the step gives `2 - 36` and `3 - 24`; if it lists `w1` before `w2`, then `w2` is updated first, the gradient of `w1` is evaluated with the new `w2`, and `w1` becomes 254.

### C71 The CNN example trains its network by the exact gradients, simultaneously for all weights (partial)

Model: As C70, with `Model/Cnn` for the calls and `Spec/Cnn` for the equations.
Proof: As C70: the links of the gradient graph (132 tensors) are computed symbolically for all sizes, the values of the calls are those of C69. `steps_while` carries the condition that the weights reached so far are points of differentiability.
Proved for the orders in which the name map lists w1 or b1 after w2, and one of w1, w2, b1, b2 after w3 (384 of the 720), and as long as no rectified number is zero and no positive maximum of a window is attained twice at the weights reached. Violated for other orders as in C70 (the witness is the two-layer program of C70). The remarks at C69 and C70 apply.

* `C71_training_partial` (CnnTrain.lean): (partly) The training loop of the example `cnn_mnist`, for all sizes and every optimizer of the crate: with six variables of fitting shapes and an optimizer created for them, and if the name map lists `w1` or `b1` after `w2`, and `w1`, `w2`, `b1` or `b2` after `w3`, the loop runs through any list of mini-batches without a panic, as long as the network is differentiable at the weights reached (no rectified number is zero, no positive maximum of a window is attained twice), given enough loop iterations inside `grad` and the evaluator, and whatever tensor `grad` processes first among those of equal rank. Let `W k` be the weights after `k` steps. The loss that step `k` returns is the mean cross entropy of the network with the weights `W k`, the `k`-th mini-batch and the drawn arrays as factors; the gradients used in step `k` are its partial derivatives at `W k`, and every element of `W k` results from the update formula of the optimizer with these gradients. Missing: the other orders of the name map (see `C70_order_violated`), and weights at which the network is not differentiable.
* `C70_order_violated` (Sine.lean): violated: two layers with one weight each, the loss `(-w1 * w2)²` at `w1 = 2`, `w2 = 3`, and SGD with learning rate 1. The derivatives are 36 and 24. If the name map lists `w2` before `w1`, the step gives `2 - 36` and `3 - 24`; if it lists `w1` before `w2`, then `w2` is updated first, the gradient of `w1` is evaluated with the new `w2`, and `w1` becomes 254.

### C72 Variance, normalisation, batch normalisation and mean squared error are those of the formulas, and are differentiated correctly (partial)

Model: `Model/Normalize`: the five functions as calls of a program (`emit`), as in C64; `Spec/Normalize`: mean and variance over the elements that agree outside the axes, as sums over a set of indices.
Proof: `Meant` says that the calls of a program have certain values and that C61 applies; each theorem says that it still holds after the calls of the function, so they can be composed. Rules of the Hoare logic of C64 for arrays of any shape (Lemmas/Normalize); a result of a reduction that keeps its axes is read at `setAt`, the index with 0 at the axes. The gradients of the weighted sum of `batch_norm` are `calls_derivs` (C61) for the function that the values denote (`grads_of_formula`); those of the squared error are in closed form by differentiating its formula (`mse_deriv_left`).
For arrays without dimension 0; the axes must be different and at least one; scale and shift have size 1 in the first axis and otherwise the shape of the input; both arguments of the squared error have the same shape. Missing: other shapes that broadcast, axes that are computed from the variables, axes given by other integer types than isize, and rounding (eps is any positive real number).

* `C72_variance_partial` (Normalize.lean): `reduce_variance`, called after any program to which C61 applies: the result has the shape of the input without the axes, or with size 1 there, and at each position the variance of the elements of the input that agree with it in the other axes. C61 applies to the longer program as well: evaluation returns these values, and `grad` differentiates them. Required is that no dimension is 0 and the axes are different, at least one and, given as a tensor, a vector independent of the variables.
* `C72_normalize_partial` (Normalize.lean): `normalize`, called after any program to which C61 applies: every element minus the mean, divided by the square root of the variance plus `eps`, where mean and variance are those of the elements that agree with it outside the axes. C61 applies to the longer program as well.
* `C72_batchNorm_partial` (Normalize.lean): `batch_norm`, called after any program to which C61 applies, for an input with any number of axes: the input normalised along the first axis, times the scale plus the shift, which have size 1 there. C61 applies to the longer program as well.
* `C72_squaredError_partial` (Normalize.lean): `mean_squared_error`, called after any program to which C61 applies, for two arrays of the same shape: the mean of the squared differences along the last axis. C61 applies to the longer program as well.
* `C72_gradients_partial` (Normalize.lean): Gradients of `batch_norm`. For any weights, `grad` of the weighted sum of the elements of `batch_norm(x, scale, shift)` with respect to the three variables, in any order of processing tensors of equal rank, given enough loop iterations, returns three tensors, which evaluate to its partial derivatives with respect to the elements of the variables.
* `C72_squaredError_gradients_partial` (Normalize.lean): Gradients of `mean_squared_error`. `grad` of the mean squared error of two variables of the same shape, in any order of processing tensors of equal rank, given enough loop iterations, returns two tensors; the first one evaluates to `2 * (y - t) / n`, the second one to its negative. (Partial, as all of C72: arrays of different shapes, and dimensions 0, are missing.)

### C73 jacobians returns the Jacobian matrices (partial)

Model: `Model/Jacobian`: the loop over the elements (`access_elem`, then `grad` on the graph that the earlier iterations have extended), then for each variable the rows (`flatten`, `expand_dims`) and `concat`; panics of each step are explicit. The ops `IndexOp`, `IndexOpGrad` and `Concat` are added to the ops of programs (`Model/Program`).
Proof: After the first iteration the graph is no longer that of the program: it also holds gradient tensors, about whose ops C61 says nothing. `CoreShape g C` describes a graph that consists of a program (the tensors in `C`) and anything else above it; `grad` of a tensor of the core only visits the core (`reached_core`, `log_core`), returns (`grad_returns_core`), keeps recorded shapes and the order of the graph intact (`grad_keeps`), and adds at most 30 tensors for each visited one (`grad_adds_core`). `grown_gradient` (from C18) says that the result are the derivatives of the accessed element; `elemGrads_ok` is the induction over the elements, `matrices_ok` the evaluation of the matrices. C73_matmul compares with the derivative of the formula of the product.
Violated if y has no elements: panic instead of a matrix without rows. Proved for programs of the calls of C61 under its hypotheses, for y in memory layouts without gaps, and for every n up to the number of elements of y; the panic of a graph of more than 500000 tensors occurs only if a stated bound exceeds that number. C73_matmul has no other hypothesis than the sizes. Missing: the calls that are not modelled, and rounding.

* `C73_jacobians_partial` (Jacobian.lean): For the graph of a program, `jacobians(y, xs, n)` with respect to variables `vids` (used by the calls `xs`), where `n` is at most the number of elements of `y`, in any order of processing tensors of equal rank and for any memory layout that `concat` chooses, given enough loop iterations, either panics because the graph gets too large (only if the stated bound exceeds the limit) or returns one tensor for each variable, which evaluates to a matrix with `n` rows and a column for each element of the variable. Its entry in the row of the element `o` of `y` and the column of the element `q` of the variable (both counted in row-major order) is the derivative of the element `o` of `y` by the element `q` of the variable: when that is changed by `u`, the calls of the program return the arrays `Vals u k`, and the element `o` of `Vals u y` has this derivative at `u = 0`. Full statement: for all programs (here the hypotheses of C61 hold), and for values of `y` in all memory layouts (here without gaps; the elements of others cannot be accessed, `C52_panic_violated`).
* `C73_matmul` (Jacobian.lean): The example of the documentation, for matrices of all sizes (small enough that the graph stays below the limit): the Jacobian matrices of the product `AB` with respect to `A` and `B`. The derivative of the entry `(i, j)` of the product by the entry `(r, s)` of `A` is the entry `(s, j)` of `B` if `r = i` and zero otherwise, and similarly for `B`.
* `C73_empty_violated` (Jacobian.lean): is violated for a tensor without elements: its Jacobian matrices have no rows, but `jacobians` panics (`concat` does not accept an empty list). Here `y` is a product of matrices with `m = 0`.

### C74 A hook is called once per evaluation, with the value of its tensor, and changes nothing else (partial)

Model: `Model/Hooks`: `HookOp` is added to any ops (`withHooks`); the world of the ops is paired with what hooks change, and a hook is any function on that.
Proof: Induction over the execution of C04: the calls are the executed hook tensors in the order of the log (`execList_hooks`), so that C04 and C05 give that each is called once and after those it depends on; with pure ops the results are meanings (C06), and a hook tensor means what its receiver means (`means_hook`, `hook_means`). The example of the documentation is evaluated for all texts of arrays and shapes.
Calls: for all graphs and ops; C74_called_with_value needs ops that are functions of their inputs and write no variables. Violated: the order of the documentation (witness: the example of register_hook prints b before a), and the hook on the receiver (it belongs to the new tensor only, C74_old_tensors). The derivative is that of C61, where calls of hooks occur in programs. Missing: closures that panic or that change what the other ops read; the text that Debug makes of an array.

* `C74_register` (Hooks.lean): `register_hook` gives a new tensor, with the hook on the receiver; all other tensors stay as they are.
* `C74_called_once_in_order` (Hooks.lean): In every evaluation that returns, whatever the ops do, the effect of the hooks is that of a list of calls in which no tensor occurs twice and hooks that a hook depends on come earlier; the needed hooks are called with the value that their tensor then has, those whose input fails are not called, and no others are called.
* `C74_called_with_value` (Hooks.lean): If the other ops are functions of their inputs, the hooks are called with the values of their receivers: those that are needed, and whose receiver has a value.
* `C74_transparent` (Hooks.lean): A hook does not change values: the new tensor means what the receiver means (a value or an error).
* `C74_old_tensors` (Hooks.lean): The hook belongs to the new tensor only: an evaluation of tensors that existed before, such as the receiver itself, does not call it.
* `C74_documented_order_violated` (Hooks.lean): (violated) The documentation of `register_hook` (src/tensor.rs:189-195, and src/hooks.rs:11-17) says that evaluating `matmul(a, b)` prints the array of `a` and then the shape of `b`. It prints them in the opposite order: the last input of an op is evaluated first.
* `C74_receiver_violated` (Hooks.lean): (violated) A hook "on the receiver tensor" (src/tensor.rs:177) is not called when the receiver (tensor 1) is evaluated, only with the new tensor (tensor 2).
* `C61_gradients_partial` (Calls.lean): Gradients. For the graph of a program, `grad(ys, xs)` with respect to variables `vids` (used by the calls `xs`), in any order of processing tensors of equal rank, given enough loop iterations, either panics because the graph gets too large (for programs of more than about 3900 calls) or returns tensors that evaluate to the partial derivatives of the sum of all elements of the `ys`, as functions of the elements of the variables: when the element at `i` of the variable `vid` is changed by `u`, the calls of the program return the arrays `Vals u k` (of the same shapes), and the sum of the elements of the `Vals u y` has at `u = 0` the derivative that the gradient array holds at `i`.

### C75 Evaluators: each run returns the tensors pushed so far, for the feeds of this evaluator (partial)

Model: `Model/Session`: evaluators are their targets and feeds; graph, variables and world are shared. A call changes one evaluator, or evaluates (C03-C08), or builds. `Spec/Session` reads off the targets and feeds from the list of calls.
Proof: Induction over the calls: targets, feeds and graph are those of the specification (`calls_state`); each run is then an evaluation to which C04, C06 and C07 apply, and with pure ops the variables stay (`env_kept`). For C75_again meanings do not change when tensors are added (`Extends.targetMeans`, C01). Totality by C03 and C06, with a fuel that does not depend on the world.
C75_sequence: all ops, also with writes and side effects. C75_results, C75_again: needed ops are functions of their inputs and write no variables; no depends_on between the runs (C75_again). C75_total_partial: sessions return if no op tensor was pushed twice to an evaluator. Violated otherwise: targets stay in the evaluator after a run, and pushing an op tensor again makes the next run panic. Handles belong to the graph of the context (HandlesExist; the lifetimes of Rust ensure it, and that no evaluator survives Context::clear).

* `C75_sequence` (Session.lean): Sessions in general, also with ops that write to variables: there are variables and worlds `envAt k`, `worldAt k` before each call, which only runs change. A run of an evaluator executes exactly the ops needed for the tensors pushed to this evaluator so far, each once, on the variables left by the previous runs and with the feeds of this evaluator, in the graph as it then is; and it returns one result for each of these tensors, in the order of the pushes.
* `C75_results` (Session.lean): If no needed op writes to variables or depends on the world: each run returns, for the tensors pushed to this evaluator so far, in this order, their mathematical meanings for the feeds of this evaluator (those of the last feeder set, and those fed since then). Earlier runs, other evaluators and tensors built in the meantime make no difference.
* `C75_again` (Session.lean): Running an evaluator again, after any calls that neither push tensors or feeds to it nor set its feeder, and that do not use `depends_on`, returns the same results.
* `C75_total_partial` (Session.lean): Such a session does not panic if the builder calls succeed, each run finds an acyclic graph and targets with a meaning, and no op tensor was pushed twice to the evaluator before a run.
* `C75_push_again_violated` (Session.lean): violated: a run does not take the targets out of the evaluator. So if an op tensor is pushed again, say before a second run, the session never gets past the next run of this evaluator.

### C76 stop_gradient holds its argument for grad (partial)

Model: `POp.stop` in `Model/Program` (returns its input, reports no gradient, not differentiable). `Spec/StopGradient`: the values of the calls when the results of `stop_gradient` are held.
Proof: In the calculus of C55 a tensor of `stop_gradient` has velocity 0 like a constant, whatever its argument does. The values that move with these velocities are those of another graph, in which constants replace the tensors of `stop_gradient` (`hold`); `HeldIn` relates both graphs, and `values_move` is proved for the second one. C55 itself is the case where the graphs are equal. The gradient graph is built from the first graph, at which C18 is applied as before.
For programs of the 38 kinds of calls of Model/Program under the hypotheses of C61, where stop_gradient may be called on anything. That stop_gradient returns its argument unchanged is C61_values_partial (no condition for this call). The hypotheses of C61 are also required of the calls behind a stop_gradient (e.g. that an elementwise function is differentiable at the values), although no gradient passes there. Missing: the calls that are not modelled, derivatives of derivatives and the applications of other claims to programs with such calls, and rounding.

* `C61_values_partial` (Calls.lean): Values. Let `val k` be the array that the `k`-th call of a program returns, when each call is applied to the arrays returned by the calls that are its arguments. Then the graph of the program can be built (if it has at most 125000 calls), and evaluating the tensors of any calls `ks` (different tensors) returns the arrays `val k`. Required is that recorded shapes are correct (`StmtOk` with no differentiated tensors: arithmetic on shapes from which the shape of the result is inferred correctly, `add_n` on equal shapes, placeholders with known or leading unknown dimensions).
* `C76_gradients_partial` (StopGradient.lean): Gradients of programs that call `stop_gradient` on anything. `val k` is the array that the `k`-th call returns (`stop_gradient` returns its argument). `grad(ys, xs)` with respect to variables `vids` either panics because the graph gets too large (for programs of more than about 3900 calls) or returns tensors that evaluate to the partial derivatives of the sum of all elements of the `ys`, when the results of the calls of `stop_gradient` are held at their values: when the element at `i` of the variable `vid` is changed by `u`, and each call of `stop_gradient` keeps its value `val k`, the other calls return `Vals u k`, and the sum of the elements of the `Vals u y` has at `u = 0` the derivative that the gradient array holds at `i`.
* `C76_blocked_partial` (StopGradient.lean): No gradient passes: if the `ys` depend on the variables only through calls of `stop_gradient` (or through shapes and sizes), the gradients that `grad` returns evaluate to zeros, of the shapes of the variables.

### C77 The MNIST examples train on the samples of the files (partial)

Model: `Model/Mnist`: a file is its list of bytes; what a failed `read_exact` leaves in the buffer is an arbitrary function (unspecified in `std`). `Spec/Mnist`: the file format with big-endian numbers, and which sample is in which row of a batch.
Proof: Reading a header is inverse to writing it (`readU32_append`, `readU32_inv`). The numbers of the samples of all batches are the blocks of a permuted list (`blocks_perm`). The violations hold for every shuffle and every behaviour of failed reads.
C77_load: all files of the format, any field. Violated: errors of read_exact are dropped, so that files that end too early are accepted (C77_only_partial: other files are rejected if they are long enough); get_permutation makes a new generator with the same seed, so that all epochs use the same order of batches; in cnn_mnist.rs the last 96 of 60000 samples are never used (batches of 128). C77_epochs_partial: for as many labels as images; the code does not compare the numbers. Missing: IO errors other than the end of the file, the conversion to f32, that shuffle is a permutation (a hypothesis on the rand crate).

* `C77_load` (Mnist.lean): From files of the IDX format `load` returns the images (one per row, pixels divided by 255) and the labels of both data sets, whatever follows in the files.
* `C77_only_partial` (Mnist.lean): Files of another format are rejected: if `load_images` returns `n` images and the file is as long as its header says, it is a file of `n` images.
* `C77_epochs_partial` (Mnist.lean): Batches. If there are as many labels as samples, no epoch panics, and together the batches of an epoch hold each of the first `batchSize * (n / batchSize)` samples exactly once: there is a list of the numbers of the samples in each batch, in the order of its rows, such that all lists together are a permutation of these numbers, and each row of a batch is the sample of this number together with its label.
* `C77_truncated_violated` (Mnist.lean): A file that ends too early is accepted as well (its images are what is left in the buffer), although it holds no images.
* `C77_same_order_violated` (Mnist.lean): The order of the batches is not drawn anew: all epochs are the same list of batches.
* `C77_unused_violated` (Mnist.lean): With the 60000 samples of MNIST and the batches of 128 of `examples/cnn_mnist.rs` the last 96 samples are never used: what the batches hold does not depend on them.

### C78 The example mlp_mnist trains a linear classifier with Adam on the samples of the files and prints its test accuracy (partial)

Model: `Model/MlpMnist`: `main` as one function of the contents of the four files, composed of the models of loading, batches (C77), the optimizer and the training loop (C60) and the evaluator with the program of the test accuracy. `Spec/MlpMnist`: scores, loss and predictions directly in terms of the bytes of the images.
Proof: Composition of `C77_load`, `C77_epochs_partial` and `C60_training`; the test program is evaluated with the calculus of calls (C61) and `C28_argmax_partial`. As the example feeds by tensor and C61 is about feeds by name, `SameFeeds` shows that values depend only on what each placeholder gets.
The whole main from the bytes of the files to the printed accuracy, with any initial weights of the right shape. Missing: floats (real numbers instead, so that the scores of the test images must be assumed not to be below the least float, where argmax would find no maximum), training labels of 10 or more (indexing panics or reads another image), different numbers of images and labels, an empty test set, the random generators behind the initial weights and names (the names are assumed to be different), printing.

* `C78_main_partial` (MlpMnist.lean): For all files of `n` training images with labels below 10 and `m` test images with any labels, all initial weights and everything else a run depends on: there are a list `steps` of the numbers of the samples used in each of three epochs, and weights `W t` and `b t` after `t` steps, with `W 0` the initial weights and `b 0` zero, such that each epoch uses each of the first `200 * (n / 200)` training samples exactly once, 200 in each step, the weights follow the formula of Adam with gradients that are the partial derivatives of the mean loss of the samples of the step at the weights before it, and, given enough iterations of the loops inside the crate, and provided that no score of a test image is below the least float, the program ends without a panic, leaves the last weights in the variables, and prints the fraction of the test images whose label is the class with the greatest score (the first, if there are several).

### C79 The example cnn_mnist trains a convolutional network with Adam on the samples of the files and prints the mean losses and its test accuracy (partial)

Model: `Model/CnnMnist`: `main` as one function of the contents of the four files, composed of the models of loading, batches (C77), variables, the optimizer and the training steps (C71) and the evaluator with the program of the test accuracy (C69). `Spec/CnnMnist`: the batch of given samples in terms of the bytes of the images; the network is that of `Spec/Cnn`.
Proof: Composition of `C77_load`, `C77_epochs_partial`, `C71_training_partial` and the calculus of calls for the test; the loss, the predictions and the condition of differentiability depend only on the pixels (`batch_samples`). In the example next to the theorem (`Lemmas/CnnMnistExample`) all scores are dropped, so all gradients vanish, Adam stays where it is, and the initial weights are points of differentiability.
The whole main from the bytes of the files to what is printed, with any initial weights of the right shapes and any drawn masks. Proved for the orders in which the name map lists w1 or b1 after w2, and one of w1, w2, b1, b2 after w3 (384 of the 720); for other orders a step may use weights that were already changed (as in C71; the witness is the two-layer program of C70). The steps are described as long as no rectified number is zero and no positive maximum of a window is attained twice; the example next to the theorem is a run of ten steps in which this holds. Missing: floats (real numbers instead, so that the scores of the test images must be assumed not to be below the least float), labels of 10 or more, different numbers of images and labels, an empty test set (and NaN as the mean loss for less than 128 training images), the random generators, printing.

* `C79_main_partial` (CnnMnist.lean): For all files of `n` training and `m` test images with labels below 10, all initial weights and drawn dropout masks, and everything else a run depends on (where the map of names lists `w1` or `b1` after `w2`, and one of `w1`, `w2`, `b1`, `b2` after `w3`): there are a list `steps` of the numbers of the samples used in each of five epochs, where each epoch uses each of the first `128 * (n / 128)` training samples exactly once, 128 in each step; and, given enough iterations of the loops inside the crate, weights `W t` after `t` steps and mean losses `loss t` of the steps, such that, as long as the network is differentiable at the weights and samples of the steps so far, the weights follow the formula of Adam (from the initial weights and zero biases) with gradients that are the partial derivatives of the mean loss of the samples of the step at the weights before it; and if this is so in all steps, and no score of a test image is below the least float, the program ends without a panic, leaves the last weights in the variables, prints for each epoch the mean of the losses of its steps, and prints the fraction of the test images whose label is the class with the greatest score (the first, if there are several) of the network with all layers multiplied by 3/4 instead of dropout.
* `C70_order_violated` (Sine.lean): violated: two layers with one weight each, the loss `(-w1 * w2)²` at `w1 = 2`, `w2 = 3`, and SGD with learning rate 1. The derivatives are 36 and 24. If the name map lists `w2` before `w1`, the step gives `2 - 36` and `3 - 24`; if it lists `w1` before `w2`, then `w2` is updated first, the gradient of `w1` is evaluated with the new `w2`, and `w1` becomes 254.

## Disagreements between code and properties

Each has a `_violated` theorem with a witness unless marked "(not proved)".

* C02/C03: `x.depends_on(d)` with `d` depending on `x` creates a cycle; evaluation then never terminates.
* C07: a repeated op target makes the evaluation panic (the second `take` unwraps `None`).
* C08: in debug builds an op that fails before appending an output hits the assertion on empty outputs instead of reporting the error.
* C10: taking output 0 of an op frees its other outputs although a later target may be a view of them (needs the hidden `nth_tensor`).
* C13: `depends_on` replaces only the first input; other inputs may be evaluated before the dependency; the replaced input is no longer a
  variable, so `assign(v, ..).depends_on(..)` panics; an input selector other than 0 is applied to the control node.
* C17: a namespace or name containing U+0001 is truncated by `load`.
* C20: gradients of interior tensors with two or more contributions are counted twice; the same for repeated xs.
* C21: differentiable ops that report no gradient (sign, comparisons, ...) make `grad` panic instead of giving zeros.
* C22: a repeated objective in `grad_with_default` is counted wrongly.
* C24: division by an array of shape `[1]` panics; operands of shape `[0]` panic; the inferred shape is wrong for different ranks.
* C25: broadcasting between different ranks has a gradient that panics or is silently summed over the wrong axis (`C25_wrong_axis_violated`: shapes [2, 1] and [2, 2, 1]).
* C26: arrays of shape `[0]` are returned unreduced.
* C27: non-contiguous incoming gradients and the mean over no axes panic.
* C28: `argmax`/`argmin` are wrong along axes ≥ 2, panic for axis 1 of rank 3, and depend on the memory layout.
* C30: with the checks of debug builds `transpose` always panics.
* C31: the gradient of `concat` takes the wrong region for the parts after the first.
* C33: `gather` reads indices in memory order; no indices panic; the gradient panics for negative axes and for index -1, and depends on the layout.
* C34/C54: negative axes of `expand_dims`, several negative axes of `squeeze`, non-contiguous inputs of `expand_dims`. So the gradient of `transpose(squeeze(x))` panics for three dimensions (`C54_transposed_gradient_violated`), and that of `elu(squeeze(x))` if the axes of x were permuted (`C54_layout_gradient_violated`).
* C74: the examples in the documentation of hooks show the output of `a` before that of `b` for `matmul(a, b)`, but the last input is evaluated first. A hook "on the receiver" is not called if the receiver itself is evaluated. (`show_prefixed` writes prefix and array on one line, the documentation shows two.)
* C35: the gradient of `tile` has the wrong shape.
* C36: gradients of five ops panic for shapes `[1]` and `[0]` (division, see C24); `pow(x, 0)` has a NaN gradient at 0.
* C37: `reduce_logsumexp` without `keep_dim` works for the first axis only; the gradient of `log_softmax` is wrong for axes other than 1.
* C38: gradients reported for targets and labels are wrong; `softmax_cross_entropy` returns shape `(batch,)` where `(batch, 1)` is documented, and the gradient for the
  logits panics or is wrong unless the batch has one row. Labels beyond the batch are silently accepted (`C38_sparse_extra_labels`).
* C39: gradients ignore the transposition flags; `batch_matmul` uses the strides of a copy with the pointer of the original, assumes batches without gaps,
  panics on rank 2 and does not compare the inner sizes (out-of-bounds reads).
* C40: different sizes of paired axes with equal products are accepted (outside the property; `C40_equal_products`).
* C41: the input gradient has the wrong shape when the stride does not divide; debug builds panic when the filter exceeds the unpadded image; no images give uninitialised
  memory; `Conv2DTransposeFilterGrad` uses `yh * yh` for `yh * yw` and ignores strides. The documented size formula of `conv2d_transpose` subtracts `pad`, the code `2 * pad`.
* C42: windows that reach into the padding at the top or left give `T::min_value()` (release) or panic (debug); the gradient assumes exact division and otherwise writes out
  of bounds; windows of `-inf` give the lowest finite number.
* C43: `flatten`, placeholders with an unknown later dimension, arithmetic on different ranks or empty dimensions record a wrong shape tensor; so do the gradients of `concat` and
  `gather` (src/tensor_ops/array_ops.rs:394, 606).
* C45: updates run one after the other while later gradients are still to be evaluated.
* C48: the gradient of the gradient of every reduction has the wrong shape.
* C49: the gradient of `reduce_prod` divides by the elements (NaN at zero).
* C50/C51: comparisons with a larger first operand panic; both operands of `maximum` get the full gradient at ties; broadcast operands get gradients of the wrong shape.
* C52: `access_elem` reads column-major arrays in memory order and panics on other layouts.
* C53: inputs of different shapes panic or get gradients of the wrong shape.
* C56: outside of training the gradient of `dropout` reads a second output that does not exist (panic); default generators share one seed, so that stacked layers
  drop the same elements (and each newly built graph repeats the masks of the last one); `glorot_normal`/`glorot_uniform` ignore the number of columns.
* C58: objectives that depend on the parameters through `sign` and similar ops make `grad` panic (as C21).
* C62/C63: second gradients of `abs`, `elu` and `clip` panic; `_hessian_vector_product` also differentiates vectors that depend on the xs.
* C67: the loss evaluated together with the update op may be computed from the updated variables.
* C70, C71: whether a training step of the examples `sine` and `cnn_mnist` updates all weights from the same point depends on the iteration order of the hash map of variable names (with random UUID names in `sine`).
* C73: `jacobians` of a tensor without elements panics.
* C75: `Evaluator::run` keeps the targets, so that pushing a tensor again for a second run makes it panic (by C07).
* C68: `check_theoretical_grads` pairs elements in memory order with gradients in row-major order.
* C77: the MNIST loader accepts truncated files; the examples use the batches of each epoch in the same order, and `cnn_mnist` never uses the last 96 samples.
* C57: `setdiff1d` truncates to integers and panics for arrays that are not row-major.

Arity slips noticed while reading, outside the properties (not proved): `SplitGrad`, `IndexOpGrad`, the comparison ops, `SparseSoftmaxCrossEntropyGrad` and `MomentumSGDOp` report fewer
gradients than they have inputs, which makes second derivatives through them panic.

## Mutation testing

`seeded/LOG.jsonl` has one line per wrong program: the edited definition, the edit, the claim it should break, the declarations that failed first, and the property theorems
that depend on them (`property_theorems_lost`). A failing helper lemma shows that the proof uses the edited behaviour; it does not by itself show that the property theorem could not be
proved in another way. Edits that do not falsify a claim (or that repair a bug, for `_violated` theorems) are marked in `note`.

## Axioms of the property theorems

* `Quot.sound`, `propext`: `C01_created_is_fresh`, `C01_handles_stable`, `C02_rank_exact`, `C08_debug_build_violated`, `C12_declaration`, `C21_no_gradient_violated`, `C27_mean_noaxes_all_violated`, `C29_incompatible`, `C30_debug_build_violated`, `C30_wrong_length`, `C31_concat_gradient_violated`, `C31_concat_incompatible`, `C33_empty_violated`, `C33_out_of_range`, `C34_expand_negative_violated`, `C34_expand_out_of_range`, `C34_squeeze_negative_violated`, `C34_squeeze_not_one`, `C34_squeeze_other_violated`, `C35_zero`, `C41_input_gradient_violated`, `C42_gradient_shape_violated`, `C42_infinity_violated`, `C42_padding_debug_violated`, `C50_scalar_partial`, `C52_out_of_range`, `C54_expand_gradient_violated`, `C54_squeeze_gradient_violated`, `C54_transposed_gradient_violated`, `C56_bad_shape`, `C74_register`, `C77_epochs_partial`, `C77_only_partial`, `C77_same_order_violated`, `C77_unused_violated`
* `Classical.choice`, `Quot.sound`, `propext`: `C01_handles_distinct`, `C02_acyclic_iff_safe_history`, `C02_depends_on_iff`, `C02_ranks_and_acyclic`, `C03_cycle_never_returns`, `C03_panic_causes`, `C03_terminates`, `C04_needed_exactly_once`, `C05_topological_order`, `C06_independent`, `C06_results_are_meanings`, `C06_total`, `C07_repeated_target_violated`, `C07_request_order_partial`, `C08_called_iff_no_failure_below`, `C08_errors_reach_dependents`, `C08_first_failing_input`, `C09_variable_frame`, `C10_equivalence_partial`, `C10_no_dangling_input`, `C10_single_target`, `C10_snapshot`, `C10_states`, `C11_op_inputs_are_first_feeds`, `C11_target_is_first_feed`, `C11_unrelated_feed_ignored`, `C12_accepted_exactly`, `C12_declaration_succeeds`, `C13_other_inputs_violated`, `C13_runs_after_dependencies_partial`, `C13_values_unchanged_partial`, `C14_lookups_agree`, `C14_variable_tensor_unique`, `C15_iteration`, `C15_lookup_by_id`, `C15_lookup_by_name`, `C15_registration_id`, `C16_listing`, `C16_namespace_iteration`, `C16_registration_isolated`, `C16_update_isolated`, `C16_variable_by_name`, `C17_save_load_iff`, `C17_save_load_partial`, `C17_violated`, `C18_grad_exact`, `C18_grad_with_default_exact`, `C18_graphs_are_dags`, `C18_movements_exist`, `C19_evaluated_gradient`, `C19_grad_is_derivative`, `C19_variation_exists`, `C20_interior_partial`, `C20_interior_violated`, `C20_repeated_violated`, `C21_grad_total_partial`, `C21_grad_with_default_total_partial`, `C22_additive_partial`, `C22_repeated_violated`, `C23_grad_once_consumers_first`, `C23_once_consumers_first`, `C24_accepts_iff_partial`, `C24_add_partial`, `C24_div_partial`, `C24_div_violated`, `C24_empty_violated`, `C24_incompatible`, `C24_inferred_shape_partial`, `C24_inferred_shape_violated`, `C24_mul_partial`, `C24_sub`, `C25_add_partial`, `C25_broadcast`, `C25_div_partial`, `C25_mul_partial`, `C25_sub_partial`, `C25_violated`, `C25_wrong_axis_violated`, `C26_all_empty_violated`, `C26_max_partial`, `C26_mean_partial`, `C26_min_partial`, `C26_prod_partial`, `C26_sum_partial`, `C26_violated`, `C27_all_layouts_violated`, `C27_layout_violated`, `C27_mean_noaxes_violated`, `C27_mean_partial`, `C27_sizes_are_gathered`, `C27_sum_all`, `C27_sum_partial`, `C28_argmax_partial`, `C28_argmin_partial`, `C29_back`, `C29_flatten`, `C29_gradient`, `C29_never_wrong`, `C29_reshape`, `C30_gradient`, `C30_gradient_inverse`, `C30_not_permutation`, `C30_second_gradient`, `C30_transpose`, `C31_concat`, `C31_concat_gradient_always_begin`, `C31_concat_gradient_partial`, `C31_split`, `C31_split_concat`, `C31_split_gradient`, `C32_gradient`, `C32_gradient_elements`, `C32_out_of_range`, `C32_slice`, `C33_gather_common_partial`, `C33_gather_partial`, `C33_gradient_elements_partial`, `C33_gradient_index_all_violated`, `C33_gradient_partial`, `C34_expand_layout_violated`, `C34_expand_negative_all_violated`, `C34_expand_partial`, `C34_roundtrip_partial`, `C34_squeeze_one`, `C34_squeeze_partial`, `C35_gradient_partial`, `C35_gradient_violated`, `C35_tile`, `C36_forward`, `C36_gradient_partial`, `C36_no_gradient`, `C36_pow_zero_violated`, `C36_shape_one_violated`, `C36_shape_zero_violated`, `C37_log_softmax`, `C37_log_softmax_gradient_partial`, `C37_log_softmax_gradient_violated`, `C37_logsumexp_axis_violated`, `C37_logsumexp_drop_gradient_partial`, `C37_logsumexp_drop_partial`, `C37_logsumexp_keep`, `C37_logsumexp_keep_gradient`, `C37_no_overflow`, `C37_out_of_range`, `C37_shift_invariant`, `C37_softmax`, `C37_softmax_gradient`, `C38_sigmoid`, `C38_sigmoid_gradient_partial`, `C38_sigmoid_shape_violated`, `C38_sigmoid_target_gradient_violated`, `C38_softmax_gradient_panic_violated`, `C38_softmax_gradient_partial`, `C38_softmax_gradient_violated`, `C38_softmax_partial`, `C38_softmax_shape_violated`, `C38_softmax_target_gradient_violated`, `C38_sparse`, `C38_sparse_bad_label`, `C38_sparse_bad_shape`, `C38_sparse_extra_labels`, `C38_sparse_few_labels`, `C38_sparse_gradient`, `C38_sparse_label_gradient_violated`, `C39_batch_copy_violated`, `C39_batch_flags_violated`, `C39_batch_gradient_partial`, `C39_batch_partial`, `C39_batch_shapes`, `C39_flags_square_violated`, `C39_flags_violated`, `C39_matmul`, `C39_matmul_gradient`, `C39_matmul_rank_violated`, `C40_equal_products`, `C40_gradient`, `C40_incompatible`, `C40_repeated`, `C40_tensordot`, `C41_debug_violated`, `C41_documented_size_violated`, `C41_filter_gradient`, `C41_forward`, `C41_input_gradient_partial`, `C41_no_images_violated`, `C41_transpose`, `C41_transpose_gradient_partial`, `C41_transpose_gradient_violated`, `C41_transpose_layout_violated`, `C41_with_cols`, `C42_forward_partial`, `C42_gradient_partial`, `C42_padding_violated`, `C43_arithmetic_rule`, `C43_eval_partial`, `C43_flatten_gradient_violated`, `C43_shape_partial`, `C44_adagrad`, `C44_adam`, `C44_momentum`, `C44_sgd`, `C44_step_succeeds`, `C44_update`, `C44_update_is_step`, `C44_update_sgd`, `C45_execution_order_partial`, `C45_gradients_before_step_partial`, `C45_order_violated`, `C45_sgd_step_partial`, `C45_single_parameter_partial`, `C45_update_violated`, `C46_adam_fresh_state`, `C46_creation_succeeds`, `C46_namespaces_independent`, `C46_same_namespace_shares`, `C46_single_fresh_state`, `C46_state_not_shared`, `C47_assign`, `C47_assign_called`, `C47_assign_succeeds`, `C48_partial`, `C48_violated`, `C49_all_layouts_violated`, `C49_all_zeros_violated`, `C49_max_partial`, `C49_min_partial`, `C49_prod_partial`, `C49_prod_violated`, `C50_accepts_iff_partial`, `C50_partial`, `C50_violated`, `C51_all_broadcasts_violated`, `C51_all_ties_violated`, `C51_broadcast_violated`, `C51_minimum_partial`, `C51_partial`, `C51_tie_violated`, `C52_access_partial`, `C52_gradient_partial`, `C53_accepts_iff_partial`, `C53_add_n_partial`, `C53_gradient_partial`, `C54_expand_gradient_partial`, `C54_expand_negative_all_violated`, `C54_layout_gradient_violated`, `C54_squeeze_gradient_partial`, `C54_squeeze_negative_all_violated`, `C55_gradient_of_program_partial`, `C55_partial_derivatives_partial`, `C56_default_seed_violated`, `C56_dropout_gradient`, `C56_dropout_test`, `C56_dropout_train`, `C56_evaluation_draws`, `C56_fresh_draws`, `C56_glorot_partial`, `C56_glorot_violated`, `C56_mask_shared`, `C56_random_array`, `C56_test_gradient_violated`, `C56_test_is_mean`, `C57_difference_partial`, `C57_fractions_violated`, `C57_layout_violated`, `C57_truncated`, `C58_grad_returns_partial`, `C58_sign_violated`, `C58_small_returns_partial`, `C59_classifier`, `C60_training`, `C61_feeds`, `C61_gradients_partial`, `C61_values_partial`, `C62_abs_violated`, `C62_differentiable_partial`, `C62_elu_clip_violated`, `C62_readme`, `C62_returns_partial`, `C62_values_partial`, `C63_returns_partial`, `C63_values_partial`, `C63_vectors_violated`, `C64_gradients_partial`, `C64_loss_partial`, `C65_depth_first`, `C65_determined`, `C65_position`, `C66_helper_gradients`, `C66_helper_total`, `C66_ids`, `C67_loss_before_step_partial`, `C67_loss_violated`, `C67_same_step`, `C67_with_other_targets`, `C68_accepts_iff_partial`, `C68_compares`, `C68_grad_passes_partial`, `C68_layout_violated`, `C68_limit_partial`, `C69_accuracy_partial`, `C69_gradients_partial`, `C69_loss_partial`, `C70_order_violated`, `C70_sine_partial`, `C71_training_partial`, `C72_batchNorm_partial`, `C72_gradients_partial`, `C72_normalize_partial`, `C72_squaredError_gradients_partial`, `C72_squaredError_partial`, `C72_variance_partial`, `C73_empty_violated`, `C73_jacobians_partial`, `C73_matmul`, `C74_called_once_in_order`, `C74_called_with_value`, `C74_old_tensors`, `C74_transparent`, `C75_again`, `C75_push_again_violated`, `C75_results`, `C75_sequence`, `C75_total_partial`, `C76_blocked_partial`, `C76_gradients_partial`, `C77_load`, `C77_truncated_violated`, `C78_main_partial`, `C79_main_partial`
* `propext`: `C10_siblings_violated`, `C11_same_name_same_value`, `C13_assign_violated`, `C13_selected_output_violated`, `C17_undecodable`, `C28_layout_violated`, `C28_panic_violated`, `C28_wrong_violated`, `C31_concat_gradient_shape_violated`, `C33_gradient_axis_violated`, `C33_gradient_index_violated`, `C33_gradient_layout_violated`, `C33_layout_violated`, `C39_batch_gap_violated`, `C39_batch_inner_violated`, `C39_batch_rank_two_violated`, `C39_matmul_inner`, `C42_gradient_write_violated`, `C43_concat_gradient_violated`, `C43_empty_violated`, `C43_flatten_violated`, `C43_gather_gradient_violated`, `C43_placeholder_violated`, `C43_rank_violated`, `C52_layout_violated`, `C52_panic_violated`, `C53_broadcast_violated`, `C74_documented_order_violated`, `C74_receiver_violated`
