{"id": "C01", "title": "Tensor handles are stable: building tensors never disturbs existing ones", "statement": "Creating tensors (through any sequence of op constructors, placeholders, variables or gradient calls) only ever appends to the graph: a tensor handle obtained earlier keeps designating the same op with the same inputs, and handles of different tensors are different. The one exception is `x.depends_on(..)`, which changes nothing but the first input of `x`.", "quantifier": "every finite sequence of graph-building calls (build, variable, placeholder, depends_on), every handle, any graph size", "why_tests_cant": "Tests build a handful of small graphs; the claim is an invariant over every history of builder calls.", "anchors": ["src/graph.rs: Graph::install, Context::placeholder", "src/tensor.rs: TensorBuilder::build", "src/tensor_ops/mod.rs: control_dependencies", "src/variable.rs: Graph::variable_by_id"]}
{"id": "C02", "title": "Graphs are acyclic unless depends_on closes a loop", "statement": "A graph built with op constructors, placeholders and variables is acyclic and every tensor's topological rank is greater than the rank of each of its inputs. `x.depends_on(deps)` keeps the graph acyclic exactly when no tensor in `deps` already depends on `x`; otherwise it silently creates a cycle.", "quantifier": "every finite sequence of graph-building calls; every x and deps", "why_tests_cant": "An invariant over all build histories; a test only sees the graphs it builds, and the cyclic case makes evaluation hang instead of failing.", "anchors": ["src/tensor.rs: TensorBuilder::build", "src/tensor_ops/mod.rs: control_dependencies", "src/tensor.rs: Tensor::depends_on"]}
{"id": "C03", "title": "Evaluation terminates on every acyclic graph", "statement": "`eval` / `Evaluator::run` terminates for every acyclic graph and every list of targets, whatever the sharing between targets; on a graph with a cycle through a target it does not terminate.", "quantifier": "every graph, every target list, every feed list, every behaviour of the ops", "why_tests_cant": "Termination over all graph shapes; tests can only observe that sampled graphs finish, and never that something runs forever.", "anchors": ["src/evaluation.rs: Graph::eval", "src/evaluation.rs: would_not_visit"]}
{"id": "C04", "title": "Only what is needed is computed, and only once", "statement": "In one evaluation an op runs at most once, however many targets or consumers share it, and it runs only if some target depends on it through op results (not through placeholders or variables). Every such op is run exactly once.", "quantifier": "every graph, target list (with repetitions), feeds and op behaviours", "why_tests_cant": "Side-effecting ops (optimizer updates, hooks, random ops) make a second run observable; the claim is over every sharing pattern.", "anchors": ["src/evaluation.rs: Graph::eval", "src/evaluation.rs: would_not_visit", "src/evaluation.rs: OpOutputStorage"]}
{"id": "C05", "title": "Ops run after all of their inputs", "statement": "In every evaluation, when an op runs, each of its inputs that is produced by another op has already been computed in this evaluation; the order is a topological order of the needed part of the graph.", "quantifier": "every graph, target list and execution; every prefix of the execution", "why_tests_cant": "Quantifies over every execution order the traversal can produce on every graph.", "anchors": ["src/evaluation.rs: Graph::eval"]}
{"id": "C06", "title": "Evaluation computes the mathematical meaning of the graph", "statement": "For a graph whose needed ops do not mutate variables, the value returned for a target is the value obtained by recursively applying each op to the values of its inputs (selecting the right output), with placeholders replaced by feeds and variables by their current arrays. In particular it does not depend on which other targets are requested, on their order, or on unrelated tensors in the graph.", "quantifier": "every acyclic graph, every target list without repetition, every feed list and variable contents, every op semantics", "why_tests_cant": "A refinement statement over all graphs; tests compare single graphs with hand-computed numbers.", "anchors": ["src/evaluation.rs: Graph::eval", "src/evaluation.rs: OpOutputStorage::get", "src/tensor.rs: Tensor::eval"]}
{"id": "C07", "title": "Results come back in request order, one per target", "statement": "`Evaluator::run` returns exactly one result per requested target, in the order in which the targets were requested, also if the same tensor is requested more than once.", "quantifier": "every graph and every target list, including lists with repeated targets", "why_tests_cant": "Tests request distinct targets; the repeated-target case needs the quantifier over all lists.", "anchors": ["src/evaluation.rs: Graph::eval (aggregate return values)", "src/evaluation.rs: OpOutputStorage::take", "src/evaluation.rs: Evaluator::push, extend, run"]}
{"id": "C08", "title": "Op errors propagate to exactly the dependents", "statement": "If an op fails, every requested target that depends on it through op results yields an error which is one of the errors of the failing ops below it (the first failing input in input order), ops with a failing input are not run, and targets that do not depend on a failing op are unaffected and still yield their values.", "quantifier": "every acyclic graph without mutation, every subset of failing ops, every target list", "why_tests_cant": "Needs all combinations of failing ops, sharing patterns and target lists.", "anchors": ["src/evaluation.rs: Graph::eval (incoming_nodes_status)", "src/evaluation.rs: OpOutputStorage::get", "src/op.rs: OpError"]}
{"id": "C09", "title": "Variables change only through ops that take them as mutable inputs", "statement": "An evaluation leaves every variable array unchanged unless an op that was needed and run has that variable as a mutable input; in particular evaluating a graph with no such op changes no variable, the number of variables never changes, and a requested variable tensor returns the array as it is after all ops of this evaluation ran.", "quantifier": "every graph, target list, feeds, variable contents and op behaviours", "why_tests_cant": "Frame property: it speaks about all the variables an evaluation does not touch, over all graphs.", "anchors": ["src/evaluation.rs: Graph::eval", "src/variable.rs: VariableEnvironment::as_view, as_view_mut", "src/op.rs: ComputeContext::input_mut"]}
{"id": "C10", "title": "Computed results never alias live variables", "statement": "A value computed in an evaluation is a snapshot: results produced as views (identity, reshape, transpose, slices, ...) keep the value they had when their op ran although a later op of the same evaluation mutates a variable in place, because a result whose op reads a variable is copied; every array handed back to the caller is readable (owned) memory.", "quantifier": "every graph, every placement of view-producing and variable-mutating ops, every execution order, every target list", "why_tests_cant": "Aliasing bugs show only for particular interleavings of view ops and mutations; a test samples a few.", "anchors": ["src/op.rs: ComputeContext::append_output_view_raw", "src/op.rs: OpOutput", "src/evaluation.rs: OpOutputStorage::get, take"]}
{"id": "C11", "title": "Feeds: the first matching feed wins, an unfed needed placeholder is reported", "statement": "A placeholder takes the value of the first feed, in push order, that names it either by tensor or by its placeholder name; two placeholders with the same name get the same fed value when fed by name; feeds that match no needed placeholder have no effect; if a needed placeholder has no feed the evaluation panics and does not produce a value.", "quantifier": "every feed list in every order, every placeholder, mixing feeds by tensor and by name", "why_tests_cant": "Quantifies over all feed lists and key mixes.", "anchors": ["src/evaluation.rs: find_placeholder_value_by_key", "src/evaluation.rs: Feeder::push, Evaluator::feed, set_feeder", "src/graph.rs: Context::placeholder"]}
{"id": "C12", "title": "Placeholder shapes are enforced", "statement": "A placeholder declared with shape s accepts an array exactly when it has the same rank and equals s in every dimension that is not -1; otherwise evaluation panics. A declared dimension must be positive or -1.", "quantifier": "every declared shape and every fed array shape", "why_tests_cant": "All shapes of all ranks.", "anchors": ["src/tensor.rs: KnownShape::new, KnownShape::validate", "src/tensor.rs: Tensor::validate_using_known_shape", "src/graph.rs: Context::placeholder"]}
{"id": "C13", "title": "depends_on orders side effects before the tensor", "statement": "After `y.depends_on(&[u..])`, whenever y is evaluated every u is evaluated, and y's op runs after all of them, so y sees their side effects on variables; the value of y is otherwise the value y would have had.", "quantifier": "every graph, every y that is not a source, every list u, every evaluation that needs y", "why_tests_cant": "Side-effect ordering must hold for every graph around y; tests use the single documented example.", "anchors": ["src/tensor.rs: Tensor::depends_on", "src/tensor_ops/mod.rs: control_dependencies", "src/tensor_ops/graph_ops.rs: ControlDependency", "src/evaluation.rs: Graph::eval"]}
{"id": "C14", "title": "One tensor per variable per graph", "statement": "Within one graph, asking for the tensor of a variable (by id, by name, or through the listing functions), any number of times and interleaved with any other calls, always yields the same tensor for the same variable and different tensors for different variables; after `clear` no stale tensor is returned. Hence gradients with respect to a variable see all of its uses.", "quantifier": "every finite interleaving of variable lookups, tensor creation and clear", "why_tests_cant": "Invariant over call histories.", "anchors": ["src/variable.rs: Graph::variable_by_id, variable_by_name, var_tensors_by_id, var_tensors_by_name", "src/graph.rs: Context::clear"]}
{"id": "C15", "title": "The variable registry behaves like a map from (namespace, name) to arrays", "statement": "After any sequence of registrations, looking up a name yields the array of the latest registration under that (namespace, name); ids handed out are never reused or re-targeted: an id always designates the array registered with it (with later in-place updates), even when its name was registered again.", "quantifier": "every finite sequence of registrations and in-place updates, every namespace and name", "why_tests_cant": "Refinement over all histories.", "anchors": ["src/variable.rs: register_variable", "src/variable.rs: NamespaceTrait::get_array_by_id, get_array_by_name", "src/variable.rs: VariableEnvironment::get_array_by_id, iter"]}
{"id": "C16", "title": "Namespaces are isolated", "statement": "Registering or updating through one namespace changes neither the set of names nor the values visible in another namespace; the ids and names listed for a namespace are exactly the currently valid registrations in it, each exactly once.", "quantifier": "every sequence of registrations over all namespaces and names", "why_tests_cant": "Invariant over all histories and namespace names (including the empty default namespace).", "anchors": ["src/variable.rs: NamespaceTrait::current_var_ids, current_var_names", "src/variable.rs: iter", "src/variable.rs: register_variable"]}
{"id": "C17", "title": "Saving and loading an environment gives it back", "statement": "`load(save(env))` (and `initialize` from a saved file) restores every variable array under the same id and every (namespace, name) under the same id, and nothing else.", "quantifier": "every environment, i.e. all namespaces, names and arrays", "why_tests_cant": "Round trip for all names; tests use ordinary names.", "anchors": ["src/variable.rs: VariableEnvironment::save, load, initialize, prepare_for_serde, load_internal", "src/variable.rs: FullName::to_string"]}
{"id": "C18", "title": "grad is exact reverse-mode differentiation", "statement": "For leaf tensors xs (variables, placeholders, constants), `grad(ys, xs)` returns for each x the sum over all dependency paths from the ys to x of the composed local gradients: equivalently, for every assignment of tangents to xs, the total tangent of the ys equals the sum of inner products of the returned gradients with the tangents of the xs. This requires each op's local gradient to be the adjoint of its local linearisation, and nothing about the shape of the graph.", "quantifier": "every acyclic graph with any sharing (diamonds, repeated operands, several ys), every choice of leaf xs", "why_tests_cant": "The number of paths is exponential and the order of accumulation matters; tests check single small expressions.", "anchors": ["src/gradient.rs: compute_gradients, init_gradient_map, GradientInfo::gradient", "src/tensor_ops/mod.rs: grad"]}
{"id": "C19", "title": "grad of a real-valued graph is its derivative", "statement": "For a graph of real scalar ops in which each op is differentiable at the point of evaluation and reports its partial derivatives, the tensor returned by `grad(&[y], &[x])` evaluates to the derivative of the value of y as a function of the value of the leaf x.", "quantifier": "every acyclic graph of scalar ops, every point at which all the ops are differentiable", "why_tests_cant": "A statement of analysis over all graphs and all points; tests use finite differences at a few points.", "anchors": ["src/gradient.rs: compute_gradients", "src/tensor_ops/mod.rs: grad", "src/evaluation.rs: Graph::eval"]}
{"id": "C20", "title": "Gradients with respect to intermediate tensors", "statement": "`grad(ys, xs)` returns the total derivative of the ys with respect to each x in xs also when x is not a leaf, and also when the same x is listed twice: every dependency path from the ys to x contributes exactly once.", "quantifier": "every acyclic graph, every x (leaf or not) and every list xs", "why_tests_cant": "The wrong answer needs an interior x that is used more than once; tests differentiate with respect to leaves.", "anchors": ["src/gradient.rs: GradientInfo::gradient, GradientMap::extract_grad, compute_gradients", "src/tensor_ops/mod.rs: grad"]}
{"id": "C21", "title": "Tensors that ys do not depend on get a zero gradient", "statement": "`grad(ys, xs)` returns a zero tensor for every x which the ys do not depend on in a differentiable way, i.e. when every dependency path from the ys to x passes through stop_gradient or through a non-differentiable op; it never panics for such x.", "quantifier": "every acyclic graph, every placement of non-differentiable ops, every xs", "why_tests_cant": "Needs all graphs in which paths are blocked in all possible ways.", "anchors": ["src/gradient.rs: init_gradient_map, has_child_on_path, GradientInfo::gradient", "src/tensor_ops/mod.rs: grad, stop_gradient", "src/tensor_ops/gradient_ops.rs: StopGradient"]}
{"id": "C22", "title": "Several objectives add up", "statement": "`grad(ys, xs)` for several ys equals the sum of the gradients of each y alone, in any order of the ys and also if a y is listed more than once; with `grad_with_default` the gradient is linear in the supplied output gradients.", "quantifier": "every acyclic graph, every list ys (including repeated ones and ones that depend on each other), every list of output gradients", "why_tests_cant": "Law over all lists of objectives and graphs.", "anchors": ["src/gradient.rs: compute_gradients", "src/tensor_ops/mod.rs: grad, grad_with_default"]}
{"id": "C23", "title": "Back-propagation visits each op once, consumers first", "statement": "During `grad`, each op's gradient is asked for at most once, only after all the gradients arriving from its differentiable consumers were accumulated, and gradients are propagated only along tensors that lie between ys and xs.", "quantifier": "every acyclic graph, every ys without repetition, every xs", "why_tests_cant": "The priority-queue order has to be right for all graphs, including skip connections of any length.", "anchors": ["src/gradient.rs: compute_gradients (BinaryHeap by topo_rank), Node", "src/tensor.rs: TensorBuilder::build (topo_rank)"]}
{"id": "C24", "title": "Broadcasting arithmetic", "statement": "`a + b`, `a - b`, `a * b`, `a / b` of arrays of the same rank (or with a scalar) return the elementwise result under broadcasting of size-1 dimensions; the result shape is the broadcast shape, and the inferred shape tensor agrees with it.", "quantifier": "every pair of broadcast-compatible shapes and all element values", "why_tests_cant": "All ranks, shapes and values.", "anchors": ["src/tensor_ops/binary_ops.rs: AddOp, SubOp, MulOp, DivOp, add_forward, mul_forward", "src/tensor_ops/array_ops.rs: InferBinOpShape", "src/tensor_ops/mod.rs: add, sub, mul, div"]}
{"id": "C25", "title": "Gradients of broadcasting arithmetic have the operand's shape and are exact", "statement": "The gradient of `a + b`, `a - b`, `a * b`, `a / b` with respect to an operand has exactly the operand's shape and is the adjoint of the (linearised) operation: summed over the positions to which an element was broadcast.", "quantifier": "every pair of broadcast-compatible shapes, all values and incoming gradients", "why_tests_cant": "All ranks and shapes; the adjoint identity is over all values.", "anchors": ["src/tensor_ops/binary_ops.rs: MaybeReduceSum, MaybeBroadcast, maybe_reduce, AddOp::grad, SubOp::grad, MulOp::grad, DivOp::grad"]}
{"id": "C26", "title": "Axis reductions", "statement": "`reduce_sum/mean/prod/min/max(x, axes, keep_dims)` with valid axes (in any order, negative axes counted from the back) return, at every remaining index, the sum/mean/product/minimum/maximum of the elements that agree with it on the remaining axes; the shape has the reduced axes removed or kept as 1.", "quantifier": "every shape, every list of distinct valid axes in every order, all values", "why_tests_cant": "All ranks and axis lists.", "anchors": ["src/tensor_ops/reduction_ops.rs: impl_reduce_forward, preprocess_axes, ReduceSum, ReduceMean, ReduceProd, ReduceMin, ReduceMax", "src/ndarray_ext.rs: normalize_negative_axes"]}
{"id": "C27", "title": "Gradients of sum and mean reductions", "statement": "The gradients of `sum_all`, `reduce_sum` and `reduce_mean` are the adjoints of the reductions: every element of x receives the incoming gradient of the output element to which it was reduced (divided by the number of reduced elements for the mean), whatever the axes and keep_dims.", "quantifier": "every shape, axes, keep_dims, values and incoming gradients", "why_tests_cant": "All shapes and axes; adjointness is over all values.", "anchors": ["src/tensor_ops/reduction_ops.rs: ReduceSum::grad, ReduceMean::grad, ReduceSumToScalar, ReduceGradCommon"]}
{"id": "C28", "title": "argmax and argmin", "statement": "`argmax(x, axis, keep_dim)` (argmin) returns at every remaining index the position along `axis` of the first maximal (minimal) element; the shape has the axis removed or kept as 1.", "quantifier": "every shape of any rank, every axis (also negative), all values with ties", "why_tests_cant": "All ranks, axes and tie patterns.", "anchors": ["src/tensor_ops/reduction_ops.rs: ArgMax, ArgMin, argx_helper", "src/ndarray_ext.rs: roll_axis"]}
{"id": "C29", "title": "reshape keeps the elements in order", "statement": "`reshape(x, shape)` keeps the row-major sequence of elements, for any shape with the same number of elements in which at most one dimension is -1 (inferred); `flatten` is reshape to one dimension; reshaping back gives x, and the gradient of reshape is reshape back.", "quantifier": "every array and every valid target shape", "why_tests_cant": "All shapes with an inferred dimension at any place.", "anchors": ["src/tensor_ops/array_ops.rs: Reshape", "src/tensor_ops/mod.rs: reshape, flatten"]}
{"id": "C30", "title": "transpose permutes and its gradient undoes it", "statement": "`transpose(x, perm)` for a permutation perm has shape[i] = x.shape[perm[i]] and element y[idx] = x[idx permuted back]; a perm of wrong length is an error; the gradient op applies the inverse permutation, so it is both the inverse and the adjoint.", "quantifier": "every array and every permutation", "why_tests_cant": "All ranks and permutations.", "anchors": ["src/tensor_ops/math_ops.rs: Transpose", "src/tensor_ops/mod.rs: transpose"]}
{"id": "C31", "title": "concat and split", "statement": "`concat(xs, axis)` puts the arrays next to each other along axis (negative axes counted from the back) and `split` with the sizes of the parts gives the parts back; the gradient of concat with respect to part i is the region of the incoming gradient that part i occupies, and the gradient of a split part is the adjoint (zero outside the part).", "quantifier": "every list of arrays that agree outside the axis, every axis, all values and incoming gradients", "why_tests_cant": "All numbers of parts and sizes; tests with constant incoming gradients cannot see that a wrong region is taken.", "anchors": ["src/tensor_ops/array_ops.rs: Concat, ConcatGrad, Split, SplitGrad, make_indices_for_split", "src/tensor_ops/mod.rs: concat, split"]}
{"id": "C32", "title": "slice bounds", "statement": "`slice(x, starts, ends)` selects in every dimension the positions from start (inclusive; negative counted from the back) to end, where a non-negative end is exclusive and a negative end is inclusive and counted from the back (-1 is the last position); the gradient puts the incoming gradient at the selected positions and zero elsewhere.", "quantifier": "every shape, every starts/ends in range (positive and negative), all values", "why_tests_cant": "All combinations of signs and sizes.", "anchors": ["src/tensor_ops/mod.rs: slice", "src/tensor_ops/array_ops.rs: Slice, SliceGrad"]}
{"id": "C33", "title": "gather and its gradient", "statement": "`gather(param, indices, axis)` / `gather_common` return shape param.shape[..axis] ++ indices.shape ++ param.shape[axis+1..] with y[a, i, b] = param[a, indices[i], b] (negative indices counted from the back for gather_common; axis may be negative); the gradient adds up, for every selected row, the incoming gradients of all positions that selected it.", "quantifier": "every param, index array (with repetitions, negative indices) and axis", "why_tests_cant": "All shapes, repeated and negative indices, all axes.", "anchors": ["src/tensor_ops/array_ops.rs: Gather, GatherGrad", "src/tensor_ops/mod.rs: gather, gather_common"]}
{"id": "C34", "title": "expand_dims and squeeze", "statement": "`expand_dims(x, axes)` inserts size-1 dimensions so that they are at the given positions of the result, `squeeze(x, axes)` removes exactly the given size-1 dimensions (axes in any order, negative axes counted from the back), both keep the elements in order, and squeeze undoes expand_dims.", "quantifier": "every shape and every list of distinct valid axes, positive or negative", "why_tests_cant": "All ranks and axis lists.", "anchors": ["src/tensor_ops/array_ops.rs: ExpandDims, Squeeze", "src/tensor_ops/mod.rs: expand_dims, squeeze"]}
{"id": "C35", "title": "tile repeats and its gradient sums the copies", "statement": "`tile(x, axis, num)` repeats x num times along axis, y[.., k*n + i, ..] = x[.., i, ..], and its gradient has the shape of x and sums the incoming gradient over the num copies.", "quantifier": "every shape, axis, num, values and incoming gradients", "why_tests_cant": "All shapes; the gradient statement is over all incoming gradients.", "anchors": ["src/tensor_ops/array_ops.rs: Tile", "src/tensor_ops/mod.rs: tile"]}
{"id": "C36", "title": "Elementwise math ops report their true derivatives", "statement": "For each elementwise op (neg, square, inv, inv_sqrt, pow, sqrt, ln, log2, log10, exp, exp2, exp10, sin, cos, tan, asin, acos, atan, sinh, cosh, tanh, asinh, acosh, atanh, abs, sigmoid, softplus, relu, elu, clip) the gradient expression built by the op is the derivative of the forward function times the incoming gradient, at every point at which the function is differentiable.", "quantifier": "every real input at which the op is differentiable, every incoming gradient", "why_tests_cant": "A statement about all real points; numerical tests sample points and use tolerances.", "anchors": ["src/tensor_ops/math_ops.rs: all Op impls", "src/tensor_ops/activation_ops.rs: Sigmoid, Softplus, ReLU, ELU, ELUGrad", "src/tensor_ops/array_ops.rs: Clip, ClipGrad"]}
{"id": "C37", "title": "softmax, log_softmax and logsumexp", "statement": "`softmax(x, axis)` is positive and sums to one along the axis and is invariant under adding a constant along the axis; `log_softmax` is its logarithm; `reduce_logsumexp(x, axis, keep_dim)` is log(sum(exp x)) along the axis for both values of keep_dim; their gradients are the exact adjoints for every axis.", "quantifier": "every shape, axis, keep_dim and all real values", "why_tests_cant": "All shapes, axes and values; wrong cases need particular (square) shapes or axes other than 1.", "anchors": ["src/tensor_ops/activation_ops.rs: softmax_impl, Softmax", "src/tensor_ops/math_ops.rs: logsumexp_forward, LogSumExp", "src/tensor_ops/xent_ops.rs: LogSoftmax"]}
{"id": "C38", "title": "Cross-entropy losses and their gradients", "statement": "`sigmoid_cross_entropy(x, t)` equals -(t log s(x) + (1-t) log(1-s(x))), `sparse_softmax_cross_entropy(x, t)` equals -log softmax(x)[t], `softmax_cross_entropy(x, t)` equals -sum t log softmax(x), and their gradient expressions with respect to x (and t where provided) are the derivatives.", "quantifier": "all real logits and targets (for the sparse loss every valid label)", "why_tests_cant": "All values; tests differentiate only with respect to the logits.", "anchors": ["src/tensor_ops/xent_ops.rs: SigmoidCrossEntropy, SparseSoftmaxCrossEntropy, SparseSoftmaxCrossEntropyGrad, SoftmaxCrossEntropy"]}
{"id": "C39", "title": "matmul and batch_matmul with exact gradients", "statement": "`matmul` / `batch_matmul` / `batch_matmul_t` compute the (batched) matrix product of the (transposed) operands, report incompatible shapes as errors, and the gradients with respect to both operands are exact for every combination of transposition flags (and therefore also for second derivatives of matmul).", "quantifier": "all matrix sizes, batch shapes, memory layouts, transposition flags and values", "why_tests_cant": "All sizes, layouts and flags; the wrong cases need transposed operands.", "anchors": ["src/tensor_ops/dot_ops.rs: MatMul, BatchMatMul, mat_mul_impl_slow, batch_mat_mul_impl_slow, batch_mat_mul_requires_copy"]}
{"id": "C40", "title": "tensordot contracts the given axes", "statement": "`tensordot(a, b, a_axes, b_axes)` equals the sum over the paired axes: result[i, j] = sum_k a[i, k] b[k, j] with the free axes of a followed by the free axes of b in order; axes may be negative. Axes given twice and contracted sizes with different products are reported as errors, and the gradients with respect to both operands are exact.", "quantifier": "all ranks, shapes and lists of distinct axes with matching sizes", "why_tests_cant": "All axis choices.", "anchors": ["src/tensor_ops/dot_ops.rs: TensordotPreprocess, tensordot_preprocess", "src/tensor_ops/mod.rs: tensordot"]}
{"id": "C41", "title": "Convolution and transposed convolution", "statement": "`conv2d`/`dilated_conv2d` compute the direct cross-correlation with zero padding, stride and dilation; `conv2d_transpose` is its adjoint; and the gradients of conv2d with respect to input and filter have the shapes of the input and the filter and are exact.", "quantifier": "all batch/channel/spatial sizes, kernel sizes, padding, stride, dilation and values", "why_tests_cant": "All geometries; the shape mismatch occurs only when the stride does not divide evenly.", "anchors": ["src/tensor_ops/conv_ops/mod.rs: im2col, col2im", "src/tensor_ops/conv_ops/conv2d.rs: conv2d_impl, Conv2D, conv2d_filter_grad_impl", "src/tensor_ops/conv_ops/conv2d_transpose.rs: conv2d_transpose_impl, Conv2DTranspose"]}
{"id": "C42", "title": "Max pooling", "statement": "`max_pool2d(x, size, pad, stride)` returns the maximum over every (padded) window and its gradient has the shape of x and adds each incoming gradient at the position of the window's maximum, writing only inside the gradient array.", "quantifier": "all spatial sizes, window sizes, padding, stride and values", "why_tests_cant": "All geometries; padding and non-dividing strides are not exercised by tests.", "anchors": ["src/tensor_ops/conv_ops/max_pool2d.rs: impl_max_pool, impl_max_pool_grad, MaxPool2D, MaxPool2DGrad"]}
{"id": "C43", "title": "shape(x) is the shape x has when evaluated", "statement": "Evaluating `x.shape()` (with the same feeds) gives the shape of the array that evaluating x gives, for every tensor x, whether the shape is inferred at construction or computed.", "quantifier": "every tensor built by the public constructors", "why_tests_cant": "All constructors and shapes.", "anchors": ["src/tensor_ops/mod.rs: shape, flatten, add_n", "src/tensor.rs: TensorBuilder::set_shape", "src/tensor_ops/array_ops.rs: Shape"]}
{"id": "C44", "title": "Optimizer update formulas over any history", "statement": "After any number of updates with any gradients, parameters and state variables are exactly those given by the recurrences of SGD, MomentumSGD, AdaGrad and Adam (with the state starting from zeros and Adam's step counter from 1), elementwise, and no other variable changes.", "quantifier": "every sequence of gradients of any length, every hyper-parameter, every parameter shape", "why_tests_cant": "Induction over update histories of unbounded length.", "anchors": ["src/optimizers/sgd.rs", "src/optimizers/momentum_sgd.rs", "src/optimizers/adagrad.rs", "src/optimizers/adam.rs", "src/tensor_ops/gradient_descent_ops/"]}
{"id": "C45", "title": "An update step is simultaneous", "statement": "`Optimizer::update(params, grads, ctx)` updates all parameters with gradients evaluated at the parameter values before the step.", "quantifier": "every graph, every list of parameters and gradients", "why_tests_cant": "Depends on the evaluation order of the update ops over all graphs; with one parameter or independent gradients it cannot be observed.", "anchors": ["src/optimizers/mod.rs: Optimizer::update, get_update_op, grad_helper", "src/evaluation.rs: Graph::eval"]}
{"id": "C46", "title": "Optimizer state is per parameter and per optimizer", "statement": "The state of a stateful optimizer for one parameter is never shared with another parameter; two optimizers using different namespaces do not interfere; re-creating an optimizer on the same namespace starts from fresh state and does not leave a parameter using another's state.", "quantifier": "every list of parameter ids, every sequence of optimizer constructions", "why_tests_cant": "Name-mangling injectivity over all ids.", "anchors": ["src/optimizers/adam.rs: Adam::new, compute_updates", "src/optimizers/momentum_sgd.rs", "src/optimizers/adagrad.rs", "src/variable.rs: register_variable"]}
{"id": "C47", "title": "assign stores the value and returns", "statement": "Evaluating `assign(v, y)` sets the variable v to the value of y (broadcast to v's shape) and changes no other variable; later evaluations, and later ops of the same evaluation, read the new value.", "quantifier": "every graph, variable and value", "why_tests_cant": "Over all graphs and states.", "anchors": ["src/tensor_ops/array_ops.rs: Assign", "src/tensor_ops/mod.rs: assign", "src/evaluation.rs: Graph::eval"]}
{"id": "C48", "title": "Second-order gradients of the reductions", "statement": "The gradient of the gradient op of `reduce_sum`/`reduce_mean` with respect to the incoming gradient is the adjoint of that op: it has the shape of the incoming gradient and sums over the reduced axes, so differentiating twice through a reduction is possible.", "quantifier": "every shape, axes and keep_dims", "why_tests_cant": "Only visible for second-order gradients that reach the incoming gradient of a reduction; all shapes and axes.", "anchors": ["src/tensor_ops/reduction_ops.rs: ReduceGradCommon::grad"]}
{"id": "C49", "title": "Gradients of product, minimum and maximum reductions", "statement": "The gradient of `reduce_prod` gives every element the incoming gradient times the product of the other elements reduced to the same output; the gradients of `reduce_min`/`reduce_max` give the incoming gradient to the extremal elements and 0 to all others.", "quantifier": "every shape, axes, keep_dims, values (also zeros and ties) and incoming gradients", "why_tests_cant": "All shapes and axes; zeros.", "anchors": ["src/tensor_ops/reduction_ops.rs: ReduceProd::grad, min_max_grad, ReduceMin, ReduceMax"]}
{"id": "C50", "title": "Comparison ops, maximum and minimum broadcast", "statement": "`equal`, `not_equal`, `greater`, `lesser`, `greater_equal`, `lesser_equal`, `maximum` and `minimum` are elementwise with broadcasting, whichever of the two operands is the one to be broadcast.", "quantifier": "every pair of broadcast-compatible shapes, all values", "why_tests_cant": "All pairs of shapes; the tests use equal shapes or one order of operands.", "anchors": ["src/tensor_ops/math_ops.rs: impl_cmp_op"]}
{"id": "C51", "title": "Gradients of maximum and minimum", "statement": "The gradients of `maximum(a, b)` (`minimum`) give the incoming gradient to the selected operand and 0 to the other, have the shapes of a and b, and their total for a movement of both operands is the incoming gradient.", "quantifier": "every pair of broadcast-compatible shapes, all values (also ties)", "why_tests_cant": "All shapes and ties.", "anchors": ["src/tensor_ops/math_ops.rs: min_max_grad, impl_cmp_op"]}
{"id": "C52", "title": "access_elem returns the element in row-major order and its gradient", "statement": "`access_elem(x, i)` returns, as a scalar, the element of x with number i in row-major order (negative i counted from the back), reports an out-of-range index as an error, and its gradient is the incoming gradient at that position and 0 elsewhere.", "quantifier": "every shape, every memory layout of x, every index", "why_tests_cant": "All shapes, layouts (transposed, sliced) and indices.", "anchors": ["src/tensor_ops/array_ops.rs: IndexOp, IndexOpGrad", "src/tensor_ops/mod.rs: Tensor::access_elem"]}
{"id": "C53", "title": "add_n adds up all inputs", "statement": "`add_n(xs)` is the elementwise sum of all inputs (with broadcasting like `add`), and its gradients are the adjoint: each input gets the incoming gradient, reduced to its shape.", "quantifier": "every number of inputs, every combination of broadcast-compatible shapes", "why_tests_cant": "All numbers of inputs and shapes.", "anchors": ["src/tensor_ops/array_ops.rs: AddN", "src/tensor_ops/mod.rs: add_n"]}
{"id": "C54", "title": "Gradients of expand_dims and squeeze", "statement": "The gradient of `expand_dims(x, axes)` is the incoming gradient with the inserted dimensions removed, the gradient of `squeeze(x, axes)` is the incoming gradient with the removed dimensions inserted again; both have the shape of x and are the adjoint of the op.", "quantifier": "every shape, every list of distinct valid axes, positive or negative, every memory layout", "why_tests_cant": "All ranks, axis lists and layouts.", "anchors": ["src/tensor_ops/array_ops.rs: ExpandDims, Squeeze"]}
{"id": "C55", "title": "Gradients of array programs are derivatives, end to end", "statement": "For every program built from variables, placeholders, constants, arithmetic, elementwise functions, matmul, sums, means, add_n, softmax, cross entropies, slice, squeeze, reshape, gather, convolution, max pooling, dropout, transposition, hooks and maxima and minima (of two arrays or along axes): evaluating a tensor returned by `grad(ys, xs)` yields an array of the shape of the parameter x whose element at every index is the partial derivative of the sum of all elements of the ys with respect to this element of x, at the current values.", "quantifier": "every such program (any number of calls, any sharing of intermediate results), every choice among tensors of equal rank in the queue, all shapes and real values at which the functions are differentiable", "why_tests_cant": "Tests compare a few gradients with finite differences for single ops; programs, shapes and sharing patterns are unbounded, and errors appear only where several pieces (shape tensors, broadcasting, accumulation, order of processing) interact.", "anchors": ["src/gradient.rs: compute_gradients", "src/tensor_ops/mod.rs: grad, add, sub, mul, div, matmul, sum_all, reduce_sum, reduce_mean, add_n, softmax, sparse_softmax_cross_entropy", "src/tensor_ops/binary_ops.rs: AddOp, SubOp, MulOp, DivOp, MaybeReduceSum", "src/tensor_ops/math_ops.rs", "src/tensor_ops/activation_ops.rs", "src/tensor_ops/dot_ops.rs: MatMul", "src/tensor_ops/reduction_ops.rs: ReduceSum, ReduceSumToScalar, ReduceGradCommon", "src/evaluation.rs: eval"]}
{"id": "C56", "title": "Random arrays and dropout", "statement": "A random tensor has the shape of its shape input, is filled with the next samples of its generator, and every evaluation draws fresh samples. While training, dropout multiplies the input by a mask of zeros and ones drawn with the given ratio, otherwise by the mean of the mask; its gradient is the gradient of this map for the very mask of the same evaluation. Different layers draw independently, and the Glorot initialisers have the scale of the Glorot scheme.", "quantifier": "every distribution and generator, every shape, every ratio, every real input, every graph and evaluation that contains a dropout layer and its gradient", "why_tests_cant": "Tests run one or two seeds and cannot look inside of the evaluation; whether forward and backward direction share the mask depends on the evaluation order of the whole graph.", "anchors": ["src/ndarray_ext.rs: ArrayRng, get_default_rng", "src/tensor_ops/random_ops.rs: Dropout", "src/tensor_ops/mod.rs: dropout, dropout_rng, nth_tensor"]}
{"id": "C57", "title": "setdiff1d is the sorted set difference", "statement": "`setdiff1d(a, b)` returns the sorted, unique values in a that are not in b.", "quantifier": "all arrays a and b of any shape and layout, every iteration order of the hash sets", "why_tests_cant": "All arrays; the iteration order of hash sets varies with their capacity.", "anchors": ["src/tensor_ops/array_ops.rs: SetDiff1D", "src/tensor_ops/mod.rs: setdiff1d"]}
{"id": "C58", "title": "grad of a program never panics", "statement": "For every program of array calls (arithmetic, elementwise functions, products, reductions, softmax, cross entropies, slicing, reshaping, gathering, transposing, convolution, pooling, dropout, maxima and minima, shapes), grad with respect to variables and placeholders returns one tensor per parameter; it only fails when the graph exceeds its size limit.", "quantifier": "All programs, all objectives and parameters, all choices among tensors of equal rank, all numbers of loop iterations above a bound.", "why_tests_cant": "A test differentiates some programs; whether an index, a recorded shape tensor or a gradient is missing depends on the whole program, on sharing and on which tensors already have a recorded shape.", "anchors": ["src/gradient.rs:20-84", "src/tensor_ops/mod.rs:94-114", "src/tensor_ops/math_ops.rs:383-385"]}
{"id": "C59", "title": "The MNIST example classifier computes its mean cross entropy and the exact gradient", "statement": "For the training code of the example mlp_mnist (softmax regression, also in the README with the declarations in another order: matmul(x, w) + b, sparse_softmax_cross_entropy, reduce_mean over axis 0, grad with respect to w and b): building the graph succeeds and grad returns two tensors; whenever x holds n examples with d features and y their labels below the number c of classes (as a vector or as a column), and the variables hold arrays of the shapes [d, c] and [1, c], evaluating the loss and both gradients together returns the mean over the examples of -log(softmax(x w + b)[label]) and arrays of the shapes of w and b that hold its partial derivatives (exact arithmetic).", "quantifier": "all data sets, numbers of examples, features and classes, labels, variable values; both declared shapes of the labels; any order of tensors of equal rank", "why_tests_cant": "The documented program combines every layer: variables, placeholders and feeding, shape inference, broadcasting, matrix products, log-softmax, back-propagation through 13 tensors, evaluation of several targets. Tests can compare finitely many gradients with finite differences, at a tolerance.", "anchors": ["README.md:55-95", "examples/mlp_mnist.rs:30-110", "src/tensor_ops/xent_ops.rs", "src/gradient.rs", "src/evaluation.rs"]}
{"id": "C60", "title": "Training the MNIST example classifier follows the optimizer's formula with the exact gradients", "statement": "The training loop of the example mlp_mnist (per mini-batch a new graph: loss, grad, optimizer update), with any of the four optimizers: after the optimizer was created for the two variables, the loop runs through any sequence of mini-batches without a panic; in step k the gradients that the update ops read are the partial derivatives of the mean cross entropy of that mini-batch at the values which both variables had before the step; and after k steps every element of the weights and of the bias is the value given by the recurrence of the optimizer (SGD, momentum SGD, AdaGrad, Adam with bias correction) for these gradients (exact arithmetic).", "quantifier": "all numbers and sizes of mini-batches, data, labels, initial weights, hyper-parameters; all four optimizers; both declared shapes of the labels; any order of tensors of equal rank; any further variables in the environment", "why_tests_cant": "Update ops write to variables that ops of the same evaluation read; whether the second gradient is computed before or after the first update depends on the order of execution. A wrong order, a state shared between two parameters or a wrong step counter changes a training run by small amounts that no test with a tolerance notices.", "anchors": ["examples/mlp_mnist.rs:51-92", "src/optimizers/mod.rs:65-85", "src/optimizers/adam.rs", "src/optimizers/sgd.rs", "src/optimizers/momentum_sgd.rs", "src/optimizers/adagrad.rs", "src/tensor_ops/gradient_descent_ops", "src/variable.rs:670-683", "src/evaluation.rs"]}
{"id": "C61", "title": "Programs compute what they say, and grad differentiates this function", "statement": "A program that calls constructors of tensors one after another (each argument the result of an earlier call) denotes a function from the arrays of its variables and placeholders to arrays: apply the array function of each call to the arrays of its arguments. Building the graph does not panic (below the limit of the number of tensors), evaluating any of the returned tensors gives the array that this function assigns to the call, and the tensors returned by `grad(ys, xs)` evaluate to the partial derivatives of the sum of all elements of the ys, as functions of the elements of the variables.", "quantifier": "every list of such calls, all variables and fed arrays for which all calls succeed, every set of evaluated tensors, every choice among tensors of equal rank, all differentiated variables", "why_tests_cant": "Hidden tensors (shape inputs, added constants) share the graph with the tensors of the program, and execution order, caching and recorded shapes could give any of them a wrong value for some program; tests run a handful of programs on a handful of shapes.", "anchors": ["src/variable.rs:670-683", "src/graph.rs", "src/evaluation.rs", "src/gradient.rs", "src/tensor_ops/mod.rs"]}
{"id": "C62", "title": "Gradients of gradients are the derivatives of all orders", "statement": "In a program that calls `grad` any number of times, also on results of earlier calls of `grad`, every returned tensor evaluates to the mathematical value: the result of `grad(ys, xs)` is the array of the partial derivatives, with respect to the elements of each x, of the sum of all elements of the ys, where the ys may themselves be derivatives of any order. In particular the second derivative ggx of the README is 4.", "quantifier": "every sequence of constructor calls and calls of grad of any nesting depth, all variables and fed arrays at which all functions of the program are smooth, every choice among tensors of equal rank", "why_tests_cant": "The graph of a derivative contains ops that no user writes (sums that undo broadcasting, broadcasts, shape tensors); their own gradients are only used by derivatives of higher order, which tests check for one or two programs and never beyond the second order.", "anchors": ["README.md:22-46", "src/gradient.rs", "src/tensor_ops/mod.rs:94-114", "src/tensor_ops/binary_ops.rs:96-144", "src/tensor_ops/reduction_ops.rs:152-158", "src/tensor_ops/math_ops.rs"]}
{"id": "C63", "title": "The Hessian-vector product is the product of the second derivatives with the vectors", "statement": "After any program, `_hessian_vector_product(ys, xs, vectors)` returns one tensor per element of `xs`, and evaluating it yields, at each position, the sum over all positions of all `xs` of the second partial derivative of the sum of the elements of the `ys`, times the element of the vector at that position.", "quantifier": "All programs of the differentiable ops (with nested calls of grad), all shapes, all numbers of ys, xs and vectors, all values at which the functions are smooth, all vectors.", "why_tests_cant": "The statement is about second derivatives of every function a program can express; a test compares one function at some points.", "anchors": ["src/tensor_ops/mod.rs:_hessian_vector_product", "src/tensor_ops/mod.rs:grad", "src/gradient.rs:compute_gradients"]}
{"id": "C64", "title": "The LSTM example computes the loss of an LSTM language model and its gradients", "statement": "For the program of examples/lstm_lm.rs, with any number of sentences, sentence length, vocabulary and vector size: evaluating `loss` gives for each sentence the sum over its words of the negative log-probability that an LSTM, as given by its equations (gates, cells, outputs, starting from zeros), assigns to the word after the preceding ones; the tensors returned by `grad(&[loss], vars)` evaluate to the partial derivatives of the sum of these losses with respect to the elements of the five weights.", "quantifier": "All sizes, all sentences of words of the vocabulary, all weights, any order of tensors of equal rank.", "why_tests_cant": "The example checks finite differences with tolerance for two sentences of three words and one set of random weights near zero, and never compares the loss with the equations: swapped gates or a cell that is not carried over pass this check.", "anchors": ["examples/lstm_lm.rs:17-52", "examples/lstm_lm.rs:98-125", "src/tensor_ops/mod.rs", "src/gradient.rs", "src/evaluation.rs"]}
{"id": "C65", "title": "Ops are executed in the order of a depth-first traversal", "statement": "The ops that an evaluation executes, listed in the order of execution, are those of a recursive depth-first traversal that visits the targets from last to first, and before every op its inputs from last to first, each op once. The order depends on the graph and the list of targets only, not on values. If no later target needs a target, then exactly the ops needed by it and by later targets have been executed when its execution ends.", "quantifier": "All graphs that the constructors can build, all lists of targets, all ops, feeds and variables.", "why_tests_cant": "The order matters only for ops with side effects (updates, assignments, random numbers); tests that compare results of pure ops cannot see it, and a graph has exponentially many traversals.", "anchors": ["src/evaluation.rs:252-362"]}
{"id": "C66", "title": "grad_helper returns exactly the variables the losses depend on, with their gradients", "statement": "`grad_helper(losses, namespace)` returns, in the order in which the namespace is iterated, exactly those variables of the namespace that some loss depends on through differentiable tensors, each with the gradient of the sum of all entries of all losses with respect to it: for every movement of the variables of the namespace the change of that sum is the sum of the returned gradients applied to the movements; variables that are left out contribute nothing. The call ends: it returns, or the graph is full, or an op's own `grad` panics or gives no gradient for an input that leads to a variable.", "quantifier": "All graphs, losses, namespaces, iteration orders of the hash map of names, resolutions of ties in the priority queue, all ops with correct gradients.", "why_tests_cant": "The order of the hash map differs between runs, and a variable paired with the gradient of another or a variable that is silently left out only slows training down.", "anchors": ["src/optimizers/mod.rs:21-46", "src/variable.rs:765-781", "src/gradient.rs:24-141"]}
{"id": "C67", "title": "get_update_op does the same step as update, and the loss evaluated with it is the loss before the step", "statement": "Evaluating the tensor returned by `get_update_op` returns the scalar 0 and leaves the variables as `update` with the same parameters and gradients would, or panics as `update` would; further targets in the same evaluation do not change this; and the value of a loss that is evaluated in the same run (`push(loss).push(update_op)`) is its value before the step.", "quantifier": "All graphs, optimizers, numbers of parameters, feeds and variables.", "why_tests_cant": "The update tensors are inputs of an add_n op whose value nobody looks at; whether the reported loss is that before or after the step depends on the order of execution and on the ops of the graph, and the two differ by a small amount.", "anchors": ["src/optimizers/mod.rs:84-98", "src/tensor_ops/mod.rs:831-847", "src/evaluation.rs:252-362", "examples/cnn_mnist.rs:95-110", "examples/sine.rs:25-45"]}
{"id": "C68", "title": "The gradient checker accepts exactly the gradients that agree with the difference quotients", "statement": "`check_theoretical_grads(objective, gradients, variables, feeder, eps, tol)` returns if and only if, for every variable and every element of it, the given gradient differs by at most `tol` from the central difference quotient of the sum of the elements of the objective for that element; otherwise it panics. In both cases all variables hold their old values. For differentiable objectives and small `eps` it therefore accepts the exact gradients, for every tolerance, and rejects gradients with an element that is wrong by more than the tolerance; the gradients computed by `grad` pass.", "quantifier": "All graphs, objectives, gradients, variables of any shape and memory layout, feeds, steps and tolerances.", "why_tests_cant": "This function is the oracle of the gradient tests of the repository. No test checks the oracle: one that compares too few elements, or elements at different positions, accepts wrong gradients silently.", "anchors": ["src/test_helper.rs:7-148"]}
{"id": "C69", "title": "The CNN example computes the loss of a convolutional network, its gradients and its accuracy", "statement": "For the program of examples/cnn_mnist.rs, with any number of images, image size (a multiple of four), numbers of channels and classes: one evaluation of the mean loss and of the tensors returned by `grad(&[mean_loss], vars)` gives the mean negative log-probability of the labels for the network as given by its equations (two layers of 3x3 convolution with zero border, bias, rectification, greatest of four neighbours, dropout; then a linear layer and dropout), where the arrays that `dropout` draws in this evaluation are factors, and its partial derivatives with respect to the elements of the six weights, wherever no rectified number is zero and no positive maximum of four is attained twice. The test program gives the fraction of images whose label is the first class with the greatest score.", "quantifier": "All sizes, all images and labels, all weights, all drawn arrays, any order of tensors of equal rank.", "why_tests_cant": "The example needs a dataset and minutes of training and only prints losses; a wrong padding, a wrong order of features or gradients with respect to another draw of dropout still train to some accuracy.", "anchors": ["examples/cnn_mnist.rs:36-52", "examples/cnn_mnist.rs:98-138", "src/tensor_ops/conv_ops/conv2d.rs", "src/tensor_ops/conv_ops/max_pool2d.rs", "src/tensor_ops/random_ops.rs", "src/gradient.rs", "src/evaluation.rs"]}
{"id": "C70", "title": "The sine example trains its network by the exact gradients, simultaneously for all weights", "statement": "For the program of examples/sine.rs, with any width and batch size, weights and drawn inputs: the training loop (`grad_helper`, `get_update_op`, one evaluation of the loss and of the update tensor in each step) never panics; the loss that step k returns is the mean squared error of the network with the weights after k steps; and the weights after k steps result from the update formula of the optimizer with the partial derivatives of that loss at the weights of each step, for every order in which the hash map of names lists the variables.", "quantifier": "All widths, batch sizes, initial weights, drawn inputs and numbers of steps, the four optimizers, all iteration orders of the name map, any order of tensors of equal rank.", "why_tests_cant": "The names are random UUIDs, so the iteration order differs between runs; a step that uses a mixture of old and new weights still reduces the loss, and nothing in the output shows it.", "anchors": ["examples/sine.rs:9-42", "src/optimizers/mod.rs:21-98", "src/variable.rs:765-781", "src/evaluation.rs:252-362", "src/gradient.rs"]}
{"id": "C71", "title": "The CNN example trains its network by the exact gradients, simultaneously for all weights", "statement": "For the program of examples/cnn_mnist.rs, with any sizes, weights, mini-batches and drawn dropout masks: the training loop (`grad_helper`, `get_update_op`, one evaluation of the mean loss and of the update tensor in each step) does not panic; the loss that step k returns is the mean loss of the network with the weights after k steps, for the masks drawn in this step; and the weights after k steps result from the update formula of the optimizer with the partial derivatives of that loss at the weights of each step, as long as the network is differentiable there, for every order in which the hash map of names lists the variables.", "quantifier": "All sizes, initial weights, mini-batches, masks and numbers of steps, the four optimizers, all iteration orders of the name map, any order of tensors of equal rank.", "why_tests_cant": "The example needs a dataset and minutes of training and only prints losses; a step with a mixture of old and new weights, or with the gradients of another draw of dropout, still trains.", "anchors": ["examples/cnn_mnist.rs:72-125", "src/optimizers/mod.rs:21-98", "src/variable.rs:765-781", "src/evaluation.rs:252-362", "src/gradient.rs"]}
{"id": "C72", "title": "Variance, normalisation, batch normalisation and mean squared error are those of the formulas, and are differentiated correctly", "statement": "`reduce_variance` returns the variance along the axes; `normalize` every element minus the mean, divided by the square root of the variance plus 1e-5; `batch_norm` this along the first axis, times scale plus shift; `mean_squared_error` the mean of the squared differences along the last axis. They can be called on any tensors of a program, and `grad` of anything computed from their results returns the partial derivatives: in particular for `batch_norm` with respect to input, scale and shift (where mean and variance depend on the input as well), and for the squared error 2 (y - t) / n and its negative.", "quantifier": "All programs, arrays of all shapes and ranks without dimension 0, all axes (also negative ones, or given as a tensor), weights of the results, any order of tensors of equal rank.", "why_tests_cant": "The doc tests look at the shape of the result only. The gradient of batch normalisation passes through the mean and the variance with a broadcast each; a term that is lost there leaves training working, only worse.", "anchors": ["src/tensor_ops/mod.rs:1220-1236", "src/tensor_ops/mod.rs:1291-1302", "src/tensor_ops/mod.rs:1845-1851", "src/tensor_ops/mod.rs:2325-2369", "src/tensor.rs:913-950"]}
{"id": "C73", "title": "jacobians returns the Jacobian matrices", "statement": "For every program: `jacobians(y, xs, n)`, with `n` the number of elements of `y`, does not panic, and the tensor that it returns for a variable x evaluates to the matrix with a row for each element of `y` and a column for each element of x (in row-major order) whose entries are the partial derivatives of the elements of `y` by those of x. In particular, for a product of matrices C = AB the derivative of C(i,j) by A(r,s) is B(s,j) if r = i and 0 otherwise, and that by B(r,s) is A(i,r) if s = j and 0 otherwise.", "quantifier": "All programs, variables, values, sizes of y and of the variables, all memory layouts chosen by `concat`, any order of tensors of equal rank.", "why_tests_cant": "The doc test looks at the shapes of the matrices only, and no other test calls the function. Rows or columns in a wrong order, or gradients of the sum in each row, have the same shapes.", "anchors": ["src/tensor_ops/mod.rs:153-216", "src/tensor_ops/mod.rs:47-52", "src/tensor_ops/array_ops.rs:281-351", "src/tensor_ops/mod.rs:979-990", "src/tensor_ops/mod.rs:1344-1355", "src/tensor_ops/mod.rs:2215-2227", "src/gradient.rs"]}
{"id": "C74", "title": "A hook is called once per evaluation, with the value of its tensor, and changes nothing else", "statement": "`x.register_hook(h)` (also as `show`, `print`, `raw_hook`, ...) returns a tensor with the value of `x` (or its error) and the same derivative. An evaluation calls the hook exactly once if one of the evaluated tensors needs the tensor, with the value of `x`, and otherwise (also if the value of `x` is an error) not at all; hooks are called after the hooks that they depend on, and in the order shown in the documentation; evaluating the receiver calls the hook.", "quantifier": "All graphs, ops (with any side effects), hooks, lists of evaluated tensors, feeds and variables.", "why_tests_cant": "Hooks print to the terminal, which tests do not capture; a hook that is called twice, or for a tensor that is not needed, or in another order, changes no value.", "anchors": ["src/hooks.rs:42-92", "src/tensor_ops/hook_ops.rs:20-31", "src/tensor.rs:177-320", "src/evaluation.rs:252-362"]}
{"id": "C75", "title": "Evaluators: each run returns the tensors pushed so far, for the feeds of this evaluator", "statement": "In a context with any number of evaluators, any sequence of `push`, `extend`, `feed`, `set_feeder` and `run`, mixed with calls that build tensors: each `run` returns one result per tensor pushed to this evaluator so far, in the order of the pushes, computed from the variables left by the runs before it and from the feeds of this evaluator (those of the last feeder set and those fed since then). Other evaluators, earlier runs and new tensors make no difference unless ops write to variables; running again returns the same results; no such sequence panics if the tensors have values.", "quantifier": "All sequences of calls, numbers of evaluators, graphs, ops, feeds and variables.", "why_tests_cant": "Tests use each evaluator once (`ctx.evaluator().push(..).feed(..).run()`). What a second run returns, and what is left from an earlier feeder, depends on the history of all calls.", "anchors": ["src/evaluation.rs:56-61", "src/evaluation.rs:88-172", "src/evaluation.rs:225-362"]}
{"id": "C76", "title": "stop_gradient holds its argument for grad", "statement": "`stop_gradient(x)` evaluates to the array of `x`. For every program that calls it anywhere, `grad` yields the partial derivatives of the function in which the results of all calls of `stop_gradient` are constants (their values at the given variables): no more and no less. In particular, gradients are zero when all dependencies pass through `stop_gradient`, and arguments that ops require to be constant (axes, shapes, indices) may be results of `stop_gradient`.", "quantifier": "All programs with any number of calls of stop_gradient (also nested, and applied to parts of products), all shapes and values.", "why_tests_cant": "A test checks one program with one `stop_gradient`, mostly that some gradient is zero. A value that also flows through another path needs the exact part of the derivative; gradient checks by finite differences fail there by design, since they do not hold the argument.", "anchors": ["src/tensor_ops/gradient_ops.rs:4-16", "src/tensor_ops/mod.rs:238-253", "src/gradient.rs:20-247", "src/op.rs:349-434"]}
{"id": "C77", "title": "The MNIST examples train on the samples of the files", "statement": "From files in IDX format, `mnist_data::load` returns the images as rows with pixels divided by 255, and the labels as a column; files of another format or files that are too short are rejected. In each epoch the training loops pass every sample exactly once, together with its own label, in batches whose order is drawn anew in each epoch.", "quantifier": "All files, numbers of images, batch sizes, numbers of epochs and shuffles.", "why_tests_cant": "There are no tests of the examples; the data files are not in the repository. Truncated files, a wrong pairing of samples and labels, or samples that are never used only show as a slightly lower accuracy.", "anchors": ["examples/mnist_data.rs:15-72", "examples/mlp_mnist.rs:44-72", "examples/cnn_mnist.rs:60-94", "src/ndarray_ext.rs:251-253"]}
{"id": "C78", "title": "The example mlp_mnist trains a linear classifier with Adam on the samples of the files and prints its test accuracy", "statement": "From files of training and test images, `main` of the example `mlp_mnist` runs without a panic, performs for each batch of 200 training images one step of Adam with the exact gradient of the mean cross entropy of the linear classifier on these images, and prints the fraction of test images whose label is the class with the greatest score.", "quantifier": "All contents of the files and numbers of images, all initial weights, shuffles and processing orders.", "why_tests_cant": "The example is not run by the tests, as the data are not in the repository. Even where it is run, a wrong gradient, a wrong pairing or a wrong step of Adam still trains to a plausible accuracy.", "anchors": ["examples/mlp_mnist.rs:38-110", "examples/mnist_data.rs:15-72", "src/optimizers/adam.rs:58-154", "src/gradient.rs:20-247", "src/evaluation.rs:252-454"]}
{"id": "C79", "title": "The example cnn_mnist trains a convolutional network with Adam on the samples of the files and prints the mean losses and its test accuracy", "statement": "From files of training and test images, `main` of the example `cnn_mnist` runs without a panic, performs for each batch of 128 training images one step of Adam with the exact gradient of the mean cross entropy of the network on these images with the dropout masks of the step, prints after each of five epochs the mean of the losses of its steps, and in the end the fraction of test images whose label is the class with the greatest score of the network without random dropout.", "quantifier": "All contents of the files and numbers of images, all initial weights, drawn masks, shuffles and processing orders, as long as the network is differentiable at the weights reached.", "why_tests_cant": "The example is not run by the tests, as the data are not in the repository. Even where it is run, a wrong gradient, a wrong pairing or a wrong step of Adam still trains to a plausible accuracy.", "anchors": ["examples/cnn_mnist.rs:36-143", "examples/mnist_data.rs:15-72", "src/optimizers/adam.rs:58-154", "src/optimizers/mod.rs:21-98", "src/gradient.rs:20-247", "src/evaluation.rs:330-560"]}
