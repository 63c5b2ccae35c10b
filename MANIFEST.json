{
 "claims": [
  {
   "property": "C01",
   "status": "proved",
   "theorems": [
    "Verif.Props.C01_handles_stable",
    "Verif.Props.C01_created_is_fresh",
    "Verif.Props.C01_handles_distinct"
   ],
   "note": "Every history of graph construction calls."
  },
  {
   "property": "C02",
   "status": "proved",
   "theorems": [
    "Verif.Props.C02_ranks_and_acyclic",
    "Verif.Props.C02_rank_exact",
    "Verif.Props.C02_depends_on_iff",
    "Verif.Props.C02_acyclic_iff_safe_history"
   ],
   "note": "Every history; exact criterion for depends_on."
  },
  {
   "property": "C14",
   "status": "proved",
   "theorems": [
    "Verif.Props.C14_variable_tensor_unique",
    "Verif.Props.C14_lookups_agree"
   ],
   "note": "Every reachable graph, including after clear."
  },
  {
   "property": "C03",
   "status": "proved",
   "theorems": [
    "Verif.Props.C03_terminates",
    "Verif.Props.C03_cycle_never_returns",
    "Verif.Props.C03_panic_causes"
   ],
   "note": "Fuel bound for every acyclic reachable graph; no fuel suffices on a cycle below a target; every panic has one of the listed causes."
  },
  {
   "property": "C04",
   "status": "proved",
   "theorems": [
    "Verif.Props.C04_needed_exactly_once"
   ],
   "note": "Every evaluation that returns."
  },
  {
   "property": "C05",
   "status": "proved",
   "theorems": [
    "Verif.Props.C05_topological_order"
   ],
   "note": "Every evaluation that returns."
  },
  {
   "property": "C06",
   "status": "proved",
   "theorems": [
    "Verif.Props.C06_results_are_meanings",
    "Verif.Props.C06_total",
    "Verif.Props.C06_independent"
   ],
   "note": "Partial correctness, totality and independence of the other targets."
  },
  {
   "property": "C07",
   "status": "partial",
   "theorems": [
    "Verif.Props.C07_request_order_partial",
    "Verif.Props.C07_repeated_target_violated"
   ],
   "note": "Holds for distinct op targets; the code panics when an op tensor is requested twice (witness)."
  },
  {
   "property": "C08",
   "status": "partial",
   "theorems": [
    "Verif.Props.C08_errors_reach_dependents",
    "Verif.Props.C08_called_iff_no_failure_below",
    "Verif.Props.C08_first_failing_input",
    "Verif.Props.C08_debug_build_violated"
   ],
   "note": "Holds in release builds; in debug builds an op that fails before appending an output panics instead (witness)."
  },
  {
   "property": "C09",
   "status": "proved",
   "theorems": [
    "Verif.Props.C09_variable_frame"
   ],
   "note": "Every evaluation that returns."
  },
  {
   "property": "C11",
   "status": "proved",
   "theorems": [
    "Verif.Props.C11_op_inputs_are_first_feeds",
    "Verif.Props.C11_target_is_first_feed",
    "Verif.Props.C11_unrelated_feed_ignored",
    "Verif.Props.C11_same_name_same_value",
    "Verif.Props.C03_panic_causes",
    "Verif.Props.C12_accepted_exactly"
   ],
   "note": "First matching feed, for op inputs and for requested placeholders."
  },
  {
   "property": "C12",
   "status": "proved",
   "theorems": [
    "Verif.Props.C12_declaration",
    "Verif.Props.C12_declaration_succeeds",
    "Verif.Props.C12_accepted_exactly"
   ],
   "note": "Exact acceptance condition."
  },
  {
   "property": "C13",
   "status": "partial",
   "theorems": [
    "Verif.Props.C13_runs_after_dependencies_partial",
    "Verif.Props.C13_values_unchanged_partial",
    "Verif.Props.C13_other_inputs_violated",
    "Verif.Props.C13_selected_output_violated",
    "Verif.Props.C13_assign_violated"
   ],
   "note": "The op itself runs after the dependencies and values are kept in the stated cases; other inputs are evaluated before the dependencies, selected first outputs and mutable first inputs make evaluation panic (witnesses)."
  },
  {
   "property": "C18",
   "status": "proved",
   "theorems": [
    "Verif.Props.C18_grad_with_default_exact",
    "Verif.Props.C18_grad_exact",
    "Verif.Props.C18_movements_exist",
    "Verif.Props.C18_graphs_are_dags"
   ],
   "note": "For every graph, every Op::grad that is the adjoint of the op's linearisation, every tie-breaking of the priority queue."
  },
  {
   "property": "C19",
   "status": "proved",
   "theorems": [
    "Verif.Props.C19_grad_is_derivative",
    "Verif.Props.C19_variation_exists",
    "Verif.Props.C19_evaluated_gradient"
   ],
   "note": "Scalar graphs of real ops with correct partial derivatives; floating point rounding is not modelled."
  },
  {
   "property": "C20",
   "status": "partial",
   "theorems": [
    "Verif.Props.C20_interior_partial",
    "Verif.Props.C20_interior_violated",
    "Verif.Props.C20_repeated_violated"
   ],
   "note": "Exact for intermediate tensors used once; wrong for intermediate tensors used more than once and for repeated xs (witnesses)."
  },
  {
   "property": "C21",
   "status": "partial",
   "theorems": [
    "Verif.Props.C21_grad_with_default_total_partial",
    "Verif.Props.C21_grad_total_partial",
    "Verif.Props.C21_no_gradient_violated"
   ],
   "note": "Zeros for unreachable xs, all causes of panics characterised; panics on differentiable ops that return no gradient (witness)."
  },
  {
   "property": "C22",
   "status": "partial",
   "theorems": [
    "Verif.Props.C22_additive_partial",
    "Verif.Props.C22_repeated_violated"
   ],
   "note": "Additivity for distinct objectives; wrong when grad_with_default gets an objective twice (witness)."
  },
  {
   "property": "C23",
   "status": "proved",
   "theorems": [
    "Verif.Props.C23_once_consumers_first",
    "Verif.Props.C23_grad_once_consumers_first"
   ],
   "note": "Every run."
  },
  {
   "property": "C15",
   "status": "proved",
   "theorems": [
    "Verif.Props.C15_registration_id",
    "Verif.Props.C15_lookup_by_id",
    "Verif.Props.C15_lookup_by_name",
    "Verif.Props.C15_iteration"
   ],
   "note": "Every history of registrations and in-place updates."
  },
  {
   "property": "C16",
   "status": "proved",
   "theorems": [
    "Verif.Props.C16_registration_isolated",
    "Verif.Props.C16_update_isolated",
    "Verif.Props.C16_listing",
    "Verif.Props.C16_namespace_iteration",
    "Verif.Props.C16_variable_by_name"
   ],
   "note": "Every history, every iteration order of the hash map. An update through an id of another namespace is possible in the API (get_array_by_id) and is not an update of this namespace."
  },
  {
   "property": "C17",
   "status": "partial",
   "theorems": [
    "Verif.Props.C17_save_load_iff",
    "Verif.Props.C17_save_load_partial",
    "Verif.Props.C17_violated",
    "Verif.Props.C17_undecodable"
   ],
   "note": "Exact condition: the environment comes back iff no namespace or name contains U+0001 (witness for the failure). The JSON text format is an assumption about arrays."
  },
  {
   "property": "C46",
   "status": "proved",
   "theorems": [
    "Verif.Props.C46_adam_fresh_state",
    "Verif.Props.C46_single_fresh_state",
    "Verif.Props.C46_creation_succeeds",
    "Verif.Props.C46_state_not_shared",
    "Verif.Props.C46_namespaces_independent",
    "Verif.Props.C46_same_namespace_shares"
   ],
   "note": "Every environment with a history, every list of parameters and every namespace."
  },
  {
   "property": "C24",
   "status": "partial",
   "theorems": [
    "Verif.Props.C24_accepts_iff_partial",
    "Verif.Props.C24_add_partial",
    "Verif.Props.C24_mul_partial",
    "Verif.Props.C24_sub",
    "Verif.Props.C24_div_partial",
    "Verif.Props.C24_incompatible",
    "Verif.Props.C24_inferred_shape_partial",
    "Verif.Props.C24_div_violated",
    "Verif.Props.C24_empty_violated",
    "Verif.Props.C24_inferred_shape_violated"
   ],
   "note": "Exact elementwise broadcasting for all shapes and values; C24_accepts_iff_partial says for all operands which are accepted by each of the four ops, and that all others panic; division by an array of shape [1] and operands of shape [0] panic, and the shape inference disagrees for different ranks (witnesses)."
  },
  {
   "property": "C25",
   "status": "partial",
   "theorems": [
    "Verif.Props.C25_add_partial",
    "Verif.Props.C25_sub_partial",
    "Verif.Props.C25_mul_partial",
    "Verif.Props.C25_div_partial",
    "Verif.Props.C25_broadcast",
    "Verif.Props.C25_violated",
    "Verif.Props.C25_wrong_axis_violated"
   ],
   "note": "Adjointness for operands that are scalars or have the rank of the result; for operands of lower rank the gradient panics or is silently wrong (summed over the wrong axis), see the witnesses."
  },
  {
   "property": "C26",
   "status": "partial",
   "theorems": [
    "Verif.Props.C26_sum_partial",
    "Verif.Props.C26_prod_partial",
    "Verif.Props.C26_min_partial",
    "Verif.Props.C26_max_partial",
    "Verif.Props.C26_mean_partial",
    "Verif.Props.C26_violated",
    "Verif.Props.C26_all_empty_violated"
   ],
   "note": "All shapes, axes lists and strides; the empty vector (shape [0]) is returned unreduced (witness, and for every empty vector C26_all_empty_violated)."
  },
  {
   "property": "C27",
   "status": "partial",
   "theorems": [
    "Verif.Props.C27_sum_partial",
    "Verif.Props.C27_mean_partial",
    "Verif.Props.C27_sum_all",
    "Verif.Props.C27_layout_violated",
    "Verif.Props.C27_mean_noaxes_violated",
    "Verif.Props.C27_all_layouts_violated",
    "Verif.Props.C27_mean_noaxes_all_violated",
    "Verif.Props.C27_sizes_are_gathered"
   ],
   "note": "Adjointness for all shapes and axes; incoming gradients in non-contiguous layouts and the mean over no axes panic (witnesses). C27_all_layouts_violated: every non-contiguous incoming gradient panics when dimensions are not kept. C27_mean_noaxes_all_violated: over no axes the gradient of the mean panics for every array. C27_sizes_are_gathered: the model of the sizes that the mean divides by agrees with the model of Gather (C33)."
  },
  {
   "property": "C48",
   "status": "partial",
   "theorems": [
    "Verif.Props.C48_violated",
    "Verif.Props.C48_partial"
   ],
   "note": "The code violates the property for every input: the reported gradient always has the wrong shape (proved for all shapes and non-empty axes). The remaining part (elements, empty axes) is proved."
  },
  {
   "property": "C49",
   "status": "partial",
   "theorems": [
    "Verif.Props.C49_prod_partial",
    "Verif.Props.C49_min_partial",
    "Verif.Props.C49_max_partial",
    "Verif.Props.C49_prod_violated",
    "Verif.Props.C49_all_zeros_violated",
    "Verif.Props.C49_all_layouts_violated"
   ],
   "note": "All shapes and axes; the product gradient is wrong at zeros (witness, and in general for every element that is the only zero of its product). The gradients of minimum and maximum panic for all incoming gradients that are not contiguous, when dimensions are not kept (C49_all_layouts_violated)."
  },
  {
   "property": "C50",
   "status": "partial",
   "theorems": [
    "Verif.Props.C50_accepts_iff_partial",
    "Verif.Props.C50_partial",
    "Verif.Props.C50_scalar_partial",
    "Verif.Props.C50_violated"
   ],
   "note": "First operand broadcast to the second, or scalars; the other order panics (witness). C50_accepts_iff_partial says for all operands with elements which are accepted, and that all others panic. The functions of the six comparisons in programs are given by Compares in Spec/Calls (C61)."
  },
  {
   "property": "C51",
   "status": "partial",
   "theorems": [
    "Verif.Props.C51_partial",
    "Verif.Props.C51_minimum_partial",
    "Verif.Props.C51_all_ties_violated",
    "Verif.Props.C51_all_broadcasts_violated",
    "Verif.Props.C51_tie_violated",
    "Verif.Props.C51_broadcast_violated"
   ],
   "note": "Operands of the same shape that differ, for maximum and minimum; wrong at all ties (both operands get the whole gradient) and for every first operand that is broadcast (wrong shape), proved in general and by witnesses."
  },
  {
   "property": "C28",
   "status": "partial",
   "theorems": [
    "Verif.Props.C28_argmax_partial",
    "Verif.Props.C28_argmin_partial",
    "Verif.Props.C28_wrong_violated",
    "Verif.Props.C28_panic_violated",
    "Verif.Props.C28_layout_violated"
   ],
   "note": "Proved for axis 0 of row-major arrays of any rank and for every axis of contiguous arrays of rank at most two; missing: the other axes and layouts, where the code is wrong (axis rotation wrong for axis >= 2, panic for rank 3 axis 1, result depends on the memory layout: witnesses)."
  },
  {
   "property": "C29",
   "status": "proved",
   "theorems": [
    "Verif.Props.C29_reshape",
    "Verif.Props.C29_never_wrong",
    "Verif.Props.C29_incompatible",
    "Verif.Props.C29_flatten",
    "Verif.Props.C29_back",
    "Verif.Props.C29_gradient"
   ],
   "note": "All shapes, targets with at most one -1 and all memory layouts."
  },
  {
   "property": "C30",
   "status": "partial",
   "theorems": [
    "Verif.Props.C30_transpose",
    "Verif.Props.C30_wrong_length",
    "Verif.Props.C30_not_permutation",
    "Verif.Props.C30_gradient_inverse",
    "Verif.Props.C30_gradient",
    "Verif.Props.C30_second_gradient",
    "Verif.Props.C30_debug_build_violated"
   ],
   "note": "All permutations and layouts in release builds, where the unchecked writes behind the length of a Vec are taken as plain writes; with the checks of debug builds on get_unchecked_mut the op always panics (witness theorem)."
  },
  {
   "property": "C31",
   "status": "partial",
   "theorems": [
    "Verif.Props.C31_concat",
    "Verif.Props.C31_concat_incompatible",
    "Verif.Props.C31_split",
    "Verif.Props.C31_split_concat",
    "Verif.Props.C31_split_gradient",
    "Verif.Props.C31_concat_gradient_partial",
    "Verif.Props.C31_concat_gradient_always_begin",
    "Verif.Props.C31_concat_gradient_violated",
    "Verif.Props.C31_concat_gradient_shape_violated"
   ],
   "note": "Forward ops and the gradient of split in full; the gradient of concat is right only for parts that start at offset 0: the other parts get the wrong block (proved in general and by witnesses)."
  },
  {
   "property": "C32",
   "status": "proved",
   "theorems": [
    "Verif.Props.C32_slice",
    "Verif.Props.C32_out_of_range",
    "Verif.Props.C32_gradient_elements",
    "Verif.Props.C32_gradient"
   ],
   "note": "All shapes and bounds."
  },
  {
   "property": "C33",
   "status": "partial",
   "theorems": [
    "Verif.Props.C33_gather_common_partial",
    "Verif.Props.C33_gather_partial",
    "Verif.Props.C33_out_of_range",
    "Verif.Props.C33_gradient_elements_partial",
    "Verif.Props.C33_gradient_partial",
    "Verif.Props.C33_layout_violated",
    "Verif.Props.C33_empty_violated",
    "Verif.Props.C33_gradient_axis_violated",
    "Verif.Props.C33_gradient_index_violated",
    "Verif.Props.C33_gradient_index_all_violated",
    "Verif.Props.C33_gradient_layout_violated"
   ],
   "note": "All shapes, repeated and negative indices for non-empty index arrays; the gradient for non-negative axes, indices other than -1 and row-major incoming gradients; the remaining cases panic or are wrong (witnesses; for all index arrays with -1, all negative axes of the gradient and all empty index arrays in general)."
  },
  {
   "property": "C35",
   "status": "partial",
   "theorems": [
    "Verif.Props.C35_tile",
    "Verif.Props.C35_zero",
    "Verif.Props.C35_gradient_partial",
    "Verif.Props.C35_gradient_violated"
   ],
   "note": "Forward in full; the gradient has the wrong shape for every n other than 1 (proved for all inputs)."
  },
  {
   "property": "C34",
   "status": "partial",
   "theorems": [
    "Verif.Props.C34_expand_partial",
    "Verif.Props.C34_expand_out_of_range",
    "Verif.Props.C34_squeeze_partial",
    "Verif.Props.C34_squeeze_one",
    "Verif.Props.C34_squeeze_not_one",
    "Verif.Props.C34_roundtrip_partial",
    "Verif.Props.C34_expand_negative_violated",
    "Verif.Props.C34_expand_negative_all_violated",
    "Verif.Props.C34_expand_layout_violated",
    "Verif.Props.C34_squeeze_negative_violated",
    "Verif.Props.C34_squeeze_other_violated"
   ],
   "note": "All shapes and lists of non-negative axes in any order (expand_dims: contiguous inputs), single negative axes of squeeze; negative axes of expand_dims and several axes with negative ones in squeeze go wrong (witnesses; C34_expand_negative_all_violated says for every single negative axis what expand_dims returns), non-contiguous inputs of expand_dims always panic."
  },
  {
   "property": "C52",
   "status": "partial",
   "theorems": [
    "Verif.Props.C52_access_partial",
    "Verif.Props.C52_out_of_range",
    "Verif.Props.C52_gradient_partial",
    "Verif.Props.C52_layout_violated",
    "Verif.Props.C52_panic_violated"
   ],
   "note": "Row-major inputs; column-major inputs give another element, other layouts always panic (witnesses)."
  },
  {
   "property": "C53",
   "status": "partial",
   "theorems": [
    "Verif.Props.C53_add_n_partial",
    "Verif.Props.C53_accepts_iff_partial",
    "Verif.Props.C53_gradient_partial",
    "Verif.Props.C53_broadcast_violated"
   ],
   "note": "Inputs of the same shape, any number; C53_accepts_iff_partial says for all shapes which inputs are accepted, that these are added elementwise, and that all others panic; different shapes panic or get gradients of the wrong shape (witnesses)."
  },
  {
   "property": "C54",
   "status": "partial",
   "theorems": [
    "Verif.Props.C54_expand_gradient_partial",
    "Verif.Props.C54_squeeze_gradient_partial",
    "Verif.Props.C54_squeeze_gradient_violated",
    "Verif.Props.C54_expand_gradient_violated",
    "Verif.Props.C54_expand_negative_all_violated",
    "Verif.Props.C54_squeeze_negative_all_violated",
    "Verif.Props.C54_transposed_gradient_violated",
    "Verif.Props.C54_layout_gradient_violated"
   ],
   "note": "All shapes and non-negative axes (contiguous arrays); negative axes give the wrong shape or panic (witnesses; for every single negative axis in general, unless the neighbouring dimension is 1). Incoming gradients that are not contiguous make the gradient of squeeze panic: a squeeze followed by a transpose of three dimensions, or by elu or clip for a variable with permuted axes (witnesses, for every incoming gradient)."
  },
  {
   "property": "C36",
   "status": "partial",
   "theorems": [
    "Verif.Props.C36_gradient_partial",
    "Verif.Props.C36_no_gradient",
    "Verif.Props.C36_forward",
    "Verif.Props.C36_shape_one_violated",
    "Verif.Props.C36_shape_zero_violated",
    "Verif.Props.C36_pow_zero_violated"
   ],
   "note": "All thirty differentiable elementwise ops, all shapes, all real inputs at which the function is differentiable (real analysis, no rounding). Shapes [1] and [0] panic for the five ops whose gradient divides arrays, and pow(x, 0) at zero is NaN (witnesses). lgamma and digamma are not modelled."
  },
  {
   "property": "C37",
   "status": "partial",
   "theorems": [
    "Verif.Props.C37_softmax",
    "Verif.Props.C37_shift_invariant",
    "Verif.Props.C37_no_overflow",
    "Verif.Props.C37_softmax_gradient",
    "Verif.Props.C37_logsumexp_keep",
    "Verif.Props.C37_logsumexp_keep_gradient",
    "Verif.Props.C37_log_softmax",
    "Verif.Props.C37_log_softmax_gradient_partial",
    "Verif.Props.C37_out_of_range",
    "Verif.Props.C37_logsumexp_drop_partial",
    "Verif.Props.C37_logsumexp_drop_gradient_partial",
    "Verif.Props.C37_logsumexp_axis_violated",
    "Verif.Props.C37_log_softmax_gradient_violated"
   ],
   "note": "softmax and its gradient, log_softmax, and reduce_logsumexp with keep_dim and its gradient: all shapes, axes and real values. The gradient of log_softmax is right for axis 1 only, reduce_logsumexp without keep_dim (value and gradient) for the first axis only (witnesses); the latter without arrays of shape [n, 0]."
  },
  {
   "property": "C38",
   "status": "partial",
   "theorems": [
    "Verif.Props.C38_sigmoid",
    "Verif.Props.C38_sigmoid_gradient_partial",
    "Verif.Props.C38_sigmoid_shape_violated",
    "Verif.Props.C38_sigmoid_target_gradient_violated",
    "Verif.Props.C38_sparse",
    "Verif.Props.C38_sparse_gradient",
    "Verif.Props.C38_sparse_bad_label",
    "Verif.Props.C38_sparse_bad_shape",
    "Verif.Props.C38_sparse_extra_labels",
    "Verif.Props.C38_sparse_few_labels",
    "Verif.Props.C38_sparse_label_gradient_violated",
    "Verif.Props.C38_softmax_partial",
    "Verif.Props.C38_softmax_shape_violated",
    "Verif.Props.C38_softmax_gradient_partial",
    "Verif.Props.C38_softmax_gradient_panic_violated",
    "Verif.Props.C38_softmax_gradient_violated",
    "Verif.Props.C38_softmax_target_gradient_violated"
   ],
   "note": "Values of all three losses for all sizes and real inputs; gradients for the logits of the sigmoid loss (all shapes but [0] and [1]) and of the sparse loss. The gradient of softmax_cross_entropy for the logits is right for one row only: for other batch sizes it panics or is wrong (witnesses). The gradients reported for targets and labels are wrong (witnesses). More labels than rows are accepted (C38_sparse_extra_labels), fewer panic."
  },
  {
   "property": "C39",
   "status": "partial",
   "theorems": [
    "Verif.Props.C39_matmul",
    "Verif.Props.C39_matmul_inner",
    "Verif.Props.C39_matmul_rank_violated",
    "Verif.Props.C39_matmul_gradient",
    "Verif.Props.C39_flags_violated",
    "Verif.Props.C39_flags_square_violated",
    "Verif.Props.C39_batch_partial",
    "Verif.Props.C39_batch_gradient_partial",
    "Verif.Props.C39_batch_shapes",
    "Verif.Props.C39_batch_rank_two_violated",
    "Verif.Props.C39_batch_inner_violated",
    "Verif.Props.C39_batch_copy_violated",
    "Verif.Props.C39_batch_gap_violated",
    "Verif.Props.C39_batch_flags_violated"
   ],
   "note": "matmul: all sizes, layouts and flags, gradients without flags. The gradients ignore the flags, so that the second derivatives of matmul fail for all non-square sizes and are wrong for square ones (proved in general and by a witness). batch_matmul: all batch shapes and positive sizes when the batch axes are row-major without gaps; other layouts give wrong products, rank two panics, inner sizes are not checked (witnesses). Missing: empty batched operands."
  },
  {
   "property": "C40",
   "status": "proved",
   "theorems": [
    "Verif.Props.C40_tensordot",
    "Verif.Props.C40_incompatible",
    "Verif.Props.C40_repeated",
    "Verif.Props.C40_equal_products",
    "Verif.Props.C40_gradient"
   ],
   "note": "All ranks, shapes, memory layouts and lists of distinct axes; gradients as adjoints. As in C30 the unchecked writes of transpose are taken as plain writes. The paired sizes are only compared by their product: different sizes with equal products are accepted, C40_equal_products says what is computed (outside the property)."
  },
  {
   "property": "C42",
   "status": "partial",
   "theorems": [
    "Verif.Props.C42_forward_partial",
    "Verif.Props.C42_padding_violated",
    "Verif.Props.C42_padding_debug_violated",
    "Verif.Props.C42_infinity_violated",
    "Verif.Props.C42_gradient_partial",
    "Verif.Props.C42_gradient_shape_violated",
    "Verif.Props.C42_gradient_write_violated"
   ],
   "note": "Forward: all sizes, layouts, windows and strides; with padding only the windows that do not reach into the padding at the top or left (release builds): all others give the lowest finite number, debug builds panic. Gradient and second gradient: no padding, strides that divide evenly; otherwise the shape is always wrong and the code writes outside of the array (witness). Positions are exact numbers in the model (the code stores them as floats)."
  },
  {
   "property": "C41",
   "status": "partial",
   "theorems": [
    "Verif.Props.C41_forward",
    "Verif.Props.C41_filter_gradient",
    "Verif.Props.C41_input_gradient_partial",
    "Verif.Props.C41_transpose",
    "Verif.Props.C41_with_cols",
    "Verif.Props.C41_transpose_gradient_partial",
    "Verif.Props.C41_input_gradient_violated",
    "Verif.Props.C41_debug_violated",
    "Verif.Props.C41_no_images_violated",
    "Verif.Props.C41_transpose_gradient_violated",
    "Verif.Props.C41_transpose_layout_violated",
    "Verif.Props.C41_documented_size_violated"
   ],
   "note": "Forward, filter gradient and transposed convolution: all geometries (sizes below 2^31) and layouts. The input gradient is exact when the stride divides evenly; otherwise its shape is always wrong (proved), and in debug builds it panics when the filter exceeds the unpadded image. The filter gradient of the transposed convolution is wrong for several non-square images and for layouts that are not row-major (witnesses). Without images the filter gradient is uninitialised memory. The documented size of the transposed convolution is wrong for every padding."
  },
  {
   "property": "C44",
   "status": "proved",
   "theorems": [
    "Verif.Props.C44_sgd",
    "Verif.Props.C44_momentum",
    "Verif.Props.C44_adagrad",
    "Verif.Props.C44_adam",
    "Verif.Props.C44_update",
    "Verif.Props.C44_update_sgd",
    "Verif.Props.C44_update_is_step",
    "Verif.Props.C44_step_succeeds"
   ],
   "note": "All histories, shapes, gradients and hyper-parameters, over any field (no rounding; powf on natural exponents is assumed to be the power). The link to Optimizer::update assumes distinct parameters, none of which is itself a state variable of the optimizer, and gradients without side effects. AdaGrad succeeds only if the gradient has exactly the shape of the parameter, the others broadcast it."
  },
  {
   "property": "C45",
   "status": "partial",
   "theorems": [
    "Verif.Props.C45_gradients_before_step_partial",
    "Verif.Props.C45_single_parameter_partial",
    "Verif.Props.C45_sgd_step_partial",
    "Verif.Props.C45_execution_order_partial",
    "Verif.Props.C45_update_violated",
    "Verif.Props.C45_order_violated"
   ],
   "note": "False in general (witness y = w1 * w2): updates run one after the other while gradients are evaluated lazily in between, so a gradient may see parameters that were already updated. Proved when every gradient op reading an updated variable is also below the update of this variable, in particular for a single parameter; and, with the order of execution of C65, when every op that reads an updated variable is executed before the update because an earlier update needs it too. The result can depend on the order in which the parameters are listed (witness: right in one order, wrong in the other)."
  },
  {
   "property": "C47",
   "status": "proved",
   "theorems": [
    "Verif.Props.C47_assign",
    "Verif.Props.C47_assign_called",
    "Verif.Props.C47_assign_succeeds"
   ],
   "note": "All graphs, variables and values. assign(..) with control dependencies panics (C13_assign_violated)."
  },
  {
   "property": "C10",
   "status": "partial",
   "theorems": [
    "Verif.Props.C10_snapshot",
    "Verif.Props.C10_states",
    "Verif.Props.C10_no_dangling_input",
    "Verif.Props.C10_equivalence_partial",
    "Verif.Props.C10_single_target",
    "Verif.Props.C10_siblings_violated"
   ],
   "note": "Memory model with views, in-place writes and freed arrays: all graphs, interleavings and target lists during the evaluation. What is returned is readable unless a target is a view of a further (second, third, ...) output of another target; then freed memory is read (witness; needs the hidden function nth_tensor)."
  },
  {
   "property": "C43",
   "status": "partial",
   "theorems": [
    "Verif.Props.C43_shape_partial",
    "Verif.Props.C43_eval_partial",
    "Verif.Props.C43_arithmetic_rule",
    "Verif.Props.C43_flatten_violated",
    "Verif.Props.C43_placeholder_violated",
    "Verif.Props.C43_rank_violated",
    "Verif.Props.C43_empty_violated",
    "Verif.Props.C43_flatten_gradient_violated",
    "Verif.Props.C43_concat_gradient_violated",
    "Verif.Props.C43_gather_gradient_violated"
   ],
   "note": "All sequences of constructor calls whose ops have the shape recorded for them; flatten, placeholders with an unknown later dimension, and arithmetic on operands of different rank or with an empty dimension record a wrong shape (witnesses). The gradients of concat and gather also record the shape of the wrong tensor (witnesses)."
  },
  {
   "property": "C55",
   "status": "partial",
   "theorems": [
    "Verif.Props.C55_gradient_of_program_partial",
    "Verif.Props.C55_partial_derivatives_partial"
   ],
   "note": "Composes the graph, the constructors with their shape tensors, the array functions, Op::grad, back-propagation (C18) and the evaluator (C06): for all programs of the 38 kinds of calls of Model/Program (variables, placeholders, constants, scalars, zeros, ones, add, sub, mul, div, 30 elementwise functions, matmul without flags, sum_all, reduce_sum, reduce_mean, add_n, softmax, log_softmax, sigmoid_cross_entropy, sparse_softmax_cross_entropy with its second output, slice, squeeze, reshape, gather, expand_dims, conv2d, max_pool2d, dropout, argmax, the six comparisons (equal, not_equal, greater, lesser, greater_equal, lesser_equal), identity, shape, size, transpose, register_hook, maximum and minimum, reduce_max and reduce_min; stop_gradient of tensors that do not depend on the xs, otherwise see C76) and all real values (expand_dims, argmax and the comparisons only where they do not depend on the differentiated tensors). Excluded are, for calls that depend on the differentiated tensors, those at which earlier properties show the code to be wrong or the function not to be differentiable (StmtOk): see C25, C26, C36, C37, C38, C41, C42, C43, C49, C51, C53, C56 (maximum, reduce_max and the like: where the extremum is attained only once; max_pool2d: several positions of a window may have its maximum only where the derivative is zero, as after relu); calls that do not depend on them (Still: data, shapes, constants, masks) are unrestricted. Assumes that grad returns (see C58) and that all tensors have values. Missing: further ops, stop_gradient."
  },
  {
   "property": "C56",
   "status": "partial",
   "theorems": [
    "Verif.Props.C56_random_array",
    "Verif.Props.C56_bad_shape",
    "Verif.Props.C56_fresh_draws",
    "Verif.Props.C56_dropout_train",
    "Verif.Props.C56_dropout_test",
    "Verif.Props.C56_test_is_mean",
    "Verif.Props.C56_dropout_gradient",
    "Verif.Props.C56_mask_shared",
    "Verif.Props.C56_evaluation_draws",
    "Verif.Props.C56_test_gradient_violated",
    "Verif.Props.C56_default_seed_violated",
    "Verif.Props.C56_glorot_partial",
    "Verif.Props.C56_glorot_violated"
   ],
   "note": "All shapes, ratios, generators, graphs and evaluations. Outside of training the gradient reads an output that does not exist and can never be evaluated; layers with default generators use the same seed and hence the same mask; the Glorot scale ignores the number of columns (all proved in general). Missing: the distributions themselves (rand crate) and the conversion from f64."
  },
  {
   "property": "C57",
   "status": "partial",
   "theorems": [
    "Verif.Props.C57_truncated",
    "Verif.Props.C57_difference_partial",
    "Verif.Props.C57_fractions_violated",
    "Verif.Props.C57_layout_violated"
   ],
   "note": "Arrays of integers in row-major layout, all sizes and iteration orders. Other numbers are truncated (witness), other layouts panic (proved in general). Missing: numbers beyond the range of isize."
  },
  {
   "property": "C59",
   "status": "proved",
   "theorems": [
    "Verif.Props.C59_classifier"
   ],
   "note": "For the model of the calls in examples/mlp_mnist.rs:72-79 (classifier in Model/Classifier; README.md:68-75 has the same calls with the placeholders first), over the real numbers: the graph is built, grad returns two tensors for every order of tensors of equal rank, and for every data set (Dataset in Spec/Classifier) and all variables of fitting shapes the evaluator returns the mean cross entropy and its partial derivatives. Assumes that sum_axis of ndarray lays out the n row sums as a vector without gaps; floating point is not modelled; for the updates by an optimizer see C60."
  },
  {
   "property": "C60",
   "status": "proved",
   "theorems": [
    "Verif.Props.C60_training"
   ],
   "note": "For the model of the training loop (iteration, training in Model/TrainLoop) over the real numbers, for each of the four optimizers and every list of mini-batches that are data sets in the sense of Spec/Classifier: no panic, gradients at the variables before the step, and the recurrences of Spec/Optimizers for every element. The number of loop iterations allowed inside grad and eval is any number above a bound that does not depend on the data. Assumes that sum_axis of ndarray lays out the n row sums as a vector without gaps; floating point is not modelled."
  },
  {
   "property": "C58",
   "status": "partial",
   "theorems": [
    "Verif.Props.C58_grad_returns_partial",
    "Verif.Props.C58_small_returns_partial",
    "Verif.Props.C58_sign_violated"
   ],
   "note": "For all programs of the 38 kinds of calls of Model/Program, all choices among tensors of equal rank and all variables and placeholders, independent of any values: given enough loop iterations grad returns or the graph has become too large (never for programs of up to 3900 calls, C58_small_returns_partial); no index is out of range, no gradient is missing. Violated: the objective may not depend on the parameters through sign, the axes of a reduction or of squeeze, the shapes and indices given to reshape, gather, zeros and ones, the axes of expand_dims, or argmax and equal, for which no gradient is reported (grad panics; witness sign). Missing: further ops."
  },
  {
   "property": "C61",
   "status": "partial",
   "theorems": [
    "Verif.Props.C61_values_partial",
    "Verif.Props.C61_gradients_partial",
    "Verif.Props.C61_feeds"
   ],
   "note": "For all programs of the 38 kinds of calls of Model/Program (transpose of at most two dimensions where it is differentiated). The function denoted by a program is defined in Spec/Calls without graphs or evaluation. The conditions (StmtOk, GradGivenFor in Spec/Program) only concern calls whose recorded shape would be wrong (values) or which depend on the differentiated variables (Fixed in Spec/Calls) where earlier properties show the code to be wrong or the function not to be differentiable. The gradient theorem leaves the case that the graph gets larger than the limit, which is impossible for programs of up to about 3900 calls. The two theorems are about feeds given by name; C61_feeds extends them to all feeds, by tensor or by name, that give each placeholder the same array. Missing: further ops; placeholders with unknown dimensions after the first (violated, C43); two placeholders of the same name that are fed differently (by tensor)."
  },
  {
   "property": "C62",
   "status": "partial",
   "theorems": [
    "Verif.Props.C62_values_partial",
    "Verif.Props.C62_differentiable_partial",
    "Verif.Props.C62_returns_partial",
    "Verif.Props.C62_readme",
    "Verif.Props.C62_abs_violated",
    "Verif.Props.C62_elu_clip_violated"
   ],
   "note": "For all programs of variables, placeholders, constants, scalars, add, sub, mul, div, the elementwise functions, sum_all, add_n, size, identity and any number of calls of grad (nested to any depth) with respect to different variables and placeholders, at all points where the functions are smooth: every result evaluates to the array of Spec/HigherOrder, where grad means the partial derivatives of calculus (shown to exist). README.md:22-46 is an instance (x and y are fed in all evaluations, while the README feeds only what is needed). Violated: the second gradient of abs, elu and clip panics (sign, ELUGrad, ClipGrad report no gradient). Excluded because earlier claims show their gradients of gradients to be wrong or missing: relu, matmul with flags, reductions along axes (C48), slice. C62_returns_partial: without abs and sign the calls return, in bounded time and without a panic, unless the graph exceeds the hard limit on its size, which cannot happen if `room l`, a bound found by counting calls, is at most 500000. Missing: matmul, softmax and cross entropies in differentiated gradients."
  },
  {
   "property": "C63",
   "status": "partial",
   "theorems": [
    "Verif.Props.C63_values_partial",
    "Verif.Props.C63_returns_partial",
    "Verif.Props.C63_vectors_violated"
   ],
   "note": "For all programs, points and ops of C62, all lists ys, all lists xs of different variables and placeholders, and vectors of the shapes of the xs that do not depend on them: the results evaluate to the product of the matrix of second derivatives with the vectors, and the call returns unless the graph gets too large (with a bound on the number of tensors). Violated for vectors computed from the xs: they are differentiated as well (x * x and the vector x give 4x instead of 2x). Missing: the ops missing in C62, vectors of other shapes (broadcasting), fewer vectors than xs."
  },
  {
   "property": "C64",
   "status": "partial",
   "theorems": [
    "Verif.Props.C64_loss_partial",
    "Verif.Props.C64_gradients_partial"
   ],
   "note": "For all sizes, sentences and weights. Limited to sentences of up to 5000 words (the graph of longer ones may exceed the limit on its size); for more than 160 words `grad` may panic because the graph gets too large. The numbers are real numbers, and the words are assumed to be numbers of words of the vocabulary. The variable tensors are made in the order of `vars`, not in the order of a hash map; the placeholder is fed by its name instead of its tensor."
  },
  {
   "property": "C65",
   "status": "proved",
   "theorems": [
    "Verif.Props.C65_depth_first",
    "Verif.Props.C65_determined",
    "Verif.Props.C65_position"
   ],
   "note": "All reachable graphs, targets, ops, feeds and variables; evaluations that return."
  },
  {
   "property": "C66",
   "status": "proved",
   "theorems": [
    "Verif.Props.C66_helper_gradients",
    "Verif.Props.C66_helper_total",
    "Verif.Props.C66_ids"
   ],
   "note": "For every graph, every order of iteration and every calculus in which the ops have correct gradients (as in C18); the variables of the namespace must have different ids, as the registry guarantees (C66_ids)."
  },
  {
   "property": "C67",
   "status": "partial",
   "theorems": [
    "Verif.Props.C67_same_step",
    "Verif.Props.C67_with_other_targets",
    "Verif.Props.C67_loss_before_step_partial",
    "Verif.Props.C67_loss_violated"
   ],
   "note": "The step is proved for all graphs, optimizers and variables (the update tensors are different op tensors whose ops only write to variables; add_n computes the array function of C53). The claim about the loss is false in general: the update ops run first, so ops of the loss that the gradients do not need are evaluated after the step (witness: the loss 1 * w). Proved when no op reads a variable for the first time after its update."
  },
  {
   "property": "C68",
   "status": "partial",
   "theorems": [
    "Verif.Props.C68_compares",
    "Verif.Props.C68_accepts_iff_partial",
    "Verif.Props.C68_limit_partial",
    "Verif.Props.C68_grad_passes_partial",
    "Verif.Props.C68_layout_violated"
   ],
   "note": "C68_compares says what is compared, for variables in any memory order without gaps. The claim is proved for variables that are row-major, for every graph and op; violated for others, as the elements of the variable are taken in the order of memory and those of the gradient in row-major order (witness: a column-major variable, for which the true gradient is rejected and the transposed one accepted). C68_grad_passes_partial: the gradients that grad computes for programs of C61 with up to about 3900 calls pass, if they are different tensors (the evaluator panics on repeated targets, C07). Variables without a gradient in the list are not checked at all. The gradients are assumed to have the shapes of the variables. Numbers are exact: a difference that is not a number is not greater than the tolerance and passes in the code."
  },
  {
   "property": "C69",
   "status": "partial",
   "theorems": [
    "Verif.Props.C69_loss_partial",
    "Verif.Props.C69_gradients_partial",
    "Verif.Props.C69_accuracy_partial"
   ],
   "note": "For all sizes with at least one image, channel and class (image side below 2^31), all images, labels less than the number of classes, weights and drawn arrays. Missing: numbers are real; the distribution of the drawn arrays (C56); the least float is any negative number, and for the accuracy all scores are assumed not to be below it; the layouts of sums and copies made by ndarray are any that into_shape accepts. Gradients only where the network is differentiable for the stated reason. The training loop is C71."
  },
  {
   "property": "C70",
   "status": "partial",
   "theorems": [
    "Verif.Props.C70_sine_partial",
    "Verif.Props.C70_order_violated"
   ],
   "note": "Proved for the two of six orders in which the name map lists w1 after w2 and w3, for any list of drawn columns. Violated for general programs with two layers: with another order the variables that are listed last are updated first, and gradients of other layers are evaluated with them (witness: the loss (-w1 * w2)^2, where both orders are computed). That the sine example itself is wrong in the other four orders is not proved: it follows from its graph (the gradient of w1 reads w2 and w3 directly), but the wrong values are not computed. The order is the same in all steps, as nothing is inserted in the map. One number N of iterations is found for each list of columns. Numbers are real; the drawn array is a parameter of each step."
  },
  {
   "property": "C71",
   "status": "partial",
   "theorems": [
    "Verif.Props.C71_training_partial",
    "Verif.Props.C70_order_violated"
   ],
   "note": "Proved for the orders in which the name map lists w1 or b1 after w2, and one of w1, w2, b1, b2 after w3 (384 of the 720), and as long as no rectified number is zero and no positive maximum of a window is attained twice at the weights reached. Violated for other orders as in C70 (the witness is the two-layer program of C70). The remarks at C69 and C70 apply."
  },
  {
   "property": "C72",
   "status": "partial",
   "theorems": [
    "Verif.Props.C72_variance_partial",
    "Verif.Props.C72_normalize_partial",
    "Verif.Props.C72_batchNorm_partial",
    "Verif.Props.C72_squaredError_partial",
    "Verif.Props.C72_gradients_partial",
    "Verif.Props.C72_squaredError_gradients_partial"
   ],
   "note": "For arrays without dimension 0; the axes must be different and at least one; scale and shift have size 1 in the first axis and otherwise the shape of the input; both arguments of the squared error have the same shape. Missing: other shapes that broadcast, axes that are computed from the variables, axes given by other integer types than isize, and rounding (eps is any positive real number)."
  },
  {
   "property": "C73",
   "status": "partial",
   "theorems": [
    "Verif.Props.C73_jacobians_partial",
    "Verif.Props.C73_matmul",
    "Verif.Props.C73_empty_violated"
   ],
   "note": "Violated if y has no elements: panic instead of a matrix without rows. Proved for programs of the calls of C61 under its hypotheses, for y in memory layouts without gaps, and for every n up to the number of elements of y; the panic of a graph of more than 500000 tensors occurs only if a stated bound exceeds that number. C73_matmul has no other hypothesis than the sizes. Missing: the calls that are not modelled, and rounding."
  },
  {
   "property": "C74",
   "status": "partial",
   "theorems": [
    "Verif.Props.C74_register",
    "Verif.Props.C74_called_once_in_order",
    "Verif.Props.C74_called_with_value",
    "Verif.Props.C74_transparent",
    "Verif.Props.C74_old_tensors",
    "Verif.Props.C74_documented_order_violated",
    "Verif.Props.C74_receiver_violated",
    "Verif.Props.C61_gradients_partial"
   ],
   "note": "Calls: for all graphs and ops; C74_called_with_value needs ops that are functions of their inputs and write no variables. Violated: the order of the documentation (witness: the example of register_hook prints b before a), and the hook on the receiver (it belongs to the new tensor only, C74_old_tensors). The derivative is that of C61, where calls of hooks occur in programs. Missing: closures that panic or that change what the other ops read; the text that Debug makes of an array."
  },
  {
   "property": "C75",
   "status": "partial",
   "theorems": [
    "Verif.Props.C75_sequence",
    "Verif.Props.C75_results",
    "Verif.Props.C75_again",
    "Verif.Props.C75_total_partial",
    "Verif.Props.C75_push_again_violated"
   ],
   "note": "C75_sequence: all ops, also with writes and side effects. C75_results, C75_again: needed ops are functions of their inputs and write no variables; no depends_on between the runs (C75_again). C75_total_partial: sessions return if no op tensor was pushed twice to an evaluator. Violated otherwise: targets stay in the evaluator after a run, and pushing an op tensor again makes the next run panic. Handles belong to the graph of the context (HandlesExist; the lifetimes of Rust ensure it, and that no evaluator survives Context::clear)."
  },
  {
   "property": "C76",
   "status": "partial",
   "theorems": [
    "Verif.Props.C61_values_partial",
    "Verif.Props.C76_gradients_partial",
    "Verif.Props.C76_blocked_partial"
   ],
   "note": "For programs of the 38 kinds of calls of Model/Program under the hypotheses of C61, where stop_gradient may be called on anything. That stop_gradient returns its argument unchanged is C61_values_partial (no condition for this call). The hypotheses of C61 are also required of the calls behind a stop_gradient (e.g. that an elementwise function is differentiable at the values), although no gradient passes there. Missing: the calls that are not modelled, derivatives of derivatives and the applications of other claims to programs with such calls, and rounding."
  },
  {
   "property": "C77",
   "status": "partial",
   "theorems": [
    "Verif.Props.C77_load",
    "Verif.Props.C77_only_partial",
    "Verif.Props.C77_epochs_partial",
    "Verif.Props.C77_truncated_violated",
    "Verif.Props.C77_same_order_violated",
    "Verif.Props.C77_unused_violated"
   ],
   "note": "C77_load: all files of the format, any field. Violated: errors of read_exact are dropped, so that files that end too early are accepted (C77_only_partial: other files are rejected if they are long enough); get_permutation makes a new generator with the same seed, so that all epochs use the same order of batches; in cnn_mnist.rs the last 96 of 60000 samples are never used (batches of 128). C77_epochs_partial: for as many labels as images; the code does not compare the numbers. Missing: IO errors other than the end of the file, the conversion to f32, that shuffle is a permutation (a hypothesis on the rand crate)."
  },
  {
   "property": "C78",
   "status": "partial",
   "theorems": [
    "Verif.Props.C78_main_partial"
   ],
   "note": "The whole main from the bytes of the files to the printed accuracy, with any initial weights of the right shape. Missing: floats (real numbers instead, so that the scores of the test images must be assumed not to be below the least float, where argmax would find no maximum), training labels of 10 or more (indexing panics or reads another image), different numbers of images and labels, an empty test set, the random generators behind the initial weights and names (the names are assumed to be different), printing."
  },
  {
   "property": "C79",
   "status": "partial",
   "theorems": [
    "Verif.Props.C79_main_partial",
    "Verif.Props.C70_order_violated"
   ],
   "note": "The whole main from the bytes of the files to what is printed, with any initial weights of the right shapes and any drawn masks. Proved for the orders in which the name map lists w1 or b1 after w2, and one of w1, w2, b1, b2 after w3 (384 of the 720); for other orders a step may use weights that were already changed (as in C71; the witness is the two-layer program of C70). The steps are described as long as no rectified number is zero and no positive maximum of a window is attained twice; the example next to the theorem is a run of ten steps in which this holds. Missing: floats (real numbers instead, so that the scores of the test images must be assumed not to be below the least float), labels of 10 or more, different numbers of images and labels, an empty test set (and NaN as the mean loss for less than 128 training images), the random generators, printing."
  }
 ]
}