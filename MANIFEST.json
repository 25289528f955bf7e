{
 "claims": [
  {
   "property": "C01",
   "status": "proved",
   "theorems": [
    "Verif.C01_new_panics_iff",
    "Verif.C01_new_canonical",
    "Verif.C01_new_panics_iff_release",
    "Verif.C01_new_canonical_release"
   ],
   "note": ""
  },
  {
   "property": "C02",
   "status": "proved",
   "theorems": [
    "Verif.C02_eq_iff",
    "Verif.C02_trailing_ones"
   ],
   "note": ""
  },
  {
   "property": "C03",
   "status": "proved",
   "theorems": [
    "Verif.C03_resizeDim_panics_iff",
    "Verif.C03_resizeDim_result",
    "Verif.C03_resizeBatch"
   ],
   "note": ""
  },
  {
   "property": "C04",
   "status": "proved",
   "theorems": [
    "Verif.C04_hasSameDims_iff",
    "Verif.C04_hasSameLooDims_iff",
    "Verif.C04_hasSameLooDims_max_release",
    "Verif.C04_hasSameLooDims_max",
    "Verif.C04_queries"
   ],
   "note": ""
  },
  {
   "property": "C05",
   "status": "proved",
   "theorems": [
    "Verif.C05_lowerVolume",
    "Verif.C05_offset_lt",
    "Verif.C05_offset_injective",
    "Verif.C05_offset_surjective",
    "Verif.C05_axis_decomposition"
   ],
   "note": ""
  },
  {
   "property": "C06",
   "status": "proved",
   "theorems": [
    "Verif.C06_elementwise",
    "Verif.C06_scalarOp",
    "Verif.C06_broadcast",
    "Verif.C06_matmul",
    "Verif.C06_transpose",
    "Verif.C06_slice",
    "Verif.C06_pick",
    "Verif.C06_concat",
    "Verif.C06_batchPick",
    "Verif.C06_batchSlice",
    "Verif.C06_batchConcat",
    "Verif.C06_is_unique"
   ],
   "note": ""
  },
  {
   "property": "C07",
   "status": "proved",
   "theorems": [
    "Verif.C07_roundtrip",
    "Verif.C07_deserialize_panics"
   ],
   "note": ""
  },
  {
   "property": "C08",
   "status": "proved",
   "theorems": [
    "Verif.C08_release_agrees",
    "Verif.C08_new_agrees_exactly",
    "Verif.C08_resizeDim_agrees_exactly",
    "Verif.C08_release_wraps"
   ],
   "note": "Agreement where products fit; the wrap-around of release builds is proved with concrete shapes (C08 as a safety claim is false of release builds)."
  },
  {
   "property": "C09",
   "status": "proved",
   "theorems": [
    "Verif.C09_newHandle_panics_iff",
    "Verif.C09_newHandle_capacity",
    "Verif.C09_calculateShifts"
   ],
   "note": ""
  },
  {
   "property": "C10",
   "status": "proved",
   "theorems": [
    "Verif.C10_live_distinct",
    "Verif.C10_not_handed_out_twice",
    "Verif.C10_drop_succeeds"
   ],
   "note": ""
  },
  {
   "property": "C11",
   "status": "proved",
   "theorems": [
    "Verif.C11_exclusive_ownership",
    "Verif.C11_registered_class",
    "Verif.C11_no_panic",
    "Verif.C11_locks",
    "Verif.C11_no_deadlock"
   ],
   "note": ""
  },
  {
   "property": "C12",
   "status": "proved",
   "theorems": [
    "Verif.C12_blocks_eq_peak",
    "Verif.C12_backend_only_if_no_idle"
   ],
   "note": ""
  },
  {
   "property": "C13",
   "status": "proved",
   "theorems": [
    "Verif.C13_teardown",
    "Verif.C13_teardown_complete"
   ],
   "note": ""
  },
  {
   "property": "C14",
   "status": "proved",
   "theorems": [
    "Verif.C14_drop_unknown_panics",
    "Verif.C14_poisoned_forever"
   ],
   "note": ""
  },
  {
   "property": "C15",
   "status": "proved",
   "theorems": [
    "Verif.Life.C15_program",
    "Verif.Life.C15_next_call",
    "Verif.Life.C15_drop",
    "Verif.Life.C15_write_isolated",
    "Verif.Life.C15_no_alias",
    "Verif.Life.C15_no_leak",
    "Verif.Life.C15_all_returned",
    "Verif.Life.C15_kernels_local",
    "Verif.Life.C15_forward"
   ],
   "note": "C15_program: every run of the pooled machine (handles, views, recycling) shows in every variable what the machine of independent arrays shows; C15_next_call: the next call returns or panics likewise. 'disciplined' (views only read; alloc/replace on owners) is a hypothesis; C16, C50, C51 show it is needed."
  },
  {
   "property": "C16",
   "status": "proved",
   "theorems": [
    "Verif.Life.C16_replace_of_view_breaks_ownership",
    "Verif.Life.C16_returned_only_by_owner"
   ],
   "note": "Negation proved with a concrete accepted program (C16_replace_of_view_breaks_ownership); the positive part (a buffer goes back only by dropping a tensor with its handle and without reference mark) for every state and call."
  },
  {
   "property": "C17",
   "status": "proved",
   "theorems": [
    "Verif.C17_tensor_roundtrip",
    "Verif.C17_parameter_roundtrip",
    "Verif.C17_move_twice_panics",
    "Verif.C17_move_wrong_size_panics",
    "Verif.C17_serialize_host_panics"
   ],
   "note": ""
  },
  {
   "property": "C18",
   "status": "proved",
   "theorems": [
    "Verif.C18_buffer_fits",
    "Verif.C18_forward_safe",
    "Verif.C18_backward_safe",
    "Verif.C18_create_safe",
    "Verif.C18_read_safe",
    "Verif.C18_assign_safe",
    "Verif.C18_forward_safe_release",
    "Verif.C18_add_assign_out_of_bounds",
    "Verif.C18_batch_pick_bw_out_of_bounds",
    "Verif.C18_release_out_of_bounds"
   ],
   "note": "Debug builds and release builds with sizes that fit; the exceptions (+=, -=, batch_pick backward) are proved as negations."
  },
  {
   "property": "C19",
   "status": "proved",
   "theorems": [
    "Verif.C19_forward",
    "Verif.C19_backward",
    "Verif.C19_create"
   ],
   "note": ""
  },
  {
   "property": "C20",
   "status": "proved",
   "theorems": [
    "Verif.C20_unary",
    "Verif.C20_const",
    "Verif.C20_powi",
    "Verif.C20_sub_div",
    "Verif.C20_add_mul",
    "Verif.C20_pow",
    "Verif.C20_powf_scalar",
    "Verif.C20_operators_panic"
   ],
   "note": ""
  },
  {
   "property": "C21",
   "status": "proved",
   "theorems": [
    "Verif.C21_sum",
    "Verif.C21_max",
    "Verif.C21_min",
    "Verif.C21_argmax",
    "Verif.C21_argmin",
    "Verif.C21_panics"
   ],
   "note": ""
  },
  {
   "property": "C22",
   "status": "proved",
   "theorems": [
    "Verif.C22_argsort"
   ],
   "note": ""
  },
  {
   "property": "C23",
   "status": "proved",
   "theorems": [
    "Verif.C23_broadcast",
    "Verif.C23_sum_of_broadcast",
    "Verif.C23_panics"
   ],
   "note": ""
  },
  {
   "property": "C24",
   "status": "proved",
   "theorems": [
    "Verif.C24_matmul",
    "Verif.C24_matmul_sum",
    "Verif.C24_panics"
   ],
   "note": ""
  },
  {
   "property": "C25",
   "status": "proved",
   "theorems": [
    "Verif.C25_transpose",
    "Verif.C25_transpose_twice",
    "Verif.C25_transpose_panics",
    "Verif.C25_triangular",
    "Verif.C25_triangular_panics",
    "Verif.C25_flip",
    "Verif.C25_flip_twice",
    "Verif.C25_permute",
    "Verif.C25_identity",
    "Verif.C25_identity_batches"
   ],
   "note": ""
  },
  {
   "property": "C26",
   "status": "proved",
   "theorems": [
    "Verif.C26_slice",
    "Verif.C26_slice_panics",
    "Verif.C26_split",
    "Verif.C26_split_panics",
    "Verif.C26_concat",
    "Verif.C26_slice_of_concat",
    "Verif.C26_concat_split",
    "Verif.C26_concat_panics"
   ],
   "note": ""
  },
  {
   "property": "C27",
   "status": "proved",
   "theorems": [
    "Verif.C27_pick",
    "Verif.C27_pick_panics"
   ],
   "note": ""
  },
  {
   "property": "C28",
   "status": "proved",
   "theorems": [
    "Verif.C28_batch_slice",
    "Verif.C28_batch_pick",
    "Verif.C28_batch_sum",
    "Verif.C28_batch_split",
    "Verif.C28_batch_concat",
    "Verif.C28_batch_concat_split",
    "Verif.C28_batch_slice_panics",
    "Verif.C28_batch_pick_panics",
    "Verif.C28_batch_split_panics",
    "Verif.C28_batch_concat_panics"
   ],
   "note": ""
  },
  {
   "property": "C29",
   "status": "proved",
   "theorems": [
    "Verif.C29_unary",
    "Verif.C29_const",
    "Verif.C29_powi",
    "Verif.C29_binary",
    "Verif.C29_max_min",
    "Verif.C29_matmul",
    "Verif.C29_transpose",
    "Verif.C29_triangular",
    "Verif.C29_slice",
    "Verif.C29_pick",
    "Verif.C29_batch_slice_kernel",
    "Verif.C29_batch_pick_kernel",
    "Verif.C29_flip_kernel",
    "Verif.C29_permute_kernel",
    "Verif.C29_batch_slice_bw_panics",
    "Verif.C29_batch_pick_bw_never_returns",
    "Verif.C29_batch_pick_bw_wrong",
    "Verif.C29_neg_bw_panics"
   ],
   "note": ""
  },
  {
   "property": "C30",
   "status": "proved",
   "theorems": [
    "Verif.Graph.C30_forward_total",
    "Verif.Graph.C30_forward_evaluates",
    "Verif.Graph.C30_forward_runs",
    "Verif.Graph.C30_at_most_once",
    "Verif.Graph.C30_forward_fails"
   ],
   "note": ""
  },
  {
   "property": "C31",
   "status": "proved",
   "theorems": [
    "Verif.Graph.C31_create_runs_nothing",
    "Verif.Graph.C31_forward_idempotent"
   ],
   "note": ""
  },
  {
   "property": "C32",
   "status": "proved",
   "theorems": [
    "Verif.Graph.C32_backward_accumulates",
    "Verif.Graph.C32_backward_total"
   ],
   "note": ""
  },
  {
   "property": "C33",
   "status": "proved",
   "theorems": [
    "Verif.Graph.C33_seeded_root_never_completes",
    "Verif.Graph.C33_second_root",
    "Verif.Graph.C33_backward_again_never_completes",
    "Verif.Graph.C33_gradients_counted_twice"
   ],
   "note": ""
  },
  {
   "property": "C34",
   "status": "proved",
   "theorems": [
    "Verif.Graph.C34_all_results_seeded",
    "Verif.Graph.C34_unused_result_untouched",
    "Verif.Graph.C34_unused_result_of_split_never_completes"
   ],
   "note": ""
  },
  {
   "property": "C35",
   "status": "proved",
   "theorems": [
    "Verif.Graph.C35_panicking_operator_marked",
    "Verif.Graph.C35_marked_operator_frozen",
    "Verif.Graph.C35_reshape_wrong_size",
    "Verif.Graph.C35_panicking_operator_has_no_value",
    "Verif.Graph.C35_owned_node_shows_stale_memory"
   ],
   "note": ""
  },
  {
   "property": "C36",
   "status": "proved",
   "theorems": [
    "Verif.Graph.C36_backward_is_gradient",
    "Verif.Graph.C36_each_element"
   ],
   "note": ""
  },
  {
   "property": "C37",
   "status": "proved",
   "theorems": [
    "Verif.C37_unary",
    "Verif.C37_const",
    "Verif.C37_powi",
    "Verif.C37_softplus",
    "Verif.C37_binary"
   ],
   "note": ""
  },
  {
   "property": "C38",
   "status": "proved",
   "theorems": [
    "Verif.NF.C38_others_unchanged",
    "Verif.NF.C38_leaf",
    "Verif.NF.C38_owned",
    "Verif.NF.C38_unary",
    "Verif.NF.C38_elu_is_prelu",
    "Verif.NF.C38_arith",
    "Verif.NF.C38_arith_mixed_panics",
    "Verif.NF.C38_matmul",
    "Verif.NF.C38_pow",
    "Verif.NF.C38_concat",
    "Verif.NF.C38_batch_concat",
    "Verif.NF.C38_splits",
    "Verif.NF.C38_softmax",
    "Verif.NF.C38_cross_entropy",
    "Verif.NF.C38_pow_mixed",
    "Verif.NF.C38_pow_scalars",
    "Verif.NF.C38_elu_differs",
    "Verif.NF.C38_mixed_differs"
   ],
   "note": "Holds for every function except the proved exceptions: elu on nodes is prelu, mixing scalars and non-scalars panics on nodes."
  },
  {
   "property": "C39",
   "status": "proved",
   "theorems": [
    "Verif.NF.C39_neg_blocks",
    "Verif.NF.C39_batch_slice_blocks",
    "Verif.NF.C39_batch_split_blocks",
    "Verif.NF.C39_batch_pick_blocks",
    "Verif.NF.C39_sum_blocks",
    "Verif.NF.C39_logsumexp_blocks"
   ],
   "note": "False of the code for the listed functions: negations prove that backward through them never completes; the positive side is C36."
  },
  {
   "property": "C40",
   "status": "proved",
   "theorems": [
    "Verif.C40_sgd",
    "Verif.C40_momentum",
    "Verif.C40_adam",
    "Verif.C40_sgd_run",
    "Verif.C40_momentum_run"
   ],
   "note": ""
  },
  {
   "property": "C41",
   "status": "proved",
   "theorems": [
    "Verif.C41_clipping",
    "Verif.C41_decay"
   ],
   "note": ""
  },
  {
   "property": "C42",
   "status": "proved",
   "theorems": [
    "Verif.C42_frame",
    "Verif.C42_panic_midway",
    "Verif.C42_epoch_overflow",
    "Verif.C42_epoch_overflow_adam"
   ],
   "note": ""
  },
  {
   "property": "C43",
   "status": "proved",
   "theorems": [
    "Verif.C43_resume",
    "Verif.C43_resume_with_epoch",
    "Verif.C43_adam_resume_differs"
   ],
   "note": ""
  },
  {
   "property": "C44",
   "status": "proved",
   "theorems": [
    "Verif.C44_configure",
    "Verif.C44_configure_frame",
    "Verif.C44_configured_updates",
    "Verif.C44_unconfigured_panics",
    "Verif.C44_settings"
   ],
   "note": ""
  },
  {
   "property": "C45",
   "status": "proved",
   "theorems": [
    "Verif.C45_enumeration",
    "Verif.C45_update",
    "Verif.C45_configure",
    "Verif.C45_move"
   ],
   "note": ""
  },
  {
   "property": "C46",
   "status": "proved",
   "theorems": [
    "Verif.C46_mean",
    "Verif.C46_batch_mean",
    "Verif.C46_dropout_off",
    "Verif.C46_dropout_identity",
    "Verif.C46_dropout",
    "Verif.C46_dropout_panics",
    "Verif.C46_dropout_dim",
    "Verif.C46_slice_sum",
    "Verif.C46_slice_sum_empty",
    "Verif.C46_batch_normalization",
    "Verif.C46_batch_normalization_off",
    "Verif.C46_layer_normalization",
    "Verif.NF.C46_node_mean",
    "Verif.NF.C46_node_batch_mean",
    "Verif.NF.C46_node_dropout_off",
    "Verif.NF.C46_node_dropout",
    "Verif.NF.C46_node_dropout_dim",
    "Verif.NF.C46_node_slice_sum",
    "Verif.NF.C46_node_slice_sum_empty",
    "Verif.NF.C46_node_batch_normalization",
    "Verif.NF.C46_node_batch_normalization_off",
    "Verif.NF.C46_node_layer_normalization_panics",
    "Verif.NF.C46_node_layer_normalization_scalar",
    "Verif.C46_batch_normed_mean",
    "Verif.C46_batch_normed_square",
    "Verif.C46_layer_normed_mean",
    "Verif.C46_layer_normed_square"
   ],
   "note": "Proved for tensors and nodes, except layer_normalization on nodes, which is proved to panic on every non-scalar input (C46_node_layer_normalization_panics)."
  },
  {
   "property": "C47",
   "status": "proved",
   "theorems": [
    "Verif.C47_forward",
    "Verif.C47_backward",
    "Verif.C47_others"
   ],
   "note": ""
  },
  {
   "property": "C48",
   "status": "proved",
   "theorems": [
    "Verif.C48_softplus",
    "Verif.C48_sigmoid",
    "Verif.C48_logsumexp",
    "Verif.C48_ln_softmax",
    "Verif.C48_softmax"
   ],
   "note": ""
  },
  {
   "property": "C49",
   "status": "proved",
   "theorems": [
    "Verif.C49_softmax_cross_entropy",
    "Verif.C49_sparse"
   ],
   "note": ""
  },
  {
   "property": "C50",
   "status": "proved",
   "theorems": [
    "Verif.Life.C50_view_is_writable",
    "Verif.Life.C50_view_write_reaches_owner"
   ],
   "note": "False of the code: negation for every value written, and the general form for every kernel."
  },
  {
   "property": "C51",
   "status": "proved",
   "theorems": [
    "Verif.Life.C51_view_leaks"
   ],
   "note": "False of the code: negation with two programs; the positive part is C15_no_leak / C15_all_returned."
  },
  {
   "property": "C52",
   "status": "proved",
   "theorems": [
    "Verif.C52_random",
    "Verif.C52_random_panics",
    "Verif.C52_initializer",
    "Verif.C52_initializer_panics",
    "Verif.C52_initializer_once",
    "Verif.C52_new_parameter",
    "Verif.C52_new_parameter_batch",
    "Verif.C52_xavier"
   ],
   "note": ""
  },
  {
   "property": "C53",
   "status": "proved",
   "theorems": [
    "Verif.C53_reshape",
    "Verif.C53_reshape_back",
    "Verif.C53_reshape_panics",
    "Verif.C53_flatten",
    "Verif.C53_reshape_release_out_of_bounds"
   ],
   "note": ""
  },
  {
   "property": "C54",
   "status": "proved",
   "theorems": [
    "Verif.C54_call_safe",
    "Verif.C54_forward_safe",
    "Verif.C54_backward_safe",
    "Verif.C54_read_safe",
    "Verif.C54_softmax_safe",
    "Verif.C54_batch_pick_out_of_bounds",
    "Verif.C54_parameter_out_of_bounds"
   ],
   "note": ""
  },
  {
   "property": "C55",
   "status": "proved",
   "theorems": [
    "Verif.C55_tensors",
    "Verif.C55_graphs",
    "Verif.C55_parameters",
    "Verif.C55_stat_out_of_bounds"
   ],
   "note": ""
  },
  {
   "property": "C56",
   "status": "proved",
   "theorems": [
    "Verif.C56_naive_forward",
    "Verif.C56_naive_backward",
    "Verif.C56_naive_backward_found",
    "Verif.C56_naive_others",
    "Verif.C56_names_distinct",
    "Verif.C56_call_by_name",
    "Verif.C56_call_bw_by_name",
    "Verif.C56_function_names",
    "Verif.C56_batch_backward_names",
    "Verif.C56_register_forward",
    "Verif.C56_register_backward",
    "Verif.C56_missing_forward",
    "Verif.C56_missing_backward",
    "Verif.C56_empty_device",
    "Verif.C56_call_out_of_bounds"
   ],
   "note": ""
  },
  {
   "property": "C57",
   "status": "proved",
   "theorems": [
    "Verif.Graph.C57_training_step",
    "Verif.Graph.C57_loss_decreases",
    "Verif.Graph.C57_training_run"
   ],
   "note": ""
  },
  {
   "property": "C58",
   "status": "proved",
   "theorems": [
    "Verif.Thd.C58_independent_arrays",
    "Verif.Thd.C58_as_if_alone",
    "Verif.Thd.C58_exclusive_blocks",
    "Verif.Thd.C58_no_data_race",
    "Verif.Thd.C58_within_block",
    "Verif.Thd.C58_panics",
    "Verif.Thd.C58_progress",
    "Verif.C58_forward"
   ],
   "note": ""
  },
  {
   "property": "C59",
   "status": "proved",
   "theorems": [
    "Verif.C59_disabled_iff",
    "Verif.C59_panics_iff",
    "Verif.C59_samples",
    "Verif.C59_caught_panic_disables"
   ],
   "note": ""
  },
  {
   "property": "C60",
   "status": "proved",
   "theorems": [
    "Verif.Life.C60_effect",
    "Verif.Life.C60_next_call",
    "Verif.Life.C60_drop",
    "Verif.Life.C60_pools",
    "Verif.Life.C60_all_returned"
   ],
   "note": ""
  },
  {
   "property": "C61",
   "status": "proved",
   "theorems": [
    "Verif.Graph.C61_create",
    "Verif.Graph.C61_forward_undisturbed",
    "Verif.Graph.C61_forward_disturbed",
    "Verif.Graph.C61_disturbed_node_marked",
    "Verif.Graph.C61_marked_for_ever",
    "Verif.Graph.C61_backward_undisturbed",
    "Verif.Graph.C61_backward_disturbed",
    "Verif.Graph.C61_no_refs",
    "Verif.Graph.C61_kept_ref_ruins_node"
   ],
   "note": ""
  },
  {
   "property": "C62",
   "status": "proved",
   "theorems": [
    "Verif.Own.C62_exact",
    "Verif.Own.C62_no_dangling",
    "Verif.Own.C62_traversal_alive",
    "Verif.Own.C62_drop",
    "Verif.Own.C62_create",
    "Verif.Own.C62_all_released"
   ],
   "note": ""
  },
  {
   "property": "C63",
   "status": "proved",
   "theorems": [
    "Verif.Graph.C63_training_step",
    "Verif.Graph.C63_sgd_step",
    "Verif.Graph.C63_regularised_loss_decreases",
    "Verif.Graph.C63_training_run",
    "Verif.Graph.C63_momentum_run",
    "Verif.Graph.C63_adam_run",
    "Verif.Graph.C63_adam_first_step"
   ],
   "note": ""
  },
  {
   "property": "C64",
   "status": "proved",
   "theorems": [
    "Verif.Derive.C64_accepts",
    "Verif.Derive.C64_header",
    "Verif.Derive.C64_header_order",
    "Verif.Derive.C64_fields",
    "Verif.Derive.C64_other_attributes",
    "Verif.Derive.C64_enumeration",
    "Verif.Derive.C64_agrees"
   ],
   "note": ""
  },
  {
   "property": "C65",
   "status": "proved",
   "theorems": [
    "Verif.Life.C65_disciplined",
    "Verif.Life.C65_disciplined_calls",
    "Verif.Life.C65_drop_handle_frees_live_tensor",
    "Verif.Life.C65_store_handle_breaks_ownership",
    "Verif.Life.C65_refused"
   ],
   "note": ""
  },
  {
   "property": "C66",
   "status": "proved",
   "theorems": [
    "Verif.NF.C66_read_is_value",
    "Verif.NF.C66_read_returns",
    "Verif.NF.C66_read_stable",
    "Verif.NF.C66_shape",
    "Verif.NF.C66_owned_node_shows_stale_memory"
   ],
   "note": ""
  },
  {
   "property": "C67",
   "status": "proved",
   "theorems": [
    "Verif.C67_sigmoid",
    "Verif.C67_softplus",
    "Verif.C67_softplus_neg_inf",
    "Verif.C67_logsumexp",
    "Verif.C67_ln_softmax",
    "Verif.C67_softmax",
    "Verif.C67_sparse_cross_entropy",
    "Verif.C67_cross_entropy_nan"
   ],
   "note": ""
  },
  {
   "property": "C68",
   "status": "proved",
   "theorems": [
    "Verif.C68_sigmoid",
    "Verif.C68_softplus",
    "Verif.C68_logsumexp",
    "Verif.C68_ln_softmax",
    "Verif.C68_softmax",
    "Verif.C68_softmax_typical"
   ],
   "note": ""
  },
  {
   "property": "C69",
   "status": "proved",
   "theorems": [
    "Verif.C69_factor",
    "Verif.C69_sum",
    "Verif.C69_batch_sum",
    "Verif.C69_matmul",
    "Verif.C69_sum_integers",
    "Verif.C69_matmul_integers",
    "Verif.C69_sum_order"
   ],
   "note": ""
  },
  {
   "property": "C70",
   "status": "proved",
   "theorems": [
    "Verif.C70_clip_shrinks",
    "Verif.C70_clip_overflow",
    "Verif.C70_clip_underflow",
    "Verif.C70_adam",
    "Verif.C70_clip_norm"
   ],
   "note": ""
  },
  {
   "property": "C71",
   "status": "proved",
   "theorems": [
    "Verif.C71_max",
    "Verif.C71_min",
    "Verif.C71_max_gradient",
    "Verif.C71_min_gradient",
    "Verif.C71_argsort",
    "Verif.C71_argsort_nan"
   ],
   "note": ""
  },
  {
   "property": "C72",
   "status": "proved",
   "theorems": [
    "Verif.C72_relu",
    "Verif.C72_prelu",
    "Verif.C72_elu",
    "Verif.C72_relu_gradient",
    "Verif.C72_sigmoid_gradient",
    "Verif.C72_tanh_gradient",
    "Verif.C72_abs_gradient",
    "Verif.C72_sqrt_gradient_at_zero",
    "Verif.C72_ln_gradient_at_zero"
   ],
   "note": ""
  },
  {
   "property": "C73",
   "status": "proved",
   "theorems": [
    "Verif.C73_sgd_step",
    "Verif.C73_sgd_stalls"
   ],
   "note": ""
  },
  {
   "property": "C74",
   "status": "proved",
   "theorems": [
    "Verif.C74_values_reproducible",
    "Verif.C74_gradients_reproducible",
    "Verif.C74_order_matters"
   ],
   "note": ""
  },
  {
   "property": "C75",
   "status": "proved",
   "theorems": [
    "Verif.C75_mean",
    "Verif.C75_batch_mean",
    "Verif.C75_disabled",
    "Verif.C75_dropout",
    "Verif.C75_dropout_dim",
    "Verif.C75_dropout_overflow",
    "Verif.C75_batch_normalization",
    "Verif.C75_layer_normalization",
    "Verif.C75_batch_constant",
    "Verif.C75_layer_constant",
    "Verif.C75_batch_overflow"
   ],
   "note": ""
  },
  {
   "property": "C76",
   "status": "proved",
   "theorems": [
    "Verif.C76_minibatch",
    "Verif.C76_batch_pick",
    "Verif.C76_shared",
    "Verif.C76_batch_sum",
    "Verif.C76_loss",
    "Verif.C76_batch_normalization_couples"
   ],
   "note": ""
  },
  {
   "property": "C77",
   "status": "proved",
   "theorems": [
    "Verif.Graph.C77_minibatch_gradient"
   ],
   "note": ""
  },
  {
   "property": "C78",
   "status": "proved",
   "theorems": [
    "Verif.Graph.C78_pass",
    "Verif.Graph.C78_accumulation",
    "Verif.Graph.C78_samples_one_by_one",
    "Verif.Graph.C78_same_update"
   ],
   "note": ""
  },
  {
   "property": "C79",
   "status": "proved",
   "theorems": [
    "Verif.C79_dropout",
    "Verif.C79_dropout_dim",
    "Verif.C79_random",
    "Verif.C79_initializer",
    "Verif.C79_linear_layer"
   ],
   "note": ""
  },
  {
   "property": "C80",
   "status": "proved",
   "theorems": [
    "Verif.Graph.C80_smooth",
    "Verif.Graph.C80_convex",
    "Verif.Graph.C80_online"
   ],
   "note": ""
  },
  {
   "property": "C81",
   "status": "proved",
   "theorems": [
    "Verif.Graph.C81_run",
    "Verif.Graph.C81_decay",
    "Verif.Graph.C81_clipped_moves",
    "Verif.Graph.C81_clipping"
   ],
   "note": ""
  },
  {
   "property": "C82",
   "status": "proved",
   "theorems": [
    "Verif.Graph.C82_converges",
    "Verif.Graph.C82_moves"
   ],
   "note": ""
  },
  {
   "property": "C83",
   "status": "proved",
   "theorems": [
    "Verif.Graph.C83_averages",
    "Verif.Graph.C83_bounded",
    "Verif.Graph.C83_bounded_any"
   ],
   "note": ""
  },
  {
   "property": "C84",
   "status": "proved",
   "theorems": [
    "Verif.Graph.C84_scaled_loss",
    "Verif.Graph.C84_same_loss"
   ],
   "note": ""
  },
  {
   "property": "C85",
   "status": "proved",
   "theorems": [
    "Verif.C85_error",
    "Verif.C85_layer"
   ],
   "note": ""
  },
  {
   "property": "C86",
   "status": "proved",
   "theorems": [
    "Verif.C86_whole"
   ],
   "note": ""
  },
  {
   "property": "C87",
   "status": "proved",
   "theorems": [
    "Verif.C87_adam_no_nan",
    "Verif.C87_adam_frozen",
    "Verif.C87_adam_eps_zero"
   ],
   "note": ""
  },
  {
   "property": "C88",
   "status": "proved",
   "theorems": [
    "Verif.C88_nan_forever",
    "Verif.C88_nan_disables_clipping",
    "Verif.C88_independent",
    "Verif.C88_momentum_no_nan"
   ],
   "note": ""
  },
  {
   "property": "C89",
   "status": "proved",
   "theorems": [
    "Verif.C89_flow",
    "Verif.C89_panics",
    "Verif.C89_union"
   ],
   "note": ""
  },
  {
   "property": "C90",
   "status": "proved",
   "theorems": [
    "Verif.C90_logsumexp_special",
    "Verif.C90_logsumexp_masked",
    "Verif.C90_softmax_masked",
    "Verif.C90_softmax_removed",
    "Verif.C90_softmax_nan",
    "Verif.C90_cross_entropy_nan",
    "Verif.C90_sparse_cross_entropy",
    "Verif.C90_logsumexp_grad"
   ],
   "note": ""
  },
  {
   "property": "C91",
   "status": "proved",
   "theorems": [
    "Verif.C91_cross_entropy_gradient",
    "Verif.C91_sparse_cross_entropy_gradient",
    "Verif.C91_logsumexp_gradient"
   ],
   "note": ""
  },
  {
   "property": "C92",
   "status": "proved",
   "theorems": [
    "Verif.C92_softmax_order",
    "Verif.C92_sigmoid_order",
    "Verif.C92_const_order",
    "Verif.C92_sum_order",
    "Verif.C92_matmul_order",
    "Verif.C92_relu_order",
    "Verif.C92_mean_order",
    "Verif.C92_elu_order",
    "Verif.C92_div_sqrt_order"
   ],
   "note": ""
  },
  {
   "property": "C93",
   "status": "proved",
   "theorems": [
    "Verif.C93_argmax_softmax",
    "Verif.C93_predictions_differ"
   ],
   "note": ""
  },
  {
   "property": "C94",
   "status": "proved",
   "theorems": [
    "Verif.C94_units",
    "Verif.C94_neg_abs",
    "Verif.C94_relu_relu",
    "Verif.C94_self"
   ],
   "note": ""
  },
  {
   "property": "C95",
   "status": "proved",
   "theorems": [
    "Verif.C95_debug_injective",
    "Verif.C95_debug_release",
    "Verif.C95_shape_macro",
    "Verif.C95_no_comma_before_batch"
   ],
   "note": ""
  },
  {
   "property": "C96",
   "status": "proved",
   "theorems": [
    "Verif.C96_columns",
    "Verif.C96_rows",
    "Verif.C96_transpose",
    "Verif.C96_transpose_f32",
    "Verif.C96_commute"
   ],
   "note": ""
  },
  {
   "property": "C97",
   "status": "proved",
   "theorems": [
    "Verif.C97_exchange",
    "Verif.C97_exchange_binary",
    "Verif.C97_elementwise",
    "Verif.C97_rearranging",
    "Verif.C97_chain",
    "Verif.C97_exchange_binary_f32"
   ],
   "note": ""
  }
 ]
}