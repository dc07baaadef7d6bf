{
 "claims": [
  {
   "property": "C01",
   "status": "proved",
   "theorems": [
    "Cnn.C01_index_bijection",
    "Cnn.C01_read_write",
    "Cnn.C01_constructed"
   ],
   "note": ""
  },
  {
   "property": "C02",
   "status": "partial",
   "theorems": [
    "Cnn.C02_setEntries",
    "Cnn.C02_setEntries_mismatch",
    "Cnn.C02_constructor",
    "Cnn.C02_raw_assign",
    "Cnn.C02_exact",
    "Cnn.C02_violated"
   ],
   "note": "proved for all positive dimensions; C02_exact says exactly when it fails otherwise: a matrix made with two negative dimensions has undefined behaviour in setEntries (C02_violated)"
  },
  {
   "property": "C03",
   "status": "proved",
   "theorems": [
    "Cnn.C03_visits",
    "Cnn.C03_visits_once",
    "Cnn.C03_deref",
    "Cnn.C03_random_access"
   ],
   "note": ""
  },
  {
   "property": "C04",
   "status": "partial",
   "theorems": [
    "Cnn.C04_violated",
    "Cnn.C04_exact",
    "Cnn.C04_iteration_safe_partial"
   ],
   "note": "False of the code: the negation is C04_violated; C04_exact says exactly which dimensions are accepted, C04_iteration_safe_partial what holds."
  },
  {
   "property": "C05",
   "status": "proved",
   "theorems": [
    "Cnn.C05_reshape",
    "Cnn.C05_reshape_entries",
    "Cnn.C05_resize"
   ],
   "note": ""
  },
  {
   "property": "C06",
   "status": "proved",
   "theorems": [
    "Cnn.C06_move",
    "Cnn.C06_self_move",
    "Cnn.C06_convert",
    "Cnn.C06_copy_equal",
    "Cnn.C06_convert_assign"
   ],
   "note": "C06_move (distinct objects), C06_convert, C06_convert_assign, C06_copy_equal. C06_self_move says what the property leaves out: a matrix moved to itself loses its dimensions, whatever the vector does."
  },
  {
   "property": "C07",
   "status": "proved",
   "theorems": [
    "Cnn.C07_create",
    "Cnn.C07_nested",
    "Cnn.C07_nested_inside",
    "Cnn.C07_window",
    "Cnn.C07_entries_inside",
    "Cnn.C07_slices",
    "Cnn.C07_slice",
    "Cnn.C07_subSlices",
    "Cnn.C07_subSlice"
   ],
   "note": ""
  },
  {
   "property": "C08",
   "status": "partial",
   "theorems": [
    "Cnn.C08_violated",
    "Cnn.C08_violation_reads_outside",
    "Cnn.C08_create_inside_partial"
   ],
   "note": "False of the code for negative start/size: C08_violated, C08_violation_reads_outside; holds for views with non-negative start and size (C08_create_inside_partial)."
  },
  {
   "property": "C09",
   "status": "proved",
   "theorems": [
    "Cnn.C09_fill",
    "Cnn.C09_assign",
    "Cnn.C09_opAssign",
    "Cnn.C09_opScalar",
    "Cnn.C09_mismatch"
   ],
   "note": ""
  },
  {
   "property": "C10",
   "status": "partial",
   "theorems": [
    "Cnn.C10_violated",
    "Cnn.C10_violation_ub",
    "Cnn.C10_at_partial"
   ],
   "note": "False of the code for negative indices: C10_violated, C10_violation_ub; holds for non-negative indices (C10_at_partial)."
  },
  {
   "property": "C11",
   "status": "proved",
   "theorems": [
    "Cnn.C11_nested",
    "Cnn.C11_mismatch",
    "Cnn.C11_mixed",
    "Cnn.C11_store",
    "Cnn.C11_opAssign",
    "Cnn.C11_opAssign_mismatch",
    "Cnn.C11_opScalar",
    "Cnn.C11_modify"
   ],
   "note": ""
  },
  {
   "property": "C12",
   "status": "proved",
   "theorems": [
    "Cnn.C12_assign",
    "Cnn.C12_opAssign",
    "Cnn.C12_view_opAssign"
   ],
   "note": ""
  },
  {
   "property": "C13",
   "status": "partial",
   "theorems": [
    "Cnn.C13_transpose_violated",
    "Cnn.C13_overlap_violated",
    "Cnn.C13_scalar_violated",
    "Cnn.C13_assign_partial"
   ],
   "note": "False of the code for A = transpose(A), overlapping views, and A op= A(i,j,k): C13_*_violated. Holds when the right-hand side does not read the target (C13_assign_partial) or reads it only at the written index (C12)."
  },
  {
   "property": "C14",
   "status": "proved",
   "theorems": [
    "Cnn.C14_entries",
    "Cnn.C14_product",
    "Cnn.C14_mismatch",
    "Cnn.C14_assoc",
    "Cnn.C14_distrib_left",
    "Cnn.C14_distrib_right"
   ],
   "note": ""
  },
  {
   "property": "C15",
   "status": "proved",
   "theorems": [
    "Cnn.C15_transpose",
    "Cnn.C15_transpose_twice",
    "Cnn.C15_transpose_mul",
    "Cnn.C15_rotate",
    "Cnn.C15_rotate_four",
    "Cnn.C15_rotate_two",
    "Cnn.C15_rotate_three",
    "Cnn.C15_rotate_nonsquare"
   ],
   "note": ""
  },
  {
   "property": "C16",
   "status": "partial",
   "theorems": [
    "Cnn.C16_transpose_temp_dims",
    "Cnn.C16_matMul_early_dims",
    "Cnn.C16_transpose_violated",
    "Cnn.C16_matMul_violated",
    "Cnn.C16_violation_store",
    "Cnn.C16_temporaries_partial"
   ],
   "note": "False of the code: transpose of a temporary and matrixMultiply under left-to-right argument evaluation read the dimensions of a moved-from operand (C16_transpose_violated, C16_matMul_violated). Holds for named operands and for argument orders that read the dimensions first (C16_temporaries_partial)."
  },
  {
   "property": "C17",
   "status": "proved",
   "theorems": [
    "Cnn.C17_entries",
    "Cnn.C17_convolve",
    "Cnn.C17_not_flat"
   ],
   "note": ""
  },
  {
   "property": "C18",
   "status": "partial",
   "theorems": [
    "Cnn.C18_always_outside",
    "Cnn.C18_violated",
    "Cnn.C18_entry_partial"
   ],
   "note": "False of the code for every stride >= 2: the windows run outside the input (C18_violated, C18_always_outside). Holds for stride 1 (C17) and for those entries whose window stays inside (C18_entry_partial)."
  },
  {
   "property": "C19",
   "status": "partial",
   "theorems": [
    "Cnn.C19_int",
    "Cnn.C19_mismatch",
    "Cnn.C19_violated",
    "Cnn.C19_floating_partial"
   ],
   "note": "False of the code for floating element types: the accumulator is an int (C19_violated). Holds for integers (C19_int) and exactly characterised otherwise (C19_floating_partial)."
  },
  {
   "property": "C20",
   "status": "proved",
   "theorems": [
    "Cnn.C20_sum_order",
    "Cnn.C20_sum",
    "Cnn.C20_max",
    "Cnn.C20_min",
    "Cnn.C20_max_inside",
    "Cnn.C20_mean",
    "Cnn.C20_l2Norm",
    "Cnn.C20_matrix"
   ],
   "note": ""
  },
  {
   "property": "C21",
   "status": "partial",
   "theorems": [
    "Cnn.C21_exact",
    "Cnn.C21_negative_wrong",
    "Cnn.C21_violated",
    "Cnn.C21_mean_partial"
   ],
   "note": "False of the code for every negative sum (C21_violated, C21_negative_wrong); holds for non-negative sums (C21_mean_partial)."
  },
  {
   "property": "C22",
   "status": "proved",
   "theorems": [
    "Cnn.C22_decides",
    "Cnn.C22_dims",
    "Cnn.C22_equivalence",
    "Cnn.C22_tolerance"
   ],
   "note": ""
  },
  {
   "property": "C23",
   "status": "proved",
   "theorems": [
    "Cnn.C23_entrywise",
    "Cnn.C23_forward",
    "Cnn.C23_ranges",
    "Cnn.C23_sigmoid_symm",
    "Cnn.C23_monotone"
   ],
   "note": ""
  },
  {
   "property": "C24",
   "status": "partial",
   "theorems": [
    "Cnn.C24_exact",
    "Cnn.C24_claim_pointwise",
    "Cnn.C24_sigmoid_violated",
    "Cnn.C24_tangent_violated",
    "Cnn.C24_leaky_violated",
    "Cnn.C24_relu_linear_partial",
    "Cnn.C24_at_output",
    "Cnn.C24_leaky"
   ],
   "note": "False of the code for SIGMOID and TANGENT (the gradient function is applied to the output of the layer, not its input) and for LEAKY_RELU (slope 0.1f forward, 0.1 backward) (C24_sigmoid_violated, C24_tangent_violated, C24_leaky_violated; C24_exact and C24_leaky say what is computed; C24_at_output: apart from LEAKY_RELU the factor is the derivative at the output). Holds for RELU and LINEAR (C24_relu_linear_partial)."
  },
  {
   "property": "C25",
   "status": "proved",
   "theorems": [
    "Cnn.C25_formula",
    "Cnn.C25_probability",
    "Cnn.C25_shift",
    "Cnn.C25_reject"
   ],
   "note": ""
  },
  {
   "property": "C26",
   "status": "proved",
   "theorems": [
    "Cnn.C26_gradient",
    "Cnn.C26_assign",
    "Cnn.C26_no_label"
   ],
   "note": ""
  },
  {
   "property": "C27",
   "status": "proved",
   "theorems": [
    "Cnn.C27_range",
    "Cnn.C27_decreasing"
   ],
   "note": ""
  },
  {
   "property": "C28",
   "status": "partial",
   "theorems": [
    "Cnn.C28_reportedLoss",
    "Cnn.C28_violated",
    "Cnn.C28_direction_partial"
   ],
   "note": "False of the code (C28_violated): the loss is -log2(p+eps), the gradient that of -ln p. The two differ by one common positive factor (C28_direction_partial)."
  },
  {
   "property": "C29",
   "status": "partial",
   "theorems": [
    "Cnn.C29_size_partial",
    "Cnn.C29_windows",
    "Cnn.C29_violated"
   ],
   "note": "False of the code: the output size is computed in float, so from 2^24 on a window is lost (C29_violated). Holds for all sizes with X-px+1 and Y-py+1 below 2^24 (C29_size_partial); the window arithmetic (C29_windows) is unconditional."
  },
  {
   "property": "C30",
   "status": "proved",
   "theorems": [
    "Cnn.C30_max",
    "Cnn.C30_min",
    "Cnn.C30_avg"
   ],
   "note": ""
  },
  {
   "property": "C31",
   "status": "proved",
   "theorems": [
    "Cnn.C31_slots",
    "Cnn.C31_select",
    "Cnn.C31_avg"
   ],
   "note": ""
  },
  {
   "property": "C32",
   "status": "partial",
   "theorems": [
    "Cnn.C32_checkSize",
    "Cnn.C32_throws_partial",
    "Cnn.C32_violated"
   ],
   "note": "False of the code: propagateForward never calls checkSize, and for huge pools the product of the negative output dimensions overflows an int (C32_violated). Every other undersized input throws (C32_throws_partial); checkSize is exact (C32_checkSize)."
  },
  {
   "property": "C33",
   "status": "proved",
   "theorems": [
    "Cnn.C33_entries",
    "Cnn.C33_formula",
    "Cnn.C33_depth"
   ],
   "note": ""
  },
  {
   "property": "C34",
   "status": "partial",
   "theorems": [
    "Cnn.C34_violated",
    "Cnn.C34_throws_partial"
   ],
   "note": "False of the code: an input exactly one smaller than the filter gives an empty output matrix that is then written (C34_violated). Every other undersized input throws (C34_throws_partial)."
  },
  {
   "property": "C35",
   "status": "proved",
   "theorems": [
    "Cnn.C35_gradients"
   ],
   "note": ""
  },
  {
   "property": "C36",
   "status": "partial",
   "theorems": [
    "Cnn.C36_input_partial",
    "Cnn.C36_nonsquare_throws",
    "Cnn.C36_violated"
   ],
   "note": "False of the code for non-square outputs: the gradient is rotated by 180 degrees through rotate(), which throws for non-square matrices (C36_nonsquare_throws, C36_violated). Exact for square outputs (C36_input_partial)."
  },
  {
   "property": "C37",
   "status": "proved",
   "theorems": [
    "Cnn.C37_forward",
    "Cnn.C37_first",
    "Cnn.C37_history"
   ],
   "note": ""
  },
  {
   "property": "C38",
   "status": "partial",
   "theorems": [
    "Cnn.C38_gradients_partial",
    "Cnn.C38_order",
    "Cnn.C38_stored_shape",
    "Cnn.C38_violated",
    "Cnn.C38_shape_violated"
   ],
   "note": "False of the code in two ways: if the compiler moves the operands of matrixMultiply before it evaluates the dimensions, every backward pass writes outside an empty vector (C38_order, C38_violated); and the returned gradient has the shape of the layer's first input, not of the current one (C38_stored_shape, C38_shape_violated). Exact otherwise (C38_gradients_partial)."
  },
  {
   "property": "C39",
   "status": "proved",
   "theorems": [
    "Cnn.C39_kernel",
    "Cnn.C39_connected",
    "Cnn.C39_arithmetic",
    "Cnn.C39_order",
    "Cnn.C39_unfilled_slot"
   ],
   "note": "For non-empty batches (an empty batch divides 0 by 0 in C++). C39_arithmetic is the statement in the code's own arithmetic; C39_unfilled_slot says what happens to slots no sample has filled."
  },
  {
   "property": "C40",
   "status": "proved",
   "theorems": [
    "Cnn.C40_kernel",
    "Cnn.C40_connected"
   ],
   "note": ""
  },
  {
   "property": "C41",
   "status": "partial",
   "theorems": [
    "Cnn.C41_round_trip",
    "Cnn.C41_unsigned",
    "Cnn.C41_line",
    "Cnn.C41_injective",
    "Cnn.C41_violated",
    "Cnn.C41_mismatch_partial",
    "Cnn.C41_failed_partial",
    "Cnn.C41_missing_number_violated"
   ],
   "note": "Reading back is proved for all labels, numbers and following text (C41_round_trip, C41_unsigned, C41_line). A differing stream is reported for every label that does not end in a blank (C41_mismatch_partial); for a label ending in a blank a short stream is accepted (C41_violated), and a missing number yields an uninitialised value (C41_missing_number_violated)."
  },
  {
   "property": "C42",
   "status": "proved",
   "theorems": [
    "Cnn.C42_round_trip",
    "Cnn.C42_nonfinite",
    "Cnn.C42_out_of_range",
    "Cnn.C42_double",
    "Cnn.C42_float",
    "Cnn.C42_precision",
    "Cnn.C42_formats",
    "Cnn.C42_reads"
   ],
   "note": "For every conversion that meets Codec.Lawful, which is proved for IEEE binary64 and binary32 (C42_double, C42_float); C42_nonfinite: infinities and NaN cannot be read back; C42_out_of_range: a file with a number the receiving type cannot hold is reported as unreadable. C42_formats: the finite values of both formats; C42_reads: what is read for a decimal number in range, and when it is reported as out of range."
  },
  {
   "property": "C43",
   "status": "partial",
   "theorems": [
    "Cnn.C43_empty_partial",
    "Cnn.C43_violated",
    "Cnn.C43_next_label_violated"
   ],
   "note": "False of the code: after a matrix without entries one newline is left in the stream (C43_violated, C43_next_label_violated); dimensions are restored (C43_empty_partial)."
  },
  {
   "property": "C44",
   "status": "proved",
   "theorems": [
    "Cnn.C44_round_trip",
    "Cnn.C44_same"
   ],
   "note": "For every receiving layer and every following text. The stride is not part of the text: the receiver keeps its own, so the loaded layer is the saved one if the strides agree (C44_same)."
  },
  {
   "property": "C45",
   "status": "partial",
   "theorems": [
    "Cnn.C45_read",
    "Cnn.C45_violated",
    "Cnn.C45_partial",
    "Cnn.C45_unknown_type"
   ],
   "note": "False of the code: the stride is not saved, deserialize sets it to the pool size (C45_violated); true if the stride is the pool size (C45_partial). What is restored in general: C45_read; unknown types: C45_unknown_type."
  },
  {
   "property": "C46",
   "status": "partial",
   "theorems": [
    "Cnn.C46_forward_partial",
    "Cnn.C46_backward",
    "Cnn.C46_unused",
    "Cnn.C46_violated",
    "Cnn.C46_backward_violated"
   ],
   "note": "Forward propagation is restored (C46_forward_partial); backward propagation throws because the input dimensions are not restored (C46_backward, C46_backward_violated); text of a never-used layer leaves the reader with a newline too many (C46_unused, C46_violated)."
  },
  {
   "property": "C47",
   "status": "partial",
   "theorems": [
    "Cnn.C47_read",
    "Cnn.C47_unknown",
    "Cnn.C47_names",
    "Cnn.C47_violated",
    "Cnn.C47_partial"
   ],
   "note": "False of the code: deserialize stores the name but not the function pointers, so the receiver computes its old function (C47_read, C47_violated); true if both layers have the same function (C47_partial); unknown names are reported (C47_unknown)."
  },
  {
   "property": "C48",
   "status": "partial",
   "theorems": [
    "Cnn.C48_load",
    "Cnn.C48_round_trip_partial",
    "Cnn.C48_activation_lost",
    "Cnn.C48_violated",
    "Cnn.C48_label_cut",
    "Cnn.C48_labels_lost",
    "Cnn.C48_label_as_layer"
   ],
   "note": "True for convolutions with stride 1, pooling with stride = size, used fully connected layers, labels of one word (C48_round_trip_partial, C48_load for every receiver). False in general: activation layers are dropped (C48_activation_lost, C48_violated), labels with blanks are cut or lost (C48_label_cut, C48_labels_lost), a label can be taken for a layer (C48_label_as_layer)."
  },
  {
   "property": "C49",
   "status": "partial",
   "theorems": [
    "Cnn.C49_terminates",
    "Cnn.C49_missing",
    "Cnn.C49_unwritable",
    "Cnn.C49_never_false",
    "Cnn.C49_no_layers",
    "Cnn.C49_violated",
    "Cnn.C49_reported_partial",
    "Cnn.C49_escapes",
    "Cnn.C49_negative_dims"
   ],
   "note": "False of the code: a missing file and every file without a layer name count as loaded, an unwritable file as saved (C49_missing, C49_no_layers, C49_unwritable, C49_violated); saveModel never returns false (C49_never_false). loadModel ends on every file (C49_terminates); malformed layers that are reported: C49_reported_partial; negative counts and dimensions escape as std::length_error (C49_escapes, C49_negative_dims)."
  },
  {
   "property": "C50",
   "status": "partial",
   "theorems": [
    "Cnn.C50_partition_partial",
    "Cnn.C50_violated",
    "Cnn.C50_disjoint"
   ],
   "note": "Proved for every batch size below 2^24 and every positive thread count; disjointness and staying inside the batch for every batch size. For larger batch sizes the claim is false (float rounding): one thread, batch size 2^24+1."
  },
  {
   "property": "C51",
   "status": "partial",
   "theorems": [
    "Cnn.C51_order",
    "Cnn.C51_slots",
    "Cnn.C51_finished",
    "Cnn.C51_count_partial",
    "Cnn.C51_left_out"
   ],
   "note": "Order of the source, distinct slots, no two threads on a slot, processed = taken: every batch size, thread count, source and schedule. The exact count min(batch, available) is proved for batch sizes below 2^24; C51_left_out shows that it fails at 2^24+1."
  },
  {
   "property": "C52",
   "status": "partial",
   "theorems": [
    "Cnn.Train.C52_same_label",
    "Cnn.C52_last_writer",
    "Cnn.C52_undisturbed_partial",
    "Cnn.C52_one_thread_partial",
    "Cnn.C52_violated"
   ],
   "note": "False with two threads: C52_violated is an execution in which a sample's gradient is computed with another sample's label. Proved: the label used is always the one stored last (every schedule), hence the claim for one thread and for executions without interference. C52_same_label: with one thread per sample, for every sample of a batch some schedule trains all samples of the batch with its label."
  },
  {
   "property": "C53",
   "status": "partial",
   "theorems": [
    "Cnn.Overlap.C53_overlap_partial",
    "Cnn.Train.C53_progress_partial",
    "Cnn.Train.C53_own_labels_possible_partial",
    "Cnn.Train.C53_any_labels_partial",
    "Cnn.Train.C53_update_partial",
    "Cnn.Train.C53_schedules_partial",
    "Cnn.Train.C53_batches_partial"
   ],
   "note": "For every schedule of runBatch (any threads, any interleaving of layer calls): after a full batch in which every gradient used its own label, each weight is w - rate * mean of the gradients the samples give on their own (C53_update_partial); two runs with different threads and schedules give the same parameters (C53_schedules_partial), also over several full batches (C53_batches_partial). For every schedule, without the condition on labels, each sample enters the update exactly once, with the label of some sample of the batch (C53_any_labels_partial). If every sample passes through the model, no schedule fails and some schedule completes (C53_progress_partial). Partial: the condition on labels in the first three (C52 shows that two threads can mix labels; C53_own_labels_possible_partial: for every number of threads some schedule completes the batch with each gradient using its own label); batch size below 2^24, fully connected layers already sized, positive pooling strides; calls of layers are atomic in the model, except in C53_overlap_partial, where they overlap in time; exact arithmetic (any field). C53_progress_partial and C53_own_labels_possible_partial hold in any arithmetic."
  },
  {
   "property": "C54",
   "status": "partial",
   "theorems": [
    "Cnn.C54_one_thread",
    "Cnn.Train.C54_violated",
    "Cnn.Train.C54_slots_partial",
    "Cnn.Train.C54_entries",
    "Cnn.Train.C54_exhausted",
    "Cnn.Train.C54_update_partial",
    "Cnn.Train.C54_fresh_short_batch"
   ],
   "note": "Does not hold of the code: C54_violated gives a trained state, reached from setBatchSize by complete batches, in which a short batch adds the gradient an earlier batch left in an unused slot. C54_update_partial gives the exact formula for every schedule: the update divides by the batch size and adds what is left in the slots that no sample filled; a first batch that is short never completes (C54_fresh_short_batch). Partial: the restrictions of C53 in C54_update_partial. C82 says what this makes of a whole training. C54_slots_partial, C54_entries and C54_exhausted need no law of arithmetic: after any batch, full, short or empty, a slot holds the gradients of the sample that got it (if its own label was used) or what it held before, and the update sums all slots in their order. With one thread nothing is left open: C54_one_thread gives the update after any batch in any arithmetic, without a condition on labels, as the sum in the order of the source of what the samples give on their own and then of what the slots behind a short batch held before."
  },
  {
   "property": "C55",
   "status": "partial",
   "theorems": [
    "Cnn.C55_epoch_partial",
    "Cnn.C55_violated",
    "Cnn.C55_left_out"
   ],
   "note": "Proved for sources and batches of fewer than 2^24 samples, every thread count and schedule; false for 2^24+1 samples in batches of one (C55_violated, C55_left_out)."
  },
  {
   "property": "C56",
   "status": "partial",
   "theorems": [
    "Cnn.FirstUse.C56_alone",
    "Cnn.FirstUse.C56_initialised_partial",
    "Cnn.FirstUse.C56_throws",
    "Cnn.FirstUse.C56_violated",
    "Cnn.FirstUse.C56_two_weights"
   ],
   "note": "Violated on first use. C56_throws: for every layer size, inputs and random numbers, a second thread throws if the first is interrupted right after it sets initialized_. C56_two_weights: a schedule (one concrete case) in which two threads compute with different weights. C56_alone: an uninterrupted call behaves as in the sequential model. C56_initialised_partial: once the size is fixed, every interleaving of any number of calls is correct."
  },
  {
   "property": "C57",
   "status": "proved",
   "theorems": [
    "Cnn.C57_scan",
    "Cnn.C57_unbeaten",
    "Cnn.C57_first",
    "Cnn.C57_nan",
    "Cnn.C57_consistent",
    "Cnn.C57_largest",
    "Cnn.C57_returns",
    "Cnn.C57_mismatch"
   ],
   "note": "C57_scan: the label in any arithmetic and with any comparison, as a scan from the left. C57_unbeaten: with any strict order, total or not (doubles with NaN), no output compares greater than the one of the label. If the first output is NaN and there is no softmax layer, the label is the first although other outputs are numbers (C57_first, C57_nan); with softmax all outputs are NaN then (C97)."
  },
  {
   "property": "C58",
   "status": "partial",
   "theorems": [
    "Cnn.C58_reads_outside",
    "Cnn.C58_violated",
    "Cnn.C58_known_partial"
   ],
   "note": "False: an unknown label makes lossFcn read past the end of the output before assignTrueLabel can reject it (C58_reads_outside, for every model). Proved for known labels."
  },
  {
   "property": "C59",
   "status": "partial",
   "theorems": [
    "Cnn.Mnist.C59_history_partial",
    "Cnn.Mnist.C59_records",
    "Cnn.Mnist.C59_in_order",
    "Cnn.Mnist.C59_endian",
    "Cnn.Mnist.C59_refused",
    "Cnn.Mnist.C59_stuck",
    "Cnn.Mnist.C59_violated"
   ],
   "note": "C59_history_partial: any sequence of getImage and nextImage calls whose indices give file offsets the system accepts (all existing records do, C59_records). C59_endian: header integers do not depend on the host byte order. Violated beyond that (C59_stuck, C59_violated): after getImage with an index such as 2^63 the fail bit stays set and no image can be read any more."
  },
  {
   "property": "C60",
   "status": "proved",
   "theorems": [
    "Cnn.Mnist.C60_value",
    "Cnn.Mnist.C60_monotone",
    "Cnn.Mnist.C60_injective",
    "Cnn.Mnist.C60_range",
    "Cnn.Mnist.C60_images"
   ],
   "note": "All 256 byte values and all images of all well-formed files. Values are those of the float model: (b-128)/255 within 2^-25, strictly increasing in b, between the values of the bytes 0 and 255."
  },
  {
   "property": "C61",
   "status": "proved",
   "theorems": [
    "Cnn.Mnist.C61_epochs",
    "Cnn.Mnist.C61_empty"
   ],
   "note": "For every well-formed pair of files with at least one record and every sequence of calls before a reset: exactly size() samples, records 1..n-1 in order. Finding: record 0 is never handed out. Without records the construction throws (C61_empty)."
  },
  {
   "property": "C62",
   "status": "proved",
   "theorems": [
    "Cnn.C62_call",
    "Cnn.C62_layers",
    "Cnn.C62_distinct",
    "Cnn.C62_too_many"
   ],
   "note": "Any sequence of add calls that return; counts that do not fit int are refused by std::length_error (C62_too_many)."
  },
  {
   "property": "C63",
   "status": "partial",
   "theorems": [
    "Cnn.Image.C63_bw_partial",
    "Cnn.Image.C63_colour",
    "Cnn.Image.C63_constant",
    "Cnn.Image.C63_violated"
   ],
   "note": "C63_bw_partial, C63_colour: any monotone rounding, any image whose smallest entry differs from the maximum used. Violated by constant images of value at least 1 (C63_constant): 0/0 converted to unsigned char."
  },
  {
   "property": "C64",
   "status": "partial",
   "theorems": [
    "Cnn.C64_bar_partial",
    "Cnn.C64_constant_partial",
    "Cnn.C64_wider",
    "Cnn.C64_violated",
    "Cnn.C64_percent_partial"
   ],
   "note": "C64_bar_partial: the filled part is monotone and at most width. Violated: the completely filled bar is one column wider than all others (C64_wider). C64_percent_partial (exact arithmetic): the percentage behind the bar always takes five columns and is the rounded down percentage plus one."
  },
  {
   "property": "C65",
   "status": "partial",
   "theorems": [
    "Cnn.C65_gradient_partial",
    "Cnn.C65_violated"
   ],
   "note": "C65_gradient_partial: exact arithmetic, any number of layers (convolutions of stride 1, pooling of all kinds, fully connected layers, RELU/LINEAR activations) before the softmax. The forward pass returns the softmax of the composed functions, and every stored weight and bias gradient is the derivative of the loss with respect to that parameter. Hypotheses: the loss is evaluated away from kinks (no RELU argument 0, a unique extremum in each pooling window), convolutions other than the first layer have square outputs, activations only RELU or LINEAR. Missing: stride 2 or more, rounding, and the cases where the code is wrong. C65_violated: the full claim is false (a non-square convolution that is not first makes backwardsPropagation throw). C83 says what is stored for the other activations and at kinks and ties."
  },
  {
   "property": "C66",
   "status": "partial",
   "theorems": [
    "Cnn.C66_rejected",
    "Cnn.C66_violated",
    "Cnn.C66_kernel",
    "Cnn.C66_connected",
    "Cnn.C66_shipped"
   ],
   "note": "False: the shipped file has the activation function in the line after Kernel, and every file that begins that way is rejected (C66_rejected, C66_violated). C66_kernel and C66_connected say so for any first line and any model; C66_shipped for the lines the shipped file starts with: one convolution layer is left behind."
  },
  {
   "property": "C67",
   "status": "partial",
   "theorems": [
    "Cnn.Train.C67_batch_partial",
    "Cnn.Train.C67_train_partial",
    "Cnn.Train.C67_completes_partial",
    "Cnn.Train.C67_threads_partial",
    "Cnn.Train.C67_fresh_partial",
    "Cnn.Train.C67_fresh_threads_partial",
    "Cnn.Train.C67_violated"
   ],
   "note": "Proved for train (C67_train_partial: no schedule fails, and a completed run leaves the network made by gradient descent; C67_completes_partial: there are completed runs; C67_threads_partial: for every number of threads there are schedules under which train is gradient descent) and for one batch of any number of threads when every gradient used its own label (C67_batch_partial). Partial: real arithmetic without rounding; all batches full (C67_violated: the full claim fails when the last batch is short; C82 says what happens then); convolutions after the first layer with square outputs (C36); RELU/LINEAR activations (C24); batch size and source size below 2^24; each network on the way is differentiable, layer by layer, at the next samples. Fully connected layers may be without weights at the start: C67_fresh_partial, C67_fresh_threads_partial."
  },
  {
   "property": "C68",
   "status": "partial",
   "theorems": [
    "Cnn.Train.C68_batch_partial",
    "Cnn.Train.C68_train_partial",
    "Cnn.Train.C68_completes_partial",
    "Cnn.Train.C68_fresh_partial",
    "Cnn.Overlap.C68_overlap_partial"
   ],
   "note": "Proved for train with any number of threads and all schedules (C68_train_partial, C68_completes_partial) and for one batch (C68_batch_partial). Partial: the same restrictions as C67; smoothness is required for all assignments of labels within batches. C68_overlap_partial: calls that overlap in time. C68_fresh_partial covers models before their first use."
  },
  {
   "property": "C69",
   "status": "partial",
   "theorems": [
    "Cnn.Train.C69_build_train_partial",
    "Cnn.Train.C69_threads_partial"
   ],
   "note": "Proved with one thread for all schedules (C69_build_train_partial) and, for every number of threads, for some schedules (C69_threads_partial). Partial: the restrictions of C67, and layer calls are atomic (C56 and C80 show the race of several threads at the first use). The program's own model in main.cpp has a SIGMOID layer, whose gradient is wrong (C24), so the statement does not cover it."
  },
  {
   "property": "C70",
   "status": "partial",
   "theorems": [
    "Cnn.Train.C70_train_partial",
    "Cnn.Train.C70_train_ends",
    "Cnn.Train.C70_trained_partial",
    "Cnn.Train.C70_build_train_partial",
    "Cnn.Train.C70_one_thread"
   ],
   "note": "Proved for every arithmetic (no law is assumed of the numbers) and every network whose layers fit (Spec/Safe.lean). In full for one thread (C70_one_thread). For any number of threads and every interleaving of layer calls: the build calls and training do not fail (C70_build_train_partial, C70_train_partial), training can be completed (C70_train_ends), and a trained model classifies every input of the right shape and can be trained again (C70_trained_partial). Missing because the code violates it: several threads inside the first call of the same fully connected layer can make it throw and end the program (C56_throws, C80_abort). Assumed: the first epoch fills a batch (otherwise C54_fresh_short_batch), sizes below 2^31 (2^24 where float is used), arguments of getdLdX evaluated with the dimensions first (otherwise C38_order), square outputs of inner convolutions (otherwise C36_nonsquare_throws)."
  },
  {
   "property": "C72",
   "status": "partial",
   "theorems": [
    "Cnn.Validate.C72_count_partial",
    "Cnn.Validate.C72_ends",
    "Cnn.Validate.C72_one_thread",
    "Cnn.Validate.C72_no_pooling"
   ],
   "note": "Any number of threads, any interleaving of layer calls, any arithmetic: every image classified once, as by the model alone; the count is the number of images classified correctly; completing schedules exist. In full for one thread (C72_one_thread). Partial: a layer call is one step; two threads inside the same pooling call race (C73). C72_no_pooling: in full for models without pooling layers, any number of threads (no data race is ever reached, C100)."
  },
  {
   "property": "C73",
   "status": "partial",
   "theorems": [
    "Cnn.Validate.C73_race",
    "Cnn.Validate.C73_violated"
   ],
   "note": "Violated for every model with a pooling layer, at least two threads and two images (C73_race, C73_violated): all validation threads use batch slot 0. The accounting is unaffected as long as calls are atomic (C72)."
  },
  {
   "property": "C74",
   "status": "partial",
   "theorems": [
    "Cnn.C74_nearest",
    "Cnn.Validate.C74_throws",
    "Cnn.Validate.C74_violated",
    "Cnn.Validate.C74_inspect_partial",
    "Cnn.Validate.C74_validate_partial",
    "Cnn.Validate.C74_validate_throws"
   ],
   "note": "Violated: rand() == RAND_MAX picks the image after the last one and getImage throws (C74_throws, C74_violated). Every other value works, for any rounding to double with relative error at most 2^-53 (C74_inspect_partial, C74_validate_partial for the whole of validate). C74_nearest: the rounding used in the examples is to nearest, ties to even."
  },
  {
   "property": "C71",
   "status": "partial",
   "theorems": [
    "Cnn.Main.C71_program_partial",
    "Cnn.Main.C71_ends",
    "Cnn.Main.C71_throws",
    "Cnn.Main.C71_violated"
   ],
   "note": "C71_program_partial: for all suitable files, weights, arithmetic, learning rates, cores and schedules main() neither throws nor aborts nor reaches undefined behaviour, trains from the MNIST source on records 1..n-1 twice, reports the successes of each epoch out of n-1, counts the test images classified correctly, shows five images and saves; C71_ends: for every host there are schedules under which it ends. Missing: a call of a layer is one step of a thread (C73_violated and C80_program say what else can happen with several threads) and rand() returning RAND_MAX: then main ends with an uncaught exception (C71_throws, C71_violated)."
  },
  {
   "property": "C75",
   "status": "partial",
   "theorems": [
    "Cnn.Main.C75_lost",
    "Cnn.Main.C75_violated"
   ],
   "note": "False of the code: C75_lost - for all files, weights, arithmetic and schedules, the eight-layer network that main saves loads, with result true, as a six-layer network without its two activation layers; the other layers and the labels are restored. C75_violated refutes the claim."
  },
  {
   "property": "C76",
   "status": "proved",
   "theorems": [
    "Cnn.Overlap.C76_overlap",
    "Cnn.Overlap.C76_sequential",
    "Cnn.Overlap.C76_iff",
    "Cnn.Overlap.C76_safe"
   ],
   "note": "Overlapping layer calls: each call sees its layer as of any moment in between and may leave anything in its own slot until it ends; C76_overlap and C76_sequential give both inclusions, C76_iff the transfer of any statement on outcomes, C76_safe C70 for overlapping calls. Fully connected layers must have been used before (first use: C56). Calls of the output layer are single steps, because they read one int and write nothing; the race on that int is C52."
  },
  {
   "property": "C77",
   "status": "partial",
   "theorems": [
    "Cnn.C77_make",
    "Cnn.C77_missing",
    "Cnn.C77_same_partial",
    "Cnn.C77_violated",
    "Cnn.C77_dim2_differ",
    "Cnn.C77_violated_sum",
    "Cnn.C77_add",
    "Cnn.C77_sub",
    "Cnn.C77_size",
    "Cnn.C77_flat",
    "Cnn.C77_next",
    "Cnn.C77_text",
    "Cnn.C77_move",
    "Cnn.C77_dim3"
   ],
   "note": "False of the code for comparison when N < 3: == also compares the padding up to three components, so dim2(x,y) == dim2(x,y) reads an unwritten int (C77_violated) and dim2(5) == dim2(3)+dim2(2) is false (C77_violated_sum). Proved for all N: construction (C77_make), + and - including overflow (C77_add, C77_sub), size, getFlatIdx as a numbering of the box (C77_flat), the iterator (C77_next), printing, moves; comparison for N >= 3 (C77_same_partial); the Dim3 used in the rest of the model is Dim<3> (C77_dim3). Built from too few values, components stay unwritten (C77_missing)."
  },
  {
   "property": "C78",
   "status": "partial",
   "theorems": [
    "Cnn.C78_layout",
    "Cnn.C78_state_partial",
    "Cnn.C78_violated",
    "Cnn.C78_aligned",
    "Cnn.C78_violated_other",
    "Cnn.C78_wide",
    "Cnn.C78_least_int"
   ],
   "note": "The layout holds for all matrices and streams that pad with blanks on the left (C78_layout); rows to std::cout line up while magnitudes stay below 9999.995 (C78_aligned, C78_wide). False of the code: the two decimals are set on std::cout and missing on any other stream (C78_violated_other), and std::cout loses its notation, also when another stream was printed to (C78_violated; what is kept: C78_state_partial). An int matrix with the least int is undefined behaviour (C78_least_int). How numbers look in a formatting state is a parameter; failed streams are not modelled."
  },
  {
   "property": "C79",
   "status": "partial",
   "theorems": [
    "Cnn.Train.C79_slot",
    "Cnn.Train.C79_batch_partial",
    "Cnn.Train.C79_epoch_partial",
    "Cnn.Train.C79_train_partial",
    "Cnn.Train.C79_one_thread",
    "Cnn.Train.C79_reported",
    "Cnn.Train.C79_percent",
    "Cnn.Overlap.C79_overlap_partial"
   ],
   "note": "Batches, epochs and trainings under any schedule, for networks whose layers fit and sources whose first epoch fills a batch, with a call of a layer as one step of a thread; in full for one thread. C79_overlap_partial: calls that overlap in time, after the first use. Missing: two threads inside the first call of a fully connected layer (C56, C80). The printed text is the number only; rounding of the division is not modelled."
  },
  {
   "property": "C80",
   "status": "partial",
   "theorems": [
    "Cnn.Race.C80_abort",
    "Cnn.Race.C80_violated",
    "Cnn.Race.C80_program",
    "Cnn.Race.C80_one_thread",
    "Cnn.Race.C80_used",
    "Cnn.Race.C80_includes",
    "Cnn.Race.C80_safe_partial"
   ],
   "note": "Violated: C80_abort gives, for every network with a fully connected layer, at least two threads, batches of at least two samples and all data and random numbers, an order of steps in which an exception leaves a thread and the program is terminated; C80_program is the case of main.cpp on a machine with at least two cores. C80_safe_partial: safe with one thread, or if the fully connected layers have been used before. C80_one_thread and C80_used: in these cases the outcomes are those of the model with atomic calls; C80_includes: the converse inclusion. Steps inside the loops over weights and inside other layers are not interleaved (other layers: C76)."
  },
  {
   "property": "C81",
   "status": "proved",
   "theorems": [
    "Cnn.Feed.C81_train",
    "Cnn.Feed.C81_model",
    "Cnn.Feed.C81_again",
    "Cnn.Feed.C81_asks_first",
    "Cnn.Feed.C81_list",
    "Cnn.Main.C81_mnist",
    "Cnn.Feed.C81_reset_throws",
    "Cnn.Feed.C81_next_throws"
   ],
   "note": "C81_train and C81_model: for every data source that serves lists of samples between resets (Feeds), training from the source equals training on the lists, including failures and the numbers printed; C81_again: afterwards the source serves the remaining lists; C81_asks_first: sources that differ only in what getNextDataPoint does without data are trained on alike; C81_list and C81_mnist: the hypotheses hold for a list served repeatedly and for the MNIST source, which serves records 1..n-1. hasAvailableData and size are taken to leave the source as it is and not to throw, as those of the MNIST source do (DataGenerator.h does not require it). C81_reset_throws: an exception of reset reaches the caller of train; C81_next_throws: one of getNextDataPoint ends the program, as a thread does not catch it."
  },
  {
   "property": "C82",
   "status": "partial",
   "theorems": [
    "Cnn.Overlap.C82_overlap_partial",
    "Cnn.Train.C82_train_partial",
    "Cnn.Train.C82_completes_partial",
    "Cnn.Train.C82_threads_partial",
    "Cnn.Train.C82_threads_completes_partial",
    "Cnn.Train.C82_fresh_partial",
    "Cnn.Train.C82_fresh_threads_partial",
    "Cnn.Train.C82_build_partial"
   ],
   "note": "C82_train_partial (one thread: exactly the sequence of networks of Spec/Stale), C82_completes_partial, C82_threads_partial (any threads and schedules: some sequence allowed by Spec/Stale), C82_threads_completes_partial, C82_fresh_partial and C82_fresh_threads_partial (fully connected layers without weights at the start), C82_build_partial (from the add... calls on). C67_violated is derived from it. Partial: real arithmetic without rounding; convolutions after the first layer with square outputs (C36); RELU/LINEAR activations (C24); at least one full batch (otherwise C54_fresh_short_batch); fewer than 2^24 samples; the networks on the way differentiable, layer by layer, at the next samples; a call of a layer is one step of a thread (C56), except in C82_overlap_partial: models whose fully connected layers have been used, calls overlapping in time. C82_threads_completes_partial needs no differentiability. C83 removes the conditions on activations, kinks and ties."
  },
  {
   "property": "C83",
   "status": "partial",
   "theorems": [
    "Cnn.Overlap.C83_overlap_partial",
    "Cnn.Train.C83_one_label_partial",
    "Cnn.C83_value",
    "Cnn.C83_gradient_partial",
    "Cnn.Train.C83_train_partial",
    "Cnn.Train.C83_threads_partial",
    "Cnn.Train.C83_build_partial",
    "Cnn.C83_sigmoid",
    "Cnn.Main.C83_program_partial"
   ],
   "note": "C83_gradient_partial (one pass), C83_value (the network differentiated has the same value and parameters), C83_train_partial, C83_threads_partial, C83_build_partial (training, with the remembered gradients of C82), C83_program_partial (main: the trained model on any suitable files, any number of cores, any schedules), C83_sigmoid (an example where the stored number is not the derivative of the loss). No condition on activations, kinks or ties. Partial: real arithmetic without rounding; convolutions after the first layer with square outputs (otherwise the code throws, C36); at least one full batch; batch size and source size below 2^24; a call of a layer is one step of a thread, except in C83_overlap_partial: models whose fully connected layers have been used, calls overlapping in time. C83_one_label_partial: with any number of threads and all schedules, training on full batches of samples with the same label is the gradient descent of one thread."
  },
  {
   "property": "C84",
   "status": "proved",
   "theorems": [
    "Cnn.C84_probabilities",
    "Cnn.C84_label",
    "Cnn.C84_exact",
    "Cnn.C84_double"
   ],
   "note": "C84_probabilities (all outputs finite, explicit bound on every probability), C84_label (the exact network's label when the margin exceeds the bound), C84_exact (with exact arithmetic the bound is 0), C84_double (binary64). `Floating` (Spec/Rounding) says what is assumed of an arithmetic: relative error u and absolute error η for the four operations, exp, tanh and conversions of counts, exact comparisons. Double.floating proves it for the model of binary64 (round to nearest even, subnormals, overflow to infinity, NaN); the library functions exp and tanh are taken to be correctly rounded and -0 is identified with 0. Convolutions behind the first layer with square outputs, as NetFits says (C36)."
  },
  {
   "property": "C85",
   "status": "partial",
   "theorems": [
    "Cnn.C85_infinite_inputs",
    "Cnn.C85_finite_partial",
    "Cnn.C85_overflow",
    "Cnn.C85_violated"
   ],
   "note": "Violated: C85_overflow gives a network with one weight 2^900 and the input 2^900 for which all probabilities are NaN and the label is the one the exact network finds less likely; C85_violated is the negation of C85_claim. C85_finite_partial: it holds if no sum of magnitudes overflows. C85_infinite_inputs: what the activation layers make of infinities."
  },
  {
   "property": "C86",
   "status": "partial",
   "theorems": [
    "Cnn.C86_exceptions",
    "Cnn.C86_threads",
    "Cnn.C86_terminates",
    "Cnn.C86_violated"
   ],
   "note": "Violated: C86_violated (negation of C86_claim) with a sample of two channels for a network of one channel; C86_terminates gives the general case: forwardPropagation throws for the first sample and the first thread comes to work on it, then std::terminate. C86_threads: no schedule of the threads hands on an exception. C86_exceptions: the only exceptions that leave train are length_error (vectors of negative size) and MatrixSizeException (update after a batch, C67)."
  },
  {
   "property": "C87",
   "status": "partial",
   "theorems": [
    "Cnn.Train.C87_limit_partial",
    "Cnn.Train.C87_smooth_partial",
    "Cnn.Train.C87_descent_partial",
    "Cnn.Train.C87_build_partial",
    "Cnn.Train.C87_build_descent_partial"
   ],
   "note": "C87_limit_partial (every network of C70: the rounded run is within ε of a run in an arithmetic without rounding, IdealRun, where only the comparison of equal numbers is open), C87_smooth_partial (networks that compare no numbers: the run in real arithmetic), C87_descent_partial (the parameters are close to where gradient descent of C82/C83 takes them; any threads and schedules), C87_build_partial and C87_build_descent_partial (the same from the add… calls on, with random numbers close to given ones). The arithmetics are those of C84 (Floating) with further conditions on counts, sqrt and the conversion to float (Arith.Sharp); binary64 is one with δ = 2^-23 (Double.machine_sharp), fixed point with k digits one with δ = 2^-k (Fixed.machine_sharp), so the assumptions can be met for every δ. Partial: δ is not computed; the conditions of C70 on shapes, batch and source size, a call of a layer is one step; random numbers that are still needed are not zero; in networks with comparisons the exact run is one of several if numbers are equal."
  },
  {
   "property": "C88",
   "status": "partial",
   "theorems": [
    "Cnn.Console.C88_epoch",
    "Cnn.Console.C88_percent",
    "Cnn.Console.C88_violated",
    "Cnn.Console.C88_train",
    "Cnn.Console.C88_image",
    "Cnn.Console.C88_program"
   ],
   "note": "C88_epoch: after each batch one progress line of 56 columns without remains of earlier ones, its percentage is floor(100 n / K) + 1 and the bar is never completely filled; C88_train, C88_image, C88_program: the exact lines left on the terminal. Violated: an epoch ends at 100 % only if it has at least 100 batches (C88_percent), one of a single batch ends at 1 % (C88_violated). Assumed: at most 2^23 batches; a terminal of unbounded width; IEEE 754 rounding (proved of nearest 24, nearest 53). The texts of floating-point numbers are a parameter."
  },
  {
   "property": "C89",
   "status": "partial",
   "theorems": [
    "Cnn.C89_negative_batch",
    "Cnn.C89_negative_threads",
    "Cnn.C89_no_threads",
    "Cnn.C89_no_batch",
    "Cnn.C89_no_epochs",
    "Cnn.C89_violated",
    "Cnn.C89_partial"
   ],
   "note": "False: a number of threads or a batch size of 0 gives undefined behaviour (C89_no_threads, C89_no_batch, C89_violated). Negative numbers are reported by std::length_error (C89_partial), for every model with a convolution, pooling or fully connected layer; no epochs means nothing is learnt (C89_no_epochs)."
  },
  {
   "property": "C90",
   "status": "proved",
   "theorems": [
    "Cnn.Console.C90_answer",
    "Cnn.Console.C90_truth",
    "Cnn.Console.C90_weights"
   ],
   "note": "C90_answer and C90_truth hold in every arithmetic; C90_weights is about exact arithmetic (ℝ with its square root). debugLayerWeights is not called by the program."
  },
  {
   "property": "C91",
   "status": "partial",
   "theorems": [
    "Cnn.Train.C91_unique",
    "Cnn.Train.C91_batch_partial",
    "Cnn.Train.C91_train_partial",
    "Cnn.Train.C91_missing",
    "Cnn.Train.C91_rises",
    "Cnn.Train.C91_violated"
   ],
   "note": "Violated for networks with SIGMOID: C91_rises gives a model and a batch for which every small enough step raises the mean loss though the gradient is not 0 (the program takes the derivative of SIGMOID at the wrong place, C24); C91_violated refutes the full claim. C91_train_partial and C91_batch_partial prove it where every layer is differentiable and the activations are RELU or LINEAR, in exact arithmetic, for models whose fully connected layers have been used (train: one thread, one batch, every schedule; batch: any number of threads that use their own labels). C91_missing: the gradient is not 0 if a label is missing from the batch. C91_unique: the mean loss depends on the model only."
  },
  {
   "property": "C92",
   "status": "partial",
   "theorems": [
    "Cnn.Train.C92_converges_partial",
    "Cnn.Train.C92_infimum_partial",
    "Cnn.Train.C92_learns_partial",
    "Cnn.Train.C92_build_partial",
    "Cnn.Train.C92_same_label",
    "Cnn.Train.C92_violated"
   ],
   "note": "Violated with several threads: C92_same_label (for every label of the data some schedules make the trained model answer with it for every sample) and C92_violated. Proved in exact arithmetic for training with one thread: C92_converges_partial (the loss falls and the distance to any other parameters bounds the excess over their loss by 1/epochs), C92_infimum_partial, C92_learns_partial (right labels for all samples after enough epochs), C92_build_partial (the same from building the model with random weights). Missing: several threads that use their own labels, and rounding."
  },
  {
   "property": "C93",
   "status": "partial",
   "theorems": [
    "Cnn.Train.C93_mistakes_partial",
    "Cnn.Train.C93_accuracy_partial",
    "Cnn.Train.C93_learns_partial",
    "Cnn.Train.C93_build_partial"
   ],
   "note": "Proved in exact arithmetic for one thread and epochs of full batches: C93_mistakes_partial (the wrong answers counted during training are bounded by the distance to any other parameters and their loss, for every learning rate up to 2/R), C93_accuracy_partial (if the data can be told apart, the printed accuracies tend to 100 % on average and one of them is 100 %), C93_learns_partial (small learning rates: right labels for all samples after an explicit number of epochs), C93_build_partial (the same from building the model with random weights). Missing: several threads (see C92_violated), an incomplete last batch, and rounding."
  },
  {
   "property": "C94",
   "status": "proved",
   "theorems": [
    "Cnn.C94_batch",
    "Cnn.C94_batch_short",
    "Cnn.C94_forever",
    "Cnn.C94_train",
    "Cnn.C94_trains",
    "Cnn.C94_overlap",
    "Cnn.C94_race",
    "Cnn.C94_overlap_trains",
    "Cnn.C94_validate",
    "Cnn.C94_validates"
   ],
   "note": "for the model with calls as single steps, with overlapping calls, and with overlapping first calls; C94_trains and C94_validates combine it with C70 and C72. The mutex is modelled by atomic steps; that locking it ends is assumed"
  },
  {
   "property": "C95",
   "status": "proved",
   "theorems": [
    "Cnn.C95_unaffected",
    "Cnn.C95_changes",
    "Cnn.C95_races",
    "Cnn.C95_first_use",
    "Cnn.C95_reached",
    "Cnn.C95_one_thread",
    "Cnn.C95_swap"
   ],
   "note": "Footprints (reads/writes of each step at the granularity: members of a layer, one batch slot of a layer, label of the output layer, data source, success counter) are proved complete for the step function of Model/Train: a step neither depends on nor changes anything outside (C95_unaffected, C95_changes). Exact set of races in all reachable states (C95_races, C95_first_use), always reachable with two threads (C95_reached), absent with one (C95_one_thread); non-conflicting steps commute (C95_swap). Not modelled: memory the standard library shares between threads (allocator, streams), the records of results (one element per slot, written by its thread only) and local variables."
  },
  {
   "property": "C96",
   "status": "partial",
   "theorems": [
    "Cnn.C96_inside_partial",
    "Cnn.C96_between",
    "Cnn.C96_output_partial",
    "Cnn.C96_labels",
    "Cnn.C96_number",
    "Cnn.C96_undefined",
    "Cnn.C96_violated"
   ],
   "note": "C96_inside_partial: a file ending inside the text of a layer, behind its name and before its last number, never loads (result false, or undefined behaviour from an unread number: C96_undefined gives such a case); C96_output_partial: nor one ending in the lines behind Softmax. False elsewhere (C96_violated): between two layers (C96_between), among the labels (C96_labels) and in the last number of a pooling layer (C96_number) the end is not noticed and loadModel returns true."
  },
  {
   "property": "C97",
   "status": "partial",
   "theorems": [
    "Cnn.C97_overlap_stay",
    "Cnn.C97_overlap_train",
    "Cnn.C97_stay",
    "Cnn.C97_useless",
    "Cnn.C97_batch",
    "Cnn.C97_train",
    "Cnn.C97_double",
    "Cnn.C97_violated"
   ],
   "note": "False of the code (C97_violated, binary64 by C97_double). What happens in general: C97_stay, C97_batch, C97_train, C97_useless, for any arithmetic in which NaN is absorbing; with calls of layers that overlap in time: C97_overlap_stay, C97_overlap_train. Fully connected layers must have been used before (M.Used), the first batch must be full."
  },
  {
   "property": "C98",
   "status": "partial",
   "theorems": [
    "Cnn.C98_gradients_partial",
    "Cnn.C98_smooth_partial",
    "Cnn.C98_exact",
    "Cnn.C98_double",
    "Cnn.C98_float"
   ],
   "note": "C98_gradients_partial (derivatives of the loss of netSurrogate, C83; the stored gradients are finite and within netWeightErr, netBiasErr), C98_smooth_partial (the derivatives of the loss of the network itself if NetSmooth), C98_exact (the bounds are zero if nothing is rounded and no kink or tie is met), C98_double (binary64 with conversion to binary32: relative error 2^-24, absolute error 2^-150), C98_float (conversion to binary32 is to a nearest number). Partial: convolutions other than the first layer with square outputs (otherwise the code throws, C65_violated). exp, tanh and log as in C84."
  },
  {
   "property": "C99",
   "status": "partial",
   "theorems": [
    "Cnn.Train.C99_short_train_partial",
    "Cnn.Train.C99_short_one_partial",
    "Cnn.Train.C99_short_completes_partial",
    "Cnn.Train.C99_batch_partial",
    "Cnn.Train.C99_smooth_partial",
    "Cnn.Train.C99_train_partial",
    "Cnn.Train.C99_completes_partial",
    "Cnn.Train.C99_exact"
   ],
   "note": "Proved: C99_batch_partial (no schedule fails, some ends, parameters within stepErr of w - rate * mean of exact gradients, which are derivatives of the batch's mean loss of the network of C83), C99_smooth_partial (gradient descent on the mean loss where all layers are differentiable), C99_train_partial and C99_completes_partial (whole runs of train), C99_exact (the bound is zero without rounding). Any number of images from the batch size on, so short last batches that use remembered gradients (C54): C99_short_train_partial (any threads and schedules), C99_short_one_partial (one thread), C99_short_completes_partial. Missing: convolutions other than the first layer whose output is not square (C65_violated); fewer images than a batch on a fresh model (throws, C54_fresh_short_batch)."
  },
  {
   "property": "C100",
   "status": "proved",
   "theorems": [
    "Cnn.Validate.C100_unaffected",
    "Cnn.Validate.C100_changes",
    "Cnn.Validate.C100_races",
    "Cnn.Validate.C100_no_pooling",
    "Cnn.Validate.C100_reached",
    "Cnn.Validate.C100_first_use"
   ],
   "note": "The footprint of a step (C100_unaffected, C100_changes) is proved from the model; that the locations are the memory of the C++ program is part of the trusted base, as for C95. A call of a layer is one step."
  },
  {
   "property": "C101",
   "status": "partial",
   "theorems": [
    "Cnn.C101_one_label",
    "Cnn.C101_one_label_exact",
    "Cnn.C101_one_label_binary64",
    "Cnn.C101_one_thread",
    "Cnn.C101_one_thread_epoch",
    "Cnn.C101_orders",
    "Cnn.C101_close_partial",
    "Cnn.C101_violated",
    "Cnn.C101_train_violated",
    "Cnn.C101_one_sample",
    "Cnn.C101_order_free",
    "Cnn.C101_two",
    "Cnn.C101_binary64"
   ],
   "note": "Proved: C101_one_thread and C101_one_thread_epoch (one thread: determined, in any arithmetic), C101_orders (with as many threads as samples every order of the slots occurs with the right labels; the update is applyGrads on the gradients in the order of the slots), C101_close_partial (right labels: parameters after a batch differ by at most twice stepErr). False in general: C101_violated (binary64, one batch, all labels right) and C101_train_violated (the same for train). Missing: closeness over more than one batch, and the networks left out in C99. Batches of one sample (C101_one_sample): two calls of train with any numbers of threads and any schedules end with the same parameters in any arithmetic; no assumption about labels (a batch of one can only use its own). Batches of B samples where sums of B values do not depend on their order (C101_order_free; B=2 needs only 0+a+b=0+b+a, C101_two): the same for full batches in which each sample is used with its own label. C101_binary64 applies this to B=1 and B=2 in the type Binary64, which contains only the values a double can hold (Model/Binary64.lean). If in addition all samples of a batch have the same label (training data sorted by label), nothing is assumed about the schedules (C101_one_label), for every batch size in exact arithmetic (C101_one_label_exact) and for batches of two in binary64 (C101_one_label_binary64)."
  },
  {
   "property": "C102",
   "status": "proved",
   "theorems": [
    "Cnn.C102_field",
    "Cnn.C102_shift"
   ],
   "note": "C102_field: two passes of forwardPropagation over the same model; records after any number of the convolution, pooling and activation layers at the head of the model; the rectangle is computed by Spec/Local.field. C102_shift: shifted inputs. No law of arithmetic. Convolutions have stride 1 (addKernel gives no other; C18 for larger strides), pool sizes as in C29 (below 2^24)."
  },
  {
   "property": "C103",
   "status": "partial",
   "theorems": [
    "Cnn.C103_choice",
    "Cnn.C103_first",
    "Cnn.C103_later_partial",
    "Cnn.C103_violated"
   ],
   "note": "C103_choice: any arithmetic and comparison. C103_later_partial: windows beginning with a number. C103_first / C103_violated: windows beginning with a NaN give the NaN, in binary64 by witness. Pool sizes as in C29."
  },
  {
   "property": "C104",
   "status": "partial",
   "theorems": [
    "Cnn.Train.C104_train_partial",
    "Cnn.Train.C104_build_partial",
    "Cnn.Train.C104_shift_partial",
    "Cnn.C104_overlap_partial",
    "Cnn.C104_two",
    "Cnn.Main.C104_program_partial",
    "Cnn.Train.C104_one_label_partial"
   ],
   "note": "C104_train_partial (any threads and schedules, short batches included), C104_build_partial (from the add... calls on), C104_overlap_partial (calls that overlap in time), C104_program_partial (main), C104_two (two labels), C104_shift_partial (models that differ by the same numbers for all labels, one thread), C104_one_label_partial (the same for any threads, on full batches of samples with the same label). Partial: the restrictions of C83: real arithmetic without rounding, at least one full batch, inner convolutions with square outputs."
  },
  {
   "property": "C105",
   "status": "partial",
   "theorems": [
    "Cnn.C105_any",
    "Cnn.C105_zero",
    "Cnn.C105_binary64",
    "Cnn.Overlap.C105_overlap_any",
    "Cnn.Overlap.C105_overlap_binary64",
    "Cnn.Train.C105_train_partial",
    "Cnn.Train.C105_build_partial",
    "Cnn.Train.C105_outgoing_partial"
   ],
   "note": "C105_binary64: in binary64 (rounding, infinities, NaN) with a finite learning rate, for a first layer followed by RELU, any layers after, any threads and schedules, first batch full: each weight and the bias of the unit is exactly the same or NaN, and the unit is off for the training images afterwards. C105_any: the same for any arithmetic with the laws Absorbs, ZeroKept, ZeroOff; C105_zero with C108_nan and C108_zero: binary64 has them. C105_overlap_any, C105_overlap_binary64: with calls of layers that overlap in time. C105_train_partial: for units after other layers without parameters, in real arithmetic (any threads and schedules, short batches included), C105_build_partial (from the add... calls on). C105_outgoing_partial: the weights with which the next fully connected layer uses the unit stay the same, too. Partial: behind other layers only real arithmetic without rounding, with the restrictions of C83; one zero in binary64."
  },
  {
   "property": "C106",
   "status": "partial",
   "theorems": [
    "Cnn.Overlap.C106_overlap_any",
    "Cnn.C106_any",
    "Cnn.Train.C106_train_partial",
    "Cnn.Train.C106_overlap_partial"
   ],
   "note": "C106_any: in any arithmetic (no law is used, so with rounding, infinities and NaNs), for all layers around the two, any threads and schedules, first batch full. C106_train_partial: the same as a statement about the network the model denotes, in real arithmetic. C106_overlap_any: in any arithmetic with calls that overlap in time; C106_overlap_partial: the same in real arithmetic, about the network denoted. Partial: the weights must have been drawn before (Used)."
  },
  {
   "property": "C107",
   "status": "partial",
   "theorems": [
    "Cnn.Train.C107_train_partial",
    "Cnn.Train.C107_constant_partial",
    "Cnn.Train.C107_black_partial",
    "Cnn.Train.C107_overlap_partial",
    "Cnn.Train.C107_build_partial"
   ],
   "note": "C107_train_partial (any threads and schedules, short batches included), C107_constant_partial (linear relations), C107_black_partial (a pixel that is always 0), C107_overlap_partial (calls that overlap in time), C107_build_partial (from the add... calls on). Partial: the restrictions of C83: real arithmetic without rounding, at least one full batch, inner convolutions with square outputs."
  },
  {
   "property": "C108",
   "status": "proved",
   "theorems": [
    "Cnn.C108_train",
    "Cnn.C108_nan",
    "Cnn.C108_zero",
    "Cnn.C108_binary64",
    "Cnn.Overlap.C108_overlap",
    "Cnn.Overlap.C108_overlap_binary64"
   ],
   "note": "C108_train: for any arithmetic with the laws of Absorbs (NaNs are never lost) and ZeroKept (products with 0 are 0 or NaN, 0+0 = 0, 0/B = 0, rate*0 = 0, a-0 = a, 0 is a float), each weight of the pixel is the same or NaN after training. C108_nan, C108_zero: binary64 has these laws if the learning rate is finite. C108_binary64: both together. With an exact zero and no NaN this is also a case of C107_black_partial. One zero only: -0 is not distinguished from 0 (Model/Double). C108_overlap, C108_overlap_binary64: with calls of layers that overlap in time."
  },
  {
   "property": "C109",
   "status": "partial",
   "theorems": [
    "Cnn.C109_exact",
    "Cnn.C109_useless",
    "Cnn.C109_wraps",
    "Cnn.C109_violated",
    "Cnn.C109_partial",
    "Cnn.C109_counts",
    "Cnn.C109_added",
    "Cnn.C109_added_units"
   ],
   "note": "False of the code: C109_wraps gives a layer of 65537 filters of size 1 x 1 x 65536 that is made without any error and has weights for one filter (C109_violated). C109_exact: the size is right exactly if C*F < 2^31. C109_useless: any other layer that can be made is of no use, no forward pass of any input succeeds. C109_partial: layers with fewer than 2^31 weights can be made and have all filters. C109_counts: counts are taken modulo 2^32. C109_added, C109_added_units: counts in range are kept."
  },
  {
   "property": "C110",
   "status": "partial",
   "theorems": [
    "Cnn.C110_settles",
    "Cnn.C110_partial",
    "Cnn.C110_violated"
   ],
   "note": "False of the code: activation layers are not read back (C110_violated, for every codec). C110_settles: in general the second file is that of the model without activation layers, and loading and saving that gives the same file again; strides may be any, although they are not saved. C110_partial: without activation layers the file stays the same. Numbers may change (six decimals), their text does not: Codec.Lawful, proved for binary32 and binary64 (C42_float, C42_double). Partial: finite weights, one-word labels, fully connected layers that have been used, a softmax layer at the end."
  },
  {
   "property": "C111",
   "status": "partial",
   "theorems": [
    "Cnn.C111_train",
    "Cnn.C111_exact",
    "Cnn.C111_zero",
    "Cnn.C111_binary64",
    "Cnn.C111_overlap",
    "Cnn.C111_violated"
   ],
   "note": "False in binary64 (C111_violated: a weight and an input of 2^900, one batch of one sample, learning rate 0, and parameters are NaN). What holds, for every training that ends: each weight and bias is the same or NaN (C111_train in any arithmetic where products with the rate are 0 or NaN and subtracting 0 changes nothing; C111_binary64; C111_overlap with overlapping calls), and all are the same in exact arithmetic (C111_exact). The model of binary64 has one zero, so a weight of -0 is not told from +0."
  },
  {
   "property": "C112",
   "status": "proved",
   "theorems": [
    "Cnn.C112_train",
    "Cnn.C112_moment",
    "Cnn.C112_forward",
    "Cnn.C112_overlap"
   ],
   "note": "C112_train for every training that ends, C112_moment for every moment of a batch under any schedule, C112_forward for forwardPropagation; no hypotheses on the model. C112_overlap with overlapping calls, for models whose fully connected layers have been used before. Trainings that fail are not covered: an exception in a thread ends the program (C86)."
  },
  {
   "property": "C113",
   "status": "partial",
   "theorems": [
    "Cnn.C113_partial",
    "Cnn.C113_one_thread_partial",
    "Cnn.C113_one_label"
   ],
   "note": "With one thread everything is proved: both batches can be completed and all completions give the same parameters (C113_one_thread_partial). With several threads it is proved for all schedules in which each gradient is computed with the label of its own sample (C113_partial); the others exist and are the race of C52; if all samples of the batch have the same label, it is proved for all schedules (C113_one_label). In exact arithmetic (a field of characteristic 0); in binary64 the sums may round differently."
  },
  {
   "property": "C114",
   "status": "partial",
   "theorems": [
    "Cnn.C114_one_label",
    "Cnn.C114_one_sample",
    "Cnn.C114_overlap",
    "Cnn.C114_one_thread",
    "Cnn.C114_binary64"
   ],
   "note": "With batches of one sample it is proved for all numbers of threads, schedules and arithmetics (C114_one_sample), also with calls of layers that overlap in time (C114_overlap). With one thread it is proved for every batch size in any arithmetic, also if the last batch of an epoch is not full (C114_one_thread), so in binary64 (C114_binary64), if each epoch has at least as many samples as a batch. With several threads and larger batches it holds for all schedules if the samples of a batch have the same label and sums of that many values do not depend on their order (C114_one_label). Missing: the other cases of several threads with larger batches, where the label race of C52 and the order of the samples can change the result of either training (C52_violated, C101_violated). The model has been used or trained before (Prepared)."
  },
  {
   "property": "C115",
   "status": "partial",
   "theorems": [
    "Cnn.C115_one_thread_partial",
    "Cnn.C115_one_label",
    "Cnn.C115_one_sample",
    "Cnn.C115_overlap"
   ],
   "note": "Proved for one thread, every batch size and any arithmetic, so also binary64 (C115_one_thread_partial), and for batches of one sample with every number of threads, schedule and arithmetic (C115_one_sample), also when the calls of the layers overlap in time (C115_overlap). With several samples and threads it holds for all schedules if the samples of a batch have the same label and sums of that many values do not depend on their order (C115_one_label). Missing: the other batches of several samples on several threads, where the label race of C52 and the order of the samples can change either result. The model has been used or trained before (Prepared), and all samples together are fewer than 2^24."
  }
 ]
}
