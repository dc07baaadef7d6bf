import Verif.Props.Accuracy
import Verif.Props.Activations
import Verif.Props.Balance
import Verif.Props.Connected
import Verif.Props.Console
import Verif.Props.Copies
import Verif.Props.CopiesLabel
import Verif.Props.CutFiles
import Verif.Props.Dark
import Verif.Props.Debug
import Verif.Props.Descent
import Verif.Props.DimN
import Verif.Props.Display
import Verif.Props.Expressions
import Verif.Props.Fair
import Verif.Props.Feed
import Verif.Props.FirstUse
import Verif.Props.Footprint
import Verif.Props.FreshTrain
import Verif.Props.GradRounding
import Verif.Props.Gradient
import Verif.Props.Hyperparameters
import Verif.Props.InOrder
import Verif.Props.Infinite
import Verif.Props.Kernel
import Verif.Props.LabelScan
import Verif.Props.Learns
import Verif.Props.Limit
import Verif.Props.Local
import Verif.Props.Lowers
import Verif.Props.Main
import Verif.Props.MainSaved
import Verif.Props.Make
import Verif.Props.ManyFilters
import Verif.Props.Merge
import Verif.Props.MergeOverlap
import Verif.Props.Mixed
import Verif.Props.Mnist
import Verif.Props.NaNOverlap
import Verif.Props.Network
import Verif.Props.NotANumber
import Verif.Props.OffUnits
import Verif.Props.OneLabel
import Verif.Props.Online
import Verif.Props.Overlap
import Verif.Props.OverlapDescent
import Verif.Props.Params
import Verif.Props.PlainOverlap
import Verif.Props.PlainTwins
import Verif.Props.Pooling
import Verif.Props.Products
import Verif.Props.Race
import Verif.Props.Reductions
import Verif.Props.Reproduce
import Verif.Props.Resave
import Verif.Props.Resume
import Verif.Props.Rounding
import Verif.Props.Safe
import Verif.Props.SavedLayers
import Verif.Props.SavedModels
import Verif.Props.Shipped
import Verif.Props.ShortBatch
import Verif.Props.Show
import Verif.Props.Silent
import Verif.Props.SlotUpdate
import Verif.Props.SmallBatch
import Verif.Props.SoftmaxLoss
import Verif.Props.SortedNet
import Verif.Props.SourceThrow
import Verif.Props.Span
import Verif.Props.Stale
import Verif.Props.StaleRounding
import Verif.Props.StepRounding
import Verif.Props.Still
import Verif.Props.Storage
import Verif.Props.Surrogate
import Verif.Props.Text
import Verif.Props.TextRange
import Verif.Props.Train
import Verif.Props.TrainLabels
import Verif.Props.TrainThrow
import Verif.Props.TrainUpdate
import Verif.Props.Twins
import Verif.Props.Validate
import Verif.Props.ValidateFootprint
import Verif.Props.Views
/-! Axioms used by every claimed theorem (generated by tools/manifest.py). -/
#print axioms Cnn.C01_index_bijection
#print axioms Cnn.C01_read_write
#print axioms Cnn.C01_constructed
#print axioms Cnn.C02_setEntries
#print axioms Cnn.C02_setEntries_mismatch
#print axioms Cnn.C02_constructor
#print axioms Cnn.C02_raw_assign
#print axioms Cnn.C02_exact
#print axioms Cnn.C02_violated
#print axioms Cnn.C03_visits
#print axioms Cnn.C03_visits_once
#print axioms Cnn.C03_deref
#print axioms Cnn.C03_random_access
#print axioms Cnn.C04_violated
#print axioms Cnn.C04_exact
#print axioms Cnn.C04_iteration_safe_partial
#print axioms Cnn.C05_reshape
#print axioms Cnn.C05_reshape_entries
#print axioms Cnn.C05_resize
#print axioms Cnn.C06_move
#print axioms Cnn.C06_self_move
#print axioms Cnn.C06_convert
#print axioms Cnn.C06_copy_equal
#print axioms Cnn.C06_convert_assign
#print axioms Cnn.C07_create
#print axioms Cnn.C07_nested
#print axioms Cnn.C07_nested_inside
#print axioms Cnn.C07_window
#print axioms Cnn.C07_entries_inside
#print axioms Cnn.C07_slices
#print axioms Cnn.C07_slice
#print axioms Cnn.C07_subSlices
#print axioms Cnn.C07_subSlice
#print axioms Cnn.C08_violated
#print axioms Cnn.C08_violation_reads_outside
#print axioms Cnn.C08_create_inside_partial
#print axioms Cnn.C09_fill
#print axioms Cnn.C09_assign
#print axioms Cnn.C09_opAssign
#print axioms Cnn.C09_opScalar
#print axioms Cnn.C09_mismatch
#print axioms Cnn.C10_violated
#print axioms Cnn.C10_violation_ub
#print axioms Cnn.C10_at_partial
#print axioms Cnn.C11_nested
#print axioms Cnn.C11_mismatch
#print axioms Cnn.C11_mixed
#print axioms Cnn.C11_store
#print axioms Cnn.C11_opAssign
#print axioms Cnn.C11_opAssign_mismatch
#print axioms Cnn.C11_opScalar
#print axioms Cnn.C11_modify
#print axioms Cnn.C12_assign
#print axioms Cnn.C12_opAssign
#print axioms Cnn.C12_view_opAssign
#print axioms Cnn.C13_transpose_violated
#print axioms Cnn.C13_overlap_violated
#print axioms Cnn.C13_scalar_violated
#print axioms Cnn.C13_assign_partial
#print axioms Cnn.C14_entries
#print axioms Cnn.C14_product
#print axioms Cnn.C14_mismatch
#print axioms Cnn.C14_assoc
#print axioms Cnn.C14_distrib_left
#print axioms Cnn.C14_distrib_right
#print axioms Cnn.C15_transpose
#print axioms Cnn.C15_transpose_twice
#print axioms Cnn.C15_transpose_mul
#print axioms Cnn.C15_rotate
#print axioms Cnn.C15_rotate_four
#print axioms Cnn.C15_rotate_two
#print axioms Cnn.C15_rotate_three
#print axioms Cnn.C15_rotate_nonsquare
#print axioms Cnn.C16_transpose_temp_dims
#print axioms Cnn.C16_matMul_early_dims
#print axioms Cnn.C16_transpose_violated
#print axioms Cnn.C16_matMul_violated
#print axioms Cnn.C16_violation_store
#print axioms Cnn.C16_temporaries_partial
#print axioms Cnn.C17_entries
#print axioms Cnn.C17_convolve
#print axioms Cnn.C17_not_flat
#print axioms Cnn.C18_always_outside
#print axioms Cnn.C18_violated
#print axioms Cnn.C18_entry_partial
#print axioms Cnn.C19_int
#print axioms Cnn.C19_mismatch
#print axioms Cnn.C19_violated
#print axioms Cnn.C19_floating_partial
#print axioms Cnn.C20_sum_order
#print axioms Cnn.C20_sum
#print axioms Cnn.C20_max
#print axioms Cnn.C20_min
#print axioms Cnn.C20_max_inside
#print axioms Cnn.C20_mean
#print axioms Cnn.C20_l2Norm
#print axioms Cnn.C20_matrix
#print axioms Cnn.C21_exact
#print axioms Cnn.C21_negative_wrong
#print axioms Cnn.C21_violated
#print axioms Cnn.C21_mean_partial
#print axioms Cnn.C22_decides
#print axioms Cnn.C22_dims
#print axioms Cnn.C22_equivalence
#print axioms Cnn.C22_tolerance
#print axioms Cnn.C23_entrywise
#print axioms Cnn.C23_forward
#print axioms Cnn.C23_ranges
#print axioms Cnn.C23_sigmoid_symm
#print axioms Cnn.C23_monotone
#print axioms Cnn.C24_exact
#print axioms Cnn.C24_claim_pointwise
#print axioms Cnn.C24_sigmoid_violated
#print axioms Cnn.C24_tangent_violated
#print axioms Cnn.C24_leaky_violated
#print axioms Cnn.C24_relu_linear_partial
#print axioms Cnn.C24_at_output
#print axioms Cnn.C24_leaky
#print axioms Cnn.C25_formula
#print axioms Cnn.C25_probability
#print axioms Cnn.C25_shift
#print axioms Cnn.C25_reject
#print axioms Cnn.C26_gradient
#print axioms Cnn.C26_assign
#print axioms Cnn.C26_no_label
#print axioms Cnn.C27_range
#print axioms Cnn.C27_decreasing
#print axioms Cnn.C28_reportedLoss
#print axioms Cnn.C28_violated
#print axioms Cnn.C28_direction_partial
#print axioms Cnn.C29_size_partial
#print axioms Cnn.C29_windows
#print axioms Cnn.C29_violated
#print axioms Cnn.C30_max
#print axioms Cnn.C30_min
#print axioms Cnn.C30_avg
#print axioms Cnn.C31_slots
#print axioms Cnn.C31_select
#print axioms Cnn.C31_avg
#print axioms Cnn.C32_checkSize
#print axioms Cnn.C32_throws_partial
#print axioms Cnn.C32_violated
#print axioms Cnn.C33_entries
#print axioms Cnn.C33_formula
#print axioms Cnn.C33_depth
#print axioms Cnn.C34_violated
#print axioms Cnn.C34_throws_partial
#print axioms Cnn.C35_gradients
#print axioms Cnn.C36_input_partial
#print axioms Cnn.C36_nonsquare_throws
#print axioms Cnn.C36_violated
#print axioms Cnn.C37_forward
#print axioms Cnn.C37_first
#print axioms Cnn.C37_history
#print axioms Cnn.C38_gradients_partial
#print axioms Cnn.C38_order
#print axioms Cnn.C38_stored_shape
#print axioms Cnn.C38_violated
#print axioms Cnn.C38_shape_violated
#print axioms Cnn.C39_kernel
#print axioms Cnn.C39_connected
#print axioms Cnn.C39_arithmetic
#print axioms Cnn.C39_order
#print axioms Cnn.C39_unfilled_slot
#print axioms Cnn.C40_kernel
#print axioms Cnn.C40_connected
#print axioms Cnn.C41_round_trip
#print axioms Cnn.C41_unsigned
#print axioms Cnn.C41_line
#print axioms Cnn.C41_injective
#print axioms Cnn.C41_violated
#print axioms Cnn.C41_mismatch_partial
#print axioms Cnn.C41_failed_partial
#print axioms Cnn.C41_missing_number_violated
#print axioms Cnn.C42_round_trip
#print axioms Cnn.C42_nonfinite
#print axioms Cnn.C42_out_of_range
#print axioms Cnn.C42_double
#print axioms Cnn.C42_float
#print axioms Cnn.C42_precision
#print axioms Cnn.C42_formats
#print axioms Cnn.C42_reads
#print axioms Cnn.C43_empty_partial
#print axioms Cnn.C43_violated
#print axioms Cnn.C43_next_label_violated
#print axioms Cnn.C44_round_trip
#print axioms Cnn.C44_same
#print axioms Cnn.C45_read
#print axioms Cnn.C45_violated
#print axioms Cnn.C45_partial
#print axioms Cnn.C45_unknown_type
#print axioms Cnn.C46_forward_partial
#print axioms Cnn.C46_backward
#print axioms Cnn.C46_unused
#print axioms Cnn.C46_violated
#print axioms Cnn.C46_backward_violated
#print axioms Cnn.C47_read
#print axioms Cnn.C47_unknown
#print axioms Cnn.C47_names
#print axioms Cnn.C47_violated
#print axioms Cnn.C47_partial
#print axioms Cnn.C48_load
#print axioms Cnn.C48_round_trip_partial
#print axioms Cnn.C48_activation_lost
#print axioms Cnn.C48_violated
#print axioms Cnn.C48_label_cut
#print axioms Cnn.C48_labels_lost
#print axioms Cnn.C48_label_as_layer
#print axioms Cnn.C49_terminates
#print axioms Cnn.C49_missing
#print axioms Cnn.C49_unwritable
#print axioms Cnn.C49_never_false
#print axioms Cnn.C49_no_layers
#print axioms Cnn.C49_violated
#print axioms Cnn.C49_reported_partial
#print axioms Cnn.C49_escapes
#print axioms Cnn.C49_negative_dims
#print axioms Cnn.C50_partition_partial
#print axioms Cnn.C50_violated
#print axioms Cnn.C50_disjoint
#print axioms Cnn.C51_order
#print axioms Cnn.C51_slots
#print axioms Cnn.C51_finished
#print axioms Cnn.C51_count_partial
#print axioms Cnn.C51_left_out
#print axioms Cnn.Train.C52_same_label
#print axioms Cnn.C52_last_writer
#print axioms Cnn.C52_undisturbed_partial
#print axioms Cnn.C52_one_thread_partial
#print axioms Cnn.C52_violated
#print axioms Cnn.Overlap.C53_overlap_partial
#print axioms Cnn.Train.C53_progress_partial
#print axioms Cnn.Train.C53_own_labels_possible_partial
#print axioms Cnn.Train.C53_any_labels_partial
#print axioms Cnn.Train.C53_update_partial
#print axioms Cnn.Train.C53_schedules_partial
#print axioms Cnn.Train.C53_batches_partial
#print axioms Cnn.C54_one_thread
#print axioms Cnn.Train.C54_violated
#print axioms Cnn.Train.C54_slots_partial
#print axioms Cnn.Train.C54_entries
#print axioms Cnn.Train.C54_exhausted
#print axioms Cnn.Train.C54_update_partial
#print axioms Cnn.Train.C54_fresh_short_batch
#print axioms Cnn.C55_epoch_partial
#print axioms Cnn.C55_violated
#print axioms Cnn.C55_left_out
#print axioms Cnn.FirstUse.C56_alone
#print axioms Cnn.FirstUse.C56_initialised_partial
#print axioms Cnn.FirstUse.C56_throws
#print axioms Cnn.FirstUse.C56_violated
#print axioms Cnn.FirstUse.C56_two_weights
#print axioms Cnn.C57_scan
#print axioms Cnn.C57_unbeaten
#print axioms Cnn.C57_first
#print axioms Cnn.C57_nan
#print axioms Cnn.C57_consistent
#print axioms Cnn.C57_largest
#print axioms Cnn.C57_returns
#print axioms Cnn.C57_mismatch
#print axioms Cnn.C58_reads_outside
#print axioms Cnn.C58_violated
#print axioms Cnn.C58_known_partial
#print axioms Cnn.Mnist.C59_history_partial
#print axioms Cnn.Mnist.C59_records
#print axioms Cnn.Mnist.C59_in_order
#print axioms Cnn.Mnist.C59_endian
#print axioms Cnn.Mnist.C59_refused
#print axioms Cnn.Mnist.C59_stuck
#print axioms Cnn.Mnist.C59_violated
#print axioms Cnn.Mnist.C60_value
#print axioms Cnn.Mnist.C60_monotone
#print axioms Cnn.Mnist.C60_injective
#print axioms Cnn.Mnist.C60_range
#print axioms Cnn.Mnist.C60_images
#print axioms Cnn.Mnist.C61_epochs
#print axioms Cnn.Mnist.C61_empty
#print axioms Cnn.C62_call
#print axioms Cnn.C62_layers
#print axioms Cnn.C62_distinct
#print axioms Cnn.C62_too_many
#print axioms Cnn.Image.C63_bw_partial
#print axioms Cnn.Image.C63_colour
#print axioms Cnn.Image.C63_constant
#print axioms Cnn.Image.C63_violated
#print axioms Cnn.C64_bar_partial
#print axioms Cnn.C64_constant_partial
#print axioms Cnn.C64_wider
#print axioms Cnn.C64_violated
#print axioms Cnn.C64_percent_partial
#print axioms Cnn.C65_gradient_partial
#print axioms Cnn.C65_violated
#print axioms Cnn.C66_rejected
#print axioms Cnn.C66_violated
#print axioms Cnn.C66_kernel
#print axioms Cnn.C66_connected
#print axioms Cnn.C66_shipped
#print axioms Cnn.Train.C67_batch_partial
#print axioms Cnn.Train.C67_train_partial
#print axioms Cnn.Train.C67_completes_partial
#print axioms Cnn.Train.C67_threads_partial
#print axioms Cnn.Train.C67_fresh_partial
#print axioms Cnn.Train.C67_fresh_threads_partial
#print axioms Cnn.Train.C67_violated
#print axioms Cnn.Train.C68_batch_partial
#print axioms Cnn.Train.C68_train_partial
#print axioms Cnn.Train.C68_completes_partial
#print axioms Cnn.Train.C68_fresh_partial
#print axioms Cnn.Overlap.C68_overlap_partial
#print axioms Cnn.Train.C69_build_train_partial
#print axioms Cnn.Train.C69_threads_partial
#print axioms Cnn.Train.C70_train_partial
#print axioms Cnn.Train.C70_train_ends
#print axioms Cnn.Train.C70_trained_partial
#print axioms Cnn.Train.C70_build_train_partial
#print axioms Cnn.Train.C70_one_thread
#print axioms Cnn.Validate.C72_count_partial
#print axioms Cnn.Validate.C72_ends
#print axioms Cnn.Validate.C72_one_thread
#print axioms Cnn.Validate.C72_no_pooling
#print axioms Cnn.Validate.C73_race
#print axioms Cnn.Validate.C73_violated
#print axioms Cnn.C74_nearest
#print axioms Cnn.Validate.C74_throws
#print axioms Cnn.Validate.C74_violated
#print axioms Cnn.Validate.C74_inspect_partial
#print axioms Cnn.Validate.C74_validate_partial
#print axioms Cnn.Validate.C74_validate_throws
#print axioms Cnn.Main.C71_program_partial
#print axioms Cnn.Main.C71_ends
#print axioms Cnn.Main.C71_throws
#print axioms Cnn.Main.C71_violated
#print axioms Cnn.Main.C75_lost
#print axioms Cnn.Main.C75_violated
#print axioms Cnn.Overlap.C76_overlap
#print axioms Cnn.Overlap.C76_sequential
#print axioms Cnn.Overlap.C76_iff
#print axioms Cnn.Overlap.C76_safe
#print axioms Cnn.C77_make
#print axioms Cnn.C77_missing
#print axioms Cnn.C77_same_partial
#print axioms Cnn.C77_violated
#print axioms Cnn.C77_dim2_differ
#print axioms Cnn.C77_violated_sum
#print axioms Cnn.C77_add
#print axioms Cnn.C77_sub
#print axioms Cnn.C77_size
#print axioms Cnn.C77_flat
#print axioms Cnn.C77_next
#print axioms Cnn.C77_text
#print axioms Cnn.C77_move
#print axioms Cnn.C77_dim3
#print axioms Cnn.C78_layout
#print axioms Cnn.C78_state_partial
#print axioms Cnn.C78_violated
#print axioms Cnn.C78_aligned
#print axioms Cnn.C78_violated_other
#print axioms Cnn.C78_wide
#print axioms Cnn.C78_least_int
#print axioms Cnn.Train.C79_slot
#print axioms Cnn.Train.C79_batch_partial
#print axioms Cnn.Train.C79_epoch_partial
#print axioms Cnn.Train.C79_train_partial
#print axioms Cnn.Train.C79_one_thread
#print axioms Cnn.Train.C79_reported
#print axioms Cnn.Train.C79_percent
#print axioms Cnn.Overlap.C79_overlap_partial
#print axioms Cnn.Race.C80_abort
#print axioms Cnn.Race.C80_violated
#print axioms Cnn.Race.C80_program
#print axioms Cnn.Race.C80_one_thread
#print axioms Cnn.Race.C80_used
#print axioms Cnn.Race.C80_includes
#print axioms Cnn.Race.C80_safe_partial
#print axioms Cnn.Feed.C81_train
#print axioms Cnn.Feed.C81_model
#print axioms Cnn.Feed.C81_again
#print axioms Cnn.Feed.C81_asks_first
#print axioms Cnn.Feed.C81_list
#print axioms Cnn.Main.C81_mnist
#print axioms Cnn.Feed.C81_reset_throws
#print axioms Cnn.Feed.C81_next_throws
#print axioms Cnn.Overlap.C82_overlap_partial
#print axioms Cnn.Train.C82_train_partial
#print axioms Cnn.Train.C82_completes_partial
#print axioms Cnn.Train.C82_threads_partial
#print axioms Cnn.Train.C82_threads_completes_partial
#print axioms Cnn.Train.C82_fresh_partial
#print axioms Cnn.Train.C82_fresh_threads_partial
#print axioms Cnn.Train.C82_build_partial
#print axioms Cnn.Overlap.C83_overlap_partial
#print axioms Cnn.Train.C83_one_label_partial
#print axioms Cnn.C83_value
#print axioms Cnn.C83_gradient_partial
#print axioms Cnn.Train.C83_train_partial
#print axioms Cnn.Train.C83_threads_partial
#print axioms Cnn.Train.C83_build_partial
#print axioms Cnn.C83_sigmoid
#print axioms Cnn.Main.C83_program_partial
#print axioms Cnn.C84_probabilities
#print axioms Cnn.C84_label
#print axioms Cnn.C84_exact
#print axioms Cnn.C84_double
#print axioms Cnn.C85_infinite_inputs
#print axioms Cnn.C85_finite_partial
#print axioms Cnn.C85_overflow
#print axioms Cnn.C85_violated
#print axioms Cnn.C86_exceptions
#print axioms Cnn.C86_threads
#print axioms Cnn.C86_terminates
#print axioms Cnn.C86_violated
#print axioms Cnn.Train.C87_limit_partial
#print axioms Cnn.Train.C87_smooth_partial
#print axioms Cnn.Train.C87_descent_partial
#print axioms Cnn.Train.C87_build_partial
#print axioms Cnn.Train.C87_build_descent_partial
#print axioms Cnn.Console.C88_epoch
#print axioms Cnn.Console.C88_percent
#print axioms Cnn.Console.C88_violated
#print axioms Cnn.Console.C88_train
#print axioms Cnn.Console.C88_image
#print axioms Cnn.Console.C88_program
#print axioms Cnn.C89_negative_batch
#print axioms Cnn.C89_negative_threads
#print axioms Cnn.C89_no_threads
#print axioms Cnn.C89_no_batch
#print axioms Cnn.C89_no_epochs
#print axioms Cnn.C89_violated
#print axioms Cnn.C89_partial
#print axioms Cnn.Console.C90_answer
#print axioms Cnn.Console.C90_truth
#print axioms Cnn.Console.C90_weights
#print axioms Cnn.Train.C91_unique
#print axioms Cnn.Train.C91_batch_partial
#print axioms Cnn.Train.C91_train_partial
#print axioms Cnn.Train.C91_missing
#print axioms Cnn.Train.C91_rises
#print axioms Cnn.Train.C91_violated
#print axioms Cnn.Train.C92_converges_partial
#print axioms Cnn.Train.C92_infimum_partial
#print axioms Cnn.Train.C92_learns_partial
#print axioms Cnn.Train.C92_build_partial
#print axioms Cnn.Train.C92_same_label
#print axioms Cnn.Train.C92_violated
#print axioms Cnn.Train.C93_mistakes_partial
#print axioms Cnn.Train.C93_accuracy_partial
#print axioms Cnn.Train.C93_learns_partial
#print axioms Cnn.Train.C93_build_partial
#print axioms Cnn.C94_batch
#print axioms Cnn.C94_batch_short
#print axioms Cnn.C94_forever
#print axioms Cnn.C94_train
#print axioms Cnn.C94_trains
#print axioms Cnn.C94_overlap
#print axioms Cnn.C94_race
#print axioms Cnn.C94_overlap_trains
#print axioms Cnn.C94_validate
#print axioms Cnn.C94_validates
#print axioms Cnn.C95_unaffected
#print axioms Cnn.C95_changes
#print axioms Cnn.C95_races
#print axioms Cnn.C95_first_use
#print axioms Cnn.C95_reached
#print axioms Cnn.C95_one_thread
#print axioms Cnn.C95_swap
#print axioms Cnn.C96_inside_partial
#print axioms Cnn.C96_between
#print axioms Cnn.C96_output_partial
#print axioms Cnn.C96_labels
#print axioms Cnn.C96_number
#print axioms Cnn.C96_undefined
#print axioms Cnn.C96_violated
#print axioms Cnn.C97_overlap_stay
#print axioms Cnn.C97_overlap_train
#print axioms Cnn.C97_stay
#print axioms Cnn.C97_useless
#print axioms Cnn.C97_batch
#print axioms Cnn.C97_train
#print axioms Cnn.C97_double
#print axioms Cnn.C97_violated
#print axioms Cnn.C98_gradients_partial
#print axioms Cnn.C98_smooth_partial
#print axioms Cnn.C98_exact
#print axioms Cnn.C98_double
#print axioms Cnn.C98_float
#print axioms Cnn.Train.C99_short_train_partial
#print axioms Cnn.Train.C99_short_one_partial
#print axioms Cnn.Train.C99_short_completes_partial
#print axioms Cnn.Train.C99_batch_partial
#print axioms Cnn.Train.C99_smooth_partial
#print axioms Cnn.Train.C99_train_partial
#print axioms Cnn.Train.C99_completes_partial
#print axioms Cnn.Train.C99_exact
#print axioms Cnn.Validate.C100_unaffected
#print axioms Cnn.Validate.C100_changes
#print axioms Cnn.Validate.C100_races
#print axioms Cnn.Validate.C100_no_pooling
#print axioms Cnn.Validate.C100_reached
#print axioms Cnn.Validate.C100_first_use
#print axioms Cnn.C101_one_label
#print axioms Cnn.C101_one_label_exact
#print axioms Cnn.C101_one_label_binary64
#print axioms Cnn.C101_one_thread
#print axioms Cnn.C101_one_thread_epoch
#print axioms Cnn.C101_orders
#print axioms Cnn.C101_close_partial
#print axioms Cnn.C101_violated
#print axioms Cnn.C101_train_violated
#print axioms Cnn.C101_one_sample
#print axioms Cnn.C101_order_free
#print axioms Cnn.C101_two
#print axioms Cnn.C101_binary64
#print axioms Cnn.C102_field
#print axioms Cnn.C102_shift
#print axioms Cnn.C103_choice
#print axioms Cnn.C103_first
#print axioms Cnn.C103_later_partial
#print axioms Cnn.C103_violated
#print axioms Cnn.Train.C104_train_partial
#print axioms Cnn.Train.C104_build_partial
#print axioms Cnn.Train.C104_shift_partial
#print axioms Cnn.C104_overlap_partial
#print axioms Cnn.C104_two
#print axioms Cnn.Main.C104_program_partial
#print axioms Cnn.Train.C104_one_label_partial
#print axioms Cnn.C105_any
#print axioms Cnn.C105_zero
#print axioms Cnn.C105_binary64
#print axioms Cnn.Overlap.C105_overlap_any
#print axioms Cnn.Overlap.C105_overlap_binary64
#print axioms Cnn.Train.C105_train_partial
#print axioms Cnn.Train.C105_build_partial
#print axioms Cnn.Train.C105_outgoing_partial
#print axioms Cnn.Overlap.C106_overlap_any
#print axioms Cnn.C106_any
#print axioms Cnn.Train.C106_train_partial
#print axioms Cnn.Train.C106_overlap_partial
#print axioms Cnn.Train.C107_train_partial
#print axioms Cnn.Train.C107_constant_partial
#print axioms Cnn.Train.C107_black_partial
#print axioms Cnn.Train.C107_overlap_partial
#print axioms Cnn.Train.C107_build_partial
#print axioms Cnn.C108_train
#print axioms Cnn.C108_nan
#print axioms Cnn.C108_zero
#print axioms Cnn.C108_binary64
#print axioms Cnn.Overlap.C108_overlap
#print axioms Cnn.Overlap.C108_overlap_binary64
#print axioms Cnn.C109_exact
#print axioms Cnn.C109_useless
#print axioms Cnn.C109_wraps
#print axioms Cnn.C109_violated
#print axioms Cnn.C109_partial
#print axioms Cnn.C109_counts
#print axioms Cnn.C109_added
#print axioms Cnn.C109_added_units
#print axioms Cnn.C110_settles
#print axioms Cnn.C110_partial
#print axioms Cnn.C110_violated
#print axioms Cnn.C111_train
#print axioms Cnn.C111_exact
#print axioms Cnn.C111_zero
#print axioms Cnn.C111_binary64
#print axioms Cnn.C111_overlap
#print axioms Cnn.C111_violated
#print axioms Cnn.C112_train
#print axioms Cnn.C112_moment
#print axioms Cnn.C112_forward
#print axioms Cnn.C112_overlap
#print axioms Cnn.C113_partial
#print axioms Cnn.C113_one_thread_partial
#print axioms Cnn.C113_one_label
#print axioms Cnn.C114_one_label
#print axioms Cnn.C114_one_sample
#print axioms Cnn.C114_overlap
#print axioms Cnn.C114_one_thread
#print axioms Cnn.C114_binary64
#print axioms Cnn.C115_one_thread_partial
#print axioms Cnn.C115_one_label
#print axioms Cnn.C115_one_sample
#print axioms Cnn.C115_overlap
