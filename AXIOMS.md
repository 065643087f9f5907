# Axioms of the theorems in MANIFEST.json (output of `#print axioms`)

## Quot.sound

* C63_uniform_new
* C63_uniform_with_step_size
* C63_uniform_noflow_new
* C63_uniform_noflow_with_step_size
* C63_uniform_cyclic_new
* C63_uniform_cyclic_with_step_size
* C63_weighted_mean_variance_of_samples
* C63_weighted_mean_variance_of_mean

## none

* C48_hash
* C48_tuple1
* C60_sum
* C63_fill_number
* C63_fill_with_number
* C63_ops
* C63_default
* C63_fill_sum
* C63_fill_with_sum
* C63_mean
* C63_mean_variance_of_samples
* C63_mean_variance_of_mean
* C63_weighted_mean
* C63_hash_new
* C63_axis_eq
* C63_tuple1_eq
* C64_number
* C64_sum
* C64_weighted_sum
* C64_mean
* C64_weighted_mean
* C66_tuple_nil
* C70_errors
* C78_exact
* C95_single
* C95_trans
* C95_new
* C95_sparse
* C96_same_text
* C98_of_bins
* C98_refl
* C103_inside
* C104_axes

## propext

* C19_range_round_trip
* C19_exactly_one_range
* C19_single_value
* C20_construct
* C23_counterexample
* C25_num_dim
* C25_lawful_tuple1
* C26_new
* C34_dense
* C37_from_vec
* C37_vec_round_trip
* C38_value_mut
* C48_counterexample_tuple_any
* C49_uniform_noflow
* C49_counterexample_default
* C51_tuple1
* C53_tuple1
* C53_tuple_cons
* C53_tuple
* C60_weighted_sum
* C60_variable
* C60_variable_noflow
* C60_variable_cyclic
* C60_tuple_nil
* C60_tuple_cons
* C60_error_order
* C60_category_order
* C60_interval_order
* C60_sum_order
* C60_mean_order
* C60_weighted_mean_order
* C63_indices
* C63_tuple1
* C63_from_tuple1
* C63_tuple
* C63_from_tuple
* C63_fill_with_weighted_sum
* C63_fill_with_mean
* C63_fill_with_weighted_mean
* C63_fill_weighted_sum
* C63_vec_new
* C63_vec_from_vec
* C63_vec_value
* C63_vec_value_mut
* C63_vec_call
* C63_vec_program
* C63_vec_values_mut
* C63_vec_iter_mut
* C63_vec_op_borrow
* C63_vec_op_owned
* C63_vec_op_assign
* C63_hash_from_map
* C63_hash_value
* C63_hash_value_mut
* C63_hash_call
* C63_hash_program
* C63_hash_values_mut
* C63_hash_iter_mut
* C63_hash_op_owned
* C63_hash_op_assign
* C63_tuple_eq
* C63_ndhistogram1
* C63_ndhistogram
* C63_sparsehistogram
* C63_for_loop
* C63_pull
* C63_axis_start
* C63_axis_iter_next
* C63_bins_next
* C63_vec_iter_next
* C63_hash_iter_next
* C63_hash_iter_mut_next
* C63_vec_loop_values_mut
* C63_hash_loop_values_mut
* C63_hash_loop_mut
* C63_reduce
* C63_display_uniform
* C63_display_variable
* C63_display_category
* C70_counterexample_overflow_category
* C78_tuple1
* C82_refl
* C84_same_numbers
* C85_tuple
* C88_sums
* C89_tuple1
* C95_coords
* C95_dense
* C95_counterexample_num_dim
* C96_list
* C97_new
* C98_new
* C100_same_bins
* C100_same_bins_sparse
* C102_new
* C102_value
* C103_value
* C103_value_sparse

## propext, Classical.choice, Quot.sound

* C01_uniform_int_index
* C03_checked_construction_fits
* C02_uniform_int_bins_partial
* C02_bin_panics
* C03_with_step_size_int
* C03_new_float
* C03_with_step_size_float_partial
* C03_counterexample_float
* C07_noflow_index
* C07_noflow_bin
* C08_uniform_cyclic_int
* C08_uniform_cyclic_int_turns
* C10_too_few_edges
* C10_nan_rejected_partial
* C10_variable_new_sorts
* C10_edge_order_irrelevant
* C10_edge_order_irrelevant_int
* C10_nan_may_panic
* C11_variable_index
* C11_index_iff_bin_covers
* C12_repeated_edges_partial
* C12_last_match
* C12_counterexample
* C13_variable_bins
* C14_variable_noflow_index
* C14_variable_noflow_covers
* C14_variable_noflow_bins
* C14_index_iff_bin_covers
* C15_variable_cyclic_int_partial
* C15_variable_cyclic_int_turns_partial
* C15_equal_edges_panic
* C15_float_nan
* C15_float_wrap_partial
* C15_float_zero_low_partial
* C15_counterexample_float
* C16_category_index
* C16_index_iff_bin_covers
* C17_category_repeated
* C18_category_noflow_index
* C20_index_formula
* C20_index_injective
* C21_bin_of_index
* C21_bin_numbering
* C21_first_axis_fastest
* C22_tuple_none
* C23_counterexample_noflow
* C25_axis_iteration
* C25_lawful_tuple
* C25_lawful_variable
* C25_lawful_variable_noflow
* C25_lawful_variable_cyclic
* C25_lawful_category
* C25_lawful_category_noflow
* C25_lawful_uniform_noflow
* C25_lawful_uniform_cyclic
* C25_lawful_uniform_int
* C25_lawful_uniform_float_new
* C25_lawful_uniform_float_step
* C27_dense
* C28_dense
* C29_order_dense
* C29_additive_dense
* C29_int_dense
* C29_int_sparse
* C30_conservation
* C30_int_total
* C30_sparse
* C31_sparse_dense
* C31_value
* C31_until_panic
* C32_keys
* C36_scalar
* C40_weighted_sum
* C40_standard_deviation
* C41_mean
* C41_standard_deviation
* C41_order
* C42_weighted_mean
* C42_standard_deviation
* C42_unit_weights
* C42_counterexample_float
* C33_merge_dense
* C33_merge_sparse
* C33_merge_int_dense
* C33_merge_int_sparse
* C33_counterexample_float
* C35_dense
* C35_sparse_exact
* C35_counterexample_mul
* C37_from_map
* C37_map_round_trip
* C38_iter
* C38_value_at_index_mut
* C38_iter_mut_sparse
* C38_values_mut_sparse
* C39_par_iter_mut
* C39_par_iter_mut_sequential
* C39_schedule_independent
* C39_interrupted
* C39_par_values_mut
* C39_par_iter
* C39_par_iter_mut_sparse
* C39_par_values_mut_sparse
* C43_int_fill
* C45_dense
* C45_sparse
* C45_category
* C45_variable_int
* C45_uniform_int
* C45_uniform_self
* C45_counterexample_nan
* C04_uniform
* C04_noflow
* C04_cyclic
* C04_counterexample_infinite_low
* C05_uniform_new
* C05_with_step_size
* C05_counterexample_subnormal
* C05_counterexample_many_bins
* C06_within_rounding_partial
* C06_exact_partial
* C06_counterexample
* C06_counterexample_gap
* C09_wrap_partial
* C09_zero_low_partial
* C09_zero_low_turns_partial
* C09_exact_partial
* C09_counterexample_negative
* C09_counterexample_inside
* C47_float_bins
* C47_counterexample_overflow
* C44_display_partial
* C44_negative_zero_panics
* C44_counterexample_negated
* C44_counterexample_all_negative
* C44_counterexample_nan
* C44_sink_errors_ignored
* C48_uniform_int
* C48_uniform_float
* C48_uniform_noflow_int
* C48_uniform_noflow_float
* C48_category
* C48_counterexample_variable
* C48_counterexample_variable_noflow
* C48_counterexample_variable_cyclic
* C48_counterexample_vec
* C49_variable
* C49_category
* C49_counterexample_category_noflow
* C46_int
* C46_f64
* C46_string
* C46_sum
* C46_weighted_sum
* C46_mean
* C46_weighted_mean
* C46_errors
* C46_item
* C46_uniform
* C46_uniform_noflow
* C46_uniform_cyclic
* C46_variable
* C46_variable_noflow
* C46_variable_cyclic
* C46_category
* C46_tuple1
* C46_tuple
* C46_vec_histogram
* C46_hash_histogram
* C50_fields_partial
* C50_counterexample_any_length
* C50_counterexample_short
* C50_counterexample_axis
* C51_dense
* C51_sparse
* C51_value
* C51_tuple
* C51_uniform_int
* C51_uniform_noflow
* C51_variable
* C51_variable_noflow
* C51_category
* C51_category_noflow
* C51_uniform_cyclic_int
* C51_variable_cyclic_int
* C51_uniform_float
* C52_count_int
* C52_count_float
* C53_category
* C53_equal_dense
* C53_equal_sparse
* C54_plan_dense
* C54_plan_int
* C54_count
* C54_plan_int_sparse
* C54_count_sparse
* C55_assign_dense
* C55_values_mut_sparse
* C56_dense
* C56_sparse
* C57_dense
* C57_sparse
* C57_plan
* C57_plan_sparse
* C57_monotone
* C58_weighted_sum
* C58_mean
* C58_mean_variance
* C58_weighted_mean
* C58_weighted_mean_variance
* C59_with_step_size
* C59_uniform_bin
* C59_uniform_cyclic_index
* C59_variable_cyclic_index
* C59_axes_tuple
* C60_bin_interval
* C60_bin_interval_total
* C60_single_value_interval
* C60_item
* C60_vec_histogram
* C60_uniform
* C60_uniform_noflow
* C60_uniform_cyclic
* C60_tuple1
* C60_tuple
* C60_variable_bins_order
* C60_uniform_int_bins_order
* C60_uniform_float_bins_order
* C60_uniform_float_bins_strict
* C60_errors
* C60_histogram_order
* C61_select_bins
* C61_select_dense
* C61_select_sparse
* C61_marginal
* C61_marginal_count
* additive_count
* C62_one_axis
* C62_one_axis_sparse
* C62_axes
* C62_axes_sparse
* C62_too_many_cells
* C63_floats
* C63_vec_par_iter
* C63_vec_par_iter_mut
* C63_vec_par_values_mut
* C63_vec_display
* C63_hash_display
* C64_dense_total
* C65_uniform
* C65_uniform_noflow
* C65_uniform_cyclic
* C65_variable
* C65_variable_noflow
* C65_variable_cyclic
* C65_category
* C65_category_noflow
* C65_axes1
* C65_axes
* C65_tuple
* C65_sum
* C65_weighted_sum
* C65_mean
* C65_weighted_mean
* C65_dense
* C65_sparse
* C65_item
* C65_int
* C65_string
* C65_f64
* C66_int
* C66_string
* C66_bin_interval
* C66_single_value_interval
* C66_slice
* C66_errors
* C67_axis_collect
* C67_dense_iter
* C67_dense_iter_mut
* C67_dense_loop
* C67_dense_break
* C67_sparse
* C67_sparse_loop
* C67_sparse_break
* C67_counterexample_caught_panic
* C68_scale
* C68_row
* C68_length
* C68_display
* C68_whole_numbers
* C68_sparse_whole_numbers
* C69_residue
* C69_with_step_size
* C69_right_axis
* C69_uniform_index
* C69_uniform_index_right
* C69_uniform_bin
* C69_uniform_bin_right
* C69_uniform_cyclic_index
* C69_uniform_cyclic_right
* C69_variable_cyclic_index
* C69_axes_tuple
* C69_too_many_cells
* C70_bin_interval
* C70_single_value
* C70_variable
* C70_uniform_int
* C70_uniform_float
* C70_category
* C70_decimal
* C70_bin_interval_int
* C71_program
* C71_from_new
* C71_float
* C71_counterexample_eq
* C72_roots
* C72_monotone
* C72_relative
* C72_counts
* C72_weighted_sum_nan
* C72_weighted_sum
* C72_mean_no_negative
* C72_mean
* C72_weighted_mean
* C72_counterexample_weighted_mean
* C73_wrapping
* C73_release
* C73_modulo_dense
* C73_modulo_sparse
* C73_modulo_plan
* C73_modulo_plan_sparse
* C73_checked
* C73_checked_sparse
* C73_wrapping_ops
* C73_wrapping_division
* C73_release_ops
* C73_release_fits
* C73_modulo_weighted_sum
* C73_modulo_weighted_sum_sparse
* C74_dense
* C74_sparse
* C74_plan
* C74_plan_sparse
* C74_order
* C74_weighted_sum
* C74_counts
* C75_panics
* C75_means
* C75_weighted_means
* C75_float_samples
* C75_panics_sparse
* C75_means_sparse
* C75_weighted_means_sparse
* C75_release
* C76_uniform_new
* C76_uniform_step
* C76_uniform_noflow
* C76_uniform_cyclic
* C76_variable_cyclic
* C77_uniform_cyclic
* C77_uniform_cyclic_step
* C77_variable_cyclic
* C78_tuple
* C78_dense
* C78_sparse
* C78_count_int
* C78_count_float
* C78_uniform
* C78_uniform_step
* C78_uniform_noflow
* C78_uniform_cyclic
* C78_uniform_cyclic_step
* C78_variable_cyclic
* C78_weights_float
* C79_dense
* C79_sparse
* C79_plan
* C79_plan_sparse
* C79_weighted_sum
* C79_mean
* C80_reduce
* C80_counts
* C80_counts_sparse
* C80_modulo_sum
* C80_checked_sum
* C80_float_sum
* C80_float_exact
* C80_float_fills
* C80_float_fills_sparse
* C80_weights
* C80_weights_sparse
* C80_counterexample_float
* C81_program
* C81_from_new
* C82_dense
* C82_sparse
* C82_count
* C82_tuple
* C82_variable
* C82_variable_noflow
* C82_uniform_int
* C82_uniform_int_noflow
* C82_uniform_int_cyclic
* C82_uniform_noflow
* C82_variable_cyclic_int
* C82_variable_cyclic_float
* C82_uniform_float
* C82_uniform_float_noflow
* C82_uniform_float_cyclic
* C82_category
* C82_category_noflow
* C83_dense
* C83_value
* C83_tuple
* C83_uniform_variable_int
* C83_uniform_variable_noflow_int
* C83_uniform_variable_cyclic_int
* C83_uniform_variable_float
* C83_uniform_variable_noflow_float
* C83_uniform_variable_cyclic_float
* C83_category
* C83_category_noflow
* C84_variable
* C84_variable_noflow
* C84_category
* C84_uniform
* C84_uniform_noflow
* C84_uniform_cyclic
* C84_int
* C84_int_noflow
* C84_int_cyclic
* C84_float
* C84_float_noflow
* C84_float_cyclic
* C84_int_as_float
* C85_uniform
* C85_uniform_noflow
* C85_uniform_cyclic
* C85_uniform_step
* C85_uniform_noflow_step
* C85_uniform_cyclic_step
* C85_variable
* C85_variable_noflow
* C85_variable_cyclic
* C85_dense
* C85_weights
* C85_weights_sparse
* C85_weighted_sum
* C85_weighted_sum_sparse
* C85_mean
* C85_weighted_mean
* C85_scalar
* C86_counts
* C86_counts_sparse
* C86_weighted
* C86_weighted_sparse
* C86_int
* C86_int_sparse
* C86_normalised
* C86_counterexample_order
* C87_binwise
* C87_checked
* C87_release
* C87_laws
* C87_float
* C87_float_rounded
* C87_commutes_float
* C87_sparse_int
* C87_laws_sparse
* C87_sparse_returns
* C87_sparse_float
* C87_division
* C87_division_scalar
* C87_division_wrapping
* C87_counterexample_sparse
* C88_mean
* C88_weighted_mean
* C88_mean_exact
* C88_weighted_mean_exact
* C88_mean_int
* C89_cumulative
* C89_cumulative_sparse
* C89_count_below
* C89_quantile
* C89_quantile_sparse
* C89_quantile_bin
* C89_quantile_near
* C89_sum
* C89_mean
* C89_uniform_int
* C89_uniform_noflow
* C89_variable
* C89_variable_noflow
* C89_uniform_float
* C89_monotone_float
* C89_monotone_float_step
* C89_monotone_noflow
* C89_running_float
* C89_count_below_float
* C89_quantile_float
* C89_mean_float
* C90_counts
* C90_counts_sparse
* C90_int_fills
* C90_int_weights
* C90_wrapping_fills
* C90_wrapping_weights
* C90_weighted_sum
* C90_means
* C90_float
* C91_axis_exact
* C91_axis_category
* C91_axis_tuple1
* C91_axis_tuple
* C91_indist_sparse
* C91_dense
* C91_sparse
* C91_count
* C91_count_sparse
* C92_bins
* C92_order
* C92_schedules
* C92_int
* C92_int_sparse
* C92_wrapping
* C92_weighted_sum
* C92_mean
* C92_weighted_mean
* C92_count
* C92_poisoned
* C92_float
* C92_float_exact
* C92_counterexample_signs
* C92_counterexample_float
* C93_reads_back
* C93_plain_text
* C93_shortest
* C93_whole
* C93_precision
* C93_labels
* C93_label_precision
* C93_uniform_precision
* C93_variable_precision
* C93_axis_text
* C93_uniform_text
* C93_header
* C93_sparse_header
* C93_counterexample_precision
* C93_exp_reads_back
* C93_exp_plain_text
* C93_exp_labels
* C93_exp_int
* C93_exp_shortest
* C93_exp_zero
* C93_exp_int_precision
* C93_exp_precision
* C93_exp_label_precision
* C93_exp_variable_precision
* C94_snapshots
* C94_snapshots_counts
* C94_snapshots_sparse
* C94_float
* C94_float_sparse
* C94_undo
* C94_undo_any
* C94_undo_sparse
* C94_counterexample_float
* C94_counterexample_float_undo
* C94_counterexample_sparse
* C95_tuple
* C96_int
* C96_float_reads_back
* C96_float
* C96_float_form
* C96_string
* C96_uniform
* C96_variable
* C96_category
* C96_category_new
* C96_bins
* C96_sums
* C96_means
* C96_tuple1
* C96_tuple
* C96_item
* C96_vec
* C96_sparse
* C96_errors
* C96_unique_axes
* C96_unique
* C96_unique_numbers
* C96_equal_dense
* C96_equal_sparse
* C96_counterexample_sparse_order
* C96_counterexample_float_equal
* C97_tuple
* C97_two
* C97_dense
* C97_dense_read
* C97_sparse_read
* C97_binary
* C97_forms
* C97_scalar
* C97_binary_sparse
* C97_equal
* C97_equal_sparse
* C97_counterexample_panic
* C98_uniform
* C98_uniform_step
* C98_variable
* C98_category
* C98_zoom_variable
* C98_zoom_uniform
* C98_tuple
* C98_dense
* C98_dense_read
* C99_weighted
* C99_weighted_sparse
* C99_weighted_release
* C99_mean
* C99_counterexample_negative_weights
* C100_round
* C100_reduce
* C100_uniform
* C100_variable_int
* C100_variable_float
* C100_values
* C100_turns
* C101_reversed
* C101_reversed_noflow
* C101_mirror
* C101_mirror_noflow
* C101_mirror_whole
* C101_mirror_whole_noflow
* C101_edge
* C101_values
* C101_uniform
* C101_uniform_whole
* C101_variable_int
* C101_variable_float
* C101_cyclic
* C102_call
* C102_history
* C102_axis_iter
* C102_iter
* C102_iter_mut
* C103_tuple
* C103_copy
* C103_copy_from_sparse
* C103_copy_sparse
* C103_assign
* C103_copy_int
* C103_copy_float
* C103_start_variable
* C103_start_uniform_int
* C103_category
* C103_centre_uniform
* C103_centre_uniform_step
* C103_centre_cyclic
* C103_noflow
* C103_counterexample_start
* C104_list
* C104_map
* C104_uniform
* C104_uniformNoFlow
* C104_uniformCyclic
* C104_variable
* C104_variableNoFlow
* C104_variableCyclic
* C104_category
* C104_categoryNoFlow
* C104_sum
* C104_weightedSum
* C104_bins
* C104_category_bins
* C104_mean
* C104_weightedMean
* C104_item
* C104_vec
* C104_hash
* C104_tuple1
* C104_tuple
* C104_numbers
* C104_errors
* C105_exact
* C105_weighted_exact
* C105_means
* C105_means_sparse
* C105_weighted_means
* C105_weighted_means_sparse
* C105_own_bin_uniform
* C105_own_bin_variable
* C105_two
* C105_floats
* C105_counterexample_three
* C105_counterexample_negative
* C106_affine
* C106_weighted_affine
* C106_weighted_sum
* C106_parts
* C106_weighted_parts
* C106_counterexample_float
* C107_floats
* C107_integers_unchecked
* C107_fills_floats
* C107_fills_counter
* C107_axis_uniform_float_new
* C107_axis_uniform_float_step
* C107_axis_uniform_int
* C107_axis_uniform_noflow
* C107_axis_uniform_cyclic_float
* C107_axis_variable
* C107_axis_variable_noflow
* C107_axis_variable_cyclic_float
* C107_axis_category
* C107_axis_category_noflow
* C107_axis_tuple
* C108_dense
* C108_sparse
* C108_counts
* C108_moved_up
* C108_moved_up_sparse
* C108_moved_up_counts
* C108_quantile
* C108_quantile_sparse
* C108_float
* C108_moved_up_float
* C109_weighted_sum
* C109_mean
* C109_weighted_mean
* C109_bins_weighted_sum
* C109_bins_weighted_sum_sparse
* C109_bins_mean
* C109_bins_mean_sparse
* C109_bins_weighted_mean
* C109_bins
* C109_counterexample_float
* C110_dense
* C110_int
* C110_float
* C110_numbers
* C110_each
* C110_int_sq
* C110_float_sq
* C110_weighted_sum
* C110_variance
* C111_dense
* C111_sparse
* C111_int
* C111_int_sparse
* C111_float
* C111_float_sparse
* C111_sum
* C111_parts
* C111_counterexample_inf

## propext, Quot.sound

* C01_counterexample_release_wrap
* C02_counterexample
* C03_overflow_panics
* C03_counterexample_release
* C08_counterexample_unsigned
* C16_category_bins
* C18_category_noflow_bins
* C19_end_points
* C19_range_end_points
* C23_tuple_bin_wraps
* C23_zero_bins_panics
* C24_overflow_panics_partial
* C24_counterexample_release
* C26_value
* C27_sparse
* C28_sparse
* C28_until_panic
* C28_until_panic_sparse
* C29_order_sparse
* C29_additive_sparse
* C30_all_counted
* C32_iter
* C34_sparse
* C40_sum_weighted
* C40_sum_unit
* C40_weighted_sum_unit
* C41_no_panic
* C41_count_overflow
* C41_no_samples
* C33_binwise_dense
* C33_binwise_sparse
* C33_assign_sparse
* C35_sparse_owned_assign
* C35_sparse_neutral
* C35_sparse_int
* C35_counterexample_div
* C38_iter_mut
* C38_values_mut
* C38_value_at_index_mut_sparse
* C39_par_iter_sparse
* C43_int_fill_sparse
* C43_int_unit_fill
* C45_dense_length
* C48_cyclic_int_panics
* C48_counterexample_tuple1_eq
* C48_counterexample_tuple
* C49_uniform
* C53_uniform
* C53_uniform_noflow
* C53_uniform_cyclic
* C53_variable
* C53_variable_noflow
* C53_variable_cyclic
* C53_operation_dense
* C53_operation_sparse
* C54_plan_sparse
* C55_assign_sparse
* C60_mean
* C60_weighted_mean
* additive_weighted
* C63_integers
* C63_uniform
* C63_uniform_noflow
* C63_uniform_cyclic
* C63_variable
* C63_variable_noflow
* C63_variable_cyclic
* C63_category
* C63_category_noflow
* C63_bins
* C63_axis_iter
* C63_vec_iter
* C63_vec_op_scalar
* C63_hash_iter
* C63_hash_op_borrow
* C63_vec_iter_mut_next
* C63_vec_loop_mut
* C63_hash_par_iter
* C63_hash_par_iter_mut
* C63_hash_par_values_mut
* C64_unchanged
* C64_int_total
* C64_sum_total
* C64_mean_samples
* C64_weighted_mean_samples
* C64_sparse_total
* C66_uniform
* C66_uniform_noflow
* C66_uniform_cyclic
* C66_variable
* C66_variable_noflow
* C66_variable_cyclic
* C66_sum
* C66_weighted_sum
* C66_mean
* C66_weighted_mean
* C66_item
* C66_axes1
* C66_tuple_cons
* C66_axes
* C66_vec_histogram
* C67_axis
* C69_counterexample_out_of_range
* C69_counterexample_cyclic_panics
* C71_int
* C73_modulo_operators
* C80_reduce_sparse
* C80_counterexample_signed
* C81_counterexample_panic
* C83_sparse
* C85_sparse
* C87_commutes
* C87_commutes_int
* C87_sparse
* C88_mean_sparse
* C88_weighted_mean_sparse
* C88_append
* C89_monotone
* C90_batch
* C90_batch_sparse
* C90_counterexample_signs
* C90_sum_fills
* C90_sum_weights
* C90_counterexample_weighted_sum
* C90_zero
* C90_counterexample_zero_sparse
* C91_indist_dense
* C92_any_moment
* C92_bins_sparse
* C92_order_sparse
* C92_schedules_sparse
* C94_counterexample_signed
* C94_counterexample_order
* C95_axis_iter
* C95_dense_read
* C95_sparse_read
* C96_map
* C97_sparse
* C98_sparse
* C98_sparse_read
* C98_binary
* C98_counterexample_panic
* C102_call_sparse
* C102_iter_sparse
* C102_counterexample_out_of_range
* C102_counterexample_tuple
* C107_dense
* C107_sparse
* C107_integers
* C109_bins_sparse
* C110_sparse
* C110_numbers_sparse
* C110_counterexample_wrap
* C111_parts_sparse
* C111_counterexample_wrap
