# property | status | theorems | note
C01 | proved | C01_uniform_int_index C01_counterexample_release_wrap C03_checked_construction_fits | Any integer type and usize width, both build profiles. In a release build the parameters must not overflow the type at construction (hypothesis hfit); the counterexample shows what happens otherwise.
C02 | partial | C02_uniform_int_bins_partial C02_bin_panics C02_counterexample | The middle bins need (k+1)*num*step to fit the coordinate type; beyond that bin() panics (debug) or is wrong (release): a defect of the code, proved as C02_bin_panics and C02_counterexample.
C03 | partial | C03_with_step_size_int C03_overflow_panics C03_counterexample_release C03_checked_construction_fits C03_new_float C03_with_step_size_float_partial C03_counterexample_float | Uniform::new on floats: proved in full. with_step_size: integer release builds violate the claim on overflow and float axes may get low == high by rounding (counterexamples); otherwise proved.
C07 | proved | C07_noflow_index C07_noflow_bin | 
C08 | proved | C08_uniform_cyclic_int C08_uniform_cyclic_int_turns C08_counterexample_unsigned | Both build profiles. The range of coordinates in the quantifier is needed: C08_counterexample_unsigned shows unsigned coordinates below low panicking or misplaced; C59 says that with overflow checks these always panic.
C10 | partial | C10_too_few_edges C10_nan_rejected_partial C10_variable_new_sorts C10_edge_order_irrelevant C10_edge_order_irrelevant_int C10_nan_may_panic | Everything but one point: with a NaN edge the documented FailedToSortBinEdges may be replaced by a panic of std's sort (permitted by its contract).
C11 | proved | C11_variable_index C11_index_iff_bin_covers | 
C12 | partial | C12_repeated_edges_partial C12_last_match C12_counterexample | False in general: which of several equal edges binary_search reports is unspecified. Proved for searches reporting the last match (Rust >= 1.82); counterexample for Rust <= 1.81.
C13 | proved | C13_variable_bins | 
C14 | proved | C14_variable_noflow_index C14_variable_noflow_covers C14_variable_noflow_bins C14_index_iff_bin_covers | bin(usize::MAX) is excluded: i + 1 overflows (see C23).
C15 | partial | C15_variable_cyclic_int_partial C15_variable_cyclic_int_turns_partial C15_equal_edges_panic C15_float_nan C15_float_wrap_partial C15_float_zero_low_partial C15_counterexample_float | Integers with representable differences; all edges equal makes every lookup panic (C15_equal_edges_panic). Floats: NaN and infinities in full; finite coordinates up to the rounding of the wrap-around, exactly for first edge 0 and c >= 0.
C16 | proved | C16_category_bins C16_category_index C16_index_iff_bin_covers | 
C17 | proved | C17_category_repeated | The bin used is that of the last occurrence.
C18 | proved | C18_category_noflow_index C18_category_noflow_bins | 
C19 | proved | C19_end_points C19_range_round_trip C19_exactly_one_range C19_range_end_points C19_single_value | 
C20 | proved | C20_construct C20_index_formula C20_index_injective | Any number of axes; the product of the bin counts must fit in usize (else C24) and be positive.
C21 | proved | C21_bin_of_index C21_bin_numbering C21_first_axis_fastest | 
C22 | proved | C22_tuple_none | 
C23 | partial | C02_uniform_int_bins_partial C07_noflow_bin C13_variable_bins C14_variable_noflow_bins C16_category_bins C18_category_noflow_bins C23_tuple_bin_wraps C23_zero_bins_panics C23_counterexample C23_counterexample_noflow | True for single axes (except bin(usize::MAX) of the no-flow axes, which panics in a debug build); false for tuples, whose bin() wraps around modulo num_bins: C23_tuple_bin_wraps proves what it does instead.
C24 | partial | C24_overflow_panics_partial C24_counterexample_release | True with overflow checks; false in release builds (counterexample).
C25 | proved | C25_axis_iteration C25_num_dim C25_lawful_tuple C25_lawful_tuple1 C25_lawful_variable C25_lawful_variable_noflow C25_lawful_variable_cyclic C25_lawful_category C25_lawful_category_noflow C25_lawful_uniform_noflow C25_lawful_uniform_cyclic C25_lawful_uniform_int C25_lawful_uniform_float_new C25_lawful_uniform_float_step | For every lawful axis; lawfulness is proved for all axis kinds of the library (uniform integer axes under the condition of C02, float axes under those of C05).
C26 | proved | C26_new C26_value | 
C27 | proved | C27_dense C27_sparse | All three fill methods, any value type, panics included.
C28 | proved | C28_dense C28_sparse C28_until_panic C28_until_panic_sparse | Programs that catch panics and programs that stop at the first one.
C29 | proved | C29_order_dense C29_order_sparse C29_additive_dense C29_additive_sparse C29_int_dense C29_int_sparse | 
C30 | proved | C30_conservation C30_all_counted C30_int_total C30_sparse | 
C31 | proved | C31_sparse_dense C31_value C31_until_panic | 
C32 | proved | C32_keys C32_iter | 
C34 | proved | C34_dense C34_sparse | 
C36 | proved | C36_scalar | 
C40 | proved | C40_sum_weighted C40_sum_unit C40_weighted_sum C40_weighted_sum_unit C40_standard_deviation | Exact arithmetic, and integers in a checked build (class Faithful).
C41 | proved | C41_mean C41_standard_deviation C41_order C41_no_panic C41_count_overflow C41_no_samples | Exact arithmetic.
C42 | partial | C42_weighted_mean C42_standard_deviation C42_unit_weights C42_counterexample_float | Exact arithmetic. With floating point the last clause is false: C42_counterexample_float (one sample gives a negative variance and a NaN standard deviation).
C33 | proved | C33_binwise_dense C33_binwise_sparse C33_assign_sparse C33_merge_dense C33_merge_sparse C33_merge_int_dense C33_merge_int_sparse C33_counterexample_float | Merging equals filling the union of the samples for bin values whose addition is a sum (integers in both build profiles); with floating point it holds only up to rounding (C33_counterexample_float).
C35 | proved | C35_dense C35_sparse_owned_assign C35_sparse_exact C35_sparse_neutral C35_sparse_int C35_counterexample_mul C35_counterexample_div | One might expect that the forms always agree; the counterexamples show that they do not, C35_sparse_exact says exactly when. KeyOrder and Order are arbitrary iteration orders.
C37 | proved | C37_from_vec C37_vec_round_trip C37_from_map C37_map_round_trip | 
C38 | proved | C38_iter C38_iter_mut C38_values_mut C38_value_at_index_mut C38_value_mut C38_value_at_index_mut_sparse C38_iter_mut_sparse C38_values_mut_sparse | 
C39 | proved | C39_par_iter_mut C39_par_iter_mut_sequential C39_schedule_independent C39_interrupted C39_par_values_mut C39_par_iter C39_par_iter_mut_sparse C39_par_values_mut_sparse C39_par_iter_sparse | Any interleaving of any per-bin task steps; rayon is modelled as giving each bin to one task.
C43 | proved | C43_int_fill C43_int_fill_sparse C43_int_unit_fill | 
C45 | proved | C45_dense C45_dense_length C45_sparse C45_category C45_variable_int C45_uniform_int C45_uniform_self C45_counterexample_nan | Reflexivity fails only for NaN bin edges or values (C45_counterexample_nan).
C04 | proved | C04_uniform C04_noflow C04_cyclic C04_counterexample_infinite_low | -inf goes to underflow unless low itself is -inf (counterexample).
C05 | proved | C05_uniform_new C05_with_step_size C05_counterexample_subnormal C05_counterexample_many_bins | The counterexamples show that the bounds on bin width and bin count are needed.
C06 | partial | C06_within_rounding_partial C06_exact_partial C06_counterexample C06_counterexample_gap | False in general (counterexamples). Proved: within a few rounding errors for every axis, exactly for axes whose bin width is a power of two and whose ends are multiples of it (for coordinates whose distance to low is not rounded, e.g. always if low >= 0).
C09 | partial | C09_wrap_partial C09_zero_low_partial C09_zero_low_turns_partial C09_exact_partial C09_counterexample_negative C09_counterexample_inside | False in general (counterexamples). Proved: what the lookup computes for every axis; exactness for low = 0 and non-negative (or exactly representable) coordinates.
C47 | proved | C47_float_bins C47_counterexample_overflow | The counterexample shows that the no-overflow condition is needed.
C44 | partial | C44_display_partial C44_negative_zero_panics C44_counterexample_negated C44_counterexample_all_negative C44_counterexample_nan C44_sink_errors_ignored | Bars are bounded and nothing panics when no bin prints as negative zero; counterexamples: a negated histogram makes Display panic. C44_sink_errors_ignored: the effect of every pattern of failing writes.
C48 | partial | C48_uniform_int C48_uniform_float C48_uniform_noflow_int C48_uniform_noflow_float C48_cyclic_int_panics C48_category C48_hash C48_counterexample_variable C48_counterexample_variable_noflow C48_counterexample_variable_cyclic C48_tuple1 C48_counterexample_tuple_any C48_counterexample_tuple1_eq C48_counterexample_tuple C48_counterexample_vec | Proved for uniform and category axes and sparse histograms; false for variable axes, tuples of axes (a one-axis default tuple works but is not equal to the tuple of the default axis) and dense histograms (counterexamples).
C49 | partial | C49_uniform C49_uniform_noflow C49_variable C49_category C49_counterexample_category_noflow C49_counterexample_default | False only for CategoryNoFlow (prints an overflow bin it does not have) and the Default variable axis (panics).
C46 | proved | C46_int C46_f64 C46_string C46_sum C46_weighted_sum C46_mean C46_weighted_mean C46_errors C46_item C46_uniform C46_uniform_noflow C46_uniform_cyclic C46_variable C46_variable_noflow C46_variable_cyclic C46_category C46_tuple1 C46_tuple C46_vec_histogram C46_hash_histogram | At the level of serde's data model, any order in which maps are written; the text of a particular format (e.g. JSON, which cannot write NaN) is not modelled.
C50 | partial | C50_fields_partial C50_counterexample_any_length C50_counterexample_short C50_counterexample_axis | False: Deserialize is derived and validates nothing but field names and types (counterexamples).
C51 | proved | C51_dense C51_sparse C51_value C51_tuple C51_tuple1 C51_uniform_int C51_uniform_noflow C51_variable C51_variable_noflow C51_category C51_category_noflow C51_uniform_cyclic_int C51_variable_cyclic_int C51_uniform_float | For float uniform axes with bin widths other than powers of two the claim is false by rounding (C06_counterexample).
C52 | proved | C52_count_int C52_count_float | 
C53 | proved | C53_uniform C53_uniform_noflow C53_uniform_cyclic C53_variable C53_variable_noflow C53_variable_cyclic C53_category C53_tuple1 C53_tuple_cons C53_tuple C53_equal_dense C53_equal_sparse C53_operation_dense C53_operation_sparse | 
C54 | proved | C54_plan_dense C54_plan_int C54_count C54_plan_sparse C54_plan_int_sparse C54_count_sparse | 
C55 | proved | C55_assign_dense C55_assign_sparse C55_values_mut_sparse C38_values_mut C38_iter_mut | Dense values_mut and iter_mut: the panic clauses of C38.
C56 | proved | C56_dense C56_sparse | 
C57 | proved | C57_dense C57_sparse C57_plan C57_plan_sparse C57_monotone | Range condition: (1+u)^n times the sum of absolute values is at most the largest finite float.
C58 | proved | C58_weighted_sum C58_mean C58_mean_variance C58_weighted_mean C58_weighted_mean_variance | The variance of WeightedMean may be negative (C42_counterexample_float) but is always within the bound of the exact one.
C59 | proved | C59_with_step_size C59_uniform_bin C59_uniform_cyclic_index C59_variable_cyclic_index C59_axes_tuple | Covers the cases left open by the partial theorems of C02, C03, C08, C15, C24 for builds with overflow checks.
C60 | proved | C60_bin_interval C60_bin_interval_total C60_single_value_interval C60_sum C60_weighted_sum C60_mean C60_weighted_mean C60_item C60_vec_histogram C60_uniform C60_uniform_noflow C60_uniform_cyclic C60_variable C60_variable_noflow C60_variable_cyclic C60_tuple1 C60_tuple_nil C60_tuple_cons C60_tuple C60_variable_bins_order C60_uniform_int_bins_order C60_uniform_float_bins_order C60_uniform_float_bins_strict C60_errors C60_error_order C60_category_order C60_interval_order C60_sum_order C60_mean_order C60_weighted_mean_order C60_histogram_order | The laws are stated in CmpLaws/TotalLaws (the documented contract of PartialOrd and Ord); numbers satisfy them by cmpLaws_num, totalLaws_int. On float uniform axes neighbouring edges can coincide after rounding: the bins do not decrease, and strictly increase past bins of nonzero width or if the nominal width exceeds the rounding error. Ord::cmp is identified with partial_cmp.
C61 | proved | C61_select_bins C61_select_dense C61_select_sparse C61_marginal C61_marginal_count additive_count additive_weighted | Additivity of the quantity is a hypothesis, proved for integer counts (additive_count) and exact weighted sums (additive_weighted); for floats see the bounds of C57.
C62 | proved | C62_one_axis C62_one_axis_sparse C62_axes C62_axes_sparse C62_too_many_cells | Composition of macro, axis, fill and iteration. Faithful axes are those of C51 (all integer axes, variable axes, category axes, float uniform axes with exact step). The macros' argument syntax is not modelled.
C63 | proved | C63_integers C63_floats C63_uniform_new C63_uniform_with_step_size C63_uniform C63_uniform_noflow C63_uniform_noflow_new C63_uniform_noflow_with_step_size C63_uniform_cyclic C63_uniform_cyclic_new C63_uniform_cyclic_with_step_size C63_variable C63_variable_noflow C63_variable_cyclic C63_category C63_category_noflow C63_indices C63_bins C63_axis_iter C63_tuple1 C63_from_tuple1 C63_tuple C63_from_tuple C63_fill_number C63_fill_with_number C63_fill_with_weighted_sum C63_fill_with_mean C63_fill_with_weighted_mean C63_ops C63_default C63_fill_sum C63_fill_with_sum C63_fill_weighted_sum C63_mean C63_mean_variance_of_samples C63_mean_variance_of_mean C63_weighted_mean C63_weighted_mean_variance_of_samples C63_weighted_mean_variance_of_mean C63_vec_new C63_vec_from_vec C63_vec_value C63_vec_iter C63_vec_value_mut C63_vec_call C63_vec_program C63_vec_values_mut C63_vec_iter_mut C63_vec_op_borrow C63_vec_op_scalar C63_vec_op_owned C63_vec_op_assign C63_hash_new C63_hash_from_map C63_hash_value C63_hash_iter C63_hash_value_mut C63_hash_call C63_hash_program C63_hash_values_mut C63_hash_iter_mut C63_hash_op_borrow C63_hash_op_owned C63_hash_op_assign C63_axis_eq C63_tuple1_eq C63_tuple_eq C63_ndhistogram1 C63_ndhistogram C63_sparsehistogram C63_for_loop C63_pull C63_axis_start C63_axis_iter_next C63_bins_next C63_vec_iter_next C63_vec_iter_mut_next C63_hash_iter_next C63_hash_iter_mut_next C63_vec_loop_values_mut C63_hash_loop_values_mut C63_vec_loop_mut C63_hash_loop_mut C63_vec_par_iter C63_hash_par_iter C63_vec_par_iter_mut C63_vec_par_values_mut C63_hash_par_iter_mut C63_hash_par_values_mut C63_reduce C63_vec_display C63_hash_display C63_display_uniform C63_display_variable C63_display_category | Simulation between the two builds. The agreement relations are in SpecProfile.lean; number types satisfy the hypotheses by C63_integers and C63_floats. Sparse iteration is compared for equal iteration orders. Also iterators one next() at a time, loops that break, parallel iteration under any schedule and the text output (ProfileIter.lean). Serde is not included: it depends on the width of usize only, which is the same in both builds.
C64 | proved | C64_number C64_sum C64_weighted_sum C64_mean C64_weighted_mean C64_unchanged C64_int_total C64_sum_total C64_mean_samples C64_weighted_mean_samples C64_dense_total C64_sparse_total | Stops (SpecHalf.lean) says how far a list of updates got. In builds without overflow checks integer fills do not panic (C43).
C65 | proved | C65_uniform C65_uniform_noflow C65_uniform_cyclic C65_variable C65_variable_noflow C65_variable_cyclic C65_category C65_category_noflow C65_axes1 C65_axes C65_tuple C65_sum C65_weighted_sum C65_mean C65_weighted_mean C65_dense C65_sparse C65_item C65_int C65_string C65_f64 | At the level of serde's data model for a self-describing format; the derive macros themselves are modelled, not verified. The positive counterpart of C50.
C66 | proved | C66_int C66_string C66_bin_interval C66_single_value_interval C66_uniform C66_uniform_noflow C66_uniform_cyclic C66_variable C66_variable_noflow C66_variable_cyclic C66_sum C66_weighted_sum C66_mean C66_weighted_mean C66_item C66_axes1 C66_tuple_nil C66_tuple_cons C66_axes C66_slice C66_vec_histogram C66_errors | HashContract and SliceContract (SpecHash.lean) are the documented contract of std::hash::Hash.
C67 | proved | C67_axis C67_axis_collect C67_dense_iter C67_dense_iter_mut C67_dense_loop C67_dense_break C67_sparse C67_sparse_loop C67_sparse_break C67_counterexample_caught_panic | Iterators as state machines (Model/Iter.lean) built from models of std's Range, slice and map iterators, Map and Zip. values() and values_mut() of std are the list iterators themselves.
C68 | proved | C68_scale C68_row C68_length C68_display C68_whole_numbers C68_sparse_whole_numbers | The exact counterpart of C44. For platforms of up to 128 bits. How std formats numbers is a parameter; running out of memory below isize::MAX bytes is not modelled.
C69 | proved | C69_residue C69_with_step_size C69_right_axis C69_uniform_index C69_uniform_index_right C69_uniform_bin C69_uniform_bin_right C69_uniform_cyclic_index C69_uniform_cyclic_right C69_variable_cyclic_index C69_axes_tuple C69_too_many_cells C69_counterexample_out_of_range C69_counterexample_cyclic_panics | The exact counterpart of C59 for builds without overflow checks: settles the cases left open by the partial theorems of C02, C03, C15 and C24 there. The counterexamples show what goes wrong beyond the conditions.
C70 | proved | C70_bin_interval C70_single_value C70_variable C70_uniform_int C70_uniform_float C70_category C70_errors C70_decimal C70_bin_interval_int C70_counterexample_overflow_category | How std prints a number is a parameter (PlainText), shown to hold of integers in decimal by C70_decimal; the three formatting traits come from one macro and differ only in it. The counterexample is the documented exception.
C71 | proved | C71_program C71_from_new C71_int C71_float C71_counterexample_eq | Programs as a type of statements with continuations (SpecProg.lean); the counterexample documents the excluded comparison.
C72 | proved | C72_roots C72_monotone C72_relative C72_counts C72_weighted_sum_nan C72_weighted_sum C72_mean_no_negative C72_mean C72_weighted_mean C72_counterexample_weighted_mean | `Float::sqrt` is modelled as a computable correctly rounded root; that it is one is part of C72_roots. C72_counterexample_weighted_mean is the documented failure.
C73 | proved | C73_wrapping C73_release C73_modulo_dense C73_modulo_sparse C73_modulo_plan C73_modulo_plan_sparse C73_checked C73_checked_sparse C73_wrapping_ops C73_wrapping_division C73_release_ops C73_release_fits C73_modulo_weighted_sum C73_modulo_weighted_sum_sparse C73_modulo_operators | Wrapping<T> is modelled in Model/Wrapping.lean.
C74 | proved | C74_dense C74_sparse C74_plan C74_plan_sparse C74_order C74_weighted_sum C74_counts | The bound on the sums cannot be dropped: C74_counts shows what happens beyond it.
C75 | proved | C75_panics C75_means C75_weighted_means C75_float_samples C75_panics_sparse C75_means_sparse C75_weighted_means_sparse C75_release | The mean is an optimal result: no float is nearer. Rounding of conversions from integers is part of the model.
C76 | proved | C76_uniform_new C76_uniform_step C76_uniform_noflow C76_uniform_cyclic C76_variable_cyclic | The exact counterpart, on a grid, of C06 and C09, which fail for arbitrary floats.
C77 | proved | C77_uniform_cyclic C77_uniform_cyclic_step C77_variable_cyclic | The counterpart within rounding of C09, for arbitrary floats.
C78 | proved | C78_exact C78_tuple C78_tuple1 C78_dense C78_sparse C78_count_int C78_count_float C78_uniform C78_uniform_step C78_uniform_noflow C78_uniform_cyclic C78_uniform_cyclic_step C78_variable_cyclic C78_weights_float | The counterpart of C51 and C52 for float axes that are not exact.
C79 | proved | C79_dense C79_sparse C79_plan C79_plan_sparse C79_weighted_sum C79_mean | C57 and C58 bin by bin, without their assumption that all weights are finite.
C80 | proved | C80_reduce C80_reduce_sparse C80_counts C80_counts_sparse C80_modulo_sum C80_checked_sum C80_float_sum C80_float_exact C80_float_fills C80_float_fills_sparse C80_weights C80_weights_sparse C80_counterexample_signed C80_counterexample_float | rayon itself is not in the repository: its reduction is modelled as an arbitrary binary division of the items in their order, parts folded from the identity. The counterexamples show that the conditions on signs and on floats are needed.
C81 | proved | C81_program C81_from_new C81_counterexample_panic | Programs as a type of statements with continuations (SpecHasher.lean); no assumption on the axis, the values or the operators. The counterexample shows that the exception for panics is needed.
C82 | proved | C82_dense C82_sparse C82_count C82_tuple C82_refl C82_variable C82_variable_noflow C82_uniform_int C82_uniform_int_noflow C82_uniform_int_cyclic C82_uniform_noflow C82_variable_cyclic_int C82_variable_cyclic_float C82_uniform_float C82_uniform_float_noflow C82_uniform_float_cyclic C82_category C82_category_noflow | Coarser (SpecRebin) says in terms of the reported intervals that the bins of one axis are unions of bins of the other; C82_dense/_sparse/_count are the consequence for histograms, the others establish Coarser for the axes of the library. Float axes: coordinates on the grid (GridCoord, GridTurns), as for C76.
C83 | proved | C83_dense C83_sparse C83_value C83_tuple C83_uniform_variable_int C83_uniform_variable_noflow_int C83_uniform_variable_cyclic_int C83_uniform_variable_float C83_uniform_variable_noflow_float C83_uniform_variable_cyclic_float C83_category C83_category_noflow | Uses the specification Coarser of C82 with an injective map of bins. The integer theorems ask that num*(num*step) fits the type, the condition under which Uniform::bin computes its edges without overflow; the float theorems are for exact grids (C76).
C84 | proved | C84_variable C84_variable_noflow C84_category C84_same_numbers C84_uniform C84_uniform_noflow C84_uniform_cyclic C84_int C84_int_noflow C84_int_cyclic C84_float C84_float_noflow C84_float_cyclic C84_int_as_float | Coarser ... id (C82's specification with the identity on bin numbers) is what C83_dense, C83_sparse, C83_value and C83_tuple take. C84_uniform* state the conversion for any axes with the bins evenBins of SpecRescale.lean; C84_int* and C84_float* show that the axes of the crate have these bins. Float axes are on exact grids (C76); for other float axes the rounding of the two axes may differ (C06).
C85 | proved | C85_uniform C85_uniform_noflow C85_uniform_cyclic C85_uniform_step C85_uniform_noflow_step C85_uniform_cyclic_step C85_variable C85_variable_noflow C85_variable_cyclic C85_tuple C85_dense C85_sparse C85_weights C85_weights_sparse C85_weighted_sum C85_weighted_sum_sparse C85_mean C85_weighted_mean C85_scalar | Conditions (SpecScale.lean): for Uniform no bin narrower than the smallest normal number and the range not wider than the largest number, in both units (UnitsFit); for cyclic axes bounds up to 2^(emax-2) (CyclicFit) and no overflow of the distance to the lower end (NoOverflow); squares and products of weights do not underflow (SquareFits, ProductFits). Contents are compared where they are finite in both units (ScaledFin). Variances of means are not included.
C86 | proved | C86_counts C86_counts_sparse C86_weighted C86_weighted_sparse C86_int C86_int_sparse C86_normalised C86_counterexample_order | Format condition emin <= -p (true of f16, f32, f64). C86_counterexample_order: if the part is filled in another order than the whole (as after merging), rounding can make the ratio larger than 1.
C87 | proved | C87_binwise C87_checked C87_release C87_laws C87_float C87_float_rounded C87_commutes C87_commutes_int C87_commutes_float C87_sparse C87_sparse_int C87_laws_sparse C87_sparse_returns C87_sparse_float C87_division C87_division_scalar C87_division_wrapping C87_counterexample_sparse | C87_counterexample_sparse: &(&(&a + &b)? - &b)? == a is false for sparse histograms when b has a bin that a lacks (it then holds a 0), while the dense ones are equal.
C88 | proved | C88_mean C88_mean_sparse C88_weighted_mean C88_weighted_mean_sparse C88_append C88_mean_exact C88_weighted_mean_exact C88_mean_int C88_sums | Added because two edited programs (Mean::new skipping the first sample, WeightedMean::new filling in reverse) passed all earlier theorems.
C89 | proved | C89_cumulative C89_cumulative_sparse C89_count_below C89_quantile C89_quantile_sparse C89_quantile_bin C89_quantile_near C89_sum C89_mean C89_monotone C89_uniform_int C89_uniform_noflow C89_tuple1 C89_variable C89_variable_noflow C89_uniform_float C89_monotone_float C89_monotone_float_step C89_monotone_noflow C89_running_float C89_count_below_float C89_quantile_float C89_mean_float | Bins in ascending order (AscendingAxis) and monotone indexing (MonotoneAxis) are proved for the axes named; cyclic axes have neither.
C90 | proved | C90_batch C90_batch_sparse C90_counts C90_counts_sparse C90_int_fills C90_int_weights C90_counterexample_signs C90_wrapping_fills C90_wrapping_weights C90_sum_fills C90_sum_weights C90_weighted_sum C90_counterexample_weighted_sum C90_means C90_float C90_zero C90_counterexample_zero_sparse | The counterexamples are the limits named in the statement: parts of both signs can overflow where their sum does not; the variance of a WeightedSum; fill_with(c, 0) on a sparse histogram.
C91 | proved | C91_axis_exact C91_axis_category C91_axis_tuple1 C91_axis_tuple C91_indist_dense C91_indist_sparse C91_dense C91_sparse C91_count C91_count_sparse | The file is assumed to be replaced at once (histogram and number of calls together); the text of a particular format is not modelled (see C46).
C92 | proved | C92_any_moment C92_bins C92_bins_sparse C92_order C92_order_sparse C92_schedules C92_schedules_sparse C92_int C92_int_sparse C92_wrapping C92_weighted_sum C92_mean C92_weighted_mean C92_count C92_poisoned C92_float C92_float_exact C92_counterexample_signs C92_counterexample_float | The lock itself (std::sync::Mutex) is not part of the crate and not modelled beyond making each call atomic; a panic poisons it (C92_poisoned) or is caught per call (C92_bins).
C93 | proved | C93_reads_back C93_plain_text C93_shortest C93_whole C93_precision C93_labels C93_label_precision C93_uniform_precision C93_variable_precision C93_axis_text C93_uniform_text C93_header C93_sparse_header C93_counterexample_precision C93_exp_reads_back C93_exp_plain_text C93_exp_labels C93_exp_int C93_exp_shortest C93_exp_zero C93_exp_int_precision C93_exp_precision C93_exp_label_precision C93_exp_variable_precision | std's printing algorithms (Grisu, Dragon) are not modelled, only what they compute. tools/float_check.py compares the model's texts with Python's.
C94 | proved | C94_snapshots C94_snapshots_counts C94_snapshots_sparse C94_float C94_float_sparse C94_undo C94_undo_any C94_undo_sparse C94_counterexample_float C94_counterexample_float_undo C94_counterexample_signed C94_counterexample_order C94_counterexample_sparse | Contents at the snapshot are arbitrary (any histogram with one value per bin). Opposite weights are modulo 2^bits in a build without overflow checks.
C95 | proved | C95_tuple C95_single C95_trans C95_coords C95_axis_iter C95_new C95_dense C95_dense_read C95_sparse C95_sparse_read C95_counterexample_num_dim | All axes have at least one bin and the total number of bins fits usize (for the other cases see C23 and C24). Comparison and serialization of grouped tuples are not compared.
C96 | proved | C96_same_text C96_int C96_float_reads_back C96_float C96_float_form C96_string C96_list C96_map C96_uniform C96_variable C96_category C96_category_new C96_bins C96_sums C96_means C96_tuple1 C96_tuple C96_item C96_vec C96_sparse C96_errors C96_unique_axes C96_unique C96_unique_numbers C96_equal_dense C96_equal_sparse C96_counterexample_sparse_order C96_counterexample_float_equal | The derived implementations and std's builders are modelled as documented; which characters are printable is a parameter. Two objects of the same type are compared.
C97 | proved | C97_tuple C97_two C97_dense C97_new C97_dense_read C97_sparse C97_sparse_read C97_binary C97_forms C97_scalar C97_binary_sparse C97_equal C97_equal_sparse C97_counterexample_panic | C61 gives the same for sums and counts over a selection of the axes; here all axes are kept and every value type, panics, reading and operators are covered.
C98 | proved | C98_uniform C98_uniform_step C98_variable C98_category C98_zoom_variable C98_zoom_uniform C98_of_bins C98_refl C98_tuple C98_new C98_dense C98_dense_read C98_sparse C98_sparse_read C98_binary C98_counterexample_panic | The Uniform theorems need the axis to be lawful (C25: integer axes whose bin() does not overflow, float axes). C98_zoom_uniform is for integers; on float axes the edges of a part are rounded differently (C76, C78).
C99 | proved | C99_weighted C99_weighted_sparse C99_weighted_release C99_mean C99_counterexample_negative_weights | ReportsWeighted (Props/IntWMean.lean) states the claim about one bin in terms of the WeightedMean API and the list of weighted samples.
C100 | proved | C100_round C100_reduce C100_uniform C100_variable_int C100_variable_float C100_values C100_same_bins C100_same_bins_sparse C100_turns | turnBins, edgeBins, roundBy, SameButCoord and InSameBins are defined in SpecCyclic.lean. BinsAre for UniformCyclic comes from C84_int_cyclic and C84_float_cyclic (with turnBins_even), for VariableCyclic from C100_variable_int and C100_variable_float; C83_sparse, C83_value and C83_tuple turn the result of C100_round into statements about sparse histograms, reading and several axes.
C101 | proved | C101_reversed C101_reversed_noflow C101_mirror C101_mirror_noflow C101_mirror_whole C101_mirror_whole_noflow C101_edge C101_values C101_uniform C101_uniform_whole C101_variable_int C101_variable_float C101_cyclic | flowBins, plainBins and mirrorEdges are defined in SpecMirror.lean. BinsAre for uniform axes comes from C84_int, C84_float and their noflow and cyclic versions (with flowBins_even, plainBins_even), for variable-width axes from C101_variable_int, C101_variable_float, C100_variable_int and C100_variable_float. C83_sparse, C83_value and C83_tuple turn the results into statements about sparse histograms, reading and several axes.
C102 | proved | C102_new C102_call C102_call_sparse C102_history C102_value C102_axis_iter C102_iter C102_iter_mut C102_iter_sparse C102_counterexample_out_of_range C102_counterexample_tuple | The implementations are pure functions of their arguments: interior mutability and non-termination of user code are not modelled. The theorems of the other properties that assume LawfulAxis apply to every user-written axis that keeps the contract. The last sentence of the statement is shown by the two counterexamples (to the expectation that dense and sparse agree, and that a fill is found at its own coordinate only).
C103 | proved | C103_inside C103_tuple C103_value C103_value_sparse C103_copy C103_copy_from_sparse C103_copy_sparse C103_assign C103_copy_int C103_copy_float C103_start_variable C103_start_uniform_int C103_category C103_centre_uniform C103_centre_uniform_step C103_centre_cyclic C103_noflow C103_counterexample_start | The copying programs (refill, assignBins) are user code, written down beside the theorems. The last sentence is a counterexample to the expectation that the start of a bin, which its interval contains, addresses it on every axis. The widths required for centres (54, 58, 72 rounding errors of the bounds) are sufficient, not necessary.
C104 | proved | C104_list C104_map C104_uniform C104_uniformNoFlow C104_uniformCyclic C104_variable C104_variableNoFlow C104_variableCyclic C104_category C104_categoryNoFlow C104_sum C104_weightedSum C104_bins C104_category_bins C104_mean C104_weightedMean C104_item C104_vec C104_hash C104_tuple1 C104_axes C104_tuple C104_numbers C104_errors | The derived implementations and std's builders are modelled as documented. Names of types are assumed to contain no line break
C105 | proved | C105_exact C105_weighted_exact C105_means C105_means_sparse C105_weighted_means C105_weighted_means_sparse C105_own_bin_uniform C105_own_bin_variable C105_two C105_floats C105_counterexample_three C105_counterexample_negative | The statement includes the exceptions (three or more floats, negative weights), which are proved as counterexamples
C106 | proved | C106_affine C106_weighted_affine C106_weighted_sum C106_parts C106_weighted_parts C106_counterexample_float | Exact arithmetic is stated by the property; rounding is covered by C58, C75, C85 and C105, and the dependence on the origin with floats is proved as a counterexample
C107 | proved | C107_dense C107_sparse C107_floats C107_integers C107_integers_unchecked C107_fills_floats C107_fills_counter C107_axis_uniform_float_new C107_axis_uniform_float_step C107_axis_uniform_int C107_axis_uniform_noflow C107_axis_uniform_cyclic_float C107_axis_variable C107_axis_variable_noflow C107_axis_variable_cyclic_float C107_axis_category C107_axis_category_noflow C107_axis_tuple | Serde, Display and the parallel iterators are not statements of these programs. Axes of which the methods do panic are the subject of C02, C06, C15 and C23. Memory exhaustion is not modelled
C108 | proved | C108_dense C108_sparse C108_counts C108_moved_up C108_moved_up_sparse C108_moved_up_counts C108_quantile C108_quantile_sparse C108_float C108_moved_up_float | The general theorems take the additivity of the values over the calls made as a hypothesis; it is discharged for integer counts (C108_counts, C108_moved_up_counts) and for float weights within the limits of C74 (C108_float, C108_moved_up_float). MonotoneAxis is proved for the axes of C89
C109 | proved | C109_weighted_sum C109_mean C109_weighted_mean C109_bins_weighted_sum C109_bins_weighted_sum_sparse C109_bins_mean C109_bins_mean_sparse C109_bins_weighted_mean C109_bins C109_bins_sparse C109_counterexample_float | Exact arithmetic is stated by the property; that the bounds fail by a rounding with floats is proved as a counterexample
C110 | proved | C110_dense C110_sparse C110_int C110_float C110_numbers C110_numbers_sparse C110_each C110_int_sq C110_float_sq C110_weighted_sum C110_variance C110_counterexample_wrap | Exceeds, Heavier, NoNegative and givenWeight are defined in SpecMore.lean. C110_int, C110_float and the _sq versions supply the hypotheses MonoAdd and MonoSq of the general theorems. The order of the data matters for floats: C86_counterexample_order
C111 | proved | C111_dense C111_sparse C111_int C111_int_sparse C111_float C111_float_sparse C111_sum C111_parts C111_parts_sparse C111_counterexample_inf C111_counterexample_wrap | Only, AddMul and Add are defined in SpecGrow.lean, expressions (HExpr, eval, EvalSparse) in SpecArith.lean; MonoAdd is supplied by C110_int and C110_float
