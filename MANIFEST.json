{
 "claims": [
  {
   "property": "C01",
   "status": "proved",
   "theorems": [
    "NdHist.C01_uniform_int_index",
    "NdHist.C01_counterexample_release_wrap",
    "NdHist.C03_checked_construction_fits"
   ],
   "note": "Any integer type and usize width, both build profiles. In a release build the parameters must not overflow the type at construction (hypothesis hfit); the counterexample shows what happens otherwise."
  },
  {
   "property": "C02",
   "status": "partial",
   "theorems": [
    "NdHist.C02_uniform_int_bins_partial",
    "NdHist.C02_bin_panics",
    "NdHist.C02_counterexample"
   ],
   "note": "The middle bins need (k+1)*num*step to fit the coordinate type; beyond that bin() panics (debug) or is wrong (release): a defect of the code, proved as C02_bin_panics and C02_counterexample."
  },
  {
   "property": "C03",
   "status": "partial",
   "theorems": [
    "NdHist.C03_with_step_size_int",
    "NdHist.C03_overflow_panics",
    "NdHist.C03_counterexample_release",
    "NdHist.C03_checked_construction_fits",
    "NdHist.C03_new_float",
    "NdHist.C03_with_step_size_float_partial",
    "NdHist.C03_counterexample_float"
   ],
   "note": "Uniform::new on floats: proved in full. with_step_size: integer release builds violate the claim on overflow and float axes may get low == high by rounding (counterexamples); otherwise proved."
  },
  {
   "property": "C07",
   "status": "proved",
   "theorems": [
    "NdHist.C07_noflow_index",
    "NdHist.C07_noflow_bin"
   ],
   "note": ""
  },
  {
   "property": "C08",
   "status": "proved",
   "theorems": [
    "NdHist.C08_uniform_cyclic_int",
    "NdHist.C08_uniform_cyclic_int_turns",
    "NdHist.C08_counterexample_unsigned"
   ],
   "note": "Both build profiles. The range of coordinates in the quantifier is needed: C08_counterexample_unsigned shows unsigned coordinates below low panicking or misplaced; C59 says that with overflow checks these always panic."
  },
  {
   "property": "C10",
   "status": "partial",
   "theorems": [
    "NdHist.C10_too_few_edges",
    "NdHist.C10_nan_rejected_partial",
    "NdHist.C10_variable_new_sorts",
    "NdHist.C10_edge_order_irrelevant",
    "NdHist.C10_edge_order_irrelevant_int",
    "NdHist.C10_nan_may_panic"
   ],
   "note": "Everything but one point: with a NaN edge the documented FailedToSortBinEdges may be replaced by a panic of std's sort (permitted by its contract)."
  },
  {
   "property": "C11",
   "status": "proved",
   "theorems": [
    "NdHist.C11_variable_index",
    "NdHist.C11_index_iff_bin_covers"
   ],
   "note": ""
  },
  {
   "property": "C12",
   "status": "partial",
   "theorems": [
    "NdHist.C12_repeated_edges_partial",
    "NdHist.C12_last_match",
    "NdHist.C12_counterexample"
   ],
   "note": "False in general: which of several equal edges binary_search reports is unspecified. Proved for searches reporting the last match (Rust >= 1.82); counterexample for Rust <= 1.81."
  },
  {
   "property": "C13",
   "status": "proved",
   "theorems": [
    "NdHist.C13_variable_bins"
   ],
   "note": ""
  },
  {
   "property": "C14",
   "status": "proved",
   "theorems": [
    "NdHist.C14_variable_noflow_index",
    "NdHist.C14_variable_noflow_covers",
    "NdHist.C14_variable_noflow_bins",
    "NdHist.C14_index_iff_bin_covers"
   ],
   "note": "bin(usize::MAX) is excluded: i + 1 overflows (see C23)."
  },
  {
   "property": "C15",
   "status": "partial",
   "theorems": [
    "NdHist.C15_variable_cyclic_int_partial",
    "NdHist.C15_variable_cyclic_int_turns_partial",
    "NdHist.C15_equal_edges_panic",
    "NdHist.C15_float_nan",
    "NdHist.C15_float_wrap_partial",
    "NdHist.C15_float_zero_low_partial",
    "NdHist.C15_counterexample_float"
   ],
   "note": "Integers with representable differences; all edges equal makes every lookup panic (C15_equal_edges_panic). Floats: NaN and infinities in full; finite coordinates up to the rounding of the wrap-around, exactly for first edge 0 and c >= 0."
  },
  {
   "property": "C16",
   "status": "proved",
   "theorems": [
    "NdHist.C16_category_bins",
    "NdHist.C16_category_index",
    "NdHist.C16_index_iff_bin_covers"
   ],
   "note": ""
  },
  {
   "property": "C17",
   "status": "proved",
   "theorems": [
    "NdHist.C17_category_repeated"
   ],
   "note": "The bin used is that of the last occurrence."
  },
  {
   "property": "C18",
   "status": "proved",
   "theorems": [
    "NdHist.C18_category_noflow_index",
    "NdHist.C18_category_noflow_bins"
   ],
   "note": ""
  },
  {
   "property": "C19",
   "status": "proved",
   "theorems": [
    "NdHist.C19_end_points",
    "NdHist.C19_range_round_trip",
    "NdHist.C19_exactly_one_range",
    "NdHist.C19_range_end_points",
    "NdHist.C19_single_value"
   ],
   "note": ""
  },
  {
   "property": "C20",
   "status": "proved",
   "theorems": [
    "NdHist.C20_construct",
    "NdHist.C20_index_formula",
    "NdHist.C20_index_injective"
   ],
   "note": "Any number of axes; the product of the bin counts must fit in usize (else C24) and be positive."
  },
  {
   "property": "C21",
   "status": "proved",
   "theorems": [
    "NdHist.C21_bin_of_index",
    "NdHist.C21_bin_numbering",
    "NdHist.C21_first_axis_fastest"
   ],
   "note": ""
  },
  {
   "property": "C22",
   "status": "proved",
   "theorems": [
    "NdHist.C22_tuple_none"
   ],
   "note": ""
  },
  {
   "property": "C23",
   "status": "partial",
   "theorems": [
    "NdHist.C02_uniform_int_bins_partial",
    "NdHist.C07_noflow_bin",
    "NdHist.C13_variable_bins",
    "NdHist.C14_variable_noflow_bins",
    "NdHist.C16_category_bins",
    "NdHist.C18_category_noflow_bins",
    "NdHist.C23_tuple_bin_wraps",
    "NdHist.C23_zero_bins_panics",
    "NdHist.C23_counterexample",
    "NdHist.C23_counterexample_noflow"
   ],
   "note": "True for single axes (except bin(usize::MAX) of the no-flow axes, which panics in a debug build); false for tuples, whose bin() wraps around modulo num_bins: C23_tuple_bin_wraps proves what it does instead."
  },
  {
   "property": "C24",
   "status": "partial",
   "theorems": [
    "NdHist.C24_overflow_panics_partial",
    "NdHist.C24_counterexample_release"
   ],
   "note": "True with overflow checks; false in release builds (counterexample)."
  },
  {
   "property": "C25",
   "status": "proved",
   "theorems": [
    "NdHist.C25_axis_iteration",
    "NdHist.C25_num_dim",
    "NdHist.C25_lawful_tuple",
    "NdHist.C25_lawful_tuple1",
    "NdHist.C25_lawful_variable",
    "NdHist.C25_lawful_variable_noflow",
    "NdHist.C25_lawful_variable_cyclic",
    "NdHist.C25_lawful_category",
    "NdHist.C25_lawful_category_noflow",
    "NdHist.C25_lawful_uniform_noflow",
    "NdHist.C25_lawful_uniform_cyclic",
    "NdHist.C25_lawful_uniform_int",
    "NdHist.C25_lawful_uniform_float_new",
    "NdHist.C25_lawful_uniform_float_step"
   ],
   "note": "For every lawful axis; lawfulness is proved for all axis kinds of the library (uniform integer axes under the condition of C02, float axes under those of C05)."
  },
  {
   "property": "C26",
   "status": "proved",
   "theorems": [
    "NdHist.C26_new",
    "NdHist.C26_value"
   ],
   "note": ""
  },
  {
   "property": "C27",
   "status": "proved",
   "theorems": [
    "NdHist.C27_dense",
    "NdHist.C27_sparse"
   ],
   "note": "All three fill methods, any value type, panics included."
  },
  {
   "property": "C28",
   "status": "proved",
   "theorems": [
    "NdHist.C28_dense",
    "NdHist.C28_sparse",
    "NdHist.C28_until_panic",
    "NdHist.C28_until_panic_sparse"
   ],
   "note": "Programs that catch panics and programs that stop at the first one."
  },
  {
   "property": "C29",
   "status": "proved",
   "theorems": [
    "NdHist.C29_order_dense",
    "NdHist.C29_order_sparse",
    "NdHist.C29_additive_dense",
    "NdHist.C29_additive_sparse",
    "NdHist.C29_int_dense",
    "NdHist.C29_int_sparse"
   ],
   "note": ""
  },
  {
   "property": "C30",
   "status": "proved",
   "theorems": [
    "NdHist.C30_conservation",
    "NdHist.C30_all_counted",
    "NdHist.C30_int_total",
    "NdHist.C30_sparse"
   ],
   "note": ""
  },
  {
   "property": "C31",
   "status": "proved",
   "theorems": [
    "NdHist.C31_sparse_dense",
    "NdHist.C31_value",
    "NdHist.C31_until_panic"
   ],
   "note": ""
  },
  {
   "property": "C32",
   "status": "proved",
   "theorems": [
    "NdHist.C32_keys",
    "NdHist.C32_iter"
   ],
   "note": ""
  },
  {
   "property": "C34",
   "status": "proved",
   "theorems": [
    "NdHist.C34_dense",
    "NdHist.C34_sparse"
   ],
   "note": ""
  },
  {
   "property": "C36",
   "status": "proved",
   "theorems": [
    "NdHist.C36_scalar"
   ],
   "note": ""
  },
  {
   "property": "C40",
   "status": "proved",
   "theorems": [
    "NdHist.C40_sum_weighted",
    "NdHist.C40_sum_unit",
    "NdHist.C40_weighted_sum",
    "NdHist.C40_weighted_sum_unit",
    "NdHist.C40_standard_deviation"
   ],
   "note": "Exact arithmetic, and integers in a checked build (class Faithful)."
  },
  {
   "property": "C41",
   "status": "proved",
   "theorems": [
    "NdHist.C41_mean",
    "NdHist.C41_standard_deviation",
    "NdHist.C41_order",
    "NdHist.C41_no_panic",
    "NdHist.C41_count_overflow",
    "NdHist.C41_no_samples"
   ],
   "note": "Exact arithmetic."
  },
  {
   "property": "C42",
   "status": "partial",
   "theorems": [
    "NdHist.C42_weighted_mean",
    "NdHist.C42_standard_deviation",
    "NdHist.C42_unit_weights",
    "NdHist.C42_counterexample_float"
   ],
   "note": "Exact arithmetic. With floating point the last clause is false: C42_counterexample_float (one sample gives a negative variance and a NaN standard deviation)."
  },
  {
   "property": "C33",
   "status": "proved",
   "theorems": [
    "NdHist.C33_binwise_dense",
    "NdHist.C33_binwise_sparse",
    "NdHist.C33_assign_sparse",
    "NdHist.C33_merge_dense",
    "NdHist.C33_merge_sparse",
    "NdHist.C33_merge_int_dense",
    "NdHist.C33_merge_int_sparse",
    "NdHist.C33_counterexample_float"
   ],
   "note": "Merging equals filling the union of the samples for bin values whose addition is a sum (integers in both build profiles); with floating point it holds only up to rounding (C33_counterexample_float)."
  },
  {
   "property": "C35",
   "status": "proved",
   "theorems": [
    "NdHist.C35_dense",
    "NdHist.C35_sparse_owned_assign",
    "NdHist.C35_sparse_exact",
    "NdHist.C35_sparse_neutral",
    "NdHist.C35_sparse_int",
    "NdHist.C35_counterexample_mul",
    "NdHist.C35_counterexample_div"
   ],
   "note": "One might expect that the forms always agree; the counterexamples show that they do not, C35_sparse_exact says exactly when. KeyOrder and Order are arbitrary iteration orders."
  },
  {
   "property": "C37",
   "status": "proved",
   "theorems": [
    "NdHist.C37_from_vec",
    "NdHist.C37_vec_round_trip",
    "NdHist.C37_from_map",
    "NdHist.C37_map_round_trip"
   ],
   "note": ""
  },
  {
   "property": "C38",
   "status": "proved",
   "theorems": [
    "NdHist.C38_iter",
    "NdHist.C38_iter_mut",
    "NdHist.C38_values_mut",
    "NdHist.C38_value_at_index_mut",
    "NdHist.C38_value_mut",
    "NdHist.C38_value_at_index_mut_sparse",
    "NdHist.C38_iter_mut_sparse",
    "NdHist.C38_values_mut_sparse"
   ],
   "note": ""
  },
  {
   "property": "C39",
   "status": "proved",
   "theorems": [
    "NdHist.C39_par_iter_mut",
    "NdHist.C39_par_iter_mut_sequential",
    "NdHist.C39_schedule_independent",
    "NdHist.C39_interrupted",
    "NdHist.C39_par_values_mut",
    "NdHist.C39_par_iter",
    "NdHist.C39_par_iter_mut_sparse",
    "NdHist.C39_par_values_mut_sparse",
    "NdHist.C39_par_iter_sparse"
   ],
   "note": "Any interleaving of any per-bin task steps; rayon is modelled as giving each bin to one task."
  },
  {
   "property": "C43",
   "status": "proved",
   "theorems": [
    "NdHist.C43_int_fill",
    "NdHist.C43_int_fill_sparse",
    "NdHist.C43_int_unit_fill"
   ],
   "note": ""
  },
  {
   "property": "C45",
   "status": "proved",
   "theorems": [
    "NdHist.C45_dense",
    "NdHist.C45_dense_length",
    "NdHist.C45_sparse",
    "NdHist.C45_category",
    "NdHist.C45_variable_int",
    "NdHist.C45_uniform_int",
    "NdHist.C45_uniform_self",
    "NdHist.C45_counterexample_nan"
   ],
   "note": "Reflexivity fails only for NaN bin edges or values (C45_counterexample_nan)."
  },
  {
   "property": "C04",
   "status": "proved",
   "theorems": [
    "NdHist.C04_uniform",
    "NdHist.C04_noflow",
    "NdHist.C04_cyclic",
    "NdHist.C04_counterexample_infinite_low"
   ],
   "note": "-inf goes to underflow unless low itself is -inf (counterexample)."
  },
  {
   "property": "C05",
   "status": "proved",
   "theorems": [
    "NdHist.C05_uniform_new",
    "NdHist.C05_with_step_size",
    "NdHist.C05_counterexample_subnormal",
    "NdHist.C05_counterexample_many_bins"
   ],
   "note": "The counterexamples show that the bounds on bin width and bin count are needed."
  },
  {
   "property": "C06",
   "status": "partial",
   "theorems": [
    "NdHist.C06_within_rounding_partial",
    "NdHist.C06_exact_partial",
    "NdHist.C06_counterexample",
    "NdHist.C06_counterexample_gap"
   ],
   "note": "False in general (counterexamples). Proved: within a few rounding errors for every axis, exactly for axes whose bin width is a power of two and whose ends are multiples of it (for coordinates whose distance to low is not rounded, e.g. always if low >= 0)."
  },
  {
   "property": "C09",
   "status": "partial",
   "theorems": [
    "NdHist.C09_wrap_partial",
    "NdHist.C09_zero_low_partial",
    "NdHist.C09_zero_low_turns_partial",
    "NdHist.C09_exact_partial",
    "NdHist.C09_counterexample_negative",
    "NdHist.C09_counterexample_inside"
   ],
   "note": "False in general (counterexamples). Proved: what the lookup computes for every axis; exactness for low = 0 and non-negative (or exactly representable) coordinates."
  },
  {
   "property": "C47",
   "status": "proved",
   "theorems": [
    "NdHist.C47_float_bins",
    "NdHist.C47_counterexample_overflow"
   ],
   "note": "The counterexample shows that the no-overflow condition is needed."
  },
  {
   "property": "C44",
   "status": "partial",
   "theorems": [
    "NdHist.C44_display_partial",
    "NdHist.C44_negative_zero_panics",
    "NdHist.C44_counterexample_negated",
    "NdHist.C44_counterexample_all_negative",
    "NdHist.C44_counterexample_nan",
    "NdHist.C44_sink_errors_ignored"
   ],
   "note": "Bars are bounded and nothing panics when no bin prints as negative zero; counterexamples: a negated histogram makes Display panic. C44_sink_errors_ignored: the effect of every pattern of failing writes."
  },
  {
   "property": "C48",
   "status": "partial",
   "theorems": [
    "NdHist.C48_uniform_int",
    "NdHist.C48_uniform_float",
    "NdHist.C48_uniform_noflow_int",
    "NdHist.C48_uniform_noflow_float",
    "NdHist.C48_cyclic_int_panics",
    "NdHist.C48_category",
    "NdHist.C48_hash",
    "NdHist.C48_counterexample_variable",
    "NdHist.C48_counterexample_variable_noflow",
    "NdHist.C48_counterexample_variable_cyclic",
    "NdHist.C48_tuple1",
    "NdHist.C48_counterexample_tuple_any",
    "NdHist.C48_counterexample_tuple1_eq",
    "NdHist.C48_counterexample_tuple",
    "NdHist.C48_counterexample_vec"
   ],
   "note": "Proved for uniform and category axes and sparse histograms; false for variable axes, tuples of axes (a one-axis default tuple works but is not equal to the tuple of the default axis) and dense histograms (counterexamples)."
  },
  {
   "property": "C49",
   "status": "partial",
   "theorems": [
    "NdHist.C49_uniform",
    "NdHist.C49_uniform_noflow",
    "NdHist.C49_variable",
    "NdHist.C49_category",
    "NdHist.C49_counterexample_category_noflow",
    "NdHist.C49_counterexample_default"
   ],
   "note": "False only for CategoryNoFlow (prints an overflow bin it does not have) and the Default variable axis (panics)."
  },
  {
   "property": "C46",
   "status": "proved",
   "theorems": [
    "NdHist.C46_int",
    "NdHist.C46_f64",
    "NdHist.C46_string",
    "NdHist.C46_sum",
    "NdHist.C46_weighted_sum",
    "NdHist.C46_mean",
    "NdHist.C46_weighted_mean",
    "NdHist.C46_errors",
    "NdHist.C46_item",
    "NdHist.C46_uniform",
    "NdHist.C46_uniform_noflow",
    "NdHist.C46_uniform_cyclic",
    "NdHist.C46_variable",
    "NdHist.C46_variable_noflow",
    "NdHist.C46_variable_cyclic",
    "NdHist.C46_category",
    "NdHist.C46_tuple1",
    "NdHist.C46_tuple",
    "NdHist.C46_vec_histogram",
    "NdHist.C46_hash_histogram"
   ],
   "note": "At the level of serde's data model, any order in which maps are written; the text of a particular format (e.g. JSON, which cannot write NaN) is not modelled."
  },
  {
   "property": "C50",
   "status": "partial",
   "theorems": [
    "NdHist.C50_fields_partial",
    "NdHist.C50_counterexample_any_length",
    "NdHist.C50_counterexample_short",
    "NdHist.C50_counterexample_axis"
   ],
   "note": "False: Deserialize is derived and validates nothing but field names and types (counterexamples)."
  },
  {
   "property": "C51",
   "status": "proved",
   "theorems": [
    "NdHist.C51_dense",
    "NdHist.C51_sparse",
    "NdHist.C51_value",
    "NdHist.C51_tuple",
    "NdHist.C51_tuple1",
    "NdHist.C51_uniform_int",
    "NdHist.C51_uniform_noflow",
    "NdHist.C51_variable",
    "NdHist.C51_variable_noflow",
    "NdHist.C51_category",
    "NdHist.C51_category_noflow",
    "NdHist.C51_uniform_cyclic_int",
    "NdHist.C51_variable_cyclic_int",
    "NdHist.C51_uniform_float"
   ],
   "note": "For float uniform axes with bin widths other than powers of two the claim is false by rounding (C06_counterexample)."
  },
  {
   "property": "C52",
   "status": "proved",
   "theorems": [
    "NdHist.C52_count_int",
    "NdHist.C52_count_float"
   ],
   "note": ""
  },
  {
   "property": "C53",
   "status": "proved",
   "theorems": [
    "NdHist.C53_uniform",
    "NdHist.C53_uniform_noflow",
    "NdHist.C53_uniform_cyclic",
    "NdHist.C53_variable",
    "NdHist.C53_variable_noflow",
    "NdHist.C53_variable_cyclic",
    "NdHist.C53_category",
    "NdHist.C53_tuple1",
    "NdHist.C53_tuple_cons",
    "NdHist.C53_tuple",
    "NdHist.C53_equal_dense",
    "NdHist.C53_equal_sparse",
    "NdHist.C53_operation_dense",
    "NdHist.C53_operation_sparse"
   ],
   "note": ""
  },
  {
   "property": "C54",
   "status": "proved",
   "theorems": [
    "NdHist.C54_plan_dense",
    "NdHist.C54_plan_int",
    "NdHist.C54_count",
    "NdHist.C54_plan_sparse",
    "NdHist.C54_plan_int_sparse",
    "NdHist.C54_count_sparse"
   ],
   "note": ""
  },
  {
   "property": "C55",
   "status": "proved",
   "theorems": [
    "NdHist.C55_assign_dense",
    "NdHist.C55_assign_sparse",
    "NdHist.C55_values_mut_sparse",
    "NdHist.C38_values_mut",
    "NdHist.C38_iter_mut"
   ],
   "note": "Dense values_mut and iter_mut: the panic clauses of C38."
  },
  {
   "property": "C56",
   "status": "proved",
   "theorems": [
    "NdHist.C56_dense",
    "NdHist.C56_sparse"
   ],
   "note": ""
  },
  {
   "property": "C57",
   "status": "proved",
   "theorems": [
    "NdHist.C57_dense",
    "NdHist.C57_sparse",
    "NdHist.C57_plan",
    "NdHist.C57_plan_sparse",
    "NdHist.C57_monotone"
   ],
   "note": "Range condition: (1+u)^n times the sum of absolute values is at most the largest finite float."
  },
  {
   "property": "C58",
   "status": "proved",
   "theorems": [
    "NdHist.C58_weighted_sum",
    "NdHist.C58_mean",
    "NdHist.C58_mean_variance",
    "NdHist.C58_weighted_mean",
    "NdHist.C58_weighted_mean_variance"
   ],
   "note": "The variance of WeightedMean may be negative (C42_counterexample_float) but is always within the bound of the exact one."
  },
  {
   "property": "C59",
   "status": "proved",
   "theorems": [
    "NdHist.C59_with_step_size",
    "NdHist.C59_uniform_bin",
    "NdHist.C59_uniform_cyclic_index",
    "NdHist.C59_variable_cyclic_index",
    "NdHist.C59_axes_tuple"
   ],
   "note": "Covers the cases left open by the partial theorems of C02, C03, C08, C15, C24 for builds with overflow checks."
  },
  {
   "property": "C60",
   "status": "proved",
   "theorems": [
    "NdHist.C60_bin_interval",
    "NdHist.C60_bin_interval_total",
    "NdHist.C60_single_value_interval",
    "NdHist.C60_sum",
    "NdHist.C60_weighted_sum",
    "NdHist.C60_mean",
    "NdHist.C60_weighted_mean",
    "NdHist.C60_item",
    "NdHist.C60_vec_histogram",
    "NdHist.C60_uniform",
    "NdHist.C60_uniform_noflow",
    "NdHist.C60_uniform_cyclic",
    "NdHist.C60_variable",
    "NdHist.C60_variable_noflow",
    "NdHist.C60_variable_cyclic",
    "NdHist.C60_tuple1",
    "NdHist.C60_tuple_nil",
    "NdHist.C60_tuple_cons",
    "NdHist.C60_tuple",
    "NdHist.C60_variable_bins_order",
    "NdHist.C60_uniform_int_bins_order",
    "NdHist.C60_uniform_float_bins_order",
    "NdHist.C60_uniform_float_bins_strict",
    "NdHist.C60_errors",
    "NdHist.C60_error_order",
    "NdHist.C60_category_order",
    "NdHist.C60_interval_order",
    "NdHist.C60_sum_order",
    "NdHist.C60_mean_order",
    "NdHist.C60_weighted_mean_order",
    "NdHist.C60_histogram_order"
   ],
   "note": "The laws are stated in CmpLaws/TotalLaws (the documented contract of PartialOrd and Ord); numbers satisfy them by cmpLaws_num, totalLaws_int. On float uniform axes neighbouring edges can coincide after rounding: the bins do not decrease, and strictly increase past bins of nonzero width or if the nominal width exceeds the rounding error. Ord::cmp is identified with partial_cmp."
  },
  {
   "property": "C61",
   "status": "proved",
   "theorems": [
    "NdHist.C61_select_bins",
    "NdHist.C61_select_dense",
    "NdHist.C61_select_sparse",
    "NdHist.C61_marginal",
    "NdHist.C61_marginal_count",
    "NdHist.additive_count",
    "NdHist.additive_weighted"
   ],
   "note": "Additivity of the quantity is a hypothesis, proved for integer counts (additive_count) and exact weighted sums (additive_weighted); for floats see the bounds of C57."
  },
  {
   "property": "C62",
   "status": "proved",
   "theorems": [
    "NdHist.C62_one_axis",
    "NdHist.C62_one_axis_sparse",
    "NdHist.C62_axes",
    "NdHist.C62_axes_sparse",
    "NdHist.C62_too_many_cells"
   ],
   "note": "Composition of macro, axis, fill and iteration. Faithful axes are those of C51 (all integer axes, variable axes, category axes, float uniform axes with exact step). The macros' argument syntax is not modelled."
  },
  {
   "property": "C63",
   "status": "proved",
   "theorems": [
    "NdHist.C63_integers",
    "NdHist.C63_floats",
    "NdHist.C63_uniform_new",
    "NdHist.C63_uniform_with_step_size",
    "NdHist.C63_uniform",
    "NdHist.C63_uniform_noflow",
    "NdHist.C63_uniform_noflow_new",
    "NdHist.C63_uniform_noflow_with_step_size",
    "NdHist.C63_uniform_cyclic",
    "NdHist.C63_uniform_cyclic_new",
    "NdHist.C63_uniform_cyclic_with_step_size",
    "NdHist.C63_variable",
    "NdHist.C63_variable_noflow",
    "NdHist.C63_variable_cyclic",
    "NdHist.C63_category",
    "NdHist.C63_category_noflow",
    "NdHist.C63_indices",
    "NdHist.C63_bins",
    "NdHist.C63_axis_iter",
    "NdHist.C63_tuple1",
    "NdHist.C63_from_tuple1",
    "NdHist.C63_tuple",
    "NdHist.C63_from_tuple",
    "NdHist.C63_fill_number",
    "NdHist.C63_fill_with_number",
    "NdHist.C63_fill_with_weighted_sum",
    "NdHist.C63_fill_with_mean",
    "NdHist.C63_fill_with_weighted_mean",
    "NdHist.C63_ops",
    "NdHist.C63_default",
    "NdHist.C63_fill_sum",
    "NdHist.C63_fill_with_sum",
    "NdHist.C63_fill_weighted_sum",
    "NdHist.C63_mean",
    "NdHist.C63_mean_variance_of_samples",
    "NdHist.C63_mean_variance_of_mean",
    "NdHist.C63_weighted_mean",
    "NdHist.C63_weighted_mean_variance_of_samples",
    "NdHist.C63_weighted_mean_variance_of_mean",
    "NdHist.C63_vec_new",
    "NdHist.C63_vec_from_vec",
    "NdHist.C63_vec_value",
    "NdHist.C63_vec_iter",
    "NdHist.C63_vec_value_mut",
    "NdHist.C63_vec_call",
    "NdHist.C63_vec_program",
    "NdHist.C63_vec_values_mut",
    "NdHist.C63_vec_iter_mut",
    "NdHist.C63_vec_op_borrow",
    "NdHist.C63_vec_op_scalar",
    "NdHist.C63_vec_op_owned",
    "NdHist.C63_vec_op_assign",
    "NdHist.C63_hash_new",
    "NdHist.C63_hash_from_map",
    "NdHist.C63_hash_value",
    "NdHist.C63_hash_iter",
    "NdHist.C63_hash_value_mut",
    "NdHist.C63_hash_call",
    "NdHist.C63_hash_program",
    "NdHist.C63_hash_values_mut",
    "NdHist.C63_hash_iter_mut",
    "NdHist.C63_hash_op_borrow",
    "NdHist.C63_hash_op_owned",
    "NdHist.C63_hash_op_assign",
    "NdHist.C63_axis_eq",
    "NdHist.C63_tuple1_eq",
    "NdHist.C63_tuple_eq",
    "NdHist.C63_ndhistogram1",
    "NdHist.C63_ndhistogram",
    "NdHist.C63_sparsehistogram",
    "NdHist.C63_for_loop",
    "NdHist.C63_pull",
    "NdHist.C63_axis_start",
    "NdHist.C63_axis_iter_next",
    "NdHist.C63_bins_next",
    "NdHist.C63_vec_iter_next",
    "NdHist.C63_vec_iter_mut_next",
    "NdHist.C63_hash_iter_next",
    "NdHist.C63_hash_iter_mut_next",
    "NdHist.C63_vec_loop_values_mut",
    "NdHist.C63_hash_loop_values_mut",
    "NdHist.C63_vec_loop_mut",
    "NdHist.C63_hash_loop_mut",
    "NdHist.C63_vec_par_iter",
    "NdHist.C63_hash_par_iter",
    "NdHist.C63_vec_par_iter_mut",
    "NdHist.C63_vec_par_values_mut",
    "NdHist.C63_hash_par_iter_mut",
    "NdHist.C63_hash_par_values_mut",
    "NdHist.C63_reduce",
    "NdHist.C63_vec_display",
    "NdHist.C63_hash_display",
    "NdHist.C63_display_uniform",
    "NdHist.C63_display_variable",
    "NdHist.C63_display_category"
   ],
   "note": "Simulation between the two builds. The agreement relations are in SpecProfile.lean; number types satisfy the hypotheses by C63_integers and C63_floats. Sparse iteration is compared for equal iteration orders. Also iterators one next() at a time, loops that break, parallel iteration under any schedule and the text output (ProfileIter.lean). Serde is not included: it depends on the width of usize only, which is the same in both builds."
  },
  {
   "property": "C64",
   "status": "proved",
   "theorems": [
    "NdHist.C64_number",
    "NdHist.C64_sum",
    "NdHist.C64_weighted_sum",
    "NdHist.C64_mean",
    "NdHist.C64_weighted_mean",
    "NdHist.C64_unchanged",
    "NdHist.C64_int_total",
    "NdHist.C64_sum_total",
    "NdHist.C64_mean_samples",
    "NdHist.C64_weighted_mean_samples",
    "NdHist.C64_dense_total",
    "NdHist.C64_sparse_total"
   ],
   "note": "Stops (SpecHalf.lean) says how far a list of updates got. In builds without overflow checks integer fills do not panic (C43)."
  },
  {
   "property": "C65",
   "status": "proved",
   "theorems": [
    "NdHist.C65_uniform",
    "NdHist.C65_uniform_noflow",
    "NdHist.C65_uniform_cyclic",
    "NdHist.C65_variable",
    "NdHist.C65_variable_noflow",
    "NdHist.C65_variable_cyclic",
    "NdHist.C65_category",
    "NdHist.C65_category_noflow",
    "NdHist.C65_axes1",
    "NdHist.C65_axes",
    "NdHist.C65_tuple",
    "NdHist.C65_sum",
    "NdHist.C65_weighted_sum",
    "NdHist.C65_mean",
    "NdHist.C65_weighted_mean",
    "NdHist.C65_dense",
    "NdHist.C65_sparse",
    "NdHist.C65_item",
    "NdHist.C65_int",
    "NdHist.C65_string",
    "NdHist.C65_f64"
   ],
   "note": "At the level of serde's data model for a self-describing format; the derive macros themselves are modelled, not verified. The positive counterpart of C50."
  },
  {
   "property": "C66",
   "status": "proved",
   "theorems": [
    "NdHist.C66_int",
    "NdHist.C66_string",
    "NdHist.C66_bin_interval",
    "NdHist.C66_single_value_interval",
    "NdHist.C66_uniform",
    "NdHist.C66_uniform_noflow",
    "NdHist.C66_uniform_cyclic",
    "NdHist.C66_variable",
    "NdHist.C66_variable_noflow",
    "NdHist.C66_variable_cyclic",
    "NdHist.C66_sum",
    "NdHist.C66_weighted_sum",
    "NdHist.C66_mean",
    "NdHist.C66_weighted_mean",
    "NdHist.C66_item",
    "NdHist.C66_axes1",
    "NdHist.C66_tuple_nil",
    "NdHist.C66_tuple_cons",
    "NdHist.C66_axes",
    "NdHist.C66_slice",
    "NdHist.C66_vec_histogram",
    "NdHist.C66_errors"
   ],
   "note": "HashContract and SliceContract (SpecHash.lean) are the documented contract of std::hash::Hash."
  },
  {
   "property": "C67",
   "status": "proved",
   "theorems": [
    "NdHist.C67_axis",
    "NdHist.C67_axis_collect",
    "NdHist.C67_dense_iter",
    "NdHist.C67_dense_iter_mut",
    "NdHist.C67_dense_loop",
    "NdHist.C67_dense_break",
    "NdHist.C67_sparse",
    "NdHist.C67_sparse_loop",
    "NdHist.C67_sparse_break",
    "NdHist.C67_counterexample_caught_panic"
   ],
   "note": "Iterators as state machines (Model/Iter.lean) built from models of std's Range, slice and map iterators, Map and Zip. values() and values_mut() of std are the list iterators themselves."
  },
  {
   "property": "C68",
   "status": "proved",
   "theorems": [
    "NdHist.C68_scale",
    "NdHist.C68_row",
    "NdHist.C68_length",
    "NdHist.C68_display",
    "NdHist.C68_whole_numbers",
    "NdHist.C68_sparse_whole_numbers"
   ],
   "note": "The exact counterpart of C44. For platforms of up to 128 bits. How std formats numbers is a parameter; running out of memory below isize::MAX bytes is not modelled."
  },
  {
   "property": "C69",
   "status": "proved",
   "theorems": [
    "NdHist.C69_residue",
    "NdHist.C69_with_step_size",
    "NdHist.C69_right_axis",
    "NdHist.C69_uniform_index",
    "NdHist.C69_uniform_index_right",
    "NdHist.C69_uniform_bin",
    "NdHist.C69_uniform_bin_right",
    "NdHist.C69_uniform_cyclic_index",
    "NdHist.C69_uniform_cyclic_right",
    "NdHist.C69_variable_cyclic_index",
    "NdHist.C69_axes_tuple",
    "NdHist.C69_too_many_cells",
    "NdHist.C69_counterexample_out_of_range",
    "NdHist.C69_counterexample_cyclic_panics"
   ],
   "note": "The exact counterpart of C59 for builds without overflow checks: settles the cases left open by the partial theorems of C02, C03, C15 and C24 there. The counterexamples show what goes wrong beyond the conditions."
  },
  {
   "property": "C70",
   "status": "proved",
   "theorems": [
    "NdHist.C70_bin_interval",
    "NdHist.C70_single_value",
    "NdHist.C70_variable",
    "NdHist.C70_uniform_int",
    "NdHist.C70_uniform_float",
    "NdHist.C70_category",
    "NdHist.C70_errors",
    "NdHist.C70_decimal",
    "NdHist.C70_bin_interval_int",
    "NdHist.C70_counterexample_overflow_category"
   ],
   "note": "How std prints a number is a parameter (PlainText), shown to hold of integers in decimal by C70_decimal; the three formatting traits come from one macro and differ only in it. The counterexample is the documented exception."
  },
  {
   "property": "C71",
   "status": "proved",
   "theorems": [
    "NdHist.C71_program",
    "NdHist.C71_from_new",
    "NdHist.C71_int",
    "NdHist.C71_float",
    "NdHist.C71_counterexample_eq"
   ],
   "note": "Programs as a type of statements with continuations (SpecProg.lean); the counterexample documents the excluded comparison."
  },
  {
   "property": "C72",
   "status": "proved",
   "theorems": [
    "NdHist.C72_roots",
    "NdHist.C72_monotone",
    "NdHist.C72_relative",
    "NdHist.C72_counts",
    "NdHist.C72_weighted_sum_nan",
    "NdHist.C72_weighted_sum",
    "NdHist.C72_mean_no_negative",
    "NdHist.C72_mean",
    "NdHist.C72_weighted_mean",
    "NdHist.C72_counterexample_weighted_mean"
   ],
   "note": "`Float::sqrt` is modelled as a computable correctly rounded root; that it is one is part of C72_roots. C72_counterexample_weighted_mean is the documented failure."
  },
  {
   "property": "C73",
   "status": "proved",
   "theorems": [
    "NdHist.C73_wrapping",
    "NdHist.C73_release",
    "NdHist.C73_modulo_dense",
    "NdHist.C73_modulo_sparse",
    "NdHist.C73_modulo_plan",
    "NdHist.C73_modulo_plan_sparse",
    "NdHist.C73_checked",
    "NdHist.C73_checked_sparse",
    "NdHist.C73_wrapping_ops",
    "NdHist.C73_wrapping_division",
    "NdHist.C73_release_ops",
    "NdHist.C73_release_fits",
    "NdHist.C73_modulo_weighted_sum",
    "NdHist.C73_modulo_weighted_sum_sparse",
    "NdHist.C73_modulo_operators"
   ],
   "note": "Wrapping<T> is modelled in Model/Wrapping.lean."
  },
  {
   "property": "C74",
   "status": "proved",
   "theorems": [
    "NdHist.C74_dense",
    "NdHist.C74_sparse",
    "NdHist.C74_plan",
    "NdHist.C74_plan_sparse",
    "NdHist.C74_order",
    "NdHist.C74_weighted_sum",
    "NdHist.C74_counts"
   ],
   "note": "The bound on the sums cannot be dropped: C74_counts shows what happens beyond it."
  },
  {
   "property": "C75",
   "status": "proved",
   "theorems": [
    "NdHist.C75_panics",
    "NdHist.C75_means",
    "NdHist.C75_weighted_means",
    "NdHist.C75_float_samples",
    "NdHist.C75_panics_sparse",
    "NdHist.C75_means_sparse",
    "NdHist.C75_weighted_means_sparse",
    "NdHist.C75_release"
   ],
   "note": "The mean is an optimal result: no float is nearer. Rounding of conversions from integers is part of the model."
  },
  {
   "property": "C76",
   "status": "proved",
   "theorems": [
    "NdHist.C76_uniform_new",
    "NdHist.C76_uniform_step",
    "NdHist.C76_uniform_noflow",
    "NdHist.C76_uniform_cyclic",
    "NdHist.C76_variable_cyclic"
   ],
   "note": "The exact counterpart, on a grid, of C06 and C09, which fail for arbitrary floats."
  },
  {
   "property": "C77",
   "status": "proved",
   "theorems": [
    "NdHist.C77_uniform_cyclic",
    "NdHist.C77_uniform_cyclic_step",
    "NdHist.C77_variable_cyclic"
   ],
   "note": "The counterpart within rounding of C09, for arbitrary floats."
  },
  {
   "property": "C78",
   "status": "proved",
   "theorems": [
    "NdHist.C78_exact",
    "NdHist.C78_tuple",
    "NdHist.C78_tuple1",
    "NdHist.C78_dense",
    "NdHist.C78_sparse",
    "NdHist.C78_count_int",
    "NdHist.C78_count_float",
    "NdHist.C78_uniform",
    "NdHist.C78_uniform_step",
    "NdHist.C78_uniform_noflow",
    "NdHist.C78_uniform_cyclic",
    "NdHist.C78_uniform_cyclic_step",
    "NdHist.C78_variable_cyclic",
    "NdHist.C78_weights_float"
   ],
   "note": "The counterpart of C51 and C52 for float axes that are not exact."
  },
  {
   "property": "C79",
   "status": "proved",
   "theorems": [
    "NdHist.C79_dense",
    "NdHist.C79_sparse",
    "NdHist.C79_plan",
    "NdHist.C79_plan_sparse",
    "NdHist.C79_weighted_sum",
    "NdHist.C79_mean"
   ],
   "note": "C57 and C58 bin by bin, without their assumption that all weights are finite."
  },
  {
   "property": "C80",
   "status": "proved",
   "theorems": [
    "NdHist.C80_reduce",
    "NdHist.C80_reduce_sparse",
    "NdHist.C80_counts",
    "NdHist.C80_counts_sparse",
    "NdHist.C80_modulo_sum",
    "NdHist.C80_checked_sum",
    "NdHist.C80_float_sum",
    "NdHist.C80_float_exact",
    "NdHist.C80_float_fills",
    "NdHist.C80_float_fills_sparse",
    "NdHist.C80_weights",
    "NdHist.C80_weights_sparse",
    "NdHist.C80_counterexample_signed",
    "NdHist.C80_counterexample_float"
   ],
   "note": "rayon itself is not in the repository: its reduction is modelled as an arbitrary binary division of the items in their order, parts folded from the identity. The counterexamples show that the conditions on signs and on floats are needed."
  },
  {
   "property": "C81",
   "status": "proved",
   "theorems": [
    "NdHist.C81_program",
    "NdHist.C81_from_new",
    "NdHist.C81_counterexample_panic"
   ],
   "note": "Programs as a type of statements with continuations (SpecHasher.lean); no assumption on the axis, the values or the operators. The counterexample shows that the exception for panics is needed."
  },
  {
   "property": "C82",
   "status": "proved",
   "theorems": [
    "NdHist.C82_dense",
    "NdHist.C82_sparse",
    "NdHist.C82_count",
    "NdHist.C82_tuple",
    "NdHist.C82_refl",
    "NdHist.C82_variable",
    "NdHist.C82_variable_noflow",
    "NdHist.C82_uniform_int",
    "NdHist.C82_uniform_int_noflow",
    "NdHist.C82_uniform_int_cyclic",
    "NdHist.C82_uniform_noflow",
    "NdHist.C82_variable_cyclic_int",
    "NdHist.C82_variable_cyclic_float",
    "NdHist.C82_uniform_float",
    "NdHist.C82_uniform_float_noflow",
    "NdHist.C82_uniform_float_cyclic",
    "NdHist.C82_category",
    "NdHist.C82_category_noflow"
   ],
   "note": "Coarser (SpecRebin) says in terms of the reported intervals that the bins of one axis are unions of bins of the other; C82_dense/_sparse/_count are the consequence for histograms, the others establish Coarser for the axes of the library. Float axes: coordinates on the grid (GridCoord, GridTurns), as for C76."
  },
  {
   "property": "C83",
   "status": "proved",
   "theorems": [
    "NdHist.C83_dense",
    "NdHist.C83_sparse",
    "NdHist.C83_value",
    "NdHist.C83_tuple",
    "NdHist.C83_uniform_variable_int",
    "NdHist.C83_uniform_variable_noflow_int",
    "NdHist.C83_uniform_variable_cyclic_int",
    "NdHist.C83_uniform_variable_float",
    "NdHist.C83_uniform_variable_noflow_float",
    "NdHist.C83_uniform_variable_cyclic_float",
    "NdHist.C83_category",
    "NdHist.C83_category_noflow"
   ],
   "note": "Uses the specification Coarser of C82 with an injective map of bins. The integer theorems ask that num*(num*step) fits the type, the condition under which Uniform::bin computes its edges without overflow; the float theorems are for exact grids (C76)."
  },
  {
   "property": "C84",
   "status": "proved",
   "theorems": [
    "NdHist.C84_variable",
    "NdHist.C84_variable_noflow",
    "NdHist.C84_category",
    "NdHist.C84_same_numbers",
    "NdHist.C84_uniform",
    "NdHist.C84_uniform_noflow",
    "NdHist.C84_uniform_cyclic",
    "NdHist.C84_int",
    "NdHist.C84_int_noflow",
    "NdHist.C84_int_cyclic",
    "NdHist.C84_float",
    "NdHist.C84_float_noflow",
    "NdHist.C84_float_cyclic",
    "NdHist.C84_int_as_float"
   ],
   "note": "Coarser ... id (C82's specification with the identity on bin numbers) is what C83_dense, C83_sparse, C83_value and C83_tuple take. C84_uniform* state the conversion for any axes with the bins evenBins of SpecRescale.lean; C84_int* and C84_float* show that the axes of the crate have these bins. Float axes are on exact grids (C76); for other float axes the rounding of the two axes may differ (C06)."
  },
  {
   "property": "C85",
   "status": "proved",
   "theorems": [
    "NdHist.C85_uniform",
    "NdHist.C85_uniform_noflow",
    "NdHist.C85_uniform_cyclic",
    "NdHist.C85_uniform_step",
    "NdHist.C85_uniform_noflow_step",
    "NdHist.C85_uniform_cyclic_step",
    "NdHist.C85_variable",
    "NdHist.C85_variable_noflow",
    "NdHist.C85_variable_cyclic",
    "NdHist.C85_tuple",
    "NdHist.C85_dense",
    "NdHist.C85_sparse",
    "NdHist.C85_weights",
    "NdHist.C85_weights_sparse",
    "NdHist.C85_weighted_sum",
    "NdHist.C85_weighted_sum_sparse",
    "NdHist.C85_mean",
    "NdHist.C85_weighted_mean",
    "NdHist.C85_scalar"
   ],
   "note": "Conditions (SpecScale.lean): for Uniform no bin narrower than the smallest normal number and the range not wider than the largest number, in both units (UnitsFit); for cyclic axes bounds up to 2^(emax-2) (CyclicFit) and no overflow of the distance to the lower end (NoOverflow); squares and products of weights do not underflow (SquareFits, ProductFits). Contents are compared where they are finite in both units (ScaledFin). Variances of means are not included."
  },
  {
   "property": "C86",
   "status": "proved",
   "theorems": [
    "NdHist.C86_counts",
    "NdHist.C86_counts_sparse",
    "NdHist.C86_weighted",
    "NdHist.C86_weighted_sparse",
    "NdHist.C86_int",
    "NdHist.C86_int_sparse",
    "NdHist.C86_normalised",
    "NdHist.C86_counterexample_order"
   ],
   "note": "Format condition emin <= -p (true of f16, f32, f64). C86_counterexample_order: if the part is filled in another order than the whole (as after merging), rounding can make the ratio larger than 1."
  },
  {
   "property": "C87",
   "status": "proved",
   "theorems": [
    "NdHist.C87_binwise",
    "NdHist.C87_checked",
    "NdHist.C87_release",
    "NdHist.C87_laws",
    "NdHist.C87_float",
    "NdHist.C87_float_rounded",
    "NdHist.C87_commutes",
    "NdHist.C87_commutes_int",
    "NdHist.C87_commutes_float",
    "NdHist.C87_sparse",
    "NdHist.C87_sparse_int",
    "NdHist.C87_laws_sparse",
    "NdHist.C87_sparse_returns",
    "NdHist.C87_sparse_float",
    "NdHist.C87_division",
    "NdHist.C87_division_scalar",
    "NdHist.C87_division_wrapping",
    "NdHist.C87_counterexample_sparse"
   ],
   "note": "C87_counterexample_sparse: &(&(&a + &b)? - &b)? == a is false for sparse histograms when b has a bin that a lacks (it then holds a 0), while the dense ones are equal."
  },
  {
   "property": "C88",
   "status": "proved",
   "theorems": [
    "NdHist.C88_mean",
    "NdHist.C88_mean_sparse",
    "NdHist.C88_weighted_mean",
    "NdHist.C88_weighted_mean_sparse",
    "NdHist.C88_append",
    "NdHist.C88_mean_exact",
    "NdHist.C88_weighted_mean_exact",
    "NdHist.C88_mean_int",
    "NdHist.C88_sums"
   ],
   "note": "Added because two edited programs (Mean::new skipping the first sample, WeightedMean::new filling in reverse) passed all earlier theorems."
  },
  {
   "property": "C89",
   "status": "proved",
   "theorems": [
    "NdHist.C89_cumulative",
    "NdHist.C89_cumulative_sparse",
    "NdHist.C89_count_below",
    "NdHist.C89_quantile",
    "NdHist.C89_quantile_sparse",
    "NdHist.C89_quantile_bin",
    "NdHist.C89_quantile_near",
    "NdHist.C89_sum",
    "NdHist.C89_mean",
    "NdHist.C89_monotone",
    "NdHist.C89_uniform_int",
    "NdHist.C89_uniform_noflow",
    "NdHist.C89_tuple1",
    "NdHist.C89_variable",
    "NdHist.C89_variable_noflow",
    "NdHist.C89_uniform_float",
    "NdHist.C89_monotone_float",
    "NdHist.C89_monotone_float_step",
    "NdHist.C89_monotone_noflow",
    "NdHist.C89_running_float",
    "NdHist.C89_count_below_float",
    "NdHist.C89_quantile_float",
    "NdHist.C89_mean_float"
   ],
   "note": "Bins in ascending order (AscendingAxis) and monotone indexing (MonotoneAxis) are proved for the axes named; cyclic axes have neither."
  },
  {
   "property": "C90",
   "status": "proved",
   "theorems": [
    "NdHist.C90_batch",
    "NdHist.C90_batch_sparse",
    "NdHist.C90_counts",
    "NdHist.C90_counts_sparse",
    "NdHist.C90_int_fills",
    "NdHist.C90_int_weights",
    "NdHist.C90_counterexample_signs",
    "NdHist.C90_wrapping_fills",
    "NdHist.C90_wrapping_weights",
    "NdHist.C90_sum_fills",
    "NdHist.C90_sum_weights",
    "NdHist.C90_weighted_sum",
    "NdHist.C90_counterexample_weighted_sum",
    "NdHist.C90_means",
    "NdHist.C90_float",
    "NdHist.C90_zero",
    "NdHist.C90_counterexample_zero_sparse"
   ],
   "note": "The counterexamples are the limits named in the statement: parts of both signs can overflow where their sum does not; the variance of a WeightedSum; fill_with(c, 0) on a sparse histogram."
  },
  {
   "property": "C91",
   "status": "proved",
   "theorems": [
    "NdHist.C91_axis_exact",
    "NdHist.C91_axis_category",
    "NdHist.C91_axis_tuple1",
    "NdHist.C91_axis_tuple",
    "NdHist.C91_indist_dense",
    "NdHist.C91_indist_sparse",
    "NdHist.C91_dense",
    "NdHist.C91_sparse",
    "NdHist.C91_count",
    "NdHist.C91_count_sparse"
   ],
   "note": "The file is assumed to be replaced at once (histogram and number of calls together); the text of a particular format is not modelled (see C46)."
  },
  {
   "property": "C92",
   "status": "proved",
   "theorems": [
    "NdHist.C92_any_moment",
    "NdHist.C92_bins",
    "NdHist.C92_bins_sparse",
    "NdHist.C92_order",
    "NdHist.C92_order_sparse",
    "NdHist.C92_schedules",
    "NdHist.C92_schedules_sparse",
    "NdHist.C92_int",
    "NdHist.C92_int_sparse",
    "NdHist.C92_wrapping",
    "NdHist.C92_weighted_sum",
    "NdHist.C92_mean",
    "NdHist.C92_weighted_mean",
    "NdHist.C92_count",
    "NdHist.C92_poisoned",
    "NdHist.C92_float",
    "NdHist.C92_float_exact",
    "NdHist.C92_counterexample_signs",
    "NdHist.C92_counterexample_float"
   ],
   "note": "The lock itself (std::sync::Mutex) is not part of the crate and not modelled beyond making each call atomic; a panic poisons it (C92_poisoned) or is caught per call (C92_bins)."
  },
  {
   "property": "C93",
   "status": "proved",
   "theorems": [
    "NdHist.C93_reads_back",
    "NdHist.C93_plain_text",
    "NdHist.C93_shortest",
    "NdHist.C93_whole",
    "NdHist.C93_precision",
    "NdHist.C93_labels",
    "NdHist.C93_label_precision",
    "NdHist.C93_uniform_precision",
    "NdHist.C93_variable_precision",
    "NdHist.C93_axis_text",
    "NdHist.C93_uniform_text",
    "NdHist.C93_header",
    "NdHist.C93_sparse_header",
    "NdHist.C93_counterexample_precision",
    "NdHist.C93_exp_reads_back",
    "NdHist.C93_exp_plain_text",
    "NdHist.C93_exp_labels",
    "NdHist.C93_exp_int",
    "NdHist.C93_exp_shortest",
    "NdHist.C93_exp_zero",
    "NdHist.C93_exp_int_precision",
    "NdHist.C93_exp_precision",
    "NdHist.C93_exp_label_precision",
    "NdHist.C93_exp_variable_precision"
   ],
   "note": "std's printing algorithms (Grisu, Dragon) are not modelled, only what they compute. tools/float_check.py compares the model's texts with Python's."
  },
  {
   "property": "C94",
   "status": "proved",
   "theorems": [
    "NdHist.C94_snapshots",
    "NdHist.C94_snapshots_counts",
    "NdHist.C94_snapshots_sparse",
    "NdHist.C94_float",
    "NdHist.C94_float_sparse",
    "NdHist.C94_undo",
    "NdHist.C94_undo_any",
    "NdHist.C94_undo_sparse",
    "NdHist.C94_counterexample_float",
    "NdHist.C94_counterexample_float_undo",
    "NdHist.C94_counterexample_signed",
    "NdHist.C94_counterexample_order",
    "NdHist.C94_counterexample_sparse"
   ],
   "note": "Contents at the snapshot are arbitrary (any histogram with one value per bin). Opposite weights are modulo 2^bits in a build without overflow checks."
  },
  {
   "property": "C95",
   "status": "proved",
   "theorems": [
    "NdHist.C95_tuple",
    "NdHist.C95_single",
    "NdHist.C95_trans",
    "NdHist.C95_coords",
    "NdHist.C95_axis_iter",
    "NdHist.C95_new",
    "NdHist.C95_dense",
    "NdHist.C95_dense_read",
    "NdHist.C95_sparse",
    "NdHist.C95_sparse_read",
    "NdHist.C95_counterexample_num_dim"
   ],
   "note": "All axes have at least one bin and the total number of bins fits usize (for the other cases see C23 and C24). Comparison and serialization of grouped tuples are not compared."
  },
  {
   "property": "C96",
   "status": "proved",
   "theorems": [
    "NdHist.C96_same_text",
    "NdHist.C96_int",
    "NdHist.C96_float_reads_back",
    "NdHist.C96_float",
    "NdHist.C96_float_form",
    "NdHist.C96_string",
    "NdHist.C96_list",
    "NdHist.C96_map",
    "NdHist.C96_uniform",
    "NdHist.C96_variable",
    "NdHist.C96_category",
    "NdHist.C96_category_new",
    "NdHist.C96_bins",
    "NdHist.C96_sums",
    "NdHist.C96_means",
    "NdHist.C96_tuple1",
    "NdHist.C96_tuple",
    "NdHist.C96_item",
    "NdHist.C96_vec",
    "NdHist.C96_sparse",
    "NdHist.C96_errors",
    "NdHist.C96_unique_axes",
    "NdHist.C96_unique",
    "NdHist.C96_unique_numbers",
    "NdHist.C96_equal_dense",
    "NdHist.C96_equal_sparse",
    "NdHist.C96_counterexample_sparse_order",
    "NdHist.C96_counterexample_float_equal"
   ],
   "note": "The derived implementations and std's builders are modelled as documented; which characters are printable is a parameter. Two objects of the same type are compared."
  },
  {
   "property": "C97",
   "status": "proved",
   "theorems": [
    "NdHist.C97_tuple",
    "NdHist.C97_two",
    "NdHist.C97_dense",
    "NdHist.C97_new",
    "NdHist.C97_dense_read",
    "NdHist.C97_sparse",
    "NdHist.C97_sparse_read",
    "NdHist.C97_binary",
    "NdHist.C97_forms",
    "NdHist.C97_scalar",
    "NdHist.C97_binary_sparse",
    "NdHist.C97_equal",
    "NdHist.C97_equal_sparse",
    "NdHist.C97_counterexample_panic"
   ],
   "note": "C61 gives the same for sums and counts over a selection of the axes; here all axes are kept and every value type, panics, reading and operators are covered."
  },
  {
   "property": "C98",
   "status": "proved",
   "theorems": [
    "NdHist.C98_uniform",
    "NdHist.C98_uniform_step",
    "NdHist.C98_variable",
    "NdHist.C98_category",
    "NdHist.C98_zoom_variable",
    "NdHist.C98_zoom_uniform",
    "NdHist.C98_of_bins",
    "NdHist.C98_refl",
    "NdHist.C98_tuple",
    "NdHist.C98_new",
    "NdHist.C98_dense",
    "NdHist.C98_dense_read",
    "NdHist.C98_sparse",
    "NdHist.C98_sparse_read",
    "NdHist.C98_binary",
    "NdHist.C98_counterexample_panic"
   ],
   "note": "The Uniform theorems need the axis to be lawful (C25: integer axes whose bin() does not overflow, float axes). C98_zoom_uniform is for integers; on float axes the edges of a part are rounded differently (C76, C78)."
  },
  {
   "property": "C99",
   "status": "proved",
   "theorems": [
    "NdHist.C99_weighted",
    "NdHist.C99_weighted_sparse",
    "NdHist.C99_weighted_release",
    "NdHist.C99_mean",
    "NdHist.C99_counterexample_negative_weights"
   ],
   "note": "ReportsWeighted (Props/IntWMean.lean) states the claim about one bin in terms of the WeightedMean API and the list of weighted samples."
  },
  {
   "property": "C100",
   "status": "proved",
   "theorems": [
    "NdHist.C100_round",
    "NdHist.C100_reduce",
    "NdHist.C100_uniform",
    "NdHist.C100_variable_int",
    "NdHist.C100_variable_float",
    "NdHist.C100_values",
    "NdHist.C100_same_bins",
    "NdHist.C100_same_bins_sparse",
    "NdHist.C100_turns"
   ],
   "note": "turnBins, edgeBins, roundBy, SameButCoord and InSameBins are defined in SpecCyclic.lean. BinsAre for UniformCyclic comes from C84_int_cyclic and C84_float_cyclic (with turnBins_even), for VariableCyclic from C100_variable_int and C100_variable_float; C83_sparse, C83_value and C83_tuple turn the result of C100_round into statements about sparse histograms, reading and several axes."
  },
  {
   "property": "C101",
   "status": "proved",
   "theorems": [
    "NdHist.C101_reversed",
    "NdHist.C101_reversed_noflow",
    "NdHist.C101_mirror",
    "NdHist.C101_mirror_noflow",
    "NdHist.C101_mirror_whole",
    "NdHist.C101_mirror_whole_noflow",
    "NdHist.C101_edge",
    "NdHist.C101_values",
    "NdHist.C101_uniform",
    "NdHist.C101_uniform_whole",
    "NdHist.C101_variable_int",
    "NdHist.C101_variable_float",
    "NdHist.C101_cyclic"
   ],
   "note": "flowBins, plainBins and mirrorEdges are defined in SpecMirror.lean. BinsAre for uniform axes comes from C84_int, C84_float and their noflow and cyclic versions (with flowBins_even, plainBins_even), for variable-width axes from C101_variable_int, C101_variable_float, C100_variable_int and C100_variable_float. C83_sparse, C83_value and C83_tuple turn the results into statements about sparse histograms, reading and several axes."
  },
  {
   "property": "C102",
   "status": "proved",
   "theorems": [
    "NdHist.C102_new",
    "NdHist.C102_call",
    "NdHist.C102_call_sparse",
    "NdHist.C102_history",
    "NdHist.C102_value",
    "NdHist.C102_axis_iter",
    "NdHist.C102_iter",
    "NdHist.C102_iter_mut",
    "NdHist.C102_iter_sparse",
    "NdHist.C102_counterexample_out_of_range",
    "NdHist.C102_counterexample_tuple"
   ],
   "note": "The implementations are pure functions of their arguments: interior mutability and non-termination of user code are not modelled. The theorems of the other properties that assume LawfulAxis apply to every user-written axis that keeps the contract. The last sentence of the statement is shown by the two counterexamples (to the expectation that dense and sparse agree, and that a fill is found at its own coordinate only)."
  },
  {
   "property": "C103",
   "status": "proved",
   "theorems": [
    "NdHist.C103_inside",
    "NdHist.C103_tuple",
    "NdHist.C103_value",
    "NdHist.C103_value_sparse",
    "NdHist.C103_copy",
    "NdHist.C103_copy_from_sparse",
    "NdHist.C103_copy_sparse",
    "NdHist.C103_assign",
    "NdHist.C103_copy_int",
    "NdHist.C103_copy_float",
    "NdHist.C103_start_variable",
    "NdHist.C103_start_uniform_int",
    "NdHist.C103_category",
    "NdHist.C103_centre_uniform",
    "NdHist.C103_centre_uniform_step",
    "NdHist.C103_centre_cyclic",
    "NdHist.C103_noflow",
    "NdHist.C103_counterexample_start"
   ],
   "note": "The copying programs (refill, assignBins) are user code, written down beside the theorems. The last sentence is a counterexample to the expectation that the start of a bin, which its interval contains, addresses it on every axis. The widths required for centres (54, 58, 72 rounding errors of the bounds) are sufficient, not necessary."
  },
  {
   "property": "C104",
   "status": "proved",
   "theorems": [
    "NdHist.C104_list",
    "NdHist.C104_map",
    "NdHist.C104_uniform",
    "NdHist.C104_uniformNoFlow",
    "NdHist.C104_uniformCyclic",
    "NdHist.C104_variable",
    "NdHist.C104_variableNoFlow",
    "NdHist.C104_variableCyclic",
    "NdHist.C104_category",
    "NdHist.C104_categoryNoFlow",
    "NdHist.C104_sum",
    "NdHist.C104_weightedSum",
    "NdHist.C104_bins",
    "NdHist.C104_category_bins",
    "NdHist.C104_mean",
    "NdHist.C104_weightedMean",
    "NdHist.C104_item",
    "NdHist.C104_vec",
    "NdHist.C104_hash",
    "NdHist.C104_tuple1",
    "NdHist.C104_axes",
    "NdHist.C104_tuple",
    "NdHist.C104_numbers",
    "NdHist.C104_errors"
   ],
   "note": "The derived implementations and std's builders are modelled as documented. Names of types are assumed to contain no line break"
  },
  {
   "property": "C105",
   "status": "proved",
   "theorems": [
    "NdHist.C105_exact",
    "NdHist.C105_weighted_exact",
    "NdHist.C105_means",
    "NdHist.C105_means_sparse",
    "NdHist.C105_weighted_means",
    "NdHist.C105_weighted_means_sparse",
    "NdHist.C105_own_bin_uniform",
    "NdHist.C105_own_bin_variable",
    "NdHist.C105_two",
    "NdHist.C105_floats",
    "NdHist.C105_counterexample_three",
    "NdHist.C105_counterexample_negative"
   ],
   "note": "The statement includes the exceptions (three or more floats, negative weights), which are proved as counterexamples"
  },
  {
   "property": "C106",
   "status": "proved",
   "theorems": [
    "NdHist.C106_affine",
    "NdHist.C106_weighted_affine",
    "NdHist.C106_weighted_sum",
    "NdHist.C106_parts",
    "NdHist.C106_weighted_parts",
    "NdHist.C106_counterexample_float"
   ],
   "note": "Exact arithmetic is stated by the property; rounding is covered by C58, C75, C85 and C105, and the dependence on the origin with floats is proved as a counterexample"
  },
  {
   "property": "C107",
   "status": "proved",
   "theorems": [
    "NdHist.C107_dense",
    "NdHist.C107_sparse",
    "NdHist.C107_floats",
    "NdHist.C107_integers",
    "NdHist.C107_integers_unchecked",
    "NdHist.C107_fills_floats",
    "NdHist.C107_fills_counter",
    "NdHist.C107_axis_uniform_float_new",
    "NdHist.C107_axis_uniform_float_step",
    "NdHist.C107_axis_uniform_int",
    "NdHist.C107_axis_uniform_noflow",
    "NdHist.C107_axis_uniform_cyclic_float",
    "NdHist.C107_axis_variable",
    "NdHist.C107_axis_variable_noflow",
    "NdHist.C107_axis_variable_cyclic_float",
    "NdHist.C107_axis_category",
    "NdHist.C107_axis_category_noflow",
    "NdHist.C107_axis_tuple"
   ],
   "note": "Serde, Display and the parallel iterators are not statements of these programs. Axes of which the methods do panic are the subject of C02, C06, C15 and C23. Memory exhaustion is not modelled"
  },
  {
   "property": "C108",
   "status": "proved",
   "theorems": [
    "NdHist.C108_dense",
    "NdHist.C108_sparse",
    "NdHist.C108_counts",
    "NdHist.C108_moved_up",
    "NdHist.C108_moved_up_sparse",
    "NdHist.C108_moved_up_counts",
    "NdHist.C108_quantile",
    "NdHist.C108_quantile_sparse",
    "NdHist.C108_float",
    "NdHist.C108_moved_up_float"
   ],
   "note": "The general theorems take the additivity of the values over the calls made as a hypothesis; it is discharged for integer counts (C108_counts, C108_moved_up_counts) and for float weights within the limits of C74 (C108_float, C108_moved_up_float). MonotoneAxis is proved for the axes of C89"
  },
  {
   "property": "C109",
   "status": "proved",
   "theorems": [
    "NdHist.C109_weighted_sum",
    "NdHist.C109_mean",
    "NdHist.C109_weighted_mean",
    "NdHist.C109_bins_weighted_sum",
    "NdHist.C109_bins_weighted_sum_sparse",
    "NdHist.C109_bins_mean",
    "NdHist.C109_bins_mean_sparse",
    "NdHist.C109_bins_weighted_mean",
    "NdHist.C109_bins",
    "NdHist.C109_bins_sparse",
    "NdHist.C109_counterexample_float"
   ],
   "note": "Exact arithmetic is stated by the property; that the bounds fail by a rounding with floats is proved as a counterexample"
  },
  {
   "property": "C110",
   "status": "proved",
   "theorems": [
    "NdHist.C110_dense",
    "NdHist.C110_sparse",
    "NdHist.C110_int",
    "NdHist.C110_float",
    "NdHist.C110_numbers",
    "NdHist.C110_numbers_sparse",
    "NdHist.C110_each",
    "NdHist.C110_int_sq",
    "NdHist.C110_float_sq",
    "NdHist.C110_weighted_sum",
    "NdHist.C110_variance",
    "NdHist.C110_counterexample_wrap"
   ],
   "note": "Exceeds, Heavier, NoNegative and givenWeight are defined in SpecMore.lean. C110_int, C110_float and the _sq versions supply the hypotheses MonoAdd and MonoSq of the general theorems. The order of the data matters for floats: C86_counterexample_order"
  },
  {
   "property": "C111",
   "status": "proved",
   "theorems": [
    "NdHist.C111_dense",
    "NdHist.C111_sparse",
    "NdHist.C111_int",
    "NdHist.C111_int_sparse",
    "NdHist.C111_float",
    "NdHist.C111_float_sparse",
    "NdHist.C111_sum",
    "NdHist.C111_parts",
    "NdHist.C111_parts_sparse",
    "NdHist.C111_counterexample_inf",
    "NdHist.C111_counterexample_wrap"
   ],
   "note": "Only, AddMul and Add are defined in SpecGrow.lean, expressions (HExpr, eval, EvalSparse) in SpecArith.lean; MonoAdd is supplied by C110_int and C110_float"
  }
 ]
}
