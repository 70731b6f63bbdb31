{
 "claims": [
  {
   "property": "C01",
   "status": "proved",
   "theorems": [
    "Kp.C01_given_pc_is_returned",
    "Kp.C01_exported_pc_is_reimported"
   ],
   "note": "Over any linearly ordered field; no float rounding."
  },
  {
   "property": "C02",
   "status": "proved",
   "theorems": [
    "Kp.C02_conversion_keeps_physical_point",
    "Kp.C02_export_keeps_physical_point"
   ],
   "note": "Physical points per the docstring's definitions of the conventions."
  },
  {
   "property": "C03",
   "status": "proved",
   "theorems": [
    "Kp.C03_convention_accepted_iff_documented",
    "Kp.C03_convention_unambiguous"
   ],
   "note": ""
  },
  {
   "property": "C04",
   "status": "proved",
   "theorems": [
    "Kp.C04_pixel_gnomonic_inverse",
    "Kp.C04_gnomonic_is_similar_triangles",
    "Kp.C04_special_points",
    "Kp.C04_array_roundtrip"
   ],
   "note": ""
  },
  {
   "property": "C05",
   "status": "proved",
   "theorems": [
    "Kp.C05_crop_keeps_gnomonic",
    "Kp.C05_crop_pixels",
    "Kp.C05_crop_error_iff_empty",
    "Kp.C05_crop_crop"
   ],
   "note": ""
  },
  {
   "property": "C06",
   "status": "partial",
   "theorems": [
    "Kp.C06_crop_keeps_parameters_partial",
    "Kp.C06_crop_drops_twist",
    "Kp.C06_crop_changes_1d_navigation_shape"
   ],
   "note": "False of the code: twist is dropped and a 1D navigation shape (n,) becomes (1, n); negations proved."
  },
  {
   "property": "C07",
   "status": "partial",
   "theorems": [
    "Kp.C07_r_max_is_maximal_partial",
    "Kp.C07_r_max_of_corners",
    "Kp.C07_r_max_too_small_in_lower_right_quadrant"
   ],
   "note": "False of the code for PCs in the lower right quadrant (a corner is counted twice, the opposite one never); negation proved for every such detector."
  },
  {
   "property": "C08",
   "status": "proved",
   "theorems": [
    "Kp.C08_detector_in_degrees",
    "Kp.C08_sample_to_detector_is_proper_rotation",
    "Kp.C08_sample_to_detector_is_isometry",
    "Kp.C08_only_tilts",
    "Kp.C08_zero_angles",
    "Kp.C08_twist_is_counter_clockwise",
    "Kp.C08_azimuthal_is_to_the_right",
    "Kp.C08_tilt_is_upwards"
   ],
   "note": ""
  },
  {
   "property": "C09",
   "status": "partial",
   "theorems": [
    "Kp.C09_extrapolate_single_index_partial",
    "Kp.C09_extrapolate_transposed_indices_partial",
    "Kp.C09_outliers_partial",
    "Kp.C09_outliers_violated",
    "Kp.C09_outliers_transposed_raises",
    "Kp.C09_documented_shape_uses_wrong_average",
    "Kp.C09_documented_shape_wrong_pc",
    "Kp.C09_documented_shape_single_raises"
   ],
   "note": "Proved: for one PC, and for several given as an (n, 2) array, the documented equations hold with the average position rounded to integers; with outliers the plane passes through the average of the other PCs. False of the code for the documented (2, n) shape (wrong average position, IndexError for one PC), also with outliers (C09_outliers_violated), and outliers cannot be given with the (n, 2) shape (C09_outliers_transposed_raises)."
  },
  {
   "property": "C10",
   "status": "proved",
   "theorems": [
    "Kp.C10_every_estimate_is_exact",
    "Kp.C10_average_pc_is_exact"
   ],
   "note": ""
  },
  {
   "property": "C11",
   "status": "proved",
   "theorems": [
    "Kp.C11_rescale_in_range",
    "Kp.C11_rescale_linear",
    "Kp.C11_rescale_own_range",
    "Kp.C11_rescale_dtype_range",
    "Kp.C11_rescale_percentiles"
   ],
   "note": ""
  },
  {
   "property": "C12",
   "status": "partial",
   "theorems": [
    "Kp.C12_mean_and_std_partial",
    "Kp.C12_mean_and_std_default_partial",
    "Kp.C12_std_is_not_num_std",
    "Kp.C12_affine_invariant"
   ],
   "note": "False of the code for num_std other than 1 (the standard deviation is 1/num_std; negation proved). Mean, invariance and num_std = 1 proved."
  },
  {
   "property": "C13",
   "status": "proved",
   "theorems": [
    "Kp.C13_remove_background",
    "Kp.C13_static_background_accepted",
    "Kp.C13_static_background",
    "Kp.C13_dynamic_background",
    "Kp.C13_unknown_operation_divides"
   ],
   "note": "Exact arithmetic; patterns constant after correction and zero divisors are excluded by hypothesis (the code divides by zero)."
  },
  {
   "property": "C14",
   "status": "proved",
   "theorems": [
    "Kp.C14_block_sums",
    "Kp.C14_blocks_partition",
    "Kp.C14_total_intensity",
    "Kp.C14_binning_composes",
    "Kp.C14_downsampling_composes",
    "Kp.C14_factor_accepted",
    "Kp.C14_signal_consistent",
    "Kp.C14_signal_intensities",
    "Kp.C14_integer_downsampling_does_not_compose"
   ],
   "note": "Composition is proved for floating point patterns; for integer patterns rounding breaks it (shown)."
  },
  {
   "property": "C15",
   "status": "proved",
   "theorems": [
    "Kp.C15_fft_filter_eq_correlate",
    "Kp.C15_padding_independent",
    "Kp.C15_averaging_window"
   ],
   "note": "For all non-empty image and window shapes and every FFT padding at least as large as required; rfft2/irfft2 modelled as (half spectrum) discrete Fourier transforms, exact arithmetic."
  },
  {
   "property": "C16",
   "status": "partial",
   "theorems": [
    "Kp.C16_circular_2d_partial",
    "Kp.C16_circular_1d",
    "Kp.C16_circular_single_row_fails",
    "Kp.C16_invalid_shape",
    "Kp.C16_reach",
    "Kp.C16_n_neighbours_even_too_small"
   ],
   "note": "False for shapes (1, n): IndexError (C16_circular_single_row_fails); n_neighbours is too small for even lengths (C16_n_neighbours_even_too_small). The rest is proved."
  },
  {
   "property": "C17",
   "status": "partial",
   "theorems": [
    "Kp.C17_lowpass_partial",
    "Kp.C17_highpass_partial",
    "Kp.C17_unit_interval",
    "Kp.C17_single_row_or_column_fails"
   ],
   "note": "False for 2D shapes with an axis of length 1 (C17_single_row_or_column_fails); the rest is proved."
  },
  {
   "property": "C18",
   "status": "partial",
   "theorems": [
    "Kp.C18_chunk_independent",
    "Kp.C18_weighted_mean_partial",
    "Kp.C18_normalized_window",
    "Kp.C18_one_axis_window"
   ],
   "note": "chunk independence and weighted mean for windows with origin coefficient >= 1; false for normalized windows (integer window sums) and one-axis windows on chunked columns"
  },
  {
   "property": "C19",
   "status": "partial",
   "theorems": [
    "Kp.C19_dot_products_partial",
    "Kp.C19_false_origin",
    "Kp.C19_even_window"
   ],
   "note": "odd window axes or unchunked axes; false for even axes on chunked maps"
  },
  {
   "property": "C20",
   "status": "proved",
   "theorems": [
    "Kp.C20_consistent"
   ],
   "note": ""
  },
  {
   "property": "C21",
   "status": "partial",
   "theorems": [
    "Kp.C21_global_best_partial",
    "Kp.C21_first_matches_partial",
    "Kp.C21_scores_do_not_depend_on_iterations_partial",
    "Kp.C21_result_does_not_depend_on_iterations_partial",
    "Kp.C21_scores_below_minus_one_are_lost",
    "Kp.C21_score_of_exactly_minus_one_is_lost"
   ],
   "note": "False of the code when several iterations are used and a dictionary score is -1 or lower (initial values -1 win); negations proved. Proved for all other score tables and all tie-breaking."
  },
  {
   "property": "C22",
   "status": "partial",
   "theorems": [
    "Kp.C22_smallest_kept_partial",
    "Kp.C22_single_iteration_returns_worst",
    "Kp.C22_single_iteration_not_best",
    "Kp.C22_several_iterations_not_best"
   ],
   "note": "False of the code: the sign is ignored when matching a chunk; negations proved. Proved when chunks are at most keep_n long."
  },
  {
   "property": "C23",
   "status": "proved",
   "theorems": [
    "Kp.C23_results_at_own_points",
    "Kp.C23_best_matches_at_own_points"
   ],
   "note": ""
  },
  {
   "property": "C24",
   "status": "proved",
   "theorems": [
    "Kp.C24_ncc_bounds",
    "Kp.C24_ncc_eq_one_iff",
    "Kp.C24_ncc_invariances",
    "Kp.C24_refinement_ncc_agrees",
    "Kp.C24_ndp_bounds",
    "Kp.C24_ndp_scaling"
   ],
   "note": ""
  },
  {
   "property": "C25",
   "status": "partial",
   "theorems": [
    "Kp.C25_best_map_partial",
    "Kp.C25_merged_scores",
    "Kp.C25_single_point",
    "Kp.C25_different_maps_refused",
    "Kp.C25_phases_partial",
    "Kp.C25_identical_phases"
   ],
   "note": "Best map per point, sorted merged scores, unique simulation indices, phases for differently named phases. False: single-point maps with several scores raise; identical phases may get two IDs."
  },
  {
   "property": "C26",
   "status": "partial",
   "theorems": [
    "Kp.C26_uncovered_point_raises",
    "Kp.C26_never_not_indexed"
   ],
   "note": "False as stated: an uncovered point makes the merge raise; with masks no point is ever not indexed. Both proved for all inputs."
  },
  {
   "property": "C27",
   "status": "partial",
   "theorems": [
    "Kp.C27_similarity_partial",
    "Kp.C27_bounded",
    "Kp.C27_same_matches",
    "Kp.C27_one_axis"
   ],
   "note": "Values proved for maps with two axes, any footprint with its center_index; bounds and value 1 for equal match sets. Proved false for maps with one axis (IndexError). Points without neighbours are NaN."
  },
  {
   "property": "C28",
   "status": "proved",
   "theorems": [
    "Kp.C28_in_square",
    "Kp.C28_direction",
    "Kp.C28_antipodal",
    "Kp.C28_inverse",
    "Kp.C28_surjective",
    "Kp.C28_injective"
   ],
   "note": ""
  },
  {
   "property": "C29",
   "status": "partial",
   "theorems": [
    "Kp.C29_in_bounds",
    "Kp.C29_convex",
    "Kp.C29_grid_points",
    "Kp.C29_not_square"
   ],
   "note": "Proved for square master patterns. Non-square master patterns are accepted and read outside the array (C29_not_square)."
  },
  {
   "property": "C30",
   "status": "proved",
   "theorems": [
    "Kp.C30_pixel_centers",
    "Kp.C30_each_pc"
   ],
   "note": ""
  },
  {
   "property": "C31",
   "status": "partial",
   "theorems": [
    "Kp.C31_euler_unit",
    "Kp.C31_rodrigues_unit_partial",
    "Kp.C31_rodrigues_zero",
    "Kp.C31_rotate_is_conjugation",
    "Kp.C31_rotate_mul",
    "Kp.C31_rotate_isometry",
    "Kp.C31_rotate_cross",
    "Kp.C31_euler_is_bunge",
    "Kp.C31_rodrigues_is_rotation"
   ],
   "note": "False for the zero Rodrigues vector, which gives NaN (C31_rodrigues_zero)."
  },
  {
   "property": "C32",
   "status": "partial",
   "theorems": [
    "Kp.C32_mismatch_raises_partial",
    "Kp.C32_too_many_dimensions",
    "Kp.C32_not_for_unit_axis",
    "Kp.C32_suitable_iff"
   ],
   "note": "False for detectors with one PC along the first of two navigation axes (C32_not_for_unit_axis)."
  },
  {
   "property": "C33",
   "status": "proved",
   "theorems": [
    "Kp.C33_each_point",
    "Kp.C33_phase",
    "Kp.C33_pc_shape",
    "Kp.C33_sliced_map_raises"
   ],
   "note": "For calls that return. Maps sliced so that points are not in the data raise, see C33_sliced_map_raises."
  },
  {
   "property": "C34",
   "status": "partial",
   "theorems": [
    "Kp.C34_bounds_partial",
    "Kp.C34_within_trust_region_partial",
    "Kp.C34_no_bounds_partial",
    "Kp.C34_not_without_trust_region",
    "Kp.C34_not_for_integers"
   ],
   "note": "Bounds proved for float trust regions; false without a trust region for three SciPy methods and for integer arrays when refining orientations and PCs together."
  },
  {
   "property": "C35",
   "status": "partial",
   "theorems": [
    "Kp.C35_history_independent_partial",
    "Kp.C35_kwargs_unchanged_partial",
    "Kp.C35_own_arguments",
    "Kp.C35_not_kwargs",
    "Kp.C35_not_trust_region",
    "Kp.C35_trust_region_unchanged_partial"
   ],
   "note": "History independence proved; argument mutation (trust_region, method_kwargs) proved as a violation."
  },
  {
   "property": "C36",
   "status": "proved",
   "theorems": [
    "Kp.C36_best_solution"
   ],
   "note": "Scores which are numbers; NaN scores are C153."
  },
  {
   "property": "C37",
   "status": "proved",
   "theorems": [
    "Kp.C37_yes_means_yes",
    "Kp.C37_no_change_without_consent",
    "Kp.C37_overwrite_false",
    "Kp.C37_new_file",
    "Kp.C37_overwrite_true"
   ],
   "note": ""
  },
  {
   "property": "C38",
   "status": "partial",
   "theorems": [
    "Kp.C38_suffix_partial",
    "Kp.C38_default_partial",
    "Kp.C38_not_extension",
    "Kp.C38_not_loaded_extension",
    "Kp.C38_not_dotted_name"
   ],
   "note": "Suffix and default proved for explicit names; the extension argument and the extension a signal was loaded from are ignored (violations proved)."
  },
  {
   "property": "C39",
   "status": "proved",
   "theorems": [
    "Kp.C39_add_scan_never_collides",
    "Kp.C39_requested_number",
    "Kp.C39_entered_number",
    "Kp.C39_prompt_accepts_used_number"
   ],
   "note": "At the level of the file; the prompt itself may accept a used number, after which the call raises."
  },
  {
   "property": "C40",
   "status": "partial",
   "theorems": [
    "Kp.C40_round_trip_partial",
    "Kp.C40_not_without_background",
    "Kp.C40_not_signal_scale",
    "Kp.C40_not_single_row",
    "Kp.C40_not_single_pattern_row"
   ],
   "note": "The round trip is proved for every signal with at least two rows and columns in the map and in the pattern, a stored background and unit detector scales (C40_round_trip_partial); the full statement is false and counterexamples are proved: a missing background returns as -1, detector scales are lost, unit axes vanish."
  },
  {
   "property": "C41",
   "status": "partial",
   "theorems": [
    "Kp.C41_round_trip_partial",
    "Kp.C41_not_after_none",
    "Kp.C41_not_ascii",
    "Kp.C41_not_length_one",
    "Kp.C41_not_first_axis_one",
    "Kp.C41_not_white_space",
    "Kp.C41_not_lists"
   ],
   "note": "The round trip is proved for every storable dictionary, recursively (C41_round_trip_partial); the full statement is false and counterexamples are proved: entries after a None are dropped, non-ASCII text fails, length-one arrays return as scalars, white space in keys is lost, lists return as arrays."
  },
  {
   "property": "C42",
   "status": "partial",
   "theorems": [
    "Kp.C42_round_trip_partial",
    "Kp.C42_truncated_file",
    "Kp.C42_lazy_partial",
    "Kp.C42_not_lazy_single_row",
    "Kp.C42_not_lazy_truncated",
    "Kp.C42_not_wider_types"
   ],
   "note": "Round trip and truncated files are proved for every size (C42_round_trip_partial, C42_truncated_file). Lazy reading gives the same signal only without unit axes and for complete files (C42_lazy_partial); counterexamples for the rest."
  },
  {
   "property": "C43",
   "status": "partial",
   "theorems": [
    "Kp.C43_map_order_partial",
    "Kp.C43_fallback_count",
    "Kp.C43_fallback_no_coordinates",
    "Kp.C43_listing_order",
    "Kp.C43_not_repeated",
    "Kp.C43_not_mixed_names"
   ],
   "note": "Positions, completeness and independence of the listing order are proved for distinct and complete coordinates, and the fallback for a wrong number of files; false for repeated coordinates with a matching count and for files without coordinates (proved)."
  },
  {
   "property": "C44",
   "status": "partial",
   "theorems": [
    "Kp.C44_map_order_partial",
    "Kp.C44_file_partial",
    "Kp.C44_missing_sorted_partial",
    "Kp.C44_not_missing",
    "Kp.C44_not_without_beam",
    "Kp.C44_round_trip_partial",
    "Kp.C44_missing_violated",
    "Kp.C44_whole_file_partial"
   ],
   "note": "Proved for every order when all patterns are present with both beam positions, and for missing patterns in sorted files; false for missing patterns in unsorted files and for footers without beam positions (proved)."
  },
  {
   "property": "C45",
   "status": "partial",
   "theorems": [
    "Kp.C45_axes_partial",
    "Kp.C45_axes_version_one",
    "Kp.C45_not_single_row"
   ],
   "note": "Proved for several map rows and for files of version 1; false for single rows (proved)."
  },
  {
   "property": "C46",
   "status": "partial",
   "theorems": [
    "Kp.C46_positions_partial",
    "Kp.C46_rejects_partial",
    "Kp.C46_not_without_diagonal"
   ],
   "note": "Full rectangles in any storage order are placed correctly; gaps and unequal row or column counts are rejected. False for e.g. a square without its diagonal (accepted and misplaced)."
  },
  {
   "property": "C47",
   "status": "proved",
   "theorems": [
    "Kp.C47_range",
    "Kp.C47_range_refused",
    "Kp.C47_closest"
   ],
   "note": "Ranges overlapping no energy because they are entirely above or below raise IndexError (stated)."
  },
  {
   "property": "C48",
   "status": "proved",
   "theorems": [
    "Kp.C48_unambiguous",
    "Kp.C48_manufacturer"
   ],
   "note": ""
  },
  {
   "property": "C49",
   "status": "partial",
   "theorems": [
    "Kp.C49_first_signal_partial",
    "Kp.C49_not_second_signal"
   ],
   "note": "False for the second and later signals of a file."
  },
  {
   "property": "C50",
   "status": "partial",
   "theorems": [
    "Kp.C50_isig_partial",
    "Kp.C50_not_open_end",
    "Kp.C50_not_negative_start",
    "Kp.C50_not_negative_stop",
    "Kp.C50_inav_partial",
    "Kp.C50_positions",
    "Kp.C50_positions_increasing",
    "Kp.C50_inav_step_partial",
    "Kp.C50_not_step",
    "Kp.C50_not_signal_step",
    "Kp.C50_not_isig_then_inav",
    "Kp.C50_crop_partial",
    "Kp.C50_not_crop_units",
    "Kp.C50_not_crop_navigation_units"
   ],
   "note": "Holds for plain signal slices and all navigation slices without step. False for open-ended, negative and stepped signal slices, for steps in navigation (crystal map shape), isig followed by inav with one PC, and crop with axis units."
  },
  {
   "property": "C51",
   "status": "partial",
   "theorems": [
    "Kp.C51_consistent_partial",
    "Kp.C51_size_partial",
    "Kp.C51_axes_partial",
    "Kp.C51_not_size",
    "Kp.C51_not_whole_map"
   ],
   "note": "Patterns, PCs, crystal map points and indices agree for every grid; number of points is the one asked for if the map size exceeds its square. False in general: fewer points than asked for, with axes of the size asked for."
  },
  {
   "property": "C52",
   "status": "partial",
   "theorems": [
    "Kp.C52_copying_operations_isolated",
    "Kp.C52_deepcopy_equal",
    "Kp.C52_returned_attributes",
    "Kp.C52_own_background",
    "Kp.C52_shared_detector",
    "Kp.C52_shared_crystal_map",
    "Kp.C52_shared_background",
    "Kp.C52_sharing_operations_violated",
    "Kp.C52_downsample_changes_original",
    "Kp.C52_call_leaves_original",
    "Kp.C52_assignments_isolated_partial"
   ],
   "note": "deepcopy, rebin, inav, isig and extract_grid isolate for every history; the intensity methods, as_lazy and downsample share objects (negation proved); assignments are isolated for all."
  },
  {
   "property": "C53",
   "status": "partial",
   "theorems": [
    "Kp.C53_tiles_partition_partial",
    "Kp.C53_odd_grid",
    "Kp.C53_dividing_grid",
    "Kp.C53_dividing_tile_pixels",
    "Kp.C53_sum_of_tiles_partial",
    "Kp.C53_row_counted_twice",
    "Kp.C53_row_lost",
    "Kp.C53_sum_violated",
    "Kp.C53_calibrated_raises",
    "Kp.C53_region_of_tiles",
    "Kp.C53_default_grid",
    "Kp.C53_grid_shape_accepted"
   ],
   "note": "Partition and sum proved for offset-zero axes and grids with no edge half-way between pixels (all odd and all dividing grids); false for other grids and after set_detector_calibration (negations proved)."
  },
  {
   "property": "C54",
   "status": "partial",
   "theorems": [
    "Kp.C54_forwarding_faithful",
    "Kp.C54_virtual_bse_normalize_swaps",
    "Kp.C54_forwarding_violated",
    "Kp.C54_virtual_bse_dtype_ignored",
    "Kp.C54_dtype_honoured",
    "Kp.C54_virtual_bse_progressbar_error",
    "Kp.C54_virtual_bse_normalize_partial",
    "Kp.C54_errors_agree"
   ],
   "note": "All classes and methods but VirtualBSEImage.normalize_intensity forward faithfully; that one swaps dtype_out and show_progressbar (negation proved)."
  },
  {
   "property": "C55",
   "status": "partial",
   "theorems": [
    "Kp.C55_chunks_cover",
    "Kp.C55_bad_chunk_shape",
    "Kp.C55_rechunk_covers",
    "Kp.C55_dask_array_partial",
    "Kp.C55_split_patterns_violated",
    "Kp.C55_lazy_chunk_shape_violated"
   ],
   "note": "All shapes and chunk shapes; dask normalize_chunks modelled from its documentation, with the automatic size as a positive parameter. For lazy signals, patterns already split stay split and the chunk shape is ignored (_violated)."
  },
  {
   "property": "C56",
   "status": "partial",
   "theorems": [
    "Kp.C56_bands_are_traces",
    "Kp.C56_visible_bands_returned",
    "Kp.C56_one_sided_reflectors_missed",
    "Kp.C56_zone_axes",
    "Kp.C56_zone_axes_on_bands",
    "Kp.C56_zone_axis_on_detector_missed",
    "Kp.C56_zone_axes_on_detector_kept_partial",
    "Kp.C56_pixel_coordinates_partial",
    "Kp.C56_pixel_coordinates_violated"
   ],
   "note": "Bands and zone axes characterised for all inputs; zone axes near a corner are missed for PCs in the lower right quadrant, one-sided reflectors are missed, and pixel coordinates differ from to_pixel_coords by (n-1)/n (negations proved)."
  },
  {
   "property": "C57",
   "status": "partial",
   "theorems": [
    "Kp.C57_image_quality_bound_partial",
    "Kp.C57_zero_frequency_not_one",
    "Kp.C57_scaling",
    "Kp.C57_affine"
   ],
   "note": "The bound and the invariances are proved; the claim that constant patterns attain 1 is false of the code and its negation is proved (C57_zero_frequency_not_one)."
  },
  {
   "property": "C58",
   "status": "proved",
   "theorems": [
    "Kp.C58_round_trip",
    "Kp.C58_bruker_pc",
    "Kp.C58_saved_twice",
    "Kp.C58_saved_again",
    "Kp.C58_invalid_convention"
   ],
   "note": "All detectors, conventions and numbers of decimals. Header text modelled per character; str(float)/float(str) round trip assumed (FloatText); text of PC rows modelled as rounded numbers."
  },
  {
   "property": "C59",
   "status": "partial",
   "theorems": [
    "Kp.C59_relative_rescaling_partial",
    "Kp.C59_conflicting_arguments_rejected",
    "Kp.C59_relative_with_percentiles_is_not_relative"
   ],
   "note": "False of the code when percentiles are passed with relative=True (not rejected; negation proved)."
  },
  {
   "property": "C60",
   "status": "partial",
   "theorems": [
    "Kp.C60_all_pass_filter",
    "Kp.C60_ifft_fft_complex",
    "Kp.C60_apodization",
    "Kp.C60_all_pass_apodization",
    "Kp.C60_ifft_fft_real_even_partial",
    "Kp.C60_ifft_fft_real_odd_fails",
    "Kp.C60_shift_equivalent",
    "Kp.C60_zero_frequency"
   ],
   "note": "False for real_fft_only=True and an odd number of columns (C60_ifft_fft_real_odd_fails); everything else proved."
  },
  {
   "property": "C61",
   "status": "partial",
   "theorems": [
    "Kp.C61_hann_partial",
    "Kp.C61_hann_odd_maximum",
    "Kp.C61_hann_even_maximum_fails"
   ],
   "note": "The maximum is 1 only for odd lengths (C61_hann_even_maximum_fails)."
  },
  {
   "property": "C62",
   "status": "partial",
   "theorems": [
    "Kp.C62_mirror",
    "Kp.C62_inversion_partial",
    "Kp.C62_not_inversion"
   ],
   "note": "False (C62_not_inversion); proved when the master pattern is unchanged by half a turn about its normal."
  },
  {
   "property": "C63",
   "status": "partial",
   "theorems": [
    "Kp.C63_own_rotation_and_pc_partial",
    "Kp.C63_not_for_two_axes",
    "Kp.C63_energy"
   ],
   "note": "Proved for equal shapes or a navigation shape of (1,). False for a single PC in two navigation axes (C63_not_for_two_axes)."
  },
  {
   "property": "C64",
   "status": "partial",
   "theorems": [
    "Kp.C64_initial_step_partial",
    "Kp.C64_not_degrees"
   ],
   "note": "False for Euler angles: degrees are used as radians. PC part and checks proved."
  },
  {
   "property": "C65",
   "status": "partial",
   "theorems": [
    "Kp.C65_add_scan_keeps_scans_partial",
    "Kp.C65_not_with_overwrite"
   ],
   "note": "False if overwrite=True is passed too."
  },
  {
   "property": "C66",
   "status": "partial",
   "theorems": [
    "Kp.C66_axes_partial",
    "Kp.C66_not_single_row",
    "Kp.C66_not_integer_scan_size"
   ],
   "note": "Proved for maps with several rows and columns (C66_axes_partial); false for single rows and integer scan sizes (proved)."
  },
  {
   "property": "C67",
   "status": "partial",
   "theorems": [
    "Kp.C67_positions_grid",
    "Kp.C67_wrong_shape",
    "Kp.C67_not_large"
   ],
   "note": "Proved for files of version 3 and later with square grids and files of version 1 below 4 GiB; version 1 files of 4 GiB and more fail with NumPy 2 (proved)."
  },
  {
   "property": "C68",
   "status": "partial",
   "theorems": [
    "Kp.C68_number_partial",
    "Kp.C68_not_large_jump",
    "Kp.C68_not_missing",
    "Kp.C68_not_version_five",
    "Kp.C68_file_partial"
   ],
   "note": "Proved before version 5 without large jumps in the table; false for missing patterns in files above 58 MB and for version 5 (proved)."
  },
  {
   "property": "C69",
   "status": "partial",
   "theorems": [
    "Kp.C69_shape_partial",
    "Kp.C69_not_single_column",
    "Kp.C69_not_half_step"
   ],
   "note": "Proved for at least two columns unless the origin is half-way between steps; counterexamples for a single column and half-way positions."
  },
  {
   "property": "C70",
   "status": "partial",
   "theorems": [
    "Kp.C70_not_reordered",
    "Kp.C70_not_example",
    "Kp.C70_map_order_partial"
   ],
   "note": "False: projection centers are never reordered, patterns are. Holds for files in map order."
  },
  {
   "property": "C71",
   "status": "partial",
   "theorems": [
    "Kp.C71_axes_partial",
    "Kp.C71_images",
    "Kp.C71_energy_coordinates",
    "Kp.C71_not_lambert_positions"
   ],
   "note": "False for Lambert projection, one hemisphere and several asymmetric positions (axis names are shifted)."
  },
  {
   "property": "C72",
   "status": "partial",
   "theorems": [
    "Kp.C72_not_coordinates",
    "Kp.C72_differences_partial"
   ],
   "note": "False: the axis offset is never updated; differences of coordinates are kept."
  },
  {
   "property": "C73",
   "status": "partial",
   "theorems": [
    "Kp.C73_loop_ends",
    "Kp.C73_chunks_returned",
    "Kp.C73_chunk_size_limited",
    "Kp.C73_chunks_not_empty_partial",
    "Kp.C73_empty_chunk_violated",
    "Kp.C73_single_position_empty",
    "Kp.C73_components_mismatch"
   ],
   "note": "Size limit and termination proved for all sizes. Not empty proved for two or more map positions and rows of at most a fourth of the limit; false for a single map position (C73_single_position_empty)."
  },
  {
   "property": "C74",
   "status": "partial",
   "theorems": [
    "Kp.C74_model_values",
    "Kp.C74_model_values_2d",
    "Kp.C74_model_returned",
    "Kp.C74_bad_component",
    "Kp.C74_failure_truncates",
    "Kp.C74_unchanged_on_error_violated",
    "Kp.C74_learning_unchanged_partial",
    "Kp.C74_no_temporary_file_partial",
    "Kp.C74_write_needs_map",
    "Kp.C74_temporary_file_left_violated"
   ],
   "note": "Model values proved for all selections. Learning results stay truncated when HyperSpy raises, and the temporary file stays when writing fails, e.g. always for signals without four axes (negations proved)."
  },
  {
   "property": "C75",
   "status": "partial",
   "theorems": [
    "Kp.C75_same_detector_partial",
    "Kp.C75_static_background",
    "Kp.C75_map",
    "Kp.C75_different_scales_violated",
    "Kp.C75_crop_violated"
   ],
   "note": "Proved for equal scales which divide the detector shape (C75_same_detector_partial), the static background and rebinned maps. Violated otherwise: different scales (C75_different_scales_violated) and cropped pixels (C75_crop_violated)."
  },
  {
   "property": "C76",
   "status": "partial",
   "theorems": [
    "Kp.C76_affine_fit",
    "Kp.C76_map_plane_partial",
    "Kp.C76_detector_tilt_violated",
    "Kp.C76_estimate_xtilt",
    "Kp.C76_estimate_xtilt_ztilt",
    "Kp.C76_outlier_list_violated"
   ],
   "note": "Affine fit, estimate_xtilt and estimate_xtilt_ztilt proved for all planes, positions and outliers. With a tilted detector fit_pc returns a sample tilt wrong by twice the detector tilt, and outliers given as a list are ignored by estimate_xtilt_ztilt (negations proved). The projective fit is C103, the robust (RANSAC) fit C130."
  },
  {
   "property": "C77",
   "status": "partial",
   "theorems": [
    "Kp.C77_orientation_partial",
    "Kp.C77_orientation_not_worse_partial",
    "Kp.C77_pc_partial",
    "Kp.C77_orientation_pc_partial",
    "Kp.C77_chunks",
    "Kp.C77_hemispheres_violated",
    "Kp.C77_pseudo_symmetry",
    "Kp.C77_same_as_dictionary_indexing"
   ],
   "note": "Proved for every optimizer that reports the objective at the point it returns, in exact arithmetic, for master patterns whose hemispheres have one intensity scale. Without the last hypothesis the statement is false: hemispheres are rescaled to [-1, 1] one by one (C77_hemispheres_violated)."
  },
  {
   "property": "C78",
   "status": "partial",
   "theorems": [
    "Kp.C78_map",
    "Kp.C78_map_line",
    "Kp.C78_map_made",
    "Kp.C78_map_dimensions",
    "Kp.C78_data_kept_partial",
    "Kp.C78_again",
    "Kp.C78_data_violated",
    "Kp.C78_data_index_partial",
    "Kp.C78_data_index_violated",
    "Kp.C78_reflectors",
    "Kp.C78_no_reflectors",
    "Kp.C78_reflectors_single",
    "Kp.C78_reflectors_violated",
    "Kp.C78_phases_partial",
    "Kp.C78_own_phases",
    "Kp.C78_lattice_violated",
    "Kp.C78_accepted",
    "Kp.C78_pairing",
    "Kp.C78_map_shape_violated",
    "Kp.C78_chunks",
    "Kp.C78_optimize_pc_partial"
   ],
   "note": "Pairing of patterns, PCs and map points, acceptance of indexers, phases and reflectors proved for all inputs. False as stated: making a map overwrites the rotations of patterns not indexed in the results array (C78_data_violated), data_index is checked as a phase ID but used as a row (C78_data_index_violated), PCs of a map of another shape are accepted (C78_map_shape_violated), lattice parameters may differ by a relative 1e-5 (C78_lattice_violated), a single vector for three phases is ignored (C78_reflectors_violated)."
  },
  {
   "property": "C79",
   "status": "partial",
   "theorems": [
    "Kp.C79_channel",
    "Kp.C79_markers_partial",
    "Kp.C79_markers_violated",
    "Kp.C79_axes_partial",
    "Kp.C79_offset_violated",
    "Kp.C79_image",
    "Kp.C79_image_percentiles",
    "Kp.C79_gain",
    "Kp.C79_alpha",
    "Kp.C79_brightness_violated"
   ],
   "note": "Channels, value range, order and gain invariance proved for all inputs (images that are not constant). False: brightness and contrast have no effect unless intensities are clipped (C79_brightness_violated), coloured edges of tiles that are not square are misplaced (C79_markers_violated), axis offsets are lost (C79_offset_violated)."
  },
  {
   "property": "C80",
   "status": "partial",
   "theorems": [
    "Kp.C80_bands",
    "Kp.C80_direction",
    "Kp.C80_accepted",
    "Kp.C80_order",
    "Kp.C80_inversion",
    "Kp.C80_bounds_partial",
    "Kp.C80_schedule_partial",
    "Kp.C80_terminates",
    "Kp.C80_schedule_violated",
    "Kp.C80_one_sided_violated",
    "Kp.C80_axes_partial",
    "Kp.C80_axes_violated",
    "Kp.C80_middle_violated"
   ],
   "note": "Pixel values, order of reflectors, inversion and refusals proved for all inputs with one thread. False with several threads: the compiled parallel loop adds to shared pixels without synchronisation, and for every two threads sharing a pixel a schedule loses a band (C80_schedule_violated); bounds and single-thread pixels hold under every schedule. False: one-sided reflectors (C80_one_sided_violated), axes for \"Both\" (C80_axes_violated), coordinate of the middle pixel (C80_middle_violated)."
  },
  {
   "property": "C81",
   "status": "partial",
   "theorems": [
    "Kp.C81_verified",
    "Kp.C81_offline",
    "Kp.C81_offline_returned",
    "Kp.C81_download",
    "Kp.C81_archive_partial",
    "Kp.C81_archive_twice",
    "Kp.C81_archive_violated",
    "Kp.C81_settings_violated",
    "Kp.C81_home",
    "Kp.C81_clear_partial",
    "Kp.C81_clear_violated",
    "Kp.C81_gain_series",
    "Kp.C81_gain_archive"
   ],
   "note": "Verification, offline behaviour, downloads of single files and the gain series proved for every cache state and server. False: archives after interrupted unpacking (C81_archive_violated, second call proved to succeed), settings files are not verified (C81_settings_violated), clear_cache after a change of the environment variable or with ~ (C81_clear_violated). The behaviour of the pooch package is assumed as documented in the model."
  },
  {
   "property": "C82",
   "status": "partial",
   "theorems": [
    "Kp.C82_settings_partial",
    "Kp.C82_no_misreading",
    "Kp.C82_titles_violated",
    "Kp.C82_calibration_patterns",
    "Kp.C82_no_calibration_patterns",
    "Kp.C82_area_violated",
    "Kp.C82_area_shape",
    "Kp.C82_scaled"
   ],
   "note": "False in full: the title of a section in free text, for instance in the name of the specimen, replaces the section (C82_titles_violated). A resolution row of the overview image without two numbers raises KeyError (C82_area_violated)."
  },
  {
   "property": "C83",
   "status": "partial",
   "theorems": [
    "Kp.C83_named_scans",
    "Kp.C83_one_missing",
    "Kp.C83_file_checked",
    "Kp.C83_missing_violated",
    "Kp.C83_saved_scans",
    "Kp.C83_default_partial",
    "Kp.C83_default_violated"
   ],
   "note": "False in full: several names of which none is in the file give an empty list (C83_missing_violated); without a name, scan 10 is read before scan 2, and another group that is first in the order of names makes it raise (C83_default_violated)."
  },
  {
   "property": "C84",
   "status": "partial",
   "theorems": [
    "Kp.C84_samples_inside",
    "Kp.C84_accepted",
    "Kp.C84_shape",
    "Kp.C84_upper",
    "Kp.C84_lower",
    "Kp.C84_simulated",
    "Kp.C84_plot_partial",
    "Kp.C84_plot_black_violated",
    "Kp.C84_plot_outside_violated",
    "Kp.C84_plot_one_hemisphere_partial",
    "Kp.C84_plot_one_hemisphere_violated"
   ],
   "note": "Change of projection proved. False for plotting: pixels black in the upper pattern are missing in both hemispheres (C84_plot_black_violated), pixels outside of the disk that are not black are plotted in the other hemisphere (C84_plot_outside_violated), a single hemisphere of a centrosymmetric phase is mirrored (C84_plot_one_hemisphere_violated)."
  },
  {
   "property": "C85",
   "status": "partial",
   "theorems": [
    "Kp.C85_named_metric",
    "Kp.C85_metric_object_partial",
    "Kp.C85_metric_object_without_masks_partial",
    "Kp.C85_accepted",
    "Kp.C85_iterations",
    "Kp.C85_results_partial",
    "Kp.C85_first_matches_partial",
    "Kp.C85_history_violated",
    "Kp.C85_history_error_violated",
    "Kp.C85_failed_call_violated",
    "Kp.C85_signal_mask_shape_violated"
   ],
   "note": "Proved: which arguments are accepted, the best matches of the unmasked pixels at each unmasked point, no dependence on history for metrics given by name or when masks and data type are given. Violated: a metric object keeps masks and data type from earlier calls, and the shape of the signal mask is not checked. Scores of -1 or lower and lower-is-better metrics: see C21, C22."
  },
  {
   "property": "C86",
   "status": "partial",
   "theorems": [
    "Kp.C86_map_shape",
    "Kp.C86_axes_partial",
    "Kp.C86_background_partial",
    "Kp.C86_axes_violated",
    "Kp.C86_background_violated",
    "Kp.C86_returned_none_violated",
    "Kp.C86_lazy",
    "Kp.C86_downsample",
    "Kp.C86_scan_calibration",
    "Kp.C86_line_calibration_violated"
   ],
   "note": "Proved for all sequences: map shape and presence of the static background; axes and metadata without the three operations which rebuild the signal from an array; a usable background if no other data type is asked of rescale/normalize. The rest is violated, with theorems for every signal."
  },
  {
   "property": "C87",
   "status": "partial",
   "theorems": [
    "Kp.C87_equal_iff_partial",
    "Kp.C87_equal_to_itself",
    "Kp.C87_reported_difference",
    "Kp.C87_point_group_violated",
    "Kp.C87_atom_order_violated",
    "Kp.C87_symmetric_violated",
    "Kp.C87_transitive_violated",
    "Kp.C87_accepted_partial",
    "Kp.C87_accepts",
    "Kp.C87_attributes_fit",
    "Kp.C87_set_attribute",
    "Kp.C87_coordinates_partial",
    "Kp.C87_coordinates_violated",
    "Kp.C87_not_indexed_violated"
   ],
   "note": "Acceptance is proved sound and complete and the comparison of phases characterised; false parts: improper symmetry operations are not compared (point groups 2 and m are the same phase), atoms are compared in order, the tolerance makes sameness neither symmetric nor transitive, refined maps always start in the origin, and a mask of points not indexed gives an indexing error"
  },
  {
   "property": "C88",
   "status": "partial",
   "theorems": [
    "Kp.C88_shapes",
    "Kp.C88_lines",
    "Kp.C88_reflectors_kept",
    "Kp.C88_zone_axes",
    "Kp.C88_zone_axes_upper_partial",
    "Kp.C88_zone_axes_on_lines",
    "Kp.C88_zone_axes_shown_partial",
    "Kp.C88_pixel_partial",
    "Kp.C88_markers",
    "Kp.C88_labels",
    "Kp.C88_pc_markers",
    "Kp.C88_label_partial",
    "Kp.C88_label_violated",
    "Kp.C88_plot_violated",
    "Kp.C88_plot_partial",
    "Kp.C88_plot_mean_partial",
    "Kp.C88_zone_axes_formats_violated",
    "Kp.C88_plot_pc_violated"
   ],
   "note": "The code violates the rest: gnomonic zone axes are not restricted to the detector, labels with two digit indices are ambiguous, plot fails without zone axes and shows the average PC."
  },
  {
   "property": "C89",
   "status": "partial",
   "theorems": [
    "Kp.C89_schedule_partial",
    "Kp.C89_one_block",
    "Kp.C89_terminates",
    "Kp.C89_trust_region_violated",
    "Kp.C89_pattern_violated"
   ],
   "note": "Proved if each block has its own keyword dictionary or the method does not write to it. With a shared dictionary the code violates it; whether it is shared is up to Dask."
  },
  {
   "property": "C90",
   "status": "partial",
   "theorems": [
    "Kp.C90_binning",
    "Kp.C90_binning_unread",
    "Kp.C90_binning_violated",
    "Kp.C90_oxford_scan",
    "Kp.C90_oxford_pcs",
    "Kp.C90_oxford_fits_partial",
    "Kp.C90_oxford_line_violated",
    "Kp.C90_oxford_dataset",
    "Kp.C90_oxford_missing_pc_violated",
    "Kp.C90_oxford_default_pc",
    "Kp.C90_oxford_incomplete_violated",
    "Kp.C90_edax_grid",
    "Kp.C90_edax_scan",
    "Kp.C90_edax_incomplete_partial",
    "Kp.C90_edax_incomplete_line_violated"
   ],
   "note": "Proved for complete 2D maps and single patterns. False for Oxford line scans (detector shape), missing PC datasets, incomplete Oxford maps, padded line scans, and binning of cameras with 2048 rows or more."
  },
  {
   "property": "C91",
   "status": "partial",
   "theorems": [
    "Kp.C91_loaded_class",
    "Kp.C91_numbers_understood",
    "Kp.C91_names_understood",
    "Kp.C91_attributes_present",
    "Kp.C91_attributes_kept",
    "Kp.C91_operations_succeed",
    "Kp.C91_master_types",
    "Kp.C91_attributes_removed_partial",
    "Kp.C91_same_type_violated",
    "Kp.C91_unknown_master_violated"
   ],
   "note": "Proved except for setting an EBSD signal to its own type, which resets its attributes, and unknown types with \"master\" in them, which raise after a master pattern has lost its attributes (given what HyperSpy does when it assigns a class)."
  },
  {
   "property": "C92",
   "status": "partial",
   "theorems": [
    "Kp.C92_position",
    "Kp.C92_position_unique",
    "Kp.C92_position_errors",
    "Kp.C92_all_positions_partial",
    "Kp.C92_all_positions_violated"
   ],
   "note": "Acceptance, errors, value and shape at one position proved for all arguments. Agreement with the all-positions result is false for coordinate arrays whose shape starts with the map shape (C92_all_positions_violated), proved otherwise."
  },
  {
   "property": "C93",
   "status": "partial",
   "theorems": [
    "Kp.C93_slider_range",
    "Kp.C93_figures_show_widgets",
    "Kp.C93_slider_moves_detector",
    "Kp.C93_created",
    "Kp.C93_copy_is_independent",
    "Kp.C93_overlays",
    "Kp.C93_overlays_shown_partial",
    "Kp.C93_new_figure",
    "Kp.C93_outside_change_violated",
    "Kp.C93_two_figures_violated",
    "Kp.C93_late_overlay_violated",
    "Kp.C93_pcz_zero_violated",
    "Kp.C93_kwargs",
    "Kp.C93_kwargs_violated"
   ],
   "note": "Proved for all histories: figures show their own widgets, slider moves reach the detector, independence of a copy, overlay rules, slider limits. False: C93_outside_change_violated, C93_two_figures_violated, C93_late_overlay_violated, C93_pcz_zero_violated, C93_kwargs_violated; C93_overlays_shown_partial needs overlays to be set before the first show."
  },
  {
   "property": "C94",
   "status": "partial",
   "theorems": [
    "Kp.C94_screen_point_unique",
    "Kp.C94_top_view_partial",
    "Kp.C94_top_view_pc",
    "Kp.C94_side_view_partial",
    "Kp.C94_side_azimuthal_violated",
    "Kp.C94_top_twist_violated",
    "Kp.C94_side_sample",
    "Kp.C94_top_sample",
    "Kp.C94_sample_in_view",
    "Kp.C94_top_order",
    "Kp.C94_side_view_drawn",
    "Kp.C94_top_view_drawn",
    "Kp.C94_map_of_pcs_violated",
    "Kp.C94_first_pc_violated",
    "Kp.C94_limits_partial",
    "Kp.C94_limits_violated",
    "Kp.C94_plane_pattern",
    "Kp.C94_plane_pc_partial",
    "Kp.C94_plane_average_violated",
    "Kp.C94_plane_pixel_pc_violated",
    "Kp.C94_zoom_partial",
    "Kp.C94_zoom_violated",
    "Kp.C94_gnomonic_circles"
   ],
   "note": "The drawn sample, projection centre and screen corners agree with the sample-to-detector matrix for one projection centre without twist (top) and azimuthal angle (side); gnomonic circles are exact. False with azimuthal angle (side) or twist (top), with several projection centres (first distance, ValueError for most maps of them), for distant screens (axis limits), for the projection centre in pixel coordinates (off by pcx pixels against the coordinate conversion), and zooming out with the projection centre beside the detector."
  },
  {
   "property": "C95",
   "status": "partial",
   "theorems": [
    "Kp.C95_one_axis",
    "Kp.C95_two_axes",
    "Kp.C95_three_axes_violated",
    "Kp.C95_circular_partial",
    "Kp.C95_default_shape",
    "Kp.C95_shape_errors",
    "Kp.C95_custom_partial",
    "Kp.C95_custom_shape_violated",
    "Kp.C95_caller_array_partial",
    "Kp.C95_caller_array_violated",
    "Kp.C95_keyword_names_ignored",
    "Kp.C95_keyword_order_violated",
    "Kp.C95_cutoff_needed",
    "Kp.C95_transfer_functions",
    "Kp.C95_length",
    "Kp.C95_valid",
    "Kp.C95_compatible_partial",
    "Kp.C95_compatible_violated"
   ],
   "note": "Shapes and values of one and two axes, circular windows (but a single row, C16), defaults and errors proved. False: three axes are silently reduced to one, keyword names are ignored (order counts), the shape is checked for custom arrays, the caller's NumPy array is changed by make_circular, shape_compatible raises for windows with fewer (but more than one) axes than the data."
  },
  {
   "property": "C96",
   "status": "partial",
   "theorems": [
    "Kp.C96_program_checked",
    "Kp.C96_program_checked_violated",
    "Kp.C96_read_default",
    "Kp.C96_scan_size_rows_columns",
    "Kp.C96_scan_size_integer",
    "Kp.C96_scan_size_at_most_two",
    "Kp.C96_width_height_violated",
    "Kp.C96_map_shape_partial",
    "Kp.C96_map_shape_violated",
    "Kp.C96_detector_partial",
    "Kp.C96_binning_violated",
    "Kp.C96_binned_scan_size_violated",
    "Kp.C96_phase_partial",
    "Kp.C96_phase_unit_violated",
    "Kp.C96_phase_name",
    "Kp.C96_title_partial",
    "Kp.C96_title_violated"
   ],
   "note": "Well-formed files without binning are read completely for every content and scan size; documented width/height order, map shape for two-dimensional scans, binning, units and titles with dots are violated."
  },
  {
   "property": "C97",
   "status": "partial",
   "theorems": [
    "Kp.C97_small_window",
    "Kp.C97_filter_domain",
    "Kp.C97_background_is_weighted_mean",
    "Kp.C97_truncate_violated",
    "Kp.C97_default_window",
    "Kp.C97_mirror_partial",
    "Kp.C97_mirror_violated",
    "Kp.C97_data_type_kept",
    "Kp.C97_constant_pattern",
    "Kp.C97_remove_from_signal",
    "Kp.C97_pattern_function_partial",
    "Kp.C97_integer_pattern_violated",
    "Kp.C97_integer_wraps_violated",
    "Kp.C97_caller_array_violated",
    "Kp.C97_dtype_out",
    "Kp.C97_chunks",
    "Kp.C97_split_pattern_violated",
    "Kp.C97_default_std_violated",
    "Kp.C97_dtype_out_violated"
   ],
   "note": "Proved for the frequency domain: weighted mean, signal result, chunks. The stated truncation, centring, integer input, unchanged argument, default of the signal method and dtype_out are false of the code (_violated)."
  },
  {
   "property": "C98",
   "status": "partial",
   "theorems": [
    "Kp.C98_markers",
    "Kp.C98_area_image",
    "Kp.C98_inside",
    "Kp.C98_pixel_violated",
    "Kp.C98_origin_violated",
    "Kp.C98_existing_axis_partial",
    "Kp.C98_existing_axis_violated",
    "Kp.C98_origin_type_violated",
    "Kp.C98_grid",
    "Kp.C98_plot_pc",
    "Kp.C98_pc_maps",
    "Kp.C98_pc_scatter",
    "Kp.C98_pc_3d",
    "Kp.C98_orientation_partial",
    "Kp.C98_orientation_violated",
    "Kp.C98_figure_settings"
   ],
   "note": "Proved: markers relative to the region, images, limits, grid positions, contents of PC figures. False of the code: marker in the middle of its pixel, documented subtraction of the origin, adding to the axis of an area, types of origin, unchanged figure_kwargs (_violated)."
  },
  {
   "property": "C99",
   "status": "partial",
   "theorems": [
    "Kp.C99_equalized_partial",
    "Kp.C99_default_region_violated",
    "Kp.C99_small_patterns_violated",
    "Kp.C99_refused",
    "Kp.C99_warning"
   ],
   "note": "Proved for given regions and for square patterns of at least four rows; the default region of other patterns is swapped or an error (_violated)."
  },
  {
   "property": "C100",
   "status": "partial",
   "theorems": [
    "Kp.C100_colours_partial",
    "Kp.C100_one_map",
    "Kp.C100_refused",
    "Kp.C100_colours_violated",
    "Kp.C100_grey_violated"
   ],
   "note": "Colours kept if the image has both 0 and 1; other images are stretched or become black (_violated)."
  },
  {
   "property": "C101",
   "status": "partial",
   "theorems": [
    "Kp.C101_complete",
    "Kp.C101_never_half",
    "Kp.C101_other_scans",
    "Kp.C101_default_partial",
    "Kp.C101_overwrite_violated",
    "Kp.C101_retry_violated",
    "Kp.C101_sem_violated",
    "Kp.C101_open_elsewhere",
    "Kp.C101_default_violated"
   ],
   "note": "By name, an interrupted scan is an error or has all patterns, map and header; other scans stay loadable by name (proved). False: overwriting destroys the old content first, an interrupted scan can hide others when loading without a name, it blocks its number, and microscope parameters may be missing without an error."
  },
  {
   "property": "C102",
   "status": "partial",
   "theorems": [
    "Kp.C102_shape_partial",
    "Kp.C102_shape_violated",
    "Kp.C102_binning_violated",
    "Kp.C102_numbers",
    "Kp.C102_history",
    "Kp.C102_listeners_partial",
    "Kp.C102_told",
    "Kp.C102_coordinates",
    "Kp.C102_navigation_shape_partial",
    "Kp.C102_refused",
    "Kp.C102_navigation_shape_violated",
    "Kp.C102_pc_violated",
    "Kp.C102_in_place_violated"
   ],
   "note": "Frame, failed assignments, coordinates, navigation shape and listeners are proved for all histories of assignments. False: invalid shapes, binnings and projection centers are accepted, an empty navigation shape becomes (1,), and changes within the returned array are not told."
  },
  {
   "property": "C103",
   "status": "partial",
   "theorems": [
    "Kp.C103_same_as_affine_partial",
    "Kp.C103_few_partial",
    "Kp.C103_map_plane_partial",
    "Kp.C103_trim_violated"
   ],
   "note": "Proved: the default fit equals the affine fit (and is exact) whenever the trimmed mean lies on the plane, in particular for PCs on the sample plane of any number, and for any plane with fewer than ten PCs. False in general: C103_trim_violated gives ten PCs on a plane inclined to all detector axes which the default fit never returns, whatever the SVD and the estimation give."
  },
  {
   "property": "C104",
   "status": "partial",
   "theorems": [
    "Kp.C104_division_partial",
    "Kp.C104_own_range_partial",
    "Kp.C104_order",
    "Kp.C104_one_level_partial",
    "Kp.C104_reciprocal_violated",
    "Kp.C104_signed_partial",
    "Kp.C104_signed_violated"
   ],
   "note": "Proved for any rounding: order of pixels and lower limit in every evaluation order, exact upper limit and range if the quotient is computed by division, at most one level missing for unsigned integers otherwise (any accurate rounding, binary64 proved accurate). False: C104_reciprocal_violated (a reciprocal, allowed by fastmath, makes 254 the brightest of a uint8 pattern from 0 to 49) and C104_signed_violated (int16 pattern from -20000 to 20000 wraps around to -2.28 in the range from -1 to 1); C104_signed_partial covers signed patterns spanning less than half of their range."
  },
  {
   "property": "C105",
   "status": "proved",
   "theorems": [
    "Kp.C105_half_pixel",
    "Kp.C105_weights",
    "Kp.C105_in_array",
    "Kp.C105_rotation_error",
    "Kp.C105_rotated_any",
    "Kp.C105_rotated_in_array",
    "Kp.C105_length_needed"
   ],
   "note": "Rotation, projection and indices for all near-unit rotations and directions. C105_length_needed shows that the hypothesis on the length cannot be dropped when the compiler multiplies with the reciprocal."
  },
  {
   "property": "C106",
   "status": "partial",
   "theorems": [
    "Kp.C106_ndp_error",
    "Kp.C106_ncc_error",
    "Kp.C106_ndp_bounds_partial",
    "Kp.C106_ndp_order_partial",
    "Kp.C106_ndp_nonneg",
    "Kp.C106_integer_sum",
    "Kp.C106_best_match",
    "Kp.C106_ncc_best_match",
    "Kp.C106_exact_violated"
   ],
   "note": "Error bounds, signs, exact integer sums and the best match are proved for every order of summation. Not true: a score never exceeds one, and is the same in every order (C106_exact_violated: (1, 2, 2) with itself in float32)."
  },
  {
   "property": "C107",
   "status": "partial",
   "theorems": [
    "Kp.C107_prefix",
    "Kp.C107_loads",
    "Kp.C107_lazy_detects",
    "Kp.C107_lazy_other_file_partial",
    "Kp.C107_own_file_violated",
    "Kp.C107_old_patterns_violated"
   ],
   "note": "Proved for signals in memory and lazy signals saved to another file. Not true: saving a lazy signal to its own file fails and leaves it empty (C107_own_file_violated), and an interrupted overwrite loses the old patterns (C107_old_patterns_violated)."
  },
  {
   "property": "C108",
   "status": "partial",
   "theorems": [
    "Kp.C108_alone",
    "Kp.C108_exclusive",
    "Kp.C108_add_partial",
    "Kp.C108_new_file_violated",
    "Kp.C108_overwrite_false_violated"
   ],
   "note": "Proved for adding scans to an existing file, for any number of processes and any schedule, with mutual exclusion and agreement of a lone process with the sequential model. False when the file does not exist at the first look: a scan reported as saved is lost, and overwrite=False replaces a file made meanwhile."
  },
  {
   "property": "C109",
   "status": "partial",
   "theorems": [
    "Kp.C109_blocks_exact",
    "Kp.C109_unsigned_exact",
    "Kp.C109_downsample",
    "Kp.C109_blocks_error",
    "Kp.C109_brightness_violated",
    "Kp.C109_average_rounded_once",
    "Kp.C109_average_identical",
    "Kp.C109_average_order",
    "Kp.C109_average_error"
   ],
   "note": "(a)-(d) are proved for any order of summation and evaluation. (b) is false without the bound of 2^24: C109_brightness_violated has a pattern of 32-bit integers whose brighter block becomes black and the darker one white."
  },
  {
   "property": "C110",
   "status": "partial",
   "theorems": [
    "Kp.C110_score_error",
    "Kp.C110_objective_error_partial",
    "Kp.C110_reported_exact",
    "Kp.C110_comparison_partial",
    "Kp.C110_lowest_value_partial",
    "Kp.C110_order_partial",
    "Kp.C110_identical",
    "Kp.C110_exact_violated"
   ],
   "note": "Error bound, comparison of patterns, lowest value, identical patterns and reported scores proved for all orders of the sums. A score may exceed one, the value minimized may be negative, and the score depends on the contrast of the simulated pattern (C110_exact_violated), by at most the error."
  },
  {
   "property": "C111",
   "status": "partial",
   "theorems": [
    "Kp.C111_remove_background_partial",
    "Kp.C111_dynamic_partial",
    "Kp.C111_static_partial",
    "Kp.C111_subtract_integers",
    "Kp.C111_divide_eight_bits",
    "Kp.C111_zero_background_violated",
    "Kp.C111_divide_violated",
    "Kp.C111_convert_violated",
    "Kp.C111_range_violated"
   ],
   "note": "Order and range are proved for every background and evaluation when there is a result; that there is one, for subtraction of integers of at most 16 bits and division of 8-bit integers by non-zero backgrounds. The full statement is false: zero background, 16-bit division, 32-bit integers (C111_*_violated)."
  },
  {
   "property": "C112",
   "status": "partial",
   "theorems": [
    "Kp.C112_ncc_missing",
    "Kp.C112_ndp_missing",
    "Kp.C112_best_matches_partial",
    "Kp.C112_all_with_contrast_partial",
    "Kp.C112_one_iteration_violated",
    "Kp.C112_dictionary_violated",
    "Kp.C112_iterations_violated",
    "Kp.C112_experimental_violated",
    "Kp.C112_merge_partial",
    "Kp.C112_merge_violated",
    "Kp.C112_index_and_merge_violated"
   ],
   "note": "Scores are missing exactly for patterns without contrast (blank ones for the dot product). With at most b such dictionary patterns in each chunk of several iterations, the first keep_n - b matches are the best of all with a score; with none, all matches are. False in general: one iteration returns the dictionary patterns without contrast first; with keep_n = 1 several iterations lose every chunk with one of them; a flat experimental pattern gets NaN with one iteration but score -1 of dictionary pattern 0 with several; merging raises as soon as one point has no score in any map. All negations proved."
  },
  {
   "property": "C113",
   "status": "partial",
   "theorems": [
    "Kp.C113_average_map_partial",
    "Kp.C113_matrices_partial",
    "Kp.C113_bounds",
    "Kp.C113_brightness_partial",
    "Kp.C113_from_matrices_partial",
    "Kp.C113_dtype_violated"
   ],
   "note": "Proved for windows with odd axes (or one chunk), exact arithmetic on patterns rounded to the floating point type: values, bounds, invariance to brightness and contrast, and agreement of averaged matrices with the direct map when pixels are float32 numbers. False for dtype_out of the matrices: it is not passed to the function that converts the patterns, which uses float32; a map where the average of float64 matrices is NaN and the direct float64 map is 1 is given."
  },
  {
   "property": "C114",
   "status": "partial",
   "theorems": [
    "Kp.C114_lines_partial",
    "Kp.C114_zone_axes_partial",
    "Kp.C114_band_through_pc_violated",
    "Kp.C114_agreement_violated"
   ],
   "note": "Lines and zone axes of the two implementations are equal for every detector, PC, unit cell and orientation in which no band passes exactly through the PC; for those bands the claim is false, C114_agreement_violated. Indices are reduced by any function keeping directions."
  },
  {
   "property": "C115",
   "status": "proved",
   "theorems": [
    "Kp.C115_import",
    "Kp.C115_export",
    "Kp.C115_given_pc_is_returned",
    "Kp.C115_passed_on",
    "Kp.C115_no_drift",
    "Kp.C115_bruker_exact",
    "Kp.C115_tsl_exact",
    "Kp.C115_exact_violated"
   ],
   "note": "Import, export, read-back and any chain of conversions in binary64 move the physical point by at most the stated fraction; exact for Bruker, and for TSL in the upper half of detectors with no more rows than columns. C115_exact_violated shows that exactness fails otherwise."
  },
  {
   "property": "C116",
   "status": "partial",
   "theorems": [
    "Kp.C116_pixels",
    "Kp.C116_direction_unique",
    "Kp.C116_zone_axes_partial",
    "Kp.C116_bands_partial",
    "Kp.C116_no_other_bands",
    "Kp.C116_exact_violated",
    "Kp.C116_lower_right_violated",
    "Kp.C116_band_through_pc_violated"
   ],
   "note": "Pixels, zone axes, bands and converse proved for every rotation, unit cell, detector and pixel, for PCs outside the lower right quadrant and bands not exactly through the PC in all patterns; for those the claim is false (C116_lower_right_violated, C116_band_through_pc_violated), and positions are off by less than half a pixel (C116_exact_violated)."
  },
  {
   "property": "C117",
   "status": "partial",
   "theorems": [
    "Kp.C117_crop_partial",
    "Kp.C117_single_pc_violated",
    "Kp.C117_crop_not_rescaled_partial",
    "Kp.C117_twist_violated"
   ],
   "note": "False for detectors with a single PC and several rotations and for detectors with a twist (proved); proved for one PC per rotation without twist."
  },
  {
   "property": "C118",
   "status": "partial",
   "theorems": [
    "Kp.C118_ncc_partial",
    "Kp.C118_ndp_partial",
    "Kp.C118_rotation_partial",
    "Kp.C118_simulated_partial",
    "Kp.C118_flat_pattern_violated"
   ],
   "note": "Proved for dictionaries of patterns with contrast (NCC) or intensity (NDP), exact arithmetic; false if a dictionary pattern has no contrast (proved)."
  },
  {
   "property": "C119",
   "status": "proved",
   "theorems": [
    "Kp.C119_rescale",
    "Kp.C119_rescale_relative",
    "Kp.C119_static_scaled",
    "Kp.C119_static",
    "Kp.C119_normalize",
    "Kp.C119_dynamic",
    "Kp.C119_indexing",
    "Kp.C119_rescale_then_index",
    "Kp.C119_normalize_then_index",
    "Kp.C119_unscaled_gain_matters",
    "Kp.C119_divided_offset_matters",
    "Kp.C119_integers_matter"
   ],
   "note": "Exact arithmetic. For patterns with contrast. Shown not to hold beyond what is stated: rescaling to integers (rounding), gain with an unscaled subtracted background, offset with division."
  },
  {
   "property": "C120",
   "status": "partial",
   "theorems": [
    "Kp.C120_crop_is_mask",
    "Kp.C120_simulated_partial",
    "Kp.C120_ncc",
    "Kp.C120_simulated_ncc_partial"
   ],
   "note": "Proved for any metric on patterns (C120_crop_is_mask), for the NCC with rescaling (C120_ncc), and for simulated dictionaries with one PC per rotation (C120_simulated_partial, C120_simulated_ncc_partial). False for simulated dictionaries with a twist or a single PC, since EBSDDetector.crop loses the twist and changes the navigation shape (C117_twist_violated, C117_single_pc_violated)."
  },
  {
   "property": "C121",
   "status": "partial",
   "theorems": [
    "Kp.C121_match_partial",
    "Kp.C121_phase_partial"
   ],
   "note": "NCC; not for one-point maps with several matches (C25), uncovered points (C26), dictionaries with patterns without contrast (C112); the phase for different phases each found somewhere"
  },
  {
   "property": "C122",
   "status": "partial",
   "theorems": [
    "Kp.C122_same_box_partial",
    "Kp.C122_box_sizes_refused",
    "Kp.C122_positions_partial",
    "Kp.C122_different_points_violated"
   ],
   "note": "data: only if all maps have the same bounding box of points in the data, otherwise refused or scores of different points compared; positions: only for equal step sizes and a box from the first row and column (iff)"
  },
  {
   "property": "C123",
   "status": "partial",
   "theorems": [
    "Kp.C123_best_score",
    "Kp.C123_orientation_partial",
    "Kp.C123_pc_partial",
    "Kp.C123_orientation_pc_partial",
    "Kp.C123_hemispheres_violated",
    "Kp.C123_after_indexing_partial"
   ],
   "note": "Proved in exact arithmetic for optimizers which report the value at the point they return and do not return a worse point than the start, one PC per dictionary. False for master patterns which are not 32-bit floats and whose hemispheres have different intensity ranges (C123_hemispheres_violated: score -1 at the true orientation)."
  },
  {
   "property": "C124",
   "status": "partial",
   "theorems": [
    "Kp.C124_rescale",
    "Kp.C124_static_background",
    "Kp.C124_equalization",
    "Kp.C124_downsample",
    "Kp.C124_normalize",
    "Kp.C124_dynamic_background",
    "Kp.C124_get_dynamic_background",
    "Kp.C124_fft_filter",
    "Kp.C124_relative_partial",
    "Kp.C124_relative_violated",
    "Kp.C124_average_partial",
    "Kp.C124_average_violated",
    "Kp.C124_dot_products_partial",
    "Kp.C124_dot_violated"
   ],
   "note": "Pattern by pattern for all listed operations, for all selections and arguments. Averages and dot products: proved for the points whose window does not reach across the border of the part, negations proved at the border; relative rescaling: proved up to a gain and an offset, negation proved."
  },
  {
   "property": "C125",
   "status": "proved",
   "theorems": [
    "Kp.C125_full_range",
    "Kp.C125_frequency",
    "Kp.C125_spatial",
    "Kp.C125_refused",
    "Kp.C125_gain_offset_frequency",
    "Kp.C125_gain_offset_spatial",
    "Kp.C125_transfer_gain",
    "Kp.C125_zero_frequency",
    "Kp.C125_all_pass"
   ],
   "note": "Exact numbers; transfer functions of the pattern shape; constant results (zero divided by zero) are outside the model."
  },
  {
   "property": "C126",
   "status": "partial",
   "theorems": [
    "Kp.C126_dictionary",
    "Kp.C126_dictionary_all_masked",
    "Kp.C126_refine",
    "Kp.C126_hough",
    "Kp.C126_indexer",
    "Kp.C126_inav_pc",
    "Kp.C126_sliced_map_raises",
    "Kp.C126_sliced_map_violated"
   ],
   "note": "Proved for dictionary indexing with a new metric (valid arguments; if the mask leaves nothing in the part, ValueError, also proved), for Hough indexing, and for refinement with a crystal map of the points of the part alone. Missing, and false: refinement of a part with the crystal map obtained by slicing (s.inav[...].xmap or xmap[...]), which raises an error (C126_sliced_map_raises, C126_sliced_map_violated). That inav takes the projection centers of the part is proved too."
  },
  {
   "property": "C127",
   "status": "partial",
   "theorems": [
    "Kp.C127_roi_partial",
    "Kp.C127_scaled_partial",
    "Kp.C127_patterns",
    "Kp.C127_detector_shape_violated",
    "Kp.C127_width_violated",
    "Kp.C127_overview_violated"
   ],
   "note": "C127_patterns covers every setting file in the documented layout, every set of image files and all refusals. The region of interest and the scaled positions are proved for rows with decimals and a non-zero width. False in general: the detector has the shape in the setting file, not of the images (C127_detector_shape_violated); a width without decimals or of zero pixels gives no or invalid positions (C127_width_violated); an overview resolution which is not two numbers makes loading fail with a KeyError (C127_overview_violated)."
  },
  {
   "property": "C128",
   "status": "partial",
   "theorems": [
    "Kp.C128_in_place",
    "Kp.C128_in_place_stopped",
    "Kp.C128_average_partial",
    "Kp.C128_average_violated",
    "Kp.C128_lazy_copies",
    "Kp.C128_lazy_partial",
    "Kp.C128_lazy_violated",
    "Kp.C128_repeat_violated"
   ],
   "note": "C128_in_place and C128_in_place_stopped cover every pattern-wise function, chunking, schedule and stopping point; C128_lazy_copies every history if Dask copies arrays in memory. Averaging in place is proved if Dask copies or there is one chunk, and lazy histories without copying if no signal is processed in place while a lazy signal of its array exists. False in general: without copying, averaging in place in several chunks depends on the schedule (C128_average_violated), and a lazy signal changes when the signal it comes from is processed in place (C128_lazy_violated); repeating an interrupted call processes patterns twice (C128_repeat_violated). Whether Dask copies depends on its version and is a parameter."
  },
  {
   "property": "C129",
   "status": "partial",
   "theorems": [
    "Kp.C129_save_load",
    "Kp.C129_again",
    "Kp.C129_projection_centers",
    "Kp.C129_single_row_violated",
    "Kp.C129_other_keys_violated",
    "Kp.C129_none_violated"
   ],
   "note": "C129_save_load, C129_projection_centers and C129_again cover every map with patterns of at least 2 x 2 pixels, every number of PCs and numbers or ASCII text about the microscope; C129_again assumes that orix stores crystal maps exactly and that shapes of crystal maps have no axes with one point. False in general: the crystal map of a map with one row is replaced by an empty one after two cycles, whatever orix does (C129_single_row_violated); microscope metadata other than four values is lost (C129_other_keys_violated), as are all values after one which is None (C129_none_violated); a missing background is loaded as -1 and PCs which do not fit the map are padded with 0.5 (stated in the theorems)."
  },
  {
   "property": "C130",
   "status": "partial",
   "theorems": [
    "Kp.C130_outliers",
    "Kp.C130_estimate",
    "Kp.C130_no_outliers",
    "Kp.C130_fit_partial",
    "Kp.C130_return_violated"
   ],
   "note": "C130_outliers and C130_estimate cover every sequence of draws and scores; no outlier may be within the median absolute deviation of the plane, and no line drawn may be near as many projection centers as the plane. C130_fit_partial: fit_pc with the mask, for detectors which are not tilted (false otherwise, C76_detector_tilt_violated). False in general: estimate_xtilt(detect_outliers=True) also returns the outliers when return_outliers is False, so the result is a tuple, not a number (C130_return_violated). scikit-learn RANSAC is modelled from knowledge of its source."
  },
  {
   "property": "C131",
   "status": "partial",
   "theorems": [
    "Kp.C131_lazy_kept",
    "Kp.C131_no_overwrite",
    "Kp.C131_closed_partial",
    "Kp.C131_usable",
    "Kp.C131_add",
    "Kp.C131_load_violated",
    "Kp.C131_save_violated"
   ],
   "note": "C131_lazy_kept, C131_no_overwrite, C131_usable and C131_add cover every history in one process, with HDF5 modelled from knowledge of its source (shared mode of handles, no truncation of open files). C131_closed_partial: files are closed by calls which succeed. False in general: neither reader nor writer closes the file when an error is raised, so after asking for a missing scan (C131_load_violated) or a refused addition (C131_save_violated) the file can not be overwritten as long as the exception is referred to."
  },
  {
   "property": "C132",
   "status": "partial",
   "theorems": [
    "Kp.C132_assign",
    "Kp.C132_history_partial",
    "Kp.C132_checked",
    "Kp.C132_background_violated",
    "Kp.C132_remove_violated",
    "Kp.C132_one_pc_violated",
    "Kp.C132_accepted_partial",
    "Kp.C132_grid_violated"
   ],
   "note": "Proved for all histories of operations which are regular: backgrounds of the right shape, slices without steps which select something (of patterns: not negative or open-ended from the middle), cropping with indices, any downsampling and rebinning, grids without crystal map. Not true in general: C132_background_violated, C132_remove_violated, C132_one_pc_violated, C132_grid_violated."
  },
  {
   "property": "C133",
   "status": "partial",
   "theorems": [
    "Kp.C133_not_worse_partial",
    "Kp.C133_match_partial",
    "Kp.C133_phase_partial",
    "Kp.C133_not_indexed_violated"
   ],
   "note": "Proved for master patterns whose hemispheres have the same range of intensities or are 32-bit floats (see C77), and optimizers which do not return a worse point than their start. False: points which are not indexed in a map have score 0 after refinement, so that where the refined scores of the other maps are negative the merged map has the phase of the map which is not indexed there, with the identity as rotation (C133_not_indexed_violated). The phase needs every phase to be best somewhere (see C25)."
  },
  {
   "property": "C134",
   "status": "partial",
   "theorems": [
    "Kp.C134_starts",
    "Kp.C134_symmetric",
    "Kp.C134_found_partial",
    "Kp.C134_index"
   ],
   "note": "Starting points, symmetric operators and the index of the best starting point are proved for all crystal maps and operators; finding the explaining orientation is proved for 32-bit float master patterns or hemispheres with the same range (otherwise false, see C123_hemispheres_violated). Euler angles from orix are a parameter with the hypothesis that they describe the rotation (exactEuler_faithful shows it can be met)."
  },
  {
   "property": "C135",
   "status": "proved",
   "theorems": [
    "Kp.C135_rotation_exists",
    "Kp.C135_tilted_together",
    "Kp.C135_same_patterns",
    "Kp.C135_same_scores",
    "Kp.C135_angles_not_seen",
    "Kp.C135_same_indexing",
    "Kp.C135_same_lines"
   ],
   "note": "Detectors that differ only in sample tilt, tilt, azimuthal and twist: one unit rotation turns every orientation into the equivalent one (C135_rotation_exists); equal tilt difference needs none (C135_tilted_together); same patterns (C135_same_patterns), same scores in refinement (C135_same_scores, C135_angles_not_seen), same indices and scores from dictionary indexing (C135_same_indexing), same lines (C135_same_lines). Real-number arithmetic."
  },
  {
   "property": "C136",
   "status": "proved",
   "theorems": [
    "Kp.C136_amplitudes_only",
    "Kp.C136_normalized",
    "Kp.C136_moved",
    "Kp.C136_mirrored",
    "Kp.C136_transposed",
    "Kp.C136_single_pixel",
    "Kp.C136_wave",
    "Kp.C136_coarser_is_better",
    "Kp.C136_finest_is_worst",
    "Kp.C136_can_be_negative"
   ],
   "note": "Exact real and complex numbers. The penalty in the specification is the mean of the weights the code gives a wave and its opposite, which differ (k squared and (k + 1) squared); no image of real intensities can tell."
  },
  {
   "property": "C137",
   "status": "partial",
   "theorems": [
    "Kp.C137_intensity",
    "Kp.C137_rotations",
    "Kp.C137_turned",
    "Kp.C137_symmetric_partial",
    "Kp.C137_same_scores_partial",
    "Kp.C137_weighted_mean",
    "Kp.C137_three_fold_violated",
    "Kp.C137_only_rotations"
   ],
   "note": "Equivariance of intensities and of get_patterns under all sixteen operations of the grid, symmetric master patterns give the same patterns and scores for equivalent orientations (_partial: only these operations). False for three-fold axes: C137_three_fold_violated."
  },
  {
   "property": "C138",
   "status": "partial",
   "theorems": [
    "Kp.C138_intensity_iff",
    "Kp.C138_patterns_partial",
    "Kp.C138_scores_partial",
    "Kp.C138_euler",
    "Kp.C138_objective_partial",
    "Kp.C138_objective_fixed_partial",
    "Kp.C138_rescaled_violated"
   ],
   "note": "Proved over the reals for all sizes: the intensity is continuous in the direction iff the hemispheres have the same border (C138_intensity_iff); patterns, scores and the minimized functions are continuous in orientation and projection center given equal borders and a simulated pattern which is not constant where it is normalized. False in general: refinement rescales the hemispheres of master patterns which are not float32 one by one, so that hemispheres which meet no longer meet and the score jumps from -1 to 1 for arbitrarily small rotations (C138_rescaled_violated). Rounding in float32 is not part of the statement."
  },
  {
   "property": "C139",
   "status": "proved",
   "theorems": [
    "Kp.C139_moved",
    "Kp.C139_downsampled",
    "Kp.C139_downsampled_odd",
    "Kp.C139_units"
   ],
   "note": "Moved projection centers (C139_moved), downsampling by any factor (C139_downsampled: direction of the middle of the block) and by odd factors (C139_downsampled_odd: the middle pixel), pixel size and binning (C139_units). Exact arithmetic; intensities before whole patterns are rescaled to another data type."
  },
  {
   "property": "C140",
   "status": "partial",
   "theorems": [
    "Kp.C140_keep_n_partial",
    "Kp.C140_order_partial",
    "Kp.C140_extended_partial",
    "Kp.C140_split_partial",
    "Kp.C140_matches_partial",
    "Kp.C140_order_violated"
   ],
   "note": "Proved for larger-is-better metrics with scores of at least -1 (all scores of the built-in metrics): scores for smaller keep_n, reordered, extended and split dictionaries; and the matched patterns if no two scores are equal and all are above -1. False: the matched patterns when a dictionary pattern has a score of exactly -1 (C140_order_violated), and scores below -1 (C21_scores_below_minus_one_are_lost)."
  },
  {
   "property": "C141",
   "status": "partial",
   "theorems": [
    "Kp.C141_formats",
    "Kp.C141_one_pattern",
    "Kp.C141_collections",
    "Kp.C141_labels",
    "Kp.C141_circle_size",
    "Kp.C141_line_formats",
    "Kp.C141_plot_partial",
    "Kp.C141_row",
    "Kp.C141_row_violated"
   ],
   "note": "Proved for every simulation, index naming a pattern, format and flags: which collections are returned, their coordinates, labels and sizes, and that plot shows them. Violated: plot with labels is an IndexError for a pattern without zone axes (C141_plot_partial is exact about when, C88_plot_violated is a witness), and a single number as index into a 2D map returns the lines of the whole row as if they were of one pattern (C141_row, C141_row_violated)."
  },
  {
   "property": "C142",
   "status": "proved",
   "theorems": [
    "Kp.C142_steps",
    "Kp.C142_before_rescaling",
    "Kp.C142_before_normalizing",
    "Kp.C142_before_static_background",
    "Kp.C142_before_indexing",
    "Kp.C142_before_dynamic_background",
    "Kp.C142_before_filtering",
    "Kp.C142_before_downsampling",
    "Kp.C142_downsampling_twice",
    "Kp.C142_filters_compose",
    "Kp.C142_filters_commute",
    "Kp.C142_integers_matter",
    "Kp.C142_relative_matters"
   ],
   "note": "All sequences of calls with floating point output and all signals without constant patterns, seven following operations, all pairs of transfer functions of which one is centrally symmetric, all pairs of downsampling factors. C142_integers_matter and C142_relative_matters show that the restriction to floating point output and to rescaling of each pattern by itself is needed."
  },
  {
   "property": "C143",
   "status": "proved",
   "theorems": [
    "Kp.C143_returned",
    "Kp.C143_plane",
    "Kp.C143_distances",
    "Kp.C143_same_size",
    "Kp.C143_estimate",
    "Kp.C143_average",
    "Kp.C143_again",
    "Kp.C143_odd_matters",
    "Kp.C143_integer_binning_matters",
    "Kp.C143_outliers",
    "Kp.C143_moved"
   ],
   "note": "The returned detector, distances, angle, average, equal sizes and repeated extrapolation; odd numbers of rows and columns and an integer binning are needed (C143_odd_matters, C143_integer_binning_matters)"
  },
  {
   "property": "C144",
   "status": "proved",
   "theorems": [
    "Kp.C144_average_transposed",
    "Kp.C144_average_upside_down",
    "Kp.C144_average_left_right",
    "Kp.C144_dots_transposed",
    "Kp.C144_dots_upside_down",
    "Kp.C144_dots_left_right",
    "Kp.C144_dots_mutual",
    "Kp.C144_circular",
    "Kp.C144_scipy_windows",
    "Kp.C144_similarity_upside_down",
    "Kp.C144_similarity_transposed",
    "Kp.C144_similarity_left_right",
    "Kp.C144_odd_matters"
   ],
   "note": "Reversed rows, reversed columns and exchanged axes for averages, dot product matrices, their averages and orientation similarities, with any chunks; odd windows are needed (C144_odd_matters)"
  },
  {
   "property": "C145",
   "status": "proved",
   "theorems": [
    "Kp.C145_parameters",
    "Kp.C145_same_call",
    "Kp.C145_by_name",
    "Kp.C145_crop_everything",
    "Kp.C145_crop_axis",
    "Kp.C145_crop_signal",
    "Kp.C145_crop_map",
    "Kp.C145_everything_matters"
   ],
   "note": "For every accepted call, all four axes and all rectangles, with start and end given as indices (numbers in units of the axis: C50_not_crop_units). HyperSpy crop and crop_signal are modelled as documented."
  },
  {
   "property": "C146",
   "status": "partial",
   "theorems": [
    "Kp.C146_rescale",
    "Kp.C146_rescale_signal",
    "Kp.C146_static",
    "Kp.C146_normalize",
    "Kp.C146_normalize_signal",
    "Kp.C146_scores",
    "Kp.C146_indexing",
    "Kp.C146_downsample",
    "Kp.C146_filter_spatial",
    "Kp.C146_filter_frequency",
    "Kp.C146_transfer",
    "Kp.C146_dynamic_partial"
   ],
   "note": "Rescaling, static background removal, normalization: any permutation of pixels, whole signal (C146_rescale, _rescale_signal, _static, _normalize, _normalize_signal); scores and dictionary indexing (C146_scores, _indexing); downsampling (C146_downsample); fft_filter in both domains with the flipped window or transfer function (C146_filter_spatial, _filter_frequency, _transfer); dynamic background in the frequency domain for odd windows (C146_dynamic_partial). Missing: even windows along a reversed direction, where the claim is false of the code (C97_mirror_violated); floating point rounding of sums."
  },
  {
   "property": "C147",
   "status": "proved",
   "theorems": [
    "Kp.C147_alone",
    "Kp.C147_no_failure",
    "Kp.C147_unique",
    "Kp.C147_shared_unchanged",
    "Kp.C147_terminates",
    "Kp.C147_progress",
    "Kp.C147_finishes",
    "Kp.C147_settings",
    "Kp.C147_as_function"
   ],
   "note": "All interleavings, any number of blocks, patterns and operators: results and exceptions of each pattern alone (C147_alone, C147_no_failure, C147_unique), termination (C147_terminates, C147_progress, C147_finishes), unchanged shared optimizer, settings, and agreement with the functional model of C77 (C147_as_function)."
  },
  {
   "property": "C148",
   "status": "proved",
   "theorems": [
    "Kp.C148_twice",
    "Kp.C148_patterns",
    "Kp.C148_pixels",
    "Kp.C148_orientations",
    "Kp.C148_only_mirrors",
    "Kp.C148_euler",
    "Kp.C148_centre",
    "Kp.C148_scores",
    "Kp.C148_indexing"
   ],
   "note": "Over the real numbers, for the sixteen operations which keep the grid of a master pattern; C148_patterns is get_patterns as a whole, including errors."
  },
  {
   "property": "C149",
   "status": "proved",
   "theorems": [
    "Kp.C149_call",
    "Kp.C149_as_if_copied",
    "Kp.C149_no_changes",
    "Kp.C149_own_places",
    "Kp.C149_careless_violated"
   ],
   "note": "The proviso is necessary: C149_careless_violated. Contents of objects are opaque."
  },
  {
   "property": "C150",
   "status": "partial",
   "theorems": [
    "Kp.C150_order",
    "Kp.C150_phases",
    "Kp.C150_indexed",
    "Kp.C150_one_after_other",
    "Kp.C150_ties_violated",
    "Kp.C150_not_indexed_violated",
    "Kp.C150_one_after_other_phases_violated"
   ],
   "note": "Same size, combined scores and not indexed points for every order and with masks, same data (C150_order) and phase (C150_phases) where one map is better than all others; not indexed iff all maps say so (C150_indexed); merging one after the other gives the same data where one of the first maps is indexed (C150_one_after_other). Partial because the code breaks the rest: ties (C150_ties_violated), points not indexed in the first maps get scores of zero which may win later (C150_not_indexed_violated), phases of merged maps are lost when merged again (C150_one_after_other_phases_violated)."
  },
  {
   "property": "C151",
   "status": "proved",
   "theorems": [
    "Kp.C151_average_local",
    "Kp.C151_average_gain",
    "Kp.C151_window_scale",
    "Kp.C151_average_uniform",
    "Kp.C151_dots_local",
    "Kp.C151_dots_symmetric",
    "Kp.C151_dots_uniform",
    "Kp.C151_similarity_local"
   ],
   "note": "Locality of averages (C151_average_local, any coefficients), dot products and their averages (C151_dots_local, any zero_mean and normalize) and orientation similarity (C151_similarity_local); gain and offset (C151_average_gain), window factor (C151_window_scale), uniform surroundings (C151_average_uniform, C151_dots_uniform), symmetry (C151_dots_symmetric)."
  },
  {
   "property": "C152",
   "status": "partial",
   "theorems": [
    "Kp.C152_complete",
    "Kp.C152_stopped_partial",
    "Kp.C152_rows_lost_violated",
    "Kp.C152_last_number",
    "Kp.C152_last_number_violated"
   ],
   "note": "The whole text is proved to load as the file of C58. For maps of PCs of two or more axes, a file stopped after any number of characters is proved to raise, to load without any number (stopped in the header), or to have everything but the last number right. Violated by the code: the shape of a map of one axis is written as \"(n,)\", which is not understood when read, so a stopped file loads with fewer PCs (proved for every number of rows); the last number can be cut (\"0.6\" for \"0.6250000\"), as nothing marks the end of the file."
  },
  {
   "property": "C153",
   "status": "partial",
   "theorems": [
    "Kp.C153_orientation_partial",
    "Kp.C153_pc_partial",
    "Kp.C153_orientation_pc_partial",
    "Kp.C153_pattern_without_contrast",
    "Kp.C153_other_points",
    "Kp.C153_start_without_score_violated"
   ],
   "note": "The last sentence is false: np.argmax and np.argmin return the first NaN, so a starting point where the simulated pattern has no contrast is reported in place of one with a score (C153_start_without_score_violated). The rest is proved, for master patterns whose hemispheres have one intensity scale as in C77 (C153_pattern_without_contrast and C153_other_points need no such hypothesis), in exact arithmetic and with 0 / 0 taken to be NaN."
  },
  {
   "property": "C154",
   "status": "partial",
   "theorems": [
    "Kp.C154_edax_grid",
    "Kp.C154_edax_header",
    "Kp.C154_edax_leading_partial",
    "Kp.C154_edax_nav_shape",
    "Kp.C154_edax_violated",
    "Kp.C154_oxford"
   ],
   "note": "C154_edax_violated: EDAX files of version 1 (without nav_shape) and hexagonal grids have no pattern count; a cut file is loaded as a shorter scan (C154_edax_leading_partial says which patterns). Square grids and Oxford files: C154_edax_grid, C154_oxford."
  },
  {
   "property": "C155",
   "status": "proved",
   "theorems": [
    "Kp.C155_to_gnomonic",
    "Kp.C155_to_pixel",
    "Kp.C155_to_pixel_all",
    "Kp.C155_round_trip",
    "Kp.C155_round_trip_gnomonic",
    "Kp.C155_pixels"
   ],
   "note": "To gnomonic and to pixel coordinates against the exact projection, both round trips, and pixels found again. Reorderings by fastmath other than a fused product and sum are not modelled."
  },
  {
   "property": "C156",
   "status": "proved",
   "theorems": [
    "Kp.C156_arrays",
    "Kp.C156_position",
    "Kp.C156_direction",
    "Kp.C156_mask",
    "Kp.C156_simulation",
    "Kp.C156_gnomonic"
   ],
   "note": "Arrays long enough, positions, directions and lengths of directions, and masks. The function for varying PCs runs the same operations for each PC. Reorderings by fastmath beyond sums, fused operations and reciprocals in the length are not modelled."
  },
  {
   "property": "C157",
   "status": "proved",
   "theorems": [
    "Kp.C157_sum",
    "Kp.C157_lazy",
    "Kp.C157_stereographic",
    "Kp.C157_not_same"
   ],
   "note": "Sum over asymmetric positions in float32 in any order: accuracy, brightness, axes, lazy against non-lazy, and exactly the same for at most two positions. C157_not_same shows that three positions can differ in the last digit. Overflow is not modelled."
  },
  {
   "property": "C158",
   "status": "partial",
   "theorems": [
    "Kp.C158_position",
    "Kp.C158_simulation"
   ],
   "note": "The accuracy of the place where the master pattern is read is proved for every direction, pixel and orientation. Missing: other reorderings than fused operations and reciprocals allowed by fastmath, and overflow. The intensity itself is treated in C159."
  },
  {
   "property": "C159",
   "status": "partial",
   "theorems": [
    "Kp.C159_intensity",
    "Kp.C159_simulation",
    "Kp.C159_pattern"
   ],
   "note": "Proved for every order of products and sums in the interpolation, fused or not, and for conversion to 32-bit or 64-bit floating point numbers. Rescaling of patterns and conversion to integers are treated in C160. Missing: overflow, and evaluations allowed by fastmath in the rotation and projection other than those modelled."
  },
  {
   "property": "C160",
   "status": "partial",
   "theorems": [
    "Kp.C160_rescaled",
    "Kp.C160_pattern",
    "Kp.C160_not_rescaled",
    "Kp.C160_range",
    "Kp.C160_detector"
   ],
   "note": "Proved for one pattern with all its pixels: from computed directions with a known error, rescaled (C160_pattern) or not (C160_not_rescaled), and from any list of pixels of a detector, such as all of them or those of a mask (C160_detector). C160_range: for all inputs, rescaled patterns which are not constant keep the order of intensities and reach but are not below the lower limit, and with a division (not with a reciprocal, C104) the same for the upper limit; the limits and their difference must be numbers of the formats. Missing: overflow, the difference of the limits of the output range is not rounded, and evaluations allowed by fastmath other than those modelled."
  }
 ]
}