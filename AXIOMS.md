# Axioms of the theorems in MANIFEST.json

Output of `#print axioms`, by tools/axioms.py.

## none (4)

* Kp.C41_not_after_none
* Kp.C54_virtual_bse_normalize_swaps
* Kp.C54_virtual_bse_normalize_partial
* Kp.C73_components_mismatch

## propext (32)

* Kp.C39_requested_number
* Kp.C39_entered_number
* Kp.C41_round_trip_partial
* Kp.C41_not_length_one
* Kp.C41_not_first_axis_one
* Kp.C41_not_lists
* Kp.C42_not_wider_types
* Kp.C43_not_repeated
* Kp.C44_not_without_beam
* Kp.C46_not_without_diagonal
* Kp.C54_forwarding_violated
* Kp.C54_virtual_bse_dtype_ignored
* Kp.C54_virtual_bse_progressbar_error
* Kp.C55_lazy_chunk_shape_violated
* Kp.C70_not_reordered
* Kp.C73_empty_chunk_violated
* Kp.C74_learning_unchanged_partial
* Kp.C79_axes_partial
* Kp.C81_offline
* Kp.C81_offline_returned
* Kp.C81_archive_violated
* Kp.C81_settings_violated
* Kp.C81_gain_archive
* Kp.C82_area_violated
* Kp.C82_area_shape
* Kp.C86_scan_calibration
* Kp.C86_line_calibration_violated
* Kp.C87_set_attribute
* Kp.C95_compatible_violated
* Kp.C126_indexer
* Kp.C128_lazy_violated
* Kp.C128_repeat_violated

## Quot.sound, propext (96)

* Kp.C06_crop_keeps_parameters_partial
* Kp.C09_outliers_transposed_raises
* Kp.C09_documented_shape_single_raises
* Kp.C13_unknown_operation_divides
* Kp.C14_blocks_partition
* Kp.C16_n_neighbours_even_too_small
* Kp.C19_false_origin
* Kp.C25_single_point
* Kp.C27_one_axis
* Kp.C37_yes_means_yes
* Kp.C37_no_change_without_consent
* Kp.C37_overwrite_false
* Kp.C37_new_file
* Kp.C37_overwrite_true
* Kp.C39_add_scan_never_collides
* Kp.C39_prompt_accepts_used_number
* Kp.C40_not_without_background
* Kp.C40_not_signal_scale
* Kp.C41_not_ascii
* Kp.C42_truncated_file
* Kp.C42_lazy_partial
* Kp.C42_not_lazy_single_row
* Kp.C42_not_lazy_truncated
* Kp.C43_fallback_no_coordinates
* Kp.C43_not_mixed_names
* Kp.C47_closest
* Kp.C49_first_signal_partial
* Kp.C50_not_negative_stop
* Kp.C50_positions
* Kp.C50_inav_step_partial
* Kp.C52_assignments_isolated_partial
* Kp.C53_odd_grid
* Kp.C53_dividing_grid
* Kp.C53_default_grid
* Kp.C53_grid_shape_accepted
* Kp.C55_bad_chunk_shape
* Kp.C59_conflicting_arguments_rejected
* Kp.C65_add_scan_keeps_scans_partial
* Kp.C65_not_with_overwrite
* Kp.C67_positions_grid
* Kp.C67_wrong_shape
* Kp.C67_not_large
* Kp.C69_not_single_column
* Kp.C70_not_example
* Kp.C71_images
* Kp.C71_energy_coordinates
* Kp.C73_single_position_empty
* Kp.C74_failure_truncates
* Kp.C74_no_temporary_file_partial
* Kp.C74_write_needs_map
* Kp.C74_temporary_file_left_violated
* Kp.C78_map_dimensions
* Kp.C78_data_kept_partial
* Kp.C78_again
* Kp.C78_reflectors_single
* Kp.C79_offset_violated
* Kp.C85_named_metric
* Kp.C85_metric_object_partial
* Kp.C85_metric_object_without_masks_partial
* Kp.C86_map_shape
* Kp.C86_axes_partial
* Kp.C86_background_partial
* Kp.C86_axes_violated
* Kp.C86_background_violated
* Kp.C86_returned_none_violated
* Kp.C86_lazy
* Kp.C87_attributes_fit
* Kp.C87_not_indexed_violated
* Kp.C90_binning_unread
* Kp.C92_position_unique
* Kp.C93_created
* Kp.C93_copy_is_independent
* Kp.C93_overlays
* Kp.C93_overlays_shown_partial
* Kp.C93_kwargs
* Kp.C98_existing_axis_partial
* Kp.C98_origin_type_violated
* Kp.C98_figure_settings
* Kp.C99_warning
* Kp.C100_refused
* Kp.C104_signed_partial
* Kp.C108_alone
* Kp.C108_add_partial
* Kp.C108_new_file_violated
* Kp.C108_overwrite_false_violated
* Kp.C111_zero_background_violated
* Kp.C126_dictionary_all_masked
* Kp.C126_inav_pc
* Kp.C126_sliced_map_violated
* Kp.C131_lazy_kept
* Kp.C131_no_overwrite
* Kp.C131_closed_partial
* Kp.C131_usable
* Kp.C131_add
* Kp.C131_load_violated
* Kp.C131_save_violated

## Classical.choice, Quot.sound, propext (953)

* Kp.C01_given_pc_is_returned
* Kp.C01_exported_pc_is_reimported
* Kp.C02_conversion_keeps_physical_point
* Kp.C02_export_keeps_physical_point
* Kp.C03_convention_accepted_iff_documented
* Kp.C03_convention_unambiguous
* Kp.C04_pixel_gnomonic_inverse
* Kp.C04_gnomonic_is_similar_triangles
* Kp.C04_special_points
* Kp.C04_array_roundtrip
* Kp.C05_crop_keeps_gnomonic
* Kp.C05_crop_pixels
* Kp.C05_crop_error_iff_empty
* Kp.C05_crop_crop
* Kp.C06_crop_drops_twist
* Kp.C06_crop_changes_1d_navigation_shape
* Kp.C07_r_max_is_maximal_partial
* Kp.C07_r_max_of_corners
* Kp.C07_r_max_too_small_in_lower_right_quadrant
* Kp.C08_detector_in_degrees
* Kp.C08_sample_to_detector_is_proper_rotation
* Kp.C08_sample_to_detector_is_isometry
* Kp.C08_only_tilts
* Kp.C08_zero_angles
* Kp.C08_twist_is_counter_clockwise
* Kp.C08_azimuthal_is_to_the_right
* Kp.C08_tilt_is_upwards
* Kp.C09_extrapolate_single_index_partial
* Kp.C09_extrapolate_transposed_indices_partial
* Kp.C09_outliers_partial
* Kp.C09_outliers_violated
* Kp.C09_documented_shape_uses_wrong_average
* Kp.C09_documented_shape_wrong_pc
* Kp.C10_every_estimate_is_exact
* Kp.C10_average_pc_is_exact
* Kp.C11_rescale_in_range
* Kp.C11_rescale_linear
* Kp.C11_rescale_own_range
* Kp.C11_rescale_dtype_range
* Kp.C11_rescale_percentiles
* Kp.C12_mean_and_std_partial
* Kp.C12_mean_and_std_default_partial
* Kp.C12_std_is_not_num_std
* Kp.C12_affine_invariant
* Kp.C13_remove_background
* Kp.C13_static_background_accepted
* Kp.C13_static_background
* Kp.C13_dynamic_background
* Kp.C14_block_sums
* Kp.C14_total_intensity
* Kp.C14_binning_composes
* Kp.C14_downsampling_composes
* Kp.C14_factor_accepted
* Kp.C14_signal_consistent
* Kp.C14_signal_intensities
* Kp.C14_integer_downsampling_does_not_compose
* Kp.C15_fft_filter_eq_correlate
* Kp.C15_padding_independent
* Kp.C15_averaging_window
* Kp.C16_circular_2d_partial
* Kp.C16_circular_1d
* Kp.C16_circular_single_row_fails
* Kp.C16_invalid_shape
* Kp.C16_reach
* Kp.C17_lowpass_partial
* Kp.C17_highpass_partial
* Kp.C17_unit_interval
* Kp.C17_single_row_or_column_fails
* Kp.C18_chunk_independent
* Kp.C18_weighted_mean_partial
* Kp.C18_normalized_window
* Kp.C18_one_axis_window
* Kp.C19_dot_products_partial
* Kp.C19_even_window
* Kp.C20_consistent
* Kp.C21_global_best_partial
* Kp.C21_first_matches_partial
* Kp.C21_scores_do_not_depend_on_iterations_partial
* Kp.C21_result_does_not_depend_on_iterations_partial
* Kp.C21_scores_below_minus_one_are_lost
* Kp.C21_score_of_exactly_minus_one_is_lost
* Kp.C22_smallest_kept_partial
* Kp.C22_single_iteration_returns_worst
* Kp.C22_single_iteration_not_best
* Kp.C22_several_iterations_not_best
* Kp.C23_results_at_own_points
* Kp.C23_best_matches_at_own_points
* Kp.C24_ncc_bounds
* Kp.C24_ncc_eq_one_iff
* Kp.C24_ncc_invariances
* Kp.C24_refinement_ncc_agrees
* Kp.C24_ndp_bounds
* Kp.C24_ndp_scaling
* Kp.C25_best_map_partial
* Kp.C25_merged_scores
* Kp.C25_different_maps_refused
* Kp.C25_phases_partial
* Kp.C25_identical_phases
* Kp.C26_uncovered_point_raises
* Kp.C26_never_not_indexed
* Kp.C27_similarity_partial
* Kp.C27_bounded
* Kp.C27_same_matches
* Kp.C28_in_square
* Kp.C28_direction
* Kp.C28_antipodal
* Kp.C28_inverse
* Kp.C28_surjective
* Kp.C28_injective
* Kp.C29_in_bounds
* Kp.C29_convex
* Kp.C29_grid_points
* Kp.C29_not_square
* Kp.C30_pixel_centers
* Kp.C30_each_pc
* Kp.C31_euler_unit
* Kp.C31_rodrigues_unit_partial
* Kp.C31_rodrigues_zero
* Kp.C31_rotate_is_conjugation
* Kp.C31_rotate_mul
* Kp.C31_rotate_isometry
* Kp.C31_rotate_cross
* Kp.C31_euler_is_bunge
* Kp.C31_rodrigues_is_rotation
* Kp.C32_mismatch_raises_partial
* Kp.C32_too_many_dimensions
* Kp.C32_not_for_unit_axis
* Kp.C32_suitable_iff
* Kp.C33_each_point
* Kp.C33_phase
* Kp.C33_pc_shape
* Kp.C33_sliced_map_raises
* Kp.C34_bounds_partial
* Kp.C34_within_trust_region_partial
* Kp.C34_no_bounds_partial
* Kp.C34_not_without_trust_region
* Kp.C34_not_for_integers
* Kp.C35_history_independent_partial
* Kp.C35_kwargs_unchanged_partial
* Kp.C35_own_arguments
* Kp.C35_not_kwargs
* Kp.C35_not_trust_region
* Kp.C35_trust_region_unchanged_partial
* Kp.C36_best_solution
* Kp.C38_suffix_partial
* Kp.C38_default_partial
* Kp.C38_not_extension
* Kp.C38_not_loaded_extension
* Kp.C38_not_dotted_name
* Kp.C40_round_trip_partial
* Kp.C40_not_single_row
* Kp.C40_not_single_pattern_row
* Kp.C41_not_white_space
* Kp.C42_round_trip_partial
* Kp.C43_map_order_partial
* Kp.C43_fallback_count
* Kp.C43_listing_order
* Kp.C44_map_order_partial
* Kp.C44_file_partial
* Kp.C44_missing_sorted_partial
* Kp.C44_not_missing
* Kp.C44_round_trip_partial
* Kp.C44_missing_violated
* Kp.C44_whole_file_partial
* Kp.C45_axes_partial
* Kp.C45_axes_version_one
* Kp.C45_not_single_row
* Kp.C46_positions_partial
* Kp.C46_rejects_partial
* Kp.C47_range
* Kp.C47_range_refused
* Kp.C48_unambiguous
* Kp.C48_manufacturer
* Kp.C49_not_second_signal
* Kp.C50_isig_partial
* Kp.C50_not_open_end
* Kp.C50_not_negative_start
* Kp.C50_inav_partial
* Kp.C50_positions_increasing
* Kp.C50_not_step
* Kp.C50_not_signal_step
* Kp.C50_not_isig_then_inav
* Kp.C50_crop_partial
* Kp.C50_not_crop_units
* Kp.C50_not_crop_navigation_units
* Kp.C51_consistent_partial
* Kp.C51_size_partial
* Kp.C51_axes_partial
* Kp.C51_not_size
* Kp.C51_not_whole_map
* Kp.C52_copying_operations_isolated
* Kp.C52_deepcopy_equal
* Kp.C52_returned_attributes
* Kp.C52_own_background
* Kp.C52_shared_detector
* Kp.C52_shared_crystal_map
* Kp.C52_shared_background
* Kp.C52_sharing_operations_violated
* Kp.C52_downsample_changes_original
* Kp.C52_call_leaves_original
* Kp.C53_tiles_partition_partial
* Kp.C53_dividing_tile_pixels
* Kp.C53_sum_of_tiles_partial
* Kp.C53_row_counted_twice
* Kp.C53_row_lost
* Kp.C53_sum_violated
* Kp.C53_calibrated_raises
* Kp.C53_region_of_tiles
* Kp.C54_forwarding_faithful
* Kp.C54_dtype_honoured
* Kp.C54_errors_agree
* Kp.C55_chunks_cover
* Kp.C55_rechunk_covers
* Kp.C55_dask_array_partial
* Kp.C55_split_patterns_violated
* Kp.C56_bands_are_traces
* Kp.C56_visible_bands_returned
* Kp.C56_one_sided_reflectors_missed
* Kp.C56_zone_axes
* Kp.C56_zone_axes_on_bands
* Kp.C56_zone_axis_on_detector_missed
* Kp.C56_zone_axes_on_detector_kept_partial
* Kp.C56_pixel_coordinates_partial
* Kp.C56_pixel_coordinates_violated
* Kp.C57_image_quality_bound_partial
* Kp.C57_zero_frequency_not_one
* Kp.C57_scaling
* Kp.C57_affine
* Kp.C58_round_trip
* Kp.C58_bruker_pc
* Kp.C58_saved_twice
* Kp.C58_saved_again
* Kp.C58_invalid_convention
* Kp.C59_relative_rescaling_partial
* Kp.C59_relative_with_percentiles_is_not_relative
* Kp.C60_all_pass_filter
* Kp.C60_ifft_fft_complex
* Kp.C60_apodization
* Kp.C60_all_pass_apodization
* Kp.C60_ifft_fft_real_even_partial
* Kp.C60_ifft_fft_real_odd_fails
* Kp.C60_shift_equivalent
* Kp.C60_zero_frequency
* Kp.C61_hann_partial
* Kp.C61_hann_odd_maximum
* Kp.C61_hann_even_maximum_fails
* Kp.C62_mirror
* Kp.C62_inversion_partial
* Kp.C62_not_inversion
* Kp.C63_own_rotation_and_pc_partial
* Kp.C63_not_for_two_axes
* Kp.C63_energy
* Kp.C64_initial_step_partial
* Kp.C64_not_degrees
* Kp.C66_axes_partial
* Kp.C66_not_single_row
* Kp.C66_not_integer_scan_size
* Kp.C68_number_partial
* Kp.C68_not_large_jump
* Kp.C68_not_missing
* Kp.C68_not_version_five
* Kp.C68_file_partial
* Kp.C69_shape_partial
* Kp.C69_not_half_step
* Kp.C70_map_order_partial
* Kp.C71_axes_partial
* Kp.C71_not_lambert_positions
* Kp.C72_not_coordinates
* Kp.C72_differences_partial
* Kp.C73_loop_ends
* Kp.C73_chunks_returned
* Kp.C73_chunk_size_limited
* Kp.C73_chunks_not_empty_partial
* Kp.C74_model_values
* Kp.C74_model_values_2d
* Kp.C74_model_returned
* Kp.C74_bad_component
* Kp.C74_unchanged_on_error_violated
* Kp.C75_same_detector_partial
* Kp.C75_static_background
* Kp.C75_map
* Kp.C75_different_scales_violated
* Kp.C75_crop_violated
* Kp.C76_affine_fit
* Kp.C76_map_plane_partial
* Kp.C76_detector_tilt_violated
* Kp.C76_estimate_xtilt
* Kp.C76_estimate_xtilt_ztilt
* Kp.C76_outlier_list_violated
* Kp.C77_orientation_partial
* Kp.C77_orientation_not_worse_partial
* Kp.C77_pc_partial
* Kp.C77_orientation_pc_partial
* Kp.C77_chunks
* Kp.C77_hemispheres_violated
* Kp.C77_pseudo_symmetry
* Kp.C77_same_as_dictionary_indexing
* Kp.C78_map
* Kp.C78_map_line
* Kp.C78_map_made
* Kp.C78_data_violated
* Kp.C78_data_index_partial
* Kp.C78_data_index_violated
* Kp.C78_reflectors
* Kp.C78_no_reflectors
* Kp.C78_reflectors_violated
* Kp.C78_phases_partial
* Kp.C78_own_phases
* Kp.C78_lattice_violated
* Kp.C78_accepted
* Kp.C78_pairing
* Kp.C78_map_shape_violated
* Kp.C78_chunks
* Kp.C78_optimize_pc_partial
* Kp.C79_channel
* Kp.C79_markers_partial
* Kp.C79_markers_violated
* Kp.C79_image
* Kp.C79_image_percentiles
* Kp.C79_gain
* Kp.C79_alpha
* Kp.C79_brightness_violated
* Kp.C80_bands
* Kp.C80_direction
* Kp.C80_accepted
* Kp.C80_order
* Kp.C80_inversion
* Kp.C80_bounds_partial
* Kp.C80_schedule_partial
* Kp.C80_terminates
* Kp.C80_schedule_violated
* Kp.C80_one_sided_violated
* Kp.C80_axes_partial
* Kp.C80_axes_violated
* Kp.C80_middle_violated
* Kp.C81_verified
* Kp.C81_download
* Kp.C81_archive_partial
* Kp.C81_archive_twice
* Kp.C81_home
* Kp.C81_clear_partial
* Kp.C81_clear_violated
* Kp.C81_gain_series
* Kp.C82_settings_partial
* Kp.C82_no_misreading
* Kp.C82_titles_violated
* Kp.C82_calibration_patterns
* Kp.C82_no_calibration_patterns
* Kp.C82_scaled
* Kp.C83_named_scans
* Kp.C83_one_missing
* Kp.C83_file_checked
* Kp.C83_missing_violated
* Kp.C83_saved_scans
* Kp.C83_default_partial
* Kp.C83_default_violated
* Kp.C84_samples_inside
* Kp.C84_accepted
* Kp.C84_shape
* Kp.C84_upper
* Kp.C84_lower
* Kp.C84_simulated
* Kp.C84_plot_partial
* Kp.C84_plot_black_violated
* Kp.C84_plot_outside_violated
* Kp.C84_plot_one_hemisphere_partial
* Kp.C84_plot_one_hemisphere_violated
* Kp.C85_accepted
* Kp.C85_iterations
* Kp.C85_results_partial
* Kp.C85_first_matches_partial
* Kp.C85_history_violated
* Kp.C85_history_error_violated
* Kp.C85_failed_call_violated
* Kp.C85_signal_mask_shape_violated
* Kp.C86_downsample
* Kp.C87_equal_iff_partial
* Kp.C87_equal_to_itself
* Kp.C87_reported_difference
* Kp.C87_point_group_violated
* Kp.C87_atom_order_violated
* Kp.C87_symmetric_violated
* Kp.C87_transitive_violated
* Kp.C87_accepted_partial
* Kp.C87_accepts
* Kp.C87_coordinates_partial
* Kp.C87_coordinates_violated
* Kp.C88_shapes
* Kp.C88_lines
* Kp.C88_reflectors_kept
* Kp.C88_zone_axes
* Kp.C88_zone_axes_upper_partial
* Kp.C88_zone_axes_on_lines
* Kp.C88_zone_axes_shown_partial
* Kp.C88_pixel_partial
* Kp.C88_markers
* Kp.C88_labels
* Kp.C88_pc_markers
* Kp.C88_label_partial
* Kp.C88_label_violated
* Kp.C88_plot_violated
* Kp.C88_plot_partial
* Kp.C88_plot_mean_partial
* Kp.C88_zone_axes_formats_violated
* Kp.C88_plot_pc_violated
* Kp.C89_schedule_partial
* Kp.C89_one_block
* Kp.C89_terminates
* Kp.C89_trust_region_violated
* Kp.C89_pattern_violated
* Kp.C90_binning
* Kp.C90_binning_violated
* Kp.C90_oxford_scan
* Kp.C90_oxford_pcs
* Kp.C90_oxford_fits_partial
* Kp.C90_oxford_line_violated
* Kp.C90_oxford_dataset
* Kp.C90_oxford_missing_pc_violated
* Kp.C90_oxford_default_pc
* Kp.C90_oxford_incomplete_violated
* Kp.C90_edax_grid
* Kp.C90_edax_scan
* Kp.C90_edax_incomplete_partial
* Kp.C90_edax_incomplete_line_violated
* Kp.C91_loaded_class
* Kp.C91_numbers_understood
* Kp.C91_names_understood
* Kp.C91_attributes_present
* Kp.C91_attributes_kept
* Kp.C91_operations_succeed
* Kp.C91_master_types
* Kp.C91_attributes_removed_partial
* Kp.C91_same_type_violated
* Kp.C91_unknown_master_violated
* Kp.C92_position
* Kp.C92_position_errors
* Kp.C92_all_positions_partial
* Kp.C92_all_positions_violated
* Kp.C93_slider_range
* Kp.C93_figures_show_widgets
* Kp.C93_slider_moves_detector
* Kp.C93_new_figure
* Kp.C93_outside_change_violated
* Kp.C93_two_figures_violated
* Kp.C93_late_overlay_violated
* Kp.C93_pcz_zero_violated
* Kp.C93_kwargs_violated
* Kp.C94_screen_point_unique
* Kp.C94_top_view_partial
* Kp.C94_top_view_pc
* Kp.C94_side_view_partial
* Kp.C94_side_azimuthal_violated
* Kp.C94_top_twist_violated
* Kp.C94_side_sample
* Kp.C94_top_sample
* Kp.C94_sample_in_view
* Kp.C94_top_order
* Kp.C94_side_view_drawn
* Kp.C94_top_view_drawn
* Kp.C94_map_of_pcs_violated
* Kp.C94_first_pc_violated
* Kp.C94_limits_partial
* Kp.C94_limits_violated
* Kp.C94_plane_pattern
* Kp.C94_plane_pc_partial
* Kp.C94_plane_average_violated
* Kp.C94_plane_pixel_pc_violated
* Kp.C94_zoom_partial
* Kp.C94_zoom_violated
* Kp.C94_gnomonic_circles
* Kp.C95_one_axis
* Kp.C95_two_axes
* Kp.C95_three_axes_violated
* Kp.C95_circular_partial
* Kp.C95_default_shape
* Kp.C95_shape_errors
* Kp.C95_custom_partial
* Kp.C95_custom_shape_violated
* Kp.C95_caller_array_partial
* Kp.C95_caller_array_violated
* Kp.C95_keyword_names_ignored
* Kp.C95_keyword_order_violated
* Kp.C95_cutoff_needed
* Kp.C95_transfer_functions
* Kp.C95_length
* Kp.C95_valid
* Kp.C95_compatible_partial
* Kp.C96_program_checked
* Kp.C96_program_checked_violated
* Kp.C96_read_default
* Kp.C96_scan_size_rows_columns
* Kp.C96_scan_size_integer
* Kp.C96_scan_size_at_most_two
* Kp.C96_width_height_violated
* Kp.C96_map_shape_partial
* Kp.C96_map_shape_violated
* Kp.C96_detector_partial
* Kp.C96_binning_violated
* Kp.C96_binned_scan_size_violated
* Kp.C96_phase_partial
* Kp.C96_phase_unit_violated
* Kp.C96_phase_name
* Kp.C96_title_partial
* Kp.C96_title_violated
* Kp.C97_small_window
* Kp.C97_filter_domain
* Kp.C97_background_is_weighted_mean
* Kp.C97_truncate_violated
* Kp.C97_default_window
* Kp.C97_mirror_partial
* Kp.C97_mirror_violated
* Kp.C97_data_type_kept
* Kp.C97_constant_pattern
* Kp.C97_remove_from_signal
* Kp.C97_pattern_function_partial
* Kp.C97_integer_pattern_violated
* Kp.C97_integer_wraps_violated
* Kp.C97_caller_array_violated
* Kp.C97_dtype_out
* Kp.C97_chunks
* Kp.C97_split_pattern_violated
* Kp.C97_default_std_violated
* Kp.C97_dtype_out_violated
* Kp.C98_markers
* Kp.C98_area_image
* Kp.C98_inside
* Kp.C98_pixel_violated
* Kp.C98_origin_violated
* Kp.C98_existing_axis_violated
* Kp.C98_grid
* Kp.C98_plot_pc
* Kp.C98_pc_maps
* Kp.C98_pc_scatter
* Kp.C98_pc_3d
* Kp.C98_orientation_partial
* Kp.C98_orientation_violated
* Kp.C99_equalized_partial
* Kp.C99_default_region_violated
* Kp.C99_small_patterns_violated
* Kp.C99_refused
* Kp.C100_colours_partial
* Kp.C100_one_map
* Kp.C100_colours_violated
* Kp.C100_grey_violated
* Kp.C101_complete
* Kp.C101_never_half
* Kp.C101_other_scans
* Kp.C101_default_partial
* Kp.C101_overwrite_violated
* Kp.C101_retry_violated
* Kp.C101_sem_violated
* Kp.C101_open_elsewhere
* Kp.C101_default_violated
* Kp.C102_shape_partial
* Kp.C102_shape_violated
* Kp.C102_binning_violated
* Kp.C102_numbers
* Kp.C102_history
* Kp.C102_listeners_partial
* Kp.C102_told
* Kp.C102_coordinates
* Kp.C102_navigation_shape_partial
* Kp.C102_refused
* Kp.C102_navigation_shape_violated
* Kp.C102_pc_violated
* Kp.C102_in_place_violated
* Kp.C103_same_as_affine_partial
* Kp.C103_few_partial
* Kp.C103_map_plane_partial
* Kp.C103_trim_violated
* Kp.C104_division_partial
* Kp.C104_own_range_partial
* Kp.C104_order
* Kp.C104_one_level_partial
* Kp.C104_reciprocal_violated
* Kp.C104_signed_violated
* Kp.C105_half_pixel
* Kp.C105_weights
* Kp.C105_in_array
* Kp.C105_rotation_error
* Kp.C105_rotated_any
* Kp.C105_rotated_in_array
* Kp.C105_length_needed
* Kp.C106_ndp_error
* Kp.C106_ncc_error
* Kp.C106_ndp_bounds_partial
* Kp.C106_ndp_order_partial
* Kp.C106_ndp_nonneg
* Kp.C106_integer_sum
* Kp.C106_best_match
* Kp.C106_ncc_best_match
* Kp.C106_exact_violated
* Kp.C107_prefix
* Kp.C107_loads
* Kp.C107_lazy_detects
* Kp.C107_lazy_other_file_partial
* Kp.C107_own_file_violated
* Kp.C107_old_patterns_violated
* Kp.C108_exclusive
* Kp.C109_blocks_exact
* Kp.C109_unsigned_exact
* Kp.C109_downsample
* Kp.C109_blocks_error
* Kp.C109_brightness_violated
* Kp.C109_average_rounded_once
* Kp.C109_average_identical
* Kp.C109_average_order
* Kp.C109_average_error
* Kp.C110_score_error
* Kp.C110_objective_error_partial
* Kp.C110_reported_exact
* Kp.C110_comparison_partial
* Kp.C110_lowest_value_partial
* Kp.C110_order_partial
* Kp.C110_identical
* Kp.C110_exact_violated
* Kp.C111_remove_background_partial
* Kp.C111_dynamic_partial
* Kp.C111_static_partial
* Kp.C111_subtract_integers
* Kp.C111_divide_eight_bits
* Kp.C111_divide_violated
* Kp.C111_convert_violated
* Kp.C111_range_violated
* Kp.C112_ncc_missing
* Kp.C112_ndp_missing
* Kp.C112_best_matches_partial
* Kp.C112_all_with_contrast_partial
* Kp.C112_one_iteration_violated
* Kp.C112_dictionary_violated
* Kp.C112_iterations_violated
* Kp.C112_experimental_violated
* Kp.C112_merge_partial
* Kp.C112_merge_violated
* Kp.C112_index_and_merge_violated
* Kp.C113_average_map_partial
* Kp.C113_matrices_partial
* Kp.C113_bounds
* Kp.C113_brightness_partial
* Kp.C113_from_matrices_partial
* Kp.C113_dtype_violated
* Kp.C114_lines_partial
* Kp.C114_zone_axes_partial
* Kp.C114_band_through_pc_violated
* Kp.C114_agreement_violated
* Kp.C115_import
* Kp.C115_export
* Kp.C115_given_pc_is_returned
* Kp.C115_passed_on
* Kp.C115_no_drift
* Kp.C115_bruker_exact
* Kp.C115_tsl_exact
* Kp.C115_exact_violated
* Kp.C116_pixels
* Kp.C116_direction_unique
* Kp.C116_zone_axes_partial
* Kp.C116_bands_partial
* Kp.C116_no_other_bands
* Kp.C116_exact_violated
* Kp.C116_lower_right_violated
* Kp.C116_band_through_pc_violated
* Kp.C117_crop_partial
* Kp.C117_single_pc_violated
* Kp.C117_crop_not_rescaled_partial
* Kp.C117_twist_violated
* Kp.C118_ncc_partial
* Kp.C118_ndp_partial
* Kp.C118_rotation_partial
* Kp.C118_simulated_partial
* Kp.C118_flat_pattern_violated
* Kp.C119_rescale
* Kp.C119_rescale_relative
* Kp.C119_static_scaled
* Kp.C119_static
* Kp.C119_normalize
* Kp.C119_dynamic
* Kp.C119_indexing
* Kp.C119_rescale_then_index
* Kp.C119_normalize_then_index
* Kp.C119_unscaled_gain_matters
* Kp.C119_divided_offset_matters
* Kp.C119_integers_matter
* Kp.C120_crop_is_mask
* Kp.C120_simulated_partial
* Kp.C120_ncc
* Kp.C120_simulated_ncc_partial
* Kp.C121_match_partial
* Kp.C121_phase_partial
* Kp.C122_same_box_partial
* Kp.C122_box_sizes_refused
* Kp.C122_positions_partial
* Kp.C122_different_points_violated
* Kp.C123_best_score
* Kp.C123_orientation_partial
* Kp.C123_pc_partial
* Kp.C123_orientation_pc_partial
* Kp.C123_hemispheres_violated
* Kp.C123_after_indexing_partial
* Kp.C124_rescale
* Kp.C124_static_background
* Kp.C124_equalization
* Kp.C124_downsample
* Kp.C124_normalize
* Kp.C124_dynamic_background
* Kp.C124_get_dynamic_background
* Kp.C124_fft_filter
* Kp.C124_relative_partial
* Kp.C124_relative_violated
* Kp.C124_average_partial
* Kp.C124_average_violated
* Kp.C124_dot_products_partial
* Kp.C124_dot_violated
* Kp.C125_full_range
* Kp.C125_frequency
* Kp.C125_spatial
* Kp.C125_refused
* Kp.C125_gain_offset_frequency
* Kp.C125_gain_offset_spatial
* Kp.C125_transfer_gain
* Kp.C125_zero_frequency
* Kp.C125_all_pass
* Kp.C126_dictionary
* Kp.C126_refine
* Kp.C126_hough
* Kp.C126_sliced_map_raises
* Kp.C127_roi_partial
* Kp.C127_scaled_partial
* Kp.C127_patterns
* Kp.C127_detector_shape_violated
* Kp.C127_width_violated
* Kp.C127_overview_violated
* Kp.C128_in_place
* Kp.C128_in_place_stopped
* Kp.C128_average_partial
* Kp.C128_average_violated
* Kp.C128_lazy_copies
* Kp.C128_lazy_partial
* Kp.C129_save_load
* Kp.C129_again
* Kp.C129_projection_centers
* Kp.C129_single_row_violated
* Kp.C129_other_keys_violated
* Kp.C129_none_violated
* Kp.C130_outliers
* Kp.C130_estimate
* Kp.C130_no_outliers
* Kp.C130_fit_partial
* Kp.C130_return_violated
* Kp.C132_assign
* Kp.C132_history_partial
* Kp.C132_checked
* Kp.C132_background_violated
* Kp.C132_remove_violated
* Kp.C132_one_pc_violated
* Kp.C132_accepted_partial
* Kp.C132_grid_violated
* Kp.C133_not_worse_partial
* Kp.C133_match_partial
* Kp.C133_phase_partial
* Kp.C133_not_indexed_violated
* Kp.C134_starts
* Kp.C134_symmetric
* Kp.C134_found_partial
* Kp.C134_index
* Kp.C135_rotation_exists
* Kp.C135_tilted_together
* Kp.C135_same_patterns
* Kp.C135_same_scores
* Kp.C135_angles_not_seen
* Kp.C135_same_indexing
* Kp.C135_same_lines
* Kp.C136_amplitudes_only
* Kp.C136_normalized
* Kp.C136_moved
* Kp.C136_mirrored
* Kp.C136_transposed
* Kp.C136_single_pixel
* Kp.C136_wave
* Kp.C136_coarser_is_better
* Kp.C136_finest_is_worst
* Kp.C136_can_be_negative
* Kp.C137_intensity
* Kp.C137_rotations
* Kp.C137_turned
* Kp.C137_symmetric_partial
* Kp.C137_same_scores_partial
* Kp.C137_weighted_mean
* Kp.C137_three_fold_violated
* Kp.C137_only_rotations
* Kp.C138_intensity_iff
* Kp.C138_patterns_partial
* Kp.C138_scores_partial
* Kp.C138_euler
* Kp.C138_objective_partial
* Kp.C138_objective_fixed_partial
* Kp.C138_rescaled_violated
* Kp.C139_moved
* Kp.C139_downsampled
* Kp.C139_downsampled_odd
* Kp.C139_units
* Kp.C140_keep_n_partial
* Kp.C140_order_partial
* Kp.C140_extended_partial
* Kp.C140_split_partial
* Kp.C140_matches_partial
* Kp.C140_order_violated
* Kp.C141_formats
* Kp.C141_one_pattern
* Kp.C141_collections
* Kp.C141_labels
* Kp.C141_circle_size
* Kp.C141_line_formats
* Kp.C141_plot_partial
* Kp.C141_row
* Kp.C141_row_violated
* Kp.C142_steps
* Kp.C142_before_rescaling
* Kp.C142_before_normalizing
* Kp.C142_before_static_background
* Kp.C142_before_indexing
* Kp.C142_before_dynamic_background
* Kp.C142_before_filtering
* Kp.C142_before_downsampling
* Kp.C142_downsampling_twice
* Kp.C142_filters_compose
* Kp.C142_filters_commute
* Kp.C142_integers_matter
* Kp.C142_relative_matters
* Kp.C143_returned
* Kp.C143_plane
* Kp.C143_distances
* Kp.C143_same_size
* Kp.C143_estimate
* Kp.C143_average
* Kp.C143_again
* Kp.C143_odd_matters
* Kp.C143_integer_binning_matters
* Kp.C143_outliers
* Kp.C143_moved
* Kp.C144_average_transposed
* Kp.C144_average_upside_down
* Kp.C144_average_left_right
* Kp.C144_dots_transposed
* Kp.C144_dots_upside_down
* Kp.C144_dots_left_right
* Kp.C144_dots_mutual
* Kp.C144_circular
* Kp.C144_scipy_windows
* Kp.C144_similarity_upside_down
* Kp.C144_similarity_transposed
* Kp.C144_similarity_left_right
* Kp.C144_odd_matters
* Kp.C145_parameters
* Kp.C145_same_call
* Kp.C145_by_name
* Kp.C145_crop_everything
* Kp.C145_crop_axis
* Kp.C145_crop_signal
* Kp.C145_crop_map
* Kp.C145_everything_matters
* Kp.C146_rescale
* Kp.C146_rescale_signal
* Kp.C146_static
* Kp.C146_normalize
* Kp.C146_normalize_signal
* Kp.C146_scores
* Kp.C146_indexing
* Kp.C146_downsample
* Kp.C146_filter_spatial
* Kp.C146_filter_frequency
* Kp.C146_transfer
* Kp.C146_dynamic_partial
* Kp.C147_alone
* Kp.C147_no_failure
* Kp.C147_unique
* Kp.C147_shared_unchanged
* Kp.C147_terminates
* Kp.C147_progress
* Kp.C147_finishes
* Kp.C147_settings
* Kp.C147_as_function
* Kp.C148_twice
* Kp.C148_patterns
* Kp.C148_pixels
* Kp.C148_orientations
* Kp.C148_only_mirrors
* Kp.C148_euler
* Kp.C148_centre
* Kp.C148_scores
* Kp.C148_indexing
* Kp.C149_call
* Kp.C149_as_if_copied
* Kp.C149_no_changes
* Kp.C149_own_places
* Kp.C149_careless_violated
* Kp.C150_order
* Kp.C150_phases
* Kp.C150_indexed
* Kp.C150_one_after_other
* Kp.C150_ties_violated
* Kp.C150_not_indexed_violated
* Kp.C150_one_after_other_phases_violated
* Kp.C151_average_local
* Kp.C151_average_gain
* Kp.C151_window_scale
* Kp.C151_average_uniform
* Kp.C151_dots_local
* Kp.C151_dots_symmetric
* Kp.C151_dots_uniform
* Kp.C151_similarity_local
* Kp.C152_complete
* Kp.C152_stopped_partial
* Kp.C152_rows_lost_violated
* Kp.C152_last_number
* Kp.C152_last_number_violated
* Kp.C153_orientation_partial
* Kp.C153_pc_partial
* Kp.C153_orientation_pc_partial
* Kp.C153_pattern_without_contrast
* Kp.C153_other_points
* Kp.C153_start_without_score_violated
* Kp.C154_edax_grid
* Kp.C154_edax_header
* Kp.C154_edax_leading_partial
* Kp.C154_edax_nav_shape
* Kp.C154_edax_violated
* Kp.C154_oxford
* Kp.C155_to_gnomonic
* Kp.C155_to_pixel
* Kp.C155_to_pixel_all
* Kp.C155_round_trip
* Kp.C155_round_trip_gnomonic
* Kp.C155_pixels
* Kp.C156_arrays
* Kp.C156_position
* Kp.C156_direction
* Kp.C156_mask
* Kp.C156_simulation
* Kp.C156_gnomonic
* Kp.C157_sum
* Kp.C157_lazy
* Kp.C157_stereographic
* Kp.C157_not_same
* Kp.C158_position
* Kp.C158_simulation
* Kp.C159_intensity
* Kp.C159_simulation
* Kp.C159_pattern
* Kp.C160_rescaled
* Kp.C160_pattern
* Kp.C160_not_rescaled
* Kp.C160_range
* Kp.C160_detector
