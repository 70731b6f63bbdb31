{
 "C01": {"status": "proved", "note": "Over any linearly ordered field; no float rounding."},
 "C02": {"status": "proved", "note": "Physical points per the docstring's definitions of the conventions."},
 "C03": {"status": "proved", "note": ""},
 "C04": {"status": "proved", "note": ""},
 "C05": {"status": "proved", "note": ""},
 "C06": {"status": "partial", "note": "False of the code: twist is dropped and a 1D navigation shape (n,) becomes (1, n); negations proved."},
 "C07": {"status": "partial", "note": "False of the code for PCs in the lower right quadrant (a corner is counted twice, the opposite one never); negation proved for every such detector."},
 "C08": {"status": "proved", "note": ""},
 "C09": {"status": "partial", "note": "Proved: for one PC, and for several given as an (n, 2) array, the documented equations hold with the average position rounded to integers; with outliers the plane passes through the average of the other PCs. False of the code for the documented (2, n) shape (wrong average position, IndexError for one PC), also with outliers (C09_outliers_violated), and outliers cannot be given with the (n, 2) shape (C09_outliers_transposed_raises)."},
 "C10": {"status": "proved", "note": ""},
 "C100": {"status": "partial", "note": "Colours kept if the image has both 0 and 1; other images are stretched or become black (_violated)."},
 "C101": {"status": "partial", "note": "By name, an interrupted scan is an error or has all patterns, map and header; other scans stay loadable by name (proved). False: overwriting destroys the old content first, an interrupted scan can hide others when loading without a name, it blocks its number, and microscope parameters may be missing without an error."},
 "C102": {"status": "partial", "note": "Frame, failed assignments, coordinates, navigation shape and listeners are proved for all histories of assignments. False: invalid shapes, binnings and projection centers are accepted, an empty navigation shape becomes (1,), and changes within the returned array are not told."},
 "C103": {"status": "partial", "note": "Proved: the default fit equals the affine fit (and is exact) whenever the trimmed mean lies on the plane, in particular for PCs on the sample plane of any number, and for any plane with fewer than ten PCs. False in general: C103_trim_violated gives ten PCs on a plane inclined to all detector axes which the default fit never returns, whatever the SVD and the estimation give."},
 "C104": {"status": "partial", "note": "Proved for any rounding: order of pixels and lower limit in every evaluation order, exact upper limit and range if the quotient is computed by division, at most one level missing for unsigned integers otherwise (any accurate rounding, binary64 proved accurate). False: C104_reciprocal_violated (a reciprocal, allowed by fastmath, makes 254 the brightest of a uint8 pattern from 0 to 49) and C104_signed_violated (int16 pattern from -20000 to 20000 wraps around to -2.28 in the range from -1 to 1); C104_signed_partial covers signed patterns spanning less than half of their range."},
 "C105": {"status": "proved", "note": "Rotation, projection and indices for all near-unit rotations and directions. C105_length_needed shows that the hypothesis on the length cannot be dropped when the compiler multiplies with the reciprocal."},
 "C106": {"status": "partial", "note": "Error bounds, signs, exact integer sums and the best match are proved for every order of summation. Not true: a score never exceeds one, and is the same in every order (C106_exact_violated: (1, 2, 2) with itself in float32)."},
 "C107": {"status": "partial", "note": "Proved for signals in memory and lazy signals saved to another file. Not true: saving a lazy signal to its own file fails and leaves it empty (C107_own_file_violated), and an interrupted overwrite loses the old patterns (C107_old_patterns_violated)."},
 "C108": {"status": "partial", "note": "Proved for adding scans to an existing file, for any number of processes and any schedule, with mutual exclusion and agreement of a lone process with the sequential model. False when the file does not exist at the first look: a scan reported as saved is lost, and overwrite=False replaces a file made meanwhile."},
 "C109": {"status": "partial", "note": "(a)-(d) are proved for any order of summation and evaluation. (b) is false without the bound of 2^24: C109_brightness_violated has a pattern of 32-bit integers whose brighter block becomes black and the darker one white."},
 "C11": {"status": "proved", "note": ""},
 "C110": {"status": "partial", "note": "Error bound, comparison of patterns, lowest value, identical patterns and reported scores proved for all orders of the sums. A score may exceed one, the value minimized may be negative, and the score depends on the contrast of the simulated pattern (C110_exact_violated), by at most the error."},
 "C111": {"status": "partial", "note": "Order and range are proved for every background and evaluation when there is a result; that there is one, for subtraction of integers of at most 16 bits and division of 8-bit integers by non-zero backgrounds. The full statement is false: zero background, 16-bit division, 32-bit integers (C111_*_violated)."},
 "C112": {"status": "partial", "note": "Scores are missing exactly for patterns without contrast (blank ones for the dot product). With at most b such dictionary patterns in each chunk of several iterations, the first keep_n - b matches are the best of all with a score; with none, all matches are. False in general: one iteration returns the dictionary patterns without contrast first; with keep_n = 1 several iterations lose every chunk with one of them; a flat experimental pattern gets NaN with one iteration but score -1 of dictionary pattern 0 with several; merging raises as soon as one point has no score in any map. All negations proved."},
 "C113": {"status": "partial", "note": "Proved for windows with odd axes (or one chunk), exact arithmetic on patterns rounded to the floating point type: values, bounds, invariance to brightness and contrast, and agreement of averaged matrices with the direct map when pixels are float32 numbers. False for dtype_out of the matrices: it is not passed to the function that converts the patterns, which uses float32; a map where the average of float64 matrices is NaN and the direct float64 map is 1 is given."},
 "C114": {"status": "partial", "note": "Lines and zone axes of the two implementations are equal for every detector, PC, unit cell and orientation in which no band passes exactly through the PC; for those bands the claim is false, C114_agreement_violated. Indices are reduced by any function keeping directions."},
 "C115": {"status": "proved", "note": "Import, export, read-back and any chain of conversions in binary64 move the physical point by at most the stated fraction; exact for Bruker, and for TSL in the upper half of detectors with no more rows than columns. C115_exact_violated shows that exactness fails otherwise."},
 "C116": {"status": "partial", "note": "Pixels, zone axes, bands and converse proved for every rotation, unit cell, detector and pixel, for PCs outside the lower right quadrant and bands not exactly through the PC in all patterns; for those the claim is false (C116_lower_right_violated, C116_band_through_pc_violated), and positions are off by less than half a pixel (C116_exact_violated)."},
 "C117": {"status": "partial", "note": "False for detectors with a single PC and several rotations and for detectors with a twist (proved); proved for one PC per rotation without twist."},
 "C118": {"status": "partial", "note": "Proved for dictionaries of patterns with contrast (NCC) or intensity (NDP), exact arithmetic; false if a dictionary pattern has no contrast (proved)."},
 "C119": {"status": "proved", "note": "Exact arithmetic. For patterns with contrast. Shown not to hold beyond what is stated: rescaling to integers (rounding), gain with an unscaled subtracted background, offset with division."},
 "C12": {"status": "partial", "note": "False of the code for num_std other than 1 (the standard deviation is 1/num_std; negation proved). Mean, invariance and num_std = 1 proved."},
 "C120": {"status": "partial", "note": "Proved for any metric on patterns (C120_crop_is_mask), for the NCC with rescaling (C120_ncc), and for simulated dictionaries with one PC per rotation (C120_simulated_partial, C120_simulated_ncc_partial). False for simulated dictionaries with a twist or a single PC, since EBSDDetector.crop loses the twist and changes the navigation shape (C117_twist_violated, C117_single_pc_violated)."},
 "C121": {"status": "partial", "note": "NCC; not for one-point maps with several matches (C25), uncovered points (C26), dictionaries with patterns without contrast (C112); the phase for different phases each found somewhere"},
 "C122": {"status": "partial", "note": "data: only if all maps have the same bounding box of points in the data, otherwise refused or scores of different points compared; positions: only for equal step sizes and a box from the first row and column (iff)"},
 "C123": {"status": "partial", "note": "Proved in exact arithmetic for optimizers which report the value at the point they return and do not return a worse point than the start, one PC per dictionary. False for master patterns which are not 32-bit floats and whose hemispheres have different intensity ranges (C123_hemispheres_violated: score -1 at the true orientation)."},
 "C124": {"status": "partial", "note": "Pattern by pattern for all listed operations, for all selections and arguments. Averages and dot products: proved for the points whose window does not reach across the border of the part, negations proved at the border; relative rescaling: proved up to a gain and an offset, negation proved."},
 "C125": {"status": "proved", "note": "Exact numbers; transfer functions of the pattern shape; constant results (zero divided by zero) are outside the model."},
 "C126": {"status": "partial", "note": "Proved for dictionary indexing with a new metric (valid arguments; if the mask leaves nothing in the part, ValueError, also proved), for Hough indexing, and for refinement with a crystal map of the points of the part alone. Missing, and false: refinement of a part with the crystal map obtained by slicing (s.inav[...].xmap or xmap[...]), which raises an error (C126_sliced_map_raises, C126_sliced_map_violated). That inav takes the projection centers of the part is proved too."},
 "C127": {"status": "partial", "note": "C127_patterns covers every setting file in the documented layout, every set of image files and all refusals. The region of interest and the scaled positions are proved for rows with decimals and a non-zero width. False in general: the detector has the shape in the setting file, not of the images (C127_detector_shape_violated); a width without decimals or of zero pixels gives no or invalid positions (C127_width_violated); an overview resolution which is not two numbers makes loading fail with a KeyError (C127_overview_violated)."},
 "C128": {"status": "partial", "note": "C128_in_place and C128_in_place_stopped cover every pattern-wise function, chunking, schedule and stopping point; C128_lazy_copies every history if Dask copies arrays in memory. Averaging in place is proved if Dask copies or there is one chunk, and lazy histories without copying if no signal is processed in place while a lazy signal of its array exists. False in general: without copying, averaging in place in several chunks depends on the schedule (C128_average_violated), and a lazy signal changes when the signal it comes from is processed in place (C128_lazy_violated); repeating an interrupted call processes patterns twice (C128_repeat_violated). Whether Dask copies depends on its version and is a parameter."},
 "C129": {"status": "partial", "note": "C129_save_load, C129_projection_centers and C129_again cover every map with patterns of at least 2 x 2 pixels, every number of PCs and numbers or ASCII text about the microscope; C129_again assumes that orix stores crystal maps exactly and that shapes of crystal maps have no axes with one point. False in general: the crystal map of a map with one row is replaced by an empty one after two cycles, whatever orix does (C129_single_row_violated); microscope metadata other than four values is lost (C129_other_keys_violated), as are all values after one which is None (C129_none_violated); a missing background is loaded as -1 and PCs which do not fit the map are padded with 0.5 (stated in the theorems)."},
 "C13": {"status": "proved", "note": "Exact arithmetic; patterns constant after correction and zero divisors are excluded by hypothesis (the code divides by zero)."},
 "C130": {"status": "partial", "note": "C130_outliers and C130_estimate cover every sequence of draws and scores; no outlier may be within the median absolute deviation of the plane, and no line drawn may be near as many projection centers as the plane. C130_fit_partial: fit_pc with the mask, for detectors which are not tilted (false otherwise, C76_detector_tilt_violated). False in general: estimate_xtilt(detect_outliers=True) also returns the outliers when return_outliers is False, so the result is a tuple, not a number (C130_return_violated). scikit-learn RANSAC is modelled from knowledge of its source."},
 "C131": {"status": "partial", "note": "C131_lazy_kept, C131_no_overwrite, C131_usable and C131_add cover every history in one process, with HDF5 modelled from knowledge of its source (shared mode of handles, no truncation of open files). C131_closed_partial: files are closed by calls which succeed. False in general: neither reader nor writer closes the file when an error is raised, so after asking for a missing scan (C131_load_violated) or a refused addition (C131_save_violated) the file can not be overwritten as long as the exception is referred to."},
 "C132": {"status": "partial", "note": "Proved for all histories of operations which are regular: backgrounds of the right shape, slices without steps which select something (of patterns: not negative or open-ended from the middle), cropping with indices, any downsampling and rebinning, grids without crystal map. Not true in general: C132_background_violated, C132_remove_violated, C132_one_pc_violated, C132_grid_violated."},
 "C133": {"status": "partial", "note": "Proved for master patterns whose hemispheres have the same range of intensities or are 32-bit floats (see C77), and optimizers which do not return a worse point than their start. False: points which are not indexed in a map have score 0 after refinement, so that where the refined scores of the other maps are negative the merged map has the phase of the map which is not indexed there, with the identity as rotation (C133_not_indexed_violated). The phase needs every phase to be best somewhere (see C25)."},
 "C134": {"status": "partial", "note": "Starting points, symmetric operators and the index of the best starting point are proved for all crystal maps and operators; finding the explaining orientation is proved for 32-bit float master patterns or hemispheres with the same range (otherwise false, see C123_hemispheres_violated). Euler angles from orix are a parameter with the hypothesis that they describe the rotation (exactEuler_faithful shows it can be met)."},
 "C135": {"status": "proved", "note": "Detectors that differ only in sample tilt, tilt, azimuthal and twist: one unit rotation turns every orientation into the equivalent one (C135_rotation_exists); equal tilt difference needs none (C135_tilted_together); same patterns (C135_same_patterns), same scores in refinement (C135_same_scores, C135_angles_not_seen), same indices and scores from dictionary indexing (C135_same_indexing), same lines (C135_same_lines). Real-number arithmetic."},
 "C136": {"status": "proved", "note": "Exact real and complex numbers. The penalty in the specification is the mean of the weights the code gives a wave and its opposite, which differ (k squared and (k + 1) squared); no image of real intensities can tell."},
 "C137": {"status": "partial", "note": "Equivariance of intensities and of get_patterns under all sixteen operations of the grid, symmetric master patterns give the same patterns and scores for equivalent orientations (_partial: only these operations). False for three-fold axes: C137_three_fold_violated."},
 "C138": {"status": "partial", "note": "Proved over the reals for all sizes: the intensity is continuous in the direction iff the hemispheres have the same border (C138_intensity_iff); patterns, scores and the minimized functions are continuous in orientation and projection center given equal borders and a simulated pattern which is not constant where it is normalized. False in general: refinement rescales the hemispheres of master patterns which are not float32 one by one, so that hemispheres which meet no longer meet and the score jumps from -1 to 1 for arbitrarily small rotations (C138_rescaled_violated). Rounding in float32 is not part of the statement."},
 "C139": {"status": "proved", "note": "Moved projection centers (C139_moved), downsampling by any factor (C139_downsampled: direction of the middle of the block) and by odd factors (C139_downsampled_odd: the middle pixel), pixel size and binning (C139_units). Exact arithmetic; intensities before whole patterns are rescaled to another data type."},
 "C14": {"status": "proved", "note": "Composition is proved for floating point patterns; for integer patterns rounding breaks it (shown)."},
 "C140": {"status": "partial", "note": "Proved for larger-is-better metrics with scores of at least -1 (all scores of the built-in metrics): scores for smaller keep_n, reordered, extended and split dictionaries; and the matched patterns if no two scores are equal and all are above -1. False: the matched patterns when a dictionary pattern has a score of exactly -1 (C140_order_violated), and scores below -1 (C21_scores_below_minus_one_are_lost)."},
 "C141": {"status": "partial", "note": "Proved for every simulation, index naming a pattern, format and flags: which collections are returned, their coordinates, labels and sizes, and that plot shows them. Violated: plot with labels is an IndexError for a pattern without zone axes (C141_plot_partial is exact about when, C88_plot_violated is a witness), and a single number as index into a 2D map returns the lines of the whole row as if they were of one pattern (C141_row, C141_row_violated)."},
 "C142": {"status": "proved", "note": "All sequences of calls with floating point output and all signals without constant patterns, seven following operations, all pairs of transfer functions of which one is centrally symmetric, all pairs of downsampling factors. C142_integers_matter and C142_relative_matters show that the restriction to floating point output and to rescaling of each pattern by itself is needed."},
 "C143": {"status": "proved", "note": "The returned detector, distances, angle, average, equal sizes and repeated extrapolation; odd numbers of rows and columns and an integer binning are needed (C143_odd_matters, C143_integer_binning_matters)"},
 "C144": {"status": "proved", "note": "Reversed rows, reversed columns and exchanged axes for averages, dot product matrices, their averages and orientation similarities, with any chunks; odd windows are needed (C144_odd_matters)"},
 "C145": {"status": "proved", "note": "For every accepted call, all four axes and all rectangles, with start and end given as indices (numbers in units of the axis: C50_not_crop_units). HyperSpy crop and crop_signal are modelled as documented."},
 "C146": {"status": "partial", "note": "Rescaling, static background removal, normalization: any permutation of pixels, whole signal (C146_rescale, _rescale_signal, _static, _normalize, _normalize_signal); scores and dictionary indexing (C146_scores, _indexing); downsampling (C146_downsample); fft_filter in both domains with the flipped window or transfer function (C146_filter_spatial, _filter_frequency, _transfer); dynamic background in the frequency domain for odd windows (C146_dynamic_partial). Missing: even windows along a reversed direction, where the claim is false of the code (C97_mirror_violated); floating point rounding of sums."},
 "C147": {"status": "proved", "note": "All interleavings, any number of blocks, patterns and operators: results and exceptions of each pattern alone (C147_alone, C147_no_failure, C147_unique), termination (C147_terminates, C147_progress, C147_finishes), unchanged shared optimizer, settings, and agreement with the functional model of C77 (C147_as_function)."},
 "C148": {"status": "proved", "note": "Over the real numbers, for the sixteen operations which keep the grid of a master pattern; C148_patterns is get_patterns as a whole, including errors."},
 "C149": {"status": "proved", "note": "The proviso is necessary: C149_careless_violated. Contents of objects are opaque."},
 "C15": {"status": "proved", "note": "For all non-empty image and window shapes and every FFT padding at least as large as required; rfft2/irfft2 modelled as (half spectrum) discrete Fourier transforms, exact arithmetic."},
 "C150": {"status": "partial", "note": "Same size, combined scores and not indexed points for every order and with masks, same data (C150_order) and phase (C150_phases) where one map is better than all others; not indexed iff all maps say so (C150_indexed); merging one after the other gives the same data where one of the first maps is indexed (C150_one_after_other). Partial because the code breaks the rest: ties (C150_ties_violated), points not indexed in the first maps get scores of zero which may win later (C150_not_indexed_violated), phases of merged maps are lost when merged again (C150_one_after_other_phases_violated)."},
 "C151": {"status": "proved", "note": "Locality of averages (C151_average_local, any coefficients), dot products and their averages (C151_dots_local, any zero_mean and normalize) and orientation similarity (C151_similarity_local); gain and offset (C151_average_gain), window factor (C151_window_scale), uniform surroundings (C151_average_uniform, C151_dots_uniform), symmetry (C151_dots_symmetric)."},
 "C152": {"status": "partial", "note": "The whole text is proved to load as the file of C58. For maps of PCs of two or more axes, a file stopped after any number of characters is proved to raise, to load without any number (stopped in the header), or to have everything but the last number right. Violated by the code: the shape of a map of one axis is written as \"(n,)\", which is not understood when read, so a stopped file loads with fewer PCs (proved for every number of rows); the last number can be cut (\"0.6\" for \"0.6250000\"), as nothing marks the end of the file."},
 "C153": {"status": "partial", "note": "The last sentence is false: np.argmax and np.argmin return the first NaN, so a starting point where the simulated pattern has no contrast is reported in place of one with a score (C153_start_without_score_violated). The rest is proved, for master patterns whose hemispheres have one intensity scale as in C77 (C153_pattern_without_contrast and C153_other_points need no such hypothesis), in exact arithmetic and with 0 / 0 taken to be NaN."},
 "C154": {"status": "partial", "note": "C154_edax_violated: EDAX files of version 1 (without nav_shape) and hexagonal grids have no pattern count; a cut file is loaded as a shorter scan (C154_edax_leading_partial says which patterns). Square grids and Oxford files: C154_edax_grid, C154_oxford."},
 "C155": {"status": "proved", "note": "To gnomonic and to pixel coordinates against the exact projection, both round trips, and pixels found again. Reorderings by fastmath other than a fused product and sum are not modelled."},
 "C156": {"status": "proved", "note": "Arrays long enough, positions, directions and lengths of directions, and masks. The function for varying PCs runs the same operations for each PC. Reorderings by fastmath beyond sums, fused operations and reciprocals in the length are not modelled."},
 "C157": {"status": "proved", "note": "Sum over asymmetric positions in float32 in any order: accuracy, brightness, axes, lazy against non-lazy, and exactly the same for at most two positions. C157_not_same shows that three positions can differ in the last digit. Overflow is not modelled."},
 "C158": {"status": "partial", "note": "The accuracy of the place where the master pattern is read is proved for every direction, pixel and orientation. Missing: other reorderings than fused operations and reciprocals allowed by fastmath, and overflow. The intensity itself is treated in C159."},
 "C159": {"status": "partial", "note": "Proved for every order of products and sums in the interpolation, fused or not, and for conversion to 32-bit or 64-bit floating point numbers. Rescaling of patterns and conversion to integers are treated in C160. Missing: overflow, and evaluations allowed by fastmath in the rotation and projection other than those modelled."},
 "C16": {"status": "partial", "note": "False for shapes (1, n): IndexError (C16_circular_single_row_fails); n_neighbours is too small for even lengths (C16_n_neighbours_even_too_small). The rest is proved."},
 "C160": {"status": "partial", "note": "Proved for one pattern with all its pixels: from computed directions with a known error, rescaled (C160_pattern) or not (C160_not_rescaled), and from any list of pixels of a detector, such as all of them or those of a mask (C160_detector). C160_range: for all inputs, rescaled patterns which are not constant keep the order of intensities and reach but are not below the lower limit, and with a division (not with a reciprocal, C104) the same for the upper limit; the limits and their difference must be numbers of the formats. Missing: overflow, the difference of the limits of the output range is not rounded, and evaluations allowed by fastmath other than those modelled."},
 "C17": {"status": "partial", "note": "False for 2D shapes with an axis of length 1 (C17_single_row_or_column_fails); the rest is proved."},
 "C18": {"status": "partial", "note": "chunk independence and weighted mean for windows with origin coefficient >= 1; false for normalized windows (integer window sums) and one-axis windows on chunked columns"},
 "C19": {"status": "partial", "note": "odd window axes or unchunked axes; false for even axes on chunked maps"},
 "C20": {"status": "proved", "note": ""},
 "C21": {"status": "partial", "note": "False of the code when several iterations are used and a dictionary score is -1 or lower (initial values -1 win); negations proved. Proved for all other score tables and all tie-breaking."},
 "C22": {"status": "partial", "note": "False of the code: the sign is ignored when matching a chunk; negations proved. Proved when chunks are at most keep_n long."},
 "C23": {"status": "proved", "note": ""},
 "C24": {"status": "proved", "note": ""},
 "C25": {"status": "partial", "note": "Best map per point, sorted merged scores, unique simulation indices, phases for differently named phases. False: single-point maps with several scores raise; identical phases may get two IDs."},
 "C26": {"status": "partial", "note": "False as stated: an uncovered point makes the merge raise; with masks no point is ever not indexed. Both proved for all inputs."},
 "C27": {"status": "partial", "note": "Values proved for maps with two axes, any footprint with its center_index; bounds and value 1 for equal match sets. Proved false for maps with one axis (IndexError). Points without neighbours are NaN."},
 "C28": {"status": "proved", "note": ""},
 "C29": {"status": "partial", "note": "Proved for square master patterns. Non-square master patterns are accepted and read outside the array (C29_not_square)."},
 "C30": {"status": "proved", "note": ""},
 "C31": {"status": "partial", "note": "False for the zero Rodrigues vector, which gives NaN (C31_rodrigues_zero)."},
 "C32": {"status": "partial", "note": "False for detectors with one PC along the first of two navigation axes (C32_not_for_unit_axis)."},
 "C33": {"status": "proved", "note": "For calls that return. Maps sliced so that points are not in the data raise, see C33_sliced_map_raises."},
 "C34": {"status": "partial", "note": "Bounds proved for float trust regions; false without a trust region for three SciPy methods and for integer arrays when refining orientations and PCs together."},
 "C35": {"status": "partial", "note": "History independence proved; argument mutation (trust_region, method_kwargs) proved as a violation."},
 "C36": {"status": "proved", "note": "Scores which are numbers; NaN scores are C153."},
 "C37": {"status": "proved", "note": ""},
 "C38": {"status": "partial", "note": "Suffix and default proved for explicit names; the extension argument and the extension a signal was loaded from are ignored (violations proved)."},
 "C39": {"status": "proved", "note": "At the level of the file; the prompt itself may accept a used number, after which the call raises."},
 "C40": {"status": "partial", "note": "The round trip is proved for every signal with at least two rows and columns in the map and in the pattern, a stored background and unit detector scales (C40_round_trip_partial); the full statement is false and counterexamples are proved: a missing background returns as -1, detector scales are lost, unit axes vanish."},
 "C41": {"status": "partial", "note": "The round trip is proved for every storable dictionary, recursively (C41_round_trip_partial); the full statement is false and counterexamples are proved: entries after a None are dropped, non-ASCII text fails, length-one arrays return as scalars, white space in keys is lost, lists return as arrays."},
 "C42": {"status": "partial", "note": "Round trip and truncated files are proved for every size (C42_round_trip_partial, C42_truncated_file). Lazy reading gives the same signal only without unit axes and for complete files (C42_lazy_partial); counterexamples for the rest."},
 "C43": {"status": "partial", "note": "Positions, completeness and independence of the listing order are proved for distinct and complete coordinates, and the fallback for a wrong number of files; false for repeated coordinates with a matching count and for files without coordinates (proved)."},
 "C44": {"status": "partial", "note": "Proved for every order when all patterns are present with both beam positions, and for missing patterns in sorted files; false for missing patterns in unsorted files and for footers without beam positions (proved)."},
 "C45": {"status": "partial", "note": "Proved for several map rows and for files of version 1; false for single rows (proved)."},
 "C46": {"status": "partial", "note": "Full rectangles in any storage order are placed correctly; gaps and unequal row or column counts are rejected. False for e.g. a square without its diagonal (accepted and misplaced)."},
 "C47": {"status": "proved", "note": "Ranges overlapping no energy because they are entirely above or below raise IndexError (stated)."},
 "C48": {"status": "proved", "note": ""},
 "C49": {"status": "partial", "note": "False for the second and later signals of a file."},
 "C50": {"status": "partial", "note": "Holds for plain signal slices and all navigation slices without step. False for open-ended, negative and stepped signal slices, for steps in navigation (crystal map shape), isig followed by inav with one PC, and crop with axis units."},
 "C51": {"status": "partial", "note": "Patterns, PCs, crystal map points and indices agree for every grid; number of points is the one asked for if the map size exceeds its square. False in general: fewer points than asked for, with axes of the size asked for."},
 "C52": {"status": "partial", "note": "deepcopy, rebin, inav, isig and extract_grid isolate for every history; the intensity methods, as_lazy and downsample share objects (negation proved); assignments are isolated for all."},
 "C53": {"status": "partial", "note": "Partition and sum proved for offset-zero axes and grids with no edge half-way between pixels (all odd and all dividing grids); false for other grids and after set_detector_calibration (negations proved)."},
 "C54": {"status": "partial", "note": "All classes and methods but VirtualBSEImage.normalize_intensity forward faithfully; that one swaps dtype_out and show_progressbar (negation proved)."},
 "C55": {"status": "partial", "note": "All shapes and chunk shapes; dask normalize_chunks modelled from its documentation, with the automatic size as a positive parameter. For lazy signals, patterns already split stay split and the chunk shape is ignored (_violated)."},
 "C56": {"status": "partial", "note": "Bands and zone axes characterised for all inputs; zone axes near a corner are missed for PCs in the lower right quadrant, one-sided reflectors are missed, and pixel coordinates differ from to_pixel_coords by (n-1)/n (negations proved)."},
 "C57": {"status": "partial", "note": "The bound and the invariances are proved; the claim that constant patterns attain 1 is false of the code and its negation is proved (C57_zero_frequency_not_one)."},
 "C58": {"status": "proved", "note": "All detectors, conventions and numbers of decimals. Header text modelled per character; str(float)/float(str) round trip assumed (FloatText); text of PC rows modelled as rounded numbers."},
 "C59": {"status": "partial", "note": "False of the code when percentiles are passed with relative=True (not rejected; negation proved)."},
 "C60": {"status": "partial", "note": "False for real_fft_only=True and an odd number of columns (C60_ifft_fft_real_odd_fails); everything else proved."},
 "C61": {"status": "partial", "note": "The maximum is 1 only for odd lengths (C61_hann_even_maximum_fails)."},
 "C62": {"status": "partial", "note": "False (C62_not_inversion); proved when the master pattern is unchanged by half a turn about its normal."},
 "C63": {"status": "partial", "note": "Proved for equal shapes or a navigation shape of (1,). False for a single PC in two navigation axes (C63_not_for_two_axes)."},
 "C64": {"status": "partial", "note": "False for Euler angles: degrees are used as radians. PC part and checks proved."},
 "C65": {"status": "partial", "note": "False if overwrite=True is passed too."},
 "C66": {"status": "partial", "note": "Proved for maps with several rows and columns (C66_axes_partial); false for single rows and integer scan sizes (proved)."},
 "C67": {"status": "partial", "note": "Proved for files of version 3 and later with square grids and files of version 1 below 4 GiB; version 1 files of 4 GiB and more fail with NumPy 2 (proved)."},
 "C68": {"status": "partial", "note": "Proved before version 5 without large jumps in the table; false for missing patterns in files above 58 MB and for version 5 (proved)."},
 "C69": {"status": "partial", "note": "Proved for at least two columns unless the origin is half-way between steps; counterexamples for a single column and half-way positions."},
 "C70": {"status": "partial", "note": "False: projection centers are never reordered, patterns are. Holds for files in map order."},
 "C71": {"status": "partial", "note": "False for Lambert projection, one hemisphere and several asymmetric positions (axis names are shifted)."},
 "C72": {"status": "partial", "note": "False: the axis offset is never updated; differences of coordinates are kept."},
 "C73": {"status": "partial", "note": "Size limit and termination proved for all sizes. Not empty proved for two or more map positions and rows of at most a fourth of the limit; false for a single map position (C73_single_position_empty)."},
 "C74": {"status": "partial", "note": "Model values proved for all selections. Learning results stay truncated when HyperSpy raises, and the temporary file stays when writing fails, e.g. always for signals without four axes (negations proved)."},
 "C75": {"status": "partial", "note": "Proved for equal scales which divide the detector shape (C75_same_detector_partial), the static background and rebinned maps. Violated otherwise: different scales (C75_different_scales_violated) and cropped pixels (C75_crop_violated)."},
 "C76": {"status": "partial", "note": "Affine fit, estimate_xtilt and estimate_xtilt_ztilt proved for all planes, positions and outliers. With a tilted detector fit_pc returns a sample tilt wrong by twice the detector tilt, and outliers given as a list are ignored by estimate_xtilt_ztilt (negations proved). The projective fit is C103, the robust (RANSAC) fit C130."},
 "C77": {"status": "partial", "note": "Proved for every optimizer that reports the objective at the point it returns, in exact arithmetic, for master patterns whose hemispheres have one intensity scale. Without the last hypothesis the statement is false: hemispheres are rescaled to [-1, 1] one by one (C77_hemispheres_violated)."},
 "C78": {"status": "partial", "note": "Pairing of patterns, PCs and map points, acceptance of indexers, phases and reflectors proved for all inputs. False as stated: making a map overwrites the rotations of patterns not indexed in the results array (C78_data_violated), data_index is checked as a phase ID but used as a row (C78_data_index_violated), PCs of a map of another shape are accepted (C78_map_shape_violated), lattice parameters may differ by a relative 1e-5 (C78_lattice_violated), a single vector for three phases is ignored (C78_reflectors_violated)."},
 "C79": {"status": "partial", "note": "Channels, value range, order and gain invariance proved for all inputs (images that are not constant). False: brightness and contrast have no effect unless intensities are clipped (C79_brightness_violated), coloured edges of tiles that are not square are misplaced (C79_markers_violated), axis offsets are lost (C79_offset_violated)."},
 "C80": {"status": "partial", "note": "Pixel values, order of reflectors, inversion and refusals proved for all inputs with one thread. False with several threads: the compiled parallel loop adds to shared pixels without synchronisation, and for every two threads sharing a pixel a schedule loses a band (C80_schedule_violated); bounds and single-thread pixels hold under every schedule. False: one-sided reflectors (C80_one_sided_violated), axes for \"Both\" (C80_axes_violated), coordinate of the middle pixel (C80_middle_violated)."},
 "C81": {"status": "partial", "note": "Verification, offline behaviour, downloads of single files and the gain series proved for every cache state and server. False: archives after interrupted unpacking (C81_archive_violated, second call proved to succeed), settings files are not verified (C81_settings_violated), clear_cache after a change of the environment variable or with ~ (C81_clear_violated). The behaviour of the pooch package is assumed as documented in the model."},
 "C82": {"status": "partial", "note": "False in full: the title of a section in free text, for instance in the name of the specimen, replaces the section (C82_titles_violated). A resolution row of the overview image without two numbers raises KeyError (C82_area_violated)."},
 "C83": {"status": "partial", "note": "False in full: several names of which none is in the file give an empty list (C83_missing_violated); without a name, scan 10 is read before scan 2, and another group that is first in the order of names makes it raise (C83_default_violated)."},
 "C84": {"status": "partial", "note": "Change of projection proved. False for plotting: pixels black in the upper pattern are missing in both hemispheres (C84_plot_black_violated), pixels outside of the disk that are not black are plotted in the other hemisphere (C84_plot_outside_violated), a single hemisphere of a centrosymmetric phase is mirrored (C84_plot_one_hemisphere_violated)."},
 "C85": {"status": "partial", "note": "Proved: which arguments are accepted, the best matches of the unmasked pixels at each unmasked point, no dependence on history for metrics given by name or when masks and data type are given. Violated: a metric object keeps masks and data type from earlier calls, and the shape of the signal mask is not checked. Scores of -1 or lower and lower-is-better metrics: see C21, C22."},
 "C86": {"status": "partial", "note": "Proved for all sequences: map shape and presence of the static background; axes and metadata without the three operations which rebuild the signal from an array; a usable background if no other data type is asked of rescale/normalize. The rest is violated, with theorems for every signal."},
 "C87": {"status": "partial", "note": "Acceptance is proved sound and complete and the comparison of phases characterised; false parts: improper symmetry operations are not compared (point groups 2 and m are the same phase), atoms are compared in order, the tolerance makes sameness neither symmetric nor transitive, refined maps always start in the origin, and a mask of points not indexed gives an indexing error"},
 "C88": {"status": "partial", "note": "The code violates the rest: gnomonic zone axes are not restricted to the detector, labels with two digit indices are ambiguous, plot fails without zone axes and shows the average PC."},
 "C89": {"status": "partial", "note": "Proved if each block has its own keyword dictionary or the method does not write to it. With a shared dictionary the code violates it; whether it is shared is up to Dask."},
 "C90": {"status": "partial", "note": "Proved for complete 2D maps and single patterns. False for Oxford line scans (detector shape), missing PC datasets, incomplete Oxford maps, padded line scans, and binning of cameras with 2048 rows or more."},
 "C91": {"status": "partial", "note": "Proved except for setting an EBSD signal to its own type, which resets its attributes, and unknown types with \"master\" in them, which raise after a master pattern has lost its attributes (given what HyperSpy does when it assigns a class)."},
 "C92": {"status": "partial", "note": "Acceptance, errors, value and shape at one position proved for all arguments. Agreement with the all-positions result is false for coordinate arrays whose shape starts with the map shape (C92_all_positions_violated), proved otherwise."},
 "C93": {"status": "partial", "note": "Proved for all histories: figures show their own widgets, slider moves reach the detector, independence of a copy, overlay rules, slider limits. False: C93_outside_change_violated, C93_two_figures_violated, C93_late_overlay_violated, C93_pcz_zero_violated, C93_kwargs_violated; C93_overlays_shown_partial needs overlays to be set before the first show."},
 "C94": {"status": "partial", "note": "The drawn sample, projection centre and screen corners agree with the sample-to-detector matrix for one projection centre without twist (top) and azimuthal angle (side); gnomonic circles are exact. False with azimuthal angle (side) or twist (top), with several projection centres (first distance, ValueError for most maps of them), for distant screens (axis limits), for the projection centre in pixel coordinates (off by pcx pixels against the coordinate conversion), and zooming out with the projection centre beside the detector."},
 "C95": {"status": "partial", "note": "Shapes and values of one and two axes, circular windows (but a single row, C16), defaults and errors proved. False: three axes are silently reduced to one, keyword names are ignored (order counts), the shape is checked for custom arrays, the caller's NumPy array is changed by make_circular, shape_compatible raises for windows with fewer (but more than one) axes than the data."},
 "C96": {"status": "partial", "note": "Well-formed files without binning are read completely for every content and scan size; documented width/height order, map shape for two-dimensional scans, binning, units and titles with dots are violated."},
 "C97": {"status": "partial", "note": "Proved for the frequency domain: weighted mean, signal result, chunks. The stated truncation, centring, integer input, unchanged argument, default of the signal method and dtype_out are false of the code (_violated)."},
 "C98": {"status": "partial", "note": "Proved: markers relative to the region, images, limits, grid positions, contents of PC figures. False of the code: marker in the middle of its pixel, documented subtraction of the origin, adding to the axis of an area, types of origin, unchanged figure_kwargs (_violated)."},
 "C99": {"status": "partial", "note": "Proved for given regions and for square patterns of at least four rows; the default region of other patterns is swapped or an error (_violated)."}
}
