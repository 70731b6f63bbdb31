{"id": "C01", "title": "Projection center conventions round-trip", "statement": "A projection center given to EBSDDetector(pc=..., convention=c) is returned unchanged by the accessor for the same convention (pc_bruker, pc_tsl, pc_oxford, pc_emsoft(version)), and a Bruker PC exported in any convention and passed back with that convention gives the original Bruker PC.", "quantifier": "every detector shape with non-zero rows and columns, every non-zero binning and pixel size, every PC triple, every convention and alias and both EMsoft versions", "why_tests_cant": "A continuum of PCs, shapes, binnings and pixel sizes; tests sample a handful of values and one aspect ratio per convention.", "anchors": ["src/kikuchipy/detectors/_ebsd_detector.py: _get_pc_in_bruker_convention", "src/kikuchipy/detectors/_ebsd_detector.py: _get_pc_in_convention", "src/kikuchipy/detectors/_ebsd_detector.py: _pc_emsoft2bruker", "src/kikuchipy/detectors/_ebsd_detector.py: _pc_tsl2bruker", "src/kikuchipy/detectors/_ebsd_detector.py: _pc_oxford2bruker", "src/kikuchipy/detectors/_ebsd_detector.py: _pc_bruker2emsoft", "src/kikuchipy/detectors/_ebsd_detector.py: _pc_bruker2tsl", "src/kikuchipy/detectors/_ebsd_detector.py: _pc_bruker2oxford"]}
{"id": "C02", "title": "All PC conventions describe the same physical point", "statement": "Converting a PC between vendor conventions never moves the physical projection center: the point (pixels from the left edge, pixels from the top edge, detector distance in pixels) that a convention's definition assigns to the PC triple is the same before and after conversion to Bruker's convention.", "quantifier": "every convention, every non-square shape, binning, pixel size and PC", "why_tests_cant": "Round-trip tests cannot see a conversion error that is undone by its own inverse; only the meaning of every convention over all shapes shows it.", "anchors": ["src/kikuchipy/detectors/_ebsd_detector.py: _pc_emsoft2bruker", "src/kikuchipy/detectors/_ebsd_detector.py: _pc_tsl2bruker", "src/kikuchipy/detectors/_ebsd_detector.py: _pc_oxford2bruker"]}
{"id": "C03", "title": "Unknown PC conventions are rejected, aliases accepted case-insensitively", "statement": "The convention argument selects Bruker, TSL, Oxford or EMsoft exactly for the documented names and aliases in any letter case, and any other string raises ValueError.", "quantifier": "every string", "why_tests_cant": "The space of strings is infinite.", "anchors": ["src/kikuchipy/detectors/_ebsd_detector.py: PC_CONVENTIONS_ALIASES", "src/kikuchipy/detectors/_ebsd_detector.py: _get_pc_convention_or_raise"]}
{"id": "C04", "title": "Pixel and gnomonic coordinates are inverse maps", "statement": "EBSDDetector.to_pixel_coords(to_gnomonic_coords(c)) = c and the converse, for each sample position; the pixel position of the PC maps to gnomonic (0, 0); and the detector's pixel edges map to the gnomonic bounds.", "quantifier": "every detector shape, every PC with non-zero PCz, every coordinate pair", "why_tests_cant": "Coordinates and PCs range over a continuum; a unit test checks a few points on one detector.", "anchors": ["src/kikuchipy/detectors/_convert_detector_coordinates.py: get_pixel_to_gnomonic_coords_conversion_numba", "src/kikuchipy/detectors/_convert_detector_coordinates.py: get_gnomonic_to_pixel_coords_conversion_numba", "src/kikuchipy/detectors/_convert_detector_coordinates.py: convert_coordinates", "src/kikuchipy/detectors/_ebsd_detector.py: gnomonic_bounds"]}
{"id": "C05", "title": "Cropping a detector preserves gnomonic geometry", "statement": "After detector.crop((top, bottom, left, right)), pixel (y, x) of the cropped detector has the same gnomonic coordinates as pixel (y + top, x + left) of the original detector; extents are clamped to the detector, empty extents raise ValueError, and cropping twice equals cropping once with the composed extent.", "quantifier": "every shape, PC (including one PC per map point), and extent", "why_tests_cant": "All extents on all shapes, including ones reaching outside the detector, cannot be enumerated.", "anchors": ["src/kikuchipy/detectors/_ebsd_detector.py: crop", "src/kikuchipy/detectors/_ebsd_detector.py: to_gnomonic_coords"]}
{"id": "C06", "title": "Cropping a detector keeps every other detector parameter", "statement": "detector.crop() returns a detector that differs only in shape and PC: tilt, sample_tilt, azimuthal, twist, binning and px_size and the navigation shape are kept.", "quantifier": "every detector and valid extent", "why_tests_cant": "A dropped field is only visible for detectors where it is non-default.", "anchors": ["src/kikuchipy/detectors/_ebsd_detector.py: crop", "src/kikuchipy/detectors/_ebsd_detector.py: __init__"]}
{"id": "C07", "title": "r_max bounds the whole detector", "statement": "detector.r_max is the largest gnomonic distance from the PC to any point on the detector, so no pixel is further away from the PC.", "quantifier": "every shape and every PC, also PCs outside the detector", "why_tests_cant": "The largest corner depends on the sign structure of the PC; tests with a central PC cannot distinguish corners.", "anchors": ["src/kikuchipy/detectors/_ebsd_detector.py: r_max"]}
{"id": "C08", "title": "Sample-to-detector transformation is a proper rotation", "statement": "detector.sample_to_detector is an orthonormal, right-handed transformation for all tilt angles, and for zero angles it reduces to the documented axis permutation.", "quantifier": "all real sample tilt, tilt, azimuthal and twist angles", "why_tests_cant": "Four continuous angles.", "anchors": ["src/kikuchipy/detectors/_ebsd_detector.py: _sample_to_detector_matrix", "src/kikuchipy/detectors/_ebsd_detector.py: sample_to_detector"]}
{"id": "C09", "title": "Extrapolated PCs follow the documented plane", "statement": "extrapolate_pc(pc_indices of shape (2, n), ...) gives the average PC in the average map position and, in every other map position, the PC displaced according to the documented equations for step sizes, tilts, pixel size and binning.", "quantifier": "every set of PCs, indices, navigation shape and step sizes", "why_tests_cant": "Errors appear only for more than one PC with unequal row and column positions.", "anchors": ["src/kikuchipy/detectors/_ebsd_detector.py: extrapolate_pc"]}
{"id": "C10", "title": "Moving-screen calibration recovers the exact PC", "statement": "If the points in the 'out' pattern are the points in the 'in' pattern scaled about (PCx, PCy) by the ratio of detector distances, then every PC estimate of PCCalibrationMovingScreen whose intersection is defined, and hence the mean PC, equals the true PC.", "quantifier": "every number of points, point positions, distance and detector shape", "why_tests_cant": "All point sets; the pairing of intersections with line lengths matters only for general position.", "anchors": ["src/kikuchipy/detectors/_calibration.py: PCCalibrationMovingScreen", "src/kikuchipy/detectors/_calibration.py: _get_intersection_from_lines"]}
{"id": "C11", "title": "Intensity rescaling maps ranges exactly and monotonically", "statement": "rescale_intensity maps the input range limits to the output range limits, clips values outside the input range, keeps all output within the output range, and preserves the order of intensities.", "quantifier": "every pattern of every size, every non-degenerate input range and every output range", "why_tests_cant": "Arrays of arbitrary size with arbitrary values.", "anchors": ["src/kikuchipy/pattern/_pattern.py: rescale_intensity", "src/kikuchipy/pattern/_pattern.py: _rescale_with_min_max"]}
{"id": "C12", "title": "Intensity normalization gives zero mean and the requested standard deviation", "statement": "normalize_intensity returns a pattern with mean 0 and standard deviation num_std (divided by sqrt(size) on request), invariant under a positive affine change of the input.", "quantifier": "every non-constant pattern of every size", "why_tests_cant": "Continuum of patterns.", "anchors": ["src/kikuchipy/pattern/_pattern.py: normalize_intensity", "src/kikuchipy/pattern/_pattern.py: _normalize"]}
{"id": "C13", "title": "Background removal keeps output within the requested data range", "statement": "Removing the static or dynamic background by subtraction or division returns for every pattern a rescaled pattern whose minimum and maximum are the limits of the output data range, whatever the background.", "quantifier": "every pattern, every background without zero division, both operations", "why_tests_cant": "All pattern/background pairs.", "anchors": ["src/kikuchipy/pattern/_pattern.py: _remove_static_background_subtract", "src/kikuchipy/pattern/_pattern.py: _remove_static_background_divide", "src/kikuchipy/pattern/_pattern.py: _remove_background_subtract"]}
{"id": "C14", "title": "Downsampling sums disjoint pixel blocks", "statement": "downsample(factor) makes each output pixel from exactly its own factor x factor block: the blocks partition the detector, the total intensity before rescaling is unchanged, downsampling floating-point patterns by a then b equals downsampling by a*b, and factors not dividing the detector shape are rejected.", "quantifier": "every detector shape and factor", "why_tests_cant": "All shapes and factors.", "anchors": ["src/kikuchipy/pattern/_pattern.py: _bin2d", "src/kikuchipy/pattern/_pattern.py: _downsample2d", "src/kikuchipy/signals/ebsd.py: downsample"]}
{"id": "C15", "title": "Spatial FFT filtering equals direct edge-replicated correlation", "statement": "The FFT-based image filter (used for dynamic background and spatial-domain filtering) returns at each pixel the window-weighted sum of the image with edge values replicated outside the image, for every image and window size.", "quantifier": "every image shape, window shape and FFT padding at least as large as required, every pixel", "why_tests_cant": "Offsets differ for odd and even windows and for windows larger than the image; only a few shapes are tested.", "anchors": ["src/kikuchipy/filters/fft_barnes.py: _pad_image", "src/kikuchipy/filters/fft_barnes.py: _pad_window", "src/kikuchipy/filters/fft_barnes.py: _fft_filter"]}
{"id": "C16", "title": "Filter windows are well defined for every shape", "statement": "Window(window='circular', shape) returns a window of the requested shape whose coefficients are 1 within max(origin) of the origin and 0 outside; n_neighbours and origin describe how far the window reaches on each side.", "quantifier": "every 1D or 2D window shape", "why_tests_cant": "Shapes with a unit axis and even sizes are corner cases no finite test set exhausts.", "anchors": ["src/kikuchipy/filters/window.py: Window.make_circular", "src/kikuchipy/filters/window.py: distance_to_origin", "src/kikuchipy/filters/window.py: Window.n_neighbours"]}
{"id": "C17", "title": "Frequency filter transfer functions are bounded and complementary at the limits", "statement": "lowpass_fft_filter is 1 at or below the cutoff and 0 beyond twice the cutoff width, highpass_fft_filter is 0 beyond/1 above correspondingly, and all coefficients lie in [0, 1].", "quantifier": "every shape, cutoff and width", "why_tests_cant": "Continuum of cutoffs and widths.", "anchors": ["src/kikuchipy/filters/window.py: lowpass_fft_filter", "src/kikuchipy/filters/window.py: highpass_fft_filter"]}
{"id": "C18", "title": "Neighbour averaging does not depend on chunking", "statement": "average_neighbour_patterns gives each map point the window-weighted mean of its in-map neighbours' patterns, normalised by the weights inside the map, and the result is the same for every dask chunking of the map.", "quantifier": "every map size, window and chunking", "why_tests_cant": "Chunk boundaries interact with the window; all chunkings of all maps cannot be run.", "anchors": ["src/kikuchipy/signals/ebsd.py: average_neighbour_patterns", "src/kikuchipy/pattern/chunk.py: _average_neighbour_patterns", "src/kikuchipy/signals/util/_dask.py: _get_chunk_overlap_depth"]}
{"id": "C19", "title": "Neighbour dot products do not depend on chunking", "statement": "get_average_neighbour_dot_product_map and get_neighbour_dot_product_matrices return, for every map point, the dot products with all in-map window neighbours, independent of how the map is chunked.", "quantifier": "every map size, window shape (odd and even) and chunking", "why_tests_cant": "As above; even-sized windows are asymmetric.", "anchors": ["src/kikuchipy/signals/util/_map_helper.py: _map_helper", "src/kikuchipy/signals/util/_map_helper.py: _neighbour_dot_products", "src/kikuchipy/signals/util/_dask.py: _get_chunk_overlap_depth", "src/kikuchipy/signals/ebsd.py: get_average_neighbour_dot_product_map"]}
{"id": "C20", "title": "Average neighbour dot product map is consistent with the dot product matrices", "statement": "get_average_neighbour_dot_product_map computed directly equals the one computed from get_neighbour_dot_product_matrices: the mean over existing neighbours excluding the point itself.", "quantifier": "every map and window", "why_tests_cant": "All maps and windows.", "anchors": ["src/kikuchipy/signals/util/_map_helper.py: _map_helper", "src/kikuchipy/signals/ebsd.py: get_average_neighbour_dot_product_map"]}
{"id": "C21", "title": "Dictionary indexing returns the global best matches", "statement": "dictionary_indexing with keep_n=n returns for every pattern the n best-scoring dictionary indices of the whole dictionary, sorted from best to worst, each with its own score, independent of n_per_iteration.", "quantifier": "every dictionary size, score table, keep_n and n_per_iteration (also not dividing the dictionary size)", "why_tests_cant": "The iteration merges partial top lists; all splits and score tables cannot be tested.", "anchors": ["src/kikuchipy/indexing/_dictionary_indexing.py: _dictionary_indexing", "src/kikuchipy/indexing/_dictionary_indexing.py: _match_chunk"]}
{"id": "C22", "title": "Custom metrics with smaller-is-better scores are respected", "statement": "A similarity metric with sign = -1 makes dictionary indexing keep the smallest scores.", "quantifier": "every score table", "why_tests_cant": "No test uses such a metric with several chunks.", "anchors": ["src/kikuchipy/indexing/_dictionary_indexing.py: _match_chunk", "src/kikuchipy/indexing/similarity_metrics/_similarity_metric.py"]}
{"id": "C23", "title": "Navigation masks place results at the right map points", "statement": "With a navigation mask, dictionary indexing matches only unmasked patterns, and each result lands in the map point of its own pattern, with masked points not in the data.", "quantifier": "every mask and map shape", "why_tests_cant": "Exponentially many masks.", "anchors": ["src/kikuchipy/indexing/_dictionary_indexing.py: _dictionary_indexing", "src/kikuchipy/signals/ebsd.py: dictionary_indexing"]}
{"id": "C24", "title": "NCC and NDP scores are bounded and gain-invariant", "statement": "The normalized cross-correlation of any two non-constant patterns lies in [-1, 1], equals 1 for identical patterns and is unchanged by positive affine intensity changes; the normalized dot product of non-negative patterns lies in [0, 1] and is unchanged by positive scaling.", "quantifier": "every pair of patterns of every size", "why_tests_cant": "Continuum of patterns.", "anchors": ["src/kikuchipy/indexing/similarity_metrics/_normalized_cross_correlation.py", "src/kikuchipy/indexing/similarity_metrics/_normalized_dot_product.py"]}
{"id": "C25", "title": "Merged crystal maps pick the best-scoring phase in each point", "statement": "merge_crystal_maps assigns to each point the phase of the map with the best score there (the first one on ties), with that map's rotations, score and simulation indices, and the combined score list sorted from best to worst.", "quantifier": "every number of maps, points and candidates", "why_tests_cant": "All score tables.", "anchors": ["src/kikuchipy/indexing/_merge_crystal_maps.py: merge_crystal_maps"]}
{"id": "C26", "title": "Points outside all navigation masks are not indexed after merging", "statement": "When navigation_masks are given to merge_crystal_maps, points not covered by any map's mask are not indexed in the merged map.", "quantifier": "every set of masks", "why_tests_cant": "Exponentially many masks.", "anchors": ["src/kikuchipy/indexing/_merge_crystal_maps.py: merge_crystal_maps"]}
{"id": "C27", "title": "Orientation similarity map counts shared best matches", "statement": "orientation_similarity_map gives each map point the average over its in-map neighbours of the number of shared best-matching simulation indices, normalised to [0, 1], and 1 where all neighbours have the same matches.", "quantifier": "every map shape, n_best and footprint", "why_tests_cant": "All index tables.", "anchors": ["src/kikuchipy/indexing/_orientation_similarity_map.py: orientation_similarity_map"]}
{"id": "C28", "title": "Lambert projection is a bijection of the hemisphere", "statement": "The square Lambert mapping used for projecting master patterns maps unit vectors into the square of half-width sqrt(pi/2) and is inverted exactly by the inverse mapping on the upper hemisphere; antipodal vectors map to antipodal points.", "quantifier": "every direction", "why_tests_cant": "Continuum; branch boundaries (|x| = |y|, poles, equator).", "anchors": ["src/kikuchipy/signals/util/_master_pattern.py: _vector2lambert", "src/kikuchipy/signals/util/_master_pattern.py: _lambert2vector"]}
{"id": "C29", "title": "Master pattern interpolation never leaves the array and is a convex combination", "statement": "Projecting a pattern from a master pattern reads only existing master pattern pixels and every simulated intensity lies between the smallest and largest master pattern intensity; at grid points the master pattern value is reproduced.", "quantifier": "every direction, every odd or even square master pattern size", "why_tests_cant": "Out-of-bounds indices only occur on the equator/edge set of directions (numba does no bounds checking).", "anchors": ["src/kikuchipy/signals/util/_master_pattern.py: _get_lambert_interpolation_parameters", "src/kikuchipy/signals/util/_master_pattern.py: _get_pixel_from_master_pattern"]}
{"id": "C30", "title": "Direction cosines point at pixel centers", "statement": "The direction of detector pixel (r, c) is the unit vector along the gnomonic coordinates of the pixel center (r + 1/2, c + 1/2), rotated to the sample frame; varying-PC and fixed-PC computations agree per PC, and a signal mask selects exactly the unmasked pixels in row-major order.", "quantifier": "every detector, PC, mask and pixel", "why_tests_cant": "All shapes, PCs and masks.", "anchors": ["src/kikuchipy/signals/util/_master_pattern.py: _get_direction_cosines_for_fixed_pc", "src/kikuchipy/signals/util/_master_pattern.py: _get_direction_cosines_for_varying_pc"]}
{"id": "C31", "title": "Euler angles and Rodrigues vectors give unit quaternions acting as rotations", "statement": "The compiled conversions from Euler angles and Rodrigues vectors return unit quaternions with non-negative scalar part, and the compiled vector rotation preserves lengths and dot products, composes like quaternion multiplication and agrees with q v q*.", "quantifier": "every angle triple, Rodrigues vector, quaternion and vector", "why_tests_cant": "Continuum.", "anchors": ["src/kikuchipy/_utils/numba.py: rotation_from_euler", "src/kikuchipy/_utils/numba.py: rotation_from_rodrigues", "src/kikuchipy/_utils/numba.py: rotate_vector"]}
{"id": "C32", "title": "Pattern simulation rejects mismatching PC and rotation shapes", "statement": "EBSDMasterPattern.get_patterns raises ValueError whenever the detector has more than one PC and its navigation shape differs from the shape of the rotations.", "quantifier": "every pair of shapes", "why_tests_cant": "All shape pairs, notably ones with unit leading axis.", "anchors": ["src/kikuchipy/signals/ebsd_master_pattern.py: get_patterns"]}
{"id": "C33", "title": "Refinement writes each result to its own map point", "statement": "refine_orientation and refine_orientation_projection_center return a map where each refined point has the result computed from its own pattern, points not refined keep the identity rotation/zero score and not-indexed points stay not indexed, for every navigation mask and chunking of the patterns.", "quantifier": "every map, mask, is_in_data array and chunking", "why_tests_cant": "Exponentially many masks and chunkings.", "anchors": ["src/kikuchipy/indexing/_refinement/_refinement.py: compute_refine_orientation_results", "src/kikuchipy/signals/util/_crystal_map.py: _get_indexed_points_in_data_in_xmap"]}
{"id": "C34", "title": "Refinement results stay within the trust region", "statement": "With a trust region, the bounds handed to the optimizer are the starting point minus and plus the trust region (Euler angles given in degrees) limited to the definition range of the variables, so they contain a starting point in that range; without a trust region no bounds are imposed by any method.", "quantifier": "every starting point, trust region and method", "why_tests_cant": "Continuum of starting points; method/trust-region combinations.", "anchors": ["src/kikuchipy/indexing/_refinement/_refinement.py: get_bound_constraints", "src/kikuchipy/indexing/_refinement/_solvers.py: _refine_orientation_solver_scipy"]}
{"id": "C35", "title": "Refinement calls do not affect each other", "statement": "The outcome of a refinement call depends only on its own arguments, not on the history of earlier refinement calls (methods, failures), and calls do not modify their arguments (trust_region, method_kwargs).", "quantifier": "every history of refinement calls, including ones that raise", "why_tests_cant": "Histories are unbounded.", "anchors": ["src/kikuchipy/indexing/_refinement/_refinement.py: _RefinementSetup", "src/kikuchipy/indexing/_refinement/_refinement.py: get_bound_constraints", "src/kikuchipy/indexing/_refinement/_refinement.py: set_optimization_parameters"]}
{"id": "C36", "title": "Pseudo-symmetry refinement selects the best solution", "statement": "With pseudo-symmetry operators, the returned score is the best over the original and all equivalent starting orientations, with orientation, number of evaluations and operator index belonging to that solution, the SciPy and NLopt paths agreeing, and index 0 preferred on ties.", "quantifier": "every number of operators and every optimizer outcome", "why_tests_cant": "All optimizer outcomes.", "anchors": ["src/kikuchipy/indexing/_refinement/_solvers.py: _refine_orientation_solver_scipy", "src/kikuchipy/indexing/_refinement/_solvers.py: _refine_orientation_solver_nlopt"]}
{"id": "C37", "title": "Saving never destroys a file without consent", "statement": "EBSD.save leaves an existing file's content untouched unless overwrite=True was passed, the user answered yes to the overwrite prompt, or a scan was added to an h5ebsd file; overwrite=False never writes to an existing file unless adding a scan.", "quantifier": "every combination of arguments, file existence, format and user answers", "why_tests_cant": "Interactive histories of prompts; combinations.", "anchors": ["src/kikuchipy/io/_io.py: _save", "src/kikuchipy/io/_util.py: _overwrite", "src/kikuchipy/io/_util.py: _get_input_bool"]}
{"id": "C38", "title": "Saving honours the requested file format", "statement": "EBSD.save writes in the format given by the extension argument or file name suffix, defaulting to the extension the signal was loaded from.", "quantifier": "every file name and extension", "why_tests_cant": "All name/extension combinations.", "anchors": ["src/kikuchipy/signals/ebsd.py: save", "src/kikuchipy/io/_io.py: _save"]}
{"id": "C39", "title": "Adding a scan never collides with an existing scan", "statement": "When adding a scan to an existing kikuchipy h5ebsd file, the scan is written under a number that is not already used in the file and all other scans are unchanged, or an error is raised and the file keeps its content, whatever the user answers to the prompts.", "quantifier": "every set of existing scans, requested number and sequence of answers", "why_tests_cant": "Unbounded interactive histories.", "anchors": ["src/kikuchipy/io/plugins/kikuchipy_h5ebsd/_api.py: get_valid_scan_number"]}
{"id": "C40", "title": "kikuchipy h5ebsd files round-trip a signal", "statement": "Saving an EBSD signal to kikuchipy's h5ebsd format and loading it returns the same patterns, navigation step sizes and names, detector PCs and static background.", "quantifier": "every navigation dimension and shape, data, PC array and static background (including none)", "why_tests_cant": "All shapes with unit axes and optional attributes.", "anchors": ["src/kikuchipy/io/plugins/kikuchipy_h5ebsd/_api.py: KikuchipyH5EBSDWriter", "src/kikuchipy/io/plugins/kikuchipy_h5ebsd/_api.py: KikuchipyH5EBSDReader", "src/kikuchipy/io/plugins/_h5ebsd.py: get_data", "src/kikuchipy/io/plugins/_h5ebsd.py: get_axes_list"]}
{"id": "C41", "title": "Metadata dictionaries survive HDF5 storage", "statement": "All entries of a metadata dictionary that HDF5 can represent are written and read back with the same key and value, whatever other entries are present.", "quantifier": "every nested dictionary", "why_tests_cant": "All dictionaries and key orders.", "anchors": ["src/kikuchipy/io/plugins/_h5ebsd.py: _dict2hdf5group", "src/kikuchipy/io/plugins/_h5ebsd.py: _hdf5group2dict"]}
{"id": "C42", "title": "NORDIF binary files round-trip patterns", "statement": "Patterns of 8-bit unsigned integers written with file_writer and read with the same scan and pattern sizes are identical, in the same map positions; when the file is too short the patterns present are read correctly and the rest are zero; lazy and in-memory reading give the same signal.", "quantifier": "every map and pattern size and file length", "why_tests_cant": "All sizes and truncation points.", "anchors": ["src/kikuchipy/io/plugins/nordif/_api.py: file_reader", "src/kikuchipy/io/plugins/nordif/_api.py: file_writer"]}
{"id": "C43", "title": "Directory of patterns is assembled in map order", "statement": "Reading a directory of pattern files with coordinates in the file names puts each pattern at its own coordinates, fills every map position exactly once when coordinates are distinct and complete, and warns and falls back to a 1D signal otherwise.", "quantifier": "every set of file names and every listing order", "why_tests_cant": "All directory listings.", "anchors": ["src/kikuchipy/io/plugins/ebsd_directory/_api.py: file_reader"]}
{"id": "C44", "title": "Oxford binary patterns are returned in map order", "statement": "Reading an Oxford .ebsp file returns the patterns in map order together with metadata in the same order, for every order of patterns in the file, also when some patterns are missing, and each pattern is read from its own bytes for every file version and footer.", "quantifier": "every pattern order, set of present patterns and file version", "why_tests_cant": "Factorially many orders.", "anchors": ["src/kikuchipy/io/plugins/oxford_binary/_api.py"]}
{"id": "C45", "title": "EDAX binary readers label axes correctly", "statement": "Signals read from EDAX UP1/UP2 files have the vertical and horizontal step sizes on the y and x navigation axes and unit scale on the detector axes, for 1D and 2D scans.", "quantifier": "every navigation shape and step size", "why_tests_cant": "Shapes with one row.", "anchors": ["src/kikuchipy/io/plugins/edax_binary/_api.py: read_scan"]}
{"id": "C46", "title": "Non-rectangular Bruker regions of interest are rejected", "statement": "The Bruker h5ebsd reader raises ValueError for every region of interest that is not a full rectangle, and for a rectangle places every pattern at its own map position regardless of storage order.", "quantifier": "every list of (row, column) positions", "why_tests_cant": "Exponentially many point sets.", "anchors": ["src/kikuchipy/io/plugins/bruker_h5ebsd/_api.py: _bruker_roi_is_rectangular"]}
{"id": "C47", "title": "Master pattern energy selection", "statement": "Loading an EMsoft master pattern with an energy range returns exactly the energies within the closed range, and with a single energy the closest one.", "quantifier": "every increasing energy axis and every range", "why_tests_cant": "All axes and ranges.", "anchors": ["src/kikuchipy/io/plugins/_emsoft_master_pattern.py: get_data_shape_slices"]}
{"id": "C48", "title": "HDF5 reader selection is unambiguous", "statement": "load() picks an HDF5 reader only if it is the only one matching the file, and raises otherwise.", "quantifier": "every file content and set of reader footprints", "why_tests_cant": "All file structures.", "anchors": ["src/kikuchipy/io/_io.py: _plugin_from_footprints"]}
{"id": "C49", "title": "Every loaded signal knows its file", "statement": "All signals returned by load() from one file have the file's folder, name and extension in tmp_parameters.", "quantifier": "every number of signals in a file", "why_tests_cant": "Only files with several scans.", "anchors": ["src/kikuchipy/io/_io.py: load"]}
{"id": "C50", "title": "Slicing a signal keeps detector, background and crystal map consistent", "statement": "After s.isig[...], s.inav[...] or s.crop(...), detector.shape equals the new signal shape, the static background has the new signal shape, PCs describe the same physical point, and the crystal map has the new navigation shape.", "quantifier": "every slice, including open-ended, negative and stepped ones", "why_tests_cant": "All slices.", "anchors": ["src/kikuchipy/signals/ebsd.py: _update_custom_attributes", "src/kikuchipy/signals/ebsd.py: _slicer", "src/kikuchipy/signals/ebsd.py: crop"]}
{"id": "C51", "title": "Extracted grids are evenly spaced and consistent", "statement": "extract_grid(shape) returns patterns, PCs, crystal map points and indices referring to the same map points, inside the map, distinct and in order, with the documented spacing.", "quantifier": "every map and grid shape", "why_tests_cant": "All shapes.", "anchors": ["src/kikuchipy/signals/util/array_tools.py: grid_indices", "src/kikuchipy/signals/ebsd.py: extract_grid"]}
{"id": "C52", "title": "Out-of-place operations leave the original signal untouched", "statement": "Methods called with inplace=False return a signal whose custom attributes (detector, crystal map, static background) can be modified without affecting the original.", "quantifier": "every sequence of later modifications", "why_tests_cant": "Aliasing shows only through later mutations.", "anchors": ["src/kikuchipy/signals/_kikuchipy_signal.py: _get_custom_attributes", "src/kikuchipy/signals/_kikuchipy_signal.py: _set_custom_attributes"]}
{"id": "C53", "title": "Virtual detector tiles partition the detector", "statement": "The regions of interest of VirtualBSEImager's grid cover every detector pixel exactly once, so the sum of the tile images equals the image from the whole detector.", "quantifier": "every detector and grid shape", "why_tests_cant": "All shapes, also grids not dividing the detector.", "anchors": ["src/kikuchipy/imaging/vbse.py: VirtualBSEImager.roi_from_grid", "src/kikuchipy/imaging/vbse.py: VirtualBSEImager.get_images_from_grid"]}
{"id": "C54", "title": "Virtual BSE images honour method arguments", "statement": "VirtualBSEImage methods forward each argument to the parameter of the same name of the general signal method.", "quantifier": "every argument combination", "why_tests_cant": "Positional forwarding errors only show for non-default arguments.", "anchors": ["src/kikuchipy/signals/virtual_bse_image.py", "src/kikuchipy/signals/_kikuchipy_signal.py: normalize_intensity"]}
{"id": "C55", "title": "Chunking covers the data", "statement": "get_chunking returns chunks whose sizes are positive and sum to the data shape along every axis, with signal axes never split. The same holds for the array which the methods of a signal map over, in memory or lazy, and the chunk shape and bytes asked for control its chunks.", "quantifier": "every data shape, dtype and chunk specification", "why_tests_cant": "All shapes.", "anchors": ["src/kikuchipy/signals/util/_dask.py: get_chunking", "src/kikuchipy/signals/util/_dask.py: get_dask_array"]}
{"id": "C56", "title": "Simulated band and zone axis coordinates are on the bands and on the detector", "statement": "Each returned band trace has endpoints on the circle of the maximum gnomonic radius lying on the line dual to the plane normal, every returned zone axis lies within one pixel of the detector, and coordinates in pixels agree with detector.to_pixel_coords of the gnomonic ones.", "quantifier": "every set of reflectors, orientation and detector", "why_tests_cant": "Continuum of orientations.", "anchors": ["src/kikuchipy/simulations/_geometrical_simulation.py: _bands_and_zone_axes_kernel", "src/kikuchipy/simulations/_geometrical_simulation.py: _get_geometrical_simulation"]}
{"id": "C57", "title": "Image quality is bounded", "statement": "get_image_quality is at most 1, attains 1 for patterns with all power at zero frequency, and is unchanged by intensity scaling.", "quantifier": "every pattern of every size", "why_tests_cant": "Continuum of patterns.", "anchors": ["src/kikuchipy/pattern/_pattern.py: get_image_quality", "src/kikuchipy/pattern/_pattern.py: fft_frequency_vectors"]}
{"id": "C58", "title": "Detector text files round-trip", "statement": "Saving a detector to a text file and loading it gives the same shape, navigation shape and scalar parameters, and PCs within half a unit of the last written decimal, in every convention.", "quantifier": "every detector", "why_tests_cant": "All shapes and values.", "anchors": ["src/kikuchipy/io/_detectors.py"]}
{"id": "C59", "title": "Relative rescaling keeps patterns comparable", "statement": "Signal.rescale_intensity(relative=True) maps all images by one common order-preserving function filling the output range, and rejects the arguments documented as not allowed with it (in_range, percentiles).", "quantifier": "every signal and every combination of relative, in_range, out_range, percentiles and data types", "why_tests_cant": "All argument combinations and all intensities cannot be enumerated.", "anchors": ["src/kikuchipy/signals/_kikuchipy_signal.py: rescale_intensity", "src/kikuchipy/pattern/_pattern.py: rescale_intensity"]}
{"id": "C60", "title": "Fourier wrappers invert each other and frequency filters act as documented", "statement": "pattern.ifft(pattern.fft(p, shift=s, real_fft_only=r), shift=s, real_fft_only=r) returns p; pattern.fft_filter with a transfer function of ones returns p; a centered transfer function with shift=True gives the same result as the un-centered one with shift=False; and the transfer function at zero frequency scales the mean intensity.", "quantifier": "every pattern of every size (odd and even), both shift settings, both real_fft_only settings, every transfer function", "why_tests_cant": "Tests use a few fixed (mostly even, square) pattern sizes; odd sizes change the half spectrum and the shift.", "anchors": ["src/kikuchipy/pattern/_pattern.py: fft", "src/kikuchipy/pattern/_pattern.py: ifft", "src/kikuchipy/pattern/_pattern.py: fft_filter"]}
{"id": "C61", "title": "Modified Hann window is symmetric, positive and normalized", "statement": "modified_hann(Nx) is symmetric, has coefficients in (0, 1], and its maximum value is 1 as documented.", "quantifier": "every window length, odd and even", "why_tests_cant": "Tests compare one length with stored numbers; the maximum depends on the parity of the length.", "anchors": ["src/kikuchipy/filters/window.py: modified_hann"]}
{"id": "C62", "title": "Simulated patterns of centrosymmetric phases are the same in opposite directions", "statement": "A pattern simulated by get_patterns from a master pattern with one hemisphere, which is accepted when the point group contains inversion, has the same intensity in a direction v as in -v.", "quantifier": "every master pattern, direction and rotation", "why_tests_cant": "Continuum of directions; phases where inversion is the only symmetry are not in the test data.", "anchors": ["src/kikuchipy/signals/ebsd_master_pattern.py: _is_suitable_for_projection", "src/kikuchipy/signals/_kikuchi_master_pattern.py: _get_master_pattern_arrays_from_energy", "src/kikuchipy/signals/util/_master_pattern.py: _project_single_pattern_from_master_pattern"]}
{"id": "C63", "title": "Each simulated pattern is made from its own rotation and projection center", "statement": "Pattern k from EBSDMasterPattern.get_patterns is projected with rotation k and PC k of the detector, or with rotation k and the only PC of a detector with one PC, for every division of the dictionary into chunks, and the result has the shape of the rotations.", "quantifier": "every rotation array, detector and chunking", "why_tests_cant": "Unbounded many shapes and chunkings.", "anchors": ["src/kikuchipy/signals/ebsd_master_pattern.py: get_patterns", "src/kikuchipy/signals/util/_master_pattern.py: _project_patterns_from_master_pattern_with_varying_pc"]}
{"id": "C64", "title": "Initial steps of Euler angles are in degrees", "statement": "An initial step given to the NLopt refinement methods is applied to each control variable, in degrees for Euler angles (as documented) and as a fraction for the projection center; a wrong number of steps raises ValueError.", "quantifier": "every initial step and refinement mode", "why_tests_cant": "Any non-zero step also gives some result; only the meaning of the unit differs.", "anchors": ["src/kikuchipy/indexing/_refinement/_refinement.py: _RefinementSetup.set_optimization_parameters", "src/kikuchipy/signals/ebsd.py: EBSD.refine_orientation"]}
{"id": "C65", "title": "Adding a scan keeps the scans in the file", "statement": "Saving with add_scan=True to an existing h5ebsd file never removes scans from the file.", "quantifier": "every existing file, overwrite argument, scan number and sequence of answers", "why_tests_cant": "Combinations of arguments and interactive histories.", "anchors": ["src/kikuchipy/io/_io.py: _save", "src/kikuchipy/io/plugins/kikuchipy_h5ebsd/_api.py: KikuchipyH5EBSDWriter"]}
{"id": "C66", "title": "NORDIF readers label axes correctly", "statement": "A signal read from a NORDIF binary file has navigation axes named y and x with the step size of the setting file and detector axes named dy and dx with unit scale, for every scan shape including single rows and scan sizes given as an integer.", "quantifier": "every scan shape, pattern shape and step size", "why_tests_cant": "Shapes with axes of length one.", "anchors": ["src/kikuchipy/io/plugins/nordif/_api.py: file_reader"]}
{"id": "C67", "title": "EDAX binary patterns keep their map positions", "statement": "Reading an EDAX UP1 or UP2 file returns every pattern with its own pixel values at its own map position, and a navigation shape that does not have as many positions as the file has patterns is refused.", "quantifier": "every file version, map shape, pattern shape, file size and navigation shape", "why_tests_cant": "All sizes, and files of several GB.", "anchors": ["src/kikuchipy/io/plugins/edax_binary/_api.py: read_header", "src/kikuchipy/io/plugins/edax_binary/_api.py: read_scan"]}
{"id": "C68", "title": "The number of patterns in an Oxford binary file is determined", "statement": "The reader of Oxford .ebsp files finds the number of map positions in the file, whatever the number, order, size and presence of the patterns.", "quantifier": "every file", "why_tests_cant": "Errors only show in files larger than tens of MB.", "anchors": ["src/kikuchipy/io/plugins/oxford_binary/_api.py: guess_number_of_patterns"]}
{"id": "C69", "title": "The map shape of an Oxford binary file is determined from beam positions", "statement": "For patterns from a rectangular map with equal steps the reader of Oxford .ebsp files returns the numbers of map rows and columns and the step size.", "quantifier": "every map shape, step and position of the map", "why_tests_cant": "Continuum of positions and steps.", "anchors": ["src/kikuchipy/io/plugins/oxford_binary/_api.py: get_navigation_shape_and_step_size"]}
{"id": "C70", "title": "Projection centers from Bruker files belong to their patterns", "statement": "When a Bruker h5ebsd file with a region of interest has one projection center per pattern, the projection center at each map position of the returned detector is the one stored with the pattern returned at that position.", "quantifier": "every rectangular region of interest and every storage order of patterns", "why_tests_cant": "All storage orders.", "anchors": ["src/kikuchipy/io/plugins/bruker_h5ebsd/_api.py: scan2dict", "src/kikuchipy/io/plugins/_h5ebsd.py: get_data"]}
{"id": "C71", "title": "Axes and images of loaded EMsoft master patterns", "statement": "Reading an EMsoft master pattern returns, for each requested hemisphere and energy, the image in the file (flipped in the stereographic projection, summed over asymmetric positions in the Lambert projection), with axes named and scaled after what they contain: hemisphere, energy (starting at the first energy read), height and width.", "quantifier": "every file, energy selection, projection and hemisphere", "why_tests_cant": "All combinations of numbers of energies, hemispheres and asymmetric positions.", "anchors": ["src/kikuchipy/io/plugins/_emsoft_master_pattern.py: EMsoftMasterPatternReader.read"]}
{"id": "C72", "title": "Patterns of an extracted grid keep their map coordinates", "statement": "The navigation coordinates (axis offset plus index times scale) of every pattern returned by extract_grid are its coordinates in the original signal.", "quantifier": "every map, axes and grid shape", "why_tests_cant": "All shapes, offsets and scales.", "anchors": ["src/kikuchipy/signals/ebsd.py: extract_grid"]}
{"id": "C73", "title": "Chunks of learning results are of limited size and not empty", "statement": "When lazy learning results are prepared for a decomposition model, the suggested chunk sizes are always found, no chunk of factors or loadings is larger than the wanted number of megabytes, and no chunk is empty.", "quantifier": "every number of detector pixels, map positions, components, item size and limit", "why_tests_cant": "The halving loop and integer divisions must work for all sizes; boundary cases are rare combinations.", "anchors": ["src/kikuchipy/signals/util/_dask.py: _rechunk_learning_results", "src/kikuchipy/signals/ebsd.py: get_decomposition_model", "src/kikuchipy/signals/ebsd.py: get_decomposition_model_write"]}
{"id": "C74", "title": "Decomposition models use the selected components and leave the learning results alone", "statement": "get_decomposition_model() returns the sum over exactly the selected components (all, the first n, or those listed) of loading times component pattern at every map position and pixel, and afterwards, also if it fails, the signal has the learning results it had before. get_decomposition_model_write() leaves no temporary files behind.", "quantifier": "every factors, loadings, component selection and failing step", "why_tests_cant": "All selections and all points of failure.", "anchors": ["src/kikuchipy/signals/ebsd.py: get_decomposition_model", "src/kikuchipy/signals/ebsd.py: get_decomposition_model_write", "src/kikuchipy/signals/util/_dask.py: _update_learning_results"]}
{"id": "C75", "title": "Rebinning describes the same detector", "statement": "Calling rebin() on an EBSD signal with the same integer scale along both detector axes gives a signal whose detector has the same physical height and width and the same PCs, so that every point on the new detector has the gnomonic coordinates of the corresponding point on the old one; the static background is rebinned like the patterns. Changing the map shape removes the crystal map and static background and resets the PCs.", "quantifier": "all detector shapes, PCs, binning factors, integer scales and map shapes", "why_tests_cant": "Tests rebin two or three shapes; whether pixels of the new patterns stay where they were on the detector must hold for every shape, scale, binning factor and PC.", "anchors": ["src/kikuchipy/signals/ebsd.py: EBSD.rebin", "src/kikuchipy/detectors/_ebsd_detector.py: EBSDDetector.binning, height, width, to_gnomonic_coords"]}
{"id": "C76", "title": "Fitting a plane to projection centers recovers the plane", "statement": "If the PCs of a detector (apart from given outliers) lie on a sample plane, fit_pc() with the affine transformation returns the PCs of that plane in every map position, unaffected by the outliers, and the sample tilt of that plane; estimate_xtilt() and estimate_xtilt_ztilt() return the angle between detector and sample plane, and no tilt about the z axis. These functions and extrapolate_pc() agree on what sample tilt and detector tilt mean.", "quantifier": "all detectors, tilts, step sizes, map positions not on a line, and outlier masks; every least squares solution and singular vector the linear algebra library may return", "why_tests_cant": "Tests check two or three data sets with tolerances; agreement of the sign conventions of five angles between four methods is an identity over all tilts.", "anchors": ["src/kikuchipy/detectors/_ebsd_detector.py: EBSDDetector.fit_pc, estimate_xtilt, estimate_xtilt_ztilt, extrapolate_pc", "src/kikuchipy/detectors/_fit_projection_center.py"]}
{"id": "C77", "title": "Refinement reports the score of its own pattern at the refined parameters", "statement": "refine_orientation(), refine_projection_center() and refine_orientation_projection_center() report, for every map point to refine, the normalized cross-correlation of the experimental pattern in that point (without the pixels in the signal mask) with the pattern MasterPattern.get_patterns() projects with the refined orientation and PC of that point; the refined score is not worse than the score of the starting orientation; with pseudo-symmetry operators the best of all starting orientations is returned together with its index; and the result does not depend on the chunks of the patterns.", "quantifier": "all patterns, navigation and signal masks, chunkings, master patterns, detectors with one or one PC per pattern, starting points, trust regions, and every optimization routine that reports the value of the objective function in the point it returns", "why_tests_cant": "Tests compare refined scores with stored numbers for one nickel data set, whose master pattern is centrosymmetric; pairing of patterns, starting points and PCs under all masks and chunkings, and the identity with the projected pattern's correlation, are claims over all inputs.", "anchors": ["src/kikuchipy/indexing/_refinement/_refinement.py: _refine_orientation, _refine_pc, _refine_orientation_pc, _refine_orientation_chunk_scipy", "src/kikuchipy/indexing/_refinement/_solvers.py: _refine_orientation_solver_scipy, _prepare_pattern", "src/kikuchipy/indexing/_refinement/_objective_functions.py", "src/kikuchipy/indexing/similarity_metrics/_normalized_cross_correlation.py: _ncc_single_patterns_1d_float32_exp_centered", "src/kikuchipy/signals/util/_master_pattern.py: _project_single_pattern_from_master_pattern"]}
{"id": "C78", "title": "Hough indexing puts every solution in its own map point", "statement": "hough_indexing() with the indexer of a detector (get_indexer()) returns a crystal map whose point in row r and column c shows the best solution PyEBSDIndex finds for the pattern in (r, c) with the PC of (r, c), at position (r*dy, c*dx), and the identity rotation where the pattern was not indexed; xmap_from_hough_indexing_data() does the same for the row of results asked for and leaves the results as they are; indexers whose detector shape, number or map shape of PCs, or phase list (lattice parameters to the 12th decimal) differ are refused, and the phase list the indexer was made with is accepted, with the given reflectors for each phase; hough_indexing_optimize_pc() returns the PCs found in the shape of the map.", "quantifier": "all results arrays, map shapes, step sizes, phase lists and IDs, reflectors, detectors with one or one PC per pattern, and every indexing routine that treats patterns one by one", "why_tests_cant": "Tests index one 3x3 nickel map in which every pattern is indexed, with one phase of ID 0; pairing of patterns, PCs and map points and the behaviour for other IDs, map shapes and phase lists are claims over all inputs.", "anchors": ["src/kikuchipy/indexing/_hough_indexing.py: xmap_from_hough_indexing_data, _hough_indexing, _get_pyebsdindex_phaselist, _indexer_is_compatible_with_kikuchipy, _phase_lists_are_compatible", "src/kikuchipy/signals/ebsd.py: EBSD.hough_indexing, EBSD.hough_indexing_optimize_pc", "src/kikuchipy/detectors/_ebsd_detector.py: EBSDDetector.get_indexer"]}
{"id": "C79", "title": "RGB virtual BSE images show the intensities of their regions", "statement": "VirtualBSEImager.get_rgb_image() gives each colour channel, in every map point, the sum of the intensities of that point's pattern in the regions given for the channel; the image has integers within the range of the output type and keeps the order of the channels' intensities; with normalization, gain and offset of a channel do not matter; brightness offset and contrast factor change the image; the image axes are calibrated as the map axes; plot_grid() draws the coloured edges around the given tiles.", "quantifier": "all signals, grids, regions, alpha channels, percentiles, output types, brightness offsets and contrast factors", "why_tests_cant": "Tests check shapes, data types and a few sums for one 3x3 map with square tiles; the statements are identities over all intensities, grids and parameters.", "anchors": ["src/kikuchipy/imaging/vbse.py: VirtualBSEImager.get_rgb_image, VirtualBSEImager.plot_grid, _normalize_image, _get_rgb_image, _get_rgb_tile_coordinates", "src/kikuchipy/_utils/_transfer_axes.py: _transfer_navigation_axes_to_signal_axes"]}
{"id": "C80", "title": "Kinematical master patterns sum the bands, whatever the threads do", "statement": "Every pixel of the master pattern returned by KikuchiPatternSimulator.calculate_master_pattern() holds the sum of the intensities (|F|, |F|^2 or 1, according to the scaling) of exactly those Kikuchi bands whose plane is within the Bragg angle of the direction that projects stereographically onto the pixel. It does not depend on the order of reflectors nor on how the calculation is spread over threads. The lower hemisphere of a centrosymmetric set of reflectors is the inverted upper one, the axes describe the data, and unusable input is refused.", "quantifier": "all sets of reflectors, pattern sizes, hemispheres, scalings and pixels, all numbers of threads, all ways to give out reflectors to threads and all interleavings of their reads and writes", "why_tests_cant": "A lost update between two threads needs an unlucky interleaving: it does not show up in a test run, nor with a single thread or few reflectors.", "anchors": ["src/kikuchipy/simulations/kikuchi_pattern_simulator.py: KikuchiPatternSimulator.calculate_master_pattern, get_pattern", "src/kikuchipy/_utils/vector.py: poles_from_hemisphere, parse_hemisphere"]}
{"id": "C81", "title": "Downloaded data sets are verified, whatever state the cache is in", "statement": "A data set returned by the functions in kikuchipy.data is a file with the registered MD5 hash, whatever was in the cache before (interrupted downloads or unpacking, other versions, damaged files) and whatever the server sends. Without allow_download=True nothing is requested and no file is changed, and a data set is returned exactly if it is already there. With it, a data set on offer is returned from every state of the cache, and other data sets are left alone. clear_cache() empties the cache in use. ni_gain() has exactly ten data sets.", "quantifier": "all contents of the cache directory, all answers of the server, all data sets, with and without permission to download, all sequences of calls and interruptions", "why_tests_cant": "Tests use one mocked or empty cache; states left by a crash at an arbitrary point are not reproducible in a test suite.", "anchors": ["src/kikuchipy/data/_data.py: Dataset.fetch_file_path, Dataset.fetch_file_path_from_collection, get_fetching_pooch, clear_cache, ni_gain, ni_gain_calibration", "src/kikuchipy/data/_registry.py: registry_hashes, registry_urls"]}
{"id": "C82", "title": "NORDIF setting files and calibration patterns are read as written", "statement": "Loading a NORDIF setting file in the documented layout gives every value in the row and section it is documented for: sizes in the right order, detector tilt as the negative elevation. A value is never taken from a row with another key. The calibration patterns read are exactly those of the files listed in the file, in that order; a file listing none is refused. Free text in the file, as the specimen's name, does not change how the sections are found.", "quantifier": "every setting file in the documented layout, every text in its rows, every number parser, every list of calibration patterns", "why_tests_cant": "Tests read one or two setting files; free text entered by users and other positions of sections are unbounded.", "anchors": ["src/kikuchipy/io/plugins/nordif/_api.py: get_settings_from_file, get_string", "src/kikuchipy/io/plugins/nordif_calibration_patterns/_api.py: file_reader, _get_coordinates"]}
{"id": "C83", "title": "Loading from an h5ebsd file gives the scans asked for", "statement": "Scans saved to one h5ebsd file under different numbers are read again by name, whichever names are asked for, in whichever order and however often. Every signal is the scan of the name it was asked by, and a warning is given for exactly those names that are not in the file; if nothing asked for is there, loading is an error. Without a name, the first scan in the file is read. A file with no scan or of another manufacturer is refused.", "quantifier": "every h5ebsd file, every sequence of saves to one file, every list of names", "why_tests_cant": "Tests load from files with one or two scans; the order of names in a file with ten or more scans, other groups in the file and combinations of present and missing names are unbounded.", "anchors": ["src/kikuchipy/io/plugins/_h5ebsd.py: H5EBSDReader.check_file, get_manufacturer_version, get_scan_groups, get_desired_scan_groups, read", "src/kikuchipy/io/plugins/kikuchipy_h5ebsd/_api.py: KikuchipyH5EBSDWriter.write", "src/kikuchipy/io/_io.py: load"]}
{"id": "C84", "title": "Changing a master pattern's projection and plotting it on the sphere keep the intensity of every direction", "statement": "A stereographic master pattern changed to the Lambert projection has the same intensity in every direction: each pixel of each energy and hemisphere gets the intensity of its own direction, never read outside of the pattern, and patterns simulated from the result have these intensities in the directions of the pixels of both hemispheres. Number and shape of patterns are kept. Plotting on the sphere shows every pixel of both hemispheres at its direction with its intensity; with one hemisphere of a centrosymmetric phase, the other is shown as it is.", "quantifier": "every master pattern of any size, every number of energies, every intensity on the sphere, every interpolation that is exact for it", "why_tests_cant": "Tests compare shapes and a few intensities of one small master pattern of a cubic phase, for which mirror and inversion agree.", "anchors": ["src/kikuchipy/signals/_kikuchi_master_pattern.py: KikuchiMasterPattern.as_lambert, plot_spherical, _get_master_pattern_arrays_from_energy", "src/kikuchipy/signals/util/_master_pattern.py: _lambert2vector"]}
{"id": "C85", "title": "Dictionary indexing returns the best matches of this call's own data", "statement": "`EBSD.dictionary_indexing` returns a map exactly if the arguments are valid (mask shapes, signal shapes, dictionary map, metric, data type). Each point which is not masked then has the best matches, with their positions and rotations in the dictionary, among the scores computed from the unmasked pixels of its own pattern and of the dictionary patterns. What a call returns depends only on its own arguments, not on earlier calls with the same metric object.", "quantifier": "every signal, dictionary, pair of masks, keep_n, n_per_iteration, tie-breaking order, and every history of earlier calls", "why_tests_cant": "the outcome depends on the state left in a metric object by arbitrary earlier calls, and on every combination of masks, chunks and ties", "anchors": ["src/kikuchipy/signals/ebsd.py: EBSD.dictionary_indexing, EBSD._prepare_metric", "src/kikuchipy/indexing/similarity_metrics/_similarity_metric.py: SimilarityMetric", "src/kikuchipy/indexing/similarity_metrics/_normalized_cross_correlation.py: NormalizedCrossCorrelationMetric.prepare_experimental, prepare_dictionary, _mask_patterns", "src/kikuchipy/indexing/_dictionary_indexing.py: _dictionary_indexing"]}
{"id": "C86", "title": "Processing keeps the scan's axes, metadata and a usable static background", "statement": "After any sequence of processing steps (background removal, rescaling, normalization, equalization, filtering, averaging, downsampling, change of data type, laziness), in place or not, the signal obtained has the navigation axes (names, step sizes, offsets, units) and metadata of the first, a map of the same shape, and a static background of the shape and data type of the patterns, so that it can still be removed; a call with inplace=False returns a signal. set_scan_calibration sets the step sizes and nothing else.", "quantifier": "every signal and every finite sequence of processing steps with every choice of inplace, lazy_output and data type", "why_tests_cant": "what is lost depends on the combination of steps, and there are infinitely many sequences", "anchors": ["src/kikuchipy/signals/_kikuchipy_signal.py: rescale_intensity, normalize_intensity, adaptive_histogram_equalization, _set_custom_attributes, change_dtype, as_lazy, compute, deepcopy", "src/kikuchipy/signals/ebsd.py: remove_static_background, remove_dynamic_background, get_dynamic_background, fft_filter, average_neighbour_patterns, downsample, change_dtype, set_scan_calibration"]}
{"id": "C87", "title": "Refinement accepts exactly compatible arguments, and phases are compared by what they are", "statement": "Refinement starts exactly if the detector, masks and crystal map have shapes fitting the signal, the master pattern is suitable and the points to be refined have one phase, which is the phase of the master pattern; otherwise it raises an error saying what does not fit. Whether two phases are the same (in refinement and when merging maps) depends on their name, symmetry, lattice and atoms only: the answer does not depend on the order of the phases or of their atoms, sameness carries over from phase to phase, and phases of different symmetry are never the same. Refined maps have the coordinates of the map they were made from. Setting a signal's detector or crystal map either sets one which fits or raises and keeps the old one.", "quantifier": "for all pairs and triples of phases, all shapes of signals, detectors, masks and maps, all phase IDs in maps, all sequences of attributes set, all regular map coordinates", "why_tests_cant": "Tests compare a few phases made from the same call and a few wrong shapes; they cannot cover every pair of phases near the tolerance, every symmetry or every sequence of assignments.", "anchors": ["src/kikuchipy/signals/util/_crystal_map.py:_equal_phase", "src/kikuchipy/signals/util/_crystal_map.py:_xmap_is_compatible_with_signal", "src/kikuchipy/signals/util/_detector.py:_detector_is_compatible_with_signal", "src/kikuchipy/signals/ebsd.py:EBSD._check_refinement_parameters", "src/kikuchipy/indexing/_refinement/_refinement.py:_get_crystal_map_parameters"]}
{"id": "C88", "title": "A geometrical simulation over a map gives each pattern its own lines, zone axes and PC", "statement": "Simulating Kikuchi lines and zone axes for a map of orientations succeeds exactly if the detector has one PC or PCs for the map's shape. In each pattern, a line is given if and only if the plane's trace passes within the detector's reach and it then lies on the trace; zone axes lie on the lines of the reflectors they come from; each zone axis of two kept reflectors which hits the detector is shown; pixel coordinates are the gnomonic ones converted with the pattern's own PC. Markers at position (x, y) of the navigator are those of the pattern in row y and column x, labels are those of the zone axes they are placed at and tell zone axes apart, and a plot of a pattern shows its lines, zone axes and PC. (As stated this is false: gnomonic coordinates include zone axes outside the detector which pixel coordinates leave out, labels of indices with two digits are ambiguous, a plot without zone axes in the pattern raises IndexError, and with varying PCs a plot shows their average.)", "quantifier": "all crystals, reflector lists, orientations, map shapes (1D, 2D), detectors, PCs and navigation positions", "why_tests_cant": "Tests look at one phase and a handful of orientations; the claim ranges over all reflectors, orientations, PCs and positions in a map of any shape.", "anchors": ["src/kikuchipy/simulations/kikuchi_pattern_simulator.py:KikuchiPatternSimulator.on_detector", "src/kikuchipy/simulations/_kikuchi_pattern_simulation.py:GeometricalKikuchiPatternSimulation.as_markers", "src/kikuchipy/simulations/_kikuchi_pattern_simulation.py:GeometricalKikuchiPatternSimulation.plot", "src/kikuchipy/simulations/_kikuchi_pattern_simulation.py:GeometricalKikuchiPatternSimulation.zone_axes_coordinates"]}
{"id": "C89", "title": "Refined results do not depend on how threads interleave", "statement": "Refinement of a map in blocks, run by any number of threads in any order, ends after a bounded number of steps, and each pattern then has the result it has if it is refined alone: its own objective function, starting point and trust region. (This depends on Dask: if blocks are given the same keyword dictionary, it is false for SciPy's minimize with a trust region, where a pattern may be refined within another pattern's trust region, and for basinhopping, where another pattern may be refined in its place.)", "quantifier": "all optimizers, objective functions, numbers of blocks, patterns in them and interleavings of their steps", "why_tests_cant": "Tests run one or a few schedules, which are not chosen; the claim is about every interleaving of threads.", "anchors": ["src/kikuchipy/indexing/_refinement/_solvers.py:_refine_orientation_solver_scipy", "src/kikuchipy/indexing/_refinement/_solvers.py:_refine_pc_solver_scipy", "src/kikuchipy/indexing/_refinement/_refinement.py:_refine_orientation", "src/kikuchipy/signals/ebsd.py:EBSD.refine_orientation"]}
{"id": "C90", "title": "Oxford and EDAX h5ebsd files load consistently", "statement": "Loading an Oxford h5oina or EDAX h5ebsd file gives the patterns of the chosen dataset in file order, axes with the map's sizes and step sizes that fit the array, a crystal map of the same shape, and a detector with the pattern shape, tilts, binning and projection centers of the file, each PC at the position of its pattern and denoting the same physical point; the detector fits the signal; a missing dataset or a grid that is not square raises. (False for Oxford line scans, whose detector has a 2D navigation shape while the signal is 1D; for Oxford files without one of the PC datasets and for incomplete ones, which cannot be loaded although patterns are padded; for padded line scans, whose array has one dimension more than axes; and for camera modes with 2048 rows or more, whose binning is read as zero.)", "quantifier": "all map and pattern sizes, step sizes, PC arrays, camera mode texts and file versions", "why_tests_cant": "Tests read one or two small files with 2D maps and complete datasets.", "anchors": ["src/kikuchipy/io/plugins/oxford_h5ebsd/_api.py:OxfordH5EBSDReader.scan2dict", "src/kikuchipy/io/plugins/oxford_h5ebsd/_api.py:get_binning", "src/kikuchipy/io/plugins/edax_h5ebsd/_api.py:EDAXH5EBSDReader.scan2dict", "src/kikuchipy/io/plugins/_h5ebsd.py:H5EBSDReader.get_data"]}
{"id": "C91", "title": "Signals have the class of their type and keep its attributes", "statement": "A signal is loaded into the one class that its signal type or alias names, lazy exactly if asked for, and other types or complex data raise ValueError. After any sequence of set_signal_type, as_lazy, compute, change_dtype and deepcopy, also when some raised, a signal has the class of its type and all attributes of that class; as_lazy, compute, change_dtype of real data and deepcopy keep the class and the attributes' content; a master pattern set to any master pattern type keeps hemisphere, phase and projection; a signal that becomes a plain one loses them. (Given that HyperSpy runs __init__ again when it assigns a class, setting the type of an EBSD signal to its own type resets detector, static background and crystal map, and an unknown type with 'master' in it raises for a master pattern after its attributes are gone.)", "quantifier": "all signals, signal types, data type names, attribute values and sequences of operations", "why_tests_cant": "Tests check single operations; the claim is about all sequences and all type strings.", "anchors": ["src/kikuchipy/io/_io.py:_dict2signal", "src/kikuchipy/io/_io.py:_assign_signal_subclass", "src/kikuchipy/signals/_kikuchipy_signal.py:KikuchipySignal2D._assign_subclass", "src/kikuchipy/signals/_kikuchipy_signal.py:KikuchipySignal2D.change_dtype", "src/kikuchipy/signals/_kikuchi_master_pattern.py:KikuchiMasterPattern.set_signal_type", "src/kikuchipy/hyperspy_extension.yaml"]}
{"id": "C92", "title": "Coordinates at one sample position", "statement": "EBSDDetector.to_gnomonic_coords and to_pixel_coords called with a sample position succeed exactly when the argument names a position of the detector's map (an integer or 1-tuple for a line, a 2-tuple for a plane; negative integers count from the end), convert every given pair with that position's projection center, keep the shape of the given array, and agree with the entry of the all-positions result at that position; any other argument raises.", "quantifier": "every detector navigation shape, projection center array, coordinate array and position argument", "why_tests_cant": "Tests use a few positions of small maps; agreement with the all-positions result depends on how the shape of the coordinate array relates to the map shape, which has unbounded combinations.", "anchors": ["src/kikuchipy/detectors/_ebsd_detector.py:EBSDDetector._parse_sample_position", "src/kikuchipy/detectors/_ebsd_detector.py:EBSDDetector.to_gnomonic_coords", "src/kikuchipy/detectors/_ebsd_detector.py:EBSDDetector.to_pixel_coords", "src/kikuchipy/detectors/_convert_detector_coordinates.py:convert_coordinates"]}
{"id": "C93", "title": "Interactive detector plot", "statement": "After any history of slider moves, check boxes, set_geometrical_simulation/set_master_pattern calls, show calls and changes of the caller's detector, every figure of EBSDDetectorPlotter shows the values of its widgets and the checked overlays; with inplace=False the caller's detector and the plot never influence each other; with inplace=True moving a slider changes that setting of the caller's detector and changes made by the caller or in another figure are shown and kept; at most one overlay of each kind exists, and none without a rotation; slider limits contain the current value and only allow valid detectors; keyword dictionaries of the caller are not changed.", "quantifier": "every detector, rotation, and finite history of events over any number of figures and overlays", "why_tests_cant": "The state of widgets, figures and the shared detector depends on the whole interleaving of events; tests follow a few short scripts.", "anchors": ["src/kikuchipy/draw/_ebsd_detector_plotter.py:EBSDDetectorPlotter", "src/kikuchipy/draw/_ebsd_detector_plotter.py:GeometricalSimulationOverlay", "src/kikuchipy/draw/_ebsd_detector_plotter.py:MasterPatternOverlay", "src/kikuchipy/draw/_ebsd_detector_plotter.py:get_detector_value_range"]}
{"id": "C94", "title": "The drawings of a detector show where its screen is", "statement": "The side view and the top view of a detector draw the beam, the sample surface, the projection centre and the edges of the screen at the positions they have in the microscope according to the detector's own geometry (sample tilt, detector tilt, azimuthal and twist angles, projection centre and physical size), projected along X or Z, inside the axis limits, and of sample and screen the nearer one is on top. The detector plane shows the projection centre at its fraction of the detector's width and height and at the position the detector's coordinate conversion gives, keeps the detector in view when zoomed out, circles drawn for an angle contain exactly the directions at this angle from the projection centre, and a pattern of another shape is rejected.", "quantifier": "all detector shapes, pixel sizes, angles and projection centres (one, a line or a map of them), both coordinate formats, all zooms, gnomonic angles and directions", "why_tests_cant": "The agreement of two independently written rotation conventions has to hold for every combination of angles; image tests compare a few drawings", "anchors": ["src/kikuchipy/draw/_ebsd_detector_plot.py:plot_detector_sample_geometry_side_view", "src/kikuchipy/draw/_ebsd_detector_plot.py:plot_detector_sample_geometry_top_view", "src/kikuchipy/draw/_ebsd_detector_plot.py:plot_ebsd_detector", "src/kikuchipy/draw/_ebsd_detector_plot.py:get_axis_limit_pad", "src/kikuchipy/detectors/_ebsd_detector.py:EBSDDetector.specimen_scintillator_distance"]}
{"id": "C95", "title": "A filter window has the requested shape and values", "statement": "Creating a window by name gives an array of the requested shape: SciPy's values for one axis, the product of SciPy's values for two, with the keyword arguments as SciPy's parameters of these names; a circular window is one within the longest half width of the origin and zero outside; without a shape it is three by three. Invalid shapes are rejected with ValueError or TypeError, transfer functions without a cutoff with KeyError. An array becomes a window as it is, whatever the shape argument, and making the window circular does not change the caller's array. Asking whether a window fits data of some shape gives an answer for every shape.", "quantifier": "all window names, parameters and their orders, all shapes (integers and floats, any number of axes), all arrays, all data shapes", "why_tests_cant": "Tests create a few windows with one parameter; keyword order, shared memory and numbers of axes need statements about all calls", "anchors": ["src/kikuchipy/filters/window.py:Window.__new__", "src/kikuchipy/filters/window.py:Window.make_circular", "src/kikuchipy/filters/window.py:Window.shape_compatible"]}
{"id": "C96", "title": "Reading patterns simulated with EMsoft", "statement": "kikuchipy.load of a file written by EMsoft's EMEBSD.f90 (and only of such a file; others raise IOError) gives a signal with the patterns of the file in their order, named axes with the pixel size as scale, a crystal map with one point per pattern which has the rotation of that pattern and whose shape is that of the navigation axes, a detector of the shape of the patterns with the projection center of the file, and the phase of the file: space group, lattice, and all atoms with coordinates, occupancies and Debye-Waller factors in one unit of length. scan_size (width, height) arranges the patterns in a map of that width and height, and is an error unless it has as many points as there are patterns. Title and phase name are the names of the files without directory and extension.", "quantifier": "every file content (number and size of patterns, binning, PC, atoms, names) and every scan_size, lazy or not", "why_tests_cant": "The test file has no binning, ten square patterns and two atoms; the tests of scan_size compare only the shape, computed with the expression of the code; the map, the detector and units are not compared with the file.", "anchors": ["src/kikuchipy/io/plugins/emsoft_ebsd/_api.py: file_reader, _check_file_format, _crystaldata2phase"]}
{"id": "C97", "title": "Dynamic background of patterns and signals", "statement": "get_dynamic_background gives, in each pixel, the mean of the intensities in its surroundings, weighted with a Gaussian centred on the pixel with the given standard deviation and truncated at truncate standard deviations on either side; the default standard deviation is one eighth of the pattern width, and the data type is that of the input or dtype_out. It commutes with mirroring the pattern. remove_dynamic_background subtracts the background (or divides by it) in each pattern and rescales the result to the range of the data type, in the order of the intensities; the function for one pattern does the same as the method of a signal, for any data type, and leaves its argument as it is. Results do not depend on the chunks of a signal. A background of a given dtype_out is the background of the pattern stored in that type.", "quantifier": "every pattern size, content, data type, standard deviation, truncation, operation, filter domain and chunking", "why_tests_cant": "Tests compare a few pixels of 3x3 patterns of the nickel data set with numbers computed with the code, for one or two standard deviations and float input to the function of one pattern; square patterns hide which side the default is taken from, and nothing compares the window with a Gaussian or the position of its centre.", "anchors": ["src/kikuchipy/pattern/_pattern.py: remove_dynamic_background, get_dynamic_background, _dynamic_background_frequency_space_setup, _remove_background_subtract, _remove_background_divide", "src/kikuchipy/pattern/chunk.py: get_dynamic_background", "src/kikuchipy/signals/ebsd.py: EBSD.remove_dynamic_background, EBSD.get_dynamic_background"]}
{"id": "C98", "title": "Figures of pattern positions and projection centers", "statement": "plot_pattern_positions_in_map draws one numbered marker for each (row, column) position, at the pixel of the map where that pattern is, in the image of the region of interest and of the area, neither of which is upside down; the origin of the region is subtracted from coordinates if an area is passed; markers can be added to an existing axis and are then in the same place; coordinates and origin may be integers or floats, tuples or arrays. Positions from extract_grid(return_indices=True) are where the extracted patterns are from. EBSDDetector.plot_pc shows the named PC values of each pattern at its place in the map or as a point numbered by its index into pc_flattened, panels side by side or above each other as asked for, and calls do not affect each other.", "quantifier": "every list of positions, region, area, images, axis, every detector with more than one PC, mode, orientation, annotation, and sequences of calls with the same figure_kwargs", "why_tests_cant": "Tests check numbers of artists and a few limits for one region with and without area, and that calls raise or return a figure; places of markers relative to images, of texts, and calls which share a dictionary are not compared.", "anchors": ["src/kikuchipy/draw/_plot_pattern_positions_in_map.py: plot_pattern_positions_in_map", "src/kikuchipy/detectors/_ebsd_detector.py: EBSDDetector.plot_pc", "src/kikuchipy/draw/_projection_center_plot.py: plot_all_projection_centers, plot_all_projection_centers_in_map, plot_all_projection_centers_as_scatter, plot_all_projection_centers_in_3d"]}
{"id": "C99", "title": "Local contrast enhancement", "statement": "adaptive_histogram_equalization() replaces every pattern of a signal by its equalization with contextual regions of the given height and width (by default a quarter of the pattern's height and width), stretched linearly over the whole range of the signal's data type; a pattern's result depends on no other pattern, and data type, shape and laziness are kept. A warning is given for floating point data, and lazy_output with inplace, and regions of other than two sizes, raise ValueError.", "quantifier": "every equalizer, signal, data type, region, clip limit and number of bins", "why_tests_cant": "Tests use one or two square pattern shapes; a swap of height and width shows only for others.", "anchors": ["src/kikuchipy/signals/_kikuchipy_signal.py: adaptive_histogram_equalization", "src/kikuchipy/pattern/_pattern.py: _adaptive_histogram_equalization"]}
{"id": "C100", "title": "Navigators show the colours of the image", "statement": "get_rgb_navigator() gives an image of the type asked for (8 or 16 bits) in which every pixel has the colour it has in the given image, with channels from 0 to 1 stored as parts of the largest value; other types and numbers of channels raise an error.", "quantifier": "every colour image and data type", "why_tests_cant": "All images; the result depends on the extreme values of the whole image.", "anchors": ["src/kikuchipy/draw/_navigators.py: get_rgb_navigator"]}
{"id": "C101", "title": "A save that is interrupted leaves a readable file", "statement": "Wherever saving a signal to kikuchipy's h5ebsd format stops with an exception (a full disk, a failing lazy computation, an interrupt from the keyboard), loading the scan from the file either raises an error or gives the whole signal: all patterns, the whole crystal map, the whole header and the microscope parameters. When the scan was being added to a file, the scans already in it are loaded as before, with and without giving a name. When the file was to be overwritten, its former content is there until the new one is complete. The save can be repeated. If the save is not interrupted, the signal is loaded as it was. A file which is open elsewhere is left as it is.", "quantifier": "every signal (patterns, crystal map, header and microscope values), every file content before, every scan number, every number of writing steps after which the save stops", "why_tests_cant": "A test stops a save at one point of one file; the claim is about every step of every save.", "anchors": ["src/kikuchipy/io/plugins/kikuchipy_h5ebsd/_api.py:KikuchipyH5EBSDWriter.write", "src/kikuchipy/io/plugins/kikuchipy_h5ebsd/_api.py:KikuchipyH5EBSDReader.scan2dict", "src/kikuchipy/io/plugins/_h5ebsd.py:_dict2hdf5group", "src/kikuchipy/io/plugins/_h5ebsd.py:H5EBSDReader.read"]}
{"id": "C102", "title": "Detector attributes keep their meaning under every history of assignments", "statement": "Assigning to the attributes of an EBSDDetector (angles, pixel size, binning, shape, projection centers, one coordinate of them, navigation shape), in any order and including assignments that raise: an assignment changes its own attribute only, and one that raises changes nothing; a valid value is returned as given; a shape is two positive integers, a binning an integer, and a projection center has three coordinates; a new navigation shape keeps the projection centers and their order; those who listen to changes of an angle or of the projection centers always know the current value.", "quantifier": "every detector, every sequence of assignments of any values (numbers, complex numbers, other objects, arrays of every shape)", "why_tests_cant": "Tests assign single values to fresh detectors; the claim is about every history of assignments and every array shape.", "anchors": ["src/kikuchipy/detectors/_ebsd_detector.py:EBSDDetector.shape", "src/kikuchipy/detectors/_ebsd_detector.py:EBSDDetector.pc", "src/kikuchipy/detectors/_ebsd_detector.py:EBSDDetector.pcx", "src/kikuchipy/detectors/_ebsd_detector.py:EBSDDetector.navigation_shape", "src/kikuchipy/detectors/_ebsd_detector.py:EBSDDetector.tilt", "src/kikuchipy/detectors/_ebsd_detector.py:EBSDDetector._parse_valid_shape_or_raise"]}
{"id": "C103", "title": "Default (projective) fit of projection centers on a plane", "statement": "Calling fit_pc() with its default transformation on projection centers (PCs) which lie on a plane and depend affinely on the map position gives the PCs of that plane in all map positions, that is, the same detector as the affine transformation gives; outliers have no influence. With PCs on the sample plane of an untilted detector, the sample tilt is kept.", "quantifier": "all detectors, planes, numbers of PCs and map positions with four of them in general position, outlier masks, and results of the singular value decomposition and of the estimation of the transformation which fulfil their contracts", "why_tests_cant": "tests fit a few calibrations on a regular grid, in a plane containing the detector x axis, where the trimmed mean used as center of the plane lies on it by symmetry; whether a projective transformation with its extra freedom is exact between and beyond the calibration positions is a statement about all planes and positions", "anchors": ["src/kikuchipy/detectors/_ebsd_detector.py::EBSDDetector.fit_pc", "src/kikuchipy/detectors/_fit_projection_center.py::fit_plane_to_pc", "src/kikuchipy/detectors/_fit_projection_center.py::fit_pc_projective", "src/kikuchipy/detectors/_fit_projection_center.py::fit_hyperplane", "src/kikuchipy/detectors/_fit_projection_center.py::get_projective_transform_matrix"]}
{"id": "C104", "title": "Rescaling intensities in machine arithmetic", "statement": "rescale_intensity, computed in floating point arithmetic with fast-math optimizations and in the integer arithmetic of the pattern's data type, still takes the smallest and largest intensity to the limits of the output range, gives no intensities outside it, and never swaps the order of two pixels.", "quantifier": "all patterns, input and output ranges, data types, rounding functions of floating point formats, and evaluation orders which the compiler may choose", "why_tests_cant": "tests compare a few 3 x 3 patterns to stored results within a tolerance on one machine; whether the limits are met exactly depends on the rounding of one quotient, on the compiler's choice to replace a division by a multiplication with the reciprocal, and on the width of the pattern's integer type", "anchors": ["src/kikuchipy/pattern/_pattern.py::rescale_intensity", "src/kikuchipy/pattern/_pattern.py::_rescale_with_min_max"]}
{"id": "C105", "title": "Simulation in floating point arithmetic reads only pixels of the master pattern", "statement": "When patterns are simulated from a square master pattern (get_patterns(), dictionary indexing, orientation and projection center refinement), the computation in 64-bit floating point numbers is defined for every crystal orientation and every detector pixel (no square root of a negative number, no division of zero by zero, so no index converted from NaN), and the four master pattern pixels read for each detector pixel are in the array, the two weights of each axis add up to one and are those of the position between the pixels, up to rounding errors.", "quantifier": "all rotations and directions of unit length up to rounding errors, all master pattern sizes below 2^31, all arctan implementations accurate to 2^-50, with or without fused additions and multiplication by the reciprocal of the norm", "why_tests_cant": "the compiled code has no bounds checks; whether the component of a normalized vector can exceed one, or be close to but not equal to one while the others vanish, depends on the rounding of a square root and a quotient for one direction out of 2^192", "anchors": ["src/kikuchipy/signals/util/_master_pattern.py::_vector2lambert", "src/kikuchipy/signals/util/_master_pattern.py::_get_lambert_interpolation_parameters", "src/kikuchipy/_utils/numba.py::rotate_vector"]}
{"id": "C106", "title": "Similarity scores in floating point arithmetic do not depend on the order of summation beyond a known error", "statement": "The normalized dot product and the normalized cross-correlation, computed in float32 or float64 with each sum in whatever order NumPy, Dask chunks and the linear algebra library choose, differ from the exact scores by a bound proportional to the number of pixels, the precision and (for the cross-correlation) how flat the patterns are; scores of patterns without negative pixels are not negative; sums of 8-bit integers are exact; and dictionary indexing returns a pattern whose exact score is at most twice that error below the best one, and the best one if it leads by more. A score never exceeds one and is the same however the sum is ordered.", "quantifier": "all patterns, masks, dictionaries, orders of each sum with or without fused operations, both data types, all numbers of patterns per iteration and of pixels up to 1/64 of the inverse precision", "why_tests_cant": "the order of a sum depends on the machine, the library, the number of threads and chunks; there are exponentially many orders, and a test only sees one", "anchors": ["src/kikuchipy/indexing/similarity_metrics/_normalized_dot_product.py::NormalizedDotProductMetric", "src/kikuchipy/indexing/similarity_metrics/_normalized_cross_correlation.py::NormalizedCrossCorrelationMetric", "src/kikuchipy/indexing/_dictionary_indexing.py::_dictionary_indexing"]}
{"id": "C107", "title": "A NORDIF save that stops at any byte, and lazy signals saved to any file", "statement": "When saving a signal to a NORDIF file is interrupted after any number of bytes, the file has the bytes of the patterns written so far in order, no other file is changed, and loading it gives these pixels with zeros for the rest; loading it lazily raises an error. Saving a lazily loaded signal gives the same file as saving the computed signal. Patterns that were in the file are not lost unless they have been replaced.", "quantifier": "all patterns, map and pattern sizes, points of interrupt, file systems with several names for a file, and functions applied to lazy patterns", "why_tests_cant": "the interrupt can come after any byte, and what a lazy signal reads depends on the state of the file system at the time each pattern is computed", "anchors": ["src/kikuchipy/io/plugins/nordif/_api.py::file_writer", "src/kikuchipy/io/plugins/nordif/_api.py::file_reader", "src/kikuchipy/signals/ebsd.py::EBSD.save"]}
{"id": "C108", "title": "Processes that save to the same h5ebsd file at the same time lose nothing they report as saved", "statement": "Whatever number of processes call save() with the same h5ebsd file, and however their steps interleave: the file is open for writing in at most one of them, a process that tries to open it meanwhile gets an error and changes nothing, and after add_scan=True the file holds what it held before plus exactly the scans of the processes whose call returned, each under its own number. A file is only replaced by a process that was told to, or that asked.", "quantifier": "All numbers of processes, arguments and answers of each, all orders of their steps, all initial contents of the file", "why_tests_cant": "The interleavings of processes cannot be enumerated and a test cannot force them; lost scans appear only in rare schedules.", "anchors": ["src/kikuchipy/io/_io.py::_save", "src/kikuchipy/io/_util.py::_overwrite", "src/kikuchipy/io/plugins/kikuchipy_h5ebsd/_api.py::KikuchipyH5EBSDWriter"]}
{"id": "C109", "title": "Downsampled patterns and neighbour averages are right in floating point arithmetic", "statement": "EBSD.downsample() and EBSD.average_neighbour_patterns() add pixels in float32 or float64, in an order the compiler chooses. Whatever the order and the evaluation of the rescaling: (a) the sums of blocks of integer pixels are exact while the sum of absolute values is at most 2^24 (8-bit patterns with any factor up to 256, 16-bit patterns up to 16), and otherwise within 3 (f^2 + 1) 2^-24 of the sum of absolute values; (b) a block at least as bright as another one is not darker after downsampling, the darkest block gets the lower limit and, with a division, the brightest the upper limit; (c) an averaged pixel of integer patterns with a window of integers is the mean over the points inside the map rounded once, unchanged if all patterns agree in it, also at the edges, and pixels keep the order of their means; (d) averages of any patterns are within 2^-22 of the mean of the absolute values.", "quantifier": "every pattern size, factor, window, map size, position in the map, intensities within the stated bounds, order of summation, evaluation of the rescaling allowed by fastmath, and output type and limits", "why_tests_cant": "Tests check a few patterns on one machine with one compiler; the order of summation and fused operations depend on both, and errors only show for intensities too large for tests.", "anchors": ["src/kikuchipy/pattern/_pattern.py::_bin2d", "src/kikuchipy/pattern/_pattern.py::_downsample2d", "src/kikuchipy/pattern/chunk.py::_average_neighbour_patterns", "src/kikuchipy/pattern/chunk.py::_rescale_neighbour_averaged_patterns", "src/kikuchipy/signals/ebsd.py::EBSD.downsample", "src/kikuchipy/signals/ebsd.py::EBSD.average_neighbour_patterns"]}
{"id": "C110", "title": "Refinement scores in floating point", "statement": "The normalized cross-correlation score which refinement of orientations and projection centers computes in 32-bit floating point is within a known error of the exact coefficient of the experimental and the simulated pattern, at most one, exactly one for identical patterns, and does not depend on the contrast of the simulated pattern; the value minimized is never negative; a pattern with a clearly greater exact coefficient gets a lower value, so that the optimizer's lowest value is that of a pattern at most twice the error from the best one tried; and the score reported is the one computed.", "quantifier": "all numbers of pixels up to about 508 x 508, all experimental and simulated patterns which are not almost flat, all orders of the sums with or without fused operations (which fastmath allows), subtraction of the mean in single or double precision, and all lists of patterns tried", "why_tests_cant": "rounding errors depend on every pixel value, and the order of the sums on the compiler, the processor and the number of pixels; a test sees one order and a few patterns", "anchors": ["src/kikuchipy/indexing/similarity_metrics/_normalized_cross_correlation.py: _ncc_single_patterns_1d_float32_exp_centered", "src/kikuchipy/indexing/_refinement/_solvers.py: _prepare_pattern, _refine_orientation_solver_scipy", "src/kikuchipy/indexing/_refinement/_objective_functions.py: _refine_orientation_objective_function", "src/kikuchipy/pattern/_pattern.py: _zero_mean_sum_square_1d_float32"]}
{"id": "C111", "title": "Background removal with rounding", "statement": "Removing a static or dynamic background, with the rounding of floating point numbers as on the machine, gives for every pattern and background a pattern whose pixels are ordered as the exact values of pixel minus (or over) background and which fills the range of its data type, whenever two of these exact values differ. A scaled static background first gets the smallest and largest intensity of the pattern. False: a background with a pixel of zero, 16-bit patterns in a division and 32-bit patterns can give no valid pattern although the exact values differ, and 32-bit patterns can get intensities outside the range of the type.", "quantifier": "all patterns, backgrounds, data types, both operations, all formats of intermediate results and all evaluation orders the compiler may choose", "why_tests_cant": "rounding differs for every pair of pixel values; tests compare a few patterns of 8 bits", "anchors": ["src/kikuchipy/pattern/_pattern.py:_remove_static_background_subtract", "src/kikuchipy/pattern/_pattern.py:_remove_static_background_divide", "src/kikuchipy/pattern/_pattern.py:_remove_dynamic_background", "src/kikuchipy/pattern/_pattern.py:_remove_background_subtract", "src/kikuchipy/pattern/_pattern.py:_remove_background_divide", "src/kikuchipy/signals/ebsd.py:EBSD.remove_static_background", "src/kikuchipy/signals/ebsd.py:EBSD.remove_dynamic_background"]}
{"id": "C112", "title": "Patterns without contrast do not disturb dictionary indexing and merging", "statement": "A pattern whose kept pixels are all equal has no normalized cross-correlation with any other pattern (and a pattern whose kept pixels are all zero no normalized dot product). Dictionary indexing never returns such a dictionary pattern ahead of one which has a score, whatever the number of dictionary patterns per iteration, and the best scored pattern is returned first. An experimental pattern without contrast gets no score, and the same result whatever the number of patterns per iteration. Crystal maps indexed with different phases can still be merged, and every point with a score in some map gets the phase with its best score.", "quantifier": "all signal masks, experimental patterns and dictionaries of any size, all positions and numbers of patterns without contrast, all numbers of matches to keep and of patterns per iteration, all sets of maps to merge", "why_tests_cant": "whether a missing score displaces a real one depends on where the patterns without contrast fall in the dictionary, how many there are in one iteration and on the number of matches to keep; tests index patterns which all have contrast", "anchors": ["src/kikuchipy/indexing/_dictionary_indexing.py:_dictionary_indexing", "src/kikuchipy/indexing/_dictionary_indexing.py:_match_chunk", "src/kikuchipy/indexing/similarity_metrics/_normalized_cross_correlation.py:NormalizedCrossCorrelationMetric", "src/kikuchipy/indexing/similarity_metrics/_normalized_dot_product.py:NormalizedDotProductMetric", "src/kikuchipy/indexing/_merge_crystal_maps.py:merge_crystal_maps"]}
{"id": "C113", "title": "Neighbour dot products of patterns without contrast, and their data type", "statement": "With the default arguments, the average neighbour dot product map of an EBSD signal has in every map point the mean correlation coefficient of its pattern with its neighbours inside the map that have contrast; it is NaN exactly if the pattern has no contrast itself or no such neighbour. Values of normalized patterns are between -1 and 1, and the map does not change if each pattern is scaled by its own positive factor and shifted by its own constant. The dot product matrices have the correlations with the single neighbours in the data type asked for, and averaging them gives the map computed directly.", "quantifier": "all maps and patterns, all windows with odd axes, all positions of patterns without contrast, all chunkings, both floating point types, all combinations of centering and normalization", "why_tests_cant": "tests use a small map of patterns that all have contrast, 8-bit intensities and one data type; which neighbours count depends on the position of flat patterns, of map edges and of chunk borders", "anchors": ["src/kikuchipy/signals/ebsd.py:EBSD.get_average_neighbour_dot_product_map", "src/kikuchipy/signals/ebsd.py:EBSD.get_neighbour_dot_product_matrices", "src/kikuchipy/signals/util/_map_helper.py:_neighbour_dot_products", "src/kikuchipy/signals/util/_map_helper.py:_get_neighbour_dot_product_matrices", "src/kikuchipy/pattern/_pattern.py:_zero_mean", "src/kikuchipy/pattern/_pattern.py:_normalize"]}
{"id": "C114", "title": "The interactive detector plot and a geometrical simulation show the same bands and zone axes", "statement": "For one pattern, the pixel coordinates of lines and zone axes from KikuchiPatternSimulator.on_detector() are those of the overlay which the interactive detector plot draws for the same detector, crystal orientation, sample tilt and reflectors. (As stated this is false: a band passing exactly through the PC is drawn by the interactive plot, with its opposite reflector, but is not part of a geometrical simulation.)", "quantifier": "all detectors, PCs, unit cells, orientations and centrosymmetric reflector lists", "why_tests_cant": "The two implementations are separate code; tests compare neither of them with the other, and the claim ranges over a continuum of orientations and PCs.", "anchors": ["src/kikuchipy/simulations/kikuchi_pattern_simulator.py:KikuchiPatternSimulator.on_detector", "src/kikuchipy/simulations/_kikuchi_pattern_simulation.py:GeometricalKikuchiPatternSimulation", "src/kikuchipy/simulations/_geometrical_simulation.py:_get_geometrical_simulation"]}
{"id": "C115", "title": "Rounding errors do not move projection centers between conventions", "statement": "With 64-bit floating point arithmetic, a projection center given to or returned from EBSDDetector in any documented convention denotes the stored physical point up to a fraction 2^-49 of the detector size and of its distance from the detector corner (and of the detector distance). A given PC is returned up to 2^-47, and passing PCs on from detector to detector n times, in whichever conventions, moves the points by n 2^-47 at most: rounding does not accumulate faster than that. Bruker PCs are returned exactly.", "quantifier": "every documented convention name in any case, every list of conventions up to 2^40 long, all shapes up to 2^50 pixels a side, binning and pixel size between 2^-20 and 2^20, every PC triple including zero and negative ones", "why_tests_cant": "Errors depend on every bit of the PC and on the rounded ratios of shapes; a convention change that cancels digits (for example (1 - y) near the edge) shows for rare values only, and repeated conversion cannot be sampled.", "anchors": ["src/kikuchipy/detectors/_ebsd_detector.py: _pc_emsoft2bruker", "src/kikuchipy/detectors/_ebsd_detector.py: _pc_tsl2bruker", "src/kikuchipy/detectors/_ebsd_detector.py: _pc_oxford2bruker", "src/kikuchipy/detectors/_ebsd_detector.py: _pc_bruker2emsoft", "src/kikuchipy/detectors/_ebsd_detector.py: _pc_bruker2tsl", "src/kikuchipy/detectors/_ebsd_detector.py: _pc_bruker2oxford"]}
{"id": "C116", "title": "Geometrical simulations lie on the features of patterns simulated from a master pattern", "statement": "Given the same rotations and detector, EBSDMasterPattern.get_patterns() and KikuchiPatternSimulator.on_detector() agree: each pixel shows the master pattern in the crystal direction its centre looks along; if that direction is a zone axis, the zone axis is drawn inside that pixel, if it is in the plane of a reflector, a line is drawn through that pixel, and a line is drawn nowhere else.", "quantifier": "all master patterns, unit cells, reflectors, rotations, detectors (tilts, PCs, shapes) and pixels", "why_tests_cant": "Tests compare simulations with a few stored arrays by eye; agreement of two separate code paths with different rotation conventions must hold for every orientation, detector and pixel.", "anchors": ["src/kikuchipy/simulations/kikuchi_pattern_simulator.py:KikuchiPatternSimulator.on_detector", "src/kikuchipy/signals/ebsd_master_pattern.py:EBSDMasterPattern.get_patterns", "src/kikuchipy/signals/util/_master_pattern.py", "src/kikuchipy/simulations/_kikuchi_pattern_simulation.py"]}
{"id": "C117", "title": "Simulating on a cropped detector gives the cropped patterns", "statement": "Patterns simulated from a master pattern with a cropped detector (`detector.crop(extent)`, then `get_patterns(rotations, cropped_detector)`) show, pixel by pixel, the same intensities as the cropped part of the patterns simulated with the whole detector.", "quantifier": "every extent (also one reaching outside the detector), detector shape, tilts, PCs, rotations, master pattern and energy, data type, and division into chunks", "why_tests_cant": "Relates two calls through projection, PC conversion and shape handling; tests check the cropped detector's PC values and simulated patterns separately, on a few detectors.", "anchors": ["src/kikuchipy/detectors/_ebsd_detector.py: EBSDDetector.crop, sample_to_detector", "src/kikuchipy/signals/ebsd_master_pattern.py: EBSDMasterPattern.get_patterns", "src/kikuchipy/signals/util/_master_pattern.py: _get_direction_cosines_from_detector"]}
{"id": "C118", "title": "Indexing a pattern which the dictionary has finds it", "statement": "If a pattern to be indexed equals, in the pixels not masked out, a pattern of the dictionary up to gain and offset (for the normalized dot product: up to gain), dictionary indexing gives it a best match of score 1, whose dictionary pattern is the same as the pattern up to gain and offset, with that dictionary pattern's rotation. In particular, patterns simulated with rotations of the dictionary are indexed with score 1 and a rotation with which the simulated pattern looks the same.", "quantifier": "every map, dictionary, navigation and signal mask, number of matches kept, number of dictionary patterns per iteration, order of ties in sorting; every master pattern, detector with one PC and set of rotations", "why_tests_cant": "Composes simulation, masking, normalisation, chunked top-k matching and merging for all inputs; tests index a few patterns of one small dictionary with one chunking.", "anchors": ["src/kikuchipy/signals/ebsd.py: EBSD.dictionary_indexing", "src/kikuchipy/indexing/_dictionary_indexing.py: _dictionary_indexing", "src/kikuchipy/indexing/similarity_metrics/_normalized_cross_correlation.py", "src/kikuchipy/indexing/similarity_metrics/_normalized_dot_product.py", "src/kikuchipy/signals/ebsd_master_pattern.py: EBSDMasterPattern.get_patterns"]}
{"id": "C119", "title": "The gain and offset with which patterns were recorded do not matter", "statement": "Patterns which differ from others only by a positive gain and an offset, which may be other ones for each pattern, become the same patterns by rescale_intensity (to each pattern's own range or percentiles; if relative, with a common gain and offset), by normalize_intensity, and by removing the static background (scaled to each pattern) or the dynamic background by subtraction; by division this holds for another gain, and for an unscaled background for another offset (subtraction) or gain (division). Dictionary indexing with the normalized cross-correlation gives the same scores, indices and rotations for them. So rescaling or normalizing intensities to a floating point data type before dictionary indexing does not change its result.", "quantifier": "every set of patterns with contrast, gains, offsets, static background, pattern shape, standard deviation and truncation of the window, data type, output range, percentiles, masks, dictionary, number of matches kept and of patterns per iteration, order of ties", "why_tests_cant": "Relates two runs with arbitrary pattern-wise gains and offsets through four processing methods and the chunked matching; tests compare single runs with stored numbers.", "anchors": ["src/kikuchipy/signals/_kikuchipy_signal.py: KikuchipySignal2D.rescale_intensity, normalize_intensity", "src/kikuchipy/signals/ebsd.py: EBSD.remove_static_background, remove_dynamic_background, dictionary_indexing", "src/kikuchipy/pattern/_pattern.py", "src/kikuchipy/indexing/similarity_metrics/_normalized_cross_correlation.py"]}
{"id": "C120", "title": "Cropping patterns is the same as masking out what was cropped away", "statement": "Indexing patterns cropped to a rectangle with a dictionary cropped to the same rectangle gives the same result (scores, dictionary indices, rotations, points indexed) as indexing the whole patterns with the whole dictionary and a signal mask which is True outside the rectangle, for any metric; a further mask inside the rectangle can be combined with either. With the NCC this also holds if intensities are rescaled after cropping. Simulating the dictionary on the cropped detector gives the same result as simulating it on the whole detector and masking.", "quantifier": "all maps, dictionaries, rectangles inside of the patterns, masks inside of the rectangle, navigation masks, metrics, numbers of matches kept and of patterns per iteration, sorting functions; for simulated dictionaries all master patterns, rotations, detectors and floating-point data types", "why_tests_cant": "Tests index patterns of one size with one mask; that cropping and masking agree must hold for every rectangle, mask, metric and dictionary.", "anchors": ["src/kikuchipy/signals/ebsd.py: EBSD.dictionary_indexing", "src/kikuchipy/indexing/_dictionary_indexing.py: _dictionary_indexing", "src/kikuchipy/indexing/similarity_metrics/_similarity_metric.py: SimilarityMetric.prepare_experimental, prepare_dictionary", "src/kikuchipy/detectors/_ebsd_detector.py: EBSDDetector.crop", "src/kikuchipy/signals/ebsd_master_pattern.py: EBSDMasterPattern.get_patterns"]}
{"id": "C121", "title": "Indexing with one dictionary per phase and merging finds the phase and orientation", "statement": "When the same patterns are indexed with dictionary_indexing() (NCC metric) against the dictionaries of several phases, each call with its own navigation mask or none, and the returned crystal maps are merged with merge_crystal_maps() with those masks, then merging succeeds if every point is in one of the maps, and in every point where the pattern equals, up to gain and offset in the pixels compared, a pattern of exactly one of the dictionaries it was indexed with, the merged map has score 1, the rotation and simulation index of such a dictionary pattern, and the phase of that dictionary.", "quantifier": "all numbers and orders of phases, dictionaries of patterns with contrast, numbers of matches kept and of patterns per iteration, signal masks, navigation masks, experimental patterns with contrast and map shapes", "why_tests_cant": "the result depends on the scores of all dictionaries in all points, on the ordering of the phases, and on how rows of masked maps are put back in the full map; tests index small maps with two dictionaries without masks", "anchors": ["src/kikuchipy/indexing/_merge_crystal_maps.py:merge_crystal_maps", "src/kikuchipy/indexing/_dictionary_indexing.py:_dictionary_indexing", "src/kikuchipy/signals/ebsd.py:EBSD.dictionary_indexing"]}
{"id": "C122", "title": "Points of merged crystal maps have the data and positions of the same points of the scan", "statement": "When 2D crystal maps of one scan are merged with merge_crystal_maps(), every point of the merged map has the rotation, score and phase of one of the maps in the same row and column of the scan, namely the one with the best score there among the maps with data there, and its x and y coordinates are the ones of that point in the maps, also when some points are not in the data of some of the maps and no navigation masks are given.", "quantifier": "all numbers of maps, shapes, step sizes in x and y, sets of points in the data of each map, and scores", "why_tests_cant": "the masks made from the points in the data depend on the extent of these in each map, and the tests merge maps with the same extent and equal step sizes; a violation silently compares scores of different points", "anchors": ["src/kikuchipy/indexing/_merge_crystal_maps.py:merge_crystal_maps"]}
{"id": "C123", "title": "Refinement keeps parameters which explain a pattern, and improves what dictionary indexing found", "statement": "A pattern which is, in the pixels not masked out, the pattern get_patterns() simulates for some orientation and projection center up to gain and offset has refinement score 1 for these parameters, no parameters have a higher score, and those with score 1 are exactly those whose simulated pattern is the same up to gain and offset. So refine_orientation(), refine_projection_center() and refine_orientation_projection_center() starting there (also from a pseudo-symmetric orientation), with an optimizer that does not return a worse point than it started from, report score 1 and parameters that explain the pattern. Refining the orientations found by dictionary_indexing() with the same patterns, signal mask, master pattern and detector starts from the score of the best match and never reports a lower one.", "quantifier": "All master patterns, detectors, masks, patterns with contrast, orientations, projection centers, chunk divisions, optimizers, pseudo-symmetry operators and dictionaries.", "why_tests_cant": "Tests refine a few patterns from a few starting points with particular optimizers and compare to tolerances; that the true parameters are a global optimum of the reported score for every pattern, and that indexing and refinement scores are on the same scale, are statements about all of them.", "anchors": ["src/kikuchipy/indexing/_refinement/_refinement.py:_refine_orientation", "src/kikuchipy/indexing/_refinement/_solvers.py", "src/kikuchipy/indexing/_refinement/_objective_functions.py", "src/kikuchipy/indexing/_dictionary_indexing.py:_dictionary_indexing", "src/kikuchipy/signals/ebsd.py:EBSD.refine_orientation", "src/kikuchipy/signals/ebsd_master_pattern.py:EBSDMasterPattern.get_patterns"]}
{"id": "C124", "title": "Processing part of a map gives that part of the processed map", "statement": "Processing a selection of the patterns of a signal (a part of the map, in any order) with rescale_intensity, normalize_intensity, remove_static_background, remove_dynamic_background, get_dynamic_background, adaptive_histogram_equalization, downsample or fft_filter gives the same selection of the processed signal, whatever the chunks; an operation fails on a map only if it fails on one of its patterns. Averaging with neighbours and neighbour dot products of a part of the map are those of the map.", "quantifier": "all signals, selections of patterns, arguments of the operations, windows, chunks", "why_tests_cant": "A test processes a few small maps; independence of the patterns is about every map, every selection and every argument.", "anchors": ["src/kikuchipy/signals/_kikuchipy_signal.py::KikuchipySignal2D.rescale_intensity", "src/kikuchipy/signals/_kikuchipy_signal.py::KikuchipySignal2D.normalize_intensity", "src/kikuchipy/signals/_kikuchipy_signal.py::KikuchipySignal2D.adaptive_histogram_equalization", "src/kikuchipy/signals/ebsd.py::EBSD.remove_static_background", "src/kikuchipy/signals/ebsd.py::EBSD.remove_dynamic_background", "src/kikuchipy/signals/ebsd.py::EBSD.fft_filter", "src/kikuchipy/signals/ebsd.py::EBSD.average_neighbour_patterns", "src/kikuchipy/pattern/chunk.py::fft_filter"]}
{"id": "C125", "title": "Filtering a signal multiplies frequencies, or sums neighbouring pixels, and stretches the result", "statement": "EBSD.fft_filter with a transfer function multiplies each frequency of each pattern by its coefficient (zero frequency first, or in the centre with shift), and with a spatial window takes window-weighted sums with edge values replicated; each result is stretched to the range of the signal's data type, whatever the chunks. Hence neither the gain and offset of the patterns, nor a gain of the transfer function, nor its zero frequency coefficient matter, and a constant transfer function only stretches. Other domains are refused.", "quantifier": "all signals, chunks, data types, transfer functions and windows, shifts, FFT paddings", "why_tests_cant": "Tests filter a few patterns with a few windows and compare with stored numbers.", "anchors": ["src/kikuchipy/signals/ebsd.py::EBSD.fft_filter", "src/kikuchipy/pattern/chunk.py::fft_filter", "src/kikuchipy/pattern/_pattern.py::fft_filter", "src/kikuchipy/filters/fft_barnes.py::_fft_filter"]}
{"id": "C126", "title": "Indexing or refining part of a map gives that part of the indexed or refined map", "statement": "Dictionary indexing, Hough indexing and refinement treat the points of a map one by one: indexing (or refining) any selection of the patterns, with the navigation mask, projection centers and starting map of the selection and all other arguments the same, gives the same scores, dictionary indices, rotations, phases, numbers of evaluations, refined projection centers and other properties in the selected points as indexing (or refining) the whole map, also for a selection made with inav.", "quantifier": "all maps, patterns, dictionaries, metrics (higher or lower is better), sorting routines, dictionary chunks, signal and navigation masks, solvers and their starting points, divisions into chunks, and all selections of points in any order and with repetitions", "why_tests_cant": "A test compares a few cropped maps; that no result depends on which other patterns are in the map, on how many there are, on the order, the masks or the chunks must hold for every selection of every map.", "anchors": ["src/kikuchipy/signals/ebsd.py:EBSD.dictionary_indexing", "src/kikuchipy/signals/ebsd.py:EBSD.hough_indexing", "src/kikuchipy/signals/ebsd.py:EBSD.refine_orientation", "src/kikuchipy/signals/ebsd.py:EBSD.refine_projection_center", "src/kikuchipy/indexing/_dictionary_indexing.py:_dictionary_indexing", "src/kikuchipy/indexing/_refinement/_refinement.py:compute_refine_orientation_projection_center_results", "src/kikuchipy/indexing/_hough_indexing.py:xmap_from_hough_indexing_data", "src/kikuchipy/signals/util/_crystal_map.py:_get_indexed_points_in_data_in_xmap"]}
{"id": "C127", "title": "Loading NORDIF calibration patterns gives the listed patterns, in the listed order, with their positions", "statement": "kp.load() of a NORDIF setting file with calibration patterns gives a line of patterns, one for each pattern listed and in this order, each with the values of its own image file; the background pattern if its file exists; and the settings of the calibration section. A missing image, images of different shapes, or colour images are refused. The region of interest is as written, and positions in map steps are those in pixels to within half a step.", "quantifier": "every setting file in the documented layout (any number of listed patterns, any other lines between them), every set of image files, every region of interest and step size", "why_tests_cant": "the tests load one setting file with one set of images", "anchors": ["src/kikuchipy/io/plugins/nordif_calibration_patterns/_api.py: file_reader, _get_patterns", "src/kikuchipy/io/plugins/nordif/_api.py: _get_calibration_pattern_settings"]}
{"id": "C128", "title": "Processing in place, in chunks and in any order, gives what processing out of place gives, and lazy signals keep their patterns", "statement": "Filtering or averaging patterns in memory in place, chunk by chunk and in any order of reading and storing, gives the patterns which processing out of place gives. Wherever it stops, each pattern is as it was or processed once. After any sequence of processing signals in place or into new signals, lazily or not, and computing lazy signals, each signal has the patterns it would have if no two signals shared memory.", "quantifier": "every map, chunking, processing function and window, every interleaving of the chunks' reads and writes, every stopping point, every sequence of calls", "why_tests_cant": "the tests use small maps which are one chunk and one schedule, and do not process a signal while a lazy signal computed from it exists", "anchors": ["src/kikuchipy/signals/ebsd.py: EBSD.fft_filter, EBSD.average_neighbour_patterns, EBSD.remove_static_background", "src/kikuchipy/signals/util/_dask.py: get_dask_array", "src/kikuchipy/pattern/chunk.py: fft_filter, average_neighbour_patterns"]}
{"id": "C129", "title": "A signal saved and loaded keeps its detector, microscope, crystal map and PCs, and saving what was loaded changes nothing", "statement": "s.save('a.h5') followed by kp.load('a.h5') gives a signal with the patterns, steps, background, detector angles, binning and pixel size of s, its crystal map, each map point's projection center and what is known about the microscope. Saving and loading this signal again gives the same signal.", "quantifier": "every map of up to two dimensions, every number and shape of projection centers, every crystal map and microscope metadata, one or several cycles of saving and loading", "why_tests_cant": "the tests save and load a few signals with matching projection centers and crystal maps, once", "anchors": ["src/kikuchipy/io/plugins/kikuchipy_h5ebsd/_api.py: KikuchipyH5EBSDWriter.write, KikuchipyH5EBSDWriter.get_xmap_dict, KikuchipyH5EBSDReader.scan2dict", "src/kikuchipy/signals/util/_crystal_map.py: _xmap_is_compatible_with_signal", "src/kikuchipy/io/plugins/_h5ebsd.py: _dict2hdf5group, _hdf5group2dict"]}
{"id": "C130", "title": "Projection centers which are not on the sample plane are found and do not disturb the tilt and the fitted plane", "statement": "If all projection centers but some failed ones lie on the sample plane, EBSDDetector.estimate_xtilt(return_outliers=True) returns the angle between detector and sample and a mask which is True for exactly the failed ones, and fit_pc() given this mask returns the projection centers of the plane in every map position, whatever values the failed ones have. Outliers are returned only if asked for.", "quantifier": "every detector, plane, number and positions of projection centers, values of the outliers further from the plane than the median absolute deviation, and sequence of random draws with one draw of two good projection centers and no draw whose line is near as many", "why_tests_cant": "The result depends on random draws and on the values of the outliers; a test fixes both.", "anchors": ["src/kikuchipy/detectors/_fit_projection_center.py: estimate_xtilt_linear_robust, fit_plane_to_pc", "src/kikuchipy/detectors/_ebsd_detector.py: EBSDDetector.estimate_xtilt, EBSDDetector.fit_pc"]}
{"id": "C131", "title": "Lazy signals keep their patterns whatever is saved, and files can be used again after every call", "statement": "A signal loaded lazily from a kikuchipy h5ebsd file gives the patterns which were in the file when it was loaded, whatever is loaded and saved afterwards, to the same file or others, with or without errors, as long as the signal is in use. A file is closed after saving and after loading which is not lazy, so that it can be overwritten, added to and loaded again.", "quantifier": "every history of loading, saving (overwriting, adding, refused, interrupted) and deleting signals, and every file", "why_tests_cant": "What is possible with a file depends on all calls before and on which of them raised; a test runs one history.", "anchors": ["src/kikuchipy/io/plugins/kikuchipy_h5ebsd/_api.py: KikuchipyH5EBSDWriter.__init__, check_file, get_scan_groups, write", "src/kikuchipy/io/plugins/_h5ebsd.py: H5EBSDReader.__init__, check_file, read"]}
{"id": "C132", "title": "Detector, background and crystal map fit the patterns after every history of operations", "statement": "Starting from a signal whose detector has the shape of the patterns and one projection center or one per map point, whose static background has the shape of the patterns and whose crystal map has the shape of the map, any sequence of setting these attributes, slicing with inav and isig, cropping, downsampling, rebinning and extracting grids, some of which may be refused with an error, gives a signal with attributes that fit in the same way. An attribute that does not fit is refused and the signal is left as it was. The detector and crystal map of a signal can always be given to methods which check them, such as refinement.", "quantifier": "all signals with two navigation dimensions, all sequences of operations of any length, all arguments", "why_tests_cant": "Tests do one operation on one signal; that attributes keep fitting concerns all sequences of operations, including those after an error, and all shapes.", "anchors": ["src/kikuchipy/signals/ebsd.py: EBSD.detector, EBSD.xmap, EBSD.static_background, EBSD.crop, EBSD.rebin, EBSD.downsample, EBSD.extract_grid, EBSD._slicer, _update_custom_attributes", "src/kikuchipy/signals/util/_detector.py: _detector_is_compatible_with_signal", "src/kikuchipy/signals/util/_crystal_map.py: _xmap_is_compatible_with_signal"]}
{"id": "C133", "title": "Refining with one master pattern per phase and merging the refined maps finds phase and orientation", "statement": "If the same patterns are refined with EBSD.refine_orientation() for one phase after the other and the refined crystal maps are merged with merge_crystal_maps(), then in every point the merged score is at least the correlation of the pattern with the pattern simulated for every orientation any of the refinements started with, and it is the correlation with the pattern simulated for the merged rotation and phase. Where a starting orientation of exactly one phase explains the pattern (it is the simulated one up to gain and offset), and no orientation of the other phases does, the merged map has score 1, this phase and a rotation which explains the pattern. Points which are not indexed in one map get the result of a map where they are.", "quantifier": "every number and order of phases, every map, pattern, detector, projection centers, signal mask, navigation masks, points not indexed, division into chunks and optimizer which does not return a worse point than its start", "why_tests_cant": "Tests merge maps with made-up scores and refine single patterns with one phase; that scores of different refinements are comparable, and that the right rows reach the right points, must hold for all maps and masks", "anchors": ["src/kikuchipy/indexing/_refinement/_refinement.py: compute_refine_orientation_results, _get_crystal_map_parameters, _refine_orientation", "src/kikuchipy/indexing/_merge_crystal_maps.py: merge_crystal_maps", "src/kikuchipy/signals/ebsd.py: EBSD.refine_orientation"]}
{"id": "C134", "title": "Pseudo-symmetry operators give the orientations they describe", "statement": "When orientations are refined with pseudo-symmetry operators, every point is refined from its rotation in the crystal map and, in the order of the operators, from each operator applied after this rotation, each within the trust region around it, and the best result is kept with the number of its starting point. If the rotation or one of these pseudo-symmetric orientations explains the pattern, the refined orientation does and has score 1. An operator which maps the master pattern onto itself changes neither simulated patterns nor scores.", "quantifier": "all crystal maps (also with several rotations per point and points not in the data), navigation masks, operators, trust regions, patterns, detectors and master patterns, all optimizers which return the value they found (and, to find the pattern, do not return a worse point than they started with)", "why_tests_cant": "which of the orientations is right differs from point to point; tests run one or two operators on a few patterns of one crystal and cannot tell an operator applied after the rotation from one applied before it for all orientations", "anchors": ["src/kikuchipy/indexing/_refinement/_refinement.py: _RefinementSetup.__init__, get_bound_constraints", "src/kikuchipy/signals/ebsd.py: EBSD.refine_orientation", "src/kikuchipy/indexing/_refinement/_solvers.py"]}
{"id": "C135", "title": "Only the rotation between crystal and screen can be seen", "statement": "Tilts of the sample and tilts, azimuthal and twist angles of the detector enter simulation, dictionary indexing and refinement only through the rotation between crystal and screen. Detectors which differ only in these angles give the same patterns for crystals in the same position relative to the screen; for any two sets of angles one fixed rotation turns every orientation into the one which gives the same pattern with the other angles. Hence indexing with a dictionary simulated with wrong angles gives the same scores and indices with every rotation off by the same fixed rotation, refinement gives the same scores and explains the same patterns, so that wrong angles cannot be noticed from scores, and geometrical simulations have the same lines and zone axes. Tilting sample and detector by the same angle changes nothing at all.", "quantifier": "all detectors, all pairs of sets of angles, all orientations (single or many), PCs, master patterns, energies, data types and chunkings; all calls to dictionary indexing (patterns, masks, metrics, matches kept, patterns per iteration); all refinement patterns and masks; all reflector lists", "why_tests_cant": "a test has a few angles and orientations; the claim is an exact invariance over a four-parameter family of detectors and all orientations", "anchors": ["src/kikuchipy/detectors/_ebsd_detector.py:EBSDDetector.sample_to_detector", "src/kikuchipy/signals/ebsd_master_pattern.py:EBSDMasterPattern.get_patterns", "src/kikuchipy/signals/util/_master_pattern.py:_get_direction_cosines_for_fixed_pc", "src/kikuchipy/signals/ebsd.py:EBSD.dictionary_indexing", "src/kikuchipy/indexing/_refinement/_objective_functions.py", "src/kikuchipy/simulations/kikuchi_pattern_simulator.py:KikuchiPatternSimulator.on_detector"]}
{"id": "C136", "title": "Image quality sees only the amplitudes of a pattern's waves", "statement": "The image quality of every pattern is one minus the mean penalty of its waves, weighted by their amplitudes and relative to the mean penalty of all waves, where the penalty of a wave depends only on its number of periods in the two directions. Image quality is therefore the same for a pattern moved circularly, flipped upside down, mirrored, rotated by 180 degrees or transposed, with and without normalization; normalization only subtracts the mean; a pattern with a single bright pixel has image quality zero; a cosine wave has one minus its relative penalty, coarser waves have no lower image quality than finer ones, no pattern has a lower image quality than the finest wave, and image quality can be negative.", "quantifier": "All pattern shapes, patterns, displacements, cosine waves with any numbers of periods and strength, with and without normalization", "why_tests_cant": "Holds for every pattern and shape, odd and even; tests compute image quality of a few patterns and compare with stored numbers", "anchors": ["src/kikuchipy/pattern/_pattern.py: get_image_quality, _get_image_quality, fft_frequency_vectors, fft_spectrum", "src/kikuchipy/signals/ebsd.py: EBSD.get_image_quality"]}
{"id": "C137", "title": "Simulated patterns have the symmetry of the master pattern", "statement": "Let g be one of the sixteen operations which keep the axis and the square grid of a Lambert master pattern (exchange of x and y, changes of sign of x, y and z). Then the intensity of the master pattern after g in direction g(v) is its intensity in v, also on the diagonals of the grid, at pixel positions and on the equator (if both hemispheres agree there). So turning the master pattern and all orientations together leaves get_patterns unchanged, and if the master pattern is unchanged by g, all orientations related by g have the same simulated patterns, and the same scores in refinement. The intensity is the mean of the pixels weighted by distance along both axes. For other symmetry operations of crystals, such as the three-fold axes of cubic crystals, this fails.", "quantifier": "for all master patterns with square arrays, energies and hemispheres, all sixteen operations, all unit orientations, all detectors, tilts and PCs in front of the detector, all data types, shapes, chunks and directions", "why_tests_cant": "The claim ranges over all master patterns and directions, including the ties between the two formulas of the projection, integer grid positions and the equator, which random inputs do not hit", "anchors": ["/repo/src/kikuchipy/signals/util/_master_pattern.py: _get_lambert_interpolation_parameters, _vector2lambert, _get_pixel_from_master_pattern, _project_single_pattern_from_master_pattern", "/repo/src/kikuchipy/signals/ebsd_master_pattern.py: EBSDMasterPattern.get_patterns"]}
{"id": "C138", "title": "Simulated patterns and refinement scores change continuously with orientation and projection center", "statement": "The intensity simulated in a direction is a continuous function of the direction exactly if the two hemispheres of the master pattern agree on their border (the equator). Then every pixel of a pattern from get_patterns, the correlation of this pattern with an experimental one (where the simulated pattern is not constant in the pixels kept), and the functions minimized in the refinement of orientations, of projection centers and of both change arbitrarily little if orientation and projection center change little enough. Orientations from nearby Euler angles are near, also where a quaternion changes sign.", "quantifier": "all square master patterns of any size and data type, all detectors, sample tilts, signal masks, experimental patterns, orientations and projection centers in front of the detector, all tolerances", "why_tests_cant": "continuity is a statement about all sequences of orientations and projection centers which come close, including those crossing the equator, the diagonals of the square projection and the cells of the interpolation grid; tests evaluate a few points", "anchors": ["signals/util/_master_pattern.py:_get_lambert_interpolation_parameters", "signals/util/_master_pattern.py:_project_single_pattern_from_master_pattern", "signals/util/_master_pattern.py:_vector2lambert", "signals/ebsd_master_pattern.py:EBSDMasterPattern.get_patterns", "indexing/_refinement/_objective_functions.py", "indexing/_refinement/_refinement.py:_RefinementSetup.set_master_pattern_data", "_utils/numba.py:rotation_from_euler"]}
{"id": "C139", "title": "Simulated patterns move with the projection center, and downsampled detectors look at the middle of pixel blocks", "statement": "Moving the projection centers of a detector by a whole number of pixels moves the intensities of the patterns simulated by EBSDMasterPattern.get_patterns() by that number of pixels, in the same direction. After EBSD.downsample(factor), a pattern simulated with the signal's new detector has in each pixel the intensity of the master pattern in the direction of the middle of the block of pixels which were summed into that pixel; for an odd factor this is the middle pixel of the block in the pattern simulated with the detector before. Pixel size and binning factor of a detector do not matter for simulation. (All before the rescaling of whole patterns when another data type is asked for.)", "quantifier": "every master pattern, rotation set, detector shape, tilts, projection centers in front of the screen, shift, factor, energy, data type and chunking", "why_tests_cant": "Tests simulate a few patterns on one detector; an offset of half a pixel for even factors or a sign error for non-square detectors is seen only by relating all pixels of two simulations for every shift, factor and shape.", "anchors": ["src/kikuchipy/signals/ebsd_master_pattern.py: EBSDMasterPattern.get_patterns", "src/kikuchipy/signals/util/_master_pattern.py: _get_direction_cosines_for_fixed_pc, _get_direction_cosines_for_varying_pc", "src/kikuchipy/signals/ebsd.py: EBSD.downsample", "src/kikuchipy/detectors/_ebsd_detector.py: EBSDDetector"]}
{"id": "C140", "title": "Dictionary indexing with fewer matches, or with a reordered, extended or split dictionary, gives consistent results", "statement": "EBSD.dictionary_indexing() with a smaller keep_n returns the first of the matches returned with a larger keep_n; reordering the dictionary changes neither the scores nor (if no two are equal) the patterns matched; adding patterns to the dictionary lowers no score; and the scores with a whole dictionary are the best of the scores found with its parts. All whatever n_per_iteration is in either call.", "quantifier": "every experimental pattern, dictionary (as a list of patterns, of any size), keep_n, n_per_iteration, and every way equal scores may be ordered by the sorting functions", "why_tests_cant": "Tests index a few patterns with one dictionary; that results of different calls are related for all dictionaries, chunk sizes and orders of equal scores is not visible in any finite set of calls.", "anchors": ["src/kikuchipy/signals/ebsd.py: EBSD.dictionary_indexing", "src/kikuchipy/indexing/_dictionary_indexing.py: _dictionary_indexing, _match_chunk"]}
{"id": "C141", "title": "Collections and plots of a geometrical simulation show the pattern asked for", "statement": "GeometricalKikuchiPatternSimulation.as_collections(index, coordinates, lines, zone_axes, zone_axes_labels) returns exactly the collections asked for, for the single pattern the index names (the first one without an index; numbers may count from the end): a segment for every row of lines_coordinates and a circle about every row of zone_axes_coordinates of the same index and coordinates, and a label of the right zone axis just above each. Pixel and gnomonic lines are the same lines, converted with the pattern's projection center. plot(index) shows these collections on the detector.", "quantifier": "every simulation made by on_detector (any lattice, rotations, 1D or 2D map, one or many projection centers), every index, coordinate format, combination of flags and pattern", "why_tests_cant": "Tests count artists for one simulation; that each artist belongs to the pattern named, in each format, with varying projection centers and all index forms, ranges over all simulations.", "anchors": ["src/kikuchipy/simulations/_kikuchi_pattern_simulation.py: GeometricalKikuchiPatternSimulation.as_collections, lines_coordinates, zone_axes_coordinates, plot, _lines_as_collection, _zone_axes_as_collection, _zone_axes_labels_as_list", "src/kikuchipy/detectors/_convert_detector_coordinates.py: parse_coordinate_format"]}
{"id": "C142", "title": "Redundant processing steps may be left out, and filters and downsampling compose", "statement": "Any sequence of rescale_intensity() (relative or not, to the full range) and normalize_intensity() calls with floating point output leaves each pattern with another gain and offset only, so such steps can be left out before rescaling each pattern by itself, normalizing, subtracting a scaled static background or the dynamic background, FFT filtering, downsampling, or dictionary indexing with the NCC, without changing the result. Two FFT filters of a floating point signal in the frequency domain used one after the other, of which one treats opposite frequencies alike and which leave contrast, are one filter with the product of the transfer functions, in either order. Downsampling a floating point signal by two factors one after the other is downsampling by their product.", "quantifier": "every finite sequence of such calls, every signal without constant patterns, every following operation's arguments, every pair of transfer functions of which one is centrally symmetric, every pair of factors", "why_tests_cant": "Tests call each method once on fixed patterns; that arbitrary sequences of calls compose for all patterns and arguments needs an induction over the sequence.", "anchors": ["src/kikuchipy/signals/_kikuchipy_signal.py: KikuchipySignal2D.rescale_intensity, normalize_intensity", "src/kikuchipy/signals/ebsd.py: EBSD.remove_static_background, remove_dynamic_background, fft_filter, downsample, dictionary_indexing"]}
{"id": "C143", "title": "The detector returned by extrapolate_pc describes equally spaced points on the tilted sample", "statement": "For an integer binning, extrapolate_pc returns a detector with one projection center (PC) per position of the map asked for, the shape, pixel size and binning asked for (or those of the detector), and the same angles. The source points its PCs describe, in the unit of the pixel size, lie on the plane of the sample: the distance between the points of any two map positions is their distance in the map, and estimate_xtilt gives the angle between sample and detector. The average position gets the average PC. The PCs only depend on the height and width of the detector, not on how they are split into pixels, pixel size and binning. Extrapolating again from all PCs of the returned detector gives the same detector if the map has odd numbers of rows and columns.", "quantifier": "all detectors, PCs, map positions, outlier masks, map shapes, step sizes, shapes, pixel sizes and integer binnings", "why_tests_cant": "Tests compare the PCs of a few maps with stored numbers; that distances and angles agree for every map, detector shape and binning is a geometric identity over all of them.", "anchors": ["src/kikuchipy/detectors/_ebsd_detector.py: EBSDDetector.extrapolate_pc, EBSDDetector.estimate_xtilt"]}
{"id": "C144", "title": "Neighbour averages, dot products and orientation similarities do not depend on the corner in which a scan starts", "statement": "For windows and footprints with odd numbers of rows and columns which look the same from both sides, average_neighbour_patterns, get_neighbour_dot_product_matrices, get_average_neighbour_dot_product_map and orientation_similarity_map of a map with its rows (or columns) in reverse order give the results of the original map in reverse order. Exchanging rows and columns of the map and of the window exchanges rows and columns of the results. Two neighbours have the same dot product whichever of them the window is placed on. All of this holds for any chunking of either map. Circular windows, the default, and symmetric SciPy windows are such windows.", "quantifier": "all maps, patterns, data types, windows, chunkings, numbers of best matches and footprints", "why_tests_cant": "Tests compare single maps with stored numbers; the symmetry relates the results of two different maps for every map, window and chunking.", "anchors": ["src/kikuchipy/signals/ebsd.py: EBSD.average_neighbour_patterns, EBSD.get_neighbour_dot_product_matrices, EBSD.get_average_neighbour_dot_product_map", "src/kikuchipy/indexing/_orientation_similarity_map.py: orientation_similarity_map", "src/kikuchipy/filters/window.py: Window"]}
{"id": "C145", "title": "Cropping gives what slicing gives, however the arguments are passed", "statement": "For every call of EBSD.crop() which Python accepts, with any mixture of positional and keyword arguments, the start and end used to update detector, static background and crystal map are the ones HyperSpy crops the data with. Cropping any one of the four axes to a part of it by indices leaves the signal with the shape and attributes it has after slicing that axis with inav or isig, and cropping to everything leaves the signal as it is. crop_signal(top, bottom, left, right) to any rectangle smaller than the patterns is isig[left:right, top:bottom], and cropping map rows and then map columns is inav[left:right, top:bottom].", "quantifier": "every signature and every accepted call (positional and keyword arguments in any mixture and order); every signal with a 2D map, shape, detector, static background and crystal map; every axis; every start and end given as indices", "why_tests_cant": "Tests call crop() in one or two ways on one small signal; that parameters are found in every call, and that two crops in a row compose to one slice for detector, background and crystal map, needs a proof over all calls, shapes and rectangles.", "anchors": ["src/kikuchipy/signals/util/_overwrite_hyperspy_methods.py: get_parameters", "src/kikuchipy/signals/ebsd.py: EBSD.crop, EBSD.crop_signal (HyperSpy), _update_custom_attributes", "src/kikuchipy/detectors/_ebsd_detector.py: EBSDDetector.crop"]}
{"id": "C146", "title": "Processing does not depend on how patterns are held: flipped patterns give the flipped result", "statement": "Patterns turned upside down, mirrored, transposed, or with their pixels in any other order give the same numbers at the moved pixels. Rescaling, static background removal and normalization commute with any rearrangement of the pixels (of the static background too). Dictionary indexing and refinement scores are unchanged when the pixels of both patterns and of the signal mask are rearranged, hence so are the simulation indices and scores of a whole map. Downsampling by a factor of the shape, filtering with an equally flipped window or transfer function, and dynamic background removal commute with flips.", "quantifier": "all patterns, shapes, data types, intensity ranges, percentiles, permutations of pixels, masks, dictionaries, chunks, windows with their origin in the middle, transfer functions and standard deviations", "why_tests_cant": "Tests process a few patterns in the one orientation they were stored in and compare to stored values; that no step prefers a corner is a statement about all patterns.", "anchors": ["src/kikuchipy/pattern/_pattern.py: rescale_intensity, normalize_intensity, remove_dynamic_background, fft_filter, _downsample2d", "src/kikuchipy/pattern/_pattern.py: _remove_static_background_subtract, _remove_static_background_divide", "src/kikuchipy/indexing/similarity_metrics/_normalized_cross_correlation.py", "src/kikuchipy/indexing/similarity_metrics/_normalized_dot_product.py", "src/kikuchipy/signals/ebsd.py: EBSD.fft_filter, EBSD.downsample, EBSD.remove_static_background, EBSD.remove_dynamic_background, EBSD.dictionary_indexing"]}
{"id": "C147", "title": "With NLopt, each pattern is refined as if it were alone", "statement": "Refinement with LN_NELDERMEAD uses one optimizer for all patterns of a block, given to all blocks, and blocks are refined by several threads. In every interleaving the refinement ends after a bounded number of steps, and each pattern then has the score, number of evaluations, parameters and pseudo-symmetry index it has with a new optimizer of its own: with the tolerance, initial steps and maximum number of evaluations asked for, its own objective function and, if a trust region is given, the bounds of its own starting points. An exception is raised only if one of the patterns raises it alone, and the optimizer given to the blocks is not changed.", "quantifier": "all numbers of blocks, patterns and pseudo-symmetry operators, all interleavings, objective functions, bounds and starting points, and every optimizer whose outcome is a function of its settings, bounds, objective function and starting point", "why_tests_cant": "Tests refine a few patterns on one machine; state kept in the optimizer from earlier patterns or other threads shows only in some orders.", "anchors": ["src/kikuchipy/indexing/_refinement/_refinement.py: _RefinementSetup.set_optimization_parameters, _refine_orientation_chunk_nlopt, _refine_pc_chunk_nlopt, _refine_orientation_pc_chunk_nlopt", "src/kikuchipy/indexing/_refinement/_solvers.py: _refine_orientation_solver_nlopt, _refine_pc_solver_nlopt, _refine_orientation_pc_solver_nlopt"]}
{"id": "C148", "title": "The mirror image of an experiment has the mirror images of its patterns", "statement": "Simulation, refinement and dictionary indexing have no handedness of their own. Mirror everything, left and right or up and down: the master pattern, the orientations, the projection centers (pcx to 1 - pcx, or pcy to 1 - pcy) and the angles (azimuthal and twist change sign, or the two tilts and twist). Then get_patterns returns the mirror images of all patterns, or the same error, for all rotations, PCs, angles, energies, data types, shapes and chunks. Mirrored patterns have the same scores as before in refinement, and the same scores and simulation indices in dictionary indexing, with mirrored masks. Every orientation has a mirror image, with Euler angles it is found by changing signs, and for crystals with a center of symmetry half a turn of the crystal takes the place of the mirrored master pattern.", "quantifier": "all master patterns, mirror operations of their grid, orientations, detectors, projection centers in front of the screen, angles, energies, data types, chunks, patterns and masks", "why_tests_cant": "A test checks a few orientations against stored images; a wrong sense of one angle or axis shows only for detectors with that angle, and stored images contain the same mistake. The symmetry must hold for every geometry.", "anchors": ["src/kikuchipy/signals/ebsd_master_pattern.py: EBSDMasterPattern.get_patterns", "src/kikuchipy/signals/util/_master_pattern.py: _get_direction_cosines_for_fixed_pc, _get_direction_cosines_for_varying_pc, _project_single_pattern_from_master_pattern", "src/kikuchipy/detectors/_ebsd_detector.py: _sample_to_detector_matrix, EBSDDetector.gnomonic_bounds", "src/kikuchipy/_utils/numba.py: rotation_from_euler, rotate_vector"]}
{"id": "C149", "title": "Scripts can be read as if every name held its own copy", "statement": "In every script which makes detectors, crystal maps, static backgrounds and EBSD signals, assigns them to variables and to attributes of signals, simulates patterns, processes, slices, rebins, copies, refines and downsamples signals, every variable and every attribute shows in the end what it would show if each had always held its own copy, provided that objects are changed (by the user or by downsample) only while no other variable or attribute refers to them. This is so in particular if nothing is changed, and if changes are confined to a chosen set of variables and attributes which take no part in calls that share objects. Without that proviso it is not so: a change of a shared object, and every downsample(inplace=False) which keeps the original, shows elsewhere.", "quantifier": "all scripts of any length, with any number of variables and signals and any changes", "why_tests_cant": "Sharing shows only through later changes, and the number of ways to share and change objects has no bound.", "anchors": ["src/kikuchipy/signals/ebsd.py: EBSD.__init__, EBSD.detector, EBSD.xmap, EBSD.static_background, EBSD.downsample", "src/kikuchipy/signals/_kikuchipy_signal.py: _get_custom_attributes, _set_custom_attributes, as_lazy, deepcopy", "src/kikuchipy/signals/ebsd_master_pattern.py: EBSDMasterPattern.get_patterns"]}
{"id": "C150", "title": "The order in which crystal maps are merged does not matter", "statement": "Merging crystal maps listed in another order (with their navigation masks) gives a map of the same size with the same combined scores, the same points not indexed, and, in each point where one map is better than all others, the same rotations, scores, simulation indices and phase. Merging some maps first, and the merged map with the rest later, gives the same rotations, scores and simulation indices as merging all at once.", "quantifier": "all lists of maps of any shape, number of points and scores per point, all permutations of the list, with or without navigation masks, all choices of mean_n_best and greater_is_better, and all ways of splitting the list in two", "why_tests_cant": "The number of orders grows with the factorial of the number of maps; tests merge a few maps in one order.", "anchors": ["src/kikuchipy/indexing/_merge_crystal_maps.py: merge_crystal_maps"]}
{"id": "C151", "title": "What a map point sees of its neighbours", "statement": "The averaged pattern, the neighbour dot products and their average, and the orientation similarity of a map point depend only on the patterns (or best matches) under the window placed on the point, whatever is elsewhere in the map and however it is chunked. A gain and an offset common to all patterns, and a factor on all window coefficients, do not change averaged patterns (as long as the coefficients inside the map add up to at least one). Where all patterns under the window are the same, the averaged pattern is that pattern rescaled, and all dot products and their average are one. With a window that is symmetric about its origin, the dot product a point has for a neighbour is the one the neighbour has for the point.", "quantifier": "all maps with two axes, all windows with two axes (odd axes for dot products), all patterns, chunkings, data types and choices of zero_mean and normalize", "why_tests_cant": "It relates pairs of maps that differ anywhere outside a window, for all windows, positions and chunkings.", "anchors": ["src/kikuchipy/signals/ebsd.py: EBSD.average_neighbour_patterns, EBSD.get_neighbour_dot_product_matrices, EBSD.get_average_neighbour_dot_product_map", "src/kikuchipy/signals/util/_map_helper.py: _map_helper, _get_neighbour_dot_product_matrices, _get_average_dot_product_map", "src/kikuchipy/indexing/_orientation_similarity_map.py: orientation_similarity_map"]}
{"id": "C152", "title": "A detector file whose writing stopped is not loaded as a detector", "statement": "The text written by EBSDDetector.save() is loaded by EBSDDetector.load() with the same parameters and the PCs rounded to the written decimals. If the writing stopped after any number of characters, loading raises an error, or what is loaded agrees with the whole file; PCs are never lost or changed without an error.", "quantifier": "every detector, PC convention, number of decimals, version and time text, and every number of characters after which the writing stopped", "why_tests_cant": "a file can stop after every character, in a header line, within a row or within a number, for every shape and every value; a test looks at a few", "anchors": ["src/kikuchipy/io/_detectors.py: read_ebsd_detector_from_file, write_ebsd_detector_to_file", "src/kikuchipy/detectors/_ebsd_detector.py: EBSDDetector.save, EBSDDetector.load, EBSDDetector.pc"]}
{"id": "C153", "title": "Patterns without contrast in refinement", "statement": "When orientations and/or projection centers are refined, the score of a map point is a number exactly if its pattern and the pattern simulated for the refined parameters both have contrast in the pixels used, and then it is their correlation; otherwise it is NaN. A pattern without contrast gets NaN and the first starting point and leaves the results of all other map points as they are. With pseudo-symmetry operators, the reported solution is the best one among those which have a score.", "quantifier": "every signal, master pattern, detector, signal mask, navigation mask, chunking, number of pseudo-symmetry operators, starting points and optimizer that reports the objective at the point it returns", "why_tests_cant": "All patterns, with and without contrast, all optimizers and all divisions into chunks; tests use patterns with contrast only.", "anchors": ["src/kikuchipy/indexing/_refinement/_solvers.py: _refine_orientation_solver_scipy", "src/kikuchipy/indexing/_refinement/_solvers.py: _refine_orientation_solver_nlopt", "src/kikuchipy/indexing/_refinement/_solvers.py: _refine_orientation_pc_solver_scipy", "src/kikuchipy/indexing/_refinement/_solvers.py: _refine_orientation_pc_solver_nlopt", "src/kikuchipy/indexing/_refinement/_solvers.py: _refine_pc_solver_scipy", "src/kikuchipy/indexing/similarity_metrics/_normalized_cross_correlation.py: _ncc_single_patterns_1d_float32_exp_centered"]}
{"id": "C154", "title": "EDAX and Oxford binary files whose writing stopped are not loaded as complete scans", "statement": "If the writing (or copying) of an EDAX .up1/.up2 file or an Oxford Instruments .ebsp file stopped after any number of bytes before all patterns were written, loading the file raises an error; a file cut only after its last pattern either raises an error or gives the same scan as the whole file. A truncated file is never returned as a scan with fewer or other patterns.", "quantifier": "every file content (version, pattern shape, pixel values, order of patterns, gap between header and patterns) and every byte position at which the writing stopped, with and without nav_shape", "why_tests_cant": "Files can be cut at any of their bytes, in every field of the header, in the table of positions, between and inside patterns; tests only read whole files.", "anchors": ["src/kikuchipy/io/plugins/edax_binary/_api.py:EDAXBinaryFileReader.read_header", "src/kikuchipy/io/plugins/edax_binary/_api.py:EDAXBinaryFileReader.read_scan", "src/kikuchipy/io/plugins/oxford_binary/_api.py:OxfordBinaryFileReader.guess_number_of_patterns", "src/kikuchipy/io/plugins/oxford_binary/_api.py:OxfordBinaryFileReader.get_memmap"]}
{"id": "C155", "title": "Rounding errors do not move pixel and gnomonic coordinates", "statement": "EBSDDetector.to_gnomonic_coords and to_pixel_coords, computed in 64-bit floating point numbers with every operation rounded (a product and the following sum may be rounded once), return the coordinates of the exact gnomonic projection from the projection center up to 2^-42 of a pixel for every pixel which the screen and the coordinate are large, for screens of up to 2^20 pixels in each direction, |PCx| and |PCy| up to 2 and PCz between 2^-20 and 2^20. Converting to the other coordinates and back returns the coordinates up to the same error, in both orders, so that every pixel of the screen is found again after rounding.", "quantifier": "all detector shapes, projection centers and coordinates (on the screen or outside) in these ranges, and all choices of one or two roundings of a product and a sum", "why_tests_cant": "tests compare a few coordinates of one detector within a tolerance; the largest rounding error is taken over all floating point numbers and shapes", "anchors": ["src/kikuchipy/detectors/_convert_detector_coordinates.py: get_pixel_to_gnomonic_coords_conversion_numba, get_gnomonic_to_pixel_coords_conversion_numba, _convert_coordinates", "src/kikuchipy/detectors/_ebsd_detector.py: EBSDDetector.to_gnomonic_coords, to_pixel_coords, x_min, x_max, y_min, y_max, aspect_ratio"]}
{"id": "C156", "title": "In floating point arithmetic every pixel of a detector gets its own direction", "statement": "When patterns are simulated (get_patterns(), dictionaries, refinement), the directions of detector pixels are computed in 64-bit floating point numbers by a compiled function which reads column and row coordinates, without checking indices, from arrays whose lengths are a rounded quotient. For screens of up to 2^20 pixels in each direction, |PCx| and |PCy| up to 2 and PCz between 2^-20 and 2^20, these arrays have an entry for each column and row, so nothing is read outside of them; positions of pixels are those of their centers up to 2^-45 of the size of the screen; and if the screen is not more than about a thousand times as large as its distance, the directions are the exact directions of the pixel centers, turned by the exact rotation, up to 2^-39 times one plus the size of the screen relative to its distance, with a length of one up to 2^-50, however the sums are ordered, and each pixel in a signal mask has its own direction.", "quantifier": "all detector shapes, projection centers, rotations, pixels and signal masks in these ranges, all orders of summation and choices of fused operations", "why_tests_cant": "whether the last column is read outside of the array depends on the rounding of a quotient for the particular shape and projection center; tests try a few of the 2^64 numbers", "anchors": ["src/kikuchipy/signals/util/_master_pattern.py: _get_direction_cosines_for_fixed_pc, _get_direction_cosines_from_detector", "src/kikuchipy/detectors/_ebsd_detector.py: EBSDDetector.gnomonic_bounds"]}
{"id": "C157", "title": "Master patterns summed over asymmetric positions are accurate, lazy or not", "statement": "Loading an EBSD or TKD master pattern in the square Lambert projection from an EMsoft file adds the patterns of all asymmetric positions in 32-bit floating point. Whatever the order of additions, lazy or not, every pixel of the returned master pattern is the sum over the n asymmetric positions in the file at its hemisphere, energy, row and column, up to n - 1 relative errors of 2^-24, it is at least as bright as in each of the positions, and the axes do not depend on the order. Lazy and non-lazy master patterns differ by at most n 2^-22 of the sum, and are the same for one or two positions.", "quantifier": "All files with non-negative float32 intensities, numbers of asymmetric positions, energies and pixels, energy selections, hemispheres and orders of additions", "why_tests_cant": "Tests use one small file with few positions and compare a few means; the order of additions depends on chunking and NumPy", "anchors": ["src/kikuchipy/io/plugins/_emsoft_master_pattern.py:EMsoftMasterPatternReader.read", "src/kikuchipy/io/plugins/_emsoft_master_pattern.py:get_datasets"]}
{"id": "C158", "title": "In floating point arithmetic the master pattern is read at the right place", "statement": "When a pattern is simulated, every pixel's direction is computed from the detector, rotated into the crystal, projected with the square Lambert projection and turned into a row and column of the master pattern, all with rounded numbers. The place where the master pattern is read agrees with that of the exact direction in the exact projection up to three times the number of pixels times the square root of the direction's error, also at the pole, on the diagonals and on the equator, where the formula changes and the computed direction may be on another side than the exact one. From the detector on, for every pixel and orientation, it agrees up to 2^-16 of the master pattern's width times the root of one plus the size of the screen relative to its distance.", "quantifier": "every exact direction and every computed one up to 2^-21 from it; every size of the master pattern below 2^31; with and without fused operations and reciprocals; every screen, pixel, sample orientation and crystal orientation, rounded", "why_tests_cant": "Tests compare a few directions with tabulated values; the rounding errors near the pole and the diagonals depend on the last digits of the direction.", "anchors": ["src/kikuchipy/signals/util/_master_pattern.py:_vector2lambert", "src/kikuchipy/signals/util/_master_pattern.py:_get_lambert_interpolation_parameters", "src/kikuchipy/_utils/numba.py:rotate_vector", "src/kikuchipy/signals/util/_master_pattern.py:_get_direction_cosines_for_fixed_pc"]}
{"id": "C159", "title": "In floating point arithmetic a simulated pixel has the right intensity", "statement": "Simulating a pattern with get_patterns() in 64-bit floating point numbers gives every pixel of the detector the intensity of the master pattern, interpolated linearly at the place of the exact direction and in the hemisphere of the exact direction, up to 14 times the largest difference of neighbouring master pattern pixels times the error of the place (a fraction 2^-16 of the width of the master pattern, times the root of one plus the size of the screen relative to its distance, plus 2^-19 pixels), 2^-39 times the largest intensity and, for patterns not rescaled, the relative rounding error of the pattern's 32-bit or 64-bit numbers. This also holds where the computed direction is in another cell of pixels than the exact one, beyond the edge of the master pattern or on the other side of the equator.", "quantifier": "all detectors with an ordinary projection center, all pixels, all orientations rounded to 2^-45, all square master patterns of less than 2^31 pixels along a side whose hemispheres have the same border, all orders of multiplication and summation in the interpolation and of summation elsewhere, with and without fused multiplications and reciprocals", "why_tests_cant": "Tests compare some simulated patterns with stored ones. They cannot exclude directions for which rounding selects another pixel, a weight outside 0 to 1 or the other hemisphere, and that this changes the intensity abruptly.", "anchors": ["src/kikuchipy/signals/util/_master_pattern.py:_project_single_pattern_from_master_pattern", "src/kikuchipy/signals/util/_master_pattern.py:_get_pixel_from_master_pattern", "src/kikuchipy/signals/util/_master_pattern.py:_get_lambert_interpolation_parameters", "src/kikuchipy/_utils/numba.py:rotate_vector"]}
{"id": "C160", "title": "In floating point arithmetic a whole simulated pattern is right, also when rescaled", "statement": "A pattern simulated with get_patterns() in 64-bit floating point numbers and rescaled to the range of its data type has, at every pixel, the intensity of the exact pattern (master pattern intensities interpolated at exact directions and rescaled exactly from the exact pattern's own smallest and largest intensity) up to 6 times the error of an intensity relative to the range of intensities in the pattern, rounding errors of 2^-48 of the output range, and the rounding of a floating point type or one grey level of an integer type. This holds although the smallest and largest intensities may be at other pixels than in the exact pattern. A pattern which is not rescaled has the exact intensities up to the error of an intensity and the rounding to its type. Rescaling never changes the order of computed intensities, takes the smallest one exactly to the lower limit and, if the compiler keeps the division, the largest one exactly to the upper limit.", "quantifier": "all patterns whose exact intensities have a range of at least eight times the error of an intensity, all lists of pixels, all orientations and master patterns as in C159, every evaluation of the rescaling allowed by fastmath (as written, fused, reciprocal, folded), all output ranges of ordinary size and all data types", "why_tests_cant": "Rescaling divides by the range of the pattern and depends on the extreme pixels, so that an error at one pixel changes all others. Tests of some patterns cannot bound this for all patterns and ways of evaluation.", "anchors": ["src/kikuchipy/signals/util/_master_pattern.py:_project_single_pattern_from_master_pattern", "src/kikuchipy/pattern/_pattern.py:_rescale_with_min_max", "src/kikuchipy/signals/ebsd_master_pattern.py:EBSDMasterPattern.get_patterns"]}
