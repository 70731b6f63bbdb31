# Formal model of kikuchipy in Lean 4

Source modelled: `/repo/src/kikuchipy` (pinned commit), read as text.  Nothing is run.

## Layout

* `lean/Verif/Model/*.lean` – the model: one Lean definition per modelled Python
  function (or per decision inside it), each with a comment citing file and lines.
* `lean/Verif/Spec/*.lean` – small independent specifications (what the English
  property says), which do not mention the model.
* `lean/Verif/Lemmas/*.lean` – helper lemmas.
* `lean/Verif/Props/*.lean` – the property theorems, each followed by an `example`
  showing that a concrete, non-trivial case meets the hypotheses.
* `properties.jsonl` – the English properties; `MANIFEST.json` – property → theorems.
* `seeded/LOG.jsonl` – mutation tests of the theorems.

## Conventions of the model

* Numbers.  Floating-point rounding is not modelled.  Algebraic code is modelled over an
  arbitrary linearly ordered field `K` (so in particular over ℚ and ℝ); code that uses
  `sqrt`/trigonometry is modelled over ℝ.  Index and shape logic is modelled over
  `Nat`/`Int` exactly, including Python's floor division, truncation and slicing rules.
* Arrays are total functions of indices together with a shape, or lists.
* Exceptions are values (`Except`), one constructor per Python exception used.
* Files, prompts and mutable state are explicit state passed through functions.
* NumPy, SciPy, dask, h5py, numba, orix and HyperSpy primitives are modelled by their
  documented meaning; every such assumption is written in the comment of the definition.

## Trusted base

* Lean 4.33.0's kernel.  Axioms: at most `propext`, `Classical.choice`, `Quot.sound`.
  No axioms of our own, no `sorry`, `native_decide` or `bv_decide`.  `AXIOMS.md` lists the
  axioms of every theorem of the manifest.
* Faithfulness of the hand-written model to the cited lines (see the comments).
* Mathlib's definitions of ℝ, `Real.sqrt`, `Real.sin`, `Real.cos`, sums, fields.

## Plan per property

"False" below means: the code violates the property; we prove the negation with a
concrete witness, and prove the part of the property that does hold (`_partial`).

| Id | Modelled | Proof |
|----|----------|-------|
| C01 | `_get_pc_in_bruker_convention`, `_get_pc_in_convention` and the conversion pairs, over a field | case split on convention, `field_simp`/`ring` |
| C02 | same; spec = physical point per vendor definition | algebra |
| C03 | alias table lookup over strings, lowercase | list membership; characterisation of accepted strings |
| C04 | gnomonic bounds, the four conversion factors, `_convert_coordinates` | algebra, for every PC of the map |
| C05 | `crop` as function of extent, incl. clamping and errors | algebra + omega; composition theorem |
| C06 | `crop`'s constructor call | False for `twist` and for the 1D navigation shape; partial for other fields |
| C07 | `r_max` over a linear ordered field (squared radii; sqrt monotone over ℝ) | False: lower-left corner missing; partial: corrected corner list bounds all points, and `r_max` is right when PCs are such that another corner dominates |
| C08 | `_sample_to_detector_matrix` via Rodrigues rotations over ℝ | orthonormality invariant under rotation steps; determinant |
| C09 | `extrapolate_pc`'s index averaging, outliers and plane | **False** for documented (2, n) shape, with and without outliers; partial for the single index / (n, 2) shape and for the plane with outliers |
| C09 | `extrapolate_pc`'s index averaging and plane | False for documented (2, n) shape; partial for the single index / (n, 2) shape |
| C10 | calibration points, line intersection, pcz | algebra: exact recovery |
| C11 | `rescale_intensity` pointwise | order lemmas over ordered field |
| C12 | `_normalize`, mean/std over finite sums over ℝ | algebra of finite sums |
| C13 | static/dynamic subtract & divide followed by rescale | min/max attained |
| C14 | `_bin2d` as the code's loop; `downsample` checks | loop = block sum; partition by div/mod; composition |
| C15 | `_pad_image`, `_pad_window`, circular convolution | index arithmetic mod F; assumption: FFT product = circular convolution |
| C16 | `distance_to_origin`, `make_circular`, `origin`, `n_neighbours` | False for shape (1, n) (IndexError); partial for others; one-sided reach for even windows |
| C17 | `lowpass_fft_filter`/`highpass_fft_filter` piecewise over ℝ | exp bounds |
| C18 | `correlate` on overlapped chunks | chunk-independence for sufficient depth |
| C19 | `_map_helper`-based dot products on overlapped chunks | odd windows: proved; even windows: False (overlap depth too small on one side) |
| C20 | averages vs matrices | finite-sum algebra |
| C21 | iteration over dictionary chunks with partial top-n merge | induction over chunks; result = top-n of whole |
| C22 | `_match_chunk` with `sign` | False: sign ignored; partial for sign = +1 |
| C23 | masked gather/scatter | list induction |
| C24 | NCC/NDP formulas over ℝ | Cauchy–Schwarz |
| C25 | argmax/merge/sort per point | first-max lemma, stable sort |
| C26 | mask assignment into a copy | False (witness); partial |
| C27 | OSM kernel | bounds by finite-set cardinalities |
| C28 | `_vector2lambert`, `_lambert2vector` over ℝ | trig/sqrt algebra |
| C29 | interpolation parameters with truncation | integer bounds + convexity |
| C30 | direction cosines | algebra; agreement |
| C31 | quaternion formulas | algebra over ℝ |
| C32 | shape validation | False for (1, n); partial |
| C33 | scatter of results, mask selection | list induction |
| C34 | bound constraints and when they are passed | bounds proved; "no trust region" is False |
| C35 | class-level dicts as global state; argument mutation | False for argument mutation; state invariant for histories |
| C36 | best-of selection | first-argmax lemma |
| C37 | `_save` decision as a transition system | case analysis; False for overwrite=True & add_scan=True |
| C38 | extension selection | False: extension argument ignored for other formats |
| C39 | `get_valid_scan_number` with a list of answers | False (witness); partial |
| C40 | write/read of arrays, axes, background | round trip; False for background None |
| C41 | `_dict2hdf5group`/`_hdf5group2dict` on trees | False (`break`); partial by induction |
| C42 | NORDIF byte layout | list lemma round trip; truncated file |
| C43 | file name → placement | permutation/pigeonhole lemma |
| C44 | Oxford ordering | permutation lemmas; False when patterns are missing |
| C45 | axis scales | False for 1D |
| C46 | ROI check | False; correct for rectangles |
| C47 | slices on sorted energies | sorted-list lemmas; False for empty/none |
| C48 | footprint matching | case analysis |
| C49 | load loop | False for ≥ 2 signals; partial first |
| C50 | slice parsing and attribute update | False for open/negative slices; partial |
| C51 | `grid_indices` | integer arithmetic |
| C52 | shared references in a heap model | False (witness) |
| C53 | tile bounds | partition by monotone edges |
| C54 | positional argument passing | False for normalize_intensity; partial for the others |
| C55 | chunk sizes of `get_chunking`, `_reduce_chunks` and `get_dask_array` | arithmetic; **False**: patterns of a lazy signal which are split stay split, and the chunk shape and (without rechunking) bytes asked for are ignored for lazy signals |
| C56 | Hesse-line geometry & pixel scaling | algebra; pixel part False by factor (n-1)/n |
| C57 | image quality over power spectrum | finite-sum inequality |
| C58 | text format | rounding error bound |
| C59 | relative rescaling of all patterns with one range; checks of arguments | order lemmas; False: percentiles with `relative=True` are accepted |
| C60 | `fft`, `ifft`, `fft_filter` as discrete Fourier transforms over ℂ | inversion of the DFT, finite sums; False for real transforms of odd width |
| C61 | `modified_hann` over ℝ | trigonometry; False for even lengths (maximum below 1) |
| C62 | hemispheres used for centrosymmetric phases | Lambert symmetry; False (witness), partial with a two-fold axis |
| C63 | pairing of rotations and PCs in `get_patterns` | index arithmetic; False for one PC in two axes |
| C64 | initial steps | False for Euler angles; PC part |
| C65 | `_save` with `add_scan=True` | case analysis; False with overwrite=True |
| C66 | axes of NORDIF signals | False for single rows, partial otherwise |
| C67 | EDAX header and pattern order, byte level | integer arithmetic; False at 4 GiB |
| C68 | number of patterns from the Oxford offset table | list lemmas; False for gaps in large files |
| C69 | map shape from Oxford beam positions | rounding lemmas; False half-way |
| C70 | order of Bruker projection centers | permutation lemmas; False for other than map order |
| C71 | EMsoft hemisphere/energy axes | case analysis; False for Lambert with several positions |
| C72 | axis offsets in `extract_grid` | False; differences kept |
| C73 | halving loop and integer divisions of suggested chunks | termination by induction on bytes; False for one map position |
| C74 | selection of components, state of the learning results, temporary file | list sums; state after every failing step; False when HyperSpy raises |
| C75 | detector attributes, static background and map shape in `rebin` | gnomonic coordinates by field arithmetic; False for unequal scales or cropped pixels |
| C76 | `fit_pc`, `estimate_xtilt`, `estimate_xtilt_ztilt` over the reals, with least squares and singular vectors from their defining property | uniqueness of affine functions, trigonometry; False for tilted detectors |
| C77 | objective functions, SciPy/NLopt solver wrappers, chunk loops and preparation of patterns, master pattern and detector in refinement | Pearson correlation is invariant under affine maps, loops by induction over chunks; every faithful optimizer; False when hemispheres have different intensity ranges |
| C78 | `xmap_from_hough_indexing_data`, `get_indexer`, compatibility checks, `hough_indexing`, `hough_indexing_optimize_pc`; PyEBSDIndex is a parameter that solves patterns one by one | list indexing lemmas, induction over phases; **False** as documented: the results array is changed (`C78_data_violated`), `data_index` is checked as phase ID but used as row (`C78_data_index_violated`), map shapes are not compared (`C78_map_shape_violated`), lattice parameters are compared with relative tolerance 1e-5 (`C78_lattice_violated`), one vector for three phases is silently ignored (`C78_reflectors_violated`) |
| C79 | `get_rgb_image`, `_normalize_image`, `_get_rgb_image`, `_get_rgb_tile_coordinates`, transfer of axes | minimum, maximum and percentiles commute with increasing affine maps, sums over tiles by C53; **False**: brightness and contrast have no effect unless intensities are clipped (`C79_brightness_violated`, for all images), edges of tiles that are not square are drawn in the wrong place (`C79_markers_violated`), axis offsets are lost (`C79_offset_violated`) |
| C80 | Bands, grid, projection, hemispheres, axes, and the compiled loop as threads that read and write array elements in separate steps | pixel values by induction over reflectors; every schedule by invariants over all runs; **False**: `get_pattern` adds to `pattern[j]` from a parallel loop over reflectors, so a band's intensity can be lost whenever two threads share a pixel (`C80_schedule_violated`); values never exceed the sum and pixels of one thread only are right (`_partial`). A reflector without its opposite gives half a band; `hemisphere="Both"` gives data without its axis; the middle pixel has coordinate -1. |
| C81 | `Dataset`, `fetch_file_path`, archives, `clear_cache`, gain series; the contract of `Pooch.fetch` and `Unzip` is part of the model (trusted) | every theorem starts from an arbitrary cache state, which covers all crash points and histories; **False**: after an interrupted unpacking a call fails although all is on offer (`C81_archive_violated`; at most the second call succeeds), the settings file read with the patterns is not verified (`C81_settings_violated`), `clear_cache` may clear another directory than the one in use (`C81_clear_violated`) |
| C82 | Finding sections, regular expressions key/value/unit on one line, conversion to numbers (any parser), shapes, calibration pattern coordinates and file names (`Model/NordifSettings.lean`). Not modelled: reading the file, user defined values other than the region of interest's scaling. | Exact result for every file in the layout; every text read is between its key and unit in one line; files requested are the listed ones in order. **False**: a section's title in free text further down replaces the section; a resolution row of the area image without two numbers makes the file unreadable. |
| C83 | Top group of a file as named datasets and groups in the order of names; manufacturer and version, the check of the file, choice of groups, reading (`Model/ScanGroups.lean`). Not modelled: the content of scans (C40), closing the file. | Induction over the saves: the file's groups are a permutation of the saves and sorted by name; the result is the list asked for. **False**: several names of which none is in the file give an empty list and no error; without a name the scan first in the order of names is read, so scan 10 before scan 2, and a group that is not a scan is an error if its name is first. |
| C84 | Grid of Lambert coordinates, directions, their stereographic coordinates, interpolation as a parameter, which signals are refused; plotted directions and intensities (`Model/AsLambert.lean`). Not modelled: rounding, spline interpolation itself, drawing. | Inverse projections (C28), the sampled point is in the unit disk, composition with the simulation of patterns (C29). **False**: plotting drops pixels that are black in the upper pattern from both hemispheres, plots pixels outside of the disk in the other hemisphere, and mirrors a single hemisphere although only inversion symmetry was checked. |
| C85 | Checks of the arguments, the metric object with the attributes set by each call, selection by the two masks, the loop of C21, and scattering to the map | acceptance as an equivalence; results through C21 and C23; histories by induction over the list of earlier calls; **False**: a metric object keeps masks and data type of earlier (also failed) calls, and a signal mask of another shape with as many pixels is accepted |
| C86 | Navigation axes, metadata, data type, laziness and shape of static background through the processing methods, with their checks | induction over the list of steps; **False**: `fft_filter` and `average_neighbour_patterns` with `inplace=False` and `get_dynamic_background` lose axes and metadata; rescaling or normalizing to another data type makes the static background unusable; averaging with a (1, 1) window and `inplace=False` returns None; a line scan cannot be calibrated |
| C87 | `_equal_phase`, compatibility checks, `_check_refinement_parameters`, attribute setters, coordinates of refined maps (`Model/RefinementChecks.lean`) | case analysis; both directions of acceptance; induction over attribute assignments; **False**: point groups which differ by improper operations only are found equal, atoms in another order different, sameness is not symmetric or transitive, coordinates are reset to start in the origin, IndexError when all unmasked points are not indexed |
| C88 | `on_detector`, coordinates in both formats, markers, labels and `plot` of a simulation over a map | lookup in the array of navigation indices, reuse of the trace and pixel lemmas of C56; **False**: formats disagree outside the detector, labels are ambiguous for two digits, plots fail without zone axes, plots use the average PC |
| C89 | blocks of patterns as threads; SciPy solvers write bounds or arguments to a dictionary and then call the optimizer | invariant over all interleavings, measure for termination; **False** if Dask gives all blocks the same dictionary: explicit interleaving with another pattern's trust region or another pattern |
| C90 | `scan2dict`, `get_detector`, `get_binning` (regular expression on text, rounding to nearest even) of the Oxford reader, `scan2dict` of the EDAX reader, with the shared `get_data` and `get_axes_list` | induction on the text and on decimal numerals for the camera mode; arithmetic for rounding; conversion of PCs compared with the physical point; **False**: line scans have a detector that does not fit, missing or incomplete PC datasets raise, padded line scans keep four dimensions, binning zero for 2048 rows or more |
| C91 | class table and `_assign_signal_subclass`, `_dict2signal`; signals as kind, type, data kind, laziness and attributes, with `_assign_subclass`, `_get_custom_attributes`, `_set_custom_attributes`, `as_lazy`, `compute`, `change_dtype`, `deepcopy`, `set_signal_type`; HyperSpy's part is assumed | uniqueness of names in the table; invariant over all sequences of operations including failed ones; **False**: an EBSD signal set to its own type loses its attributes; unknown master types raise half-way |
| C92 | `_parse_sample_position`, `to_gnomonic_coords`/`to_pixel_coords` with `pos`, `convert_coordinates` with an index (`Model/SamplePosition.lean`; items of 2-tuples are integers or refused, slices are not modelled) | case analysis on the argument and the map shape; **False**: a coordinate array whose shape starts with the map shape is taken as given per position, so the all-positions result does not contain the one-position result |
| C93 | `EBSDDetectorPlotter` as a machine: widgets, observers, overlays, figures and the given or copied detector (`Model/DetectorPlotter.lean`; a panel is the arguments it was last drawn with; ipywidgets' clamping and notification are assumed) | invariants over all event histories; **False**: changes of an in-place detector by the caller are neither shown nor kept, two figures of one plotter undo each other's settings, overlays set after `show` do not appear, PCz can be moved to 0 when it is at most 0.1, and the caller's keyword dictionaries are changed |
| C94 | coordinates of the side view, the top view and the detector plane over the reals, with NumPy broadcasting of the first distance; not Matplotlib's drawing | the drawn points are compared with the places that the sample-to-detector matrix of C08 gives, which determines them uniquely; trigonometric identities by `grind`. **False**: the side view ignores the azimuthal angle and the top view the twist (documented as not visible); with several projection centres the distance is the first one's while the rest is the average's, and a map of them is only drawn with one or two (side) or three (top) columns, otherwise `ValueError`; screens further away than 1.1 heights are outside the limits; in pixels the projection centre is drawn at `pcx * (ncols - 1)` but the detector converts gnomonic (0, 0) to `pcx * ncols`; zooming out of a detector with the projection centre beside it moves it out of view |
| C95 | `Window.__new__` with SciPy's `get_window` as a parameter (contract: as many values as asked for, ones for the rectangular window), `make_circular` with shared memory, `shape_compatible` with NumPy broadcasting | case analysis on the arguments, lists of values; the circular window from C16. **False**: more than two axes give a window of the first axis only; keyword arguments reach SciPy in the order of the call whatever their names; an invalid shape raises although a custom array is given; making a window from a NumPy array circular zeroes the caller's array; two axes against three raise `ValueError` |
| C96 | reading EMsoft simulated patterns: program check, data and `scan_size`, axes, crystal map, phase and atoms, detector, names; h5py datasets are given, `Rotation.from_euler` is a parameter | acceptance and errors; value of every pixel of a reshaped map by row-major index; atoms by induction over their number; detector by the PC conversion of C01; **False**: `scan_size` is (height, width) and not (width, height); the crystal map stays one-dimensional when rows and columns are given; with binning (EMEBSD.f90 stores binned patterns) detector shape and PC are wrong and `scan_size` an error; lattice parameters stay in nm while Debye-Waller factors become Å²; the title ends at the first dot |
| C97 | `remove_dynamic_background`, `get_dynamic_background` of patterns, chunks and signals in the frequency domain, SciPy's Gaussian filter left unspecified in the spatial domain, storing in integer types (`Model/DynamicBackground.lean`) | The FFT filter is the correlation (C15), so the background is the weighted mean; rescaling lemmas for the signal. **False**: the window has truncate·std pixels, so it is truncated at half the stated distance; for an even number of pixels (also by default) its centre is half a pixel up and to the left, so mirroring does not commute; integer patterns raise TypeError in the frequency domain and wrap in the spatial domain; the caller's array is changed; `EBSD.get_dynamic_background` takes the default from the height; `dtype_out` is applied before the filter; a pattern split in chunks gets one background per chunk |
| C98 | What is in the figures of `plot_pattern_positions_in_map` and `EBSDDetector.plot_pc`: positions of markers, texts and images, limits, panels and their names, the dictionary of figure settings (`Model/PositionFigures.lean`) | By cases on area and axis, field arithmetic; composed with `extract_grid` (C51); minimum and maximum by induction. **False**: markers are in the corner of their pixel; the origin is subtracted only without an area; markers added to the axis of an area are displaced; float origins with integer coordinates and origins which are arrays raise without an area; `plot_pc` changes the caller's `figure_kwargs` |
| C99 | `adaptive_histogram_equalization` of patterns and signals, scikit-image's equalizer a parameter (`Model/AdaptiveEqualization.lean`) | Rescaling lemmas of C11 pattern by pattern. **False**: the default region has the width's quarter as height and the height's quarter as width (HyperSpy's signal shape is (columns, rows)); patterns of less than four rows or columns raise ZeroDivisionError |
| C100 | `get_rgb_navigator`, with scikit-image's rescaling and HyperSpy's conversion written out (`Model/RgbNavigator.lean`) | One monotone map for all channels; colours kept if 0 and 1 occur. **False**: other images are stretched, so that colours change, and images in one grey become black |
| C101 | The calls of h5py by which a scan is written, in order, each possibly the last one: opening with mode "w", texts of the top group, scan group, patterns block by block, crystal map, header, header of the microscope; the reader on what is then in the file | The content after k steps is computed in closed form by induction over the steps (datasets are created, then filled); before the group SEM/Header exists the reader raises KeyError, afterwards everything before it is complete; **False**: overwriting empties the file first, an interrupted scan whose name sorts first makes the file unreadable without a name, its number stays taken, and microscope parameters may be missing or zero without an error |
| C102 | The setters of a detector with NumPy's reshape, atleast_2d and broadcasting in an assignment, what psygnal emits, and changes within the array returned by `pc` | Invariants over all histories of events (shape of the array, listeners), broadcasting computed by flat indices; **False**: shapes that are not integers, zero or negative are accepted, and binnings that are not integers and projection centers with other than three coordinates; `navigation_shape = ()` gives (1,); changes within `pc` are not told to listeners |
| C103 | `Detector.fitPcProjective` (Model/FitPcProjective.lean): `fit_hyperplane` rotations, `fit_pc_projective`, `get_projective_transform_matrix` over ℝ; SVD as `IsLeastDirection`, `ProjectiveTransform.from_estimate` as `IsProjectiveEstimate` (finds a transformation through all points if an affine one exists and four positions are in general position) | uniqueness of the projective transformation through four points in general position; rotation takes the plane to z = 0; equals the affine fit if the trimmed mean is on the plane (sample planes, fewer than ten PCs); **False**: in general, `C103_trim_violated`: trimmed means are taken per coordinate, so the center need not be on the plane |
| C104 | `rescaleIntensityFl` (Model/FloatRescale.lean): `rescale_intensity` with every operation followed by a rounding (any monotone idempotent rounding; binary64 and binary32 are instances), in four evaluation orders allowed by `fastmath=True`; `rescaleSigned`: signed integer patterns with wrap-around. Not modelled: floating point overflow, NaN | rounding is monotone and keeps its own numbers, so order, lower limit and (with a division) upper limit are kept; relative error 2^(-p) of round-to-nearest proved, giving at most one level missing at the top of integer types; **False**: with the reciprocal, a uint8 pattern from 0 to 49 gets brightest pixel 254; signed patterns spanning half their type's range or more wrap around and leave the output range |
| C105 | `rotateVectorFl`, `vector2lambertFl`, `lambertInterpFl` (Model/FloatLambert.lean): `rotate_vector`, `_vector2lambert` and `_get_lambert_interpolation_parameters` with every operation rounded to binary64 (ties to even), NaN as `none`, the module's constants rounded as computed, the library's arctan a parameter, fused sums and reciprocal of the norm as options. Not modelled: overflow, other reorderings of fast-math (covered by C105_half_pixel for any result less than half a pixel off) | rounded square root of a rounded square is the number, so no component exceeds the norm; a float within 2^-29 of one times its rounded reciprocal rounds to one, so the z axis is recognized; error bounds of all products; truncation towards zero keeps indices in the array for errors below a pixel; forward error analysis of the rotation |
| C106 | `SumOrder`, `normalizeFloat`, `ndpFl`, `meanFloat`, `centerFloat`, `nccFl` (Model/FloatSimilarity.lean): `_normalize_patterns`, `_zero_mean_normalize_patterns_*` and `match` of both metrics with every operation rounded to nearest, ties to even; a sum is a binary tree of additions over the pixels, with or without fused multiplication. Not modelled: overflow, NaN | induction on the tree for the error of a sum with underflow; relative error of the rounded norm; Euclidean error of normalized and centered patterns by Cauchy-Schwarz; directions are Lipschitz; best match by C21. **False**: scores at most one and equal for all orders |
| C107 | `FileSystem`, `PatternSource`, `writePatterns`, `saveNordif` (Model/NordifSave.lean): `file_writer` in steps on a file system with an interrupt after any byte; a lazy signal reads from the file system when a pattern is asked for. Not modelled: chunks of a lazy signal computed and kept before | induction on the patterns: the file is a prefix; reading by C42. **False**: lazy signal saved to its own file; old patterns kept |
| C108 | Steps of `_save` and `KikuchipyH5EBSDWriter` of any number of processes, with the lock of HDF5 (`Model/ConcurrentSave.lean`) | Invariants of all schedules (`C108_exclusive`, `C108_add_partial`), refinement of the model without steps (`C108_alone`); **False**: two processes with `add_scan=True` and no file yet both succeed and one scan is lost; `overwrite=False` replaces a file made after the first look |
| C109 | `binFl`, `downsample2dFl`, `averageFl`, `averagePatternFl` (`FloatBinning`): sums of blocks and under windows in any order (`SumOrder`), in float32 and float64 with gradual underflow | sums of integers are exact by induction on the order; error bounds from `SumOrder.eval_error`; rescaling is monotone (C104); **False**: order of brightness of blocks of 32-bit integers whose sums exceed 2^24 |
| C110 | `centerWide`, `preparePatternFl`, `nccExpCenteredFl`, `objectiveFl`, `reportedScoreFl` (`Model/FloatRefinement`) | forward error analysis for any order of the sums and any precision of the mean; the root of a rounded square is exact; **False**: a score may exceed one and depends on the contrast of the simulated pattern (`C110_exact_violated`) |
| C111 | `_remove_static_background_*`, `_remove_dynamic_background`, `_remove_background_*` with rounding of every result (Model/FloatBackground) | monotone rounding composes with C104's monotone rescaling; different fractions of 8-bit integers differ by more than rounding. **False**: zero background, 16-bit division and 32-bit integers |
| C112 | Scores with NaN (`none`) for zero norms, `da.argtopk`/`np.argsort` with NaN sorted as the largest, the chunked search, `np.nanargmax` in merging | covering invariant of the fold over chunks, first-best of `nanargmax`; **False**: NaN dictionary patterns come first with one iteration and displace whole chunks with several, a flat experimental pattern gets -1 or NaN depending on n_per_iteration, merging raises |
| C113 | `_zero_mean`, `_normalize` with NaN for zero norm, `_neighbour_dot_products` with its conversion to `dtype_out`, `np.nanmean`, matrices always from float32 patterns | reuse of the chunk lemma of C19 with scores that may be NaN, Cauchy-Schwarz, affine invariance of the correlation; **False**: `dtype_out="float64"` of the matrices is computed from float32 patterns |
| C114 | `onDetector` (C88) and `geometricalSimulationPixel` (C56), two models of separate code | lines: filter of visible reflectors commutes with the trace; zone axes: crosses of visible reflectors are those of all, up to swapping and opposites; **False** for bands exactly through the PC: `C114_agreement_violated` |
| C115 | the six conversions, the constructor and repeated passing on of PCs with every operation rounded to binary64 (`Model/FloatPc.lean`) | error bounds `NearBy` composed per operation (`Lemmas/FloatPc.lean`), compared with the physical meaning of the conventions in `Spec/Detector.lean`; induction over the list of conventions; exactness by Sterbenz' argument. Overflow is not modelled |
| C116 | `getPatterns` (C63) and `onDetector` (C88) with the matrices of the same rotations; `Rotation.to_matrix` of orix is the usual matrix of a quaternion | rotation matrices of both paths cancel, so the pixel's direction has the pixel centre's gnomonic coordinates; chord of a circle; drawn position is the pixel's plus `1/2 - (c + 1/2) / n`, less than half a pixel; **False**: exactly at the pixel `C116_exact_violated`; PCs in the lower right quadrant `C116_lower_right_violated`; bands exactly through the PC `C116_band_through_pc_violated` |
| C117 | `EBSDDetector.crop`, `sample_to_detector` and `get_patterns` together | directions of pixels of the cropped detector are those of the same pixels before (C05), so the intensities are (C116, C63); also for the final patterns if not rescaled. **False**: a single PC and several rotations (after any crop the PC array has two navigation axes, and direction cosines are read outside their array for all but the first rotation), and detectors with a twist (dropped by the crop, even of the whole extent) |
| C118 | the whole call (C85) with the two metrics of kikuchipy on the pixels not masked out, and simulated dictionaries (C63) | the first match is best whenever one score is above -1 (C21, C85 strengthened to the first m matches, without conditions on the other scores); a score of 1 is equality up to gain and offset (C24). **False**: dictionaries with patterns without contrast (see C112) |
| C119 | rescaling, background removal and normalization of whole signals (C11-C13, C97), the whole indexing call (C85) with the NCC | minima, maxima, percentiles, means and Gaussian means change as the pixels do, so that rescaling cancels gain and offset; two indexing calls with the same similarities give the same result |
| C120 | `Spec/CropIndexing.lean`; `dictionaryIndexingCall` (C85), `Detector.crop`, `MasterPattern.simulate` (C117) | the unmasked pixels of the whole patterns are those of the crop, in the same order, so all similarities are equal (`call_congr`); simulated dictionaries by C117; **False** for a simulated dictionary with a twist or a single PC (C117) |
| C121 | `Model/PhaseMaps.lean`: the crystal map of `dictionary_indexing` as input to `merge_crystal_maps`, one call per phase (IndexingCalls, MergeMaps) | `C121_match_partial`, `C121_phase_partial`: composition of C118 (score 1 for the right phase), bound < 1 for the others, and C25; merging shown to succeed. **False** for maps of one point with more matches (C25), points in no map (C26), dictionaries without contrast (C112) |
| C122 | `Model/MergedPositions.lean`: masks made from `is_in_data` (bounding box of each map), coordinates of the merged map; merging itself as in C25 | `C122_same_box_partial`: the points in the data enumerated by the box (sorted lists with equal members), then C25. `C122_positions_partial` (iff). **False**: `C122_different_points_violated` (maps with data in different places are merged as if in the same place), `C122_box_sizes_refused`, and the step sizes in x and y are swapped and the position of the box is lost (`C122_positions_partial`) |
| C123 | refinement (C77), dictionary indexing (C85) and `get_patterns` (C63) together | equality case of the Cauchy-Schwarz inequality (C24), score of refinement equals that of indexing; **False**: integer master patterns whose hemispheres have different ranges |
| C124 | Models of the signal methods, and `EBSD.fft_filter` with its chunk function (`Model/SignalFftFilter.lean`) | `PatternByPattern`: any selection (with order and repetition) of the patterns gives that selection of the results, and errors come from a pattern alone; the window of a point inside the part gives the map's average and dot products. **False**: at the border of the part (`C124_average_violated`, `C124_dot_violated`), and for relative rescaling (`C124_relative_violated`) |
| C125 | `EBSD.fft_filter`, the chunk function, `fft_filter` of patterns and of Barnes | The components (sums of pixels times waves) of the filtered pattern are those of the pattern times the coefficients, mean of `(u, v)` and `(-u, -v)`; components determine a pattern, so gains, offsets and the zero frequency do not matter after stretching; spatial windows by C15 |
| C126 | `IndexingCalls`, `RefinementMaps`, `HoughIndexing` and `SliceSignal` models; parts of calls, maps, signals and indexers in `Spec/PartIndexing` | closed form of a valid call and of refinement at every point, then equality with the selection of the whole; acceptance of the part from acceptance of the whole (one phase, mask shapes, box of the refined points). **False**: refining a part with a sliced crystal map raises |
| C127 | `file_reader()` of NORDIF calibration patterns, with the regular expressions, region of interest and scaling | composition of C82 with the reader; induction over digits and files; **False**: detector shape differs from the images', a width without decimals is dropped, a one-number overview resolution raises |
| C128 | interleaved reads and writes of the chunks of `.store()` into the array they are read from; sessions of signals sharing arrays, in place, lazy and computed | invariants over schedules and histories, refinement to value semantics; **False**: averaging in place in several chunks without copies depends on the schedule, lazy signals change with their source |
| C129 | `write()`, `get_xmap_dict()` and `scan2dict()` of kikuchipy h5ebsd files with detector, microscope, crystal map and padding of PCs; orix is a parameter | normal form of the loaded signal (regular in the sense of C40), composed with C40 and C41; **False**: the crystal map of a single-row map is lost, microscope metadata is lost |
| C130 | `estimate_xtilt_linear_robust`, `estimate_xtilt` with its arguments; RANSAC with draws and scores as parameters | invariant of the best trial over all draws, composed with C76 for the fit of the inliers; **False**: outliers are returned although not asked for |
| C131 | Open handles of files in a session: writer with `check_file` and `get_scan_groups`, reader, lazy signals, exceptions; HDF5's rules for opening | invariant over all histories (handles are those of lazy signals and exceptions in use), with C39 for what is added; **False**: files stay open after errors |
| C132 | `SignalHistory.lean`: a signal as data shape plus attributes, with the setters and every operation changing a shape (composing the models of C50, C75, C51 and downsampling) as steps of a history | Invariant by induction over histories (`C132_history_partial`), setters characterised (`C132_assign`), own attributes accepted (`C132_accepted_partial`). **False**: any background is accepted; map and background cannot be removed; after slicing patterns, a detector with one PC has navigation shape (1, 1), which the signal and refinement refuse; the crystal map of an extracted grid has not the shape of the map |
| C133 | `refine_orientation` for one phase after the other and the crystal maps returned (`Model/RefinedPhases`, with `Model/Refine` and `Model/MergeMaps`) | rows of points in the data under masks, C77 for scores of each phase, C25 for the best map: merged score not below the score of any start, and score 1, rotation and phase where one phase explains the pattern; **False**: points not indexed in a map have score 0 and win over negative refined scores |
| C134 | selection of rotations of points in the data, `outer`, transpose, `hstack` and Euler angles of starting points, bounds of all of them, refinement | quaternion product is composition of `rotate_vector`; list induction for masks; C77 and C123 for refinement |
| C135 | `sample_to_detector` of `EBSDDetector`, `get_patterns`, `dictionary_indexing`, the refinement objective functions and `on_detector` as for C08, C63, C120, C123 and C134 | The sample-to-detector matrix is the rotation of an explicit unit quaternion built from half angles; two of them give the rotation between the frames; direction cosines, hence projected patterns, chunk by chunk, are equal; indexing and refinement see only these patterns. |
| C136 | `get_image_quality`, `fft_frequency_vectors`, `fft_spectrum` (Model/Fft) | Image quality is shown equal to a formula in sums of exponentials and a penalty by number of periods (Spec/ImageQuality), using that opposite waves of a real pattern have equal amplitudes; invariances by reindexing sums; waves by orthogonality of characters |
| C137 | `MasterPattern.simulate` down to `vector2lambert`, `interpAt`, `masterPixel` (model unchanged) | Interpolation is shown to be a mean of all pixels with hat weights, a form in which mirrored and transposed indices can be substituted; the projection commutes with the operations, both of its formulas agreeing on diagonals; directions on the equator lie on the border, where only border pixels have weight. **False** for three-fold axes: a 3 x 3 master pattern sampled from a cubic function has intensities 1 and 0 in equivalent directions (`C137_three_fold_violated`). |
| C138 | Intensity as a function of the direction, simulated patterns, scores and objective functions with the models of C28-C31, C63 and C77 | Limits along arbitrary filters of normalization, Lambert projection (both branches, with the border of the branches), bilinear interpolation as a sum of hat functions, rotation and gnomonic directions; converse by uniqueness of limits at border pixels. **False**: hemispheres rescaled one by one in refinement make the score jump at the equator |
| C139 | `get_patterns` with the detector's own rotation (`MasterPattern.simulate`) and `EBSD.downsample` | directions of pixels (`PixelDirection`, as C116/C117) of the two detectors are equal; the mean of the gnomonic positions in a block is the position of its middle |
| C140 | `_dictionary_indexing`, `_match_chunk` (as C21) with the scores of an arbitrary dictionary | the scores returned are the first of the sorted scores, also if some are exactly -1; **False**: for a pattern with score -1 the matched patterns depend on the order of the dictionary |
| C141 | `as_collections`, `lines_coordinates`, `zone_axes_coordinates` and `plot` with all index forms, formats and flags (`Model/SimulationCollections.lean`) | selection of patterns by NumPy indices is shown to name one pattern, then case analysis of flags and induction over the arrays; **False**: a number as index into a 2D map gives the lines of a whole row; `plot` with labels fails for patterns without zone axes |
| C142 | sequences of `rescale_intensity`/`normalize_intensity` calls (`runIntensitySteps` in `Spec/RedundantSteps.lean`, over the models of C12, C13, C14, C119, C125) followed by another operation | induction over the sequence: each pattern keeps its pixels up to a gain and an offset; then C119/C125; components of two filters multiply; block sums of block sums; **False** with integer intermediate types (rounding) and before rescaling relative to the whole signal |
| C143 | `Detector.extrapolated` in `Model/ExtrapolatedDetector.lean`: PCs in all map positions with optional shape, pixel size and binning, and the new detector | Source points computed from the returned detector alone (`Spec/ExtrapolatedDetector.lean`) differ by fixed vectors per row and column; averages of linear functions over a grid give the second extrapolation. **Limits**: with an even number of rows the rounded average position shifts the second extrapolation by half a step (`C143_odd_matters`); a binning which is not an integer is used for the PCs but stored without its fraction, so distances are wrong (`C143_integer_binning_matters`) |
| C144 | The definitions of C18, C19, C27 and C95 (`Model/Neighbours.lean`, `Model/Osm.lean`, `Model/WindowCreation.lean`); reversed and exchanged maps in `Spec/MapSymmetry.lean` | Sums over windows reindexed (`Finset.sum_range_reflect`, `Finset.sum_comm`), lists of neighbours as permutations of each other; columns from rows by exchanging both. **Limit**: windows with even axes use one more neighbour before than after a point (`C144_odd_matters`) |
| C145 | `CropCall.lean`: Python's binding of arguments, `get_parameters`, `EBSD.crop` for all four axes (which axis changed is found from the shapes, as in the code), HyperSpy's `crop_signal` as two crops | `get_parameters` equals the binding by induction over the signature (`C145_parameters`); one axis by cases (`C145_crop_axis`); two crops compose to one slice for detector, background, PCs and crystal map (`C145_crop_signal`, `C145_crop_map`). **Limit**: start and end in units of the axis are false (C50); slicing *everything* with isig drops the twist of the detector, which cropping to everything does not (`C145_everything_matters`) |
| C146 | existing models of rescaling, static and dynamic background removal, normalization, scores, dictionary indexing, downsampling and filtering; spec `Spec/FlippedPatterns.lean` | extremes and percentiles depend on the pixels as a multiset, sums are reindexed by the bijection, clamped indices reflect, components of a flipped image are components of the reversed frequency times a phase; **Limit**: exact arithmetic; windows and transfer functions with an even size have their origin beside the middle, so filtering and dynamic background removal with them do not commute with reversal (`C97_mirror_violated` is a concrete case); dynamic background removal in the spatial domain is C97. |
| C147 | `Model/NloptRefinement.lean`: optimizer objects with a state, kept by address; blocks as programs of single operations (copy, set objective, set bounds, optimize, read value, read evaluations, report), interleaved in any order; the settings made by `set_optimization_parameters` | invariant: every block has an address of its own, the object at it and the remaining operations give what the block gives alone; a block alone is shown by induction over patterns and starting points to give the results of `Spec/NloptRefinement.lean`; termination by the number of operations left; agreement with the functional optimizer of C77; **Limit**: `optimize` is one step and a function of the configuration and the starting point (NLopt is not modelled further). |
| C148 | `MasterPattern.simulate` (`get_patterns` with the rotation of the detector, over ℝ), `rotationFromEuler`, `IsScore`, `indexMap` with `dictionaryIndexing` | The rotation of the mirrored detector is the rotation between two mirrors (C08), pixel directions of the mirrored screen are mirrored ones, intensities of the mirrored master pattern are those of the master pattern (C137), so each mirrored pattern is a permutation of pixels; scores and indexing by C146. **Limit**: real numbers; mirrors of the master pattern among the sixteen operations which keep its square grid, as for C137 |
| C149 | `Model/Script.lean`: a heap of objects with opaque contents, places (variables, and detector, background and crystal map of each signal) which hold references, and fourteen kinds of calls with what each shares, copies and changes; `Spec/Script.lean`: the same calls on values, one per place, and careful scripts | `C149_call`: a careful call does what it does on values, by cases on the call; `C149_as_if_copied` by induction over the script, with the invariant that references are valid; `C149_no_changes`; `C149_own_places`: a rule which can be checked by reading the script, with the invariant that own places hold objects held nowhere else; `C149_careless_violated`: every careless call on every reachable state shows elsewhere. **Limit**: contents opaque, deep copies share nothing, a signal is bound to one variable, shape checks have passed |
| C150 | `merge_crystal_maps` (model of C25 and C26) | the first best map is unique up to order if no other map is as good; combined scores are the sorted list of the same scores, and sorted lists that are permutations are equal; the mean score of the merged map is that of the map taken, so the first best of the merged map and the rest is the first best of all; **Limit**: with ties the first listed is taken (`C150_ties_violated`), points not indexed in all first maps have scores of zero when merged again (`C150_not_indexed_violated`), and the phases of a merged map are lost when merged again, as only the first phase is read (`C150_one_after_other_phases_violated`) |
| C151 | models of C18, C27 and C113 | values in terms of the whole map (`averageNeighbour_value`, `chunk_dots`, C27) are sums over points under the window; rescaling forgets gains and offsets; the dot product is symmetric and the window position of the point seen from the neighbour is the mirrored one; **Limit**: maps with two axes; windows whose coefficients in the map add up to less than one give NaN (`C18_normalized_window`) and are excluded in the statement |
| C152 | `savetxt()`/`loadtxt()` and `readlines()` on characters, the numbers as `%.nf` texts, and the reading of header and PC array | the beginning of a text of lines is whole lines and the beginning of one line, and the columns of the beginning of a row are counted against the navigation shape; **Violated**: a 1D map loads with fewer PCs (proved for every number of rows), the last number of a map can be cut; **Limit**: NumPy from its documentation, number texts in the header as in C58 |
| C153 | objective functions, solvers, choice of the best starting point and loops over chunks as in C77, with `none` for NaN scores and `np.argmax`/`np.argmin` preferring the first NaN (Model/NanRefinement.lean) | a centered list has zero norm iff its values are equal; contrast of the simulated pattern from its correlation with itself; rows by the chunk lemmas of C77; **False**: a starting point where the simulated pattern has no contrast beats one with score 1; **Limit**: exact arithmetic, 0 / 0 taken as NaN although compiled with `fastmath=True`, hemispheres of one intensity scale as in C77 |
| C154 | `edaxRead` and `oxRead` (existing models) applied to the first k bytes of a file as laid out by `Spec.edaxFile` and `Spec.OxContent.file` | For every k: EDAX files of version 3 and later with a square grid always give an error (a field of the header is missing or the memory map is too long); files of version 1 give an error with the navigation shape of the scan; Oxford files give an error, or all patterns were written and the scan is that of the whole file (the number of patterns guessed from the first bytes is the one guessed from the file, by induction on the table of positions). **Violated** for EDAX files of version 1 without navigation shape and with hexagonal grids: the number of patterns is computed from the file size, so what is loaded are the complete leading patterns (proved), down to none, without an error. **Limit**: Oxford files for which the number of patterns is guessed right from the whole file (C68) |
| C155 | The conversion factors and the conversion of one coordinate pair for one projection center, in binary64 with every operation rounded to nearest even, and with or without the fused product and sum which `fastmath` allows (`Model/FloatCoordinates.lean`). | Each direction of the screen is a `ScreenAxis` with a rounded width and first coordinate (the vertical one with its sign changed, by symmetry of rounding); errors are carried through quotients, products and sums as multiples of 2⁻⁵³ and composed for both round trips. **Limit**: other reorderings allowed by `fastmath` and overflow are not modelled. |
| C156 | `_get_direction_cosines_for_fixed_pc` in binary64: length and values of `np.arange` as compiled by Numba, half steps, matrix product and normalization in any order of summation, with the reads outside of an array as `none` (`Model/FloatDirections.lean`). | The rounded quotient in the length is within 7 units in the last place of the number of pixels, hence its ceiling is not less; positions by the `ScreenAxis` error analysis of C155; matrix and norm by the error analysis of sums of C106; compared with the exact pixel center turned by an exact rotation. **Limit**: Numba's `np.arange` is modelled from its documented behaviour (length `ceil((stop - start) / step)`, values `start + k * step`); other reorderings by `fastmath` and overflow are not modelled. |
| C157 | Model/FloatMasterPattern.lean: `EMsoftMasterPatternReader.read` with the sum over asymmetric positions in float32, in any order for each pixel; Spec/FloatMasterPattern.lean: intensities in the file, and orders which add every position once | Induction over orders: an addition of two float32 numbers has a relative error of at most 2^-24, also when they are tiny, and rounding is monotone. `C157_not_same`: with three positions lazy and non-lazy signals need not be the same bit by bit; **Limit**: overflow is not modelled |
| C158 | The functions of C105 and C156 (`rotateVectorFl`, `vector2lambertFl`, `lambertInterpFl`, `pixelDirectionFl`) compared with `masterRow`, `masterColumn`: the square Lambert projection written out for exact directions in `Spec/FloatPosition.lean` | `C158_position`: error of one direction's place. The arctangent is Lipschitz, and the radius is small where the angle is sensitive, so that the product changes by at most 20 times the error of the components, across diagonals and signs; the radius has the square root of the error (near the pole). `C158_simulation` composes it with C156 and the rotation of C105; **Limit**: the hypotheses of C105 and C156 (accurate arctangent, no overflow, ordinary screens); square master patterns; the bound is of the worst case and far from the pole too large. |
| C159 | `projectPixelFl`, `masterPixelFl` (products and sum of four pixels in any order, every operation rounded, fused or not), `projectPixelAs` (conversion to 32 or 64 bits) after `rotateVectorFl`, `lambertInterpFl` | `C159_intensity`: linear interpolation written as a sum of ramps is Lipschitz in both coordinates, a cell's line continued outside of the cell stays near it, the hemispheres agree on the border and a direction with small z is near it; `C159_simulation` adds the errors of directions (C156) and rotation (C158), `C159_pattern` the conversion. **Limit**: no rescaling of patterns, no overflow; in rotation and projection only the modelled fastmath evaluations |
| C160 | `projectPatternFl`: `projectPixelFl` of all pixels, `rescalePixelFl` from the smallest to the largest computed intensity, `castFl` | `C160_rescaled`: extremes of two lists near each other are near each other; quotient, product with the reciprocal and folded product of rounded differences; exact rescaling depends on the pattern with 6 times the relative error. `C160_pattern` adds C159 for every pixel and the conversion, `C160_not_rescaled` the same without rescaling; `C160_detector` starts from the pixels of a detector (C156, C158). `C160_range`: intensities are rounded, so C104 applies. **Limit**: difference of output limits not rounded, no overflow, integers in range |

<!-- results: tools/design.py -->
## Results

| Id | Property | Status | Theorems in Props/ | Note |
|---|---|---|---|---|
| C01 | Projection center conventions round-trip | proved | PcConventions (2) | Over any linearly ordered field; no float rounding. |
| C02 | All PC conventions describe the same physical point | proved | PcConventions (2) | Physical points per the docstring's definitions of the conventions. |
| C03 | Unknown PC conventions are rejected, aliases accepted case-insensitively | proved | PcConventions (2) |  |
| C04 | Pixel and gnomonic coordinates are inverse maps | proved | DetectorGeometry (4) |  |
| C05 | Cropping a detector preserves gnomonic geometry | proved | DetectorGeometry (4) |  |
| C06 | Cropping a detector keeps every other detector parameter | partial | DetectorGeometry (3) | False of the code: twist is dropped and a 1D navigation shape (n,) becomes (1, n); negations proved. |
| C07 | r_max bounds the whole detector | partial | DetectorGeometry (3) | False of the code for PCs in the lower right quadrant (a corner is counted twice, the opposite one never); negation proved for every such detector. |
| C08 | Sample-to-detector transformation is a proper rotation | proved | CropSimulation, SampleToDetector (8) |  |
| C09 | Extrapolated PCs follow the documented plane | partial | ExtrapolatePc (8) | Proved: for one PC, and for several given as an (n, 2) array, the documented equations hold with the average position rounded to integers; with outliers the plane passes through the average of the other PCs. False of the code for the documented (2, n) shape (wrong average position, IndexError for one PC), also with outliers (C09_outliers_violated), and outliers cannot be given with the (n, 2) shape (C09_outliers_transposed_raises). |
| C10 | Moving-screen calibration recovers the exact PC | proved | Calibration (2) |  |
| C11 | Intensity rescaling maps ranges exactly and monotonically | proved | Rescale (5) |  |
| C12 | Intensity normalization gives zero mean and the requested standard deviation | partial | Normalize (4) | False of the code for num_std other than 1 (the standard deviation is 1/num_std; negation proved). Mean, invariance and num_std = 1 proved. |
| C13 | Background removal keeps output within the requested data range | proved | Rescale (5) | Exact arithmetic; patterns constant after correction and zero divisors are excluded by hypothesis (the code divides by zero). |
| C14 | Downsampling sums disjoint pixel blocks | proved | Downsample (9) | Composition is proved for floating point patterns; for integer patterns rounding breaks it (shown). |
| C15 | Spatial FFT filtering equals direct edge-replicated correlation | proved | FftFilter (3) | For all non-empty image and window shapes and every FFT padding at least as large as required; rfft2/irfft2 modelled as (half spectrum) discrete Fourier transforms, exact arithmetic. |
| C16 | Filter windows are well defined for every shape | partial | Window (6) | False for shapes (1, n): IndexError (C16_circular_single_row_fails); n_neighbours is too small for even lengths (C16_n_neighbours_even_too_small). The rest is proved. |
| C17 | Frequency filter transfer functions are bounded and complementary at the limits | partial | Window (4) | False for 2D shapes with an axis of length 1 (C17_single_row_or_column_fails); the rest is proved. |
| C18 | Neighbour averaging does not depend on chunking | partial | Neighbours (4) | chunk independence and weighted mean for windows with origin coefficient >= 1; false for normalized windows (integer window sums) and one-axis windows on chunked columns |
| C19 | Neighbour dot products do not depend on chunking | partial | Neighbours (3) | odd window axes or unchunked axes; false for even axes on chunked maps |
| C20 | Average neighbour dot product map is consistent with the dot product matrices | proved | Neighbours (1) |  |
| C21 | Dictionary indexing returns the global best matches | partial | DictionaryIndexing (6) | False of the code when several iterations are used and a dictionary score is -1 or lower (initial values -1 win); negations proved. Proved for all other score tables and all tie-breaking. |
| C22 | Custom metrics with smaller-is-better scores are respected | partial | DictionaryIndexing (4) | False of the code: the sign is ignored when matching a chunk; negations proved. Proved when chunks are at most keep_n long. |
| C23 | Navigation masks place results at the right map points | proved | DictionaryIndexing (2) |  |
| C24 | NCC and NDP scores are bounded and gain-invariant | proved | Normalize (6) |  |
| C25 | Merged crystal maps pick the best-scoring phase in each point | partial | MergeMaps (6) | Best map per point, sorted merged scores, unique simulation indices, phases for differently named phases. False: single-point maps with several scores raise; identical phases may get two IDs. |
| C26 | Points outside all navigation masks are not indexed after merging | partial | MergeMaps (2) | False as stated: an uncovered point makes the merge raise; with masks no point is ever not indexed. Both proved for all inputs. |
| C27 | Orientation similarity map counts shared best matches | partial | Osm (4) | Values proved for maps with two axes, any footprint with its center_index; bounds and value 1 for equal match sets. Proved false for maps with one axis (IndexError). Points without neighbours are NaN. |
| C28 | Lambert projection is a bijection of the hemisphere | proved | Lambert (6) |  |
| C29 | Master pattern interpolation never leaves the array and is a convex combination | partial | MasterPattern (4) | Proved for square master patterns. Non-square master patterns are accepted and read outside the array (C29_not_square). |
| C30 | Direction cosines point at pixel centers | proved | DirectionCosines (2) |  |
| C31 | Euler angles and Rodrigues vectors give unit quaternions acting as rotations | partial | Rotations (9) | False for the zero Rodrigues vector, which gives NaN (C31_rodrigues_zero). |
| C32 | Pattern simulation rejects mismatching PC and rotation shapes | partial | GetPatterns (4) | False for detectors with one PC along the first of two navigation axes (C32_not_for_unit_axis). |
| C33 | Refinement writes each result to its own map point | proved | RefinementMaps (4) | For calls that return. Maps sliced so that points are not in the data raise, see C33_sliced_map_raises. |
| C34 | Refinement results stay within the trust region | partial | RefinementSetup (5) | Bounds proved for float trust regions; false without a trust region for three SciPy methods and for integer arrays when refining orientations and PCs together. |
| C35 | Refinement calls do not affect each other | partial | RefinementSetup (6) | History independence proved; argument mutation (trust_region, method_kwargs) proved as a violation. |
| C36 | Pseudo-symmetry refinement selects the best solution | proved | RefinementSetup (1) | Scores which are numbers; NaN scores are C153. |
| C37 | Saving never destroys a file without consent | proved | Save (5) |  |
| C38 | Saving honours the requested file format | partial | Save (5) | Suffix and default proved for explicit names; the extension argument and the extension a signal was loaded from are ignored (violations proved). |
| C39 | Adding a scan never collides with an existing scan | proved | Save (4) | At the level of the file; the prompt itself may accept a used number, after which the call raises. |
| C40 | kikuchipy h5ebsd files round-trip a signal | partial | H5Ebsd (5) | The round trip is proved for every signal with at least two rows and columns in the map and in the pattern, a stored background and unit detector scales (C40_round_trip_partial); the full statement is false and counterexamples are proved: a missing background returns as -1, detector scales are lost, unit axes vanish. |
| C41 | Metadata dictionaries survive HDF5 storage | partial | H5Dict (7) | The round trip is proved for every storable dictionary, recursively (C41_round_trip_partial); the full statement is false and counterexamples are proved: entries after a None are dropped, non-ASCII text fails, length-one arrays return as scalars, white space in keys is lost, lists return as arrays. |
| C42 | NORDIF binary files round-trip patterns | partial | Nordif (6) | Round trip and truncated files are proved for every size (C42_round_trip_partial, C42_truncated_file). Lazy reading gives the same signal only without unit axes and for complete files (C42_lazy_partial); counterexamples for the rest. |
| C43 | Directory of patterns is assembled in map order | partial | EbsdDirectory (6) | Positions, completeness and independence of the listing order are proved for distinct and complete coordinates, and the fallback for a wrong number of files; false for repeated coordinates with a matching count and for files without coordinates (proved). |
| C44 | Oxford binary patterns are returned in map order | partial | OxfordBinary, OxfordFile (8) | Proved for every order when all patterns are present with both beam positions, and for missing patterns in sorted files; false for missing patterns in unsorted files and for footers without beam positions (proved). |
| C45 | EDAX binary readers label axes correctly | partial | EdaxBinary (3) | Proved for several map rows and for files of version 1; false for single rows (proved). |
| C46 | Non-rectangular Bruker regions of interest are rejected | partial | Bruker (3) | Full rectangles in any storage order are placed correctly; gaps and unequal row or column counts are rejected. False for e.g. a square without its diagonal (accepted and misplaced). |
| C47 | Master pattern energy selection | proved | EmsoftMasterPattern (3) | Ranges overlapping no energy because they are entirely above or below raise IndexError (stated). |
| C48 | HDF5 reader selection is unambiguous | proved | Load (2) |  |
| C49 | Every loaded signal knows its file | partial | Load (2) | False for the second and later signals of a file. |
| C50 | Slicing a signal keeps detector, background and crystal map consistent | partial | SliceSignal (14) | Holds for plain signal slices and all navigation slices without step. False for open-ended, negative and stepped signal slices, for steps in navigation (crystal map shape), isig followed by inav with one PC, and crop with axis units. |
| C51 | Extracted grids are evenly spaced and consistent | partial | ExtractGrid (5) | Patterns, PCs, crystal map points and indices agree for every grid; number of points is the one asked for if the map size exceeds its square. False in general: fewer points than asked for, with axes of the size asked for. |
| C52 | Out-of-place operations leave the original signal untouched | partial | Aliasing (11) | deepcopy, rebin, inav, isig and extract_grid isolate for every history; the intensity methods, as_lazy and downsample share objects (negation proved); assignments are isolated for all. |
| C53 | Virtual detector tiles partition the detector | partial | VirtualBse (12) | Partition and sum proved for offset-zero axes and grids with no edge half-way between pixels (all odd and all dividing grids); false for other grids and after set_detector_calibration (negations proved). |
| C54 | Virtual BSE images honour method arguments | partial | Forwarding (8) | All classes and methods but VirtualBSEImage.normalize_intensity forward faithfully; that one swaps dtype_out and show_progressbar (negation proved). |
| C55 | Chunking covers the data | partial | Chunking (6) | All shapes and chunk shapes; dask normalize_chunks modelled from its documentation, with the automatic size as a positive parameter. For lazy signals, patterns already split stay split and the chunk shape is ignored (_violated). |
| C56 | Simulated band and zone axis coordinates are on the bands and on the detector | partial | GeometricalSimulation (9) | Bands and zone axes characterised for all inputs; zone axes near a corner are missed for PCs in the lower right quadrant, one-sided reflectors are missed, and pixel coordinates differ from to_pixel_coords by (n-1)/n (negations proved). |
| C57 | Image quality is bounded | partial | Fft (4) | The bound and the invariances are proved; the claim that constant patterns attain 1 is false of the code and its negation is proved (C57_zero_frequency_not_one). |
| C58 | Detector text files round-trip | proved | DetectorFile (5) | All detectors, conventions and numbers of decimals. Header text modelled per character; str(float)/float(str) round trip assumed (FloatText); text of PC rows modelled as rounded numbers. |
| C59 | Relative rescaling keeps patterns comparable | partial | Rescale (3) | False of the code when percentiles are passed with relative=True (not rejected; negation proved). |
| C60 | Fourier wrappers invert each other and frequency filters act as documented | partial | Fft (8) | False for real_fft_only=True and an odd number of columns (C60_ifft_fft_real_odd_fails); everything else proved. |
| C61 | Modified Hann window is symmetric, positive and normalized | partial | Window (3) | The maximum is 1 only for odd lengths (C61_hann_even_maximum_fails). |
| C62 | Simulated patterns of centrosymmetric phases are the same in opposite directions | partial | MasterPattern (3) | False (C62_not_inversion); proved when the master pattern is unchanged by half a turn about its normal. |
| C63 | Each simulated pattern is made from its own rotation and projection center | partial | GetPatterns (3) | Proved for equal shapes or a navigation shape of (1,). False for a single PC in two navigation axes (C63_not_for_two_axes). |
| C64 | Initial steps of Euler angles are in degrees | partial | RefinementSetup (2) | False for Euler angles: degrees are used as radians. PC part and checks proved. |
| C65 | Adding a scan keeps the scans in the file | partial | Save (2) | False if overwrite=True is passed too. |
| C66 | NORDIF readers label axes correctly | partial | Nordif (3) | Proved for maps with several rows and columns (C66_axes_partial); false for single rows and integer scan sizes (proved). |
| C67 | EDAX binary patterns keep their map positions | partial | EdaxBinary (3) | Proved for files of version 3 and later with square grids and files of version 1 below 4 GiB; version 1 files of 4 GiB and more fail with NumPy 2 (proved). |
| C68 | The number of patterns in an Oxford binary file is determined | partial | OxfordBinary, OxfordFile (5) | Proved before version 5 without large jumps in the table; false for missing patterns in files above 58 MB and for version 5 (proved). |
| C69 | The map shape of an Oxford binary file is determined from beam positions | partial | OxfordBinary (3) | Proved for at least two columns unless the origin is half-way between steps; counterexamples for a single column and half-way positions. |
| C70 | Projection centers from Bruker files belong to their patterns | partial | Bruker (3) | False: projection centers are never reordered, patterns are. Holds for files in map order. |
| C71 | Axes and images of loaded EMsoft master patterns | partial | EmsoftMasterPattern (4) | False for Lambert projection, one hemisphere and several asymmetric positions (axis names are shifted). |
| C72 | Patterns of an extracted grid keep their map coordinates | partial | ExtractGrid (2) | False: the axis offset is never updated; differences of coordinates are kept. |
| C73 | Chunks of learning results are of limited size and not empty | partial | Chunking (7) | Size limit and termination proved for all sizes. Not empty proved for two or more map positions and rows of at most a fourth of the limit; false for a single map position (C73_single_position_empty). |
| C74 | Decomposition models use the selected components and leave the learning results alone | partial | Decomposition (10) | Model values proved for all selections. Learning results stay truncated when HyperSpy raises, and the temporary file stays when writing fails, e.g. always for signals without four axes (negations proved). |
| C75 | Rebinning describes the same detector | partial | Rebin (5) | Proved for equal scales which divide the detector shape (C75_same_detector_partial), the static background and rebinned maps. Violated otherwise: different scales (C75_different_scales_violated) and cropped pixels (C75_crop_violated). |
| C76 | Fitting a plane to projection centers recovers the plane | partial | FitPc (6) | Affine fit, estimate_xtilt and estimate_xtilt_ztilt proved for all planes, positions and outliers. With a tilted detector fit_pc returns a sample tilt wrong by twice the detector tilt, and outliers given as a list are ignored by estimate_xtilt_ztilt (negations proved). The projective fit is C103, the robust (RANSAC) fit C130. |
| C77 | Refinement reports the score of its own pattern at the refined parameters | partial | Refine (8) | Proved for every optimizer that reports the objective at the point it returns, in exact arithmetic, for master patterns whose hemispheres have one intensity scale. Without the last hypothesis the statement is false: hemispheres are rescaled to [-1, 1] one by one (C77_hemispheres_violated). |
| C78 | Hough indexing puts every solution in its own map point | partial | HoughIndexing (21) | Pairing of patterns, PCs and map points, acceptance of indexers, phases and reflectors proved for all inputs. False as stated: making a map overwrites the rotations of patterns not indexed in the results array (C78_data_violated), data_index is checked as a phase ID but used as a row (C78_data_index_violated), PCs of a map of another shape are accepted (C78_map_shape_violated), lattice parameters may differ by a relative 1e-5 (C78_lattice_violated), a single vector for three phases is ignored (C78_reflectors_violated). |
| C79 | RGB virtual BSE images show the intensities of their regions | partial | RgbImage (10) | Channels, value range, order and gain invariance proved for all inputs (images that are not constant). False: brightness and contrast have no effect unless intensities are clipped (C79_brightness_violated), coloured edges of tiles that are not square are misplaced (C79_markers_violated), axis offsets are lost (C79_offset_violated). |
| C80 | Kinematical master patterns sum the bands, whatever the threads do | partial | KinematicalMaster (13) | Pixel values, order of reflectors, inversion and refusals proved for all inputs with one thread. False with several threads: the compiled parallel loop adds to shared pixels without synchronisation, and for every two threads sharing a pixel a schedule loses a band (C80_schedule_violated); bounds and single-thread pixels hold under every schedule. False: one-sided reflectors (C80_one_sided_violated), axes for "Both" (C80_axes_violated), coordinate of the middle pixel (C80_middle_violated). |
| C81 | Downloaded data sets are verified, whatever state the cache is in | partial | DataCache (13) | Verification, offline behaviour, downloads of single files and the gain series proved for every cache state and server. False: archives after interrupted unpacking (C81_archive_violated, second call proved to succeed), settings files are not verified (C81_settings_violated), clear_cache after a change of the environment variable or with ~ (C81_clear_violated). The behaviour of the pooch package is assumed as documented in the model. |
| C82 | NORDIF setting files and calibration patterns are read as written | partial | NordifSettings (8) | False in full: the title of a section in free text, for instance in the name of the specimen, replaces the section (C82_titles_violated). A resolution row of the overview image without two numbers raises KeyError (C82_area_violated). |
| C83 | Loading from an h5ebsd file gives the scans asked for | partial | ScanGroups (7) | False in full: several names of which none is in the file give an empty list (C83_missing_violated); without a name, scan 10 is read before scan 2, and another group that is first in the order of names makes it raise (C83_default_violated). |
| C84 | Changing a master pattern's projection and plotting it on the sphere keep the intensity of every direction | partial | AsLambert (11) | Change of projection proved. False for plotting: pixels black in the upper pattern are missing in both hemispheres (C84_plot_black_violated), pixels outside of the disk that are not black are plotted in the other hemisphere (C84_plot_outside_violated), a single hemisphere of a centrosymmetric phase is mirrored (C84_plot_one_hemisphere_violated). |
| C85 | Dictionary indexing returns the best matches of this call's own data | partial | IndexingCalls (11) | Proved: which arguments are accepted, the best matches of the unmasked pixels at each unmasked point, no dependence on history for metrics given by name or when masks and data type are given. Violated: a metric object keeps masks and data type from earlier calls, and the shape of the signal mask is not checked. Scores of -1 or lower and lower-is-better metrics: see C21, C22. |
| C86 | Processing keeps the scan's axes, metadata and a usable static background | partial | Processing (10) | Proved for all sequences: map shape and presence of the static background; axes and metadata without the three operations which rebuild the signal from an array; a usable background if no other data type is asked of rescale/normalize. The rest is violated, with theorems for every signal. |
| C87 | Refinement accepts exactly compatible arguments, and phases are compared by what they are | partial | RefinementChecks (14) | Acceptance is proved sound and complete and the comparison of phases characterised; false parts: improper symmetry operations are not compared (point groups 2 and m are the same phase), atoms are compared in order, the tolerance makes sameness neither symmetric nor transitive, refined maps always start in the origin, and a mask of points not indexed gives an indexing error |
| C88 | A geometrical simulation over a map gives each pattern its own lines, zone axes and PC | partial | PatternSimulation (18) | The code violates the rest: gnomonic zone axes are not restricted to the detector, labels with two digit indices are ambiguous, plot fails without zone axes and shows the average PC. |
| C89 | Refined results do not depend on how threads interleave | partial | RefinementThreads (5) | Proved if each block has its own keyword dictionary or the method does not write to it. With a shared dictionary the code violates it; whether it is shared is up to Dask. |
| C90 | Oxford and EDAX h5ebsd files load consistently | partial | OxfordH5Ebsd (15) | Proved for complete 2D maps and single patterns. False for Oxford line scans (detector shape), missing PC datasets, incomplete Oxford maps, padded line scans, and binning of cameras with 2048 rows or more. |
| C91 | Signals have the class of their type and keep its attributes | partial | SignalClass (10) | Proved except for setting an EBSD signal to its own type, which resets its attributes, and unknown types with "master" in them, which raise after a master pattern has lost its attributes (given what HyperSpy does when it assigns a class). |
| C92 | Coordinates at one sample position | partial | SamplePosition (5) | Acceptance, errors, value and shape at one position proved for all arguments. Agreement with the all-positions result is false for coordinate arrays whose shape starts with the map shape (C92_all_positions_violated), proved otherwise. |
| C93 | Interactive detector plot | partial | DetectorPlotter (14) | Proved for all histories: figures show their own widgets, slider moves reach the detector, independence of a copy, overlay rules, slider limits. False: C93_outside_change_violated, C93_two_figures_violated, C93_late_overlay_violated, C93_pcz_zero_violated, C93_kwargs_violated; C93_overlays_shown_partial needs overlays to be set before the first show. |
| C94 | The drawings of a detector show where its screen is | partial | DetectorViews (23) | The drawn sample, projection centre and screen corners agree with the sample-to-detector matrix for one projection centre without twist (top) and azimuthal angle (side); gnomonic circles are exact. False with azimuthal angle (side) or twist (top), with several projection centres (first distance, ValueError for most maps of them), for distant screens (axis limits), for the projection centre in pixel coordinates (off by pcx pixels against the coordinate conversion), and zooming out with the projection centre beside the detector. |
| C95 | A filter window has the requested shape and values | partial | WindowCreation (18) | Shapes and values of one and two axes, circular windows (but a single row, C16), defaults and errors proved. False: three axes are silently reduced to one, keyword names are ignored (order counts), the shape is checked for custom arrays, the caller's NumPy array is changed by make_circular, shape_compatible raises for windows with fewer (but more than one) axes than the data. |
| C96 | Reading patterns simulated with EMsoft | partial | EmsoftEbsd (17) | Well-formed files without binning are read completely for every content and scan size; documented width/height order, map shape for two-dimensional scans, binning, units and titles with dots are violated. |
| C97 | Dynamic background of patterns and signals | partial | DynamicBackground (19) | Proved for the frequency domain: weighted mean, signal result, chunks. The stated truncation, centring, integer input, unchanged argument, default of the signal method and dtype_out are false of the code (_violated). |
| C98 | Figures of pattern positions and projection centers | partial | PositionFigures (16) | Proved: markers relative to the region, images, limits, grid positions, contents of PC figures. False of the code: marker in the middle of its pixel, documented subtraction of the origin, adding to the axis of an area, types of origin, unchanged figure_kwargs (_violated). |
| C99 | Local contrast enhancement | partial | AdaptiveEqualization (5) | Proved for given regions and for square patterns of at least four rows; the default region of other patterns is swapped or an error (_violated). |
| C100 | Navigators show the colours of the image | partial | RgbNavigator (5) | Colours kept if the image has both 0 and 1; other images are stretched or become black (_violated). |
| C101 | A save that is interrupted leaves a readable file | partial | InterruptedSave (9) | By name, an interrupted scan is an error or has all patterns, map and header; other scans stay loadable by name (proved). False: overwriting destroys the old content first, an interrupted scan can hide others when loading without a name, it blocks its number, and microscope parameters may be missing without an error. |
| C102 | Detector attributes keep their meaning under every history of assignments | partial | DetectorAttributes (13) | Frame, failed assignments, coordinates, navigation shape and listeners are proved for all histories of assignments. False: invalid shapes, binnings and projection centers are accepted, an empty navigation shape becomes (1,), and changes within the returned array are not told. |
| C103 | Default (projective) fit of projection centers on a plane | partial | FitPcProjective (4) | Proved: the default fit equals the affine fit (and is exact) whenever the trimmed mean lies on the plane, in particular for PCs on the sample plane of any number, and for any plane with fewer than ten PCs. False in general: C103_trim_violated gives ten PCs on a plane inclined to all detector axes which the default fit never returns, whatever the SVD and the estimation give. |
| C104 | Rescaling intensities in machine arithmetic | partial | FloatRescale (7) | Proved for any rounding: order of pixels and lower limit in every evaluation order, exact upper limit and range if the quotient is computed by division, at most one level missing for unsigned integers otherwise (any accurate rounding, binary64 proved accurate). False: C104_reciprocal_violated (a reciprocal, allowed by fastmath, makes 254 the brightest of a uint8 pattern from 0 to 49) and C104_signed_violated (int16 pattern from -20000 to 20000 wraps around to -2.28 in the range from -1 to 1); C104_signed_partial covers signed patterns spanning less than half of their range. |
| C105 | Simulation in floating point arithmetic reads only pixels of the master pattern | proved | FloatLambert (7) | Rotation, projection and indices for all near-unit rotations and directions. C105_length_needed shows that the hypothesis on the length cannot be dropped when the compiler multiplies with the reciprocal. |
| C106 | Similarity scores in floating point arithmetic do not depend on the order of summation beyond a known error | partial | FloatSimilarity (9) | Error bounds, signs, exact integer sums and the best match are proved for every order of summation. Not true: a score never exceeds one, and is the same in every order (C106_exact_violated: (1, 2, 2) with itself in float32). |
| C107 | A NORDIF save that stops at any byte, and lazy signals saved to any file | partial | NordifSave (6) | Proved for signals in memory and lazy signals saved to another file. Not true: saving a lazy signal to its own file fails and leaves it empty (C107_own_file_violated), and an interrupted overwrite loses the old patterns (C107_old_patterns_violated). |
| C108 | Processes that save to the same h5ebsd file at the same time lose nothing they report as saved | partial | ConcurrentSave (5) | Proved for adding scans to an existing file, for any number of processes and any schedule, with mutual exclusion and agreement of a lone process with the sequential model. False when the file does not exist at the first look: a scan reported as saved is lost, and overwrite=False replaces a file made meanwhile. |
| C109 | Downsampled patterns and neighbour averages are right in floating point arithmetic | partial | FloatBinning (9) | (a)-(d) are proved for any order of summation and evaluation. (b) is false without the bound of 2^24: C109_brightness_violated has a pattern of 32-bit integers whose brighter block becomes black and the darker one white. |
| C110 | Refinement scores in floating point | partial | FloatRefinement (8) | Error bound, comparison of patterns, lowest value, identical patterns and reported scores proved for all orders of the sums. A score may exceed one, the value minimized may be negative, and the score depends on the contrast of the simulated pattern (C110_exact_violated), by at most the error. |
| C111 | Background removal with rounding | partial | FloatBackground (9) | Order and range are proved for every background and evaluation when there is a result; that there is one, for subtraction of integers of at most 16 bits and division of 8-bit integers by non-zero backgrounds. The full statement is false: zero background, 16-bit division, 32-bit integers (C111_*_violated). |
| C112 | Patterns without contrast do not disturb dictionary indexing and merging | partial | NanScores (11) | Scores are missing exactly for patterns without contrast (blank ones for the dot product). With at most b such dictionary patterns in each chunk of several iterations, the first keep_n - b matches are the best of all with a score; with none, all matches are. False in general: one iteration returns the dictionary patterns without contrast first; with keep_n = 1 several iterations lose every chunk with one of them; a flat experimental pattern gets NaN with one iteration but score -1 of dictionary pattern 0 with several; merging raises as soon as one point has no score in any map. All negations proved. |
| C113 | Neighbour dot products of patterns without contrast, and their data type | partial | NanNeighbours (6) | Proved for windows with odd axes (or one chunk), exact arithmetic on patterns rounded to the floating point type: values, bounds, invariance to brightness and contrast, and agreement of averaged matrices with the direct map when pixels are float32 numbers. False for dtype_out of the matrices: it is not passed to the function that converts the patterns, which uses float32; a map where the average of float64 matrices is NaN and the direct float64 map is 1 is given. |
| C114 | The interactive detector plot and a geometrical simulation show the same bands and zone axes | partial | SimulationAgreement (4) | Lines and zone axes of the two implementations are equal for every detector, PC, unit cell and orientation in which no band passes exactly through the PC; for those bands the claim is false, C114_agreement_violated. Indices are reduced by any function keeping directions. |
| C115 | Rounding errors do not move projection centers between conventions | proved | FloatPc (8) | Import, export, read-back and any chain of conversions in binary64 move the physical point by at most the stated fraction; exact for Bruker, and for TSL in the upper half of detectors with no more rows than columns. C115_exact_violated shows that exactness fails otherwise. |
| C116 | Geometrical simulations lie on the features of patterns simulated from a master pattern | partial | PatternOverlay (8) | Pixels, zone axes, bands and converse proved for every rotation, unit cell, detector and pixel, for PCs outside the lower right quadrant and bands not exactly through the PC in all patterns; for those the claim is false (C116_lower_right_violated, C116_band_through_pc_violated), and positions are off by less than half a pixel (C116_exact_violated). |
| C117 | Simulating on a cropped detector gives the cropped patterns | partial | CropSimulation (4) | False for detectors with a single PC and several rotations and for detectors with a twist (proved); proved for one PC per rotation without twist. |
| C118 | Indexing a pattern which the dictionary has finds it | partial | SelfIndexing (5) | Proved for dictionaries of patterns with contrast (NCC) or intensity (NDP), exact arithmetic; false if a dictionary pattern has no contrast (proved). |
| C119 | The gain and offset with which patterns were recorded do not matter | proved | GainOffset (12) | Exact arithmetic. For patterns with contrast. Shown not to hold beyond what is stated: rescaling to integers (rounding), gain with an unscaled subtracted background, offset with division. |
| C120 | Cropping patterns is the same as masking out what was cropped away | partial | CropIndexing (4) | Proved for any metric on patterns (C120_crop_is_mask), for the NCC with rescaling (C120_ncc), and for simulated dictionaries with one PC per rotation (C120_simulated_partial, C120_simulated_ncc_partial). False for simulated dictionaries with a twist or a single PC, since EBSDDetector.crop loses the twist and changes the navigation shape (C117_twist_violated, C117_single_pc_violated). |
| C121 | Indexing with one dictionary per phase and merging finds the phase and orientation | partial | PhaseMaps (2) | NCC; not for one-point maps with several matches (C25), uncovered points (C26), dictionaries with patterns without contrast (C112); the phase for different phases each found somewhere |
| C122 | Points of merged crystal maps have the data and positions of the same points of the scan | partial | MergedPositions (4) | data: only if all maps have the same bounding box of points in the data, otherwise refused or scores of different points compared; positions: only for equal step sizes and a box from the first row and column (iff) |
| C123 | Refinement keeps parameters which explain a pattern, and improves what dictionary indexing found | partial | SelfRefinement (6) | Proved in exact arithmetic for optimizers which report the value at the point they return and do not return a worse point than the start, one PC per dictionary. False for master patterns which are not 32-bit floats and whose hemispheres have different intensity ranges (C123_hemispheres_violated: score -1 at the true orientation). |
| C124 | Processing part of a map gives that part of the processed map | partial | PartOfMap (14) | Pattern by pattern for all listed operations, for all selections and arguments. Averages and dot products: proved for the points whose window does not reach across the border of the part, negations proved at the border; relative rescaling: proved up to a gain and an offset, negation proved. |
| C125 | Filtering a signal multiplies frequencies, or sums neighbouring pixels, and stretches the result | proved | SignalFftFilter (9) | Exact numbers; transfer functions of the pattern shape; constant results (zero divided by zero) are outside the model. |
| C126 | Indexing or refining part of a map gives that part of the indexed or refined map | partial | PartIndexing (8) | Proved for dictionary indexing with a new metric (valid arguments; if the mask leaves nothing in the part, ValueError, also proved), for Hough indexing, and for refinement with a crystal map of the points of the part alone. Missing, and false: refinement of a part with the crystal map obtained by slicing (s.inav[...].xmap or xmap[...]), which raises an error (C126_sliced_map_raises, C126_sliced_map_violated). That inav takes the projection centers of the part is proved too. |
| C127 | Loading NORDIF calibration patterns gives the listed patterns, in the listed order, with their positions | partial | NordifCalibration (6) | C127_patterns covers every setting file in the documented layout, every set of image files and all refusals. The region of interest and the scaled positions are proved for rows with decimals and a non-zero width. False in general: the detector has the shape in the setting file, not of the images (C127_detector_shape_violated); a width without decimals or of zero pixels gives no or invalid positions (C127_width_violated); an overview resolution which is not two numbers makes loading fail with a KeyError (C127_overview_violated). |
| C128 | Processing in place, in chunks and in any order, gives what processing out of place gives, and lazy signals keep their patterns | partial | StoredChunks (8) | C128_in_place and C128_in_place_stopped cover every pattern-wise function, chunking, schedule and stopping point; C128_lazy_copies every history if Dask copies arrays in memory. Averaging in place is proved if Dask copies or there is one chunk, and lazy histories without copying if no signal is processed in place while a lazy signal of its array exists. False in general: without copying, averaging in place in several chunks depends on the schedule (C128_average_violated), and a lazy signal changes when the signal it comes from is processed in place (C128_lazy_violated); repeating an interrupted call processes patterns twice (C128_repeat_violated). Whether Dask copies depends on its version and is a parameter. |
| C129 | A signal saved and loaded keeps its detector, microscope, crystal map and PCs, and saving what was loaded changes nothing | partial | H5Whole (6) | C129_save_load, C129_projection_centers and C129_again cover every map with patterns of at least 2 x 2 pixels, every number of PCs and numbers or ASCII text about the microscope; C129_again assumes that orix stores crystal maps exactly and that shapes of crystal maps have no axes with one point. False in general: the crystal map of a map with one row is replaced by an empty one after two cycles, whatever orix does (C129_single_row_violated); microscope metadata other than four values is lost (C129_other_keys_violated), as are all values after one which is None (C129_none_violated); a missing background is loaded as -1 and PCs which do not fit the map are padded with 0.5 (stated in the theorems). |
| C130 | Projection centers which are not on the sample plane are found and do not disturb the tilt and the fitted plane | partial | RobustTilt (5) | C130_outliers and C130_estimate cover every sequence of draws and scores; no outlier may be within the median absolute deviation of the plane, and no line drawn may be near as many projection centers as the plane. C130_fit_partial: fit_pc with the mask, for detectors which are not tilted (false otherwise, C76_detector_tilt_violated). False in general: estimate_xtilt(detect_outliers=True) also returns the outliers when return_outliers is False, so the result is a tuple, not a number (C130_return_violated). scikit-learn RANSAC is modelled from knowledge of its source. |
| C131 | Lazy signals keep their patterns whatever is saved, and files can be used again after every call | partial | FileSession (7) | C131_lazy_kept, C131_no_overwrite, C131_usable and C131_add cover every history in one process, with HDF5 modelled from knowledge of its source (shared mode of handles, no truncation of open files). C131_closed_partial: files are closed by calls which succeed. False in general: neither reader nor writer closes the file when an error is raised, so after asking for a missing scan (C131_load_violated) or a refused addition (C131_save_violated) the file can not be overwritten as long as the exception is referred to. |
| C132 | Detector, background and crystal map fit the patterns after every history of operations | partial | SignalHistory (8) | Proved for all histories of operations which are regular: backgrounds of the right shape, slices without steps which select something (of patterns: not negative or open-ended from the middle), cropping with indices, any downsampling and rebinning, grids without crystal map. Not true in general: C132_background_violated, C132_remove_violated, C132_one_pc_violated, C132_grid_violated. |
| C133 | Refining with one master pattern per phase and merging the refined maps finds phase and orientation | partial | RefinedPhases (4) | Proved for master patterns whose hemispheres have the same range of intensities or are 32-bit floats (see C77), and optimizers which do not return a worse point than their start. False: points which are not indexed in a map have score 0 after refinement, so that where the refined scores of the other maps are negative the merged map has the phase of the map which is not indexed there, with the identity as rotation (C133_not_indexed_violated). The phase needs every phase to be best somewhere (see C25). |
| C134 | Pseudo-symmetry operators give the orientations they describe | partial | PseudoSymmetry (4) | Starting points, symmetric operators and the index of the best starting point are proved for all crystal maps and operators; finding the explaining orientation is proved for 32-bit float master patterns or hemispheres with the same range (otherwise false, see C123_hemispheres_violated). Euler angles from orix are a parameter with the hypothesis that they describe the rotation (exactEuler_faithful shows it can be met). |
| C135 | Only the rotation between crystal and screen can be seen | proved | TiltFrames (7) | Detectors that differ only in sample tilt, tilt, azimuthal and twist: one unit rotation turns every orientation into the equivalent one (C135_rotation_exists); equal tilt difference needs none (C135_tilted_together); same patterns (C135_same_patterns), same scores in refinement (C135_same_scores, C135_angles_not_seen), same indices and scores from dictionary indexing (C135_same_indexing), same lines (C135_same_lines). Real-number arithmetic. |
| C136 | Image quality sees only the amplitudes of a pattern's waves | proved | ImageQuality (10) | Exact real and complex numbers. The penalty in the specification is the mean of the weights the code gives a wave and its opposite, which differ (k squared and (k + 1) squared); no image of real intensities can tell. |
| C137 | Simulated patterns have the symmetry of the master pattern | partial | MasterSymmetry (8) | Equivariance of intensities and of get_patterns under all sixteen operations of the grid, symmetric master patterns give the same patterns and scores for equivalent orientations (_partial: only these operations). False for three-fold axes: C137_three_fold_violated. |
| C138 | Simulated patterns and refinement scores change continuously with orientation and projection center | partial | Continuity (7) | Proved over the reals for all sizes: the intensity is continuous in the direction iff the hemispheres have the same border (C138_intensity_iff); patterns, scores and the minimized functions are continuous in orientation and projection center given equal borders and a simulated pattern which is not constant where it is normalized. False in general: refinement rescales the hemispheres of master patterns which are not float32 one by one, so that hemispheres which meet no longer meet and the score jumps from -1 to 1 for arbitrarily small rotations (C138_rescaled_violated). Rounding in float32 is not part of the statement. |
| C139 | Simulated patterns move with the projection center, and downsampled detectors look at the middle of pixel blocks | proved | MovedPatterns (4) | Moved projection centers (C139_moved), downsampling by any factor (C139_downsampled: direction of the middle of the block) and by odd factors (C139_downsampled_odd: the middle pixel), pixel size and binning (C139_units). Exact arithmetic; intensities before whole patterns are rescaled to another data type. |
| C140 | Dictionary indexing with fewer matches, or with a reordered, extended or split dictionary, gives consistent results | partial | DictionaryChanges (6) | Proved for larger-is-better metrics with scores of at least -1 (all scores of the built-in metrics): scores for smaller keep_n, reordered, extended and split dictionaries; and the matched patterns if no two scores are equal and all are above -1. False: the matched patterns when a dictionary pattern has a score of exactly -1 (C140_order_violated), and scores below -1 (C21_scores_below_minus_one_are_lost). |
| C141 | Collections and plots of a geometrical simulation show the pattern asked for | partial | SimulationCollections (9) | Proved for every simulation, index naming a pattern, format and flags: which collections are returned, their coordinates, labels and sizes, and that plot shows them. Violated: plot with labels is an IndexError for a pattern without zone axes (C141_plot_partial is exact about when, C88_plot_violated is a witness), and a single number as index into a 2D map returns the lines of the whole row as if they were of one pattern (C141_row, C141_row_violated). |
| C142 | Redundant processing steps may be left out, and filters and downsampling compose | proved | RedundantSteps (13) | All sequences of calls with floating point output and all signals without constant patterns, seven following operations, all pairs of transfer functions of which one is centrally symmetric, all pairs of downsampling factors. C142_integers_matter and C142_relative_matters show that the restriction to floating point output and to rescaling of each pattern by itself is needed. |
| C143 | The detector returned by extrapolate_pc describes equally spaced points on the tilted sample | proved | ExtrapolatedDetector (11) | The returned detector, distances, angle, average, equal sizes and repeated extrapolation; odd numbers of rows and columns and an integer binning are needed (C143_odd_matters, C143_integer_binning_matters) |
| C144 | Neighbour averages, dot products and orientation similarities do not depend on the corner in which a scan starts | proved | MapSymmetry (13) | Reversed rows, reversed columns and exchanged axes for averages, dot product matrices, their averages and orientation similarities, with any chunks; odd windows are needed (C144_odd_matters) |
| C145 | Cropping gives what slicing gives, however the arguments are passed | proved | CropCall (8) | For every accepted call, all four axes and all rectangles, with start and end given as indices (numbers in units of the axis: C50_not_crop_units). HyperSpy crop and crop_signal are modelled as documented. |
| C146 | Processing does not depend on how patterns are held: flipped patterns give the flipped result | partial | FlippedPatterns (12) | Rescaling, static background removal, normalization: any permutation of pixels, whole signal (C146_rescale, _rescale_signal, _static, _normalize, _normalize_signal); scores and dictionary indexing (C146_scores, _indexing); downsampling (C146_downsample); fft_filter in both domains with the flipped window or transfer function (C146_filter_spatial, _filter_frequency, _transfer); dynamic background in the frequency domain for odd windows (C146_dynamic_partial). Missing: even windows along a reversed direction, where the claim is false of the code (C97_mirror_violated); floating point rounding of sums. |
| C147 | With NLopt, each pattern is refined as if it were alone | proved | NloptRefinement (9) | All interleavings, any number of blocks, patterns and operators: results and exceptions of each pattern alone (C147_alone, C147_no_failure, C147_unique), termination (C147_terminates, C147_progress, C147_finishes), unchanged shared optimizer, settings, and agreement with the functional model of C77 (C147_as_function). |
| C148 | The mirror image of an experiment has the mirror images of its patterns | proved | MirroredGeometry (9) | Over the real numbers, for the sixteen operations which keep the grid of a master pattern; C148_patterns is get_patterns as a whole, including errors. |
| C149 | Scripts can be read as if every name held its own copy | proved | Script (5) | The proviso is necessary: C149_careless_violated. Contents of objects are opaque. |
| C150 | The order in which crystal maps are merged does not matter | partial | MergeOrder (7) | Same size, combined scores and not indexed points for every order and with masks, same data (C150_order) and phase (C150_phases) where one map is better than all others; not indexed iff all maps say so (C150_indexed); merging one after the other gives the same data where one of the first maps is indexed (C150_one_after_other). Partial because the code breaks the rest: ties (C150_ties_violated), points not indexed in the first maps get scores of zero which may win later (C150_not_indexed_violated), phases of merged maps are lost when merged again (C150_one_after_other_phases_violated). |
| C151 | What a map point sees of its neighbours | proved | NeighbourRelations (8) | Locality of averages (C151_average_local, any coefficients), dot products and their averages (C151_dots_local, any zero_mean and normalize) and orientation similarity (C151_similarity_local); gain and offset (C151_average_gain), window factor (C151_window_scale), uniform surroundings (C151_average_uniform, C151_dots_uniform), symmetry (C151_dots_symmetric). |
| C152 | A detector file whose writing stopped is not loaded as a detector | partial | DetectorText (5) | The whole text is proved to load as the file of C58. For maps of PCs of two or more axes, a file stopped after any number of characters is proved to raise, to load without any number (stopped in the header), or to have everything but the last number right. Violated by the code: the shape of a map of one axis is written as "(n,)", which is not understood when read, so a stopped file loads with fewer PCs (proved for every number of rows); the last number can be cut ("0.6" for "0.6250000"), as nothing marks the end of the file. |
| C153 | Patterns without contrast in refinement | partial | NanRefinement (6) | The last sentence is false: np.argmax and np.argmin return the first NaN, so a starting point where the simulated pattern has no contrast is reported in place of one with a score (C153_start_without_score_violated). The rest is proved, for master patterns whose hemispheres have one intensity scale as in C77 (C153_pattern_without_contrast and C153_other_points need no such hypothesis), in exact arithmetic and with 0 / 0 taken to be NaN. |
| C154 | EDAX and Oxford binary files whose writing stopped are not loaded as complete scans | partial | CutBinary (6) | C154_edax_violated: EDAX files of version 1 (without nav_shape) and hexagonal grids have no pattern count; a cut file is loaded as a shorter scan (C154_edax_leading_partial says which patterns). Square grids and Oxford files: C154_edax_grid, C154_oxford. |
| C155 | Rounding errors do not move pixel and gnomonic coordinates | proved | FloatCoordinates (6) | To gnomonic and to pixel coordinates against the exact projection, both round trips, and pixels found again. Reorderings by fastmath other than a fused product and sum are not modelled. |
| C156 | In floating point arithmetic every pixel of a detector gets its own direction | proved | FloatDirections (6) | Arrays long enough, positions, directions and lengths of directions, and masks. The function for varying PCs runs the same operations for each PC. Reorderings by fastmath beyond sums, fused operations and reciprocals in the length are not modelled. |
| C157 | Master patterns summed over asymmetric positions are accurate, lazy or not | proved | FloatMasterPattern (4) | Sum over asymmetric positions in float32 in any order: accuracy, brightness, axes, lazy against non-lazy, and exactly the same for at most two positions. C157_not_same shows that three positions can differ in the last digit. Overflow is not modelled. |
| C158 | In floating point arithmetic the master pattern is read at the right place | partial | FloatPosition (2) | The accuracy of the place where the master pattern is read is proved for every direction, pixel and orientation. Missing: other reorderings than fused operations and reciprocals allowed by fastmath, and overflow. The intensity itself is treated in C159. |
| C159 | In floating point arithmetic a simulated pixel has the right intensity | partial | FloatIntensity (3) | Proved for every order of products and sums in the interpolation, fused or not, and for conversion to 32-bit or 64-bit floating point numbers. Rescaling of patterns and conversion to integers are treated in C160. Missing: overflow, and evaluations allowed by fastmath in the rotation and projection other than those modelled. |
| C160 | In floating point arithmetic a whole simulated pattern is right, also when rescaled | partial | FloatPattern (5) | Proved for one pattern with all its pixels: from computed directions with a known error, rescaled (C160_pattern) or not (C160_not_rescaled), and from any list of pixels of a detector, such as all of them or those of a mask (C160_detector). C160_range: for all inputs, rescaled patterns which are not constant keep the order of intensities and reach but are not below the lower limit, and with a division (not with a reciprocal, C104) the same for the upper limit; the limits and their difference must be numbers of the formats. Missing: overflow, the difference of the limits of the output range is not rounded, and evaluations allowed by fastmath other than those modelled. |
<!-- end results -->

## Assumptions about libraries

Each is also stated in the comment of the definition that uses it.

* Python: call binding of positional and keyword arguments (C54); assignment shares
  references and `deepcopy` makes new objects (C52); `np.linalg.lstsq` minimizes the sum of squared
  errors and `np.linalg.svd` ends with a direction of least variation (C76); slicing and negative indices (C50, C74);
  `str(float)` and `float(str)` are inverse (C58); `int()` of texts without signs and
  underscores (C43, C58); lower case of ASCII characters (C03).
* NumPy: `round` half to even; `linspace`, `arange` and `ceil` of exact quotients;
  `argsort` of distinct keys; NumPy 2's overflow errors for Python integers (NEP 50);
  `savetxt`/`loadtxt` as written and read numbers rounded to the given decimals (C58);
  `uint32` products do not overflow (C67) unless said.
* Numba: integer arithmetic of rescaled `int8` patterns is not modelled.
* SciPy: FFTs are exact discrete Fourier transforms; `next_fast_len` is a parameter at
  least as large as asked for.  Optimisers are arbitrary functions of their arguments; C77 assumes
  that they report the objective's value in the point they return (and, where said, one not above
  that in the start).
* Dask: `map_overlap` passes each chunk with its neighbourhood; tasks are pure and their
  order does not matter; `topk` with `k` above the size keeps all; `normalize_chunks`
  splits an axis in equal blocks but the last, "auto" gives a positive block size;
  `unpack_collections` rebuilds dictionaries (C35); `rechunk` rejects a wrong number of
  axes; `map_blocks` with a dropped axis calls the function once per chunk (C77).  orix' `CrystalMap`
  keeps the arrays it is given, and `create_coordinate_arrays` lists positions in row-major order;
  `EBSDIndexer.index_pats` returns one row per phase and a last row with the best solutions (C78).
* h5py: keys have no "/"; empty slices when the stop is before the start.
* RosettaSciIO: `memmap_distributed` raises ValueError for short files.
* HyperSpy: `_get_array_slices` keeps integer slices; `map(inplace=False)` copies the
  signal; rectangular regions of interest round half to even; the model of a
  decomposition is `(factors @ loadings.T).T` reshaped to the data; "flyback" order.
* orix: `CrystalMap` keeps the given point order; slicing keeps the selected points with
  the shape of their bounding box; `Rotation` is a matrix; `PhaseList` names are unique.
* diffpy: `base` and `recbase` are dual (C56, a hypothesis).

## Findings

Properties with status "partial" in the table above whose note says "False" are violated
by the code as modelled; the theorems named `..._violated`, `..._fails`, `..._not_...` or as
given in the note prove the negation, most of them for all inputs of a class.

## Not modelled

Plotting, `draw`, progress bars, HyperSpy GUI, downloading of data, `pyebsdindex`
internals (Hough transform), optimisers themselves (SciPy/NLopt – treated as arbitrary
functions with arbitrary outcomes), floating-point rounding, performance, thread
scheduling inside dask (chunk tasks are pure functions in the model).
