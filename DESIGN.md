# Formal model of beam_telescope_analysis

Source: `/repo` (pinned commit), read as text. Model and proofs: `/verif/lean` (Lean 4.33.0, Mathlib).

## Layout

* `lean/Verif/Model/*.lean`  – model of the code, function by function, every definition cites file and lines.
* `lean/Verif/Spec/*.lean`   – small specifications that do not mention model helpers (counting, sortedness, lines, ...).
* `lean/Verif/Lemmas/*.lean` – helper lemmas.
* `lean/Verif/Props/*.lean`  – the property theorems `Cnn_...`, with concrete `example`s that meet the hypotheses.
* `properties.jsonl` – the properties in English; `MANIFEST.json` – status and theorem names.
* `seeded/LOG.jsonl` – wrong programs tried against the theorems.

## Trusted base

* Lean's kernel.
* Axioms: every theorem depends on at most `propext`, `Classical.choice`, `Quot.sound` (`#print axioms`). No own axioms, no `sorry`,
  no `native_decide`, no `bv_decide`.
* The correspondence between the Python/C++ text and the model, made by hand. Every simplification is stated in the
  comment of the definition or at the head of the model file.
* NumPy / SciPy / PyTables / Numba / YAML / OS primitives are modelled by their documented behaviour (`searchsorted`, `argmin`,
  `table.read`, `deque`, `safe_dump`/`safe_load`, ...), not verified.

General conventions

* Floating point numbers are exact numbers (`ℝ`, `ℚ` or any ordered field), or arbitrary operations without any law (track finding);
  `NaN` is `Option`. Rounding errors are outside of the model.
* int64 event numbers are `Int`/`Nat` without overflow; where the width matters (Morton code, population count,
  histogram bins, Numba indices) fixed width arithmetic is modelled.
* Exceptions are values (`Except`), generators return the list of yielded values and the way they end. Loops without a bound in the
  code have fuel, and a theorem says that the fuel suffices (or that the loop does not end), or they are partial fixpoints.

## What is modelled

| code | model | not modelled / assumed |
|------|-------|------------------------|
| tools/analysis_utils.py: `data_aligned_at_events`, event merging, correlation, `map_cluster`, histogram indices, `in1d_*`, Morton code, shapes, quantiles, `find_closest`, `hist_quantiles`, unique counts, `binned_statistic` | ChunkReader, EventArrays, Hist, Bits, ArrayTools, GridTools | PyTables as list of rows |
| cpp/*: `in1d_sorted`, events in both arrays, histograms | EventArrays, Hist | memory outside of the arrays (undefined behaviour is an error value) |
| tools/smc.py | Smc, SmcCombine | threads are interleaved atomic steps on queues and files; fairness: every thread is scheduled again and again, every pool task completes |
| tools/geometry_utils.py | Geometry | exact real arithmetic |
| telescope/dut.py, telescope/telescope.py | Dut, Telescope | YAML is the value it denotes, scalars are exact, underscored attributes, `print` |
| track_analysis.py: `find_tracks`, `fit_tracks` selection, flags, isolation | FindTracks, FindFile, FitTracks, Isolation | the straight line fit (SVD) is a parameter |
| dut_alignment.py, Kalman alignment: `_alignment_loop`, `_calculate_initial_alignment` and the update functions | KalmanAlign | real numbers; the track fit is an arbitrary function; missing hits are `none`; one pass for one group of DUTs; plots and the delta columns are in KalmanAlignOut |
| dut_alignment.py: `prealign`, `find_inliers`; analysis_utils.py: `hough_transform` | Prealign | real numbers; `np.argsort` and the kernel density estimate are arbitrary functions (the first one with sorted result); the correlation file is a map from DUT and axis to nodes; plots are left out |
| telescope/dut.py: `Diamond3DpCVD`, `DiamondPseudo3DpCVD` (`index_to_local_position`) | Diamond | exact arithmetic; in-place updates of masked arrays are done hit by hit |
| dut_alignment.py: `align_telescope`; track_analysis.py: `line_fit_3d` | AlignTelescope | real numbers; the singular value decomposition is a parameter |
| dut_alignment.py: `align`, `_duts_alignment` | AlignDriver | the functions called inside are recorded with their arguments; tables of tracks, angles and random numbers are arbitrary functions of the calls made before; `align_telescope` and `calculate_transformation` are the models above |
| dut_alignment.py: `align_kalman`, `_duts_alignment_kalman` | AlignKalman | real numbers; finding of tracks is an arbitrary function of the group and max_events, the track fit an arbitrary function of the fit DUTs; configuration files as a map from names, angles normalized as in the code; the loop over tracks is the model above |
| tools/storage_utils.py: `save_configuration_dict`, `save_arguments` | SaveArguments | the decorated function and the text of values are arbitrary; a file is a map from group and name to tables; Python 3 |
| hit_analysis.py: `check`, `mask`, `cluster` (arguments and loops over the DUTs) | HitFiles | calls of the functions for one DUT are recorded with their arguments |
| hit_analysis.py: `cluster_hits` | ClusterHits | the clusterizer is any function; SMC by its result (C27, C61) |
| result_analysis.py: `get_angles`, the slopes in `histogram_track_angle`; track_analysis.py: the stored slopes in `store_track_data`, the rotation into the beam in `find_tracks` | TrackAngle | real numbers, division by zero is `none` |
| result_analysis.py: the histograms in `histogram_track_angle`; tools/analysis_utils.py: `get_mean_from_histogram`, `get_rms_from_histogram`, `simple_peak_detect` | HistStat | real numbers or an ordered field; the Gaussian fits are not modelled |
| tools/kalman.py, `_fit_tracks_kalman_loop` | Kalman | one track at a time; `_make_matrix_psd` is an arbitrary function; NaN of a last plane without material; `eigvalsh` is exact |
| dut_alignment.py: `apply_alignment` | ApplyAlignment | x, y, z of a quantity are one column of points, NaN together; the files themselves |
| hit_analysis.py: `merge_cluster_data`; dut_alignment.py: `calculate_transformation` | MergeClusters, Transformation | `svd` and the inverse of numpy are parameters with stated properties (used only where a theorem says so); exact `linspace`; a singular system is an error |
| hit_analysis.py: columns of the table of `merge_cluster_data` (L1562-1600, L1622-1716) | MergedColumns | a row is a function of the column name; column types without conversion; a row of the result depends on the cells of MergeClusters |
| track_analysis.py: which columns `find_tracks` (L235-274) and `fit_tracks` (L923-939) read | Chain | real numbers; connects the models of merge_cluster_data, find_tracks and the line fit |
| track_analysis.py L854-968, L1107-1108 and result_analysis.py L1017-1025: columns passed from `find_tracks` to `fit_tracks` and to `calculate_efficiency` | ChainFit | real numbers; connects the models of find_tracks, fit_tracks, the line fit and calculate_efficiency |
| result_analysis.py: `calculate_residuals`, `calculate_efficiency`, `calculate_purity`; analysis_utils.py: `fit_residuals_vs_position`, `get_mean_efficiency` | Residuals, ResidualFit, Efficiency, EfficiencyInterval, InPixel, EfficiencyArgs, PixelTree, RegionHist, Purity | peak detection with splines, automatic bins of numpy, curve fits, square root, search in the kd-tree and Voronoi diagram and the minimiser of the interval of the efficiency are parameters; plots and files are not modelled |
| tools/test_tools.py: `nan_equal`, `nan_close`, `compare_h5_files`, `_call_function_with_args`, `create_fixture`, `check_with_fixture` | CompareFiles, Fixture | a file is a list of paths and nodes; text of messages is not modelled; exact division for the rows read at once; results of fixture functions are numbers |
| hit_analysis.py: `check_file` | CheckFile | exact arithmetic; an index outside of the histogram is an error value (Numba writes to other memory); the plots |
| hit_analysis.py: `convert`, `convert_coordinates` | ConvertCoordinates | exact arithmetic; the files are a map from names to tables, `os.path.splitext` is a parameter; state of the files after an exception; titles, compression, logging |
| hit_analysis.py: `correlate`, `_correlate_position`; dut.py: `x_extent`, `y_extent` (global) | Correlate | exact arithmetic; the workers one after the other; the singular value decomposition is a parameter; an index outside of a histogram is an error value; the plots |
| tools/plot_utils.py: `plot_cluster_hists`, `plot_track_chi2`, `plot_track_density`, `plot_charge_distribution`, `plot_tracks_per_event` | Plots | the numbers that are shown, not the drawing; an ordered field instead of floating point numbers; `np.percentile` of the chi2 is a parameter |
| tools/plot_utils.py: `efficiency_plots`; tools/analysis_utils.py: `polygon_area_multi` | EffectivePixels | only the effective pixels and the sizes of the pixels; the search in the kd-tree is a parameter; integer types have no limits |
| tools/plot_utils.py: `plot_events`, `plot_fit_tracks_statistics`, `plot_masked_pixels`; track_analysis.py: the statistics of `fit_tracks` | PlotTracks | the numbers that are shown, not the drawing; real or rational numbers; the flags of a candidate are given |
| hit_analysis.py: `mask_pixels`, end-of-cluster function, shape histogram | MaskPixels, ClusterShape, ShapeHist | the external package pixel_clusterizer |
| converter/pymosa_converter.py, converter/pybar_fei4_converter.py: `format_hit_table` | Converters | the interpreters of the raw data (external packages); progress bars |
| tools/simulate_data.py: class `SimulateData`, charge sharing, shuffling | ChargeSharing, Simulate (Props/SimData) | the random generator (numbers are arbitrary), the distribution of the charge, floating point, progress bar |
| track_analysis.py: straight line fit of `fit_tracks`, `_fit_tracks_loop`, `line_fit_3d`, tracks and chi2 in `store_track_data` | LineTracks | the singular value decomposition (parameter), the correction of residuals (arbitrary number), floating point |
| track_analysis.py: arguments of `fit_tracks` | FitArgs | other Python types; when an unknown DUT is found |
| dut_alignment.py L1725-1800: the columns of the track table used by `calculate_transformation` | AlignChain | real numbers; connects the models of find_tracks, fit_tracks and calculate_transformation |
| tools/analysis_utils.py: `gauss`, `gauss_box`, `gauss_box_erf`, `fit_residuals_gauss`, `fit_residuals_gauss_box_erf` | GaussFit | real numbers; `curve_fit` is a parameter, `quad` and `erf` are exact |
| dut_alignment.py: `find_line_model`, `find_intercept_point`, `find_ransac` | Ransac | real numbers; the random permutations are an argument |
| result_analysis.py L84-91, L2166-2176: columns of the track table read by `calculate_residuals` and `calculate_purity` | ChainResiduals | connects the models of fit_tracks and of the result analysis |
| hit_analysis.py L1396-1466, dut_alignment.py L253-272: the correlation file | PrealignChain | connects the models of correlate and prealign |
| tools/plot_utils.py: `plot_residual_correlation`; tools/analysis_utils.py: `binned_statistic`; result_analysis.py: `calculate_residual_correlation` | ResCorr | real numbers; the minimisation is an arbitrary function; of `calculate_residual_correlation` only what is executed before the exception, the rest of the body is never reached |
| dut_alignment.py: the fit of a track in `_alignment_loop` (L1485-1534, L1548-1555) | KalmanAlignFit | an infinite reduced chi-square is like an exception (the track is not used in both cases); no scattering planes (C68) |
| result_analysis.py: `histogram_track_angle` (L2308-2538); plot_utils.py: `plot_track_angle` (L2517-2574) | AngleFile | real numbers; Gaussian fit and argsort are arbitrary functions; after an exception only nodes of completed DUTs |
| plot_utils.py: `plot_correlations` (L537-594) | CorrelationPlot | nodes in any order; title, names, image and extent of each page |
| dut_alignment.py: `_store_alignment_data` (L1398-1454), the chi2, p-value and delta columns of `_alignment_loop`; plot_utils.py: `plot_kf_alignment` (L2685-2832) | KalmanAlignOut | the p-value is an arbitrary function of the fit; of the plots only the numbers and the exceptions; in align_kalman an exception of the plots ends the run, Model/AlignKalman leaves this call out |
| track_analysis.py: `fit_tracks` with method kalman between the candidates and the track table (L923-976, L1102-1109) | ChainKalman | one candidate at a time; errors of the hits are an arbitrary function; no scattering planes (C68); chi-square probability left out |
| result_analysis.py L84-91, L2166-2176: columns of the track table of the Kalman fit read by `calculate_residuals` and `calculate_purity` | ChainKalmanRes | connects the models of fit_tracks with method kalman and of the result analysis |
| plot_utils.py: `plot_hough` (L597-627); analysis_utils.py: edges of `hough_transform` (L960-967) | HoughPlot | image, extent, line and markers of the pages |
| plot_utils.py: `plot_checks` (L630-666) | CheckPlot | nodes in any order; curve or image of each page |
| plot_utils.py: `plot_residuals`, `plot_residuals_vs_position` (L958-1030) | ResidualPlot | bars, cells, points and curves of the pages; without titles and legends |
| test_tools.py: `compare_yaml_files` (L310-325) | YamlFile | documents as loaded; the parser is not modelled |
| plot_utils.py: `plot_2d_map`, `plot_2d_pixel_hist` (L64-139), as called by `plot_track_density`, `plot_charge_distribution`, `calculate_residuals` | MapPlot | coloured rectangles and limits of the colour scale; without projections and the colour bar |
| test_tools.py: `get_array_differences` (L131-198) | ArrayDiff | facts of the report instead of text; arrays with at least one dimension |
| tools/data_selection.py | DataSelection, SelectArgs | the random number generator is an oracle |

Not modelled at all: the other functions of plot_utils, the other fit functions, the examples, logging.

## Properties

| id | title | status | what is modelled, how it is proved |
|----|-------|--------|------------------------------------|
| C01 | Chunked reading loses and duplicates nothing | proved | `data_aligned_at_events` (seek loop, data loop) as recursive functions on a list of rows; induction over the remaining rows, invariant "delivered ++ rest = table" |
| C02 | Chunks never split an event and respect chunk_size | proved | same model; loop invariant, every later row has a larger event number |
| C03 | Event range selection while chunking | proved | same model; refinement of seek + data loop to `filter`, exceptions characterised |
| C04 | Returned index lets the caller resume | proved | same model; induction over the yielded list |
| C05 | Event too large for the chunk size is reported, never silently dropped | proved | same model; contrapositive with the delivered rows |
| C06 | fail_on_missing_events reports a missing bound | partial | same model; counterexamples, and the part that holds |
| C07 | merge_on_event_number is the event join | proved | two-pointer scan of `merge_on_event_number`; refinement to the event join |
| C08 | Correlation histograms count all same-event pairs | proved | the same scan with in-place histograms; refinement to the count of pairs |
| C09 | Event-range correlation counts predecessors only | proved | scan with event range; refinement to the count of ordered pairs; event -1 refuted |
| C10 | in1d_events is a membership test | proved | C++ `in1d_sorted`; loop invariant on the scan index |
| C11 | get_events_in_both_arrays is the sorted intersection | proved | C++ `getEventsInBothArrays`; loop invariant; witness for event -1 |
| C12 | get_max_events_in_both_arrays keeps the larger multiplicity | proved | C++ `getMaxEventsInBothArrays` as state machine; invariant, multiset count |
| C13 | map_cluster places clusters on their own event | proved | `map_cluster`; loop invariant |
| C14 | Merged file contains every cluster exactly once | partial | `merge_cluster_data` over all DUTs and chunks; C12, C13 and induction on DUTs; lost events refuted in general |
| C15 | Index histograms count, and reject indices outside the shape | proved | C++ histograms with flat index and fixed width counters; induction over entries, injectivity of the index |
| C16 | get_data_in_event_range returns the half-open event range | partial | `get_data_in_event_range` with argmin/argmax; case analysis; witnesses |
| C17 | Morton code is invertible | partial | Morton code on bits; bitwise extensionality (no `bv_decide`); witness |
| C18 | Cluster shape number and array are inverse to each other | proved | cluster shape numbers; from C17 |
| C19 | number_of_set_bits is the population count | proved | population count with 32-bit wrap-around; bit lemmas |
| C20 | Track finding only re-assigns hits inside an event | proved | `_find_tracks_loop` with arbitrary float operations; permutation invariant |
| C21 | Track finding terminates | proved | `_find_tracks_loop`, recursion as partial fixpoint; termination measure |
| C22 | All columns of a hit move together | partial | column selection by sub-string in `_find_tracks`; proof up to 10 DUTs, witness for 11 |
| C23 | Hit flag has exactly the bits of the DUTs with a hit | proved | flag arithmetic; bit lemmas |
| C24 | Track selection for fitting | proved | `_fit_tracks` selection and storing, chunked; bit lemmas and induction over chunks |
| C25 | Every selected DUT is fitted exactly once with its own settings | proved | grouping of DUTs in `fit_tracks`; list induction |
| C26 | Isolation search flags exactly the close pairs | proved | `_find_small_distance`; loop invariant |
| C27 | Multi-core processing gives the serial result | proved | the threads of SMC as labelled transition system; inductive invariants on reachable states |
| C28 | Multi-core processing always ends | partial | same system; measure under fairness; infinite runs as witnesses |
| C29 | Queues between the SMC threads stay bounded | proved | same system; inductive invariant |
| C30 | Local and global coordinates are inverse to each other | proved | matrices over ℝ; matrix algebra |
| C31 | Rotation matrices are proper rotations | proved | matrices over ℝ; trigonometric identities |
| C32 | Euler angles reproduce the rotation | partial | `euler_angles` with atan2; case analysis |
| C33 | Line-plane intersection | proved | line-plane intersection over ℝ; field arithmetic |
| C34 | Pixel index and local position are inverse to each other | proved | pixel geometry over an ordered field; floor lemmas |
| C35 | Folding into the primitive cell | partial | folding into the primitive cell; floor lemmas; witness |
| C36 | Telescope configuration survives saving and loading | proved | telescope as dictionary, YAML as a tree; induction over dictionaries |
| C37 | DUTs are enumerated in the order of their ids | proved | same model; insertion sort lemmas |
| C38 | Combined files keep all rows and never mix events | partial | `combine_files` with chunks; induction over files; witnesses |
| C39 | Event reduction keeps whole events and never exceeds the maximum | proved | `reduce_events` with an oracle for the random choice; induction |
| C40 | Track selection criteria | partial | `select_tracks` mask computation; bit lemmas; witnesses |
| C41 | Kalman extrapolation keeps the straight line | proved | Kalman extrapolation over ℝ; linear algebra |
| C42 | Kalman Jacobian is the derivative of the extrapolation | proved | Jacobian; `HasFDerivAt` |
| C43 | Kalman covariance stays symmetric and positive semi-definite | proved | Kalman steps as matrices; positive semi-definite matrices |
| C44 | Chunk-wise averages equal the overall average | partial | `calculate_residuals` over chunks; induction over chunks |
| C45 | Efficiency is a ratio of matching counts | partial | `calculate_efficiency` over chunks and DUTs incl. variables that survive a DUT; induction |
| C46 | Noisy pixel search | proved | `mask_pixels` loop with median filter; monotone mask, termination measure |
| C47 | Cluster summary describes the cluster | proved | end-of-cluster function; induction over hits |
| C48 | hist_quantiles never cuts more than requested | partial | `hist_quantiles`; order lemmas |
| C49 | find_closest returns a nearest element | proved | `find_closest`; order lemmas |
| C50 | in1d_index returns matching positions | proved | `in1d_index`; order lemmas |
| C51 | Polygon area is independent of start point, orientation and translation | proved | polygon area; sum manipulation |
| C52 | Unique neighbour counting | proved | `count_unique_neighbors`; list induction |
| C53 | Purity is the fraction of matched hits in percent | partial | `calculate_purity` over chunks; induction; witnesses |
| C54 | Alignment chunks cover all tracks evenly | partial | `calculate_transformation`, chunks and average; arithmetic of division, induction |
| C55 | Index based speed-up does not change the selection | partial | speed-up path of `data_aligned_at_events`; witness |
| C56 | stop_index delivers all complete events before it | proved | `stop_index`; loop invariant |
| C57 | Quality and isolation flags of stored tracks | proved | quality and isolation flags; bit lemmas |
| C58 | Fitted tracks do not depend on the chunk size | proved | `fit_tracks`; refinement to a chunk-free function |
| C59 | max_events of fit_tracks | proved | `fit_tracks` with an oracle for the random choice |
| C60 | keep_data of fit_tracks keeps all candidates | partial | `keep_data`; NameError for all tables |
| C61 | A failed multi-core call is reported and leaves no result | partial | SMC error paths; invariants of the transition system |
| C62 | Histograms of different shapes are added element-wise | partial | `combine` of histograms; witness |
| C63 | Spherical coordinates | partial | spherical coordinates over ℝ; trigonometric identities |
| C64 | Vector product | proved | skew matrix, cross product |
| C65 | Scattering changes the slopes by the projected angles | proved | scattering matrices; derivative, covariance |
| C66 | The fitted state combines all measurements once | partial | smoothed state; information form |
| C67 | Hits on a straight line are fitted by this line | partial | exact hits; invariant of filter and smoother |
| C68 | Scattering planes can be used | partial | scattering planes; length argument |
| C69 | Hits of DUTs that are not fit DUTs do not influence the track | proved | non-fit DUTs; congruence of the filter |
| C70 | Result of the Kalman track fit | proved | result of the fit |
| C71 | Loading replaces what the file names and keeps the rest | proved | load; induction over dictionaries |
| C72 | A DUT made from a DUT keeps the common attributes | proved | `from_dut` |
| C73 | Attributes of DUTs stay consistent | proved | setters; invariant |
| C74 | Cluster shape histogram counts clusters | partial | shape histogram; bin lemmas |
| C75 | In-pixel cluster shape counts | partial | in-pixel shape counts; relabelling loop |
| C76 | Fixed alignment parameters are not changed | proved | `calculate_transformation`, selection of parameters and DUTs; invariant of the iteration |
| C77 | An aligned DUT is not moved | proved | same model; zero right-hand side is a fixed point |
| C78 | A shifted DUT is put to its true position | proved | same model; exact solution of the linear system, contraction with factor 0.1 or 0.7 |
| C79 | A file is converted to global coordinates | partial | `apply_alignment` with its inner `convert_data`; a chunk is a row-wise map, a column is the composition of its assignments |
| C80 | There and back restores the file | partial | same model; the assignments of the way back are inverse, for any number of tables and rows |
| C81 | Residuals do not depend on the coordinate system | proved | corollary of C79 with the isometry of the conversion |
| C82 | Errors of hits are propagated to global coordinates | partial | corollary of C79; witness for the negation |
| C83 | check_file accepts exactly the well-formed hit tables | partial | `check_file` with the chunk reader of C01; the checks and indices act row by row, induction over the chunks; negations by theorems on classes of tables |
| C84 | check_file stores the event numbers and their distances | partial | same model; invariant of the fold over the chunks |
| C85 | check_file correlates consecutive events | partial | same model with C09 for each chunk; pair counts are superadditive |
| C86 | Correlation histograms count pairs of hits of an event | proved | `correlate` with the chunk reader of C01 and the event loop of C08; invariant of the two loops over the chunks (counts of all pairs read so far, start index) |
| C87 | Correlation histograms cover the sensors | partial | same model; extent of a rotated rectangle; existence of a result by the same induction |
| C88 | Reduced background of correlation histograms | proved | same model; algebra of singular vectors of a product |
| C89 | correlate uses exactly the selected DUTs | partial | same model; induction over the reference DUTs; negations as theorems on classes of arguments |
| C90 | Hit files in local coordinates | proved | `convert_coordinates` with the chunk reader of C01; a chunk is a row-wise map, induction over the chunks |
| C91 | Local coordinates back to pixels | partial | same model, assignment of floats to uint16 as truncation; floor arithmetic per row; negation as a theorem on all positions in the lower half of a pixel |
| C92 | convert uses the selected DUT for each file | partial | `convert` with the files as a map from names to tables; induction over the DUTs with the invariant of files not yet written; negations as theorems on classes of arguments |
| C93 | Parameters excluded from the Kalman alignment do not change | partial | `_alignment_loop` with the fit as an arbitrary function; invariant over all tracks (rows of the covariance stay zero); concrete run for the negation |
| C94 | Errors of the Kalman alignment never increase | proved | same model; Joseph form of the update for the invariant, the decrease is positive semidefinite |
| C95 | Annealing of the Kalman alignment | proved | same model; invariant of the number of accepted tracks, monotonicity of powers |
| C96 | The Kalman alignment runs through tracks with missing hits | partial | same model; progress by induction over tracks and chunks; negation as a theorem on all files with such a track |
| C97 | The result of the Kalman alignment contains all tracks | partial | same model; the run as a trace of states, which is a function of the tracks before |
| C98 | The Kalman alignment changes slowly | proved | same model; per step from the cut on the change, induction over the tracks with C94 |
| C99 | alignment_parameters belong to select_duts | partial | `_calculate_initial_alignment`; negations as a theorem on all selections with a large number, and a witness |
| C100 | max_tracks of the Kalman alignment | partial | same model as C93; number of accepted tracks is at most the number of lines |
| C101 | track_chi2 of the Kalman alignment | partial | same model as C93; a rejected track leaves the state |
| C102 | Hough transformation counts every pixel once per angle | proved | `hough_transform` with real numbers; invariant of the loop over the pixels, nearest grid point of the first minimum |
| C103 | The correlation line has the largest support | proved | same model with the search over the sorted accumulator of `prealign`; the first acceptable cell is the largest acceptable one |
| C104 | A missing correlation is reported | partial | same model; the line at 45 degrees is always acceptable; concrete class of histograms without correlation |
| C105 | prealign finds the position of a correlated DUT | partial | same model; the chosen line has at least the support of the best line at 45 degrees, which for deviations up to half a bin is half of the bins; bins on both sides of the centre bound the offset |
| C106 | Limits of the aligned region | partial | `prealign` for all DUTs; minimum and maximum over the pixels; comparison of two runs with different old limits |
| C107 | Orientation after the pre-alignment | proved | same model with the angles of C32 |
| C108 | prealign changes only the selected DUTs | proved | same model; invariant of the loop over the DUTs |
| C109 | Pixel positions of the diamond sensors | proved | the in-place updates of both classes as lists of rules applied hit by hit; at most one rule applies, then integer arithmetic in units of 0.001 um for all pairs of rules |
| C110 | Diamond sensors: the index comes back from the position | partial | same model with the inherited `local_position_to_index` of C34 |
| C111 | align_telescope moves the telescope onto the z axis | proved | `align_telescope` and `line_fit_3d` over the reals with the decomposition as a parameter; for points on a line the singular vector is parallel to the line (Lagrange identity), the intersections are unique (C33); induction over the DUTs |
| C112 | align_telescope with a single telescope DUT | partial | same model; every unit vector is a singular vector of the zero matrix |
| C113 | Track angles | partial | `get_angles`, the slopes stored by `fit_tracks` and the way back in `histogram_track_angle` over the reals; properties of arctan2 and arccos |
| C114 | Rotation of the hits into the beam in find_tracks | partial | same model with the second transformation of the hits in `find_tracks`; explicit rotation matrix |
| C115 | Histograms of the track angles contain the tracks | partial | loop over the chunks as a fold over one histogram; Chebyshev inequality for lists |
| C116 | Mean and standard deviation from a histogram | proved | sums over the repeated positions are sums over the values with the centre of their bin; triangle inequality for standard deviations (Cauchy-Schwarz for lists) |
| C117 | simple_peak_detect finds the peak | partial | first and last change of the list of comparisons by induction over the list |
| C118 | align uses the settings of each group | proved | argument handling of `align` as functions on nested lists, with exceptions as values; equivalence with the documented settings; induction over groups and iterations on the list of calls |
| C119 | The documented defaults of align work | partial | same model; failing branches, and the equivalence of C118 for the true part |
| C120 | align changes only the selected DUTs | partial | `align` with `_duts_alignment` for all groups, `align_telescope` (C111) and `calculate_transformation` (C76) inside; invariants of the loops over iterations and groups; concrete run as counterexample |
| C121 | align changes only the selected parameters | partial | same model with C76, C77 and C112 |
| C122 | Configuration files of align | proved | same model; files as a function from names to configurations; a shorter or longer name is a different one |
| C123 | Tracks used for the alignment | proved | same model for the calls, `select_tracks` of C40 for the tracks |
| C124 | Default cluster shapes of the alignment | proved | cluster shapes of C47; the sixteen shapes inside of the square; connected components by induction over paths |
| C125 | Temporary files and number of events of align | proved | same model with the set of existing files; invariants of the loops |
| C126 | check, mask and cluster use the selected DUT for each file | partial | argument handling and loop over the DUTs of `check`, `mask`, `cluster`; the recorded calls are compared with the arguments; induction over the loop |
| C127 | Coordinates and masks used for clustering | proved | `cluster_hits` with an arbitrary clusterizer; the hits of all chunks by induction with C01, C02; conversion to positions as in C90 |
| C128 | Clustering does not depend on the chunk size | proved | same model; the tables are those of a single call of the clusterizer |
| C129 | Every valid hit file is clustered | partial | same model; equivalence of success with the conditions, failing branches |
| C130 | Cluster size histogram and cluster errors | proved | same model; histograms of chunks added as in C62 |
| C131 | Seed of a cluster in local coordinates | partial | same model; the stored value is a natural number below 65536 |
| C132 | Formatting Mimosa26 data: one file for each plane | proved | both `format_hit_table` with files as a function from names to tables, `os.path.splitext` as a function on characters; induction over the chunks |
| C133 | Converters accept exactly ordered event numbers | partial | same model with 64 bit differences; a chunk together with the last event number before is checked like the whole table |
| C134 | Formatting FE-I4 data keeps all hits | proved | same model |
| C135 | Simulated event numbers are below n_events | partial | whole class `SimulateData` over the real numbers, random numbers as arbitrary functions; induction over the chunks; a concrete setup with one hit in each event for the negation |
| C136 | Simulated hit tables are ordered and inside of the sensor | proved | same model; each step of the digitization gives a sublist or a list with the same events; induction over the chunks |
| C137 | Changing the number of simulated DUTs | partial | same model; fewer planes than tables |
| C138 | Shuffled hits stay in their event | proved | the loops of `shuffle_event_hits` with explicit indices; induction over the events with a permutation in each block |
| C139 | Charge sharing does not create charge | proved | the loops of `_create_cs_hits`; visited pixels are a sublist of a grid without repetition; the fractions of the normal distribution are differences of the error function, and their sum telescopes |
| C140 | Tracks make hits in the pixel they pass | partial | same model; rounding to even as defined by numpy |
| C141 | Beam parameters of simulated tracks | partial | same model; invariant of the loop that draws theta again |
| C142 | Simulated hits lie on the DUT planes and tracks | proved | same model with the geometry of C30-C33; induction over the planes |
| C143 | Efficiency and threshold of a simulated DUT | proved | same model; counting positions that are not chosen |
| C144 | The fitted straight line is the best line through the hits of the fit DUTs | proved | model of the fit for a chunk of candidates over the real numbers; the sum of squared distances to a line is split into a part for the centre and a part for the direction, the latter is largest for the first singular vector |
| C145 | chi2 of straight line tracks | partial | same model; sums over the fit DUTs |
| C146 | The stored tracks of all DUTs are one straight line | proved | same model with the geometry of C30-C33; the local line is transformed back |
| C147 | Number of CPU cores does not change the fitted tracks | proved | `np.array_split` as a function on lists; induction over the slices |
| C148 | Each selected DUT of fit_tracks gets its own settings | proved | values of Python as an inductive type, the tests of the code one after the other; a relation describes the documented forms; composed with the model of C25 |
| C149 | fit_tracks does not change the lists given by the caller | partial | same model; the list after the call is a function of the list before |
| C150 | align_kalman aligns the groups in order, each with its own settings | proved | model of the whole driver with files; the settings are equivalent to a specification of the documented forms; induction over the groups |
| C151 | align_kalman can be called with the documented defaults | partial | same model; failing branches; for explicit arguments the calls are evaluated symbolically |
| C152 | alignment_parameters of align_kalman belong to the DUTs of a group | partial | same model; numbers of DUTs as indices of the list of parameters, pigeonhole |
| C153 | min_track_hits has no influence on align_kalman | proved | same model; the test for the number of hits is the only use of the value; the hit mask contains the fit DUTs |
| C154 | align_kalman changes only what it is asked to change | proved | same model; invariants of the loops; C96-C99 for a single group |
| C155 | The arguments of a call are recorded in its output files | proved | decorator over an arbitrary function on files and memory; induction over the output files |
| C156 | The recorded arguments are those the caller has given | partial | same model; for fit_tracks with the effect on its arguments of C149 |
| C157 | save_configuration_dict stores the date of creation | partial | same model; cases of the date |
| C158 | In-pixel maps of calculate_efficiency count each track of the region once | partial | built on the model of C45 with the fold of C35; induction over the chunks with an invariant of the maps; counting |
| C159 | In-pixel map of hits shows the hits within the cut | partial | same model; exact sum over the chunks, which equals the count if all hits are close |
| C160 | extend_in_pixel_areas continues the in-pixel maps periodically | partial | same model; wrapping of indices |
| C161 | calculate_efficiency uses for each DUT its own pair with documented defaults | partial | the lists of the caller as a heap; induction over the DUTs |
| C162 | calculate_efficiency refuses malformed arguments before it replaces the output file | proved | same model; each check is equivalent to a part of the specification |
| C163 | Efficiency of a pixel is that of the tracks through this pixel | proved | points and image points as lists; reflection makes a point farther for positions inside and closer for positions outside; composed with C45 |
| C164 | 2D histograms of calculate_efficiency cover the sensor with bins of the given resolution | proved | the edges as a function of the index; monotone |
| C165 | disabled_pixel_masks removes exactly the tracks through disabled pixels | proved | same model as C163; arithmetic of the indices |
| C166 | Number of hits with charge sharing | proved | induction over the loops of the charge sharing: the number of hits is at most the room, and with more room the result is the same |
| C167 | Residual histograms are centred on the peak and have whole pixels and bins | proved | Model.ResidualFit: search histogram, peak detection (splines a parameter, simple detection from Model.HistStat), width, edges. Proof: the width is an even number of pixels (ceil and parity of integers), edges of linspace, bin of a value. |
| C168 | Bins used for the fit of residuals against position | partial | Model.ResidualFit: selection of the bins, percentile with linear interpolation, NaN. Proof: first and last index in an increasing list; sorted list for the percentile. Negations proved in general. |
| C169 | Pixel hits around a track with input_cluster_files | partial | Model.RegionHist: in1d_index (Model.ArrayTools), np.repeat, broadcasting, relative index. Proof: C50 for the pairs of hits and tracks; counting over positions; the lengths of the arrays differ (sum of squares) if a cluster has two hits. |
| C170 | Charge, frame and cluster size histograms do not depend on the chunks | proved | Model.RegionHist: bincount, resize, addition, loop over chunks. Proof: addition of two histograms is the histogram of both lists; induction over the chunks. |
| C171 | Track angle histograms in efficiency regions | proved | Model.RegionHist on top of Model.HistStat (angleHist). Proof: case analysis and C115. |
| C172 | Binned groups | partial | Model.GridTools (digitize by truncation, csr_matrix with range check). Proof: scaled position against bin edges, floor and ceiling. |
| C173 | Unique neighbours of an array element | proved | Model.GridTools (reflected padding, selected offsets, uniqueColumn of Model.ArrayTools). Proof: a reflected index stays within the distance; equality of sets of values; C52. |
| C174 | Each DUT of select_tracks gets its own criteria | proved | Model.SelectArgs (argument forms, masks, loop over DUTs) on top of Model.DataSelection. Spec.SelectArgs gives the meaning of the arguments. Proof: case analysis of the forms, induction over the DUTs, C40. |
| C175 | select_tracks refuses wrong arguments before it replaces the output file | partial | Model.SelectArgs with the output file as optional value. Proof: case analysis, induction over the DUTs for selected twice. |
| C176 | Track candidates do not depend on the chunk size | proved | Model.FindFile: loop over chunks on top of Model.FindTracks. Proof: simulation of the track finding in a window of the table (Lemmas.FindLocal), by induction over the recursion; induction over the chunks; C20, C22, C23. |
| C177 | max_events of find_tracks is a selection of complete events | proved | Model.FindFile and Model.DataSelection. Proof: the loop over chunks makes the same selection as reduce_events; track finding commutes with the selection of events (induction over the events); C39. |
| C178 | Separated tracks are found | proved | Model.FindTracks, Model.FindFile; Spec.TrackTruth says what separated tracks are. Proof: a row never loses its own hit and gets it when it is treated (loop over the hits, induction over the recursion of the swap correction), induction over rows and DUTs; triangle inequality and line-plane intersection for the geometric forms. |
| C179 | Columns of the merged cluster table belong to the DUT of the cluster | proved | Model.MergedColumns: rows as functions of column names (strings with decimal DUT number). Proof: column names of different DUTs and columns differ (digits are injective), hit flag by C23. |
| C180 | No cluster is lost, invented or split between the cluster files and the track candidates | proved | Model.MergeClusters, Model.MergedColumns and Model.FindFile composed. Proof: C14 for the merged table, C22 and C176 for the permutation of the hits within an event, C179 for the columns. |
| C181 | compare_h5_files passes exactly for files with the same content | partial | Model.CompareFiles: nodes as rows of values, slices, loop over slices and nodes. Spec.CompareFiles: proper nodes; the same content is equality of nodes. Proof: induction over the loop; rows by position from the slices. |
| C182 | compare_h5_files with a tolerance compares every value | partial | As C181, with a relation between values; Spec.Agree is the tolerance of numpy. |
| C183 | Fixture functions are called with all combinations of list arguments | proved | Model.Fixture. The specification is nested loops. Proof: induction over the keywords, with the shift of positions. |
| C184 | check_with_fixture accepts exactly the stored results | partial | Model.Fixture with broadcasting. Proof: induction over the calls, C183. |
| C185 | Straight tracks become track candidates with exactly their hits | proved | Model.Chain connects Model.MergeClusters, Model.MergedColumns and Model.FindFile; Spec.Chain says what an event with straight tracks is, by lines, sensor planes and clusters. Proof: C14 for the rows of the event, C179 for columns, line-plane intersection and triangle inequality (C178), rotation matrices (C33). |
| C186 | Clusters on straight tracks give back the tracks | proved | Model.Chain with Model.LineTracks. Proof: C185, then the line fit: C144, C145, C146. |
| C187 | With align_to_beam a track is expected where it crosses the next sensor | partial | Model.Chain with the transformation into beam coordinates. Proof: line-plane intersection with the moved line and the unmoved plane; the counterexample is followed through merging and track finding with the theorem on separated hits (C178), with exchanged owners. |
| C188 | The measured efficiency is the true efficiency | proved | Model.ChainFit connects Model.Chain, Model.FitTracks, Model.LineTracks and Model.Efficiency; Spec.ChainEff counts true tracks (cardinality of sets of pairs of event and track number). Proof: C186 and C185 (hit flag), C24 and C57 for the stored rows, C45 for the histograms; a numbering of the rows of each event is a bijection between candidates and true tracks. |
| C189 | calculate_efficiency returns exactly with enough data | proved | Model.Efficiency. Proof: each step of the loop over the chunks returns iff a condition on the counts holds; induction over the chunks; sums of histograms as numbers of tracks. |
| C190 | Tracks measured with limited resolution become candidates with exactly their hits | proved | Model.Chain; Spec.ChainBlurred says what an event with measurement errors is. Proof: the hits are separated in the sense of C178; the extrapolation from two measured points has an error of at most (1 + 2 lev) err, triangle inequality. |
| C191 | Accuracy of the straight line fit | proved | Model.LineTracks; Spec.LineFitError. Proof: the first singular vector is at least as close to the centred hits as the true direction; Cauchy-Schwarz, triangle inequality in the space of all hits, and the error of the centre (Lemmas.LineFitError). |
| C192 | The measured efficiency is the true efficiency also with limited resolution | proved | Model.ChainFit; Spec.ChainAccuracy. Proof: C190 for the candidates, C191 for tracks and residuals, then the same counting as C188 (efficiency_core) for regions that are decided by positions known up to acc. |
| C193 | The interval of the efficiency is the shortest one with the requested probability | proved | Model.EfficiencyInterval: the bounded problem with constraint given to the minimiser. Spec.EfficiencyInterval: probability by Bayes, and what a solution is. Proof: the density increases up to k / N and decreases above, so that any interval can be moved to k / N and shortened (intermediate value theorem); uniqueness from the halves of the shift; existence by compactness. |
| C194 | The analysis of simulated data measures the simulated efficiency | proved | Model.Simulate, Digitize, ChainFit; Spec.SimChain says which simulations are meant. Proof: keys (event, column, row) of the simulated hits in each chunk; shuffling is a permutation within the events; a pixel centre is within half a diagonal of the hit; then C190-C192 for the true tracks, and counting of the removed hits in each chunk. |
| C195 | The cluster plots show every cluster of the DUT once | partial | Model.Plots with Model.ChunkReader; Spec.Plots says which numbers must be visible. Proof: C01/C02 (chunks are the table), bincount and resize as counting functions, induction over chunks and DUTs. |
| C196 | The chi2 plots count every track once | partial | Model.Plots. Proof: equal width bins (linspace_bin), histograms of chunks add up to the histogram of the table; witness for the full range. |
| C197 | The maps of tracks, hits and charge show every pixel with its own tracks | partial | Model.Plots. Proof: as C196 in two dimensions; sums over all pixels are the numbers on the sensor; mean charge from sums of charges and counts. |
| C198 | The plot of tracks per event counts every event once | partial | Model.Plots. Proof: np.unique twice: counting the multiplicities. |
| C199 | The event display shows the tracks of the chosen events | partial | Model.PlotTracks; Spec.PlotTracks. Proof: C03 for the range of events; chunks do not share events; C33 for the intersections. |
| C200 | The statistics of the track fit are shares of the tracks | partial | Model.PlotTracks. Proof: counting of candidates with flags. |
| C201 | The plots of masked pixels mark exactly the masked pixels | proved | Model.PlotTracks. Proof: membership in the list of indices, exchange of sums. |
| C202 | The cluster plots are made from the single given file | partial | Model.Plots (clusterInput). Proof: case distinction over all given arguments. |
| C203 | The alignment chain finds where a displaced DUT is | proved | Model.AlignChain (columns read by calculate_transformation), Spec.AlignChain. Proof: C190 for the candidates, the fit of the other DUTs is exact, then the theorem on calculate_transformation for hits on the tracks. |
| C204 | The box function for large pixels is a convolution of a box and a Gaussian function | proved | Model.GaussFit; Spec.GaussFit uses the normal distribution of Mathlib. Proof: substitution in the integral; Fubini for the area. |
| C205 | Fits to residual histograms | proved | Model.GaussFit. Proof: case distinction; a least squares solution of an exact histogram has no difference; logarithms of Gaussian functions are quadratic, equal at three positions. |
| C206 | The robust search for a line keeps the best try | proved | Model.Ransac; Spec.Ransac. Proof: nearest point by completing the square; invariant of the loop (best of the tries so far). |
| C207 | The track table shows each true track exactly once | proved | Spec.ChainResiduals (Shows, TableOf) with the models of the chain. Proof: C190 for the candidates, C57 for the rows, C191 for the accuracy; the rows and the numbered tracks are filtered together. |
| C208 | Residuals of the complete chain | proved | Model.ChainResiduals (columns read). Proof: counting of rows as counting of tracks; C44 for the histograms and means. |
| C209 | Purity of the complete chain | proved | Model.ChainResiduals. Proof: as C208, with C53 for the maps. |
| C210 | Pre-alignment in spite of uncorrelated bins | proved | Model.Prealign, Spec.PrealignChain. Proof: the line that is found by the Hough transform has at least the support of the true line, so it has correlated bins of both halves; two of them fix slope and offset. |
| C211 | From the hits to the pre-alignment | proved | Model.PrealignChain (the file between correlate and prealign). Proof: C86 and C87 for arrays and axes, C210 for the fit; bins are pixels for sensors that are not rotated. |
| C212 | Pre-alignment with the default reduction of the background | proved | Model.PrealignChain, Model.Correlate. Proof: spectral theorem for the existence of the leading term (Lemmas.Singular); in a histogram with one filled bin per row and column the components of the singular vectors belong to bins with the largest content, at most two squares of components are 1/2 or more. |
| C213 | Correlation of residuals that is plotted | partial | Model.ResCorr (loop over chunks, corrcoef, checks of curve_fit); Spec.ResCorr. Proof: induction over the chunks; Cauchy-Schwarz for the bounds. |
| C214 | Values of the bins in binned_statistic | partial | Model.ResCorr (binnedStatistic). Proof: floor and ceiling of the scaled position. |
| C215 | The residual correlation can be calculated | partial | Model.ResCorr (calculate: the statements that are executed). Proof: case distinction. |
| C216 | Kalman fit of exact hits | proved | Props/KalmanExact on Model/Kalman and `lineFit` of Model/AlignTelescope: the line through the hits is found exactly (singular vector of collinear points), the seed state describes it, extrapolation keeps the line (C41), so all reference states are on the line; then all residuals are 0 and the filters never leave the reference states (invariant of the loops). Hits of other DUTs are removed with the argument of C69. |
| C217 | Efficiency measured with the Kalman filter | proved | Model/ChainKalman (the hits and settings given to the Kalman filter, the columns of the track table) between Model/Chain (find_tracks), Model/FitTracks (selection and flags) and Model/Efficiency. Proof: C185 gives the candidate of each true track, C216 its fit, C57 the rows of the table; the counting argument of C188 is shared (`efficiency_core`). |
| C218 | Kalman alignment keeps an aligned telescope | proved | Model/KalmanAlignFit makes the fit of Model/KalmanAlign and Model/AlignKalman (there an arbitrary function) from the Kalman filter of Model/Kalman: planes with the current alignment, local hits, annealing factors, reduced chi-square. Proof: C216 (now with positive definite covariance matrices) gives H p0 = hit at every DUT and a regular innovation; induction over the tracks of a chunk and over the chunks with the invariant "no change of the parameters, positive semi-definite covariances, i tracks used"; C32 turns the unchanged rotation matrix into the same angles; then induction over the passes and groups of align_kalman. |
| C219 | Kalman alignment corrects a shifted DUT | partial | Same model as C218. Proof: the residual of an exact hit in a shifted plane is exactly the Jacobian applied to the shift (no linearisation error for translations), so the shift left is always the current covariance applied to a fixed vector (invariant `Following` of the loop, for used and rejected tracks); the bound is the inequality of Cauchy and Schwarz for the covariance. C219_close_partial: within 5 percent of the initial errors no step exceeds the maximum change, so that every track is used. C219_far_fails (negation): the first change grows with the distance, the maximum change does not, the covariance only shrinks with a used track; hence from some distance on no track is ever used for this DUT and the configuration is returned unchanged, without any error. |
| C220 | Plot of the effective pixels | partial | Model/EffectivePixels (picture: pixel of each bin, colours, markers). Proof: invariant of the loop over the pixels; the search for a colour tries all colours before it accepts a used one. |
| C221 | Measured and calculated pixel sizes | partial | Model/EffectivePixels (most hit pixel of a bin, sizes). Proof: induction over bins and vertices; repeated vertices add cross products of a vector with itself. |
| C222 | Output file of the Kalman alignment | partial | Model/KalmanAlignOut adds the stored rows to the loop of Model/KalmanAlign. Proof: erasing the rows gives the old loop (refinement); induction over the tracks with the invariant "state known, covariance positive semi-definite, no error means no change". |
| C223 | Plots of the Kalman alignment | partial | Model/KalmanAlignOut (plotKf). Proof: the plots succeed iff every table has a line with a known change for every parameter (plotKf_ok); then the rows of C222. |
| C224 | File with the histograms of track angles | partial | Model/AngleFile (loop over the DUTs, variables that keep their values, nodes of the output file) with angleHist of C115 and the chunks of C01. Proof: induction over the loop (inductive relation `Run` of the variables after each DUT), names of nodes are unique; order from a sorting function of the z positions. |
| C225 | Plots of the track angles | proved | Model/AngleFile (plotTrackAngle). Proof: induction over names and selection; scaling of the Gaussian. |
| C226 | Plots of the correlation | partial | Model/CorrelationPlot (numbers in the names of the nodes, page of a node, loop over the nodes) with the output of Model/Correlate. Proof: the two numbers are read back from every name that correlate writes (decimal digits), axes from the extents, induction over the nodes in any order; C86 for the counts. |
| C227 | Residuals of exact tracks with the Kalman filter | proved | Model/ChainKalmanRes (columns of the track table of the Kalman fit read by calculate_residuals). Proof: rows and numbered true tracks are filtered together as in C207, with the exact fit of C216 as used in C217; then C44 for the histograms and means of residuals that are all zero. |
| C228 | Purity of exact tracks with the Kalman filter | proved | Model/ChainKalmanRes (columns read by calculate_purity). Proof: C227_stored for the table, all distances are zero; C53 for the maps. |
| C229 | Plots of the pre-alignment | partial | Model/HoughPlot (edges of the accumulator, both pages). Proof: the two grids are symmetric about zero, so flipping both axes shows the votes of the opposite angle and distance (C229_mirrored, general); witness for aligned planes with any number of bins (C229_accumulator_fails); second page from the fit of C103-C105. |
| C230 | Plots of the check of hit files | partial | Model/CheckPlot (arrays of the file, page of an array, loop over the nodes) on the output of Model/CheckFile. Proof: induction over the nodes in any order; C83-C85 for the arrays. Negation: the group with the arguments, which is added after the return, raises (C230_again_fails). |
| C231 | Report of the differences of two arrays | partial | Model/ArrayDiff (sum without NaN, reshape, comparison of values, columns of tables). Proof: invariant of the sum (a number or infinite as long as infinity has one sign), columns are found by their unique names, induction over the common columns. Negations: infinity of both signs (the sum is NaN), sums are compared exactly although a tolerance is given, texts raise with a tolerance. |
| C232 | Kalman fit returns the best track | proved | Model/Kalman; Spec/KalmanPath defines tracks with deflections at the planes and their cost, without the filter. Proof: one prediction is the minimum over the state before and the deflection (duality of quadratic forms, also for planes without material), one correction completes the square (C43); induction over the planes in both directions for all competing tracks, and construction of the track that attains the bound. |
| C233 | Chi-square of a hit in the Kalman fit | partial | Model/Kalman (smoothChi2); Spec/KalmanChi2 (estimate from the other planes, distance of the hit). Proof: at the ends the chi-square after the correction equals the one before (C43); in between the smoothed state is the correction by a hit with half of the covariance, whose chi-square is the quadratic form of a larger matrix (twice_lt). |
| C234 | The Kalman fit does not depend on the global coordinate system | proved | Model/Kalman. Spec/KalmanMoved defines the motion of a plane and of a line. Proof: extrapolation and Jacobian use two planes only through the product of their rotations and their distance in local coordinates; congruence of the loops (induction over the planes); the crossing of the moved line with the moved plane is the moved crossing, for both signs of the normal and of the direction. C234_shift: the line fit of `line_fit_3d` (centre and singular vector of the differences) moves with the points. |
| C235 | Plots of the residuals | partial | Model/ResidualPlot (pages as lists of bars, cells and points). Proof: centres and widths give back the edges (induction over the edges), upper end of the logarithmic axis from the maximum; cells of an extent that is divided evenly are the bins if these have the same width; membership in the zipped lists for the points. Negation: mean and standard deviation of an empty histogram are NaN, which is refused as axis limit (C235_empty_fails). |
| C236 | Comparison of YAML files | proved | Model/YamlFile (documents, loop over the items, comparison of dictionaries, lists and scalars). Spec/YamlFile defines paths and what is found there as inductive relations. Proof: mutual induction over values, lists and dictionaries; dictionaries with the same number of keys need one direction only (different keys, a sublist of the same length is a permutation); induction over the documents. |
| C237 | Maps of a DUT | partial | Model/MapPlot (masked arrays, `imshow` with `origin="lower"` and the extent of the code, limits of the colour scale). Proof: cells of the picture as intervals, a point lies in one bin only; the extent of the code starts with the upper end in y, so that row j is drawn at the place of row n-1-j (negation C237_mirrored_fails). Scale: maximum of the unmasked values. |

Status `partial`: the full statement stays in `properties.jsonl`. Either it is false of the code, then the model carries theorems that
refute it (a general theorem where possible, otherwise a concrete input) together with the part that does hold (name ending in
`_partial`); or a part is not proved, which is said in the comment of the theorem and in `MANIFEST.json`.
