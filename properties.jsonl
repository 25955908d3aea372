{"id": "C01", "title": "Chunked reading loses and duplicates nothing", "statement": "Iterating data_aligned_at_events over a table sorted by event_number with default bounds either raises ValueError (chunk size too small) or yields chunks whose concatenation is exactly the table, in order; it never raises if every event has fewer rows than chunk_size.", "quantifier": "every sorted table of any length, every multiplicity pattern of event numbers, every chunk_size > 0", "why_tests_cant": "The result depends on how event boundaries fall relative to chunk boundaries; tests sample a few tables and chunk sizes.", "anchors": ["beam_telescope_analysis/tools/analysis_utils.py:data_aligned_at_events"]}
{"id": "C02", "title": "Chunks never split an event and respect chunk_size", "statement": "Every chunk yielded by data_aligned_at_events is non-empty, has at most chunk_size rows, and every row that comes later in the table has a strictly larger event number than every row of the chunk.", "quantifier": "every sorted table, every chunk_size > 0, every chunk yielded, with and without event bounds", "why_tests_cant": "One unlucky alignment of an event with a chunk border is enough to break downstream event building.", "anchors": ["beam_telescope_analysis/tools/analysis_utils.py:data_aligned_at_events"]}
{"id": "C03", "title": "Event range selection while chunking", "statement": "With start_event_number = a and stop_event_number = b (either may be absent) and fail_on_missing_events=False, the concatenation of the chunks is exactly the rows with a <= event_number < b, in order, when every event has fewer rows than chunk_size.", "quantifier": "every sorted table, every pair of bounds (present in the data or not), every start index, every chunk_size", "why_tests_cant": "Seek phase and data phase interact with chunk borders; bounds may fall in gaps between events, before the first or after the last event.", "anchors": ["beam_telescope_analysis/tools/analysis_utils.py:data_aligned_at_events"]}
{"id": "C04", "title": "Returned index lets the caller resume", "statement": "The index yielded with each chunk is the table index of the first row not yet delivered; restarting the iteration with start_index set to the yielded index delivers exactly the remaining chunks.", "quantifier": "every sorted table, every chunk_size, every prefix of the iteration after which the caller stops", "why_tests_cant": "Requires all interruption points of the iteration.", "anchors": ["beam_telescope_analysis/tools/analysis_utils.py:data_aligned_at_events", "beam_telescope_analysis/hit_analysis.py:merge_cluster_data"]}
{"id": "C05", "title": "Event too large for the chunk size is reported, never silently dropped", "statement": "If an event that has to be delivered has more rows than chunk_size, data_aligned_at_events (default bounds) raises ValueError; a normal end of the iteration means that all rows were delivered.", "quantifier": "every sorted table with an oversized event at any position, every chunk_size", "why_tests_cant": "Silent truncation would only show for particular positions of the large event.", "anchors": ["beam_telescope_analysis/tools/analysis_utils.py:data_aligned_at_events"]}
{"id": "C06", "title": "fail_on_missing_events reports a missing bound", "statement": "With fail_on_missing_events=True an error is given when start_event_number or stop_event_number is not part of the data (documented behaviour).", "quantifier": "every sorted table and every pair of bounds", "why_tests_cant": "The check is only made for the first chunk read, so it depends on where the bound falls relative to the chunk size.", "anchors": ["beam_telescope_analysis/tools/analysis_utils.py:data_aligned_at_events"]}
{"id": "C07", "title": "merge_on_event_number is the event join", "statement": "merge_on_event_number(data_1, data_2) on arrays sorted by event number returns two arrays of equal length which together list exactly all pairs (row of data_1, row of data_2) with equal event number, ordered by position in data_1 and then in data_2.", "quantifier": "all pairs of sorted arrays, all multiplicities, empty arrays included", "why_tests_cant": "The two-pointer scan with a shared index has to be right for every interleaving of events and multiplicities.", "anchors": ["beam_telescope_analysis/tools/analysis_utils.py:merge_on_event_number"]}
{"id": "C08", "title": "Correlation histograms count all same-event pairs", "statement": "correlate_position_on_event_number increases bin (dut index, reference index) of the x (and y) histogram by exactly the number of pairs of hits of the same event with these indices, and changes nothing else.", "quantifier": "all pairs of sorted event arrays and all index arrays, all initial histogram contents", "why_tests_cant": "Counts depend on every pair of hits; only the sum over all pairs is observable.", "anchors": ["beam_telescope_analysis/tools/analysis_utils.py:correlate_position_on_event_number", "beam_telescope_analysis/hit_analysis.py:_correlate_position"]}
{"id": "C09", "title": "Event-range correlation counts predecessors only", "statement": "correlate_hits_on_event_range adds for every ordered pair of hits (earlier, later) with 0 < event distance <= event_range exactly one entry, and nothing for other pairs.", "quantifier": "all sorted event arrays with non-negative event numbers, all index arrays, all event ranges", "why_tests_cant": "Start index caching over equal events and binary search boundaries.", "anchors": ["beam_telescope_analysis/tools/analysis_utils.py:correlate_hits_on_event_range"]}
{"id": "C10", "title": "in1d_events is a membership test", "statement": "in1d_events(ar1, ar2) on sorted arrays with ar2 non-empty returns for each position of ar1 whether this value occurs in ar2.", "quantifier": "all pairs of sorted int64 arrays with ar2 non-empty", "why_tests_cant": "Shared scan index must never move past a needed element for any pattern of gaps.", "anchors": ["beam_telescope_analysis/tools/analysis_utils.py:in1d_events", "beam_telescope_analysis/cpp/AnalysisFunctions.h:in1d_sorted"]}
{"id": "C11", "title": "get_events_in_both_arrays is the sorted intersection", "statement": "get_events_in_both_arrays(a, b) on sorted arrays with non-negative event numbers and b non-empty returns the event numbers that occur in both arrays, each once, in increasing order.", "quantifier": "all pairs of sorted arrays", "why_tests_cant": "Same scan structure; duplicates and gaps in all positions.", "anchors": ["beam_telescope_analysis/tools/analysis_utils.py:get_events_in_both_arrays", "beam_telescope_analysis/cpp/AnalysisFunctions.h:getEventsInBothArrays"]}
{"id": "C12", "title": "get_max_events_in_both_arrays keeps the larger multiplicity", "statement": "For non-empty sorted arrays the call terminates without raising, and the result is sorted and contains every event number exactly max(count in one, count in two) times.", "quantifier": "all pairs of non-empty sorted event arrays", "why_tests_cant": "Six-way branch state machine with finished flags; termination and buffer bound need induction.", "anchors": ["beam_telescope_analysis/tools/analysis_utils.py:get_max_events_in_both_arrays", "beam_telescope_analysis/cpp/AnalysisFunctions.h:getMaxEventsInBothArrays"]}
{"id": "C13", "title": "map_cluster places clusters on their own event", "statement": "map_cluster(event_numbers, clusters, mapped) with sorted inputs writes clusters only to rows of the same event, in order; for each event the first min(#rows, #clusters) rows get the first clusters of that event and all other rows keep their initial value.", "quantifier": "all sorted event number arrays and sorted cluster arrays", "why_tests_cant": "Surplus clusters, missing events and trailing data in arbitrary positions.", "anchors": ["beam_telescope_analysis/tools/analysis_utils.py:map_cluster"]}
{"id": "C14", "title": "Merged file contains every cluster exactly once", "statement": "merge_cluster_data writes, for any cluster tables and any chunk size, a table sorted by event number in which every cluster of every DUT appears exactly once, in a row of its own event and in the order of its table; each event has as many rows as the DUT with most clusters in it. The result does not depend on the chunk size; a too small chunk size raises.", "quantifier": "any number of DUTs, all sorted cluster tables, all chunk sizes", "why_tests_cant": "Global property of the chunked loop over all DUTs: chunk borders, empty events and missing events of each DUT interact.", "anchors": ["beam_telescope_analysis/hit_analysis.py:merge_cluster_data", "beam_telescope_analysis/tools/analysis_utils.py:map_cluster", "beam_telescope_analysis/tools/analysis_utils.py:get_max_events_in_both_arrays"]}
{"id": "C15", "title": "Index histograms count, and reject indices outside the shape", "statement": "hist_1d_index/hist_2d_index/hist_3d_index return in each bin the number of input entries with that index (tuple) if all indices are inside the given shape and no bin exceeds its capacity (2^32-1, for 3D 2^16-1); otherwise they raise; entries are never counted in a wrong bin.", "quantifier": "all arrays of 32 bit signed indices (also negative), all shapes with at most 2^31 bins per axis and 2^32 bins in total (outside of these limits the claim is false)", "why_tests_cant": "Flattened index arithmetic has to be injective for every shape; unsigned reinterpretation of negative values.", "anchors": ["beam_telescope_analysis/tools/analysis_utils.py:hist_1d_index", "beam_telescope_analysis/tools/analysis_utils.py:hist_2d_index", "beam_telescope_analysis/tools/analysis_utils.py:hist_3d_index", "beam_telescope_analysis/cpp/AnalysisFunctions.h:histogram_1d", "beam_telescope_analysis/cpp/AnalysisFunctions.h:histogram_2d", "beam_telescope_analysis/cpp/AnalysisFunctions.h:histogram_3d"]}
{"id": "C16", "title": "get_data_in_event_range returns the half-open event range", "statement": "get_data_in_event_range(array, a, b) returns exactly the rows with a <= event_number < b (None meaning unbounded).", "quantifier": "all sorted arrays, all bounds present or absent", "why_tests_cant": "argmin/argmax idioms have corner cases when no element satisfies the condition.", "anchors": ["beam_telescope_analysis/tools/analysis_utils.py:get_data_in_event_range"]}
{"id": "C17", "title": "Morton code is invertible", "statement": "d2xy_morton(xy2d_morton(x, y)) = (x, y) for all 32 bit x, y, and xy2d_morton(d2xy_morton(d)) = d for all 64 bit d; different pixels therefore get different numbers.", "quantifier": "all 2^64 arguments", "why_tests_cant": "Domain far too large to enumerate.", "anchors": ["beam_telescope_analysis/tools/analysis_utils.py:xy2d_morton", "beam_telescope_analysis/tools/analysis_utils.py:d2xy_morton", "beam_telescope_analysis/tools/analysis_utils.py:morton_1"]}
{"id": "C18", "title": "Cluster shape number and array are inverse to each other", "statement": "calculate_cluster_array(calculate_cluster_shape(a)) = a for every boolean 8x8 array a and calculate_cluster_shape(calculate_cluster_array(s)) = s for every 64 bit number s.", "quantifier": "all 2^64 arrays / numbers", "why_tests_cant": "Domain far too large to enumerate.", "anchors": ["beam_telescope_analysis/tools/analysis_utils.py:calculate_cluster_shape", "beam_telescope_analysis/tools/analysis_utils.py:calculate_cluster_array"]}
{"id": "C19", "title": "number_of_set_bits is the population count", "statement": "number_of_set_bits(v) equals the number of one bits of v for every unsigned 32 bit v.", "quantifier": "all 2^32 values", "why_tests_cant": "Bit trick; the operator precedence in the last line matters only for some inputs.", "anchors": ["beam_telescope_analysis/tools/analysis_utils.py:number_of_set_bits", "beam_telescope_analysis/track_analysis.py:fit_tracks"]}
{"id": "C20", "title": "Track finding only re-assigns hits inside an event", "statement": "find_tracks never creates, loses or alters a hit: for every DUT and every event the hits assigned to the track candidates of this event are a permutation of the hits of that DUT in that event, event numbers of the rows are unchanged, and the hits of the first DUT (along the beam) stay in place.", "quantifier": "all hit tables (any number of DUTs, events, hits per event, missing hits), all extrapolation settings, all distance values", "why_tests_cant": "Recursive swapping algorithm; the outcome depends on all distances.", "anchors": ["beam_telescope_analysis/track_analysis.py:find_tracks", "beam_telescope_analysis/track_analysis.py:_find_tracks_loop", "beam_telescope_analysis/track_analysis.py:_find_tracks"]}
{"id": "C21", "title": "Track finding terminates", "statement": "The recursive swap correction in find_tracks terminates for every input.", "quantifier": "all hit tables", "why_tests_cant": "Recursion depth and repetition depend on distances.", "anchors": ["beam_telescope_analysis/track_analysis.py:_find_tracks"]}
{"id": "C22", "title": "All columns of a hit move together", "statement": "In the output of find_tracks the columns (x, y, z, charge, frame, cluster ID, ...) of DUT i in a row all stem from one and the same input row, and this is the row the track finding assigned.", "quantifier": "all numbers of DUTs, all column sets", "why_tests_cant": "Column selection works by name matching; it has to be right for every DUT index.", "anchors": ["beam_telescope_analysis/track_analysis.py:find_tracks"]}
{"id": "C23", "title": "Hit flag has exactly the bits of the DUTs with a hit", "statement": "In merged and track candidate tables bit i of hit_flag is set if and only if the row has a hit (finite x) of DUT i.", "quantifier": "all rows, any number of DUTs up to 32", "why_tests_cant": "Every combination of hits of up to 32 DUTs.", "anchors": ["beam_telescope_analysis/hit_analysis.py:merge_cluster_data", "beam_telescope_analysis/track_analysis.py:find_tracks"]}
{"id": "C24", "title": "Track selection for fitting", "statement": "fit_tracks stores for a DUT exactly the track candidates that have a hit in all hit DUTs and at least the required number of hits among the fit DUTs (with the Kalman filter at least 3), in table order. Fewer than 2 required hits, or more than there are fit DUTs, is rejected.", "quantifier": "all hit flags, all hit DUT and fit DUT sets (up to 32 DUTs), all min_track_hits", "why_tests_cant": "Bit mask arithmetic over all combinations.", "anchors": ["beam_telescope_analysis/track_analysis.py:fit_tracks"]}
{"id": "C25", "title": "Every selected DUT is fitted exactly once with its own settings", "statement": "fit_tracks groups DUTs with identical track requirements; every selected DUT is processed in exactly one group, and all DUTs of a group have the same fit DUTs, hit DUTs and minimum number of hits.", "quantifier": "all lists of selected DUTs and all per-DUT settings", "why_tests_cant": "Depends on the whole settings table.", "anchors": ["beam_telescope_analysis/track_analysis.py:fit_tracks"]}
{"id": "C26", "title": "Isolation search flags exactly the close pairs", "statement": "The isolation search flags a track/hit exactly if another row of the same event lies within the given distance (ellipse if both distances are positive, else rectangle); it is symmetric and does not depend on the order of rows within the event.", "quantifier": "all tables sorted by event, all positions including missing ones, all distances", "why_tests_cant": "Quadratic number of pairs.", "anchors": ["beam_telescope_analysis/track_analysis.py:_find_small_distance", "beam_telescope_analysis/track_analysis.py:store_track_data"]}
{"id": "C27", "title": "Multi-core processing gives the serial result", "statement": "SMC applied to a table produces, for every schedule of its reader, worker and writer threads and every number of cores, the concatenation (tables) or element-wise sum (histograms that agree in all axes but the first) of the function applied to the chunks in table order; a result of only some of the chunks is never stored under the requested name.", "quantifier": "all interleavings of three threads, all chunk lists, all timings of worker processes", "why_tests_cant": "Thread schedules cannot be enumerated by tests.", "anchors": ["beam_telescope_analysis/tools/smc.py:SMC"]}
{"id": "C28", "title": "Multi-core processing always ends", "statement": "Every call of SMC ends (with a result or an exception), whatever the function passed by the user does.", "quantifier": "all schedules, all functions including ones that raise", "why_tests_cant": "Hang depends on the schedule and on the failing chunk.", "anchors": ["beam_telescope_analysis/tools/smc.py:SMC"]}
{"id": "C29", "title": "Queues between the SMC threads stay bounded", "statement": "At any time at most one chunk is waiting between reader and worker and at most n_cores + 1 results are waiting for the writer (n_cores + 2 after an error), so memory use is bounded independently of the file size.", "quantifier": "all schedules and all file sizes", "why_tests_cant": "Bound must hold at every instant of every schedule.", "anchors": ["beam_telescope_analysis/tools/smc.py:SMC"]}
{"id": "C30", "title": "Local and global coordinates are inverse to each other", "statement": "For every DUT, global_to_local_position(local_to_global_position(p)) = p and vice versa (exact arithmetic), with the alignment of the DUT or with alignment parameters given to both calls. A RuntimeError is raised exactly if no parameter is given and a position is off the sensor plane (1e-8).", "quantifier": "all points, all translations, all rotation angles", "why_tests_cant": "Continuous domain.", "anchors": ["beam_telescope_analysis/telescope/dut.py:RectangularPixelDut.local_to_global_position", "beam_telescope_analysis/telescope/dut.py:RectangularPixelDut.global_to_local_position", "beam_telescope_analysis/tools/geometry_utils.py:local_to_global_transformation_matrix", "beam_telescope_analysis/tools/geometry_utils.py:global_to_local_transformation_matrix"]}
{"id": "C31", "title": "Rotation matrices are proper rotations", "statement": "rotation_matrix(alpha, beta, gamma) is orthogonal with determinant 1, so coordinate transformations keep distances and angles.", "quantifier": "all angles", "why_tests_cant": "Continuous domain.", "anchors": ["beam_telescope_analysis/tools/geometry_utils.py:rotation_matrix", "beam_telescope_analysis/tools/geometry_utils.py:rotation_matrix_x", "beam_telescope_analysis/tools/geometry_utils.py:rotation_matrix_y", "beam_telescope_analysis/tools/geometry_utils.py:rotation_matrix_z"]}
{"id": "C32", "title": "Euler angles reproduce the rotation", "statement": "rotation_matrix(*euler_angles(R)) = R for every rotation matrix R.", "quantifier": "all rotation matrices", "why_tests_cant": "Continuous domain with singular points (gimbal lock).", "anchors": ["beam_telescope_analysis/tools/geometry_utils.py:euler_angles"]}
{"id": "C33", "title": "Line-plane intersection", "statement": "get_line_intersections_with_plane returns for each line the only point which lies both on the line and on the plane, and raises exactly if one of the lines is parallel to the plane. For a DUT, the local z of the intersections is zero.", "quantifier": "all lines and planes", "why_tests_cant": "Continuous domain.", "anchors": ["beam_telescope_analysis/tools/geometry_utils.py:get_line_intersections_with_plane", "beam_telescope_analysis/tools/geometry_utils.py:get_line_intersections_with_dut"]}
{"id": "C34", "title": "Pixel index and local position are inverse to each other", "statement": "local_position_to_index(index_to_local_position(column, row)) = (column, row) and vice versa for valid indices; index_to_local_position raises ValueError exactly for indices outside the matrix. The same with global positions for every alignment.", "quantifier": "all sensor sizes, all pixel pitches > 0, all (also fractional) indices", "why_tests_cant": "Continuous domain and all sensor geometries.", "anchors": ["beam_telescope_analysis/telescope/dut.py:RectangularPixelDut.index_to_local_position", "beam_telescope_analysis/telescope/dut.py:RectangularPixelDut.local_position_to_index"]}
{"id": "C35", "title": "Folding into the primitive cell", "statement": "map_to_primitive_cell returns coordinates inside of the cell (one pixel, or several pixels for some sensors) which differ from the position relative to the sensor edge by a whole number of cells.", "quantifier": "all positions, all geometries", "why_tests_cant": "Continuous domain, negative values.", "anchors": ["beam_telescope_analysis/telescope/dut.py:RectangularPixelDut.map_to_primitive_cell"]}
{"id": "C36", "title": "Telescope configuration survives saving and loading", "statement": "Loading a saved configuration gives a telescope with the same DUT ids, types, attributes and telescope alignment; saving with keep_others keeps unrelated sections of the file.", "quantifier": "all telescopes that a program can build with integer DUT ids, all attribute values that YAML represents exactly, all previous contents of the file", "why_tests_cant": "All combinations of DUT types, ids and attributes.", "anchors": ["beam_telescope_analysis/telescope/telescope.py:Telescope.save_configuration", "beam_telescope_analysis/telescope/telescope.py:Telescope.load_configuration", "beam_telescope_analysis/telescope/telescope.py:Telescope.add_dut"]}
{"id": "C37", "title": "DUTs are enumerated in the order of their ids", "statement": "Iterating a telescope yields each DUT exactly once in increasing order of its id, whatever the order in which the DUTs were added or replaced.", "quantifier": "all sequences of add/replace operations", "why_tests_cant": "All operation histories.", "anchors": ["beam_telescope_analysis/telescope/telescope.py:Telescope.__iter__", "beam_telescope_analysis/telescope/telescope.py:Telescope.__setitem__", "beam_telescope_analysis/telescope/telescope.py:Telescope.add_dut"]}
{"id": "C38", "title": "Combined files keep all rows and never mix events", "statement": "combine_files with automatic offsets writes all rows of all files in order, changes nothing but event_number, keeps equal/different events of a file equal/different, and gives rows of different files different event numbers; the result does not depend on chunk_size.", "quantifier": "all lists of files with non-empty tables sorted by event number >= 0, all chunk sizes", "why_tests_cant": "Offsets accumulate over all files and tables.", "anchors": ["beam_telescope_analysis/tools/data_selection.py:combine_files"]}
{"id": "C39", "title": "Event reduction keeps whole events and never exceeds the maximum", "statement": "reduce_events (and the max_events option of select_tracks) stores at most max_events different events, each with all of its rows, and does not change rows.", "quantifier": "all tables, all chunk sizes, all max_events, all outcomes of the random number generator", "why_tests_cant": "Random selection and rounding per chunk.", "anchors": ["beam_telescope_analysis/tools/data_selection.py:reduce_events", "beam_telescope_analysis/tools/data_selection.py:select_tracks", "beam_telescope_analysis/track_analysis.py:find_tracks"]}
{"id": "C40", "title": "Track selection criteria", "statement": "select_tracks keeps exactly the tracks which have a hit in all required DUTs, no hit in all vetoed DUTs, and quality/isolation bits set for the required DUTs that have a hit (as documented), and rejects contradictory requirements.", "quantifier": "all flag values, all DUT sets", "why_tests_cant": "Bit mask logic over all combinations of 4 flags.", "anchors": ["beam_telescope_analysis/tools/data_selection.py:select_tracks"]}
{"id": "C41", "title": "Kalman extrapolation keeps the straight line", "statement": "Extrapolating a track state from one plane to another describes the same straight line in global coordinates, the new state lies on the target plane, and extrapolating back gives the original state.", "quantifier": "all pairs of planes (positions and orientations), all track states not parallel to the planes", "why_tests_cant": "Continuous domain.", "anchors": ["beam_telescope_analysis/tools/kalman.py:_extrapolate_state"]}
{"id": "C42", "title": "Kalman Jacobian is the derivative of the extrapolation", "statement": "The track Jacobian used for propagating the covariance is the matrix of partial derivatives of the extrapolation at the expansion point.", "quantifier": "all plane pairs and states", "why_tests_cant": "Continuous domain; finite differences only sample.", "anchors": ["beam_telescope_analysis/tools/kalman.py:_calculate_track_jacobian", "beam_telescope_analysis/tools/kalman.py:_extrapolate_state"]}
{"id": "C43", "title": "Kalman covariance stays symmetric and positive semi-definite", "statement": "Prediction and update keep covariance matrices symmetric and positive semi-definite, an update never increases the uncertainty and gives the unique least squares estimate, a missing measurement changes nothing, and a complete fit never raises: it gives positive definite covariances for all planes and a non-negative chi-square for exactly the planes with a hit.", "quantifier": "all symmetric positive semi-definite covariances, all observation matrices, all positive definite noise matrices", "why_tests_cant": "Continuous domain.", "anchors": ["beam_telescope_analysis/tools/kalman.py:_filter_predict_f", "beam_telescope_analysis/tools/kalman.py:_filter_predict_b", "beam_telescope_analysis/tools/kalman.py:_filter_correct"]}
{"id": "C44", "title": "Chunk-wise averages equal the overall average", "statement": "Bin-wise mean residuals combined chunk by chunk with the entry counts as weights equal the mean over all entries of the bin, and counts add up; the result does not depend on the chunk size.", "quantifier": "all data, all partitions into chunks including chunks without entry in a bin", "why_tests_cant": "All partitions of the data.", "anchors": ["beam_telescope_analysis/result_analysis.py:calculate_residuals", "beam_telescope_analysis/result_analysis.py:calculate_efficiency"]}
{"id": "C45", "title": "Efficiency is a ratio of matching counts", "statement": "Efficiency per bin is between 0 and 100 %, is masked/NaN exactly where there are no (or fewer than minimum_track_density) tracks, and the efficiency of a region equals tracks with hit over tracks accumulated over all chunks.", "quantifier": "all data, all partitions into chunks", "why_tests_cant": "All data and partitions.", "anchors": ["beam_telescope_analysis/result_analysis.py:calculate_efficiency"]}
{"id": "C46", "title": "Noisy pixel search", "statement": "The iterative noisy pixel search ends after at most (number of pixels + 1) iterations or the given number of iterations, masked pixels stay masked, the counts of unmasked pixels are never changed, pixels without hits are never masked, and if it ends before the given number of iterations no unmasked pixel exceeds the threshold computed from the counts of the unmasked pixels and the local background at the masked ones.", "quantifier": "all hit lists inside the sensor, all sensor sizes, thresholds and filter sizes", "why_tests_cant": "Iteration to a fixed point over all maps.", "anchors": ["beam_telescope_analysis/hit_analysis.py:mask_pixels"]}
{"id": "C47", "title": "Cluster summary describes the cluster", "statement": "The per-cluster summary (bounding box, frame, shape number) computed at the end of a cluster describes exactly the hits of this cluster, whatever their order; the shape is -1 exactly if the cluster does not fit into 8 x 8 pixels without the last corner; two clusters have the same shape number exactly if they are equal up to a shift.", "quantifier": "all hit sets of a cluster", "why_tests_cant": "All hit configurations.", "anchors": ["beam_telescope_analysis/hit_analysis.py:cluster_hits"]}
{"id": "C48", "title": "hist_quantiles never cuts more than requested", "statement": "hist_quantiles keeps a contiguous range such that the fraction of entries below the range is less than prob[0] and the fraction above is at most 1 - prob[1]; returned indices are valid indices of the histogram.", "quantifier": "all histograms with non-negative counts, all probabilities", "why_tests_cant": "All histogram contents.", "anchors": ["beam_telescope_analysis/tools/analysis_utils.py:hist_quantiles"]}
{"id": "C49", "title": "find_closest returns a nearest element", "statement": "find_closest(arr, v) returns for each value an index of a nearest element of the sorted array (length >= 2).", "quantifier": "all sorted arrays, all values", "why_tests_cant": "Ties and borders.", "anchors": ["beam_telescope_analysis/tools/analysis_utils.py:find_closest"]}
{"id": "C50", "title": "in1d_index returns matching positions", "statement": "in1d_index(ar1, ar2) returns exactly the positions of ar1 whose value occurs in ar2, together with a position in ar2 holding that value.", "quantifier": "all arrays with ar2 non-empty", "why_tests_cant": "Argsort and clipping corner cases.", "anchors": ["beam_telescope_analysis/tools/analysis_utils.py:in1d_index"]}
{"id": "C51", "title": "Polygon area is independent of start point, orientation and translation", "statement": "polygon_area does not change when the list of corners is rotated, reversed, or shifted by a vector, and is never negative.", "quantifier": "all polygons", "why_tests_cant": "Continuous domain, all lengths.", "anchors": ["beam_telescope_analysis/tools/analysis_utils.py:polygon_area"]}
{"id": "C52", "title": "Unique neighbour counting", "statement": "unique_in_array returns for every cell the number of different values along axis 0.", "quantifier": "all integer arrays with non-negative entries", "why_tests_cant": "All contents.", "anchors": ["beam_telescope_analysis/tools/analysis_utils.py:unique_in_array", "beam_telescope_analysis/tools/analysis_utils.py:unique_loop"]}
{"id": "C53", "title": "Purity is the fraction of matched hits in percent", "statement": "calculate_purity gives for each bin the percentage of the hits in the bin that belong to a track of the same event closer than cut_distance, and the total purity.", "quantifier": "all hit and track tables", "why_tests_cant": "Rounding of the result type depends on the counts.", "anchors": ["beam_telescope_analysis/result_analysis.py:calculate_purity"]}
{"id": "C54", "title": "Alignment chunks cover all tracks evenly", "statement": "calculate_transformation splits the track table into consecutive chunks that cover every row exactly once, each with at most chunk_size rows and of nearly equal length, and stores the average of the rotations and translations of all chunks, weighted with their number of tracks.", "quantifier": "all table lengths, all chunk sizes >= 1", "why_tests_cant": "All table lengths.", "anchors": ["beam_telescope_analysis/dut_alignment.py:calculate_transformation"]}
{"id": "C55", "title": "Index based speed-up does not change the selection", "statement": "data_aligned_at_events(table, a, b, try_speedup=True) on a table with indexed event numbers delivers the same rows as without the speed-up: exactly the events a <= event_number < b.", "quantifier": "all sorted tables, all bounds and chunk sizes", "why_tests_cant": "The speed-up replaces the stop index, which interacts with the chunk border handling only for ranges larger than one chunk.", "anchors": ["beam_telescope_analysis/tools/analysis_utils.py:data_aligned_at_events"]}
{"id": "C56", "title": "stop_index delivers all complete events before it", "statement": "data_aligned_at_events(table, start_index=s, stop_index=k) with k smaller than the table length delivers the rows s..k-1 except those of the last event in that range, which may continue behind k.", "quantifier": "all sorted tables, all s < k, all sufficient chunk sizes", "why_tests_cant": "Which rows are dropped depends on the alignment of the stop index, the chunk borders and the events.", "anchors": ["beam_telescope_analysis/tools/analysis_utils.py:data_aligned_at_events"]}
{"id": "C57", "title": "Quality and isolation flags of stored tracks", "statement": "In the output of fit_tracks, every row has the fit result of its own candidate at the DUT of the table; bit d of the quality flag is set exactly if the candidate has a hit in DUT d inside the limits and within the quality distance of the track; bit d of isolated_track_flag / isolated_hit_flag is set exactly if no other fitted track / no other hit of the same event is within the isolation distance at DUT d.", "quantifier": "all candidate tables sorted by event, all DUT settings, all chunk sizes", "why_tests_cant": "Alignment of several arrays selected with different masks; neighbours in the whole table.", "anchors": ["beam_telescope_analysis/track_analysis.py:fit_tracks", "beam_telescope_analysis/track_analysis.py:store_track_data", "beam_telescope_analysis/track_analysis.py:create_results_array", "beam_telescope_analysis/track_analysis.py:_find_small_distance"]}
{"id": "C58", "title": "Fitted tracks do not depend on the chunk size", "statement": "Two successful calls of fit_tracks that only differ in chunk_size produce the same tables.", "quantifier": "all candidate tables sorted by event, all chunk sizes", "why_tests_cant": "Needs events never to be split and per-chunk computations to be local, for all tables.", "anchors": ["beam_telescope_analysis/track_analysis.py:fit_tracks", "beam_telescope_analysis/track_analysis.py:store_track_data"]}
{"id": "C59", "title": "max_events of fit_tracks", "statement": "With max_events, each table of fit_tracks has tracks of at most max_events events, and of each of these events all tracks that would be stored without max_events, with the same results and flags.", "quantifier": "all tables, chunk sizes and outcomes of the random generator", "why_tests_cant": "Random choice and a running total over the chunks.", "anchors": ["beam_telescope_analysis/track_analysis.py:fit_tracks", "beam_telescope_analysis/track_analysis.py:store_track_data"]}
{"id": "C60", "title": "keep_data of fit_tracks keeps all candidates", "statement": "With keep_data=True the output tables of fit_tracks have a row for every track candidate, with the fit result for the fitted ones.", "quantifier": "all candidate tables", "why_tests_cant": "Holds or fails for all tables.", "anchors": ["beam_telescope_analysis/track_analysis.py:fit_tracks", "beam_telescope_analysis/track_analysis.py:create_results_array"]}
{"id": "C61", "title": "A failed multi-core call is reported and leaves no result", "statement": "If the table cannot be read, a file cannot be opened, the table is empty, or the function passed by the user raises, then SMC raises an exception and stores nothing under the requested name.", "quantifier": "all schedules, all positions of the failing chunk", "why_tests_cant": "Depends on the schedule and the failing chunk; a test that checks only the output file does not see a lost exception.", "anchors": ["beam_telescope_analysis/tools/smc.py:SMC"]}
{"id": "C62", "title": "Histograms of different shapes are added element-wise", "statement": "If the histograms returned for different chunks have different shapes, SMC stores the element-wise sum with missing elements taken as zero.", "quantifier": "all shapes and all contents", "why_tests_cant": "All shapes; needs an index argument about the flat memory layout.", "anchors": ["beam_telescope_analysis/tools/smc.py:SMC._writer"]}
{"id": "C63", "title": "Spherical coordinates", "statement": "spherical_to_cartesian(*cartesian_to_spherical(x, y, z)) = (x, y, z), with azimuth in [0, 2 pi) and polar angle in [0, pi].", "quantifier": "all points", "why_tests_cant": "Continuous domain with singular points.", "anchors": ["beam_telescope_analysis/tools/geometry_utils.py:cartesian_to_spherical", "beam_telescope_analysis/tools/geometry_utils.py:spherical_to_cartesian"]}
{"id": "C64", "title": "Vector product", "statement": "skew(v) is the matrix of the vector product with v; get_plane_normal is orthogonal to both directions, and zero exactly if these are linearly dependent.", "quantifier": "all vectors", "why_tests_cant": "Continuous domain.", "anchors": ["beam_telescope_analysis/tools/geometry_utils.py:skew", "beam_telescope_analysis/tools/geometry_utils.py:get_plane_normal"]}
{"id": "C65", "title": "Scattering changes the slopes by the projected angles", "statement": "The scattering contribution to the covariance of the track slopes is that of two independent small deflections perpendicular to the track: the matrix used is the derivative of the slopes with respect to the two angles, and the position is unchanged.", "quantifier": "all track states, all scattering variances", "why_tests_cant": "Continuous domain.", "anchors": ["beam_telescope_analysis/tools/kalman.py:_calculate_scatter_gain_matrix"]}
{"id": "C66", "title": "The fitted state combines all measurements once", "statement": "The fitted track state at each plane and its covariance are the weighted combination of the prediction from the planes in front, of the prediction from the planes behind and of the hit on the plane, each counted once; so the reported track error is the error of the best linear estimate.", "quantifier": "all telescopes, all hits, all sets of fit DUTs", "why_tests_cant": "Continuous domain; the result of a fit on simulated data looks plausible also with wrong weights.", "anchors": ["beam_telescope_analysis/tools/kalman.py:KalmanFilter.smooth"]}
{"id": "C67", "title": "Hits on a straight line are fitted by this line", "statement": "If all hits of a track are exactly on a straight line and this line is the seed, the fit returns this line at every DUT, with chi-square 0, whatever the numbering of the DUTs.", "quantifier": "all telescopes, all lines, all sets of fit DUTs", "why_tests_cant": "Test data has the DUTs numbered in the order of their positions.", "anchors": ["beam_telescope_analysis/tools/kalman.py:KalmanFilter.smooth"]}
{"id": "C68", "title": "Scattering planes can be used", "statement": "Tracks can be fitted with additional scattering planes.", "quantifier": "all telescopes, all scattering planes, all tracks", "why_tests_cant": "Error depends on the presence of an optional input that no test uses.", "anchors": ["beam_telescope_analysis/track_analysis.py:fit_tracks", "beam_telescope_analysis/track_analysis.py:_fit_tracks_kalman_loop", "beam_telescope_analysis/dut_alignment.py:_duts_alignment_kalman"]}
{"id": "C69", "title": "Hits of DUTs that are not fit DUTs do not influence the track", "statement": "Changing, adding or removing hits of DUTs that are not selected for the fit changes neither the fitted track at any DUT nor its errors nor the chi-square and degrees of freedom.", "quantifier": "all telescopes, all tracks, all sets of fit DUTs", "why_tests_cant": "All hit values.", "anchors": ["beam_telescope_analysis/track_analysis.py:_fit_tracks_kalman_loop", "beam_telescope_analysis/track_analysis.py:_calculate_track_seed", "beam_telescope_analysis/tools/kalman.py:KalmanFilter.smooth"]}
{"id": "C70", "title": "Result of the Kalman track fit", "statement": "For parallel planes with material and hits with errors the fit never raises. It returns one result for each DUT, chi-square is not negative, and the degrees of freedom are two per hit of a fit DUT minus four.", "quantifier": "all telescopes with parallel planes, all tracks", "why_tests_cant": "Continuous domain; numerical checks raise at run time.", "anchors": ["beam_telescope_analysis/track_analysis.py:_fit_tracks_kalman_loop", "beam_telescope_analysis/tools/kalman.py:KalmanFilter.smooth"]}
{"id": "C71", "title": "Loading replaces what the file names and keeps the rest", "statement": "Loading a configuration into a telescope that already has DUTs stores, for every DUT in the file, the DUT that add_dut makes of its entry (RectangularPixelDut if the entry names no type, name DUT<id> if the entry has no name), keeps the DUTs and telescope attributes that the file does not name, and a missing file or section changes no DUT.", "quantifier": "all telescopes, all configuration files", "why_tests_cant": "A test loads one file into one telescope; the claim is about every overlap between the two.", "anchors": ["beam_telescope_analysis/telescope/telescope.py:Telescope.load_configuration", "beam_telescope_analysis/telescope/telescope.py:Telescope.add_dut"]}
{"id": "C72", "title": "A DUT made from a DUT keeps the common attributes", "statement": "from_dut of the same class gives an equal DUT; with another chip class it copies name, position, limits, material budget and resolution and uses the pixel geometry of the new class. A keyword argument has the effect of an assignment to the copy.", "quantifier": "all DUTs that a program can build, all chip classes", "why_tests_cant": "There are 18 classes and unboundedly many attribute values.", "anchors": ["beam_telescope_analysis/telescope/dut.py:Dut.from_dut"]}
{"id": "C73", "title": "Attributes of DUTs stay consistent", "statement": "After any construction and any sequence of attribute assignments the limits of a DUT are (lower, upper), given by the smallest and largest given number, and the pixel geometry of a chip class is the one of the chip; other attributes cannot be assigned. An assignment changes no other attribute, and an assigned number is read back.", "quantifier": "all classes, all constructor arguments, all sequences of assignments", "why_tests_cant": "The claim is about every sequence of assignments.", "anchors": ["beam_telescope_analysis/telescope/dut.py:Dut.__setattr__", "beam_telescope_analysis/telescope/dut.py:Dut.x_limit", "beam_telescope_analysis/telescope/dut.py:RectangularPixelDut"]}
{"id": "C74", "title": "Cluster shape histogram counts clusters", "statement": "HistClusterShape contains for each shape number the number of clusters with this shape.", "quantifier": "all cluster tables", "why_tests_cant": "All shape numbers, including the boundary of the last bin.", "anchors": ["beam_telescope_analysis/hit_analysis.py:cluster_hits"]}
{"id": "C75", "title": "In-pixel cluster shape counts", "statement": "The in-pixel cluster shape counts of calculate_efficiency contain for each of the listed shapes the number of clusters with this shape.", "quantifier": "all cluster shape numbers, all tables", "why_tests_cant": "A wrong label of one shape is only visible with a cluster of this shape.", "anchors": ["beam_telescope_analysis/result_analysis.py:calculate_efficiency"]}
{"id": "C76", "title": "Fixed alignment parameters are not changed", "statement": "calculate_transformation changes only the selected alignment parameters of the selected DUTs: unselected translations keep their value, angles keep their value if no rotation is selected, other DUTs and all limits are unchanged; wrong selections raise an exception.", "quantifier": "all tables, configurations and selections, all chunk sizes", "why_tests_cant": "All combinations of parameters and tables; angles go through a matrix and back.", "anchors": ["beam_telescope_analysis/dut_alignment.py:calculate_transformation"]}
{"id": "C77", "title": "An aligned DUT is not moved", "statement": "If all used hits are exactly on their tracks with the present alignment, a successful calculate_transformation leaves the alignment as it is.", "quantifier": "all tables of tracks and hits, all alignments, all chunk sizes and numbers of iterations", "why_tests_cant": "All tables and rotations; a test only has a few and rounding.", "anchors": ["beam_telescope_analysis/dut_alignment.py:calculate_transformation"]}
{"id": "C78", "title": "A shifted DUT is put to its true position", "statement": "If all used hits would be exactly on their tracks with the DUT at another position and the tracks fix all degrees of freedom, calculate_transformation succeeds and the stored position is the true position, up to the tolerance of its stop criterion; angles are not changed.", "quantifier": "all shifts up to one meter, all tables whose tracks fix the degrees of freedom, all rotations", "why_tests_cant": "Convergence for all shifts and rotations is a statement about the iteration, not about one data set.", "anchors": ["beam_telescope_analysis/dut_alignment.py:calculate_transformation"]}
{"id": "C79", "title": "A file is converted to global coordinates", "statement": "apply_alignment to global coordinates writes the same tables with the same columns and rows. Hits and track offsets are moved with the alignment of their DUT, track slopes are turned with it, and with align_to_beam all are then moved (turned) with the alignment of the telescope. All other columns, and the columns of unknown DUTs, are unchanged. The track of a track table is converted with the alignment of the DUT of this table, whatever the number of DUTs. The call succeeds if every table has the hit columns of all DUTs, all hits are on their sensors and no event fills a chunk; hits off the sensor are refused.", "quantifier": "all files with sorted events, all telescopes and alignments, all chunk sizes", "why_tests_cant": "The wrong alignment is only visible for certain numbers of DUTs, names of tables and chunk borders; a test has one telescope.", "anchors": ["beam_telescope_analysis/dut_alignment.py:apply_alignment"]}
{"id": "C80", "title": "There and back restores the file", "statement": "Converting a file to global coordinates and the result back to local coordinates, with the same configuration and the same align_to_beam, succeeds and restores all columns.", "quantifier": "all files of hits, track candidates and tracks, all alignments, all chunk sizes", "why_tests_cant": "All alignments and columns; a test with small angles or without turned sensors does not see the columns that are not restored.", "anchors": ["beam_telescope_analysis/dut_alignment.py:apply_alignment"]}
{"id": "C81", "title": "Residuals do not depend on the coordinate system", "statement": "In a track table converted with apply_alignment, a hit of the DUT of this table has the same distance to each point of the track as before, and the slope has the same length.", "quantifier": "all track tables, all alignments with up to ten DUTs, with and without align_to_beam", "why_tests_cant": "A statement about all rotations and translations.", "anchors": ["beam_telescope_analysis/dut_alignment.py:apply_alignment"]}
{"id": "C82", "title": "Errors of hits are propagated to global coordinates", "statement": "The errors of the hits of a track table converted with apply_alignment are the standard deviations of the converted coordinates.", "quantifier": "all track tables and rotations", "why_tests_cant": "With rotations near zero or by 180 degrees the errors look right; only a general rotation shows the difference.", "anchors": ["beam_telescope_analysis/dut_alignment.py:apply_alignment"]}
{"id": "C83", "title": "check_file accepts exactly the well-formed hit tables", "statement": "check_file returns without an exception exactly if the event numbers are not negative and never decrease and every hit is on the pixel matrix (indices from 1 to the number of pixels; for tables with positions: on the sensor). A bad table is refused with the documented RuntimeError. The result does not depend on the chunk size.", "quantifier": "all hit tables, DUTs, resolutions and chunk sizes", "why_tests_cant": "A table with one bad row at each possible place, for each chunk size; the bad row is missed only at certain places.", "anchors": ["beam_telescope_analysis/hit_analysis.py:check_file"]}
{"id": "C84", "title": "check_file stores the event numbers and their distances", "statement": "After a successful call, the stored event numbers are the different event numbers of the table in increasing order, and the stored distances are the distances of neighbours, whatever the chunk size.", "quantifier": "all accepted tables and chunk sizes", "why_tests_cant": "The distances over the borders of chunks are only seen with many chunks and certain event numbers.", "anchors": ["beam_telescope_analysis/hit_analysis.py:check_file"]}
{"id": "C85", "title": "check_file correlates consecutive events", "statement": "After a successful call, entry (i, j) of the column (row) histogram is the number of pairs of hits, the first in column (row) i + 1, the second in column (row) j + 1 of an event at most event_range later, whatever the chunk size.", "quantifier": "all accepted tables, event ranges and chunk sizes", "why_tests_cant": "Counts over all pairs of hits; a loss at the borders of chunks is not visible in a test with one chunk.", "anchors": ["beam_telescope_analysis/hit_analysis.py:check_file"]}
{"id": "C86", "title": "Correlation histograms count pairs of hits of an event", "statement": "After a successful call of correlate, bin (i, j) of the x (y) histogram of a reference DUT and another DUT is the number of pairs of hits or clusters of the same event, one of each DUT, with the global x (y) position of the hit of the other DUT in bin i and that of the reference hit in bin j, if all hits are on the sensors. The chunk size has no influence on the output.", "quantifier": "all telescopes, sorted input files, resolutions, selections and chunk sizes", "why_tests_cant": "The counts depend on the reading of two files in step, over borders of chunks, with the positions from either table format.", "anchors": ["beam_telescope_analysis/hit_analysis.py:correlate", "beam_telescope_analysis/hit_analysis.py:_correlate_position", "beam_telescope_analysis/tools/analysis_utils.py:correlate_position_on_event_number"]}
{"id": "C87", "title": "Correlation histograms cover the sensors", "statement": "The histograms of correlate are centred on the sensors, contain all points of both sensors and have the smallest number of bins with this property. If all hits are on the sensors and no event has as many hits as the chunk size, a call with a valid selection succeeds.", "quantifier": "all alignments, sensor sizes, resolutions and hits on the sensor", "why_tests_cant": "The extent depends on the rotation; only special positions are at the edge of a bin.", "anchors": ["beam_telescope_analysis/hit_analysis.py:correlate", "beam_telescope_analysis/telescope/dut.py:x_extent"]}
{"id": "C88", "title": "Reduced background of correlation histograms", "statement": "A histogram with reduced background is the histogram minus the integer part of the term of the largest singular value, shifted so that the smallest value is zero. A histogram of uncorrelated hits (a product of a function of the row and a function of the column) becomes zero.", "quantifier": "all histograms and singular value decompositions", "why_tests_cant": "The claim is about all matrices; the decomposition is numerical.", "anchors": ["beam_telescope_analysis/hit_analysis.py:correlate"]}
{"id": "C89", "title": "correlate uses exactly the selected DUTs", "statement": "A successful call of correlate writes one entry for each pair of a reference DUT and another selected DUT and no others. Selections that are not possible are refused before an existing output file is overwritten.", "quantifier": "all selections of DUTs, reference DUTs and lists of files", "why_tests_cant": "All combinations of the arguments, with the effect on a file that exists.", "anchors": ["beam_telescope_analysis/hit_analysis.py:correlate"]}
{"id": "C90", "title": "Hit files in local coordinates", "statement": "Converting a hit file to local coordinates writes every hit once, in the same order, with the centre of its pixel as position and all other columns unchanged, for any chunk size. It succeeds exactly if every hit is on the sensor.", "quantifier": "all sorted hit files, sensors and chunk sizes", "why_tests_cant": "A test converts one file with one chunk size and one sensor.", "anchors": ["beam_telescope_analysis/hit_analysis.py:convert_coordinates", "beam_telescope_analysis/telescope/dut.py:RectangularPixelDut.index_to_local_position"]}
{"id": "C91", "title": "Local coordinates back to pixels", "statement": "Converting a hit file with local positions to indices gives every hit the column and row of the pixel it lies in and keeps all hits, their order and all other columns apart from z. Converting to local positions and back restores the file.", "quantifier": "all sorted files, sensors with less than 65536 columns and rows, and positions on the sensor", "why_tests_cant": "All positions inside all pixels; tests use the centres of pixels only.", "anchors": ["beam_telescope_analysis/hit_analysis.py:convert_coordinates", "beam_telescope_analysis/telescope/dut.py:RectangularPixelDut.local_position_to_index"]}
{"id": "C92", "title": "convert uses the selected DUT for each file", "statement": "convert converts every input file with the DUT at the same place of select_duts, writes to the given output files, and changes nothing else on disk. The numbers of input and output files have to match the selection.", "quantifier": "all telescopes, selections, and lists of files", "why_tests_cant": "All orders of the selection; the default order hides the mistake.", "anchors": ["beam_telescope_analysis/hit_analysis.py:convert", "beam_telescope_analysis/hit_analysis.py:convert_coordinates"]}
{"id": "C93", "title": "Parameters excluded from the Kalman alignment do not change", "statement": "After `align_kalman`, every alignment parameter which was not to be aligned (the DUT is not selected, the parameter is not in the list of the DUT, or the DUT is the first or last telescope plane and the parameter is not the rotation around z) has the same value as before, in the new telescope configuration and in every line of the output file, with the error zero.", "quantifier": "all telescopes, selections, parameter lists, track files and track fits", "why_tests_cant": "The parameters are coupled by the filter and the rotations do not commute; a test looks at a few tracks and usually starts from a telescope without rotations.", "anchors": ["beam_telescope_analysis/dut_alignment.py:1456-1586", "beam_telescope_analysis/dut_alignment.py:1983-2160"]}
{"id": "C94", "title": "Errors of the Kalman alignment never increase", "statement": "The errors of the alignment parameters stored for each track are never larger than the ones for the track before, and never larger than `alignment_parameters_errors`; the covariance matrices stay positive semidefinite.", "quantifier": "all track files, all fits with valid covariance matrices", "why_tests_cant": "It is an invariant over arbitrarily many tracks; a test sees one sequence of tracks.", "anchors": ["beam_telescope_analysis/dut_alignment.py:1456-1586", "beam_telescope_analysis/dut_alignment.py:1983-2160"]}
{"id": "C95", "title": "Annealing of the Kalman alignment", "statement": "The annealing factor is `annealing_factor` for the first track, never increases from track to track, is never below one and follows the geometric sequence that reaches one after `annealing_tracks` tracks.", "quantifier": "all factors of at least one, all numbers of tracks, all track files", "why_tests_cant": "The factor depends on the number of accepted tracks, which depends on all tracks before.", "anchors": ["beam_telescope_analysis/dut_alignment.py:2103-2111", "beam_telescope_analysis/dut_alignment.py:1456-1586", "beam_telescope_analysis/dut_alignment.py:1983-2160"]}
{"id": "C96", "title": "The Kalman alignment runs through tracks with missing hits", "statement": "Tracks that have hits in all DUTs of `select_hit_duts` are used; if a track has no hit in another DUT, the alignment of this DUT is not changed by it, and the alignment goes on with the next track.", "quantifier": "all track files, selections of DUTs and fits", "why_tests_cant": "Simulated data usually has hits in all planes, and NaN passes all comparisons silently; the effect shows one track later.", "anchors": ["beam_telescope_analysis/dut_alignment.py:1456-1586", "beam_telescope_analysis/dut_alignment.py:1983-2160"]}
{"id": "C97", "title": "The result of the Kalman alignment contains all tracks", "statement": "The new telescope configuration is the alignment after the last used track, and the output file has one line for each used track; neither depends on how the file is read in chunks.", "quantifier": "all track files, chunk sizes and fits", "why_tests_cant": "The difference of one track is below the statistical precision of a test.", "anchors": ["beam_telescope_analysis/dut_alignment.py:1456-1586", "beam_telescope_analysis/dut_alignment.py:1983-2160"]}
{"id": "C98", "title": "The Kalman alignment changes slowly", "statement": "One track changes a translation by at most 5 % of its current error, so that after i tracks it differs by at most 5 % times i of the initial error from the initial value.", "quantifier": "all track files and fits", "why_tests_cant": "It is a bound over arbitrarily many tracks.", "anchors": ["beam_telescope_analysis/dut_alignment.py:1456-1586", "beam_telescope_analysis/dut_alignment.py:1983-2160"]}
{"id": "C99", "title": "alignment_parameters belong to select_duts", "statement": "The entry of `alignment_parameters` used for a DUT is the one at the place of the DUT in `select_duts` (both lists have to have the same length).", "quantifier": "all selections and lists of parameters", "why_tests_cant": "A test that selects all DUTs in order does not see which index is used.", "anchors": ["beam_telescope_analysis/dut_alignment.py:1983-2020"]}
{"id": "C100", "title": "max_tracks of the Kalman alignment", "statement": "The alignment ends as soon as `max_tracks` tracks were used for every DUT, and not before.", "quantifier": "all track files and limits", "why_tests_cant": "A difference of one track is not visible in the result.", "anchors": ["beam_telescope_analysis/dut_alignment.py:1571-1579"]}
{"id": "C101", "title": "track_chi2 of the Kalman alignment", "statement": "Tracks whose reduced chi2 is above `track_chi2` change nothing; if `track_chi2` is 0, no cut is applied.", "quantifier": "all track files and limits", "why_tests_cant": "The special value is not used in the tests, and the result without any track is a valid configuration.", "anchors": ["beam_telescope_analysis/dut_alignment.py:1002-1008", "beam_telescope_analysis/dut_alignment.py:1543-1545"]}
{"id": "C102", "title": "Hough transformation counts every pixel once per angle", "statement": "The accumulator returned by hough_transform has for every angle and distance the number of set pixels whose distance to the origin in this direction is the given one after rounding. The angles cover -90 to 90 degrees in equal steps not larger than requested, the distances the diagonal of the image, and for each angle every set pixel has exactly one vote.", "quantifier": "all images and positive resolutions", "why_tests_cant": "A test can check single images; the grid and the rounding depend on size and resolution.", "anchors": ["beam_telescope_analysis/tools/analysis_utils.py:hough_transform"]}
{"id": "C103", "title": "The correlation line has the largest support", "statement": "For each axis, prealign uses a line with a slope within 0.1 of 1 or -1, and no other line of the angle and distance grid with such a slope goes through the most populated reference bins of more DUT bins. The position at the centre of the DUT on this line is the result.", "quantifier": "all correlation histograms for which the fit succeeds", "why_tests_cant": "All histograms with all patterns of noise.", "anchors": ["beam_telescope_analysis/dut_alignment.py:prealign"]}
{"id": "C104", "title": "A missing correlation is reported", "statement": "If there is no correlation between a DUT and the reference, prealign raises an exception (RuntimeError: Cannot find correlation) instead of writing an alignment.", "quantifier": "all correlation histograms", "why_tests_cant": "Histograms without correlation come in all forms; one bad example says nothing about the others.", "anchors": ["beam_telescope_analysis/dut_alignment.py:prealign"]}
{"id": "C105", "title": "prealign finds the position of a correlated DUT", "statement": "If for every bin of a DUT the most populated bin of the reference is where it is expected for a DUT at a given position, then prealign succeeds and the translation of the DUT is this position, up to the size of a bin and the deviations of the bins.", "quantifier": "all positions, directions, numbers and sizes of bins, deviations up to half a bin", "why_tests_cant": "A test has one position and one number of bins; the error of the line depends on the angles and distances of the grid.", "anchors": ["beam_telescope_analysis/dut_alignment.py:prealign", "beam_telescope_analysis/tools/analysis_utils.py:hough_transform"]}
{"id": "C106", "title": "Limits of the aligned region", "statement": "prealign sets x_limit and y_limit of a DUT to the range of its pixels in which both axes are correlated. Existing limits are only narrowed: the new limit is the intersection with the old limit.", "quantifier": "all DUTs, alignments, limits and correlation histograms", "why_tests_cant": "All combinations of old limits and correlated regions, also those without overlap.", "anchors": ["beam_telescope_analysis/dut_alignment.py:prealign", "beam_telescope_analysis/telescope/dut.py:Dut.x_limit"]}
{"id": "C107", "title": "Orientation after the pre-alignment", "statement": "prealign turns a DUT by 180 degrees around the y axis if the correlation in x is negative, and around the x axis if the correlation in y is negative, and otherwise keeps its orientation. A DUT with its x axis along the beam is refused.", "quantifier": "all initial orientations and both directions of both correlations", "why_tests_cant": "The result depends on the decomposition of rotation matrices into angles, for all angles.", "anchors": ["beam_telescope_analysis/dut_alignment.py:prealign", "beam_telescope_analysis/tools/geometry_utils.py:euler_angles"]}
{"id": "C108", "title": "prealign changes only the selected DUTs", "statement": "prealign leaves the reference DUT and all DUTs that are not selected unchanged and never changes translation_z or the pixels; order and repetitions in select_duts do not matter. Missing DUTs, missing nodes in the file, and an output configuration with the name of the input are refused.", "quantifier": "all telescopes, selections, references, and correlation files", "why_tests_cant": "All selections, also with repetitions and with the reference.", "anchors": ["beam_telescope_analysis/dut_alignment.py:prealign"]}
{"id": "C109", "title": "Pixel positions of the diamond sensors", "statement": "index_to_local_position of Diamond3DpCVD and DiamondPseudo3DpCVD: for every position of the diamond on the chip, an index is rejected with ValueError exactly if it is outside of the 80 x 336 matrix, every hit of an array gets the position it would get alone, different pixels have different positions, exactly the connected pixels (6 of 8 square ones, 14 of 16 hexagonal ones, without the defects) are moved in y, all other pixels are at the bump bond 100 um from their centre. If the diamond starts at an odd column and fits on the chip, the connected square pixels form a grid of 125 um x 100 um, connected hexagonal pixels are at least 115 um apart, and all positions are within x_extent and y_extent, which are those of the chip. A mean column between two columns ignores bump bonds and electrodes, so that the position jumps by almost 100 um next to a pixel.", "quantifier": "all sensor positions, all pixels and pairs of pixels, all arrays, all fractional columns", "why_tests_cant": "The layout has 744 connected candidates in 20 hard-coded groups for each of many sensor positions; a test looks at a few pixels for one sensor position.", "anchors": ["beam_telescope_analysis/telescope/dut.py:596-698", "beam_telescope_analysis/telescope/dut.py:715-809", "beam_telescope_analysis/telescope/dut.py:261-275"]}
{"id": "C110", "title": "Diamond sensors: the index comes back from the position", "statement": "Converting the index of a pixel of a diamond sensor to a local position and back with local_position_to_index gives the same pixel (after rounding). This holds only for the pixels that are not connected to the diamond: local_position_to_index is the one of the FE-I4, so that every connected pixel comes back at least half a row away, connected pixels in even rows of the hexagonal part come back 1.5 rows away, and for a diamond at the upper edge of the chip the way back is a ValueError. If the diamond starts at an odd column and fits on the chip the way back never fails.", "quantifier": "all sensor positions and all pixels", "why_tests_cant": "The two methods are in different classes; a test of one pixel outside of the diamond passes.", "anchors": ["beam_telescope_analysis/telescope/dut.py:304-324", "beam_telescope_analysis/telescope/dut.py:596-698", "beam_telescope_analysis/telescope/dut.py:715-809"]}
{"id": "C111", "title": "align_telescope moves the telescope onto the z axis", "statement": "align_telescope sets x and y of the reference DUT (the given one, else the selected DUT with the smallest z) to zero and changes no z position and no rotation of a DUT. If the selected DUTs are on a straight line that is not parallel to a sensor, the call succeeds, all selected DUTs are on the z axis afterwards, every other DUT keeps its offset from the point where the line crosses its sensor, the two hits of a particle moving along the line in sensors perpendicular to z get the same global x and y, the angles of the line are subtracted from the rotation of the telescope, and a second call changes nothing. An unknown or empty selection is an exception.", "quantifier": "all telescopes with any number of DUTs, positions and rotations, all selections, every singular value decomposition", "why_tests_cant": "The line fit and the intersections with rotated sensors are continuous quantities; a test checks one geometry.", "anchors": ["beam_telescope_analysis/dut_alignment.py:1668-1722", "beam_telescope_analysis/track_analysis.py:1462-1482", "beam_telescope_analysis/tools/geometry_utils.py:44-142"]}
{"id": "C112", "title": "align_telescope with a single telescope DUT", "statement": "With a single selected DUT the telescope alignment moves this DUT to x = y = 0 and keeps the relative positions of the DUTs and the rotation of the telescope. Only the first part holds: the line through one point has no direction, every direction is a valid result of the singular value decomposition and its angles are subtracted from the rotation of the telescope; if the decomposition of the zero matrix gives the first unit vector, the call raises an exception for every DUT that is not rotated around y and z.", "quantifier": "all telescopes and all unit vectors", "why_tests_cant": "The result depends on the behaviour of LAPACK for a zero matrix; nothing in the code mentions this case.", "anchors": ["beam_telescope_analysis/dut_alignment.py:1668-1722", "beam_telescope_analysis/track_analysis.py:1462-1482", "beam_telescope_analysis/dut_alignment.py:1187-1194"]}
{"id": "C113", "title": "Track angles", "statement": "The angles of a track are geometric: the total angle is the one to the z axis (0 to 90 degrees), alpha and beta are the angles of the projections onto the y-z and the x-z plane with the signs of y and of -x, tan^2 total = tan^2 alpha + tan^2 beta, the two angles determine the direction, the length of the direction vector does not matter, and NaN appears only for a vanishing (projected) direction. The global angles of a track are the same for the track table of every DUT. The last part holds only for DUTs whose local z axis is not opposite to the track: for a DUT facing backwards alpha and beta have the wrong sign, since the stored slope is reversed and only the z component is made positive again.", "quantifier": "all track directions and all rotations of DUTs", "why_tests_cant": "Needs a telescope with a DUT turned by 180 degrees and a beam that is not parallel to z; the sign of a small angle is not checked by comparing histograms of one DUT.", "anchors": ["beam_telescope_analysis/result_analysis.py:2541-2555", "beam_telescope_analysis/result_analysis.py:2369-2402", "beam_telescope_analysis/track_analysis.py:1079-1096"]}
{"id": "C114", "title": "Rotation of the hits into the beam in find_tracks", "statement": "With align_to_beam and the rotation of the telescope equal to the angles of the beam, the hits of a particle moving along the beam have the same x and y coordinates in all DUTs. This holds for y. For x it holds only if the beam is tilted in at most one of the two directions; otherwise x differs by at most the distance in z times |tan beta| tan^2 alpha / 2.", "quantifier": "all beam directions with positive z, all pairs of hits, all positions of the telescope", "why_tests_cant": "The difference is of third order in the angles and needs a beam tilted in both directions.", "anchors": ["beam_telescope_analysis/track_analysis.py:245-255", "beam_telescope_analysis/dut_alignment.py:1278-1285", "beam_telescope_analysis/result_analysis.py:2541-2555"]}
{"id": "C115", "title": "Histograms of the track angles contain the tracks", "statement": "The track angle histograms contain all tracks with a valid angle, except for outliers beyond five standard deviations. The bins have the same width and cover five standard deviations on both sides of the mean (one radian in total if all angles are the same); each bin has the number of tracks with an angle in it, tracks without a valid angle are ignored. If all tracks are in one chunk, at least 96 % of the tracks are in the histogram. With more than one chunk the range is the one of the first chunk: tracks of further chunks outside of it are lost, however many. No chunk is an UnboundLocalError; no valid angle in the first chunk is a ValueError.", "quantifier": "all track tables, chunk sizes and numbers of bins", "why_tests_cant": "A test file fits into one chunk; the fraction of outliers is a statement about all distributions (Chebyshev).", "anchors": ["beam_telescope_analysis/result_analysis.py:2361-2449"]}
{"id": "C116", "title": "Mean and standard deviation from a histogram", "statement": "get_mean_from_histogram and get_rms_from_histogram give the mean and the standard deviation of the bin positions, each repeated as often as counted. If a histogram with bins of the same width contains all values and the positions are the centres of the bins, both differ from the mean and the standard deviation of the values by at most half of the width of a bin. For an empty histogram both are NaN.", "quantifier": "all lists of values, all ranges and numbers of bins", "why_tests_cant": "A bound for all distributions of values inside of the bins.", "anchors": ["beam_telescope_analysis/tools/analysis_utils.py:697-702", "beam_telescope_analysis/result_analysis.py:2513-2517"]}
{"id": "C117", "title": "simple_peak_detect finds the peak", "statement": "The limits returned by simple_peak_detect enclose the position of the maximum and all positions with more than half of the maximum, centre and width belong to the limits; a peak cut off by the border of the histogram is an exception. The first part holds (and the call succeeds) if the histogram is at most half of the maximum at both ends and not zero. The second part is false: the check for the border compares with `is True`, which never holds for numpy values. If the first value is the maximum and the call succeeds, the maximum is outside of the limits, which are those of the valley.", "quantifier": "all histograms with increasing positions", "why_tests_cant": "The dead check looks right; the usual histograms are zero at the ends.", "anchors": ["beam_telescope_analysis/tools/analysis_utils.py:835-854"]}
{"id": "C118", "title": "align uses the settings of each group", "statement": "align accepts its arguments exactly if they give for every group of DUTs: the DUTs, hit DUTs and fit DUTs (fit DUTs among the hit DUTs, at least two of each), one set of alignment parameters, one limit of chi2 and one set of cluster shapes per DUT, the number of iterations and the maximum number of events. Values given once hold for all groups, missing values follow the documented defaults; the settings are unique. The groups are aligned one after the other, each exactly as often as its number of iterations; each track fit has the DUTs and fit DUTs of its group, and for each DUT exactly the hit DUTs of the group and the DUT itself must have a hit.", "quantifier": "all arguments, all configuration files, all numbers of groups and iterations, whatever the track fits give", "why_tests_cant": "The arguments can be given in several nested forms; tests use one or two of the combinations.", "anchors": ["beam_telescope_analysis/dut_alignment.py:528-911", "beam_telescope_analysis/dut_alignment.py:1181-1318"]}
{"id": "C119", "title": "The documented defaults of align work", "statement": "Every argument of align that has a default value can be left out. False: without select_duts the call raises; without select_hit_duts every call with a group of one DUT raises, like the example in the documentation; groups of different sizes raise with numpy 1.24 and later; without select_telescope_duts or with quality_distances None the first iteration raises. What remains: with groups of equal size of at least two DUTs all other checks pass with the defaults.", "quantifier": "all arguments, all configuration files, all numbers of groups and iterations, whatever the track fits give", "why_tests_cant": "Needs every combination of missing arguments and group sizes.", "anchors": ["beam_telescope_analysis/dut_alignment.py:528-911", "beam_telescope_analysis/dut_alignment.py:1181-1318"]}
{"id": "C120", "title": "align changes only the selected DUTs", "statement": "The alignment of DUTs that are not in any group is not changed. False: if a group contains a telescope DUT, align_telescope is called for the whole telescope, and all DUTs are moved in x and y. True: z position, rotation and limits of all other DUTs are kept; without telescope DUTs in the groups nothing of the other DUTs is changed; the rotation of the telescope is changed only if telescope DUTs or fit DUTs are aligned.", "quantifier": "all arguments, all configuration files, all numbers of groups and iterations, whatever the track fits give", "why_tests_cant": "Concerns all DUTs that are not selected and all numbers of iterations; a test with a telescope that is aligned already sees no shift.", "anchors": ["beam_telescope_analysis/dut_alignment.py:1191-1196", "beam_telescope_analysis/dut_alignment.py:1303-1314", "beam_telescope_analysis/dut_alignment.py:1668-1722"]}
{"id": "C121", "title": "align changes only the selected parameters", "statement": "Parameters that are not selected in alignment_parameters keep their value, and DUTs that are aligned already stay where they are. True for the z position, and for the rotation if none of the three angles is selected; by default the z position of telescope DUTs is kept. False for x and y: whenever telescope DUTs are aligned, one of them ends at x = y = 0, even if neither x nor y is selected; true if no telescope DUT is in a group. DUTs for which all hits are on the tracks already stay exactly where they are if no telescope DUT is aligned.", "quantifier": "all arguments, all configuration files, all numbers of groups and iterations, whatever the track fits give", "why_tests_cant": "Holds for all tables of tracks and numbers of iterations.", "anchors": ["beam_telescope_analysis/dut_alignment.py:1297-1310", "beam_telescope_analysis/dut_alignment.py:1191-1196"]}
{"id": "C122", "title": "Configuration files of align", "statement": "align never changes the input configuration file: the output file is a different file, the input file as output file is refused, the default name is different from the input name, and only the output file is written. The selected DUTs start with the alignment of the input file; if the output file exists already, all other DUTs and the rotation of the telescope are taken from there.", "quantifier": "all arguments, all configuration files, all numbers of groups and iterations, whatever the track fits give, all file names", "why_tests_cant": "The default name depends on the text of the input name; existing output files are not part of the tests.", "anchors": ["beam_telescope_analysis/dut_alignment.py:843-911"]}
{"id": "C123", "title": "Tracks used for the alignment", "statement": "In each iteration the tracks are selected once, each DUT with its own limit of chi2 (up to the six digits written into the query, none for None or 0) and its own cluster shapes. A fitted track of a DUT is used exactly if all hit DUTs of the group and the DUT itself have a hit, all these hits have the quality flag and are isolated from other tracks and hits, chi2 is below the limit and the cluster shape is one of those given.", "quantifier": "all arguments, all configuration files, all numbers of groups and iterations, whatever the track fits give, all tables of tracks and chunk sizes", "why_tests_cant": "The conditions pass through a text query and four lists of DUTs; a wrong bit only removes some tracks.", "anchors": ["beam_telescope_analysis/dut_alignment.py:1240-1270", "beam_telescope_analysis/tools/data_selection.py:228-480"]}
{"id": "C124", "title": "Default cluster shapes of the alignment", "statement": "If no cluster shapes are given, align uses exactly the clusters that fit into a square of two by two pixels and in which each pixel can be reached from each other pixel over edges: one pixel, two neighbours, three pixels in an L and four pixels, but not two pixels with only a corner in common.", "quantifier": "all clusters", "why_tests_cant": "The numbers of the shapes are written in the code; a test would need all shapes of the 64 bit code.", "anchors": ["beam_telescope_analysis/dut_alignment.py:1247-1251", "beam_telescope_analysis/hit_analysis.py:782-1240"]}
{"id": "C125", "title": "Temporary files and number of events of align", "statement": "After align no new temporary file is left, and only files that exist are removed. The track candidates for the first iterations are found once for all groups, with the input configuration and all events. In each iteration, the maximum number of events of the group holds for the track fit, or for the track candidates that it reads.", "quantifier": "all arguments, all configuration files, all numbers of groups and iterations, whatever the track fits give", "why_tests_cant": "The files depend on the number of iterations and groups.", "anchors": ["beam_telescope_analysis/dut_alignment.py:868-911", "beam_telescope_analysis/dut_alignment.py:1181-1318"]}
{"id": "C126", "title": "check, mask and cluster use the selected DUT for each file", "statement": "check, mask and cluster process each input file with the DUT, the output file and the settings (given once or as a list) at its place in select_duts, and accept exactly the arguments that fit. False: the order of select_duts is ignored, the files are processed with the DUTs in increasing order; a DUT number equal to the number of DUTs is accepted; with such a number or with a DUT selected twice the last files are silently not processed. True: for increasing, valid selections every file is processed with its DUT and settings; arguments are accepted exactly if the selection is not empty, all numbers are between 0 and the number of DUTs and all lists have the length of the selection.", "quantifier": "all arguments, all numbers of DUTs and files", "why_tests_cant": "A test uses the default selection, in which the order is right.", "anchors": ["beam_telescope_analysis/hit_analysis.py:181-246", "beam_telescope_analysis/hit_analysis.py:426-518", "beam_telescope_analysis/hit_analysis.py:647-778"]}
{"id": "C127", "title": "Coordinates and masks used for clustering", "statement": "cluster_hits gives to the clusterizer the hits of the file with the coordinates asked for with use_positions (positions if the file has positions and nothing is said), the middle of the pixel if positions have to be calculated, and exactly the pixels of the masks, counted from 1. The table of hits has one row for each hit in the same order, with column and row of the hit where they exist; the table of clusters has all clusters in the same order. Masks together with positions are refused, and nothing else is refused with this message.", "quantifier": "all hit tables with increasing event numbers, all chunk sizes larger than the number of hits of an event, all clusterizers that treat events separately", "why_tests_cant": "The coordinates depend on the argument and the columns of the file; swapped hits in one of the tables need a comparison of all rows.", "anchors": ["beam_telescope_analysis/hit_analysis.py:782-1113"]}
{"id": "C128", "title": "Clustering does not depend on the chunk size", "statement": "Two calls of cluster_hits that only differ in chunk_size store the same hits and the same clusters.", "quantifier": "all hit tables with increasing event numbers, all chunk sizes larger than the number of hits of an event, all clusterizers that treat events separately", "why_tests_cant": "Holds for all positions of the chunk borders.", "anchors": ["beam_telescope_analysis/hit_analysis.py:1058-1113", "beam_telescope_analysis/tools/smc.py:200-330"]}
{"id": "C129", "title": "Every valid hit file is clustered", "statement": "cluster_hits clusters every hit file with the columns it needs and hits on the sensor. False: if there is no hit, or no cluster is found, the call fails. True: it succeeds if there is at least one hit and one cluster, and never without the columns needed, with hits outside of the sensor or with masks and positions.", "quantifier": "all hit tables with increasing event numbers, all chunk sizes larger than the number of hits of an event, all clusterizers that treat events separately", "why_tests_cant": "Files without any cluster are not part of the tests.", "anchors": ["beam_telescope_analysis/hit_analysis.py:1058-1220", "beam_telescope_analysis/tools/smc.py:240-330"]}
{"id": "C130", "title": "Cluster size histogram and cluster errors", "statement": "HistClusterSize contains for each n the number of clusters with n hits, for all chunk sizes; the errors of all clusters are the pitch divided by the square root of 12, in units of length for positions, in units of pixels for columns and rows.", "quantifier": "all hit tables with increasing event numbers, all chunk sizes larger than the number of hits of an event, all clusterizers that treat events separately", "why_tests_cant": "The histograms of the chunks have different lengths, depending on where the largest cluster is.", "anchors": ["beam_telescope_analysis/hit_analysis.py:1115-1220", "beam_telescope_analysis/tools/smc.py:287-297"]}
{"id": "C131", "title": "Seed of a cluster in local coordinates", "statement": "The seed of each cluster in the output file is the position of the seed hit. False for local coordinates: the columns seed_x and seed_y are unsigned 16 bit integers, so that the value is right exactly if the position is an integer from 0 to 65535, and is wrong for all hits in the left or lower half of the sensor. True for columns and rows.", "quantifier": "all hit tables with increasing event numbers, all chunk sizes larger than the number of hits of an event, all clusterizers that treat events separately, all conversions of numbers to unsigned integers", "why_tests_cant": "The tests compare with files made by the same code.", "anchors": ["beam_telescope_analysis/hit_analysis.py:970-1024"]}
{"id": "C132", "title": "Formatting Mimosa26 data: one file for each plane", "statement": "format_hit_table of the pymosa converter writes for each header ID a file with exactly the hits of that plane, in the order of the input table, with column and row counted from 1. All files together have each hit of the selected planes once. Generated names are different for different header IDs and never the name of the input file; no other file is changed. The result does not depend on chunk_size.", "quantifier": "all tables of interpreted hits, all input file names, all lists of header IDs, all output names, all positive chunk sizes", "why_tests_cant": "The selection of the plane, the chunks and the file names have to fit together for every table; generated names depend on the input name.", "anchors": ["beam_telescope_analysis/converter/pymosa_converter.py:60-133"]}
{"id": "C133", "title": "Converters accept exactly ordered event numbers", "statement": "format_hit_table of both converters succeeds exactly if the event numbers of the table are not negative and do not decrease; the tables written are ordered again. If they decrease, an exception is raised, but the output files have been written with the whole chunks before the decrease. An input file given as output file is refused and not changed. False at the limits of 64 bit: the difference of event numbers overflows, and a decrease may be accepted.", "quantifier": "all tables, all file names, all positive chunk sizes", "why_tests_cant": "The decrease can be anywhere, also between the last hit of a chunk and the first one of the next chunk.", "anchors": ["beam_telescope_analysis/converter/pymosa_converter.py:84-116", "beam_telescope_analysis/converter/pybar_fei4_converter.py:106-127"]}
{"id": "C134", "title": "Formatting FE-I4 data keeps all hits", "statement": "format_hit_table of the pybar converter writes one hit for each hit of the input table, in the same order, with the relative BCID as frame and the time over threshold as charge, column and row unchanged. The output file is the one given, or one with a name different from the input file; no other file is changed. The result does not depend on chunk_size.", "quantifier": "all tables, all file names, all positive chunk sizes", "why_tests_cant": "Each chunk is formatted and appended on its own.", "anchors": ["beam_telescope_analysis/converter/pybar_fei4_converter.py:88-137"]}
{"id": "C135", "title": "Simulated event numbers are below n_events", "statement": "create_data_and_store(n_events, chunk_size) writes one hit table for each DUT, with event numbers from 0 to n_events - 1. True if chunk_size divides n_events or is larger. False otherwise: the last chunk has chunk_size events as well, so there are events from n_events on. n_events = 0 raises an exception.", "quantifier": "all settings, all random numbers, all n_events and chunk sizes", "why_tests_cant": "Whether an event with a number that is too high has a hit depends on random numbers; the default chunk size is 100000, larger than in tests.", "anchors": ["beam_telescope_analysis/tools/simulate_data.py:454-503", "beam_telescope_analysis/tools/simulate_data.py:795-831"]}
{"id": "C136", "title": "Simulated hit tables are ordered and inside of the sensor", "statement": "The hit table of each DUT is ordered in the event number, as required by all other functions, and with pixel discretization all columns and rows are between 1 and the number of pixels, with or without charge sharing, shuffling, inefficiency, noise and threshold. The tables have the hits of all chunks in this order, with the charge in units of ten electrons.", "quantifier": "all settings, all random numbers, all numbers of events and chunk sizes", "why_tests_cant": "Hits are added, permuted and removed at random.", "anchors": ["beam_telescope_analysis/tools/simulate_data.py:454-503", "beam_telescope_analysis/tools/simulate_data.py:689-793"]}
{"id": "C137", "title": "Changing the number of simulated DUTs", "statement": "Setting n_duts to a smaller number keeps all settings. Setting it to a larger number resets to the standard settings for this number of DUTs. The second is false: the standard settings are made for the old number of DUTs, and simulating data raises an exception always. After a reset there are six DUTs in distances of one centimeter.", "quantifier": "all settings, all numbers of DUTs, all random numbers", "why_tests_cant": "The number can be changed from any to any number.", "anchors": ["beam_telescope_analysis/tools/simulate_data.py:372-446", "beam_telescope_analysis/tools/simulate_data.py:454-496"]}
{"id": "C138", "title": "Shuffled hits stay in their event", "statement": "Tracks are created in the order of the events and each event has the number of tracks drawn for it. Shuffling the hits of a DUT permutes the hits inside of each event, never between events, and loses none.", "quantifier": "all numbers of tracks in all events (also none), all hits, all permutations", "why_tests_cant": "The boundaries of the events depend on random numbers of tracks.", "anchors": ["beam_telescope_analysis/tools/simulate_data.py:329-358", "beam_telescope_analysis/tools/simulate_data.py:795-826"]}
{"id": "C139", "title": "Charge sharing does not create charge", "statement": "With charge sharing and without noise, each track makes one cluster: the pixels are different, each has at least 1% of the charge of the track, and together they have at most its charge. False for temperature 0: two pixels have the whole charge each. The setting digitization_sigma_cc has no effect on the data.", "quantifier": "all positions and charges of tracks, all pixel sizes, thicknesses, temperatures and bias voltages above zero", "why_tests_cant": "The pixels are found by four nested loops with abort conditions that depend on real numbers.", "anchors": ["beam_telescope_analysis/tools/simulate_data.py:38-326", "beam_telescope_analysis/tools/simulate_data.py:689-793"]}
{"id": "C140", "title": "Tracks make hits in the pixel they pass", "statement": "Without charge sharing, each track in the sensor makes exactly one hit, in a pixel that contains its position, with column and row counted from 1. With charge sharing there is also a hit in this pixel, if at least 1% of the charge is in it. The second is false for the last column and row of the sensor, in which there is never a hit, if no track is beyond the sensor.", "quantifier": "all positions of tracks, all pixel sizes and numbers of pixels, all random numbers", "why_tests_cant": "Positions are real numbers, borders of pixels are rarely met by tests; edges of sensors are out of the beam.", "anchors": ["beam_telescope_analysis/tools/simulate_data.py:722-765", "beam_telescope_analysis/tools/simulate_data.py:130-293"]}
{"id": "C141", "title": "Beam parameters of simulated tracks", "statement": "The positions of the tracks have the mean values and the sigmas of beam_position and beam_position_sigma, theta is the absolute value of an angle with the mean beam_angle and the sigma beam_angle_sigma in mrad and between 0 and pi, and phi is in the range of beam_direction. False for y: the sigma of x is used, if the sigma of y is not zero.", "quantifier": "all settings, all random numbers, all numbers of tracks", "why_tests_cant": "With the same sigma for x and y, as in the standard settings, no test can see it; otherwise results are random.", "anchors": ["beam_telescope_analysis/tools/simulate_data.py:505-562"]}
{"id": "C142", "title": "Simulated hits lie on the DUT planes and tracks", "statement": "Each track makes one hit on the plane of each DUT, for all positions and rotations. Without material, the hits of a track lie on its straight line. At a DUT with material the direction of the track changes by a scattering angle with the sigma of the Highland formula, and the next hit lies on the straight line in the new direction. A track parallel to the first plane raises an exception (and does not make NaN, as documented).", "quantifier": "all positions and rotations of DUTs, all tracks, all random numbers", "why_tests_cant": "Real-valued rotations and angles.", "anchors": ["beam_telescope_analysis/tools/simulate_data.py:564-687"]}
{"id": "C143", "title": "Efficiency and threshold of a simulated DUT", "statement": "With an efficiency between 0 and 1 (and threshold 0), exactly the integer part of n (1 - efficiency) of the n hits of each chunk are removed, and the other hits are not changed and keep their order. With a threshold, exactly the hits with at least this charge (including noise) remain.", "quantifier": "all numbers of hits, all efficiencies, all permutations", "why_tests_cant": "The removed hits are chosen at random.", "anchors": ["beam_telescope_analysis/tools/simulate_data.py:767-787"]}
{"id": "C144", "title": "The fitted straight line is the best line through the hits of the fit DUTs", "statement": "With method \"fit\", no straight line has a smaller sum of squared distances to the hits of the fit DUTs (in global coordinates) than the stored track of any DUT. If the hits lie on a straight line, the stored track is this line and it gives the position of every hit on it. Neither the errors of the hits nor the hits of other DUTs have an influence on the stored line.", "quantifier": "all telescopes, all rotations, any number of DUTs, any hits, any fit DUTs", "why_tests_cant": "Optimality is a statement about all lines and all real-valued hits.", "anchors": ["beam_telescope_analysis/track_analysis.py:923-968", "beam_telescope_analysis/track_analysis.py:1433-1482", "beam_telescope_analysis/track_analysis.py:1056-1143"]}
{"id": "C145", "title": "chi2 of straight line tracks", "statement": "The stored chi2 is the sum over the hits in the fit DUTs of the squared residuals divided by the squared errors, and the reduced chi2 is chi2 divided by two times the number of hits minus four. Hits on a straight line, in particular two hits, have chi2 zero.", "quantifier": "all tracks, all hits, all errors", "why_tests_cant": "Sums over any number of real-valued residuals; special cases of the inputs.", "anchors": ["beam_telescope_analysis/track_analysis.py:1111-1143", "beam_telescope_analysis/track_analysis.py:1264-1274"]}
{"id": "C146", "title": "The stored tracks of all DUTs are one straight line", "statement": "With method \"fit\", the positions and directions stored for the DUTs of the telescope belong to one and the same line in space. The positions lie on the sensors, the directions have length one and do not point backwards. An exception is raised exactly if a hit of a fit DUT is not in the sensor plane, or if a single track is parallel to a single DUT.", "quantifier": "all telescopes and rotations, all tracks", "why_tests_cant": "Real-valued rotations; the exception depends on all tracks of a chunk.", "anchors": ["beam_telescope_analysis/track_analysis.py:1056-1143", "beam_telescope_analysis/track_analysis.py:923-968"]}
{"id": "C147", "title": "Number of CPU cores does not change the fitted tracks", "statement": "The straight line fit gives the same tracks in the same order, whatever the number of processes is. The candidates are split into parts whose sizes differ by one at most.", "quantifier": "all numbers of processes, all numbers of candidates (also fewer candidates than processes)", "why_tests_cant": "Depends on the machine; all sizes.", "anchors": ["beam_telescope_analysis/track_analysis.py:951-968"]}
{"id": "C148", "title": "Each selected DUT of fit_tracks gets its own settings", "statement": "The arguments select_duts, select_fit_duts, select_hit_duts, min_track_hits, exclude_dut_hit, quality_distances and isolation_distances are accepted exactly in the documented forms (None, one value for all, or a list with a value or None for each DUT), and each DUT is fitted with the settings given for it: its table is the one of a call for this DUT alone. Without arguments all DUTs are fitted, each with hits in all other DUTs; this needs three DUTs.", "quantifier": "all telescopes, all values of the arguments", "why_tests_cant": "All combinations of forms of seven arguments.", "anchors": ["beam_telescope_analysis/track_analysis.py:648-765", "beam_telescope_analysis/track_analysis.py:771-822"]}
{"id": "C149", "title": "fit_tracks does not change the lists given by the caller", "statement": "After a call of fit_tracks, the lists given as select_fit_duts and select_hit_duts contain the same values as before, so that they can be used again for another telescope.", "quantifier": "all lists, all telescopes", "why_tests_cant": "Effect on an argument, visible only in a later call.", "anchors": ["beam_telescope_analysis/track_analysis.py:674-676", "beam_telescope_analysis/track_analysis.py:700-702"]}
{"id": "C150", "title": "align_kalman aligns the groups in order, each with its own settings", "statement": "The arguments select_duts, alignment_parameters, select_hit_duts, select_fit_duts, max_events and max_tracks are accepted exactly in the stated forms (one value, or a value for each group), and the settings of every group follow uniquely from them. If a call returns, the groups have been aligned one after the other: each with the track candidates and settings of its own, starting from the alignment that the groups before have given. The alignment file holds the lines of all groups in this order and no others, and no file with track candidates of the groups is left.", "quantifier": "all telescopes, arguments, track candidates, all numbers of groups", "why_tests_cant": "State carried between groups; forms of many arguments.", "anchors": ["beam_telescope_analysis/dut_alignment.py:914-1178", "beam_telescope_analysis/dut_alignment.py:1321-1666"]}
{"id": "C151", "title": "align_kalman can be called with the documented defaults", "statement": "A call of align_kalman with default or None values for select_duts, select_telescope_duts, alignment_parameters, alignment_parameters_errors and track_chi2, or with a number for track_chi2, aligns the telescope as documented.", "quantifier": "all telescopes, all other arguments", "why_tests_cant": "A statement about all calls that leave an argument out.", "anchors": ["beam_telescope_analysis/dut_alignment.py:914-1010", "beam_telescope_analysis/dut_alignment.py:1321-1420"]}
{"id": "C152", "title": "alignment_parameters of align_kalman belong to the DUTs of a group", "statement": "With alignment_parameters given as documented (for each group a list with one item for each DUT of the group), each DUT of each group is aligned in the parameters of its item, for all groups.", "quantifier": "all telescopes, all groups", "why_tests_cant": "All partitions of the DUTs in groups.", "anchors": ["beam_telescope_analysis/dut_alignment.py:950-1010", "beam_telescope_analysis/dut_alignment.py:1983-2020"]}
{"id": "C153", "title": "min_track_hits has no influence on align_kalman", "statement": "Every accepted value of min_track_hits gives exactly the same configuration and files as no value. A track candidate that misses one of the fit DUTs is never used, however many hits it has and whatever min_track_hits is.", "quantifier": "all telescopes, arguments, track candidates", "why_tests_cant": "Equality of the results of two calls for all data.", "anchors": ["beam_telescope_analysis/dut_alignment.py:1100-1178", "beam_telescope_analysis/dut_alignment.py:1440-1560"]}
{"id": "C154", "title": "align_kalman changes only what it is asked to change", "statement": "The input configuration is never changed, and no configuration file but the output file; the input file is refused as output file without touching anything. DUTs in no group keep their alignment, whether the call returns or raises. The positions of the first and the last telescope plane are kept, also if they are selected.", "quantifier": "all telescopes, arguments, track candidates, calls that return or raise", "why_tests_cant": "Frame condition.", "anchors": ["beam_telescope_analysis/dut_alignment.py:1010-1178", "beam_telescope_analysis/dut_alignment.py:1630-1666"]}
{"id": "C155", "title": "The arguments of a call are recorded in its output files", "statement": "A function of the analysis that returns a file, a list of files, or several values of which the first is a file or a list of files leaves in each of these files a table arguments/<function name> with one line (name, text of the value) for each argument given in the call, in the order of the call, and with the time of the call; arguments left out have no line, the table of an earlier call is replaced. Nothing else in files or memory differs from what the function alone does, and the result is the same. The call raises after the function has returned exactly if one of the files is no pytables file or a text is not ASCII.", "quantifier": "all functions, arguments, return values and states of files", "why_tests_cant": "All functions and forms of return values; frame condition.", "anchors": ["beam_telescope_analysis/tools/storage_utils.py:23-96"]}
{"id": "C156", "title": "The recorded arguments are those the caller has given", "statement": "The table arguments/<function name> contains for each argument the text of the value that the caller has given.", "quantifier": "all functions and values", "why_tests_cant": "Long values, values changed by the function, non-ASCII text.", "anchors": ["beam_telescope_analysis/tools/storage_utils.py:18-20", "beam_telescope_analysis/tools/storage_utils.py:47-52", "beam_telescope_analysis/tools/storage_utils.py:71-96", "beam_telescope_analysis/track_analysis.py:674-676"]}
{"id": "C157", "title": "save_configuration_dict stores the date of creation", "statement": "The table written by save_configuration_dict has the attribute date_created with the date given as float or time.struct_time, or the present time if none is given.", "quantifier": "all dictionaries, files and dates", "why_tests_cant": "All kinds of dates.", "anchors": ["beam_telescope_analysis/tools/storage_utils.py:53-58"]}
{"id": "C158", "title": "In-pixel maps of calculate_efficiency count each track of the region once", "statement": "For each efficiency region, the in-pixel maps of calculate_efficiency (tracks, tracks with a hit within the cut, mean charge, cluster size and distance, efficiency) count each used track of the region once, in the square of the primitive cell that contains the position of the track folded into the cell, and the result does not depend on chunk_size.", "quantifier": "all track tables, regions, cuts, pixel pitches, in-pixel resolutions and chunk sizes", "why_tests_cant": "The fold, the binning and the sums over chunks interact at the ends of pixels; all positions and chunkings are needed.", "anchors": ["beam_telescope_analysis/result_analysis.py:862-955", "beam_telescope_analysis/result_analysis.py:1083-1262"]}
{"id": "C159", "title": "In-pixel map of hits shows the hits within the cut", "statement": "For each efficiency region, the in-pixel map of the hit positions of calculate_efficiency counts the hits within the cut distance of a used track of the region, each in the square of its folded position, and does not depend on chunk_size.", "quantifier": "all track tables, regions, cuts and chunk sizes", "why_tests_cant": "Which hits are counted depends on the other tracks in the same chunk.", "anchors": ["beam_telescope_analysis/result_analysis.py:1083-1146", "beam_telescope_analysis/result_analysis.py:1224-1262"]}
{"id": "C160", "title": "extend_in_pixel_areas continues the in-pixel maps periodically", "statement": "With extend_in_pixel_areas the in-pixel maps of calculate_efficiency are continued beyond the primitive cell by at least the given length on each side, and a square outside of the cell has the contents of the square at the equivalent position of the cell.", "quantifier": "all maps, extensions, pitches and in-pixel resolutions", "why_tests_cant": "The number of squares is rounded; all sizes are needed.", "anchors": ["beam_telescope_analysis/result_analysis.py:1491-1553"]}
{"id": "C161", "title": "calculate_efficiency uses for each DUT its own pair with documented defaults", "statement": "calculate_efficiency uses for each DUT the resolution (in-pixel resolution, cut distance) given for it: a tuple is used for all DUTs, a list has an entry for each DUT, and where the entry or one of its elements is None the documented default of this DUT is used. The arguments of the caller are not changed.", "quantifier": "all arguments, all numbers of DUTs", "why_tests_cant": "Arguments may be shared between DUTs and calls; all combinations of None, tuples and lists are needed.", "anchors": ["beam_telescope_analysis/result_analysis.py:630-666", "beam_telescope_analysis/result_analysis.py:770-786", "beam_telescope_analysis/result_analysis.py:820-827", "beam_telescope_analysis/result_analysis.py:864-873", "beam_telescope_analysis/result_analysis.py:1064-1070"]}
{"id": "C162", "title": "calculate_efficiency refuses malformed arguments before it replaces the output file", "statement": "If the pairs, the efficiency regions or their names do not have the documented form (an entry for each DUT, two elements for each pair, regions with two directions with two limits, a name for each region), calculate_efficiency raises a ValueError and an existing output file is not replaced; for arguments of the documented form it raises no ValueError. Each region gets the name given for it.", "quantifier": "all arguments, all numbers of DUTs", "why_tests_cant": "All forms of nested arguments are needed.", "anchors": ["beam_telescope_analysis/result_analysis.py:630-811"]}
{"id": "C163", "title": "Efficiency of a pixel is that of the tracks through this pixel", "statement": "In calculate_efficiency each track on the sensor is counted for the pixel it goes through (the pixel with the closest centre), with the number column * n_rows + row, and a track that misses the sensor is counted for no pixel; the efficiency of a pixel is the fraction of the used tracks through this pixel which have a hit within the cut, for every chunk_size.", "quantifier": "all sensors, track tables, cuts and chunk sizes", "why_tests_cant": "Image points are added beyond the border of the sensor; all positions, in particular near the border and at the corners, are needed.", "anchors": ["beam_telescope_analysis/result_analysis.py:974-984", "beam_telescope_analysis/result_analysis.py:1263-1269", "beam_telescope_analysis/tools/analysis_utils.py:1064-1141"]}
{"id": "C164", "title": "2D histograms of calculate_efficiency cover the sensor with bins of the given resolution", "statement": "The 2D histograms of calculate_efficiency have bins of exactly the given resolution, symmetric around the centre of the DUT, which cover the sensor and the area given by extend_areas on each side; each track on the sensor is in exactly one bin; with the default resolution the bins are the pixels.", "quantifier": "all sensors, resolutions and extensions", "why_tests_cant": "Sizes need not be multiples of the resolution; all sizes are needed.", "anchors": ["beam_telescope_analysis/result_analysis.py:834-858"]}
{"id": "C165", "title": "disabled_pixel_masks removes exactly the tracks through disabled pixels", "statement": "With a mask in disabled_pixel_masks, calculate_efficiency uses exactly the tracks that go through a pixel of the sensor which is not disabled; without a mask all tracks are used.", "quantifier": "all sensors, masks and track positions", "why_tests_cant": "All masks and positions are needed.", "anchors": ["beam_telescope_analysis/result_analysis.py:1033-1046"]}
{"id": "C166", "title": "Number of hits with charge sharing", "statement": "With charge sharing there are never more than five hits for each track of a chunk on average. If charge sharing would make more, simulating data raises a RuntimeError; otherwise there is no exception.", "quantifier": "all tracks, pixel sizes, charges and fractions of the charge", "why_tests_cant": "The limit depends on the sum over all tracks of a chunk of a random number of hits.", "anchors": ["beam_telescope_analysis/tools/simulate_data.py:130-326", "beam_telescope_analysis/tools/simulate_data.py:736-747"]}
{"id": "C167", "title": "Residual histograms are centred on the peak and have whole pixels and bins", "statement": "For the histograms of calculate_residuals with nbins_per_pixel = m: the histogram of the residuals in a direction is centred on the detected peak of the residuals of the first chunk and extends a whole number k of pixels to both sides, with k the smallest number >= 3 and >= 3 FWHM (in pixels); each pixel has exactly m bins, and a residual is counted iff its distance from the peak is at most k pixels. Without nbins_per_pixel there are 200 bins over at least 6 FWHM on both sides (twice as far). If no peak is found the histogram covers 18 pixels on both sides of zero; so with equal residuals more than 18 pixels from zero no residual is counted at all.", "quantifier": "all pixel sizes, numbers of bins, residuals, results of the peak detection", "why_tests_cant": "The width depends on the FWHM through rounding up and making even; only a proof covers all widths and offsets.", "anchors": ["beam_telescope_analysis/result_analysis.py:133-181", "beam_telescope_analysis/result_analysis.py:190-204"]}
{"id": "C168", "title": "Bins used for the fit of residuals against position", "statement": "Expected for the straight line through the mean residuals against the position (calculate_residuals): with limits, the fit uses exactly the position bins with entries and a finite mean whose centre lies within the limits. This holds if at least one bin centre lies above the lower and one below the upper limit. Otherwise the limit is ignored and all bins are used, though none lies within the limits. Without limits only the fullest bins are used: a bin with at least as many entries as a used one is used, and more than 0.32 (n - 1) of n bins with entries are left out; if all bins have the same number of entries none is used. The result is NaN iff fewer than two bins are used. The line minimises the squared distances of the used bins, weighted with the square of their numbers of entries.", "quantifier": "all bins, numbers of entries, means, limits", "why_tests_cant": "Tests use one beam profile and limits inside of the sensor.", "anchors": ["beam_telescope_analysis/tools/analysis_utils.py:885-927"]}
{"id": "C169", "title": "Pixel hits around a track with input_cluster_files", "statement": "Expected for calculate_efficiency with input_cluster_files: for each bin of the sensor and each relative pixel position, the array counts the hits (of the cluster files) that belong to the cluster of a track with valid hit in this bin, at the position of the hit relative to the pixel of the bin. True if every such cluster consists of one hit. False otherwise: as soon as the cluster of one track with valid hit has two or more hits, the call raises an exception, whatever the data; a chunk of cluster hits without any hit of such a cluster raises a ZeroDivisionError, no track with valid hit an IndexError. The array of relative positions always has an odd number (at least 3) of columns and rows and covers at least 500 um on both sides. A track with valid hit outside of the histogram raises a ValueError, and only that does while the bins are determined.", "quantifier": "all tables of tracks and cluster hits, all maps of bins to pixels, all pixel sizes", "why_tests_cant": "An end-to-end test with multi-hit clusters and cluster files is needed to see the exception; that it is always raised needs a proof.", "anchors": ["beam_telescope_analysis/result_analysis.py:985-1005", "beam_telescope_analysis/result_analysis.py:1419-1453", "beam_telescope_analysis/tools/analysis_utils.py:1171-1217"]}
{"id": "C170", "title": "Charge, frame and cluster size histograms do not depend on the chunks", "statement": "In the efficiency regions (and for the whole DUT) calculate_efficiency fills histograms of charge, frame and cluster size chunk by chunk and enlarges them when a later chunk has larger values. For every division into chunks, entry i is the number of tracks with valid hit with value i in all chunks, the last entry is that of the largest value, and the result is the same for all divisions. The charge is truncated: entry i counts charges from i up to (not including) i + 1; a charge between -1 and 0 is counted in entry 0. A negative value raises a ValueError, and only that.", "quantifier": "all numbers of chunks, all values", "why_tests_cant": "Tests use one chunk; the enlargement matters only if a later chunk has larger or smaller maximum.", "anchors": ["beam_telescope_analysis/result_analysis.py:1159-1185", "beam_telescope_analysis/result_analysis.py:1299-1306"]}
{"id": "C171", "title": "Track angle histograms in efficiency regions", "statement": "The track angle histograms of an efficiency region contain the tracks of all chunks with valid hit in the region and an angle within the range of the first chunk. The call succeeds iff there is at least one bin, every chunk has a track in the region and the first chunk a track with valid hit in the region: a region without hit in the first chunk (efficiency 0) makes the whole call raise a ValueError, even if later chunks have hits.", "quantifier": "all numbers of chunks and bins, all tracks", "why_tests_cant": "Tests have hits in all regions and one chunk.", "anchors": ["beam_telescope_analysis/result_analysis.py:1158", "beam_telescope_analysis/result_analysis.py:1186-1207"]}
{"id": "C172", "title": "Binned groups", "statement": "binned_statistic applies the function for each bin to the values in the bin, in their order, like the scipy function of the same name. This holds for positions from the lower end up to (not including) the upper end. The upper end itself, which scipy puts into the last bin, raises a ValueError like every position above it; positions less than one bin width below the range are wrongly put into the first bin, and only those further below raise a ValueError.", "quantifier": "all positions, values, functions, ranges with lower end < upper end, numbers of bins", "why_tests_cant": "Needs values exactly at and closely outside of the range.", "anchors": ["beam_telescope_analysis/tools/analysis_utils.py:972-983"]}
{"id": "C173", "title": "Unique neighbours of an array element", "statement": "With a square structuring element (default 3 x 3) count_unique_neighbors gives for every element the number of different values among the elements of the array that are at most the given number of rows and columns away, the element itself included, also at the border. With any other structuring element with an odd number of rows and columns this holds for the selected elements away from the border. The call raises an exception iff the structuring element is not square, has an even number of rows, or selects nothing; symmetry, which the documentation asks for, is not checked.", "quantifier": "all arrays with non-negative values and more rows and columns than the distance, all structuring elements", "why_tests_cant": "Border treatment by reflection is right for all sizes and positions only by an argument about the reflected indices.", "anchors": ["beam_telescope_analysis/tools/analysis_utils.py:1253-1291"]}
{"id": "C174", "title": "Each DUT of select_tracks gets its own criteria", "statement": "Every list of DUTs given to select_tracks is either not given (no selection), a list of numbers (used for all selected DUTs), or a list with a list or None for each selected DUT; the query is a string for all DUTs or a list of strings. The output contains for each selected DUT, in their order, exactly the tracks that have a hit, no hit, quality and isolation in the DUTs of the lists given for this DUT and for which its query is true. With only a query the call raises an exception after the first DUT.", "quantifier": "all numbers of DUTs, all arguments, all tables, all flags", "why_tests_cant": "The combination of argument forms and DUTs is unbounded.", "anchors": ["beam_telescope_analysis/tools/data_selection.py:191-476"]}
{"id": "C175", "title": "select_tracks refuses wrong arguments before it replaces the output file", "statement": "If the arguments do not have one of the documented forms (including contradicting lists), select_tracks raises an exception and leaves the output file as it is. This is false for a DUT without track table in the input file, a negative number in a list, and a DUT selected twice: the exception is raised after the output file has been replaced.", "quantifier": "all arguments, all input files", "why_tests_cant": "Tests check the exception, not what is left in the output file.", "anchors": ["beam_telescope_analysis/tools/data_selection.py:231-380"]}
{"id": "C176", "title": "Track candidates do not depend on the chunk size", "statement": "find_tracks gives the same candidates for every chunk size larger than the number of rows of each event, namely those that it would find with the complete table in one chunk; the candidates of an event do not depend on the other events of the file. Each row of the output has the event number of the same row of the input; for each of up to 10 DUTs all columns come from one row of the input with the same event number, every row of the input is used once for each DUT, other columns are unchanged, and the hit flag has the bits of the DUTs with a hit.", "quantifier": "all merged tables sorted by event number, all chunk sizes, all positions and alignments, any arithmetic", "why_tests_cant": "Tests use one chunk size and few events; a wrong offset between chunks or an event that influences the next one appears only for particular tables.", "anchors": ["beam_telescope_analysis/track_analysis.py:179-303"]}
{"id": "C177", "title": "max_events of find_tracks is a selection of complete events", "statement": "With max_events set, find_tracks gives the candidates of the table that reduce_events makes with the same max_events and chunk_size, and raises an exception iff reduce_events does. The output is the output without limit restricted to a set of at most max_events events, complete with all their rows.", "quantifier": "all merged tables sorted by event number, all chunk sizes, all limits, all random choices", "why_tests_cant": "The selection is random and depends on the number of rows of each chunk.", "anchors": ["beam_telescope_analysis/track_analysis.py:179-303"]}
{"id": "C178", "title": "Separated tracks are found", "statement": "If the hits of an event come from tracks that each have a hit in the first DUT, and each hit is closer to where its own track is expected than to where other tracks are expected, and closer than the hits of other tracks, then every candidate of find_tracks has exactly the hits of one track, whatever the order of the hits in the input and whichever hits are missing in the other DUTs. Straight tracks satisfy this if their distance in each DUT is at least four times their sideways displacement. Other events have no influence. There is no cut on the distance: hits of an event with a single row stay together.", "quantifier": "all numbers of tracks, DUTs and missing hits, all orders of hits, all positions; any arithmetic with an asymmetric comparison for the general form", "why_tests_cant": "The number of orders and of combinations of missing hits grows factorially; the swap correction is recursive.", "anchors": ["beam_telescope_analysis/track_analysis.py:309-516"]}
{"id": "C179", "title": "Columns of the merged cluster table belong to the DUT of the cluster", "statement": "In a row of the table written by merge_cluster_data, all columns with the suffix of DUT k hold the values of the cluster of DUT k in this row, and of no other DUT: charge, frame, number of hits, ID, shape and number of clusters as in the cluster file; position and errors from mean_x, mean_y, err_x, err_y with z = 0 for files with positions, and otherwise the local position of (mean_column, mean_row) and the column and row errors times the pixel sizes of DUT k, with z error 0. Without a cluster of DUT k the positions, errors and charge are NaN and the other columns 0. Bit k of hit_flag is set exactly if the row has a cluster of DUT k (up to 32 DUTs).", "quantifier": "for any number of DUTs, any mixture of files with and without positions, all clusters and pixel geometries", "why_tests_cant": "Column names are built from strings; a clash or mix of names (e.g. DUT 1 and DUT 11) depends on the number of DUTs, and tests use four.", "anchors": ["beam_telescope_analysis/hit_analysis.py:1562-1600", "beam_telescope_analysis/hit_analysis.py:1622-1716"]}
{"id": "C180", "title": "No cluster is lost, invented or split between the cluster files and the track candidates", "statement": "For merge_cluster_data followed by find_tracks on its output (up to 10 DUTs, chunk size larger than the number of clusters of one DUT in one event): both steps succeed, and for every DUT and every event up to the last event of the first DUT, the clusters of the DUT in the candidate rows of the event are exactly the clusters of this event in the cluster file, each once; all columns of a DUT in a row stem from the same cluster, or are all those for no cluster.", "quantifier": "for any number of DUTs up to 10, any cluster tables sorted by event number, chunk sizes, geometries, alignments and arithmetic", "why_tests_cant": "The claim joins chunked reading of several files with the swapping of hits within events; tests compare one output file.", "anchors": ["beam_telescope_analysis/hit_analysis.py:1536-1725", "beam_telescope_analysis/track_analysis.py:179-303"]}
{"id": "C181", "title": "compare_h5_files passes exactly for files with the same content", "statement": "compare_h5_files with exact=True passes exactly if every node that is not ignored is in both files with the same column names, types, shape and values (NaN equal to NaN), or with node_names, if each of these nodes is in both files with the same content; files with the same content always pass, a missing node always fails, and the nodes named in the message are exactly the different ones, whatever the chunk size.", "quantifier": "for all files, node lists, chunk sizes and numbers of rows", "why_tests_cant": "The fixtures of the tests themselves are compared with this function; an error of the comparison that depends on the number of rows and the chunk size hides every other error.", "anchors": ["beam_telescope_analysis/tools/test_tools.py:39-82", "beam_telescope_analysis/tools/test_tools.py:201-307"]}
{"id": "C182", "title": "compare_h5_files with a tolerance compares every value", "statement": "compare_h5_files with exact=False passes exactly if all nodes that are not ignored have the same structure and each value agrees with the value at the same place within the tolerances (NaN with NaN only).", "quantifier": "for all files, tolerances and chunk sizes", "why_tests_cant": "Whether a column is compared depends on the types of the columns before it; fixtures have fixed columns.", "anchors": ["beam_telescope_analysis/tools/test_tools.py:85-128", "beam_telescope_analysis/tools/test_tools.py:201-307"]}
{"id": "C183", "title": "Fixture functions are called with all combinations of list arguments", "statement": "create_fixture and check_with_fixture call the function once for each combination of the values of list arguments, in the order of nested loops with the last keyword innermost; all other arguments are passed unchanged, and each value is passed for its own keyword, wherever the constant arguments are placed.", "quantifier": "for all keyword arguments, mixtures of lists and constants, and numbers of values", "why_tests_cant": "The code separates constants from lists and puts them back by position; the positions shift with each insertion, and a few signatures do not show that this is right for all.", "anchors": ["beam_telescope_analysis/tools/test_tools.py:328-365"]}
{"id": "C184", "title": "check_with_fixture accepts exactly the stored results", "statement": "check_with_fixture returns True exactly if the function gives as many results as stored in the fixture and each result agrees with the stored value of the same call within the tolerance. A fixture made by create_fixture with the same function and arguments is accepted.", "quantifier": "for all functions with numbers as results, arguments and fixtures", "why_tests_cant": "Broadcasting accepts arrays of different shapes, which only shows for a fixture with one value.", "anchors": ["beam_telescope_analysis/tools/test_tools.py:368-410"]}
{"id": "C185", "title": "Straight tracks become track candidates with exactly their hits", "statement": "merge_cluster_data followed by find_tracks: in every event (up to the last event of the first DUT) whose clusters are the exact crossing points of straight tracks, where each track has a cluster in the first DUT, moves less than a distance R sideways and is at least 4 R away from the other tracks, there is exactly one track candidate for each track. It has the position and errors of the track's own cluster in each DUT, and no hit in a DUT where the track has no cluster, whatever the order of the clusters in the files and whatever the other events contain. With align_to_beam=True this holds for telescopes whose position in the beam leaves the sensor planes where they are (see C187). The hit flag of the candidate has exactly the bits of the DUTs in which the track has a cluster.", "quantifier": "for all cluster tables, pixel geometries, alignments (up to 10 DUTs, arbitrary rotations), z orders, extrapolation DUTs, chunk sizes and event contents", "why_tests_cant": "The statement spans two programs with files between them and holds for all orders of clusters, missing clusters and rotated DUTs; tests check a few stored files for each step alone.", "anchors": ["beam_telescope_analysis/hit_analysis.py:1532-1729", "beam_telescope_analysis/track_analysis.py:30-303"]}
{"id": "C186", "title": "Clusters on straight tracks give back the tracks", "statement": "merge_cluster_data, find_tracks and fit_tracks with method \"fit\": if all events (up to the last event of the first DUT) consist of separated straight tracks as in C185, then each event has as many candidates as tracks, with the clusters of the tracks; the fit of any set of candidates that have hits in two of the fit DUTs does not fail, for any set of fit DUTs; the track position stored for every DUT (with or without hit) is the point where the true track crosses the sensor, in local coordinates, and chi2 is zero.", "quantifier": "for all cluster tables, alignments, sets of fit DUTs, chunk sizes and numbers of processes", "why_tests_cant": "Only for the whole chain a user can compare with the truth; tests compare each step with stored output of the same code.", "anchors": ["beam_telescope_analysis/hit_analysis.py:1532-1729", "beam_telescope_analysis/track_analysis.py:30-303", "beam_telescope_analysis/track_analysis.py:840-1274", "beam_telescope_analysis/track_analysis.py:1433-1482"]}
{"id": "C187", "title": "With align_to_beam a track is expected where it crosses the next sensor", "statement": "find_tracks with align_to_beam=True: the hit of a track is looked for at the point where the line through its hits in two other DUTs crosses the sensor, for all positions and rotations of the telescope in the beam.", "quantifier": "for all telescope positions and rotations, DUT alignments and tracks", "why_tests_cant": "Only the hits are transformed into the coordinates of the beam, the sensor planes are not; with the small rotations of the test data the difference is too small to exchange hits.", "anchors": ["beam_telescope_analysis/track_analysis.py:235-274", "beam_telescope_analysis/track_analysis.py:363-403", "beam_telescope_analysis/track_analysis.py:434-473"]}
{"id": "C188", "title": "The measured efficiency is the true efficiency", "statement": "merge_cluster_data, find_tracks, fit_tracks with method \"fit\" and calculate_efficiency, for data of separated straight tracks as in C185. fit_tracks does not fail and writes a table for each selected DUT. Whenever calculate_efficiency returns, the efficiency of each bin of the first DUT is 100 % times the number of true tracks that cross the DUT in this bin in an enabled pixel, have clusters in all required DUTs and in enough fit DUTs, and have a cluster in the DUT, divided by the number of such tracks with or without cluster in the DUT; both numbers are stored, too. The overall efficiency is the same ratio for all tracks inside the histogram. calculate_efficiency does return if the tracks fit into one chunk, all cross the sensor inside the histogram and a bin with enough tracks has an efficiency above zero.", "quantifier": "for all cluster tables with straight tracks, alignments, selections of DUTs (fit DUTs, required DUTs, minimum number of hits, exclusion of the DUT), quality and isolation cuts, chunk sizes, binnings, masks and distance cuts that are not negative", "why_tests_cant": "The result of the analysis is compared with the truth over four programs; tests compare each step with stored output of the same code.", "anchors": ["beam_telescope_analysis/hit_analysis.py:1532-1729", "beam_telescope_analysis/track_analysis.py:30-303", "beam_telescope_analysis/track_analysis.py:840-1311", "beam_telescope_analysis/result_analysis.py:1017-1605"]}
{"id": "C189", "title": "calculate_efficiency returns exactly with enough data", "statement": "Without efficiency regions, calculate_efficiency for a DUT returns if and only if the first chunk of its track table has a track with a close hit, every chunk with a close hit has a track inside the histogram (unless no track so far was inside), at least one track is inside the histogram, and some bin with at least minimum_track_density tracks either contains a track with close hit or no track at all. If this holds for all selected DUTs, all are processed and the results of all of them are right.", "quantifier": "for all track tables, settings and chunk sizes (events smaller than a chunk)", "why_tests_cant": "Whether a long analysis ends with an exception depends on the position of tracks and hits relative to chunk borders; tests run one chunk.", "anchors": ["beam_telescope_analysis/result_analysis.py:1017-1605", "beam_telescope_analysis/tools/analysis_utils.py:709-799"]}
{"id": "C190", "title": "Tracks measured with limited resolution become candidates with exactly their hits", "statement": "merge_cluster_data followed by find_tracks, sensors perpendicular to the z axis. The tracks are straight lines, and each cluster is measured with a position error of at most err. In every event (up to the last event of the first DUT) in which any two tracks are separated in each DUT after the first by more than 2 max(move + 2 err, 2 (1 + lev) err), there is one track candidate for each track, and it has exactly the hits of this track. move is the largest sideways distance of a track from its crossing of the first DUT, lev is the largest ratio of an extrapolation distance to the distance of the two DUTs it is extrapolated from.", "quantifier": "for all numbers of DUTs up to 10, positions of the sensors, cluster tables, numbers of tracks, measurement errors, missing clusters (not in the first DUT) and chunk sizes", "why_tests_cant": "Tests use one data set and compare with stored output; that the error of the extrapolation over two planes never leads to exchanged hits is a statement about all positions.", "anchors": ["beam_telescope_analysis/hit_analysis.py:1532-1729", "beam_telescope_analysis/track_analysis.py:30-535"]}
{"id": "C191", "title": "Accuracy of the straight line fit", "statement": "fit_tracks with method \"fit\". If the hits in the fit DUTs are at most err beside a straight line (in z planes), and sqrt(n) err is smaller than the spread Z = sqrt(sum (z - mean z)^2) of the z positions of the n hits, then the fit does not fail for sensors perpendicular to the z axis, and the stored track position on such a DUT at position z is at most err + |z - mean z| sqrt(n) err (1 + s) / (Z - sqrt(n) err) beside the line, where s is the length of the line per distance in z. A hit of this DUT, used for the fit or not, that is at most err beside the line has a residual of at most this plus err.", "quantifier": "for all alignments, candidates, numbers of hits, sets of fit DUTs, lines and measurement errors", "why_tests_cant": "The limit holds for the worst combination of measurement errors; tests can try only a few.", "anchors": ["beam_telescope_analysis/track_analysis.py:911-1101", "beam_telescope_analysis/track_analysis.py:1433-1482", "beam_telescope_analysis/tools/geometry_utils.py:44-140"]}
{"id": "C192", "title": "The measured efficiency is the true efficiency also with limited resolution", "statement": "The chain of C188 for sensors perpendicular to the z axis and clusters with position errors of at most err (separated tracks as in C190). acc is the accuracy of the fitted tracks on the DUT according to C191, and the distance cuts are at least err + acc. Whenever calculate_efficiency returns, the numbers of tracks and efficiencies of each bin of the first DUT are the true ones, provided that no true track crosses the DUT within acc of the border of this bin or of the enabled pixels; the overall efficiency is the true one if no true track is within acc of the border of the histogram or of the enabled pixels. It does return under the conditions of C188.", "quantifier": "for all cluster tables of separated straight tracks with errors, positions of the sensors, selections of DUTs, quality and isolation cuts, chunk sizes, binnings, masks and distance cuts of at least err + acc", "why_tests_cant": "The result of four programs is compared with the truth for all measurement errors within the limit; tests compare single steps with stored output of the same code.", "anchors": ["beam_telescope_analysis/hit_analysis.py:1532-1729", "beam_telescope_analysis/track_analysis.py:30-303", "beam_telescope_analysis/track_analysis.py:840-1311", "beam_telescope_analysis/result_analysis.py:1017-1605"]}
{"id": "C193", "title": "The interval of the efficiency is the shortest one with the requested probability", "statement": "get_mean_efficiency with k of N tracks (0 < N, k <= N) and a requested probability returns the efficiency k / N, a lower error <= 0 and an upper error >= 0. The interval from efficiency + lower error to efficiency + upper error is inside of 0 to 1. The probability (theorem of Bayes with equal probability for all efficiencies) that the efficiency is inside is the requested one, and no other interval inside of 0 to 1 with this probability is shorter, even if it does not contain k / N. Such an interval exists for each probability from 0 to 1 and there is only one.", "quantifier": "for all numbers of tracks and all probabilities from 0 to 1, for any minimiser that solves the problem it is given", "why_tests_cant": "The claim compares with all intervals for all counts; tests compare the result for a few counts with stored numbers.", "anchors": ["beam_telescope_analysis/tools/analysis_utils.py:709-802"]}
{"id": "C194", "title": "The analysis of simulated data measures the simulated efficiency", "statement": "Simulate data with SimulateData.create_data_and_store (digitized, without charge sharing, threshold and multiple scattering; with or without shuffled hits), and analyse it with the same geometry (merge_cluster_data, find_tracks, fit_tracks with the straight line fit, calculate_efficiency). If the simulated tracks cross all sensors, tracks of one event are well separated in comparison with the pixel size, and only one DUT has an efficiency below 100 %: then each event has as many track candidates as simulated tracks, each hit is measured with an error of at most half a pixel diagonal, and the mean efficiency calculated for the DUT is the number of its hits divided by the number of simulated tracks. This is at least the efficiency set in the simulation and exceeds it by less than (number of chunks) / (number of tracks).", "quantifier": "all settings and random numbers of the simulation, numbers of DUTs (up to 10), events and chunk sizes, geometries with sensors perpendicular to z, simulated efficiencies, settings of the analysis with edges and cuts not smaller than the accuracy", "why_tests_cant": "A test runs the chain for one seed and one geometry and compares with a tolerance; it cannot show that the deviation from the simulated efficiency is bounded for every geometry and every sequence of random numbers.", "anchors": ["beam_telescope_analysis/tools/simulate_data.py:454-503", "beam_telescope_analysis/tools/simulate_data.py:505-860", "beam_telescope_analysis/hit_analysis.py:1486-1730", "beam_telescope_analysis/track_analysis.py:150-560", "beam_telescope_analysis/track_analysis.py:724-1180", "beam_telescope_analysis/result_analysis.py:780-1290"]}
{"id": "C195", "title": "The cluster plots show every cluster of the DUT once", "statement": "plot_cluster_hists for a file with clusters shows for each DUT the number of clusters and hits in the titles, for each size the number of clusters, for each of the 15 listed shapes the number of clusters and the rest as others. In files of merged hits, candidates or tracks only the rows with a hit in the DUT are counted. The plots do not depend on the chunk size; with the histograms stored in a cluster file the same is shown. (False parts: a DUT without hit in a chunk raises an exception, so that success depends on the chunk size; for an empty table the plots of the previous DUT are shown, or an exception is raised for the first DUT.)", "quantifier": "for all files with ordered events, all chunk sizes, all numbers of DUTs", "why_tests_cant": "Plots are not compared in tests; the dependence on chunk boundaries appears only for long files.", "anchors": ["beam_telescope_analysis/tools/plot_utils.py:364-535"]}
{"id": "C196", "title": "The chi2 plots count every track once", "statement": "plot_track_chi2 shows for each table of tracks the histograms of chi2 (0 to 20), reduced chi2 (0 to 10) and p-value (0 to 1): every bin is the number of tracks of the table with the value in this bin (the upper end of the last bin belongs to it), for every chunk size. (False parts: the edges of the histogram of the full range are taken from the first chunk only and depend on the chunk size; an empty table shows the histograms of the previous DUT or raises an exception; track candidates are refused.)", "quantifier": "for all files with ordered events, all chunk sizes, all values", "why_tests_cant": "Plots are not compared in tests; the claim is about all values at the edges of bins and all partitions into chunks.", "anchors": ["beam_telescope_analysis/tools/plot_utils.py:847-955"]}
{"id": "C197", "title": "The maps of tracks, hits and charge show every pixel with its own tracks", "statement": "plot_track_density shows for every pixel the number of track intersections and the number of hits inside of it, and the total numbers on the sensor; plot_charge_distribution shows the mean charge of the tracks with intersection (hit) in the pixel, and no value for a pixel without. Both do not depend on the chunk size. (False parts: a DUT without hit on the sensor makes plot_track_density fail; for an empty table the maps of the previous DUT are shown.)", "quantifier": "for all sensors with any number and size of pixels, all tables with ordered events, all chunk sizes", "why_tests_cant": "Plots are not compared in tests; the claim is about all positions including the edges of pixels and the sensor.", "anchors": ["beam_telescope_analysis/tools/plot_utils.py:1033-1111", "beam_telescope_analysis/tools/plot_utils.py:1114-1215"]}
{"id": "C198", "title": "The plot of tracks per event counts every event once", "statement": "plot_tracks_per_event shows for each table one page: for each number of tracks the number of events with this number of tracks, in increasing order, and the total number of events. (False part: a group in the file, as written by the analysis for its arguments, raises an exception after the pages of the tables before it.)", "quantifier": "for all files and all tables", "why_tests_cant": "Plots are not compared in tests; files with and without groups are all states of the input.", "anchors": ["beam_telescope_analysis/tools/plot_utils.py:304-361"]}
{"id": "C199", "title": "The event display shows the tracks of the chosen events", "statement": "plot_events gives in the title the number of tracks with a fit and the number of events in the range (start included, stop excluded), for every chunk size. The ends of the drawn lines are calculated with the DUTs with smallest and largest z position. Every drawn point is on the line of the track. (False part: for a telescope with z positions from 0 on and more than 10 mm long, and tracks in positive z direction, the drawn line ends before the last DUT: it is drawn to negative z.)", "quantifier": "for all files with ordered events, ranges, chunk sizes, positions and rotations of DUTs, tracks", "why_tests_cant": "Interactive plots are not tested; the claim is about all geometries.", "anchors": ["beam_telescope_analysis/tools/plot_utils.py:669-812", "beam_telescope_analysis/tools/geometry_utils.py:44-88"]}
{"id": "C200", "title": "The statistics of the track fit are shares of the tracks", "statement": "The curves of fit_tracks per chunk and DUT show: the share of tracks with hit in the DUT among the tracks fulfilling the hit requirements, and among those with hit the shares with quality flag, isolated track and isolated hit. All are between 0 and 1, each curve is drawn with the largest factor 1, 10 or 100 that keeps it at or below 1. (False part: the last curve, the share of tracks fulfilling the hit requirements with all flags, also counts tracks which do not fulfil the hit requirements.)", "quantifier": "for all chunks of track candidates with all combinations of flags", "why_tests_cant": "Statistics are only drawn, never compared in tests.", "anchors": ["beam_telescope_analysis/track_analysis.py:867-868", "beam_telescope_analysis/track_analysis.py:1038-1240", "beam_telescope_analysis/tools/plot_utils.py:814-845"]}
{"id": "C201", "title": "The plots of masked pixels mark exactly the masked pixels", "statement": "plot_masked_pixels draws one marker for each noisy (disabled) pixel at its column and row, both starting at 1, and the title gives their number. The first page shows the occupancy of all pixels, a second page (only if there is a mask) shows 0 for the pixels of the masks and the occupancy of all other pixels. The projections are the sums over the columns and rows of the page.", "quantifier": "for all sizes of sensors, all masks and all occupancies", "why_tests_cant": "Plots are not compared in tests; a swap of columns and rows is not visible for square symmetric examples.", "anchors": ["beam_telescope_analysis/tools/plot_utils.py:185-302"]}
{"id": "C202", "title": "The cluster plots are made from the single given file", "statement": "plot_cluster_hists uses the one file that is given (cluster, merged, track candidates or tracks file; an empty name counts as not given), refuses a call without file, and uses a cluster file only if it is the only file. (False part: with a merged file and a tracks file one of them is ignored without message.) With a cluster file neither a telescope configuration nor a selection of DUTs is accepted, with another file no name of a DUT.", "quantifier": "for all combinations of arguments", "why_tests_cant": "There are sixteen combinations of given files for each combination of the other arguments; tests call it with one file.", "anchors": ["beam_telescope_analysis/tools/plot_utils.py:364-420"]}
{"id": "C203", "title": "The alignment chain finds where a displaced DUT is", "statement": "Let the clusters of all DUTs be exact crossings of straight tracks, with one DUT not where the configuration says (same angles, another position), all others right. Then merge_cluster_data, find_tracks, fit_tracks (straight line fit without this DUT) and calculate_transformation give: in every selection of the stored tracks, each hit is on its track if the DUT is put at the true position; and if the true tracks with a cluster in the DUT that are inside the used limits determine the position, and the displacement is at most 10^6 (um), the result has the same angles and the true position within 2.4e-4 um.", "quantifier": "all telescopes with sensors perpendicular to z (up to 10 DUTs), all clusters, events and chunk sizes, all displacements for which tracks of one event stay separated", "why_tests_cant": "A test aligns one simulated data set and compares with a tolerance; it cannot show that the alignment recovers every displacement of every telescope through the whole chain.", "anchors": ["beam_telescope_analysis/hit_analysis.py:1486-1730", "beam_telescope_analysis/track_analysis.py:150-560", "beam_telescope_analysis/track_analysis.py:724-1180", "beam_telescope_analysis/dut_alignment.py:1725-1980"]}
{"id": "C204", "title": "The box function for large pixels is a convolution of a box and a Gaussian function", "statement": "gauss_box_erf is identical to gauss_box for every width sigma other than zero. For sigma > 0 its value at x is A times the probability that a normal variable with mean mu and standard deviation sigma is not farther than half of the box width from x. It is between 0 and A, symmetric about mu, and its integral over all x is A times the box width. For sigma = 0 it is the box itself: A inside, 0 outside, NaN on the edges, where gauss_box is NaN everywhere.", "quantifier": "all real parameters and positions", "why_tests_cant": "The claim of the docstring (identical functions) is about all real numbers; a test compares a few points with a tolerance.", "anchors": ["beam_telescope_analysis/tools/analysis_utils.py:642-644", "beam_telescope_analysis/tools/analysis_utils.py:671-694"]}
{"id": "C205", "title": "Fits to residual histograms", "statement": "fit_residuals_gauss and fit_residuals_gauss_box_erf return the parameters of curve_fit with its covariance, unless all entries are in one bin or curve_fit fails with a RuntimeError or TypeError: then they return the largest count, the mean and the standard deviation of the entries (and the given width), without covariance. If all entries are in one bin this is (number of entries, centre of the bin, 0), whatever curve_fit does. If curve_fit finds the least squares and the counts of at least three bins are those of a Gaussian function, the parameters are those of this function, up to the sign of sigma; for the box, the fitted function agrees with all counts. Without a given width the box fit never has a covariance. An exception occurs only without bins or if curve_fit raises another one.", "quantifier": "all histograms and bin edges, every behaviour of curve_fit", "why_tests_cant": "Tests fit some histograms; which of the branches returns, and that an exact histogram has no other solution, is a statement about all of them.", "anchors": ["beam_telescope_analysis/tools/analysis_utils.py:857-882", "beam_telescope_analysis/tools/analysis_utils.py:697-702"]}
{"id": "C206", "title": "The robust search for a line keeps the best try", "statement": "find_intercept_point gives the point of a line nearest to a given point. find_line_model gives a line through the second point that misses the first one only by the fraction epsilon / (dx + epsilon) of the difference. find_ransac returns the line and exactly the points (without the two points of the line) that are closer to it than the threshold, for the try with most such points, among all tries up to the first one with more than the given ratio of all points. The returned ratio is (points found) / (all points), at most (n - 2) / n. If points on a line are picked in some try, the result has at least as many points as there are others on this line, whatever the outliers are, or the search has ended before with enough points. An IndexError is raised exactly for less than two points, an UnboundLocalError exactly if no try has found a point (always for two points).", "quantifier": "all lists of points, all sequences of random permutations, all thresholds and non-negative ratios", "why_tests_cant": "The result depends on random permutations; a test sees a few of them, and can not show that no better try is lost.", "anchors": ["beam_telescope_analysis/dut_alignment.py:412-426", "beam_telescope_analysis/dut_alignment.py:429-442", "beam_telescope_analysis/dut_alignment.py:445-526"]}
{"id": "C207", "title": "The track table shows each true track exactly once", "statement": "Let the clusters of all DUTs be within err of where straight tracks cross the sensors, with the tracks of an event separated. Then the table that merge_cluster_data, find_tracks and fit_tracks (straight line fit) write for a DUT has exactly one row for each true track that fulfils the requirements (hits in the required DUTs, enough hits in the fit DUTs), and no other rows. The row has the event number of the track, its position is within acc (the accuracy from the lever arms of the used DUTs) of the true crossing point, it has a hit exactly if the track has a cluster in the DUT, and this hit is within err of the crossing point and within err + acc of the stored position.", "quantifier": "all telescopes with sensors perpendicular to z (up to 10 DUTs), all clusters, events, chunk sizes and selections of fit DUTs", "why_tests_cant": "A test compares one simulated data set; that no track is lost, doubled or combined from hits of two tracks is a statement about all of them.", "anchors": ["beam_telescope_analysis/hit_analysis.py:1486-1730", "beam_telescope_analysis/track_analysis.py:150-560", "beam_telescope_analysis/track_analysis.py:724-1180"]}
{"id": "C208", "title": "Residuals of the complete chain", "statement": "For a track table as in C207, calculate_residuals without limits gives: only bins of the residual histograms with values up to err + acc are filled; if the bins contain all these values, the number of entries is the number of true tracks in the table that the DUT has seen; no mean residual (by column, row or pixel, in x, y or distance) is larger than err + acc, so all are zero for exact hits; and the hit map counts in each pixel the true tracks seen that cross it, if no track is within acc of the edge of the pixel.", "quantifier": "all such track tables, binnings and chunk sizes", "why_tests_cant": "Tests compare histograms of one data set with stored histograms; the relation to the true tracks is not tested, and cannot be for all of them.", "anchors": ["beam_telescope_analysis/track_analysis.py:724-1180", "beam_telescope_analysis/result_analysis.py:26-330"]}
{"id": "C209", "title": "Purity of the complete chain", "statement": "For a track table as in C207, if the cut is larger than err + acc and no hit is at the origin, all hits are pure: the maps of calculate_purity have as many pure hits as hits in every bin and the purity is 100 in every bin with hits, 0 in the others. The number of hits in a bin is the number of true tracks in the table that cross the bin and are seen by the DUT, if no track is within err of the edge of the bin.", "quantifier": "all such track tables, bins and chunk sizes", "why_tests_cant": "A test has one data set; here every table from separated straight tracks is meant.", "anchors": ["beam_telescope_analysis/track_analysis.py:724-1180", "beam_telescope_analysis/result_analysis.py:2094-2240"]}
{"id": "C210", "title": "Pre-alignment in spite of uncorrelated bins", "statement": "Let the correlation histogram of a DUT have bins that do not show the correlation (noise, dead columns, background), with arbitrary content. If in each half of the DUT there are more correlated bins than there are uncorrelated bins in the whole DUT (less than a quarter of uncorrelated bins is enough), prealign finds the position of the DUT within three quarters of a bin and the direction, in x and in y; and with the reference at zero the fit succeeds.", "quantifier": "all histograms, bin sizes, positions and both directions; any content of the uncorrelated bins", "why_tests_cant": "A test has one histogram; the claim is about every content of the uncorrelated bins.", "anchors": ["beam_telescope_analysis/dut_alignment.py:184-470", "beam_telescope_analysis/tools/analysis_utils.py:930-969"]}
{"id": "C211", "title": "From the hits to the pre-alignment", "statement": "correlate followed by prealign (reduce_background=False) moves a DUT to the position at which the reference sees it, within three quarters of a bin, if for more than three quarters of the bins of the DUT most coincidences are with the expected bin of the reference. In particular, for sensors that are not rotated with pixels of one size and bins of the size of a pixel, the first one at the origin: if more than three quarters of the columns and rows of each DUT have more coincidences with column sx * c + kx and row sy * r + ky of the first DUT than with any other, then both functions succeed and every DUT ends within three quarters of a pixel of its true position, wherever it was thought to be.", "quantifier": "all telescopes, hits, numbers of pixels, chunk sizes larger than an event, directions and displacements", "why_tests_cant": "A test runs the two functions on one data set and compares with stored numbers; the relation to the true position is not tested.", "anchors": ["beam_telescope_analysis/hit_analysis.py:1206-1480", "beam_telescope_analysis/dut_alignment.py:184-470"]}
{"id": "C212", "title": "Pre-alignment with the default reduction of the background", "statement": "As C211 with reduce_background=True, the default, if each column and row of the DUT has coincidences only with its partner (no combinatorial background): all rows of the histogram but two at most keep their largest bin after the subtraction of the term of the largest singular value, so that the DUT ends within three quarters of a pixel of its true position if less than a quarter of the columns and rows, two more being allowed for, have no coincidences. The rows that are lost cannot be avoided: if one row has more entries than each of the others, the subtraction empties exactly this row, the one with the strongest correlation, and changes nothing else.", "quantifier": "all histograms with at most one filled bin per row and column; all telescopes and hits as in C211", "why_tests_cant": "What the subtraction of the leading singular term does to a histogram cannot be seen from one data set.", "anchors": ["beam_telescope_analysis/hit_analysis.py:1396-1466", "beam_telescope_analysis/dut_alignment.py:184-470"]}
{"id": "C213", "title": "Correlation of residuals that is plotted", "statement": "plot_residual_correlation shows for each selected DUT, for columns and then for rows, at every bin of the track distance the number of pairs of residuals and their correlation coefficient (Pearson), which is between -1 and 1 and is 1 or -1 for residuals that depend linearly on each other; the result does not depend on the chunk size, and bins with more pairs have more influence on the fitted curve.", "quantifier": "all files with residuals, numbers of bins, chunk sizes and selections", "why_tests_cant": "A test has one file; independence of the chunk size and the failing cases concern all files.", "anchors": ["beam_telescope_analysis/tools/plot_utils.py:2577-2682"]}
{"id": "C214", "title": "Values of the bins in binned_statistic", "statement": "binned_statistic(x, values, func, nbins, range) gives for each of the nbins bins of equal size of the range func of the values of which x is in the bin, in their order, as scipy.stats.binned_statistic does: the upper end belongs to the last bin, values outside of the range are not used.", "quantifier": "all x, values, functions, ranges and numbers of bins", "why_tests_cant": "Unit tests have values inside of the range; the edges and the values outside of it are where it differs.", "anchors": ["beam_telescope_analysis/tools/analysis_utils.py:972-984"]}
{"id": "C215", "title": "The residual correlation can be calculated", "statement": "calculate_residual_correlation writes for each selected DUT the residuals of pairs of tracks to the output file and returns; if it does not, an existing output file is left as it is.", "quantifier": "all files, selections and settings", "why_tests_cant": "The function is not called by any test.", "anchors": ["beam_telescope_analysis/result_analysis.py:2558-2862"]}
{"id": "C216", "title": "Kalman fit of exact hits", "statement": "If the hits of a track in the fit DUTs are exactly on a straight line, at two or more positions, fit_tracks with the Kalman filter (seed included) succeeds and gives exactly this line at every DUT with positive definite covariance matrices, with chi-square 0 and two degrees of freedom per hit minus four. The DUTs can be tilted in any way as long as none is parallel to the track or to the z axis, and are numbered in the order of the beam. Hits in the other DUTs have no influence, wherever they are.", "quantifier": "All telescopes with DUTs tilted in any way and numbered along the beam, all straight lines, hits, errors, annealing factors, energies and masses.", "why_tests_cant": "The tests fit a few tracks with noise in telescopes without tilted DUTs and compare with stored results; they cannot show that the linearisation, the seed and the extrapolation are consistent for every orientation.", "anchors": ["beam_telescope_analysis/track_analysis.py:1485-1726", "beam_telescope_analysis/track_analysis.py:1462-1482", "beam_telescope_analysis/tools/kalman.py:730-966"]}
{"id": "C217", "title": "Efficiency measured with the Kalman filter", "statement": "merge_cluster_data, find_tracks, fit_tracks with the Kalman filter and calculate_efficiency, applied to clusters that are the exact positions of well separated straight tracks: the track table of a DUT has exactly one row for each true track with the required clusters (at least three in the fit DUTs); position, slope and chi-square (0) of the row are those of the true track, the number of degrees of freedom is twice the number of fit hits minus four; tracks, hits, efficiency of each bin and mean efficiency are those of the true tracks.", "quantifier": "All telescopes with up to ten DUTs, tilted in any way and numbered along the beam, all cluster tables with straight tracks, all chunk sizes, fit DUTs, hit requirements and hit errors.", "why_tests_cant": "A test can compare one data set with stored results; that no track is lost, doubled or shifted for any data set, chunk size and geometry is a statement about all of them.", "anchors": ["beam_telescope_analysis/track_analysis.py:923-976", "beam_telescope_analysis/track_analysis.py:1102-1109", "beam_telescope_analysis/track_analysis.py:1485-1726", "beam_telescope_analysis/result_analysis.py:1017-1062"]}
{"id": "C218", "title": "Kalman alignment keeps an aligned telescope", "statement": "If the hits of all track candidates are exactly where straight lines cross the DUTs at the configured positions, align_kalman does not move anything: the new telescope configuration is equal to the given one, and every line of the output tables contains this alignment, with whatever arguments it is called and also if it raises. The alignment loop runs through without an exception, and every track is used in every DUT until the maximum number of tracks is exceeded.", "quantifier": "All telescopes numbered along the beam and tilted in any way (angles in the range of the Euler angles), all numbers of exact tracks and chunk sizes, all selections of DUTs and alignment parameters, errors, annealing settings and limits.", "why_tests_cant": "A test can run one aligned telescope; that the filter, the update of the parameters and the Euler angles have the true alignment as a fixed point for every geometry, track sample and setting is a statement about all of them.", "anchors": ["beam_telescope_analysis/dut_alignment.py:914-1178", "beam_telescope_analysis/dut_alignment.py:1456-1586", "beam_telescope_analysis/dut_alignment.py:2023-2160", "beam_telescope_analysis/track_analysis.py:1485-1726"]}
{"id": "C219", "title": "Kalman alignment corrects a shifted DUT", "statement": "If a DUT that is not used in the track fit is not at its configured position, and the hits of the tracks are exact, the alignment with the Kalman filter moves it towards its true position, whatever the distance is. It runs through without an exception. In every line of the output tables the distance left is at most the alignment error given there, multiplied with the distance at the beginning in units of the initial errors; if only one coordinate is wrong, the fraction of the shift that is left is exactly the square of the fraction of the error that is left. The other DUTs stay where they are.", "quantifier": "All telescopes numbered along the beam and tilted in any way, any number of shifted DUTs (translations), all numbers of tracks, chunk sizes, initial errors and annealing settings, all shifts.", "why_tests_cant": "A test can align one simulated telescope with one shift and compare with the truth; that the given error bounds the true distance for every geometry, sample and setting, and from which distance on nothing happens at all, is a statement about all runs of the loop.", "anchors": ["beam_telescope_analysis/dut_alignment.py:1456-1586", "beam_telescope_analysis/dut_alignment.py:1983-2160", "beam_telescope_analysis/track_analysis.py:1485-1726"]}
{"id": "C220", "title": "Plot of the effective pixels", "statement": "Expected for the plots of calculate_efficiency: in the plot of the effective pixels every bin with hits shows the pixel that is closest to the mean position of the hits of the tracks through this bin (centre of the bin plus mean residual), every other bin is empty. The colour of a pixel differs from those of the pixels before it that are shown in its region, as long as a colour is left. A pixel has a marker iff there is a bin with hits in its region. The last sentence is false for the pixel of the first bin with hits: if it is the only bin with hits in the region, the marker is missing.", "quantifier": "All sensors and numbers of bins, all histograms and residuals, any number of colours.", "why_tests_cant": "A plot is looked at for one data set; which of many bins is attributed to which pixel, and a missing marker for one pixel at the corner of the beam, are not noticed.", "anchors": ["beam_telescope_analysis/tools/plot_utils.py:1371-1459", "beam_telescope_analysis/result_analysis.py:1284-1290"]}
{"id": "C221", "title": "Measured and calculated pixel sizes", "statement": "Expected for the plots of calculate_efficiency with input_cluster_files: each bin with hits is attributed to a pixel of the sensor with the most hits in it; the measured size of a pixel is the area of its bins, the measured sizes of all pixels add up to the area of all bins with hits; the calculated size of a pixel is the area of its region, whatever the number of its corners is. The sizes are computed like this, but the plot is never made: between the computation and the plot an exception is raised for all data.", "quantifier": "All histograms of hits, all sensors, all regions with any number of corners.", "why_tests_cant": "The regions at the border have other numbers of corners than those inside; a test with rectangular pixels has only one kind. There is no test with cluster files and plots.", "anchors": ["beam_telescope_analysis/tools/plot_utils.py:1461-1554", "beam_telescope_analysis/tools/analysis_utils.py:1165-1168"]}
{"id": "C222", "title": "Output file of the Kalman alignment", "statement": "Expected for the output file of align_kalman: for each track with the required hits that is processed, all tables get one line, in the order of the tracks: alignment and errors before the track, chi2 and p-value of the fit, and the changes of the parameters relative to their errors. If all changes of a DUT are known and at most 5 %, the next line differs in the translations by exactly these changes, else not at all. n_tracks_processed is the number of tracks that changed a DUT. False: a track whose fit fails is stored with chi2 0; changes after the first too large one are missing; if several alignments are stored in the file, n_tracks_processed is that of the last one only.", "quantifier": "All tracks, chunk sizes, alignments, selected DUTs and parameters, initial errors, all fits with positive definite covariances.", "why_tests_cant": "The file is written chunk by chunk with arrays that are cut at the last track; failing fits and rejected tracks are rare in test data.", "anchors": ["beam_telescope_analysis/dut_alignment.py:1398-1454", "beam_telescope_analysis/dut_alignment.py:1456-1586", "beam_telescope_analysis/dut_alignment.py:2023-2056"]}
{"id": "C223", "title": "Plots of the Kalman alignment", "statement": "Expected for the plots of align_kalman: for each parameter and each DUT, value, difference to the first value, error, known relative changes and annealing factor of all lines are shown, and chi2, p-values and number of tracks. The plots can be made after every alignment. The last sentence is only true if every DUT was changed by a track: the plots raise an exception if no track has the required hits, if all tracks have a large chi2 or cannot be fitted, or if all tracks were rejected for a DUT because the first change is too large, although the alignment itself ends without exception.", "quantifier": "All output files; all alignments with any number of tracks.", "why_tests_cant": "Test data is aligned with good tracks; the plots fail exactly for the alignments one wants to inspect.", "anchors": ["beam_telescope_analysis/tools/plot_utils.py:2685-2832", "beam_telescope_analysis/dut_alignment.py:1398-1454", "beam_telescope_analysis/dut_alignment.py:1660-1672"]}
{"id": "C224", "title": "File with the histograms of track angles", "statement": "Expected for the file written by histogram_track_angle: for the telescope it has histograms of the three global angles, for each selected DUT, in the order along the beam, histograms of the three global and three local angles; each counts the angles of all tracks of its DUT, the telescope has those of the first DUT along the beam. The order of the selection has no influence, and the call returns for every selection of DUTs with tracks. False: the histograms of a DUT with an empty track table are those of the DUT before it (an exception if it is the first one); numbers that are not DUTs are ignored; if a DUT is named twice, or if no DUT is named, an exception is raised after the old file was overwritten.", "quantifier": "All telescopes, track tables, chunk sizes, numbers of bins, selections.", "why_tests_cant": "Variables survive from one DUT to the next only if a track table is empty; test data has tracks everywhere and a selection in the order of the DUTs.", "anchors": ["beam_telescope_analysis/result_analysis.py:2308-2538"]}
{"id": "C225", "title": "Plots of the track angles", "statement": "The plots of histogram_track_angle have one page for each of the three global angles of the telescope and then for each of the six angles of each selected DUT in the order of the selection. Each bar reaches from the lower to the upper edge of its bin in mrad and has the stored number of entries; the curve in mrad is the stored Gaussian. After the file was written, the plots succeed iff all selected numbers are numbers of DUTs.", "quantifier": "All files, selections, histograms, fits.", "why_tests_cant": "The scale of edges, mean and sigma is changed separately; a wrong factor shows a plausible plot.", "anchors": ["beam_telescope_analysis/tools/plot_utils.py:2517-2574", "beam_telescope_analysis/result_analysis.py:2534-2538"]}
{"id": "C226", "title": "Plots of the correlation", "statement": "Expected of plot_correlations for a correlation file: exactly one page for every histogram with an entry above zero and none for the others; the page names the direction, whether the background is reduced and the two DUTs (given names, or DUT with its number), and shows every bin at its place, the DUT on the horizontal and the reference on the vertical axis: a pixel is the number of pairs of hits of the same event with the position of the DUT hit in its horizontal range and that of the reference hit in its vertical range. False for the file after correlate has returned: it contains the group with the arguments of the call, and plotting it again ends with an exception.", "quantifier": "All telescopes, hit files, resolutions, selections, chunk sizes, names, orders of the nodes.", "why_tests_cant": "Transposed axes or swapped names give a plausible picture; the call inside of correlate happens before the group is added, so tests of correlate never see the exception.", "anchors": ["beam_telescope_analysis/tools/plot_utils.py:537-594", "beam_telescope_analysis/hit_analysis.py:1396-1472", "beam_telescope_analysis/tools/storage_utils.py:71-96"]}
{"id": "C227", "title": "Residuals of exact tracks with the Kalman filter", "statement": "Complete chain merge_cluster_data, find_tracks, fit_tracks with the Kalman filter, calculate_residuals for straight tracks measured exactly: the track table of a DUT shows each true track that fulfils the requirements of this DUT exactly once and nothing else, with the position where the true track crosses the (shifted or rotated) DUT, its own hit and chi-square zero. All residuals are zero: only the histogram bins that contain zero are filled, all mean residuals and mean distances are zero; without limits the bin at zero has all taken tracks seen by the DUT, and every pixel of the maps has exactly those that cross it.", "quantifier": "All telescopes in beam order, true tracks, missing clusters, requirements, chunk sizes and residual settings.", "why_tests_cant": "The residual distribution of a test has a width anyway; a wrong coordinate system, a hit of another track or a track stored twice only change it a little.", "anchors": ["beam_telescope_analysis/track_analysis.py:923-976", "beam_telescope_analysis/track_analysis.py:1083-1109", "beam_telescope_analysis/result_analysis.py:84-305"]}
{"id": "C228", "title": "Purity of exact tracks with the Kalman filter", "statement": "Complete chain merge_cluster_data, find_tracks, fit_tracks with the Kalman filter, calculate_purity for straight tracks measured exactly: with any positive distance cut all hits are pure, every bin of the map with hits has 100 % and its number of hits is the number of taken true tracks that are seen by the DUT and cross the bin; the maps are plotted as soon as one bin has hits and reaches the minimum density. With a cut of zero or less no hit is pure (the comparison is strict), the call ends with an exception.", "quantifier": "All telescopes in beam order, true tracks (none crossing exactly the local origin), missing clusters, requirements, chunk sizes, bin sizes and cuts.", "why_tests_cant": "A purity below 100 % in a test is blamed on noise; counting one bin or the hits of another DUT is not visible in a mean.", "anchors": ["beam_telescope_analysis/result_analysis.py:2137-2237", "beam_telescope_analysis/track_analysis.py:923-976", "beam_telescope_analysis/track_analysis.py:1083-1109"]}
{"id": "C229", "title": "Plots of the pre-alignment", "statement": "For each axis the pre-alignment writes two pages. The first shows the number of correlated bins on each line: the number drawn at angle theta (in degrees) and distance rho is the number of bins on that line. The second shows one dark pixel per bin of the DUT, at the most populated bin of the reference, at the positions of the two bins; the drawn line is the one that the pre-alignment uses, with its slope and with the new position at the centre of the DUT, and the markers are the limits of the range of the correlation.", "quantifier": "All correlation histograms, sizes, resolutions and sorting functions.", "why_tests_cant": "Tests do not look at the pages; a mirrored picture looks like a correct one of a sensor mounted the other way round.", "anchors": ["beam_telescope_analysis/tools/plot_utils.py:597-627", "beam_telescope_analysis/tools/analysis_utils.py:960-967", "beam_telescope_analysis/dut_alignment.py:329-344"]}
{"id": "C230", "title": "Plots of the check of hit files", "statement": "The pages written by the check of a hit file show the file: the page with event numbers exists exactly if there is a hit in an event above 0 and shows the different event numbers; the page with their distances exists exactly if there are two different events; the two pages with correlations exist exactly if there are hits in consecutive events and show for every pair of columns (rows) the number of pairs of hits, earlier event horizontally. No page is written twice. The plots can be made again from the returned file.", "quantifier": "All hit tables, DUTs, event ranges, chunk sizes and orders of the arrays in the file.", "why_tests_cant": "Tests do not look at the pages; a swapped axis or a missing page of a good file is not noticed.", "anchors": ["beam_telescope_analysis/tools/plot_utils.py:630-666", "beam_telescope_analysis/hit_analysis.py:327-422", "beam_telescope_analysis/tools/storage_utils.py:71-96"]}
{"id": "C231", "title": "Report of the differences of two arrays", "statement": "The text that the comparison of two files gives for a node says that there is a difference exactly if the two arrays differ (with a tolerance: if they differ by more than the tolerance). For tables it lists the columns that only one of them has, says whether the same columns are in another order, and names each common column once as different or not, with a different type or shape. There is a report for all arrays.", "quantifier": "All arrays and tables with any columns, shapes, values (NaN, infinity, texts) and tolerances.", "why_tests_cant": "Tests compare files that are the same; the report is made only when a test fails.", "anchors": ["beam_telescope_analysis/tools/test_tools.py:131-198", "beam_telescope_analysis/tools/test_tools.py:290-301"]}
{"id": "C232", "title": "Kalman fit returns the best track", "statement": "For a track with hits, the Kalman fit returns at the last plane the state of the best track through all planes: of all tracks (linearised around the reference states) that are deflected at the planes, the one with the smallest cost, where the cost is the squared distance of the first state to the initial state, of the track to the hits of the fit planes and of the deflections, each in units of its error. At the first plane it returns the state of the best track followed against the beam direction. At a plane between it returns the state where a track from the first plane and a track from the last plane meet with the smallest sum of costs (both count the hit of this plane, see C66). The returned covariance gives how much more a track to another state costs. The sum of the chi-squares of the filter is the cost of the best track.", "quantifier": "All planes (positions and rotations, any number, any material), hits or missing hits, fit planes, errors of hits, momentum, seeds; all competing tracks with any deflections.", "why_tests_cant": "Tests compare one fitted data set with stored results; no test compares with the other tracks.", "anchors": ["beam_telescope_analysis/tools/kalman.py:11-154", "beam_telescope_analysis/tools/kalman.py:157-294", "beam_telescope_analysis/tools/kalman.py:297-434", "beam_telescope_analysis/tools/kalman.py:730-966"]}
{"id": "C233", "title": "Chi-square of a hit in the Kalman fit", "statement": "The chi-square that the Kalman fit gives for a plane with a hit is the squared distance of the hit to the track estimated from all other planes, in units of the errors of the hit and of this estimate; the chi-square of the track is the sum of these values.", "quantifier": "All planes (positions and rotations, any number, any material), hits or missing hits, fit planes, errors of hits, momentum, seeds.", "why_tests_cant": "Tests compare stored results of the same code; a chi-square that is too small by a factor looks like a good fit.", "anchors": ["beam_telescope_analysis/tools/kalman.py:903-936", "beam_telescope_analysis/track_analysis.py:1705-1723"]}
{"id": "C234", "title": "The Kalman fit does not depend on the global coordinate system", "statement": "If the whole telescope (DUTs and scattering planes) is moved or rotated as one rigid body and the hits in local coordinates are the same, the Kalman fit of a track gives the same local track positions, slopes, covariances and chi-square at every plane, or the same error. In particular, shifting all planes along the beam changes nothing.", "quantifier": "All planes (positions and rotations, any number, any material), hits or missing hits, fit planes, errors of hits, momentum, annealing factors, rotations and shifts of the telescope that keep the order of the planes along the beam.", "why_tests_cant": "Tests use one telescope at one place; a mixture of local and global coordinates has no effect if the planes are not rotated or start at zero.", "anchors": ["beam_telescope_analysis/tools/kalman.py:568-596", "beam_telescope_analysis/tools/kalman.py:730-966", "beam_telescope_analysis/track_analysis.py:1539-1588", "beam_telescope_analysis/track_analysis.py:1603-1726"]}
{"id": "C235", "title": "Plots of the residuals", "statement": "For every DUT the two pages of a residual histogram (linear and logarithmic) show every bin with its edges and its number of entries within the visible range, together with the fitted function and a line at its mean. The picture of the residuals for each position has one rectangle for each bin with entries, at the place of the bin, the mean residual of each position bin at the centre of the bin (blue if it is used for the straight line, else red), the fitted straight line, and lines at the finite limits.", "quantifier": "All histograms, edges, fits (with or without box), means, selections of bins and limits.", "why_tests_cant": "Tests only check that a PDF file is written; a picture that is transposed or shifted looks reasonable.", "anchors": ["beam_telescope_analysis/tools/plot_utils.py:958-1030", "beam_telescope_analysis/result_analysis.py:336-520"]}
{"id": "C236", "title": "Comparison of YAML files", "statement": "Two YAML files are reported to be equal if and only if every value that is found in one of them under a key and a path of list indices and keys is found at the same place of the other one, whatever the order of the keys; numbers are compared by value. If a file has several documents, the value of a key is the one of the last document that has the key. A file is equal to itself also if it contains NaN; the order of the two files does not matter. The comparison raises if and only if a document is not a dictionary.", "quantifier": "All files with any number of documents and any depth of lists and dictionaries.", "why_tests_cant": "The comparison is itself the tool of the tests: a comparison that overlooks a difference makes tests pass.", "anchors": ["beam_telescope_analysis/tools/test_tools.py:310-325"]}
{"id": "C237", "title": "Maps of a DUT", "statement": "The maps of tracks, hits, mean charge, mean residuals and entries of a DUT show the value of each bin with entries at the x and y position of the bin on the axes of the picture; bins without entries are white. The colour scale of the maps of tracks and hits goes from zero to the largest number of entries, the one of the mean charge from zero to twice the median; the one of the residuals is never empty and contains the values around the median (three standard deviations, up to rounding of the limits).", "quantifier": "All numbers of pixels, sizes of the DUT, histograms and points inside of the bins.", "why_tests_cant": "Tests only check that a PDF file is written; for a map that is nearly symmetric a mirrored picture cannot be noticed by eye.", "anchors": ["beam_telescope_analysis/tools/plot_utils.py:64-139", "beam_telescope_analysis/tools/plot_utils.py:1086-1111", "beam_telescope_analysis/tools/plot_utils.py:1187-1215", "beam_telescope_analysis/result_analysis.py:536-565"]}
