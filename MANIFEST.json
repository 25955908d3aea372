{
 "claims": [
  {
   "property": "C01",
   "status": "proved",
   "theorems": [
    "BTA.Props.C01_no_loss",
    "BTA.Props.C01_complete"
   ],
   "note": "Sorted table, chunk_size > 0. C01_complete: every event has fewer rows than chunk_size."
  },
  {
   "property": "C02",
   "status": "proved",
   "theorems": [
    "BTA.Props.C02_chunks_aligned",
    "BTA.Props.C02_no_split"
   ],
   "note": "For all start/stop bounds without try_speedup."
  },
  {
   "property": "C03",
   "status": "proved",
   "theorems": [
    "BTA.Props.C03_event_range",
    "BTA.Props.C03_event_range_or_error",
    "BTA.Props.C03_invalid_bounds",
    "BTA.Props.C03_first_event_not_aligned",
    "BTA.Props.C03_start_event_not_aligned"
   ],
   "note": "fail_on_missing_events=False; the default is covered by C06."
  },
  {
   "property": "C04",
   "status": "proved",
   "theorems": [
    "BTA.Props.C04_resume"
   ],
   "note": "Resume at the yielded index reproduces the remaining chunks."
  },
  {
   "property": "C05",
   "status": "proved",
   "theorems": [
    "BTA.Props.C05_oversized_event_raises"
   ],
   "note": "More than chunk_size rows in one event raises."
  },
  {
   "property": "C06",
   "status": "partial",
   "theorems": [
    "BTA.Props.C06_no_false_alarm",
    "BTA.Props.C06_missing_start_partial",
    "BTA.Props.C06_missing_start_fails",
    "BTA.Props.C06_missing_stop_fails"
   ],
   "note": "False as stated: missing start event is only detected in the first chunk read, missing stop event never (counterexamples). Proved: no false alarm; detection within the first chunk."
  },
  {
   "property": "C07",
   "status": "proved",
   "theorems": [
    "BTA.Props.C07_merge_is_join",
    "BTA.Props.C07_merge_pairs"
   ],
   "note": "All hypotheses of the join are on the inputs (sorted event numbers)."
  },
  {
   "property": "C08",
   "status": "proved",
   "theorems": [
    "BTA.Props.C08_correlation_counts"
   ],
   "note": "Histogram cell = number of pairs; indices outside raise."
  },
  {
   "property": "C09",
   "status": "proved",
   "theorems": [
    "BTA.Props.C09_event_range_correlation",
    "BTA.Props.C09_event_minus_one"
   ],
   "note": "Event range version of C08."
  },
  {
   "property": "C10",
   "status": "proved",
   "theorems": [
    "BTA.Props.C10_in1d_events",
    "BTA.Props.C10_in1d_empty_undefined"
   ],
   "note": "Sorted event arrays."
  },
  {
   "property": "C11",
   "status": "proved",
   "theorems": [
    "BTA.Props.C11_events_in_both",
    "BTA.Props.C11_minus_one_lost",
    "BTA.Props.C11_empty_undefined"
   ],
   "note": "Sorted event arrays."
  },
  {
   "property": "C12",
   "status": "proved",
   "theorems": [
    "BTA.Props.C12_max_events",
    "BTA.Props.C12_empty_undefined"
   ],
   "note": "Sorted event arrays."
  },
  {
   "property": "C13",
   "status": "proved",
   "theorems": [
    "BTA.Props.C13_map_cluster"
   ],
   "note": "Sorted clusters, event list containing the clusters."
  },
  {
   "property": "C14",
   "status": "partial",
   "theorems": [
    "BTA.Merge.Props.C14_merged_table",
    "BTA.Merge.Props.C14_every_cluster_once_partial",
    "BTA.Merge.Props.C14_later_events_lost"
   ],
   "note": "False for events after the last event of the first DUT: their clusters are lost (C14_later_events_lost, for all tables). Everything else proved for all tables and chunk sizes."
  },
  {
   "property": "C15",
   "status": "proved",
   "theorems": [
    "BTA.Props.C15_hist_1d",
    "BTA.Props.C15_hist_2d",
    "BTA.Props.C15_hist_3d",
    "BTA.Props.C15_wide_index_wrong_bin",
    "BTA.Props.C15_huge_shape_collides"
   ],
   "note": "32-bit index arrays as produced by the callers; wider indices and huge shapes are wrong (counterexamples)."
  },
  {
   "property": "C16",
   "status": "partial",
   "theorems": [
    "BTA.Props.C16_event_range_partial",
    "BTA.Props.C16_unsorted_partial",
    "BTA.Props.C16_event_zero_lost",
    "BTA.Props.C16_start_behind_end"
   ],
   "note": "False for arrays containing only event 0 and for a start event behind the end without stop event (counterexamples); proved otherwise."
  },
  {
   "property": "C17",
   "status": "partial",
   "theorems": [
    "BTA.Props.C17_interleaves",
    "BTA.Props.C17_injective",
    "BTA.Props.C17_decode_encode",
    "BTA.Props.C17_encode_decode_low",
    "BTA.Props.C17_encode_decode_partial",
    "BTA.Props.C17_encode_decode_fails"
   ],
   "note": "Decoding then encoding is only proved for codes whose coordinates are below 2^16; morton_1 uses a wrong last mask (counterexample)."
  },
  {
   "property": "C18",
   "status": "proved",
   "theorems": [
    "BTA.Props.C18_array_roundtrip",
    "BTA.Props.C18_number_roundtrip",
    "BTA.Props.C18_shape_identifies"
   ],
   "note": "All arrays of the declared size."
  },
  {
   "property": "C19",
   "status": "proved",
   "theorems": [
    "BTA.Props.C19_popcount",
    "BTA.Props.C19_no_overflow",
    "BTA.Props.C19_only_32_bit"
   ],
   "note": "32-bit words only (C19_only_32_bit)."
  },
  {
   "property": "C20",
   "status": "proved",
   "theorems": [
    "BTA.Find.Props.C20_hits_permuted",
    "BTA.Find.Props.C20_indices",
    "BTA.Find.Props.C20_first_dut_fixed"
   ],
   "note": "For arbitrary floating point operations (no law assumed); z_sorted_dut_indices is duplicate-free (argsort)."
  },
  {
   "property": "C21",
   "status": "proved",
   "theorems": [
    "BTA.Find.Props.C21_terminates"
   ],
   "note": "Recursive functions are modelled as partial fixpoints, so termination is a theorem."
  },
  {
   "property": "C22",
   "status": "partial",
   "theorems": [
    "BTA.Find.Props.C22_columns_together",
    "BTA.Find.Props.C22_assigned_row_partial",
    "BTA.Find.Props.C22_eleven_duts"
   ],
   "note": "Columns of a hit always move together; that they follow the assigned row is proved up to 10 DUTs and false for 11 (counterexample)."
  },
  {
   "property": "C23",
   "status": "proved",
   "theorems": [
    "BTA.Find.Props.C23_hit_flag",
    "BTA.Find.Props.C23_hit_flag_identifies"
   ],
   "note": "Up to 32 DUTs."
  },
  {
   "property": "C24",
   "status": "proved",
   "theorems": [
    "BTA.Fit.Props.C24_tracks_table",
    "BTA.Fit.Props.C24_invalid_hits",
    "BTA.Fit.Props.C24_duplicate_fit_dut"
   ],
   "note": "The fit itself is an arbitrary function. Fit DUTs without duplicates (a duplicate makes the result empty, C24_duplicate_fit_dut); fewer rows per event than chunk_size."
  },
  {
   "property": "C25",
   "status": "proved",
   "theorems": [
    "BTA.Fit.Props.C25_each_dut_once",
    "BTA.Fit.Props.C25_own_settings"
   ],
   "note": "The grouping loop of fit_tracks is modelled completely."
  },
  {
   "property": "C26",
   "status": "proved",
   "theorems": [
    "BTA.Fit.Props.C26_isolation_exact",
    "BTA.Fit.Props.C26_order",
    "BTA.Fit.Props.C26_pair"
   ],
   "note": "Exact arithmetic; rows sorted by event."
  },
  {
   "property": "C27",
   "status": "proved",
   "theorems": [
    "BTA.Props.C27_stored_is_serial",
    "BTA.Props.C27_serial_is_stored",
    "BTA.Props.C27_tables_and_histograms",
    "BTA.Props.C27_rowwise"
   ],
   "note": "Threads as interleaved steps; fairness: every thread is scheduled again and again and every pool task completes. Histograms may differ in the length of the first axis (see C62)."
  },
  {
   "property": "C28",
   "status": "partial",
   "theorems": [
    "BTA.Props.C28_ends_partial",
    "BTA.Props.C28_one_core_fails",
    "BTA.Props.C28_more_cores_fails"
   ],
   "note": "False if the user function raises: with one core never ends (C28_one_core_fails), with more cores if enough chunks follow (C28_more_cores_fails). Proved whenever function and combination raise for no chunk, including read and open errors."
  },
  {
   "property": "C29",
   "status": "proved",
   "theorems": [
    "BTA.Props.C29_bounded"
   ],
   "note": "After force_stop (an error) one more result may be queued: n_cores + 2."
  },
  {
   "property": "C30",
   "status": "proved",
   "theorems": [
    "BTA.Props.C30_there_and_back",
    "BTA.Props.C30_back_and_there",
    "BTA.Props.C30_formula",
    "BTA.Props.C30_error_iff",
    "BTA.Props.C30_global_error_iff"
   ],
   "note": "Exact real arithmetic. Both directions for arbitrary lists of points, with and without alignment parameters, and exactly when the RuntimeError is raised."
  },
  {
   "property": "C31",
   "status": "proved",
   "theorems": [
    "BTA.Props.C31_proper",
    "BTA.Props.C31_axes",
    "BTA.Props.C31_order",
    "BTA.Props.C31_isometry"
   ],
   "note": "Orthogonal, determinant one, order and orientation of the single rotations, scalar products of differences kept by the transformation."
  },
  {
   "property": "C32",
   "status": "partial",
   "theorems": [
    "BTA.Props.C32_partial",
    "BTA.Props.C32_close_partial",
    "BTA.Props.C32_angles",
    "BTA.Props.C32_gimbal_lock",
    "BTA.Props.C32_reflection"
   ],
   "note": "Proved for every proper rotation outside of the gimbal lock, up to the angles below 2.2e-16 which the code sets to zero (all matrix entries agree within 5 eps). False at the gimbal lock: UnboundLocalError (C32_gimbal_lock). Reflections are accepted (C32_reflection)."
  },
  {
   "property": "C33",
   "status": "proved",
   "theorems": [
    "BTA.Props.C33_intersection",
    "BTA.Props.C33_raises_iff",
    "BTA.Props.C33_one_parallel",
    "BTA.Props.C33_dut",
    "BTA.Props.C33_dut_raises_iff"
   ],
   "note": "The code raises if one line is parallel, where its documentation promises NaN for that line (C33_one_parallel)."
  },
  {
   "property": "C34",
   "status": "proved",
   "theorems": [
    "BTA.Props.C34_index_error_iff",
    "BTA.Props.C34_position",
    "BTA.Props.C34_there_and_back",
    "BTA.Props.C34_back_and_there",
    "BTA.Props.C34_position_error_iff",
    "BTA.Props.C34_global",
    "BTA.Props.C34_global_exists"
   ],
   "note": "Arbitrary ordered field, all sensor sizes; composition with the alignment over the reals."
  },
  {
   "property": "C35",
   "status": "partial",
   "theorems": [
    "BTA.Props.C35_partial",
    "BTA.Props.C35_pixel",
    "BTA.Props.C35_wrong_edge",
    "BTA.Props.C35_periodic",
    "BTA.Props.C35_error_iff"
   ],
   "note": "False for sensors whose number of columns is not a multiple of the columns of the cell: the code adds the (negative) edge instead of subtracting it (C35_wrong_edge). Proved otherwise, so for cells of one pixel always."
  },
  {
   "property": "C36",
   "status": "proved",
   "theorems": [
    "BTA.Tel.C36_save_load",
    "BTA.Tel.C36_save_succeeds",
    "BTA.Tel.C36_keep_others",
    "BTA.Tel.C36_replaces_others",
    "BTA.Tel.C36_text_id_not_loaded"
   ],
   "note": "For integer ids. A DUT stored under a string id is saved but the file cannot be loaded (C36_text_id_not_loaded). YAML is modelled by the value it denotes: sorted keys, tuples become lists, scalars exact. No NaN."
  },
  {
   "property": "C37",
   "status": "proved",
   "theorems": [
    "BTA.Tel.C37_iteration",
    "BTA.Tel.C37_made"
   ],
   "note": "add_dut and __setitem__ with integer ids; failing operations are skipped."
  },
  {
   "property": "C38",
   "status": "partial",
   "theorems": [
    "BTA.Props.C38_chunk_size",
    "BTA.Props.C38_all_rows",
    "BTA.Props.C38_disjoint_partial",
    "BTA.Props.C38_empty_raises",
    "BTA.Props.C38_empty_collision",
    "BTA.Props.C38_unsorted_collision"
   ],
   "note": "Full claim is false of the code: empty tables raise NameError or give colliding event numbers (C38_empty_raises, C38_empty_collision), unsorted tables collide (C38_unsorted_collision). Content of the output and independence of chunk_size are proved without these restrictions."
  },
  {
   "property": "C39",
   "status": "proved",
   "theorems": [
    "BTA.Props.C39_reduce_events",
    "BTA.Props.C39_reduce_single_chunk",
    "BTA.Props.C39_select_tracks"
   ],
   "note": "Number of events chosen per chunk and the random choice are arbitrary (Sampling); np.random.choice is assumed to return the requested number of different items. Exact number of events only for a table read in one chunk."
  },
  {
   "property": "C40",
   "status": "partial",
   "theorems": [
    "BTA.Props.C40_select_dut",
    "BTA.Props.C40_documented_partial",
    "BTA.Props.C40_isolated_track_without_hit",
    "BTA.Props.C40_no_mask_raises",
    "BTA.Props.C40_contradiction",
    "BTA.Props.C40_all_duts"
   ],
   "note": "Documented criteria are met only if isolated-track DUTs are also hit DUTs (C40_isolated_track_without_hit); a selection without mask criteria always ends with ZeroDivisionError (C40_no_mask_raises)."
  },
  {
   "property": "C41",
   "status": "proved",
   "theorems": [
    "BTA.Props.C41_same_line",
    "BTA.Props.C41_intersection",
    "BTA.Props.C41_unique",
    "BTA.Props.C41_back",
    "BTA.Props.C41_intermediate"
   ],
   "note": "Real arithmetic. Hypothesis: the track is not parallel to the target plane."
  },
  {
   "property": "C42",
   "status": "proved",
   "theorems": [
    "BTA.Props.C42_derivative",
    "BTA.Props.C42_used",
    "BTA.Props.C42_back",
    "BTA.Props.C42_intermediate"
   ],
   "note": "Real arithmetic. HasFDerivAt of the modelled extrapolation."
  },
  {
   "property": "C43",
   "status": "proved",
   "theorems": [
    "BTA.Props.C43_predict_forward",
    "BTA.Props.C43_predict_backward",
    "BTA.Props.C43_correct",
    "BTA.Props.C43_missing",
    "BTA.Props.C43_least_squares",
    "BTA.Props.C43_information",
    "BTA.Props.C43_fit",
    "BTA.Props.C43_fit_parallel"
   ],
   "note": "Real arithmetic; eigvalsh is exact positive semi-definiteness; the repair of matrices (_make_matrix_psd) is arbitrary and never needed. One track at a time."
  },
  {
   "property": "C44",
   "status": "partial",
   "theorems": [
    "BTA.Residuals.Props.C44_given_binning_partial",
    "BTA.Residuals.Props.C44_pixel_map",
    "BTA.Residuals.Props.C44_chunk_size",
    "BTA.Residuals.Props.C44_outcome",
    "BTA.Residuals.Props.C44_binning_depends_on_chunk_size"
   ],
   "note": "Exact arithmetic of an ordered field. With given binning the histograms and profiles are those of the whole table for every chunk size (C44_given_binning_partial, C44_chunk_size). False without given binning: the automatic binning is chosen from the first chunk (C44_binning_depends_on_chunk_size). The means of calculate_efficiency are part of Efficiency.Spec.Correct (C45)."
  },
  {
   "property": "C45",
   "status": "partial",
   "theorems": [
    "BTA.Efficiency.Props.C45_any_dut_partial",
    "BTA.Efficiency.Props.C45_first_chunk_without_hit",
    "BTA.Efficiency.Props.C45_first_dut",
    "BTA.Efficiency.Props.C45_bounds",
    "BTA.Efficiency.Props.C45_pixels",
    "BTA.Efficiency.Props.C45_regions",
    "BTA.Efficiency.Props.C45_region_without_track",
    "BTA.Efficiency.Props.C45_stale",
    "BTA.Efficiency.Props.C45_stale_example"
   ],
   "note": "Proved for the first DUT always, for later DUTs if the first chunk has a track with a close hit. False otherwise: histograms of the previous DUT are reused (C45_stale, C45_stale_example: 200 %). A first chunk without close hit (C45_first_chunk_without_hit) or a chunk without track in a region (C45_region_without_track) makes the call fail. Pixel and region efficiencies hold for every successful call. Confidence intervals, in-pixel histograms and cluster shapes are not modelled; nearest pixel and sqrt are parameters."
  },
  {
   "property": "C46",
   "status": "proved",
   "theorems": [
    "BTA.Mask.Props.C46_search",
    "BTA.Mask.Props.C46_outside",
    "BTA.Mask.Props.C46_stay_masked",
    "BTA.Mask.Props.C46_unmasked_counts",
    "BTA.Mask.Props.C46_nothing_left",
    "BTA.Mask.Props.C46_masked_was_noisy",
    "BTA.Mask.Props.C46_above_background"
   ],
   "note": "Exact arithmetic of an ordered field, square root is a parameter; median filter with zeros outside of the sensor is modelled. Hits inside the sensor; hits outside raise an exception (C46_outside)."
  },
  {
   "property": "C47",
   "status": "proved",
   "theorems": [
    "BTA.Cluster.Props.C47_shape",
    "BTA.Cluster.Props.C47_extent",
    "BTA.Cluster.Props.C47_order",
    "BTA.Cluster.Props.C47_same_shape"
   ],
   "note": "The end-of-cluster function is modelled. The clusterizer itself (seed, size, charge, assignment of hits to clusters) is the external package pixel_clusterizer and not modelled. err_column and err_row are overwritten later."
  },
  {
   "property": "C48",
   "status": "partial",
   "theorems": [
    "BTA.Props.C48_not_more_than_requested",
    "BTA.Props.C48_returned_indices_partial",
    "BTA.Props.C48_returned_index_invalid",
    "BTA.Props.C48_empty"
   ],
   "note": "Masking part proved; returned indices can be out of range (general counterexample)."
  },
  {
   "property": "C49",
   "status": "proved",
   "theorems": [
    "BTA.Props.C49_find_closest"
   ],
   "note": "Sorted array with at least two entries; ties resolved to the right neighbour."
  },
  {
   "property": "C50",
   "status": "proved",
   "theorems": [
    "BTA.Props.C50_in1d_index",
    "BTA.Props.C50_in1d_index_fill"
   ],
   "note": "Sorted array or any argsort of it."
  },
  {
   "property": "C51",
   "status": "proved",
   "theorems": [
    "BTA.Props.C51_rotation",
    "BTA.Props.C51_reverse",
    "BTA.Props.C51_translation",
    "BTA.Props.C51_nonneg",
    "BTA.Props.C51_triangle",
    "BTA.Props.C51_triangulation"
   ],
   "note": "Exact arithmetic in an ordered field."
  },
  {
   "property": "C52",
   "status": "proved",
   "theorems": [
    "BTA.Props.C52_unique"
   ],
   "note": "Column-wise."
  },
  {
   "property": "C53",
   "status": "partial",
   "theorems": [
    "BTA.Purity.Props.C53_map_partial",
    "BTA.Purity.Props.C53_plotted",
    "BTA.Purity.Props.C53_never_returns",
    "BTA.Purity.Props.C53_truncated",
    "BTA.Purity.Props.C53_origin",
    "BTA.Purity.Props.C53_range"
   ],
   "note": "The map is correct before it is returned (C53_map_partial), but the call never returns a result (C53_never_returns), percentages are truncated to integers (C53_truncated), a track through the origin of the sensor counts as missing (C53_origin) and hits outside of the range count as impure (C53_range). Exact arithmetic, uint32 counters as Nat."
  },
  {
   "property": "C54",
   "status": "partial",
   "theorems": [
    "BTA.Transformation.Props.C54_chunks",
    "BTA.Transformation.Props.C54_no_rows",
    "BTA.Transformation.Props.C54_average_partial",
    "BTA.Transformation.Props.C54_last_rotation",
    "BTA.Transformation.Props.C54_only_last_chunk"
   ],
   "note": "The chunks and the averaged translation are as stated. False for the rotation: only the last chunk is used (C54_last_rotation, C54_only_last_chunk). Real arithmetic, exact linspace."
  },
  {
   "property": "C55",
   "status": "partial",
   "theorems": [
    "BTA.Props.C55_speedup_single_read_partial",
    "BTA.Props.C55_speedup_loses_event"
   ],
   "note": "False as soon as more than one chunk is needed (counterexample); single read proved."
  },
  {
   "property": "C56",
   "status": "proved",
   "theorems": [
    "BTA.Props.C56_stop_index"
   ],
   "note": "For every table sorted by event number and every chunk size larger than the largest event."
  },
  {
   "property": "C57",
   "status": "proved",
   "theorems": [
    "BTA.Fit.Props.C57_flags"
   ],
   "note": "Exact arithmetic in an ordered field; the fit is an arbitrary function."
  },
  {
   "property": "C58",
   "status": "proved",
   "theorems": [
    "BTA.Fit.Props.C58_chunk_size"
   ],
   "note": "Exact arithmetic; events larger than chunk_size raise (C05)."
  },
  {
   "property": "C59",
   "status": "proved",
   "theorems": [
    "BTA.Fit.Props.C59_max_events"
   ],
   "note": "The sample size of a chunk and the sample are arbitrary; np.random.choice without replacement is assumed to return distinct members."
  },
  {
   "property": "C60",
   "status": "partial",
   "theorems": [
    "BTA.Fit.Props.C60_keep_data_fails"
   ],
   "note": "False: raises NameError as soon as one candidate is selected for storage (C60_keep_data_fails, for all tables)."
  },
  {
   "property": "C61",
   "status": "partial",
   "theorems": [
    "BTA.Props.C61_failure_stores_nothing_partial",
    "BTA.Props.C61_read_error_not_reported",
    "BTA.Props.C61_empty_table_not_reported",
    "BTA.Props.C61_unsuitable_result_iff",
    "BTA.Props.C61_all_nodes"
   ],
   "note": "Nothing is stored under the final name after a failure (proved); the exception is not reported (C61_read_error_not_reported, C61_empty_table_not_reported)."
  },
  {
   "property": "C62",
   "status": "partial",
   "theorems": [
    "BTA.Props.C62_elementwise_sum_partial",
    "BTA.Props.C62_other_axis_fails"
   ],
   "note": "False if a later axis grows (C62_other_axis_fails)."
  },
  {
   "property": "C63",
   "status": "partial",
   "theorems": [
    "BTA.Props.C63_round_trip_partial",
    "BTA.Props.C63_ranges",
    "BTA.Props.C63_x_zero",
    "BTA.Props.C63_negative_z_axis"
   ],
   "note": "Proved for x other than zero. False for x = 0 (C63_x_zero), exception for the negative z axis (C63_negative_z_axis)."
  },
  {
   "property": "C64",
   "status": "proved",
   "theorems": [
    "BTA.Props.C64_skew",
    "BTA.Props.C64_normal"
   ],
   "note": "Exact real arithmetic."
  },
  {
   "property": "C65",
   "status": "proved",
   "theorems": [
    "BTA.Props.C65_axes",
    "BTA.Props.C65_derivative",
    "BTA.Props.C65_covariance"
   ],
   "note": "Real arithmetic."
  },
  {
   "property": "C66",
   "status": "partial",
   "theorems": [
    "BTA.Props.C66_partial",
    "BTA.Props.C66_hit_counted_twice"
   ],
   "note": "Fails at inner planes with a used hit: the hit is counted twice (C66_hit_counted_twice). Proved for the first and last plane and for planes without a used hit. The initial covariance enters both filters."
  },
  {
   "property": "C67",
   "status": "partial",
   "theorems": [
    "BTA.Props.C67_partial",
    "BTA.Props.C67_wrong_order"
   ],
   "note": "Proved for DUTs numbered in z order. Fails otherwise: the second loop stores reference states by position instead of DUT index (C67_wrong_order)."
  },
  {
   "property": "C68",
   "status": "partial",
   "theorems": [
    "BTA.Props.C68_scattering_planes_raise",
    "BTA.Props.C68_partial"
   ],
   "note": "Fails: with scattering planes the annealing factors are too short and the fit always raises (C68_scattering_planes_raise)."
  },
  {
   "property": "C69",
   "status": "proved",
   "theorems": [
    "BTA.Props.C69_unbiased"
   ],
   "note": "For fits that succeed with both sets of hits; success is C70_success."
  },
  {
   "property": "C70",
   "status": "proved",
   "theorems": [
    "BTA.Props.C70_result",
    "BTA.Props.C70_success"
   ],
   "note": "Line fit (SVD) and argsort are parameters; argsort is assumed to return a permutation."
  },
  {
   "property": "C71",
   "status": "proved",
   "theorems": [
    "BTA.Tel.C71_load_merges",
    "BTA.Tel.C71_nothing_loaded"
   ],
   "note": "Dictionaries of the file have distinct keys."
  },
  {
   "property": "C72",
   "status": "proved",
   "theorems": [
    "BTA.Tel.C72_copy",
    "BTA.Tel.C72_other_class",
    "BTA.Tel.C72_keyword"
   ],
   "note": "For every DUT that can be built; for another class the new class must fix the pixels (chip classes)."
  },
  {
   "property": "C73",
   "status": "proved",
   "theorems": [
    "BTA.Tel.C73_every_dut",
    "BTA.Tel.C73_limit",
    "BTA.Tel.C73_refused",
    "BTA.Tel.C73_assign",
    "BTA.Tel.C73_read_back",
    "BTA.Tel.C73_read_back_int",
    "BTA.Tel.C73_read_back_name"
   ],
   "note": "Underscored names (private attributes) are not modelled."
  },
  {
   "property": "C74",
   "status": "partial",
   "theorems": [
    "BTA.ShapeHist.Props.C74_histogram_partial",
    "BTA.ShapeHist.Props.C74_last_bin"
   ],
   "note": "False for the last bin, which also contains shape 65535 (C74_last_bin)."
  },
  {
   "property": "C75",
   "status": "partial",
   "theorems": [
    "BTA.ShapeHist.Props.C75_counts",
    "BTA.ShapeHist.Props.C75_counts_partial",
    "BTA.ShapeHist.Props.C75_diagonal"
   ],
   "note": "False for diagonal two-pixel clusters, which are counted as another shape (C75_diagonal)."
  },
  {
   "property": "C76",
   "status": "proved",
   "theorems": [
    "BTA.Transformation.Props.C76_fixed_translation",
    "BTA.Transformation.Props.C76_fixed_rotation",
    "BTA.Transformation.Props.C76_other_duts",
    "BTA.Transformation.Props.C76_invalid",
    "BTA.Transformation.Props.C76_each_dut"
   ],
   "note": "Real arithmetic. Angles: in the principal range, the decomposition of numpy is correct for orthogonal matrices."
  },
  {
   "property": "C77",
   "status": "proved",
   "theorems": [
    "BTA.Transformation.Props.C77_aligned"
   ],
   "note": "Real arithmetic, decomposition of numpy correct; for successful calls (success is C78)."
  },
  {
   "property": "C78",
   "status": "proved",
   "theorems": [
    "BTA.Transformation.Props.C78_shift",
    "BTA.Transformation.Props.C78_default"
   ],
   "note": "Real arithmetic, decomposition and inverse of numpy correct."
  },
  {
   "property": "C79",
   "status": "partial",
   "theorems": [
    "BTA.Apply.C79_global_partial",
    "BTA.Apply.C79_success",
    "BTA.Apply.C79_refused",
    "BTA.Apply.C79_eleven_duts"
   ],
   "note": "Real arithmetic; x, y, z of a quantity are NaN together. Missing: more than ten DUTs, where the track of Tracks_DUT10 is also moved with DUT 1 (C79_eleven_duts, proved of the code)."
  },
  {
   "property": "C80",
   "status": "partial",
   "theorems": [
    "BTA.Apply.C80_round_trip_partial",
    "BTA.Apply.C80_errors_changed"
   ],
   "note": "Real arithmetic. Missing: error columns (C80_errors_changed: they are not restored by the code) and more than ten DUTs."
  },
  {
   "property": "C81",
   "status": "proved",
   "theorems": [
    "BTA.Apply.C81_distances"
   ],
   "note": "Real arithmetic; at most ten DUTs."
  },
  {
   "property": "C82",
   "status": "partial",
   "theorems": [
    "BTA.Apply.C82_axis_turns_partial",
    "BTA.Apply.C82_error_lost"
   ],
   "note": "False in general (C82_error_lost: an error becomes zero); proved for rotations that exchange or reverse axes."
  },
  {
   "property": "C83",
   "status": "partial",
   "theorems": [
    "BTA.Check.C83_indices_partial",
    "BTA.Check.C83_positions_partial",
    "BTA.Check.C83_bad_events_refused",
    "BTA.Check.C83_bad_index_refused",
    "BTA.Check.C83_off_sensor_typeError",
    "BTA.Check.C83_upper_edge",
    "BTA.Check.C83_clusters_refused",
    "BTA.Check.C83_unsorted_accepted"
   ],
   "note": "Missing: unsorted tables with several chunks (C83_unsorted_accepted: the code accepts them unchecked). Proved of the code: a hit on the upper edge is written outside of the histogram (C83_upper_edge), positions off the sensor give a TypeError (C83_off_sensor_typeError), files of clusters are never accepted (C83_clusters_refused)."
  },
  {
   "property": "C84",
   "status": "partial",
   "theorems": [
    "BTA.Check.C84_event_numbers",
    "BTA.Check.C84_distances_partial",
    "BTA.Check.C84_event_zero"
   ],
   "note": "Event numbers for all chunk sizes; distances missing if event 0 ends a chunk (C84_event_zero, proved of the code)."
  },
  {
   "property": "C85",
   "status": "partial",
   "theorems": [
    "BTA.Check.C85_pairs_partial",
    "BTA.Check.C85_no_false_pairs",
    "BTA.Check.C85_border_lost"
   ],
   "note": "Exact for tables of one chunk; in general only an upper bound, because pairs over chunk borders are lost (C85_border_lost, proved of the code)."
  },
  {
   "property": "C86",
   "status": "proved",
   "theorems": [
    "BTA.Corr.C86_counts_all",
    "BTA.Corr.C86_counts",
    "BTA.Corr.C86_chunk_size",
    "BTA.Corr.C86_outside_counted"
   ],
   "note": "Real arithmetic. C86_counts_all also describes hits off the sensor: the first bin includes those that are outside by less than one bin (C86_outside_counted)."
  },
  {
   "property": "C87",
   "status": "partial",
   "theorems": [
    "BTA.Corr.C87_axes",
    "BTA.Corr.C87_success_partial",
    "BTA.Corr.C87_indices_inside",
    "BTA.Corr.C87_upper_end",
    "BTA.Corr.C87_edge_hit"
   ],
   "note": "Missing: hits exactly on the edge of a sensor whose size is a multiple of the resolution (C87_edge_hit: the code writes outside of the histogram) and sensors seen edge-on."
  },
  {
   "property": "C88",
   "status": "proved",
   "theorems": [
    "BTA.Corr.C88_reduced",
    "BTA.Corr.C88_background"
   ],
   "note": "The singular value decomposition is a parameter, described by its defining equations; integer conversion of exact real values."
  },
  {
   "property": "C89",
   "status": "partial",
   "theorems": [
    "BTA.Corr.C89_pairs",
    "BTA.Corr.C89_refused_partial",
    "BTA.Corr.C89_opened",
    "BTA.Corr.C89_number_of_duts",
    "BTA.Corr.C89_reference_not_selected"
   ],
   "note": "Missing: the number of DUTs as number of a DUT, and reference DUTs that are not selected; the output file has been overwritten when these fail (C89_number_of_duts, C89_reference_not_selected, proved of the code)."
  },
  {
   "property": "C90",
   "status": "proved",
   "theorems": [
    "BTA.Convert.C90_positions",
    "BTA.Convert.C90_succeeds_iff",
    "BTA.Convert.C90_chunk_size"
   ],
   "note": "Exact arithmetic. C90_chunk_size holds for both directions."
  },
  {
   "property": "C91",
   "status": "partial",
   "theorems": [
    "BTA.Convert.C91_pixel_partial",
    "BTA.Convert.C91_lower_half",
    "BTA.Convert.C91_there_and_back",
    "BTA.Convert.C91_columns"
   ],
   "note": "Exact arithmetic. True for positions in the right/upper half of a pixel and for the way there and back. False otherwise: the index is truncated, not rounded, so that positions in the left half get the column before (C91_lower_half)."
  },
  {
   "property": "C92",
   "status": "partial",
   "theorems": [
    "BTA.Convert.C92_pairs_partial",
    "BTA.Convert.C92_order_ignored",
    "BTA.Convert.C92_dropped",
    "BTA.Convert.C92_output_files",
    "BTA.Convert.C92_succeeds",
    "BTA.Convert.C92_wrong_dut",
    "BTA.Convert.C92_numbers"
   ],
   "note": "Proved for increasing selections without output files. False otherwise: the order of select_duts is ignored (C92_order_ignored, C92_wrong_dut), files are silently dropped (C92_dropped), and given output files always lead to an exception (C92_output_files)."
  },
  {
   "property": "C93",
   "status": "partial",
   "theorems": [
    "BTA.Props.C93_excluded_partial",
    "BTA.Props.C93_no_rotation",
    "BTA.Props.C93_only_around_z",
    "BTA.Props.C93_rotation_changes"
   ],
   "note": "Real arithmetic, the fit is an arbitrary function. Missing: angles around single axes (C93_rotation_changes: with the rotation around x only, the angle around y changes, proved of the code); true for translations, for all three rotations together and for the rotations around x and y together."
  },
  {
   "property": "C94",
   "status": "proved",
   "theorems": [
    "BTA.Props.C94_errors"
   ],
   "note": "Real arithmetic, the fit is an arbitrary function with positive semidefinite covariance matrices."
  },
  {
   "property": "C95",
   "status": "proved",
   "theorems": [
    "BTA.Props.C95_annealing"
   ],
   "note": "Real arithmetic."
  },
  {
   "property": "C96",
   "status": "partial",
   "theorems": [
    "BTA.Props.C96_complete_partial",
    "BTA.Props.C96_missing_hit"
   ],
   "note": "False for tracks without hit in a DUT: NaN is accepted as new alignment and the next track raises an exception (C96_missing_hit, proved of the code). With hits in all DUTs the alignment can only fail at the gimbal lock."
  },
  {
   "property": "C97",
   "status": "partial",
   "theorems": [
    "BTA.Props.C97_saved_partial",
    "BTA.Props.C97_last_track",
    "BTA.Props.C97_single_track",
    "BTA.Props.C97_chunk_size"
   ],
   "note": "False: the last track has no influence (C97_last_track, C97_single_track, proved of the code). True: the configuration is the last line of the output file, one line per track, independent of the chunk size."
  },
  {
   "property": "C98",
   "status": "proved",
   "theorems": [
    "BTA.Props.C98_step",
    "BTA.Props.C98_total"
   ],
   "note": "Real arithmetic; translations."
  },
  {
   "property": "C99",
   "status": "partial",
   "theorems": [
    "BTA.Props.C99_all_partial",
    "BTA.Props.C99_subset",
    "BTA.Props.C99_order"
   ],
   "note": "False: the entry is taken by the number of the DUT (C99_subset: exception, C99_order: parameters of another DUT, proved of the code). True if all DUTs are selected in order."
  },
  {
   "property": "C100",
   "status": "partial",
   "theorems": [
    "BTA.Props.C100_max_tracks_partial"
   ],
   "note": "False: one track more than max_tracks is used (same theorem). True: not before."
  },
  {
   "property": "C101",
   "status": "partial",
   "theorems": [
    "BTA.Props.C101_cut_partial",
    "BTA.Props.C101_zero"
   ],
   "note": "False for 0: all tracks are rejected (C101_zero, proved of the code). True for tracks above the limit."
  },
  {
   "property": "C102",
   "status": "proved",
   "theorems": [
    "BTA.Props.C102_votes",
    "BTA.Props.C102_grid",
    "BTA.Props.C102_every_pixel"
   ],
   "note": "Real arithmetic; of the grid that np.argmin sees only the first minimum counts."
  },
  {
   "property": "C103",
   "status": "proved",
   "theorems": [
    "BTA.Props.C103_line"
   ],
   "note": "Real arithmetic; the order of equal values of np.argsort is arbitrary."
  },
  {
   "property": "C104",
   "status": "partial",
   "theorems": [
    "BTA.Props.C104_never",
    "BTA.Props.C104_empty_partial",
    "BTA.Props.C104_noise"
   ],
   "note": "False: the exception is never raised (C104_never), and a histogram without any correlation is accepted (C104_noise), proved of the code. True: an empty histogram gives an exception."
  },
  {
   "property": "C105",
   "status": "partial",
   "theorems": [
    "BTA.Props.C105_axis_partial",
    "BTA.Props.C105_position_partial",
    "BTA.Props.C105_exact_partial",
    "BTA.Props.C105_reference",
    "BTA.Props.C105_succeeds"
   ],
   "note": "Real arithmetic; the kernel density estimate is an arbitrary function. Success is proved for each axis if the range of the reference is centred at zero (C105_succeeds). False otherwise: the fit fails (C105_reference, proved of the code)."
  },
  {
   "property": "C106",
   "status": "partial",
   "theorems": [
    "BTA.Props.C106_new_limit",
    "BTA.Props.C106_region",
    "BTA.Props.C106_intersection_partial",
    "BTA.Props.C106_disjoint"
   ],
   "note": "Proved without old limits, and with old limits that overlap the new region. False otherwise: the limit becomes the gap between both (C106_disjoint, proved of the code)."
  },
  {
   "property": "C107",
   "status": "proved",
   "theorems": [
    "BTA.Props.C107_turned",
    "BTA.Props.C107_parallel"
   ],
   "note": "Real arithmetic, up to the rounding of small angles to zero."
  },
  {
   "property": "C108",
   "status": "proved",
   "theorems": [
    "BTA.Props.C108_others",
    "BTA.Props.C108_z",
    "BTA.Props.C108_order",
    "BTA.Props.C108_default",
    "BTA.Props.C108_errors"
   ],
   "note": "The order of a Python set is arbitrary."
  },
  {
   "property": "C109",
   "status": "proved",
   "theorems": [
    "BTA.Diamond.Props.C109_error_iff",
    "BTA.Diamond.Props.C109_each",
    "BTA.Diamond.Props.C109_distinct",
    "BTA.Diamond.Props.C109_connected",
    "BTA.Diamond.Props.C109_chip",
    "BTA.Diamond.Props.C109_square",
    "BTA.Diamond.Props.C109_hexagonal",
    "BTA.Diamond.Props.C109_inside",
    "BTA.Diamond.Props.C109_fraction",
    "BTA.Diamond.Props.C109_jump",
    "BTA.Diamond.Props.C109_extents"
   ],
   "note": "Exact arithmetic; arrays with at least one dimension."
  },
  {
   "property": "C110",
   "status": "partial",
   "theorems": [
    "BTA.Diamond.Props.C110_partial",
    "BTA.Diamond.Props.C110_connected",
    "BTA.Diamond.Props.C110_hexagonal",
    "BTA.Diamond.Props.C110_exists",
    "BTA.Diamond.Props.C110_top"
   ],
   "note": "True only for pixels that are not connected to the diamond. False for every connected pixel (C110_connected, C110_hexagonal) and at the upper edge of the chip (C110_top), proved of the code."
  },
  {
   "property": "C111",
   "status": "proved",
   "theorems": [
    "BTA.AlignTel.Props.C111_reference",
    "BTA.AlignTel.Props.C111_reference_default",
    "BTA.AlignTel.Props.C111_kept",
    "BTA.AlignTel.Props.C111_line",
    "BTA.AlignTel.Props.C111_offset",
    "BTA.AlignTel.Props.C111_tracks",
    "BTA.AlignTel.Props.C111_angles",
    "BTA.AlignTel.Props.C111_succeeds_iff",
    "BTA.AlignTel.Props.C111_raises",
    "BTA.AlignTel.Props.C111_again"
   ],
   "note": "Real arithmetic; the singular value decomposition is any function giving a unit vector with the largest sum of squared projections (shown to exist)."
  },
  {
   "property": "C112",
   "status": "partial",
   "theorems": [
    "BTA.AlignTel.Props.C112_partial",
    "BTA.AlignTel.Props.C112_arbitrary",
    "BTA.AlignTel.Props.C112_raises"
   ],
   "note": "Proved: the DUT is moved to x = y = 0. False: the rest (C112_arbitrary, C112_raises, proved of the code). What LAPACK gives for a zero matrix is a hypothesis of C112_raises."
  },
  {
   "property": "C113",
   "status": "partial",
   "theorems": [
    "BTA.Angle.Props.C113_total",
    "BTA.Angle.Props.C113_alpha",
    "BTA.Angle.Props.C113_beta",
    "BTA.Angle.Props.C113_nan",
    "BTA.Angle.Props.C113_tan",
    "BTA.Angle.Props.C113_direction",
    "BTA.Angle.Props.C113_scale",
    "BTA.Angle.Props.C113_global_partial",
    "BTA.Angle.Props.C113_backwards",
    "BTA.Angle.Props.C113_turned"
   ],
   "note": "Proved for all directions; the global angles only for DUTs that do not face backwards. False otherwise (C113_backwards, C113_turned, proved of the code)."
  },
  {
   "property": "C114",
   "status": "partial",
   "theorems": [
    "BTA.Angle.Props.C114_y",
    "BTA.Angle.Props.C114_x_partial",
    "BTA.Angle.Props.C114_x_iff"
   ],
   "note": "Proved for y; for x only the bound. False for x if the beam is tilted in both directions (C114_x_iff, proved of the code)."
  },
  {
   "property": "C115",
   "status": "partial",
   "theorems": [
    "BTA.HistStat.Props.C115_range",
    "BTA.HistStat.Props.C115_counts",
    "BTA.HistStat.Props.C115_partial",
    "BTA.HistStat.Props.C115_lost",
    "BTA.HistStat.Props.C115_error_iff"
   ],
   "note": "Proved for one chunk; range and counts for any number of chunks. False for more chunks (C115_lost, proved of the code). Real arithmetic; n_bins=\"auto\" is not modelled."
  },
  {
   "property": "C116",
   "status": "proved",
   "theorems": [
    "BTA.HistStat.Props.C116_mean",
    "BTA.HistStat.Props.C116_mean_close",
    "BTA.HistStat.Props.C116_rms_close",
    "BTA.HistStat.Props.C116_empty"
   ],
   "note": "Real arithmetic."
  },
  {
   "property": "C117",
   "status": "partial",
   "theorems": [
    "BTA.HistStat.Props.C117_partial",
    "BTA.HistStat.Props.C117_succeeds",
    "BTA.HistStat.Props.C117_border"
   ],
   "note": "Proved if both ends are at most half of the maximum. False for a peak at the border (C117_border, proved of the code)."
  },
  {
   "property": "C118",
   "status": "proved",
   "theorems": [
    "BTA.Align.Props.C118_settings",
    "BTA.Align.Props.C118_unique",
    "BTA.Align.Props.C118_fits"
   ],
   "note": "The calls of find_tracks, fit_tracks and select_tracks are modelled by their arguments; the tables they give are arbitrary functions of all calls made before. Strings as sequences of characters are not modelled."
  },
  {
   "property": "C119",
   "status": "partial",
   "theorems": [
    "BTA.Align.Props.C119_select_duts",
    "BTA.Align.Props.C119_single_dut",
    "BTA.Align.Props.C119_single_flat",
    "BTA.Align.Props.C119_sizes",
    "BTA.Align.Props.C119_telescope_quality",
    "BTA.Align.Props.C119_partial"
   ],
   "note": "False in five ways (proved of the code), among them the example of the documentation. True: equal groups of at least two DUTs pass the checks."
  },
  {
   "property": "C120",
   "status": "partial",
   "theorems": [
    "BTA.Align.Props.C120_counterexample",
    "BTA.Align.Props.C120_partial",
    "BTA.Align.Props.C120_no_telescope",
    "BTA.Align.Props.C120_rotation",
    "BTA.Align.Props.C120_moved"
   ],
   "note": "False for x and y if telescope DUTs are aligned (C120_moved, C120_counterexample, proved of the code). True: the rest, and everything without telescope DUTs."
  },
  {
   "property": "C121",
   "status": "partial",
   "theorems": [
    "BTA.Align.Props.C121_counterexample",
    "BTA.Align.Props.C121_translation_partial",
    "BTA.Align.Props.C121_telescope_z",
    "BTA.Align.Props.C121_rotation_partial",
    "BTA.Align.Props.C121_reference",
    "BTA.Align.Props.C121_aligned"
   ],
   "note": "Real arithmetic; the singular value decomposition is assumed correct. True for z, the rotation and DUTs that are aligned already; false for x and y of telescope DUTs (C121_reference, C121_counterexample, proved of the code)."
  },
  {
   "property": "C122",
   "status": "proved",
   "theorems": [
    "BTA.Align.Props.C122_files",
    "BTA.Align.Props.C122_same",
    "BTA.Align.Props.C122_start"
   ],
   "note": "os.path.splitext is any function that splits off an extension."
  },
  {
   "property": "C123",
   "status": "proved",
   "theorems": [
    "BTA.Align.Props.C123_selection",
    "BTA.Align.Props.C123_tracks"
   ],
   "note": "Exact arithmetic; of the text of the query only its meaning is modelled, with the limit of chi2 rounded to six digits."
  },
  {
   "property": "C124",
   "status": "proved",
   "theorems": [
    "BTA.Cluster.Props.C124_default_shapes"
   ],
   "note": "With the shapes of C47."
  },
  {
   "property": "C125",
   "status": "proved",
   "theorems": [
    "BTA.Align.Props.C125_no_files",
    "BTA.Align.Props.C125_candidates_once",
    "BTA.Align.Props.C125_max_events",
    "BTA.Align.Props.C125_never_missing"
   ],
   "note": "Files as a list of names; an exception leaves temporary files (not claimed)."
  },
  {
   "property": "C126",
   "status": "partial",
   "theorems": [
    "BTA.HitFiles.Props.C126_check_partial",
    "BTA.HitFiles.Props.C126_mask_partial",
    "BTA.HitFiles.Props.C126_cluster_partial",
    "BTA.HitFiles.Props.C126_check_accepts",
    "BTA.HitFiles.Props.C126_mask_accepts",
    "BTA.HitFiles.Props.C126_cluster_accepts",
    "BTA.HitFiles.Props.C126_order",
    "BTA.HitFiles.Props.C126_swapped",
    "BTA.HitFiles.Props.C126_dropped"
   ],
   "note": "False in two ways, proved of the code (C126_order, C126_swapped, C126_dropped). True for increasing selections; the acceptance is exact."
  },
  {
   "property": "C127",
   "status": "proved",
   "theorems": [
    "BTA.ClusterHits.Props.C127_input",
    "BTA.ClusterHits.Props.C127_masks_refused"
   ],
   "note": "The clusterizer (package pixel_clusterizer) is any function that treats events separately, keeps the hits in order and gives the clusters in the order of the events."
  },
  {
   "property": "C128",
   "status": "proved",
   "theorems": [
    "BTA.ClusterHits.Props.C128_chunk_size"
   ],
   "note": "Same assumptions on the clusterizer as C127."
  },
  {
   "property": "C129",
   "status": "partial",
   "theorems": [
    "BTA.ClusterHits.Props.C129_accepts_partial",
    "BTA.ClusterHits.Props.C129_needs",
    "BTA.ClusterHits.Props.C129_no_hits",
    "BTA.ClusterHits.Props.C129_no_clusters"
   ],
   "note": "False without hits or clusters (C129_no_hits, C129_no_clusters, proved of the code)."
  },
  {
   "property": "C130",
   "status": "proved",
   "theorems": [
    "BTA.ClusterHits.Props.C130_cluster_size",
    "BTA.ClusterHits.Props.C130_errors"
   ],
   "note": "Same assumptions on the clusterizer as C127; np.sqrt(12) is a positive number with square 12."
  },
  {
   "property": "C131",
   "status": "partial",
   "theorems": [
    "BTA.ClusterHits.Props.C131_seed_partial",
    "BTA.ClusterHits.Props.C131_negative",
    "BTA.ClusterHits.Props.C131_left_half"
   ],
   "note": "The conversion to uint16 is arbitrary. False for positions (C131_negative, C131_left_half, proved of the code), the exact condition is part of C131_seed_partial."
  },
  {
   "property": "C132",
   "status": "proved",
   "theorems": [
    "BTA.Converters.Props.C132_planes",
    "BTA.Converters.Props.C132_complete",
    "BTA.Converters.Props.C132_names",
    "BTA.Converters.Props.C132_chunk_size"
   ],
   "note": "Columns and rows below 65535 (16 bit). A path denotes the file with exactly this name."
  },
  {
   "property": "C133",
   "status": "partial",
   "theorems": [
    "BTA.Converters.Props.C133_m26_partial",
    "BTA.Converters.Props.C133_fei4_partial",
    "BTA.Converters.Props.C133_input_file",
    "BTA.Converters.Props.C133_overflow",
    "BTA.Converters.Props.C133_refused",
    "BTA.Converters.Props.C133_sorted"
   ],
   "note": "Proved for event numbers below 2^62 in size. False at the limits of 64 bit (C133_overflow, proved of the code)."
  },
  {
   "property": "C134",
   "status": "proved",
   "theorems": [
    "BTA.Converters.Props.C134_hits",
    "BTA.Converters.Props.C134_chunk_size"
   ],
   "note": "A path denotes the file with exactly this name."
  },
  {
   "property": "C135",
   "status": "partial",
   "theorems": [
    "BTA.Sim.Props.C135_events_partial",
    "BTA.Sim.Props.C135_too_many",
    "BTA.Sim.Props.C135_no_events"
   ],
   "note": "Proved if chunk_size divides n_events or is larger (C135_events_partial). False otherwise (C135_too_many, proved of the code for all such numbers)."
  },
  {
   "property": "C136",
   "status": "proved",
   "theorems": [
    "BTA.Sim.Props.C136_content",
    "BTA.Sim.Props.C136_tables"
   ],
   "note": "Numbers of pixels below 65536 (16 bit)."
  },
  {
   "property": "C137",
   "status": "partial",
   "theorems": [
    "BTA.Sim.Props.C137_reset",
    "BTA.Sim.Props.C137_decrease_partial",
    "BTA.Sim.Props.C137_std",
    "BTA.Sim.Props.C137_increase"
   ],
   "note": "Proved for smaller numbers (C137_decrease_partial). False for larger ones (C137_increase, proved of the code)."
  },
  {
   "property": "C138",
   "status": "proved",
   "theorems": [
    "BTA.Sim.Props.C138_tracks",
    "BTA.Sim.Props.C138_shuffle",
    "BTA.Sim.Props.C138_all",
    "BTA.Sim.Props.C138_counts"
   ],
   "note": "np.random.shuffle is an arbitrary function giving a permutation."
  },
  {
   "property": "C139",
   "status": "proved",
   "theorems": [
    "BTA.Sim.Props.C139_clusters",
    "BTA.Sim.Props.C139_cold",
    "BTA.Sim.Props.C139_sigma_cc"
   ],
   "note": "Exact arithmetic; the error function is any monotone function between -1 and 1. False at temperature 0 (C139_cold, proved of the code)."
  },
  {
   "property": "C140",
   "status": "partial",
   "theorems": [
    "BTA.Sim.Props.C140_pixels",
    "BTA.Sim.Props.C140_unique",
    "BTA.Sim.Props.C140_seed_partial",
    "BTA.Sim.Props.C140_last_column",
    "BTA.Sim.Props.C140_last_row",
    "BTA.Sim.Props.C140_data"
   ],
   "note": "Exact arithmetic. With charge sharing proved for pixels not in the last column or row (C140_seed_partial); false there (C140_last_column, C140_last_row, proved of the code)."
  },
  {
   "property": "C141",
   "status": "partial",
   "theorems": [
    "BTA.Sim.Props.C141_theta",
    "BTA.Sim.Props.C141_beam_partial",
    "BTA.Sim.Props.C141_sigma_y"
   ],
   "note": "Random numbers are mean + sigma * standard normal number, as in numpy. Proved for x, angles, and y with the sigma of x (C141_beam_partial); false for y otherwise (C141_sigma_y, proved of the code)."
  },
  {
   "property": "C142",
   "status": "proved",
   "theorems": [
    "BTA.Sim.Props.C142_scattering",
    "BTA.Sim.Props.C142_hits",
    "BTA.Sim.Props.C142_parallel"
   ],
   "note": "Real numbers instead of floating point."
  },
  {
   "property": "C143",
   "status": "proved",
   "theorems": [
    "BTA.Sim.Props.C143_efficiency",
    "BTA.Sim.Props.C143_threshold"
   ],
   "note": "Exact arithmetic."
  },
  {
   "property": "C144",
   "status": "proved",
   "theorems": [
    "BTA.Line.Props.C144_closest",
    "BTA.Line.Props.C144_line",
    "BTA.Line.Props.C144_only_positions"
   ],
   "note": "The singular value decomposition is any function giving a unit vector with the largest sum of squared products, or failing. Real numbers instead of floating point."
  },
  {
   "property": "C145",
   "status": "partial",
   "theorems": [
    "BTA.Line.Props.C145_chi2_partial",
    "BTA.Line.Props.C145_reduced",
    "BTA.Line.Props.C145_twice",
    "BTA.Line.Props.C145_zero_error",
    "BTA.Line.Props.C145_line",
    "BTA.Line.Props.C145_two_hits"
   ],
   "note": "Proved if no fit DUT is named twice and no error is zero (C145_chi2_partial). False otherwise (C145_twice, C145_zero_error, proved of the code)."
  },
  {
   "property": "C146",
   "status": "proved",
   "theorems": [
    "BTA.Line.Props.C146_same_line",
    "BTA.Line.Props.C146_all",
    "BTA.Line.Props.C146_raises_iff"
   ],
   "note": "As C144."
  },
  {
   "property": "C147",
   "status": "proved",
   "theorems": [
    "BTA.Line.Props.C147_slices",
    "BTA.Line.Props.C147_split"
   ],
   "note": "np.array_split by its documented behaviour."
  },
  {
   "property": "C148",
   "status": "proved",
   "theorems": [
    "BTA.FitArgs.Props.C148_meaning",
    "BTA.FitArgs.Props.C148_default",
    "BTA.FitArgs.Props.C148_default_small",
    "BTA.FitArgs.Props.C148_own_settings",
    "BTA.FitArgs.Props.C148_distances"
   ],
   "note": "Values are None, bool, int, float, list or tuple. Tuples with None items are not accepted. The tables are compared for fit DUTs that are not named twice."
  },
  {
   "property": "C149",
   "status": "partial",
   "theorems": [
    "BTA.FitArgs.Props.C149_unchanged_partial",
    "BTA.FitArgs.Props.C149_changed",
    "BTA.FitArgs.Props.C149_second_call"
   ],
   "note": "Proved for lists without None (C149_unchanged_partial). False otherwise (C149_changed, C149_second_call, proved of the code for all such lists)."
  },
  {
   "property": "C150",
   "status": "proved",
   "theorems": [
    "BTA.KDriver.Props.C150_settings",
    "BTA.KDriver.Props.C150_unique",
    "BTA.KDriver.Props.C150_order"
   ],
   "note": "The order is proved with exclude_dut_hit False and one value of min_track_hits for all DUTs (then one pass for each group). Track finding and fit are arbitrary functions; real numbers."
  },
  {
   "property": "C151",
   "status": "partial",
   "theorems": [
    "BTA.KDriver.Props.C151_select_duts",
    "BTA.KDriver.Props.C151_track_chi2",
    "BTA.KDriver.Props.C151_parameters",
    "BTA.KDriver.Props.C151_parameters_errors",
    "BTA.KDriver.Props.C151_telescope_duts",
    "BTA.KDriver.Props.C151_explicit_partial"
   ],
   "note": "False for every one of the defaults (C151_select_duts, C151_track_chi2, C151_parameters, C151_parameters_errors, C151_telescope_duts, proved of the code for all other arguments). With all arguments given explicitly the call works (C151_explicit_partial)."
  },
  {
   "property": "C152",
   "status": "partial",
   "theorems": [
    "BTA.KDriver.Props.C152_only_first",
    "BTA.KDriver.Props.C152_several_groups",
    "BTA.KDriver.Props.C152_all_duts_partial"
   ],
   "note": "False: a call returns only if every group is DUTs 0 to k (C152_only_first), so several disjoint groups always raise (C152_several_groups). True for one group of all DUTs (C152_all_duts_partial)."
  },
  {
   "property": "C153",
   "status": "proved",
   "theorems": [
    "BTA.KDriver.Props.C153_no_influence",
    "BTA.KDriver.Props.C153_same_result",
    "BTA.KDriver.Props.C153_all_hits"
   ],
   "note": "Same value for all DUTs."
  },
  {
   "property": "C154",
   "status": "proved",
   "theorems": [
    "BTA.KDriver.Props.C154_files",
    "BTA.KDriver.Props.C154_other_duts",
    "BTA.KDriver.Props.C154_telescope_planes"
   ],
   "note": "Unchanged up to normalization of angles: stated for angles in the usual range."
  },
  {
   "property": "C155",
   "status": "proved",
   "theorems": [
    "BTA.Save.Props.C155_recorded",
    "BTA.Save.Props.C155_nothing_else",
    "BTA.Save.Props.C155_returns"
   ],
   "note": "The decorated function is arbitrary. Text is cut after 256 and 32768 characters (part of the statement of C155_recorded)."
  },
  {
   "property": "C156",
   "status": "partial",
   "theorems": [
    "BTA.Save.Props.C156_given_partial",
    "BTA.Save.Props.C156_long",
    "BTA.Save.Props.C156_not_ascii",
    "BTA.Save.Props.C156_changed"
   ],
   "note": "False for long texts (C156_long), for lists changed by fit_tracks (C156_changed), and with text that is not ASCII the call raises (C156_not_ascii), all proved of the code."
  },
  {
   "property": "C157",
   "status": "partial",
   "theorems": [
    "BTA.Save.Props.C157_date_partial",
    "BTA.Save.Props.C157_struct_time"
   ],
   "note": "False for struct_time (C157_struct_time, proved of the code for all calls)."
  },
  {
   "property": "C158",
   "status": "partial",
   "theorems": [
    "BTA.InPixel.Props.C158_large_cell_partial",
    "BTA.InPixel.Props.C158_pixel",
    "BTA.InPixel.Props.C158_border"
   ],
   "note": "Proved for primitive cells of one pixel (C158_pixel). For larger cells (C158_large_cell_partial) no track may lie exactly at the end of a pixel within the cell; such a track is counted in a square that depends on chunk_size (C158_border, a concrete run of the code model)."
  },
  {
   "property": "C159",
   "status": "partial",
   "theorems": [
    "BTA.InPixel.Props.C159_exact",
    "BTA.InPixel.Props.C159_partial",
    "BTA.InPixel.Props.C159_far_hit"
   ],
   "note": "False: hits beyond the cut are counted in chunks that have any hit within the cut (C159_exact describes all runs, C159_far_hit is a witness). True if all hits are within the cut (C159_partial)."
  },
  {
   "property": "C160",
   "status": "partial",
   "theorems": [
    "BTA.InPixel.Props.C160_periodic_partial",
    "BTA.InPixel.Props.C160_not_a_multiple"
   ],
   "note": "Periodic with the size of the map (C160_periodic_partial), which is the cell if its size is a multiple of the resolution; otherwise the continuation is shifted (C160_not_a_multiple)."
  },
  {
   "property": "C161",
   "status": "partial",
   "theorems": [
    "BTA.EffArgs.Props.C161_pairs_partial",
    "BTA.EffArgs.Props.C161_tuple_none",
    "BTA.EffArgs.Props.C161_shared_list",
    "BTA.EffArgs.Props.C161_caller_changed"
   ],
   "note": "False: a tuple with None raises a TypeError after the output file has been replaced (C161_tuple_none), a list with None used for two DUTs gives the second DUT the default of the first (C161_shared_list), the lists of the caller are changed (C161_caller_changed). Otherwise true (C161_pairs_partial)."
  },
  {
   "property": "C162",
   "status": "proved",
   "theorems": [
    "BTA.EffArgs.Props.C162_opened_iff",
    "BTA.EffArgs.Props.C162_value_error",
    "BTA.EffArgs.Props.C162_value_error_iff",
    "BTA.EffArgs.Props.C162_names"
   ],
   "note": "Also proved that the lists of the caller are unchanged in case of a ValueError. plot_ranges, extend_areas and masks are not part of the model."
  },
  {
   "property": "C163",
   "status": "proved",
   "theorems": [
    "BTA.PixelTree.Props.C163_any_layout",
    "BTA.PixelTree.Props.C163_assigned",
    "BTA.PixelTree.Props.C163_efficiency"
   ],
   "note": "kd-tree query (returns a closest point) and Voronoi diagram (reports points whose region leaves the sensor) are parameters with this specification. C163_any_layout holds for any arrangement of the pixels; numbers for RectangularPixelDut. No track exactly on the border of a pixel, where two pixels are equally close. Exact arithmetic."
  },
  {
   "property": "C164",
   "status": "proved",
   "theorems": [
    "BTA.PixelTree.Props.C164_bins",
    "BTA.PixelTree.Props.C164_valid",
    "BTA.PixelTree.Props.C164_on_sensor",
    "BTA.PixelTree.Props.C164_default"
   ],
   "note": "Exact arithmetic: with floats int(size / resolution) may be one less."
  },
  {
   "property": "C165",
   "status": "proved",
   "theorems": [
    "BTA.PixelTree.Props.C165_mask"
   ],
   "note": "Mask of the shape of the sensor; no track exactly on the border of a pixel."
  },
  {
   "property": "C166",
   "status": "proved",
   "theorems": [
    "BTA.Sim.Props.C166_at_most_five",
    "BTA.Sim.Props.C166_error_iff"
   ],
   "note": "The hits outside of the sensor and those removed later by efficiency or threshold count for the limit."
  },
  {
   "property": "C167",
   "status": "proved",
   "theorems": [
    "BTA.ResFit.Props.C167_range",
    "BTA.ResFit.Props.C167_peak",
    "BTA.ResFit.Props.C167_no_peak",
    "BTA.ResFit.Props.C167_equal_residuals",
    "BTA.ResFit.Props.C167_auto"
   ],
   "note": "Peak detection with splines and the 'sturges' bins are parameters; numbers are exact."
  },
  {
   "property": "C168",
   "status": "partial",
   "theorems": [
    "BTA.ResFit.Props.C168_limits_partial",
    "BTA.ResFit.Props.C168_lower_ignored",
    "BTA.ResFit.Props.C168_upper_ignored",
    "BTA.ResFit.Props.C168_fullest",
    "BTA.ResFit.Props.C168_fraction",
    "BTA.ResFit.Props.C168_equal",
    "BTA.ResFit.Props.C168_nan_iff",
    "BTA.ResFit.Props.C168_weights"
   ],
   "note": "Partial: false if no bin centre lies above the lower or below the upper limit (C168_lower_ignored, C168_upper_ignored) and with equal numbers of entries without limits (C168_equal). curve_fit is a parameter."
  },
  {
   "property": "C169",
   "status": "partial",
   "theorems": [
    "BTA.EffectivePixels.C169_outside",
    "BTA.EffectivePixels.C169_bins",
    "BTA.RegionHist.Props.C169_single_partial",
    "BTA.RegionHist.Props.C169_larger_cluster",
    "BTA.RegionHist.Props.C169_no_hit",
    "BTA.RegionHist.Props.C169_shape"
   ],
   "note": "False for clusters with more than one hit (C169_larger_cluster, proved of the code for all complete tables). Proved for single hits (C169_single_partial). np.unravel_index is assumed to accept dims=."
  },
  {
   "property": "C170",
   "status": "proved",
   "theorems": [
    "BTA.RegionHist.Props.C170_counts",
    "BTA.RegionHist.Props.C170_chunks",
    "BTA.RegionHist.Props.C170_error_iff",
    "BTA.RegionHist.Props.C170_charge",
    "BTA.RegionHist.Props.C170_small_negative"
   ],
   "note": "Proved for all chunks; exact numbers."
  },
  {
   "property": "C171",
   "status": "proved",
   "theorems": [
    "BTA.RegionHist.Props.C171_succeeds_iff",
    "BTA.RegionHist.Props.C171_no_hit",
    "BTA.RegionHist.Props.C171_counts"
   ],
   "note": "Exact condition of success and content; tracks of later chunks outside of the range of the first are not counted (see C115)."
  },
  {
   "property": "C172",
   "status": "partial",
   "theorems": [
    "BTA.GridTools.Props.C172_groups_partial",
    "BTA.GridTools.Props.C172_error_iff",
    "BTA.GridTools.Props.C172_below"
   ],
   "note": "Partial: false below the range (C172_below); exact condition of the exception in C172_error_iff. Exact numbers."
  },
  {
   "property": "C173",
   "status": "proved",
   "theorems": [
    "BTA.GridTools.Props.C173_square",
    "BTA.GridTools.Props.C173_default",
    "BTA.GridTools.Props.C173_inside",
    "BTA.GridTools.Props.C173_error_iff"
   ],
   "note": "Values are not negative; the array is larger than the reflected border."
  },
  {
   "property": "C174",
   "status": "proved",
   "theorems": [
    "BTA.SelArgs.Props.C174_meaning",
    "BTA.SelArgs.Props.C174_selection",
    "BTA.SelArgs.Props.C174_query_only"
   ],
   "note": "Items are None, integers or lists of integers. No limit on the number of events here (see C39)."
  },
  {
   "property": "C175",
   "status": "partial",
   "theorems": [
    "BTA.SelArgs.Props.C175_refused_partial",
    "BTA.SelArgs.Props.C175_replaced",
    "BTA.SelArgs.Props.C175_late",
    "BTA.SelArgs.Props.C175_twice"
   ],
   "note": "Partial: false for DUT numbers that cannot be used (C175_late, C175_twice, C175_replaced)."
  },
  {
   "property": "C176",
   "status": "proved",
   "theorems": [
    "BTA.FindFile.Props.C176_one_chunk",
    "BTA.FindFile.Props.C176_chunk_size",
    "BTA.FindFile.Props.C176_events_independent",
    "BTA.FindFile.Props.C176_rows"
   ],
   "note": "Floating point operations are arbitrary functions. The rows for more than 10 DUTs: see C22."
  },
  {
   "property": "C177",
   "status": "proved",
   "theorems": [
    "BTA.FindFile.Props.C177_reduced",
    "BTA.FindFile.Props.C177_max_events"
   ],
   "note": "The number of events for a chunk and the random choice are arbitrary (see C39)."
  },
  {
   "property": "C178",
   "status": "proved",
   "theorems": [
    "BTA.Find.Props.C178_separated",
    "BTA.Find.Props.C178_no_cut",
    "BTA.Find.Props.C178_distance",
    "BTA.Find.Props.C178_straight",
    "BTA.FindFile.Props.C178_file"
   ],
   "note": "Each track is required to have a hit in the first DUT; C178_no_cut shows why. C178_distance and C178_straight use exact numbers, C178_separated and C178_file any arithmetic."
  },
  {
   "property": "C179",
   "status": "proved",
   "theorems": [
    "BTA.MergedColumns.Props.C179_columns",
    "BTA.MergedColumns.Props.C179_hit_flag",
    "BTA.MergedColumns.Props.C179_position"
   ],
   "note": "NaN is a value of its own; conversions to the column types (e.g. cluster_ID as 16 bit) are not modelled. A position outside of the sensor, for which index_to_local_position raises an error, is left open."
  },
  {
   "property": "C180",
   "status": "proved",
   "theorems": [
    "BTA.MergedColumns.Props.C180_every_cluster_once"
   ],
   "note": "The limit of 10 DUTs is that of C22, the one at the last event of the first DUT that of C14. Same chunk size for both steps."
  },
  {
   "property": "C181",
   "status": "partial",
   "theorems": [
    "BTA.CompareFiles.Props.C181_equal_partial",
    "BTA.CompareFiles.Props.C181_same_passes",
    "BTA.CompareFiles.Props.C181_missing_node",
    "BTA.CompareFiles.Props.C181_additional_rows",
    "BTA.CompareFiles.Props.C181_node_names_partial",
    "BTA.CompareFiles.Props.C181_name",
    "BTA.CompareFiles.Props.C181_ignore_without_slash"
   ],
   "note": "Partial: false if the second file has more rows and the number of rows of the first is a multiple of the rows read at once (C181_additional_rows), proved otherwise. C181_same_passes and C181_missing_node hold without this restriction. C181_ignore_without_slash: names to be ignored need the slash."
  },
  {
   "property": "C182",
   "status": "partial",
   "theorems": [
    "BTA.CompareFiles.Props.C182_close_partial",
    "BTA.CompareFiles.Props.C182_strings",
    "BTA.CompareFiles.Props.C182_numbers_partial",
    "BTA.CompareFiles.Props.C182_order"
   ],
   "note": "Partial: false for tables with strings (C182_strings: columns behind a string are not compared), and for additional rows as in C181. C182_order: the result depends on the order of the files."
  },
  {
   "property": "C183",
   "status": "proved",
   "theorems": [
    "BTA.Fixture.Props.C183_calls",
    "BTA.Fixture.Props.C183_all_combinations",
    "BTA.Fixture.Props.C183_number"
   ],
   "note": "Names of arguments are all different, as in Python."
  },
  {
   "property": "C184",
   "status": "partial",
   "theorems": [
    "BTA.Fixture.Props.C184_check_partial",
    "BTA.Fixture.Props.C184_own_fixture",
    "BTA.Fixture.Props.C184_one_value",
    "BTA.Fixture.Props.C184_error"
   ],
   "note": "Partial: false for a fixture with one value (C184_one_value). Results are numbers without NaN."
  },
  {
   "property": "C185",
   "status": "proved",
   "theorems": [
    "BTA.Chain.Props.C185_candidates",
    "BTA.Chain.Props.C185_flag"
   ],
   "note": "Exact numbers. align_to_beam: proved for False, and for True if the sensor planes are the same in beam coordinates. Each track has a cluster in the first DUT (see C178_no_cut)."
  },
  {
   "property": "C186",
   "status": "proved",
   "theorems": [
    "BTA.Chain.Props.C186_tracks"
   ],
   "note": "Exact numbers; the singular value decomposition is any function that gives a first singular vector (such a function exists). chi2 is zero if the residuals are not corrected (select_align_duts)."
  },
  {
   "property": "C187",
   "status": "partial",
   "theorems": [
    "BTA.Chain.Props.C187_unmoved_plane",
    "BTA.Chain.Props.C187_expected_partial",
    "BTA.Chain.Props.C187_swapped"
   ],
   "note": "Partial: false if the telescope is moved so that a sensor plane is elsewhere in beam coordinates (C187_unmoved_plane says where the track is expected, C187_swapped shows that well separated tracks exchange hits)."
  },
  {
   "property": "C188",
   "status": "proved",
   "theorems": [
    "BTA.Chain.Props.C188_chunk",
    "BTA.Chain.Props.C188_efficiency"
   ],
   "note": "Exact numbers, straight line fit, no correction of residuals. The fit is applied to each candidate alone (C188_chunk: the same as in a chunk). Example: an efficiency of 50 % for two tracks."
  },
  {
   "property": "C189",
   "status": "proved",
   "theorems": [
    "BTA.Efficiency.Props.C189_dut_iff",
    "BTA.Efficiency.Props.C189_first_dut",
    "BTA.Efficiency.Props.C189_all_duts",
    "BTA.Efficiency.Props.C189_short"
   ],
   "note": "Without regions (see C45_region_without_track). For later DUTs the condition of the first chunk is sufficient, not necessary (C45_stale). The interval of the efficiency (SLSQP) is assumed to be found."
  },
  {
   "property": "C190",
   "status": "proved",
   "theorems": [
    "BTA.Chain.Props.C190_candidates"
   ],
   "note": "Exact numbers in the calculation; sensors perpendicular to the z axis, sensor planes the same in beam coordinates. Each track has a cluster in the first DUT (see C178_no_cut)."
  },
  {
   "property": "C191",
   "status": "proved",
   "theorems": [
    "BTA.Line.Props.C191_accuracy",
    "BTA.Line.Props.C191_residual",
    "BTA.Line.Props.C191_returns"
   ],
   "note": "Exact numbers; the singular value decomposition is any function that gives a first singular vector. C191_accuracy and C191_residual for every DUT perpendicular to z, C191_returns if all are."
  },
  {
   "property": "C192",
   "status": "proved",
   "theorems": [
    "BTA.Chain.Props.C192_efficiency"
   ],
   "note": "As C188, with errors of the clusters. The condition on the accuracy uses the DUTs that have seen the track. Example: errors of 0.5, an efficiency of 50 % for two tracks."
  },
  {
   "property": "C193",
   "status": "proved",
   "theorems": [
    "BTA.EfficiencyInterval.C193_interval",
    "BTA.EfficiencyInterval.C193_solvable",
    "BTA.EfficiencyInterval.C193_unique"
   ],
   "note": "Exact numbers. The minimiser (SLSQP of scipy) is assumed to solve the problem given by the code (C193_solvable: there is a solution, C193_unique: only one); its start values and tolerance are not modelled. Example: one of one track."
  },
  {
   "property": "C194",
   "status": "proved",
   "theorems": [
    "BTA.SimChain.Props.C194_truth",
    "BTA.SimChain.Props.C194_efficiency"
   ],
   "note": "Exact numbers; each hit is taken as one cluster (OneByOne); the random numbers and permutations are arbitrary. The separation of the tracks, that they cross the sensors, and the accuracy of the fit are hypotheses on the simulated tracks. Example: three DUTs, an efficiency of 50 %."
  },
  {
   "property": "C195",
   "status": "partial",
   "theorems": [
    "BTA.Plots.Props.C195_exact_partial",
    "BTA.Plots.Props.C195_returns",
    "BTA.Plots.Props.C195_no_hit_fails",
    "BTA.Plots.Props.C195_chunk_size_fails",
    "BTA.Plots.Props.C195_empty_table_stale",
    "BTA.Plots.Props.C195_empty_table_fails",
    "BTA.Plots.Props.C195_stored"
   ],
   "note": "Partial: C195_no_hit_fails, C195_chunk_size_fails, C195_empty_table_stale, C195_empty_table_fails show where the code fails. C195_returns says when it returns."
  },
  {
   "property": "C196",
   "status": "partial",
   "theorems": [
    "BTA.Plots.Props.C196_exact_partial",
    "BTA.Plots.Props.C196_empty_table_stale",
    "BTA.Plots.Props.C196_empty_table_fails",
    "BTA.Plots.Props.C196_candidates_fail",
    "BTA.Plots.Props.C196_full_range_fails"
   ],
   "note": "Ordered field instead of floating point numbers. Partial: the full range depends on the chunk size (C196_full_range_fails), empty tables (C196_empty_table_stale, C196_empty_table_fails), candidates (C196_candidates_fail)."
  },
  {
   "property": "C197",
   "status": "partial",
   "theorems": [
    "BTA.Plots.Props.C197_density_partial",
    "BTA.Plots.Props.C197_no_hit_fails",
    "BTA.Plots.Props.C197_empty_table_stale",
    "BTA.Plots.Props.C197_charge"
   ],
   "note": "Ordered field instead of floating point numbers. Partial: C197_no_hit_fails, C197_empty_table_stale. The charge map is proved in full (C197_charge)."
  },
  {
   "property": "C198",
   "status": "partial",
   "theorems": [
    "BTA.Plots.Props.C198_exact_partial",
    "BTA.Plots.Props.C198_group_fails"
   ],
   "note": "Partial: a group in the file raises an exception (C198_group_fails)."
  },
  {
   "property": "C199",
   "status": "partial",
   "theorems": [
    "BTA.PlotTracks.Props.C199_title",
    "BTA.PlotTracks.Props.C199_ends",
    "BTA.PlotTracks.Props.C199_on_track_partial",
    "BTA.PlotTracks.Props.C199_line_fails"
   ],
   "note": "Partial: the drawn line is on the track but does not reach the last DUT (C199_line_fails). Exact numbers."
  },
  {
   "property": "C200",
   "status": "partial",
   "theorems": [
    "BTA.PlotTracks.Props.C200_shares",
    "BTA.PlotTracks.Props.C200_bounds",
    "BTA.PlotTracks.Props.C200_factor",
    "BTA.PlotTracks.Props.C200_last_share_partial",
    "BTA.PlotTracks.Props.C200_last_share_fails"
   ],
   "note": "Partial: the last curve (C200_last_share_fails, true if all fitted tracks with all flags are stored: C200_last_share_partial)."
  },
  {
   "property": "C201",
   "status": "proved",
   "theorems": [
    "BTA.PlotTracks.Props.C201_markers",
    "BTA.PlotTracks.Props.C201_pages"
   ],
   "note": ""
  },
  {
   "property": "C202",
   "status": "partial",
   "theorems": [
    "BTA.Plots.Props.C202_single_file_partial",
    "BTA.Plots.Props.C202_several_files_fail",
    "BTA.Plots.Props.C202_arguments"
   ],
   "note": "Partial: several files of hits or tracks are accepted, one is used (C202_several_files_fail)."
  },
  {
   "property": "C203",
   "status": "proved",
   "theorems": [
    "BTA.Chain.Props.C203_alignment"
   ],
   "note": "Exact numbers; the singular value decomposition and the pseudo inverse of numpy have their defining properties (SvdCorrect, PinvCorrect). That the tracks determine the position is a hypothesis on the true tracks. Example: three DUTs, the middle one displaced by (0.5, 0, 0.25)."
  },
  {
   "property": "C204",
   "status": "proved",
   "theorems": [
    "BTA.GaussFit.Props.C204_identical",
    "BTA.GaussFit.Props.C204_probability",
    "BTA.GaussFit.Props.C204_sharp",
    "BTA.GaussFit.Props.C204_area"
   ],
   "note": "Exact numbers; quad is the integral, erf the error function."
  },
  {
   "property": "C205",
   "status": "proved",
   "theorems": [
    "BTA.GaussFit.Props.C205_result",
    "BTA.GaussFit.Props.C205_single",
    "BTA.GaussFit.Props.C205_exact",
    "BTA.GaussFit.Props.C205_box_exact",
    "BTA.GaussFit.Props.C205_raises"
   ],
   "note": "Exact numbers; curve_fit is any function (least squares only where the theorem says so). Example: the histogram 1, 2, 1."
  },
  {
   "property": "C206",
   "status": "proved",
   "theorems": [
    "BTA.Ransac.Props.C206_foot",
    "BTA.Ransac.Props.C206_line",
    "BTA.Ransac.Props.C206_best",
    "BTA.Ransac.Props.C206_fails",
    "BTA.Ransac.Props.C206_ratio",
    "BTA.Ransac.Props.C206_robust"
   ],
   "note": "Exact numbers; the permutations are arguments. Example: three points on a line and one far away."
  },
  {
   "property": "C207",
   "status": "proved",
   "theorems": [
    "BTA.Chain.Props.C207_stored"
   ],
   "note": "Exact numbers; the singular value decomposition of numpy has its defining property. Example: three DUTs, errors of up to 0.5."
  },
  {
   "property": "C208",
   "status": "proved",
   "theorems": [
    "BTA.Chain.Props.C208_residuals"
   ],
   "note": "The hypothesis TableOf is the conclusion of C207. Exact numbers. Example: the chain of C207, with one track seen by the DUT."
  },
  {
   "property": "C209",
   "status": "proved",
   "theorems": [
    "BTA.Chain.Props.C209_purity"
   ],
   "note": "The hypothesis TableOf is the conclusion of C207. The maps are those handed to the plot (calculate_purity itself always raises an exception after that, C53)."
  },
  {
   "property": "C210",
   "status": "proved",
   "theorems": [
    "BTA.Props.C210_quarter",
    "BTA.Props.C210_axis",
    "BTA.Props.C210_position",
    "BTA.Props.C210_succeeds"
   ],
   "note": "Exact numbers; argsort sorts, the kernel density estimate is any function (positive for the success). Example: a histogram with a noisy bin."
  },
  {
   "property": "C211",
   "status": "proved",
   "theorems": [
    "BTA.Props.C211_position",
    "BTA.Props.C211_pixels"
   ],
   "note": "Exact numbers. The correlation file connects the models of correlate and prealign. Example: reference with 5 x 5 pixels, DUT with 3 x 3 pixels thought to be at x = 700."
  },
  {
   "property": "C212",
   "status": "proved",
   "theorems": [
    "BTA.Props.C212_peaks",
    "BTA.Props.C212_erased",
    "BTA.Props.C212_pixels"
   ],
   "note": "Exact numbers; the singular value decomposition has its defining property, and that such a decomposition exists is proved (exists_leading). Example: reference with 12 x 12 pixels, DUT with 10 x 10 pixels."
  },
  {
   "property": "C213",
   "status": "partial",
   "theorems": [
    "BTA.Props.C213_points_partial",
    "BTA.Props.C213_chunks",
    "BTA.Props.C213_linear",
    "BTA.Props.C213_returns",
    "BTA.Props.C213_undefined_fails",
    "BTA.Props.C213_pixel_fails",
    "BTA.Props.C213_weights_fail"
   ],
   "note": "Exact numbers; the minimisation of curve_fit is any function. Partial: one bin without varying residuals anywhere (C213_undefined_fails) or a pixel larger than the largest distance (C213_pixel_fails) and no plot is made (exact condition: C213_returns); bins with more pairs have less influence (C213_weights_fail)."
  },
  {
   "property": "C214",
   "status": "partial",
   "theorems": [
    "BTA.Props.C214_groups_partial",
    "BTA.Props.C214_upper_end_fails",
    "BTA.Props.C214_below_fails"
   ],
   "note": "Exact numbers. Partial: exception at the upper end (C214_upper_end_fails), values up to one bin below the range are in the first bin (C214_below_fails)."
  },
  {
   "property": "C215",
   "status": "partial",
   "theorems": [
    "BTA.Props.C215_never_returns",
    "BTA.Props.C215_exception",
    "BTA.Props.C215_empty_partial"
   ],
   "note": "False for every selection that is not empty (C215_never_returns: a number has no attribute column_size, a DUT cannot be formatted as a number); an existing output file has been emptied by then. Only the empty selection returns (C215_empty_partial)."
  },
  {
   "property": "C216",
   "status": "proved",
   "theorems": [
    "BTA.Props.C216_exact"
   ],
   "note": "Continues C67 (seed line given, parallel planes) to the whole fit with seed and tilted DUTs. For DUTs that are not numbered along the beam the result is wrong, see C67_wrong_order. The singular value decomposition of numpy is assumed to give a first singular vector, argsort to sort."
  },
  {
   "property": "C217",
   "status": "proved",
   "theorems": [
    "BTA.Chain.Props.C217_efficiency"
   ],
   "note": "Exact numbers, straight tracks without scattering, beam order numbering of DUTs. The singular value decomposition gives a first singular vector, argsort sorts. Example: three flat DUTs."
  },
  {
   "property": "C218",
   "status": "proved",
   "theorems": [
    "BTA.KAlign.Props.C218_aligned",
    "BTA.KAlign.Props.C218_align_kalman"
   ],
   "note": "Exact numbers; all DUTs have hits (a missing hit ends the alignment, C96). Angles in the usual ranges. Example: three DUTs and any number of inclined tracks."
  },
  {
   "property": "C219",
   "status": "partial",
   "theorems": [
    "BTA.KAlign.Props.C219_approaches_partial",
    "BTA.KAlign.Props.C219_close_partial",
    "BTA.KAlign.Props.C219_far_fails"
   ],
   "note": "Exact numbers, straight tracks. Partial: the distance is bounded as stated in every case (C219_approaches_partial) and all tracks are used for a small shift (C219_close_partial), but a DUT that is too far away is silently not moved at all (C219_far_fails). Shifted rotations are not covered. Examples: three DUTs, shift by any distance."
  },
  {
   "property": "C220",
   "status": "partial",
   "theorems": [
    "BTA.EffectivePixels.C220_shown",
    "BTA.EffectivePixels.C220_residuals",
    "BTA.EffectivePixels.C220_colours",
    "BTA.EffectivePixels.C220_next_colour",
    "BTA.EffectivePixels.C220_marker_partial",
    "BTA.EffectivePixels.C220_marker_fails"
   ],
   "note": "Exact numbers; the search in the kd-tree is assumed to give a closest point. Partial: the marker of the pixel of the first bin (C220_marker_fails)."
  },
  {
   "property": "C221",
   "status": "partial",
   "theorems": [
    "BTA.EffectivePixels.C221_measured",
    "BTA.EffectivePixels.C221_array",
    "BTA.EffectivePixels.C221_calculated",
    "BTA.EffectivePixels.C221_rectangle",
    "BTA.EffectivePixels.C221_most",
    "BTA.EffectivePixels.C221_plot_fails"
   ],
   "note": "Exact numbers. What is computed is right (C221_measured, C221_most, C221_calculated, C221_rectangle), but the plot is never made (C221_plot_fails: the module matplotlib.colors is indexed)."
  },
  {
   "property": "C222",
   "status": "partial",
   "theorems": [
    "BTA.Props.C222_lines_partial",
    "BTA.Props.C222_failed_fit",
    "BTA.Props.C222_changes",
    "BTA.Props.C222_rest_missing",
    "BTA.Props.C222_processed_partial",
    "BTA.Props.C222_processed_last"
   ],
   "note": "Exact numbers; rotations change by composition of matrices, so the line by line statement is about translations. Partial: failed fits (C222_failed_fit), changes that are missing (C222_rest_missing), number of tracks of several alignments (C222_processed_last)."
  },
  {
   "property": "C223",
   "status": "partial",
   "theorems": [
    "BTA.Props.C223_shows",
    "BTA.Props.C223_plots_partial",
    "BTA.Props.C223_no_track",
    "BTA.Props.C223_no_good_track",
    "BTA.Props.C223_rejected"
   ],
   "note": "Partial: exceptions without track (C223_no_track), without good track (C223_no_good_track), with rejected tracks only (C223_rejected). Drawing itself is not modelled, only the numbers and the calls that raise."
  },
  {
   "property": "C224",
   "status": "partial",
   "theorems": [
    "BTA.AngleFile.Props.C224_histograms_partial",
    "BTA.AngleFile.Props.C224_returns",
    "BTA.AngleFile.Props.C224_order",
    "BTA.AngleFile.Props.C224_ignored_fails",
    "BTA.AngleFile.Props.C224_twice_fails",
    "BTA.AngleFile.Props.C224_first_fails",
    "BTA.AngleFile.Props.C224_empty_fails",
    "BTA.AngleFile.Props.C224_stale_fails",
    "BTA.AngleFile.Props.C224_telescope"
   ],
   "note": "Partial: stale histograms of DUTs without tracks (C224_stale_fails, C224_first_fails), ignored numbers (C224_ignored_fails), DUTs named twice (C224_twice_fails), empty selection (C224_empty_fails). The Gaussian fit is an arbitrary function of the histogram; n_bins='auto' is not modelled."
  },
  {
   "property": "C225",
   "status": "proved",
   "theorems": [
    "BTA.AngleFile.Props.C225_pages",
    "BTA.AngleFile.Props.C225_succeeds_iff"
   ],
   "note": "Numbers on the pages, order of the pages and exceptions; drawing, titles and legends are not modelled."
  },
  {
   "property": "C226",
   "status": "partial",
   "theorems": [
    "BTA.CorrPlot.C226_pages_partial",
    "BTA.CorrPlot.C226_counts_partial",
    "BTA.CorrPlot.C226_again_fails"
   ],
   "note": "Partial: the file that correlate returns has one more node, with which the function raises (C226_again_fails). Colours and the drawing by matplotlib are not modelled; the place of a pixel is that of imshow with origin='lower' and the given extent."
  },
  {
   "property": "C227",
   "status": "proved",
   "theorems": [
    "BTA.Chain.Props.C227_stored",
    "BTA.Chain.Props.C227_residuals"
   ],
   "note": "Exact numbers, straight tracks, hits without errors, no scattering planes. The edges of the histograms may be any increasing lists."
  },
  {
   "property": "C228",
   "status": "proved",
   "theorems": [
    "BTA.Chain.Props.C228_purity",
    "BTA.Chain.Props.C228_no_cut"
   ],
   "note": "Exact numbers, straight tracks, hits without errors, no local ranges. Hits exactly at the local origin are excluded, their treatment depends on the chunk (C53_origin). The maps are those handed to the plot; the function itself never returns (C53)."
  },
  {
   "property": "C229",
   "status": "partial",
   "theorems": [
    "BTA.Props.C229_mirrored",
    "BTA.Props.C229_accumulator_fails",
    "BTA.Props.C229_line_partial"
   ],
   "note": "Partial: the page with the accumulator is mirrored at the origin, for every image (C229_mirrored): for aligned planes it shows 1 instead of n bins on the line (C229_accumulator_fails). Label of the distance (um, drawn in bins), colours and the drawing by matplotlib are not modelled."
  },
  {
   "property": "C230",
   "status": "partial",
   "theorems": [
    "BTA.Check.C230_events_partial",
    "BTA.Check.C230_correlation_partial",
    "BTA.Check.C230_again_fails",
    "BTA.Check.C230_again_pages"
   ],
   "note": "Partial: with the returned file, which contains the group of arguments, the function raises (C230_again_fails; in the order of the names the pages are complete by then, C230_again_pages). Correlations for tables that fit into a chunk (C85), distances without event 0 or in one chunk (C84). Drawing by matplotlib is not modelled."
  },
  {
   "property": "C231",
   "status": "partial",
   "theorems": [
    "BTA.ArrayDiff.C231_exact_partial",
    "BTA.ArrayDiff.C231_shape",
    "BTA.ArrayDiff.C231_infinite_fails",
    "BTA.ArrayDiff.C231_close_partial",
    "BTA.ArrayDiff.C231_close_fails",
    "BTA.ArrayDiff.C231_text_fails"
   ],
   "note": "Partial: equal arrays with infinity of both signs are reported (C231_infinite_fails); with a tolerance the sums are still compared exactly (C231_close_fails) and a text column raises TypeError instead of a report (C231_text_fails). Rational numbers without rounding; the order of the lines and their text are not modelled."
  },
  {
   "property": "C232",
   "status": "proved",
   "theorems": [
    "BTA.Props.C232_last",
    "BTA.Props.C232_first",
    "BTA.Props.C232_inner",
    "BTA.Props.C232_chi_square"
   ],
   "note": "Real numbers without rounding; tracks are linearised around the reference states of the fit (as in the code); planes that are not parallel to the track (as in C43). The best track to an inner plane counts the hit there twice, as the code does (C66)."
  },
  {
   "property": "C233",
   "status": "partial",
   "theorems": [
    "BTA.Props.C233_partial",
    "BTA.Props.C233_inner_fails"
   ],
   "note": "Partial: at every plane in between with a hit used for the fit the chi-square is smaller than that (C233_inner_fails), because the hit is counted twice in the smoothed state (C66). Right at the first and the last plane and at planes that are not used for the fit. Real numbers without rounding; planes that are not parallel to the track."
  },
  {
   "property": "C234",
   "status": "proved",
   "theorems": [
    "BTA.Props.C234_filter",
    "BTA.Props.C234_fit",
    "BTA.Props.C234_shift"
   ],
   "note": "Real numbers without rounding. C234_fit assumes that the line through the hits (singular value decomposition, not modelled) moves with the hits, up to its sign, and that the order of the planes along the global z axis is kept; C234_shift has no assumption about the singular value decomposition."
  },
  {
   "property": "C235",
   "status": "partial",
   "theorems": [
    "BTA.ResidualPlot.Props.C235_pages_partial",
    "BTA.ResidualPlot.Props.C235_empty_fails",
    "BTA.ResidualPlot.Props.C235_cells",
    "BTA.ResidualPlot.Props.C235_points"
   ],
   "note": "Partial: a residual histogram without entries is not shown, the plot raises ValueError (C235_empty_fails). Position bins of the same width. Legends and titles are not modelled."
  },
  {
   "property": "C236",
   "status": "proved",
   "theorems": [
    "BTA.YamlFile.C236_raises",
    "BTA.YamlFile.C236_equal",
    "BTA.YamlFile.C236_self",
    "BTA.YamlFile.C236_order",
    "BTA.YamlFile.C236_transitive"
   ],
   "note": "The parser is not modelled (files are lists of documents); no dates and binary values; keys are scalars. `.nan` is one object in PyYAML, so that it is equal to itself in containers (trusted)"
  },
  {
   "property": "C237",
   "status": "partial",
   "theorems": [
    "BTA.MapPlot.C237_density_partial",
    "BTA.MapPlot.C237_charge_partial",
    "BTA.MapPlot.C237_residual_partial",
    "BTA.MapPlot.C237_mirrored_fails",
    "BTA.MapPlot.C237_scale",
    "BTA.MapPlot.C237_scale_residual",
    "BTA.MapPlot.C237_scale_charge"
   ],
   "note": "Partial: the maps are mirrored in y with respect to the labels of the axis (C237_mirrored_fails), because the first row of the array is drawn at the third number of the extent, which is the upper end in y. Values, masks, x positions and the colour scale are right. Real numbers; the meaning of `imshow` with an extent is trusted."
  }
 ]
}