{"claims": [
 {"property": "C01", "status": "proved", "theorems": ["TreeCorr.cross_log_exact", "TreeCorr.log_wide_bin_misplaced"], "note": "weights >= 0; pair counts need weights > 0; angle_slop <= 1/2 or bin_size <= 1 (false for bin_size = 4, angle_slop = 1: log_wide_bin_misplaced)"},
 {"property": "C02", "status": "partial", "theorems": ["TreeCorr.auto_log_exact_partial", "TreeCorr.auto_min_sep_dropped"], "note": "pairs at exactly min_sep are dropped by the code"},
 {"property": "C03", "status": "partial", "theorems": ["TreeCorr.cross_linear_exact_partial", "TreeCorr.auto_linear_exact_partial", "TreeCorr.linear_edge_misplaced"], "note": "pairs exactly on a bin edge can be put into the lower bin"},
 {"property": "C04", "status": "partial", "theorems": ["TreeCorr.cross_twoD_exact_partial", "TreeCorr.auto_twoD_exact_partial", "TreeCorr.twoD_grid_line_misplaced"], "note": "Exact pixel counts with min_sep=0 away from the lower/left border (cross) and away from grid lines (auto); on a grid line the reversed pair is misplaced (negation with a witness). min_sep>0 not covered."},
 {"property": "C05", "status": "partial", "theorems": ["TreeCorr.cross_log_slop_partial", "TreeCorr.auto_log_slop_partial", "TreeCorr.cross_linear_slop_partial", "TreeCorr.auto_linear_slop_partial", "TreeCorr.min_size_slop", "TreeCorr.log_slop_exceeded", "TreeCorr.linear_units_slop_exceeded"], "note": "Log bins: lower side only with b+b^2; merging adds up to b; false with sep_units for Linear bins because b is not converted"},
 {"property": "C06", "status": "proved", "theorems": ["TreeCorr.cross_at_most_once", "TreeCorr.auto_at_most_once", "TreeCorr.auto_never_self"], "note": ""},
 {"property": "C07", "status": "proved", "theorems": ["TreeCorr.auto_schedule_independent", "TreeCorr.cross_schedule_independent"], "note": "sums are exact reals"},
 {"property": "C08", "status": "partial", "theorems": ["TreeCorr.early_exit_sound", "TreeCorr.early_exit_sound_twoD", "TreeCorr.trivially_zero_sound_partial", "TreeCorr.trivially_zero_sound_twoD", "TreeCorr.sphere_trivially_zero_wrong"], "note": "false for spherical coordinates: the code mixes a normalised centre with a size measured from the unnormalised mean"},
 {"property": "C09", "status": "proved", "theorems": ["TreeCorr.field_holds_catalogue", "TreeCorr.geom_dominates", "TreeCorr.top_cells_le"], "note": ""},
 {"property": "C10", "status": "proved", "theorems": ["TreeCorr.cross_never_below_leaf", "TreeCorr.cross_twoD_never_below_leaf", "TreeCorr.auto_never_below_leaf", "TreeCorr.auto_twoD_never_below_leaf"], "note": ""},
 {"property": "C11", "status": "proved", "theorems": ["TreeCorr.merged_too_close"], "note": ""},
 {"property": "C12", "status": "partial", "theorems": ["TreeCorr.near_exact_partial", "TreeCorr.near_min_size_partial", "TreeCorr.near_independent", "TreeCorr.geom_hull", "TreeCorr.near_tie_wrong", "TreeCorr.near_sphere_wrong"], "note": "Exact for min_size = 0. For min_size > 0 (flat, 3d, and sphere with sep + min_size below sqrt 2): exactly the rows at distance < sep, so the answers agree for every min_size unless a row is at exactly sep. Negations: at distance exactly sep the answer depends on min_size; on the sphere with large sep the index array is left partly unwritten. The arguments (parse_xyzsep) are the subject of C84."},
 {"property": "C13", "status": "partial", "theorems": ["TreeCorr.KMeans.kmeans_assign_nearest_partial", "TreeCorr.KMeans.kmeans_assign_min_size_partial", "TreeCorr.KMeans.kmeans_alt_nearest", "TreeCorr.KMeans.kmeans_min_size_wrong"], "note": "Proved for min_size=0, every tree and distribution over threads; within 2 min_size otherwise, and the exact claim is refuted for min_size>0."},
 {"property": "C14", "status": "partial", "theorems": ["TreeCorr.KMeans.quick_assign_first", "TreeCorr.KMeans.patch_rows_nearest", "TreeCorr.KMeans.single_patch_partition_partial", "TreeCorr.KMeans.single_patch_covers", "TreeCorr.KMeans.single_patch_tie_wrong"], "note": "Partition holds without ties; with ties a row is read for several patches (refuted)."},
 {"property": "C15", "status": "proved", "theorems": ["TreeCorr.mpi_auto_job_once", "TreeCorr.mpi_cross_job_once"], "note": "All numbers of patches and processes."},
 {"property": "C16", "status": "partial", "theorems": ["TreeCorr.mpi_auto_same_partial", "TreeCorr.mpi_cross_same_partial", "TreeCorr.mpi_prior_counted_again", "TreeCorr.mpi_initialize_false_wrong"], "note": "initialize=True proved for all; with initialize=False the prior state is counted once per process (general formula and witness). Messages arrive in rank order as in the code; pickling is not modelled."},
 {"property": "C17", "status": "partial", "theorems": ["TreeCorr.patched_auto_tot", "TreeCorr.patched_cross_tot_partial", "TreeCorr.patched_cross_tot_dropped"], "note": "Auto: proved. Cross: proved unless a forced pair is trivially zero, where the total is lost (witness). patch_method='local' not covered here."},
 {"property": "C18", "status": "partial", "theorems": ["TreeCorr.results_sum_auto", "TreeCorr.results_sum_cross", "TreeCorr.results_sum_history_partial", "TreeCorr.results_sum_nn_history_wrong"], "note": "One call: proved for all classes. Histories with initialize=False: proved for every class but NNCorrelation, false for it (witness)."},
 {"property": "C19", "status": "proved", "theorems": ["TreeCorr.patched_auto_any", "TreeCorr.patched_cross_any", "TreeCorr.patched_auto_log_exact", "TreeCorr.patched_cross_log_exact", "TreeCorr.patched_auto_linear_exact", "TreeCorr.patched_cross_linear_exact"], "note": "General for any symmetric pair weight; and for the tree code in flat and 3d coordinates with Log and Linear bins."},
 {"property": "C20", "status": "proved", "theorems": ["TreeCorr.jackknife_uses", "TreeCorr.jackknife_auto_recomputed", "TreeCorr.jackknife_cross_recomputed", "TreeCorr.jackknife_cross_single_recomputed", "TreeCorr.jackknife_single_cross_recomputed"], "note": "Multiplicities for every set of stored pairs; the sum of a row is what processing without the patch gives (auto, cross, either side undivided)."},
 {"property": "C21", "status": "proved", "theorems": ["TreeCorr.sample_uses", "TreeCorr.sample_rows_divide", "TreeCorr.marked_uses", "TreeCorr.bootstrap_uses", "TreeCorr.bootstrap_single_uses", "TreeCorr.single_bootstrap_uses", "TreeCorr.sample_auto_wrong"], "note": "sample_auto_wrong records that in auto-correlations the documented meaning of a 'sample' row does not hold."},
 {"property": "C22", "status": "partial", "theorems": ["TreeCorr.design_mpi_kk", "TreeCorr.design_mpi_nn_partial", "TreeCorr.design_mpi_nk_partial", "TreeCorr.design_mpi_nn_wrong", "TreeCorr.design_mpi_nk_wrong"], "note": "Proved without randoms for all rows and with randoms for non-empty rows; false with randoms when a row is empty (two witnesses)."},
 {"property": "C23", "status": "partial", "theorems": ["TreeCorr.jackknife_cov_psd", "TreeCorr.bootstrap_cov_psd", "TreeCorr.sample_cov_psd_partial", "TreeCorr.cov_shift", "TreeCorr.sample_cov_negative"], "note": "Over real and complex data vectors. The sample covariance needs positive row weights: with weights of both signs it can be negative."},
 {"property": "C24", "status": "proved", "theorems": ["TreeCorr.Catalog.variance_of_one", "TreeCorr.Catalog.variance_of_list"], "note": "Pooled variance over any list of catalogues with or without weights; user-set variances: C92."},
 {"property": "C25", "status": "proved", "theorems": ["TreeCorr.LRU.lru_correct", "TreeCorr.LRU.lru_recompute_iff", "TreeCorr.LRU.last_value_correct", "TreeCorr.LRU.lru_zero_wrong"], "note": "Refinement of the linked ring to a list of recent keys, for all histories of call/resize/clear and any maxsize >= 1 at construction (resize to 0 included). A cache constructed with maxsize=0 raises on the first call (lru_zero_wrong)."},
 {"property": "C26", "status": "proved", "theorems": ["TreeCorr.wrong_number_rejected", "TreeCorr.wrong_number_rejected_twoD", "TreeCorr.log_bins_consistent", "TreeCorr.linear_bins_consistent", "TreeCorr.twoD_bins_consistent", "TreeCorr.good_three_accepted", "TreeCorr.negative_bin_size_accepted", "TreeCorr.negative_min_sep_accepted", "TreeCorr.twoD_none_min_sep_rejected"], "note": "the code also accepts a negative bin_size and a negative Linear min_sep"},
 {"property": "C27", "status": "partial", "theorems": ["TreeCorr.metric_auto_iff_partial", "TreeCorr.metric_cross_iff_partial", "TreeCorr.mixed_flat_rejected", "TreeCorr.run_metric_partial", "TreeCorr.set_metric_ok_iff", "TreeCorr.periodic_sphere_wrong", "TreeCorr.rlens_rpar_without_distance_accepted", "TreeCorr.rperp_alias_ignored"], "note": "Accepted metrics and coordinates equal the documented ones except for Periodic on the sphere (accepted, and the Euclidean code runs) and Rlens/rpar without distances; both proved as negations."},
 {"property": "C28", "status": "partial", "theorems": ["TreeCorr.Config.entry_becomes", "TreeCorr.Config.entry_list_partial", "TreeCorr.Config.check_ok_iff", "TreeCorr.Config.check_lookup", "TreeCorr.Config.check_keys_known", "TreeCorr.Config.check_idempotent", "TreeCorr.Config.unknown_key_rejected", "TreeCorr.Config.merge_lookup", "TreeCorr.Config.merge_unknown_rejected", "TreeCorr.Config.minimal_restores", "TreeCorr.Config.string_list_rejected"], "note": "All but lists for string parameters with allowed values, which are documented and always rejected (string_list_rejected). Conversions int/float/str are an oracle: result typed, fixed on typed values."},
 {"property": "C29", "status": "proved", "theorems": ["TreeCorr.Config.parse_bool_true", "TreeCorr.Config.parse_bool_false", "TreeCorr.Config.parse_bool_int", "TreeCorr.Config.parse_bool_other", "TreeCorr.Config.parse_list", "TreeCorr.Config.parse_words", "TreeCorr.Config.parse_no_equals", "TreeCorr.Config.parse_empty_wrong", "TreeCorr.Config.get_from_list_spec", "TreeCorr.Config.get_from_list_negative"], "note": "Strings of ASCII white space and capitals."},
 {"property": "C30", "status": "partial", "theorems": ["TreeCorr.Rows.slice_ok_iff", "TreeCorr.Rows.rows_read", "TreeCorr.Rows.readers_agree", "TreeCorr.Rows.readers_agree_patch", "TreeCorr.Rows.read_patch_partial", "TreeCorr.Rows.select_patch_rows", "TreeCorr.Rows.read_empty_patch_wrong", "TreeCorr.Rows.read_patch_file_slice_wrong"], "note": "Row selection (first_row, last_row, every_nth) reads exactly the stated rows in every reader. Single-patch reads are proved when the patch has rows; reading a patch with no rows raises an error (read_empty_patch_wrong), and an integer patch without patch column plus a row selection raises TypeError (read_patch_file_slice_wrong)."},
 {"property": "C31", "status": "partial", "theorems": ["TreeCorr.Catalog.patch_numbers", "TreeCorr.Catalog.get_patches_rows_partial", "TreeCorr.Catalog.patches_partition", "TreeCorr.Catalog.rowsIn_range", "TreeCorr.Catalog.patches_sumw", "TreeCorr.Catalog.finished_isCat", "TreeCorr.Catalog.missing_patch_wrong", "TreeCorr.Catalog.patch_zero_weight_wrong", "TreeCorr.Catalog.patch_kept_zero_weight_wrong", "TreeCorr.Catalog.npatch_overwritten", "TreeCorr.Catalog.npatch_accepted"], "note": "Rows, order, partition and sums hold for every finished catalogue (finished_isCat: everything the constructor makes) if no patch has total weight zero. Fails for patches of total weight zero (ValueError) and for numbers that do not occur (no catalogue). low_mem and saved patches are the subject of C83."},
 {"property": "C32", "status": "partial", "theorems": ["TreeCorr.Catalog.flagged_ignore", "TreeCorr.Catalog.flagged_ok", "TreeCorr.Catalog.bad_rows_removed_partial", "TreeCorr.Catalog.keep_zero_weight_rows", "TreeCorr.Catalog.rows_with_wpos", "TreeCorr.Catalog.tab_of_lengths", "TreeCorr.Catalog.nan_rows_with_wpos_wrong", "TreeCorr.Catalog.nan_position_with_wpos_wrong", "TreeCorr.Catalog.single_patch_flag_wrong", "TreeCorr.Catalog.single_patch_flag_weights_wrong", "TreeCorr.Catalog.flip_missing_wrong"], "note": "Holds without wpos, for all tables, flags and masks. With wpos rows with NaN are not removed; one patch selected from arrays keeps flagged rows; flips of missing columns raise TypeError."},
 {"property": "C33", "status": "partial", "theorems": ["TreeCorr.Catalog.combine_rows_partial", "TreeCorr.Catalog.combine_patch_wrong", "TreeCorr.Catalog.combine_zero_weight_wrong"], "note": "Rows are concatenated with all columns, weights and masks. Patch numbers are dropped; rows of zero weight are dropped unless the first catalogue has some."},
 {"property": "C34", "status": "partial", "theorems": ["TreeCorr.iadd_assoc", "TreeCorr.iadd_comm", "TreeCorr.iadd_clear", "TreeCorr.iadd_order", "TreeCorr.sumKK_eq", "TreeCorr.sumNN_eq_partial", "TreeCorr.sumNN_stale_wrong"], "note": "Adding results: associative, commutative, neutral cleared object, any order of adding gives the same; _sum equals repeated +=. Fails for NN when _nonzero was cached before a += (sumNN_stale_wrong); sumNN_eq_partial assumes fresh caches."},
 {"property": "C35", "status": "proved", "theorems": ["TreeCorr.finalize_mean", "TreeCorr.finalize_meanlogr_le", "TreeCorr.finalize_empty", "TreeCorr.kk_xi_exact", "TreeCorr.unitR_angle", "TreeCorr.unitLogr_log"], "note": "finalize gives weighted means (any metric and slop), nominal values in empty bins, exact KK correlation at bin_slop=0."},
 {"property": "C36", "status": "partial", "theorems": ["TreeCorr.sample_pairs_distinct_partial", "TreeCorr.sample_pairs_all", "TreeCorr.sample_pairs_sound_partial", "TreeCorr.sample_pairs_range_partial", "TreeCorr.sample_pairs_off_grid_wrong", "TreeCorr.sample_pairs_unwritten_wrong"], "note": "min(n,total) different pairs that pass the cuts, for every random stream, unless two cells with more than n pairs come up while the arrays are partly full: there an entry can stay unwritten (sample_pairs_unwritten_wrong). All pairs in range at zero slop only if max_sep/min_sep is a whole number of bins (sample_pairs_off_grid_wrong)."},
 {"property": "C37", "status": "partial", "theorems": ["TreeCorr.select_random_distinct_partial", "TreeCorr.select_random_ends", "TreeCorr.select_random_stalls_wrong"], "note": "Distinct and in range whenever it ends, including the random number 1.0; ends exactly when enough different indices come up; a constant stream never ends."},
 {"property": "C38", "status": "partial", "theorems": ["TreeCorr.sample_pairs_threads_wrong", "TreeCorr.sample_pairs_threads_partial"], "note": "False of the code: the number of threads is 1 afterwards, whatever it was."},
 {"property": "C39", "status": "proved", "theorems": ["TreeCorr.periodic_minimal_image", "TreeCorr.perDist_comm", "TreeCorr.perDist_triangle", "TreeCorr.wrap_ends", "TreeCorr.wrap_formula", "TreeCorr.perMetric_eq", "TreeCorr.perGeom_dominates", "TreeCorr.periodic_cross_log_exact", "TreeCorr.periodic_auto_log_exact_partial", "TreeCorr.wrap_negative_hangs"], "note": "Flat and 3d, all positive periods, no limits on rpar. The auto-correlation count is subject to the min_sep edge of C02."},
 {"property": "C40", "status": "partial", "theorems": ["TreeCorr.arc_is_angle", "TreeCorr.arc_cross_log_partial", "TreeCorr.arc_auto_log_partial", "TreeCorr.arc_pair_dropped_wrong", "TreeCorr.arc3_distance", "TreeCorr.arc3_is_angle_partial", "TreeCorr.arc3_opposite_dropped_wrong"], "note": "False of the code: cell sizes are chords but are compared with arcs, so an in-range pair can be dropped (witness at bin_slop 0), and in 3d the asin of the cross product folds angles above 90 degrees. Proved: the spherical distance is the angle; with Log bins counted and uncounted pairs are right up to twice the excess of arc over chord, 2 asin(R/2) - R for catalogues of chord diameter R < sqrt 2 and pi - 2 for all others."},
 {"property": "C41", "status": "partial", "theorems": ["TreeCorr.xi_formula", "TreeCorr.xi_scale", "TreeCorr.xi_zero", "TreeCorr.xi_no_rr", "TreeCorr.xi_bins_wrong"], "note": "In bins without random pairs xi is the numerator itself, not 0, and data of zero total give non-finite values."},
 {"property": "C42", "status": "partial", "theorems": ["TreeCorr.KMeans.init_tree_slots_partial", "TreeCorr.KMeans.init_tree_overrun_wrong"], "note": "For random numbers in [0,1); urand() can return 1, which makes the shuffle run out of the array."},
 {"property": "C43", "status": "partial", "theorems": ["TreeCorr.IO.write_read_named", "TreeCorr.IO.write_read_ascii_partial", "TreeCorr.IO.write_read_nn_named", "TreeCorr.IO.write_read_nn_ascii_partial", "TreeCorr.IO.restored_exact", "TreeCorr.IO.ascii_cov_wrong", "TreeCorr.IO.ascii_cov_single_wrong", "TreeCorr.IO.ascii_zero_patches_wrong", "TreeCorr.IO.read_shot_cov_wrong", "TreeCorr.IO.ascii_wrong_section"], "note": "For all two-point classes and every combination of write_patch_results and write_cov, FITS and HDF5 files restore bins, settings, arrays, errors, patch results, randoms (NN) and covariance; ASCII files do so up to the printed digits, with the exceptions that are proved to fail. Not modelled: the file libraries, the printing of numbers (any function), three-point classes."},
 {"property": "C44", "status": "proved", "theorems": ["TreeCorr.cross_swap_log", "TreeCorr.cross_swap_linear"], "note": "At bin_slop=0; every accumulated array agrees."},
 {"property": "C45", "status": "partial", "theorems": ["TreeCorr.cross_log_brute", "TreeCorr.auto_log_brute", "TreeCorr.cross_linear_brute", "TreeCorr.auto_linear_brute_partial", "TreeCorr.cross_twoD_brute", "TreeCorr.auto_twoD_brute", "TreeCorr.brute_off", "TreeCorr.brute_off_twoD", "TreeCorr.brute_one_leaf", "TreeCorr.brute_first_points", "TreeCorr.brute_second_points", "TreeCorr.cross_log_brute_any", "TreeCorr.brute_option", "TreeCorr.brute_numpy_wrong", "TreeCorr.brute3_two_wrong", "TreeCorr.linear_brute_coincident", "TreeCorr.brute_sign_wrong"], "note": "Plain metrics (Euclidean, Arc via C35's space), weights not negative (brute_sign_wrong shows what happens otherwise); for auto-correlations with Linear bins and min_sep = 0 no two rows may coincide (linear_brute_coincident). brute with Rperp, Rlens and line-of-sight limits and in three-point traversals is not covered."},
 {"property": "C46", "status": "partial", "theorems": ["TreeCorr.row_is_calculateXi", "TreeCorr.afterXi_covers", "TreeCorr.jackknife_xi", "TreeCorr.sample_rd_wrong"], "note": "sample_rd_wrong: with undivided randoms row 0 of the sample method uses all of RD, the others only their patch."},
 {"property": "C47", "status": "proved", "theorems": ["TreeCorr.meanr_in_log_bin_cross", "TreeCorr.meanr_in_log_bin_auto", "TreeCorr.meanr_in_linear_bin_cross", "TreeCorr.meanr_in_linear_bin_auto"], "note": "For trees built from non-negative weights; TwoD violates it (twoD_meanr_zero)."},
 {"property": "C48", "status": "partial", "theorems": ["TreeCorr.cross_angle_slop", "TreeCorr.auto_angle_slop", "TreeCorr.cross_angle_partial", "TreeCorr.log_angleTest", "TreeCorr.linear_angleTest", "TreeCorr.twoD_angleTest", "TreeCorr.angle_slop_exceeded"], "note": "The angle is at most arcsin(angle_slop); the documented bound of angle_slop radians is exceeded (angle_slop_exceeded). min_size = 0."},
 {"property": "C49", "status": "partial", "theorems": ["TreeCorr.tangential_shear", "TreeCorr.flat_rotation", "TreeCorr.flat_translation", "TreeCorr.cross_radial_counted", "TreeCorr.cross_zz_counted", "TreeCorr.cross_radial_log", "TreeCorr.cross_zz_log", "TreeCorr.auto_zz_log_partial", "TreeCorr.coincident_zero_wrong", "TreeCorr.reversed_xip_im_wrong"], "note": "Missing: the imaginary part of xip of an auto-correlation (it depends on the tree), pairs at exactly min_sep in auto-correlations. Fails for coincident points and for the reversed pairs of TwoD bins (negations)."},
 {"property": "C50", "status": "partial", "theorems": ["TreeCorr.sphere_factor", "TreeCorr.sphere_factor1", "TreeCorr.sphere_rotation", "TreeCorr.sphere_rotation1", "TreeCorr.frameTurn_norm", "TreeCorr.pole_zero_wrong"], "note": "Per pair, for points off the poles; at a pole the value is dropped (negation)."},
 {"property": "C51", "status": "partial", "theorems": ["TreeCorr.transport_conj", "TreeCorr.transport_partial", "TreeCorr.transport_wrong", "TreeCorr.transport_scale_wrong"], "note": "The code turns the wrong way: it computes the conjugate of the transport. Right only along meridians. For 3d positions the turn also depends on the distance."},
 {"property": "C52", "status": "partial", "theorems": ["TreeCorr.flat_project3", "TreeCorr.flat_project3_rotation", "TreeCorr.flat_project3_swap", "TreeCorr.sphere_project3", "TreeCorr.sphere_projectX", "TreeCorr.sphere_projectX_first", "TreeCorr.threeD_projectX_wrong", "TreeCorr.threeD_projectX_differs"], "note": "Flat and sphere projections are proved; the 3d version of the 'x' projection passes z3 in place of z2, so the property fails for it."},
 {"property": "C53", "status": "partial", "theorems": ["TreeCorr.auto_ruv_exact_partial", "TreeCorr.cross12_ruv_exact_partial", "TreeCorr.cross12_unordered_ruv_exact_partial", "TreeCorr.cross123_ruv_exact_partial", "TreeCorr.cross123_unordered_ruv_exact_partial", "TreeCorr.flatMetric3_of", "TreeCorr.spaceMetric3_of", "TreeCorr.euclid_ptolemaic", "TreeCorr.ruv_u_one_never", "TreeCorr.ruv_v_one_never", "TreeCorr.ruv_minv_unordered_wrong", "TreeCorr.ruv_minv_first_wrong"], "note": "All arrays of a LogRUV correlation are the brute-force sums for one, two or three catalogues, ordered or not, in any metric space, for bin_slop=0; max_v<1 wherever Ptolemy's inequality holds (plane, space), min_v>0 with three catalogues in fixed order. False for min_v>0 when the order is free. Missing: bin_slop>0, and (unordered) triangles in range with d1=d2. u=1 and v=1 belong to no bin."},
 {"property": "C54", "status": "partial", "theorems": ["TreeCorr.cross123_unordered_ruv_swap_partial", "TreeCorr.ruv_isosceles_wrong", "TreeCorr.cross123_unordered_sas_swap_partial"], "note": "LogRUV: both orders give the same arrays when no triangle in range has d1 = d2; refuted for such triangles. LogSAS: the same when no three rows in range are on a line."},
 {"property": "C55", "status": "partial", "theorems": ["TreeCorr.auto_sas_exact_partial", "TreeCorr.cross12_sas_exact_partial", "TreeCorr.cross12_unordered_sas_exact_partial", "TreeCorr.cross123_sas_exact_partial", "TreeCorr.cross123_unordered_sas_exact_partial", "TreeCorr.sas_phi_pi_never", "TreeCorr.sas_one_order", "TreeCorr.sas_minphi_wrong", "TreeCorr.sas_maxphi_wrong", "TreeCorr.sas_minphi_wide_wrong", "TreeCorr.sas_space_wrong"], "note": "Exact for min_phi = 0, max_phi = pi, no slop, and no three rows in range on a line; ordered correlations of three catalogues in the plane. Refuted for min_phi > 1 radian, min_phi > 2pi/3, max_phi < pi/3, and for ordered correlations of three catalogues in space."},
 {"property": "C56", "status": "partial", "theorems": ["TreeCorr.auto_ruv_slop_partial", "TreeCorr.cross12_ruv_slop_partial", "TreeCorr.cross12_unordered_ruv_slop_partial", "TreeCorr.cross123_ruv_slop_partial", "TreeCorr.cross123_unordered_ruv_slop_partial", "TreeCorr.auto_sas_slop_partial", "TreeCorr.cross12_sas_slop_partial", "TreeCorr.cross12_unordered_sas_slop_partial", "TreeCorr.cross123_sas_slop_partial", "TreeCorr.cross123_unordered_sas_slop_partial", "TreeCorr.nearRuv_zero", "TreeCorr.sas_angle_slop_wrong"], "note": "At most once and ending: for all binnings and slops. Accuracy: sides, u and v for LogRUV, the two sides for LogSAS; the angle claim is false (sas_angle_slop_wrong). Missing: that triangles well inside a bin are not lost."},
 {"property": "C57", "status": "partial", "theorems": ["TreeCorr.multipole_plane_exact_partial", "TreeCorr.flat_phase_angle", "TreeCorr.sph_phase_angle", "TreeCorr.multipole_auto_exact_partial", "TreeCorr.multipole_cross12_exact_partial", "TreeCorr.multipole_cross12_unordered_exact_partial", "TreeCorr.multipole_cross123_exact_partial", "TreeCorr.multipole_cross123_first_exact_partial", "TreeCorr.multipole_cross123_unordered_exact_partial", "TreeCorr.flat_isPhase", "TreeCorr.sph_isPhase", "TreeCorr.multipole_coincident_wrong", "TreeCorr.multipole_meanlogd3_wrong", "TreeCorr.multipole_periodic_wrong", "TreeCorr.multipole_pole_wrong", "TreeCorr.multipole_line_of_sight_wrong", "TreeCorr.self_sums_partial"], "note": "No slop (bin_slop = 0 for counts and totals, angle_slop = 0 for multipoles n != 0 and mean sides). Rows of one catalogue at the same place, meanlogd3 with points 2 and 3 exchanged, the Periodic metric and directions at the poles fail, with witnesses. With slop: C80. Shear: C73; conversion to angle bins: C70, C74."},
 {"property": "C58", "status": "partial", "theorems": ["TreeCorr.patched_auto_ruv_partial", "TreeCorr.patched_cross12_ruv_partial", "TreeCorr.patched_cross12_unordered_ruv_partial", "TreeCorr.patched_cross_ruv_partial", "TreeCorr.patched_cross_unordered_ruv_partial", "TreeCorr.patched_auto_ruv_same_partial", "TreeCorr.patched_auto_sas_partial", "TreeCorr.patched_cross12_sas_partial", "TreeCorr.patched_cross12_unordered_sas_partial", "TreeCorr.patched_cross_sas_partial", "TreeCorr.patched_cross_unordered_sas_partial", "TreeCorr.patched_periodic_wrong", "TreeCorr.patched_arc_wrong"], "note": "patch_method global, no slop, plain Euclidean metric; isosceles (RUV) and collinear (SAS) triangles excluded where the order is free. False for Periodic and for Arc with distances: _trivially_zero ignores the metric. patch_method local is C68, LogMultipole is C78."},
 {"property": "C59", "status": "partial", "theorems": ["TreeCorr.mpi3_auto_job_once", "TreeCorr.mpi3_cross12_job_once", "TreeCorr.mpi3_cross_job_once", "TreeCorr.mpi3_auto_same_partial", "TreeCorr.mpi3_cross12_same_partial", "TreeCorr.mpi3_cross_same_partial", "TreeCorr.mpi3_prior_counted_again", "TreeCorr.mpi3_initialize_false_wrong"], "note": "Patch numbers below the number of patches, initialize=True. False with initialize=False: what the object held is counted once per process."},
 {"property": "C60", "status": "partial", "theorems": ["TreeCorr.patched3_auto_tot", "TreeCorr.patched3_cross12_tot_partial", "TreeCorr.patched3_cross_tot_partial", "TreeCorr.results3_sum_auto", "TreeCorr.results3_sum_cross12", "TreeCorr.results3_sum_cross", "TreeCorr.results3_sum_history_partial", "TreeCorr.patched3_cross12_tot_dropped", "TreeCorr.patched3_cross_tot_dropped", "TreeCorr.patched3_cross_tot_repeated_wrong", "TreeCorr.results3_sum_nnn_history_wrong"], "note": "Proved for one catalogue and, where no forced triple of patches is trivially zero, for two and three; results add up after any history for the classes without tot. False: forced trivially zero jobs drop their part of tot; process(cat1, cat2, cat2) halves tot of some triples; NNN with initialize=False overwrites the tot of results."},
 {"property": "C61", "status": "partial", "theorems": ["TreeCorr.arc_sas_cos", "TreeCorr.arc_sas_angle", "TreeCorr.arc_sas_space_wrong"], "note": "Proved for unit vectors. False for three-dimensional positions, which the metric accepts: the vectors are not normalised."},
 {"property": "C62", "status": "partial", "theorems": ["TreeCorr.ruv_bins_partial", "TreeCorr.sas_bins_partial", "TreeCorr.multipole_bins", "TreeCorr.foreign_parameters_rejected", "TreeCorr.four_parameters_rejected", "TreeCorr.valid_parameters_accepted", "TreeCorr.ruv_negative_min_v_wrong", "TreeCorr.ruv_anchor_differs", "TreeCorr.ruv_negative_size_wrong", "TreeCorr.sas_phi_bin_size_wrong"], "note": "Proved for positive sizes and, for v, when the given number of bins of the given size fits below max_v. False otherwise: negative min_v, negative sizes; phi_bin_size is not in phi_units."},
 {"property": "C63", "status": "proved", "theorems": ["TreeCorr.ruv_tables", "TreeCorr.sas_tables", "TreeCorr.tables_of_config"], "note": ""},
 {"property": "C64", "status": "partial", "theorems": ["TreeCorr.jackknife3_uses", "TreeCorr.jackknife3_auto_recomputed", "TreeCorr.jackknife3_cross12_recomputed", "TreeCorr.jackknife3_cross_recomputed", "TreeCorr.sample3_uses", "TreeCorr.sample3_rows_divide", "TreeCorr.sample3_sum", "TreeCorr.marked3_uses", "TreeCorr.marked3_sum", "TreeCorr.bootstrap3_uses", "TreeCorr.bootstrap3_sum", "TreeCorr.run_stored", "TreeCorr.cov3_unequal_wrong", "TreeCorr.sample3_auto_wrong", "TreeCorr.marked3_auto_wrong"], "note": "Selections and sums proved for every arrangement of equal patch numbers.  Negations: unequal numbers of patches are accepted by process when the first catalogue is undivided, but no covariance can be made; in auto-correlations the rows of 'sample' and the marked bootstrap leave out the triples with lower-numbered patches.  Not covered: the zeta of NNN with randoms, the _ok array kept from an earlier run."},
 {"property": "C65", "status": "partial", "theorems": ["TreeCorr.zeta_formula", "TreeCorr.zeta_answers", "TreeCorr.zeta_scale", "TreeCorr.zeta_zero", "TreeCorr.zeta_no_rrr", "TreeCorr.zeta_bins_wrong"], "note": "The formula needs a nonzero total of the data and random triangles in the bin; zeta_bins_wrong shows what happens otherwise. The shot-noise variance is not modelled."},
 {"property": "C66", "status": "partial", "theorems": ["TreeCorr.row_is_calculateZeta", "TreeCorr.afterZeta_covers", "TreeCorr.divided_row", "TreeCorr.jackknife_zeta", "TreeCorr.drawn_zeta", "TreeCorr.jackknife_zeta_undivided", "TreeCorr.undivided_factors", "TreeCorr.undivided_rdd_wrong", "TreeCorr.sample_rdd_wrong"], "note": "Randoms in the same patches: complete for totals that are not 0. Undivided randoms: the factors are proved for the jackknife; that of RDD is wrong (undivided_rdd_wrong), and the sample rows are not chosen alike (sample_rdd_wrong)."},
 {"property": "C67", "status": "partial", "theorems": ["TreeCorr.local_cross_log_partial", "TreeCorr.local_cross_linear_partial", "TreeCorr.local_cross_is_global", "TreeCorr.local_auto_log_partial", "TreeCorr.local_auto_linear_partial", "TreeCorr.local_auto_tot", "TreeCorr.local_auto_same_estimates", "TreeCorr.local_results", "TreeCorr.local_mpi_cross_same", "TreeCorr.local_mpi_auto_same", "TreeCorr.local_cross_tot_partial", "TreeCorr.local_twoD_wrong", "TreeCorr.local_3d_wrong", "TreeCorr.local_periodic_wrong", "TreeCorr.local_cross_tot_wrong"], "note": "Euclidean metric, Log and Linear bins; 3d coordinates only with rows and patch centres at a distance of at least 1 from the origin. False for TwoD bins, 3d coordinates near the origin, the Periodic metric, and for the total of a cross-correlation if a patch has nothing in reach; local_auto_linear_partial shows that with min_sep=0 rows are paired with themselves."},
 {"property": "C68", "status": "partial", "theorems": ["TreeCorr.local3_auto_ruv_partial", "TreeCorr.local3_cross12_ruv_partial", "TreeCorr.local3_cross12_unordered_ruv_partial", "TreeCorr.local3_cross_ruv_partial", "TreeCorr.local3_cross_first_ruv_partial", "TreeCorr.local3_cross_unordered_ruv_partial", "TreeCorr.local3_auto_sas_partial", "TreeCorr.local3_cross12_sas_partial", "TreeCorr.local3_cross12_unordered_sas_partial", "TreeCorr.local3_cross_sas_partial", "TreeCorr.local3_cross_first_sas_partial", "TreeCorr.local3_cross_unordered_sas_partial", "TreeCorr.local3_auto_is_global_partial", "TreeCorr.local3_auto_tot", "TreeCorr.local3_cross12_tot_partial", "TreeCorr.local3_cross12_unordered_tot_partial", "TreeCorr.local3_cross_tot_partial", "TreeCorr.local3_cross_unordered_tot_partial", "TreeCorr.local3_auto_results", "TreeCorr.local3_cross_results", "TreeCorr.local3_cross12_results_partial", "TreeCorr.local3_cross_unordered_results_partial", "TreeCorr.local3_mpi_auto_same", "TreeCorr.local3_mpi_cross12_same", "TreeCorr.local3_mpi_cross_same", "TreeCorr.local3_isosceles_wrong", "TreeCorr.local3_cross12_tot_wrong", "TreeCorr.local3_results_tot_wrong", "TreeCorr.local3_periodic_wrong"], "note": "Euclidean metric, LogRUV and LogSAS; 3d coordinates only with rows and patch centres at a distance of at least 1 from the origin. LogRUV: every order of the vertices with d1>=d2>=d3 is counted, so isosceles triangles are counted twice (local3_isosceles_wrong); without them the arrays are those of the global mode. The total is three times that of the global mode for one catalogue and for ordered=False (local3_auto_tot, ..._unordered_tot_partial). False for the Periodic metric, for the total if a patch has nothing in reach, and for the total of the stored results of NNN with two catalogues and ordered=False."},
 {"property": "C69", "status": "partial", "theorems": ["TreeCorr.finalize_ruv_means", "TreeCorr.finalize_sas_means", "TreeCorr.auto_ruv_report_partial", "TreeCorr.auto_sas_report_partial", "TreeCorr.auto_ruv_in_bin", "TreeCorr.auto_sas_in_bin", "TreeCorr.cross12_ruv_in_bin", "TreeCorr.cross12_sas_in_bin", "TreeCorr.cross123_ruv_in_bin", "TreeCorr.cross123_sas_in_bin", "TreeCorr.finalize_sas_sphere_partial", "TreeCorr.finalize_ruv_empty", "TreeCorr.finalize_sas_empty", "TreeCorr.finalize_mp", "TreeCorr.sas_empty_phi_wrong", "TreeCorr.ruv_sphere_u_wrong"], "note": "Means from the rows to the report under the hypotheses of C53 and C55; means inside the bin for every slop and all three kinds of calls. On the sphere: bins of congruent triangles (the code converts mean chords, not the chords of each triangle). False for meanphi of empty bins when phi_units is not radians (sas_empty_phi_wrong), and for meanu and meanv of LogRUV on the sphere, which stay ratios of chords (ruv_sphere_u_wrong)."},
 {"property": "C70", "status": "partial", "theorems": ["TreeCorr.toSas_spread", "TreeCorr.toSas_ntri_total", "TreeCorr.toSas_triangle", "TreeCorr.toSas_results_sum", "TreeCorr.toSas_weight_total_partial", "TreeCorr.toSas_weight_total_default", "TreeCorr.toSas_information_partial", "TreeCorr.processSas_plane_partial", "TreeCorr.plane_opposite", "TreeCorr.sky_opposite", "TreeCorr.toSas_center_wrong", "TreeCorr.toSas_border_wrong", "TreeCorr.toSas_information_wrong", "TreeCorr.toSas_zero_wrong", "TreeCorr.processSas_initialize_wrong", "TreeCorr.processSas_finalize_wrong", "TreeCorr.processSas_weight_wrong", "TreeCorr.toSas_nominal", "TreeCorr.processSas_plane_sides_partial"], "note": "Proved for arbitrary multipole arrays, and from the catalogue in the plane with angle_slop = 0 (C57). Shear: C74. Patches and the sphere: C79. False: with the default max_n (twice the number of angle bins) the weights in the bins do not add up, and can be negative (toSas_center_wrong, toSas_border_wrong, processSas_weight_wrong); toSAS without arguments loses the real part of the last multipole (toSas_information_wrong); max_n = 0 divides by zero; initialize=False and finalize=False (processSas_initialize_wrong, processSas_finalize_wrong)."},
 {"property": "C71", "status": "partial", "theorems": ["TreeCorr.Aperture.tPlus_filter", "TreeCorr.Aperture.tMinus_filter", "TreeCorr.Aperture.tCross_filter", "TreeCorr.Aperture.napSq_filter", "TreeCorr.Aperture.mapSq_sum_partial", "TreeCorr.Aperture.nMap_sum_partial", "TreeCorr.Aperture.napSq_sum_partial", "TreeCorr.Aperture.map_pureE", "TreeCorr.Aperture.map_pureB", "TreeCorr.Aperture.nMap_convergence", "TreeCorr.Aperture.gam_pureE", "TreeCorr.Aperture.gam_constant", "TreeCorr.Aperture.turned_sums", "TreeCorr.Aperture.turned_exchange", "TreeCorr.Aperture.gamSq_parts", "TreeCorr.Aperture.mapSq_variance", "TreeCorr.Aperture.gamSq_variance", "TreeCorr.Aperture.nMap_variance", "TreeCorr.Aperture.norm_variance", "TreeCorr.Aperture.writeMapSq_columns", "TreeCorr.Aperture.writeNorm_columns", "TreeCorr.Aperture.aperture_errors", "TreeCorr.Aperture.crit_weights", "TreeCorr.Aperture.schn_weights", "TreeCorr.Aperture.doc_weights_wrong", "TreeCorr.Aperture.doc_kernel_wrong", "TreeCorr.Aperture.nMap_linear_wrong", "TreeCorr.Aperture.napSq_doc_wrong", "TreeCorr.Aperture.mxsqIm_wrong"], "note": "The kernels of Crittenden are derived from the filters; those of Schneider and of the shear in a circle are shown to separate E and B exactly (map_pureE, map_pureB, nMap_convergence for both forms, gam_pureE), but not derived from the filter. The sums over bins are compared with sums, the E/B separation is about the integrals. False: the documented U of Crittenden (doc_weights_wrong, doc_kernel_wrong), the factor in the documentation of calculateNapSq (napSq_doc_wrong), the sign of mxsq_im (mxsqIm_wrong), linear bins accepted by calculateNMap and calculateNapSq (nMap_linear_wrong)."},
 {"property": "C72", "status": "partial", "theorems": ["TreeCorr.Map3.T_filter", "TreeCorr.Map3.T_mean", "TreeCorr.Map3.calcT_eq", "TreeCorr.Map3.calcT_swap", "TreeCorr.Map3.calcT_rotation", "TreeCorr.Map3.calcT_mirror", "TreeCorr.Map3.eight_parts", "TreeCorr.Map3.ruv_triangle", "TreeCorr.Map3.sas_triangle", "TreeCorr.Map3.ruv_jacobian", "TreeCorr.Map3.sas_jacobian", "TreeCorr.Map3.area_ruv", "TreeCorr.Map3.area_sas", "TreeCorr.Map3.map3_sums_partial", "TreeCorr.Map3.map3_values_partial", "TreeCorr.Map3.map3_variance", "TreeCorr.Map3.mixed_variance_wrong", "TreeCorr.Map3.map3_rows", "TreeCorr.Map3.writeMap3_rows"], "note": "The weights of one triangle are derived from the filters for all k1, k2, k3 (T_filter). Missing: the sums over bins are not compared with the integral over all triangles, so that nothing is said about the separation of E and B modes of fields; triangles with a point at the centroid; triangles with v = 0 exactly are taken as clockwise. False: the variance is the one of map3 and mx3, not of the six others (mixed_variance_wrong)."},
 {"property": "C73", "status": "partial", "theorems": ["TreeCorr.multipoleG_counts", "TreeCorr.multipoleG_auto_exact_partial", "TreeCorr.multipoleG_cross12_exact_partial", "TreeCorr.multipoleG_cross12_unordered_exact_partial", "TreeCorr.multipoleG_cross123_exact_partial", "TreeCorr.multipoleG_cross123_first_exact_partial", "TreeCorr.multipoleG_cross123_unordered_exact_partial", "TreeCorr.flat_isProj", "TreeCorr.sph_isProj", "TreeCorr.threeD_isProj", "TreeCorr.sumsShear_simple", "TreeCorr.sumsShear_transport", "TreeCorr.triangle_summand_partial", "TreeCorr.triangle_summand_sphere_partial", "TreeCorr.triangle_opposite_wrong", "TreeCorr.multipoleG_coincident_wrong", "TreeCorr.self_sums_partial"], "note": "No slop (angle_slop = 0) for the natural components; counts, weights and sides for any slop. Slop on the plane: C80. Missing: slop on the sphere; rows at a pole. False: rows at the same place in the catalogue of points 2 and 3 (multipoleG_coincident_wrong); the triangle algorithm for points in opposite directions (triangle_opposite_wrong), and in space (threeD_projectX_wrong)."},
 {"property": "C74", "status": "partial", "theorems": ["TreeCorr.turn_exact", "TreeCorr.gamPhase_eq", "TreeCorr.toSasG_spread", "TreeCorr.toSasG_defined", "TreeCorr.toSasG_results_sum", "TreeCorr.processSasG_plane_partial", "TreeCorr.turn_sides_wrong"], "note": "In the plane, no slop, one catalogue from the rows; toSAS itself for all multipoles. Missing: the turn on the sphere (the code uses the phases of a flat triangle); two and three catalogues and patches are C79. False: triangles whose sides differ from the means of their bin are turned by the phase of the means (turn_sides_wrong)."},
 {"property": "C75", "status": "partial", "theorems": ["TreeCorr.kmeans_update_means_partial", "TreeCorr.kmeans_pass_inertia_partial", "TreeCorr.kmeans_refine_inertia_partial", "TreeCorr.kmeans_run_stops", "TreeCorr.kmeans_rests_partial", "TreeCorr.kmeans_converges_partial", "TreeCorr.kmeans_alt_pass_partial", "TreeCorr.kmeans_empty_patch_wrong", "TreeCorr.kmeans_alt_penalty_wrong", "TreeCorr.kmeans_update_sphere_wrong"], "note": "Flat and 3d positions, min_size = 0, w_pos = w; any tree, threads, max_iter and tol. Missing: the sphere, min_size > 0, w_pos different from w, convergence of the alternate algorithm. False: the standard algorithm can leave a patch without rows, its centre then goes to the origin (kmeans_empty_patch_wrong); the penalty of the alternate algorithm is not the documented one (kmeans_alt_penalty_wrong; at least three quarters of it); on the sphere the new centre is not the direction of the mean (kmeans_update_sphere_wrong)."},
 {"property": "C76", "status": "partial", "theorems": ["TreeCorr.kmeans_random_rows_partial", "TreeCorr.kmeans_random_distinct_partial", "TreeCorr.kmeans_random_returns", "TreeCorr.kmeans_random_origin_wrong", "TreeCorr.kmeans_random_sphere_wrong", "TreeCorr.kmeans_plusplus_rows_partial", "TreeCorr.kmeans_plusplus_returns_partial", "TreeCorr.kmeans_plusplus_origin_wrong", "TreeCorr.kmeans_plusplus_one_wrong", "TreeCorr.kmeans_plusplus_repeat_wrong", "TreeCorr.kmeans_plusplus_mean_wrong"], "note": "Any tree with min_size = 0, flat, 3d or sphere. Random: proved for rows at different positions when the selection ends (kmeans_random_returns says when). k-means++: proved for rows at different positions and numbers below 1, when it returns; it returns if no row is at the origin and no centroid of a larger cell is at the origin or at a row. Missing: min_size > 0; the distribution of the choices. False: rows at one place may give equal centres (kmeans_random_origin_wrong, kmeans_random_sphere_wrong) or a centre where there is no row (kmeans_plusplus_repeat_wrong); the generator gives 1 (kmeans_plusplus_one_wrong); an exception is not caught although rows are left (kmeans_plusplus_origin_wrong, kmeans_plusplus_mean_wrong)."},
 {"property": "C77", "status": "proved", "theorems": ["TreeCorr.auto3_schedule_independent", "TreeCorr.cross12_schedule_independent", "TreeCorr.cross123_schedule_independent", "TreeCorr.multipole_schedule_independent", "TreeCorr.multipole3_schedule_independent", "TreeCorr.multipoleG_schedule_independent", "TreeCorr.multipoleG3_schedule_independent", "TreeCorr.auto_ruv_exact_threads_partial"], "note": "sums are exact reals; auto_ruv_exact_threads_partial is C53 with threads, with the same gaps as there"},
 {"property": "C78", "status": "partial", "theorems": ["TreeCorr.localMp_auto_partial", "TreeCorr.localMp_cross12_partial", "TreeCorr.localMp_cross12_unordered_partial", "TreeCorr.localMp_cross_partial", "TreeCorr.localMp_cross_first_partial", "TreeCorr.localMp_cross_unordered_partial", "TreeCorr.localMpG_auto_partial", "TreeCorr.localMpG_cross12_partial", "TreeCorr.localMpG_cross12_unordered_partial", "TreeCorr.localMpG_cross_partial", "TreeCorr.localMpG_cross_first_partial", "TreeCorr.localMpG_cross_unordered_partial", "TreeCorr.localMp_auto_patches_partial"], "note": "Both for the object and for the sum of the stored results of the patches. Euclidean metric, no slop (b=0 or a=0 for counts, a=0 for the rest); rows of one catalogue at different places where it gives the second and third points; 3d coordinates only with rows and patch centres at a distance of at least 1 from the origin; meanlogd3 of ordered=1 and False with three catalogues is wrong as in C57. Missing: other metrics (the Periodic metric fails already in C68), slop."},
 {"property": "C79", "status": "partial", "theorems": ["TreeCorr.processSas_patches_auto_partial", "TreeCorr.processSas_patches_cross12_partial", "TreeCorr.processSas_patches_cross12_unordered_partial", "TreeCorr.processSas_patches_cross_partial", "TreeCorr.processSas_patches_cross_first_partial", "TreeCorr.processSas_patches_cross_unordered_partial", "TreeCorr.processSas_patches_auto_sphere_partial", "TreeCorr.processSas_patches_cross_sphere_partial", "TreeCorr.processSasG_patches_auto_partial", "TreeCorr.processSasG_patches_cross12_partial", "TreeCorr.processSasG_patches_cross12_unordered_partial", "TreeCorr.processSasG_patches_cross_partial", "TreeCorr.processSasG_patches_cross_first_partial", "TreeCorr.processSasG_patches_cross_unordered_partial"], "note": "As C78: Euclidean metric, angle_slop = 0; counts, scalars and shear. On the sphere no row at a pole and no two opposite. Shear as in C74: the phase of the bin turns all its triangles alike. Missing: other metrics, slop, two catalogues on the sphere, shear on the sphere."},
 {"property": "C80", "status": "partial", "theorems": ["TreeCorr.multipole_cross123_slop", "TreeCorr.multipole_cross123_first_slop_partial", "TreeCorr.multipole_cross12_slop_partial", "TreeCorr.multipole_cross12_apart_slop_partial", "TreeCorr.multipole_auto_slop_partial", "TreeCorr.multipole_auto_apart_slop_partial", "TreeCorr.multipole_cross123_clear_partial", "TreeCorr.multipole_auto_clear_partial", "TreeCorr.seen_not_same", "TreeCorr.flat_unitDir", "TreeCorr.multipole_cross123_unordered_slop_partial", "TreeCorr.multipole_cross12_unordered_slop_partial", "TreeCorr.multipole_cross12_unordered_apart_slop_partial", "TreeCorr.multipole_cross12_clear_partial", "TreeCorr.multipole_cross12_unordered_clear_partial", "TreeCorr.multipole_cross123_unordered_clear_partial", "TreeCorr.multipoleG_cross123_slop_partial", "TreeCorr.multipoleG_cross123_first_slop_partial", "TreeCorr.multipoleG_cross123_unordered_slop_partial", "TreeCorr.multipoleG_cross12_apart_slop_partial", "TreeCorr.multipoleG_cross12_unordered_apart_slop_partial", "TreeCorr.multipoleG_auto_apart_slop_partial", "TreeCorr.flat_unitFactor"], "note": "Euclidean metric. On the sphere rows closer than 90 degrees to one another. Multipoles n != 0, and shear, only for directions and factors of modulus one everywhere and cell shears that are plain sums (the plane). Weights, mean sides and shear of one or two catalogues need min_size = 0 and rows of the second catalogue at different places (C57). Missing: n != 0 and shear on the sphere, patches."},
 {"property": "C81", "status": "partial", "theorems": ["TreeCorr.ReadCols.read_columns_partial", "TreeCorr.ReadCols.needed_there", "TreeCorr.ReadCols.read_order_partial", "TreeCorr.ReadCols.read_same_name_wrong", "TreeCorr.ReadCols.read_extra_order_wrong", "TreeCorr.ReadCols.read_half_wrong", "TreeCorr.ReadCols.eval_half_wrong"], "note": "Columns by name. False for a name used in two extensions, for extra columns in two extensions, for half a pair and for some pairs of a column and an expression (_wrong theorems). Missing: contents of quantities given by expressions; allow_xyz. An extension that is not in the file counts as one without columns."},
 {"property": "C82", "status": "partial", "theorems": ["TreeCorr.Exec.corr2_outputs", "TreeCorr.Exec.corr2_ok_iff", "TreeCorr.Exec.corr2_error_partial", "TreeCorr.Exec.corr2_sound", "TreeCorr.Exec.corr2_independent", "TreeCorr.Exec.random_positions", "TreeCorr.Exec.first_columns_partial", "TreeCorr.Exec.second_columns", "TreeCorr.Exec.corr3_outputs", "TreeCorr.Exec.kz_columns_wrong", "TreeCorr.Exec.norm_error_wrong", "TreeCorr.Exec.statistic_none_wrong"], "note": "False for the columns of KZ, for the kind of error of the normalised aperture mass without randoms, and for statistics with the value None (_wrong theorems). What is written is a term that says which catalogues have been processed; the contents are the subject of the other properties. Errors from files, and from outputs whose name is None, are not covered."},
 {"property": "C83", "status": "partial", "theorems": ["TreeCorr.Catalog.write_read", "TreeCorr.Catalog.file_units", "TreeCorr.Catalog.saved_patches_partial", "TreeCorr.Catalog.later_run_partial", "TreeCorr.Catalog.zero_rows_lost", "TreeCorr.Catalog.stale_patches_wrong", "TreeCorr.Catalog.kept_rows_wrong", "TreeCorr.Catalog.low_mem_units_wrong", "TreeCorr.Catalog.randoms_wrong", "TreeCorr.Catalog.missing_number_wrong", "TreeCorr.Catalog.flagged_rows_wrong"], "note": "False in six ways (_wrong theorems): files of another catalogue, kept rows of zero weight, x_units with low_mem, randoms whose configuration names a column of values, numbers without rows with low_mem, weights from flags. What Catalog(config, file_name, patch=i) gives is a parameter, assumed to hold the rows of the patch. The formats of the files, precision and expressions (k_eval) are not covered."},
 {"property": "C84", "status": "partial", "theorems": ["TreeCorr.NearArgs.accepted_iff", "TreeCorr.NearArgs.rejected_iff", "TreeCorr.NearArgs.meaning_unique", "TreeCorr.NearArgs.leftovers_refused", "TreeCorr.NearArgs.near_sky_partial", "TreeCorr.NearArgs.near_space_partial", "TreeCorr.NearArgs.large_sep_wrong"], "note": "Which calls are accepted and what they mean is complete. On the sphere separations over 180 degrees give wrong answers (large_sep_wrong): the chord is not monotonic. The answers are for min_size = 0; for min_size > 0 see C12. The package coord is taken to do what it documents; strings in place of numbers are not covered."},
 {"property": "C85", "status": "partial", "theorems": ["TreeCorr.CatState.history_arrays_partial", "TreeCorr.CatState.history_loaded_partial", "TreeCorr.CatState.history_file_partial", "TreeCorr.CatState.centre_balance", "TreeCorr.CatState.centre_convex", "TreeCorr.CatState.select_unloaded_wrong", "TreeCorr.CatState.select_forgotten_wrong", "TreeCorr.CatState.select_stale_wrong", "TreeCorr.CatState.select_field_wrong", "TreeCorr.CatState.select_center_wrong", "TreeCorr.CatState.kmeans_center_wrong", "TreeCorr.CatState.npatch_wrong", "TreeCorr.CatState.one_patch_wrong"], "note": "Proved for all histories without select. False after select, which refreshes nothing and does nothing before a file is loaded, and for files before they are loaded if patches come from k-means or the given npatch is not the number in the file (_wrong theorems). Variances (vark, varg, ...) are kept in the same way and are not covered; low_mem and save_patch_dir are C83; patches found again from the centres of k-means after an unload are taken to be the same."},
 {"property": "C86", "status": "partial", "theorems": ["TreeCorr.IO3.write_read3_named", "TreeCorr.IO3.file3_columns", "TreeCorr.IO3.write_read_nnn_named", "TreeCorr.IO3.write_read3_ascii_partial", "TreeCorr.IO3.write_read_nnn_ascii_partial", "TreeCorr.IO3.ascii3_cov_wrong", "TreeCorr.IO3.ascii3_cplx_cov_wrong", "TreeCorr.IO3.ascii3_zero_patches_wrong"], "note": "FITS and HDF5 for all classes and kinds of bins, with a real covariance matrix. False for ASCII files with a covariance and no patch results, with a complex covariance, and with patch results all of which are empty (_wrong theorems); the rest of ASCII is proved."},
 {"property": "C87", "status": "partial", "theorems": ["TreeCorr.Copies.copies_independent_partial", "TreeCorr.Copies.copies_values_partial", "TreeCorr.Copies.copies_plain", "TreeCorr.Copies.copy_pending_wrong", "TreeCorr.Copies.copy_results_wrong", "TreeCorr.Copies.copy_calculateXi_wrong", "TreeCorr.Copies.clear_pending_wrong"], "note": "Proved for every program whose process calls initialize and finalize and that does not call calculateXi (copies_plain), and for the larger set SafeRun. False in general: copies share the list of catalogues not yet finalized and the dict of patch results, and clear does not empty that list (_wrong theorems)."},
 {"property": "C88", "status": "partial", "theorems": ["TreeCorr.Catalog.repr_eval_partial", "TreeCorr.Catalog.eq_iff", "TreeCorr.Catalog.eq_equivalence", "TreeCorr.Catalog.eq_sums", "TreeCorr.Catalog.repr_unloaded_partial", "TreeCorr.Catalog.repr_patch_wrong", "TreeCorr.Catalog.repr_one_row_wrong", "TreeCorr.Catalog.repr_unloaded_wrong"], "note": "== is complete. eval(repr(cat)) is proved for loaded catalogues and false for single patches other than 0, for one row with an array of patch numbers, and for files that are not loaded if num, is_rand or patch was given (_wrong theorems). Numbers are taken as printed exactly; allow_xyz is not covered."},
 {"property": "C89", "status": "partial", "theorems": ["TreeCorr.Config.read_config_iff", "TreeCorr.Config.read_config_values", "TreeCorr.Config.read_config_depth", "TreeCorr.Config.file_kind", "TreeCorr.Config.include_circle", "TreeCorr.Config.program_config_values", "TreeCorr.Config.program_config_total", "TreeCorr.Config.verbosity_option_partial", "TreeCorr.Config.verbosity_variable", "TreeCorr.Config.include_comment_wrong", "TreeCorr.Config.verbosity_option_wrong", "TreeCorr.Config.log_file_option_partial", "TreeCorr.Config.log_file_variable", "TreeCorr.Config.log_file_option_wrong"], "note": "Files and variables: complete, with the YAML and JSON libraries as parameters; files that include one another are an error. False for comments after the name of an included file (include_comment_wrong), and for the option -v if a variable log_file=... is given and the file sets verbose (verbosity_option_wrong). The same for -l with a variable verbose=... (log_file_option_wrong)."},
 {"property": "C90", "status": "partial", "theorems": ["TreeCorr.Ascii.ascii_exact", "TreeCorr.Ascii.catalog_exact", "TreeCorr.Ascii.centers_exact", "TreeCorr.Ascii.ascii_error_partial", "TreeCorr.Ascii.ascii_finite", "TreeCorr.Ascii.ascii_columns", "TreeCorr.Ascii.read_nearest", "TreeCorr.Ascii.ascii_15_wrong", "TreeCorr.Ascii.ascii_overflow_wrong"], "note": "Complete for the default precision and patch centers, down to the characters of each line, with printf and strtod rounding to nearest even. With a small precision doubles close to the largest one are read as infinite (ascii_overflow_wrong); up to 2^1023 the bound holds without exception. NaN, infinities and the sign of zero are not modelled, nor the characters of the header."},
 {"property": "C91", "status": "partial", "theorems": ["TreeCorr.FileType.writer_of_name", "TreeCorr.FileType.writer_given", "TreeCorr.FileType.written_read_partial", "TreeCorr.FileType.parquet_wrong"], "note": "False for extensions that begin with .par: what is written is ASCII, readers expect Parquet (parquet_wrong); proved for all other names and for all given types. lower and upper are those of ASCII letters; paths have / as separator."},
 {"property": "C92", "status": "partial", "theorems": ["TreeCorr.Catalog.given_used_partial", "TreeCorr.Catalog.given_used_low_mem", "TreeCorr.Catalog.given_average", "TreeCorr.Catalog.not_given", "TreeCorr.Catalog.given_ignored", "TreeCorr.Catalog.given_wrong", "TreeCorr.Catalog.mixed_wrong"], "note": "Holds without patches, and with patches read from the file with low_mem. False with other patches: they are made without the configuration, the given value has no effect (given_ignored, given_wrong). A list of catalogues with and without a given value is pooled as if the former had mean 0 (mixed_wrong). save_patch_dir is not modelled."},
 {"property": "C93", "status": "partial", "theorems": ["TreeCorr.Adding.add_same_bins_partial", "TreeCorr.Adding.edges_are", "TreeCorr.Adding.add_tot", "TreeCorr.Adding.add_accepted", "TreeCorr.Adding.add_refused", "TreeCorr.Adding.log_linear_wrong", "TreeCorr.Adding.units_wrong", "TreeCorr.Adding.unused_wrong", "TreeCorr.Adding.coords_wrong", "TreeCorr.Adding.add3_same_bins_partial", "TreeCorr.Adding.add3_tot", "TreeCorr.Adding.add3_accepted", "TreeCorr.Adding.add3_refused", "TreeCorr.Adding.units3_wrong", "TreeCorr.Adding.unused3_wrong"], "note": "Proved for objects with the same units (and, with two points, the same bin type). False otherwise: bin_type and sep_units are not compared for two points (log_linear_wrong, units_wrong), sep_units not for three (units3_wrong). An object with which nothing was processed is refused though its bins are the same (unused_wrong, unused3_wrong), and other coordinates only give a warning (coords_wrong)."},
 {"property": "C94", "status": "partial", "theorems": ["TreeCorr.Config.files_read_partial", "TreeCorr.Config.both_refused", "TreeCorr.Config.rand_keys", "TreeCorr.Config.rand_list_keys", "TreeCorr.Config.missing_refused", "TreeCorr.Config.rand_given", "TreeCorr.Config.blank_line_wrong", "TreeCorr.Config.space_wrong"], "note": "Proved for list files without blank lines, and strings of names without white space. False otherwise: a blank line is taken as the name of a file (blank_line_wrong), and a string with a name that has a space as two names (space_wrong). Carriage returns are not modelled."},
 {"property": "C95", "status": "partial", "theorems": ["TreeCorr.Adding.equal_equivalence", "TreeCorr.Adding.equal_same", "TreeCorr.Adding.equal_add", "TreeCorr.Adding.tot_wrong", "TreeCorr.Adding.metric_wrong"], "note": "The results with randoms are not the same: tot is not compared, so that equal NN objects can have different xi (tot_wrong), and neither is the metric (metric_wrong). NaN, subclasses made by the user, the patch results and three-point objects are not covered."}
]}
