{
 "claims": [
  {
   "property": "C01",
   "status": "proved",
   "theorems": [
    "Ledsa.C01_ascending_list",
    "Ledsa.C01_ascending_length",
    "Ledsa.C01_ascending_mem"
   ],
   "note": "exact list, length and membership for every range and skip value"
  },
  {
   "property": "C02",
   "status": "proved",
   "theorems": [
    "Ledsa.C02_overflow_list",
    "Ledsa.C02_first_too_large"
   ],
   "note": "exact list in circular order; start above 9999 raises IndexError"
  },
  {
   "property": "C03",
   "status": "partial",
   "theorems": [
    "Ledsa.C03_analysis_range_false",
    "Ledsa.C03_analysis_range_partial",
    "Ledsa.C03_analysis_range_iff"
   ],
   "note": "refuted: the analysis list starts at first_img_experiment_id; holds exactly when both starts coincide (in the stated range)"
  },
  {
   "property": "C04",
   "status": "partial",
   "theorems": [
    "Ledsa.C04_counts_false",
    "Ledsa.C04_counts_partial",
    "Ledsa.C04_overflow_unset_false"
   ],
   "note": "refuted for skip values that do not divide and for unset overflow; exact characterisation proved for ascending lists"
  },
  {
   "property": "C05",
   "status": "proved",
   "theorems": [
    "Ledsa.C05_ids_and_names"
   ],
   "note": "ids are 1..n and name lookup is inverse for every template that does not contain separators"
  },
  {
   "property": "C06",
   "status": "partial",
   "theorems": [
    "Ledsa.C06_time_differences",
    "Ledsa.C06_first_image_false",
    "Ledsa.C06_experiment_time_value",
    "Ledsa.C06_first_image_partial",
    "Ledsa.C06_first_image_iff",
    "Ledsa.C06_midnight_false",
    "Ledsa.C06_real_time"
   ],
   "note": "time differences proved; refuted that the first image is at 0 (offset is applied to one side only; exact iff), midnight loses a day"
  },
  {
   "property": "C07",
   "status": "partial",
   "theorems": [
    "Ledsa.C07_fraction_false",
    "Ledsa.C07_fraction_partial",
    "Ledsa.C07_getint_fails"
   ],
   "note": "refuted: fraction digits are read as milliseconds; right for exactly three digits and matching sign; getint fails on any fraction"
  },
  {
   "property": "C08",
   "status": "proved",
   "theorems": [
    "Ledsa.C08_same_day",
    "Ledsa.C08_value",
    "Ledsa.C08_next_day",
    "Ledsa.C08_days_ordered"
   ],
   "note": "both notations denote the same day; day numbers are consecutive and ordered"
  },
  {
   "property": "C09",
   "status": "proved",
   "theorems": [
    "Ledsa.C09_consecutive_bounded"
   ],
   "note": ""
  },
  {
   "property": "C10",
   "status": "proved",
   "theorems": [
    "Ledsa.C10_bright",
    "Ledsa.C10_sorted_by_brightness",
    "Ledsa.C10_C12_detect"
   ],
   "note": "for thresholds >= 0, which non-negative images always have (C10_C12_detect)"
  },
  {
   "property": "C11",
   "status": "partial",
   "theorems": [
    "Ledsa.C11_separation_partial",
    "Ledsa.C11_separation_interior",
    "Ledsa.C11_border_false",
    "Ledsa.C11_separation_false"
   ],
   "note": "refuted at the upper/left border (negative slice start clears nothing); proved for interior LEDs"
  },
  {
   "property": "C12",
   "status": "proved",
   "theorems": [
    "Ledsa.C12_complete",
    "Ledsa.C10_C12_detect"
   ],
   "note": ""
  },
  {
   "property": "C13",
   "status": "proved",
   "theorems": [
    "Ledsa.C13_count_above",
    "Ledsa.C13_between",
    "Ledsa.C13_monotone",
    "Ledsa.C13_hundred",
    "Ledsa.C13_hundred_detects_nothing"
   ],
   "note": "linear interpolation percentile over rationals"
  },
  {
   "property": "C14",
   "status": "proved",
   "theorems": [
    "Ledsa.C14_at_most_one_array"
   ],
   "note": "all layouts, neighbour limits, weights and error exits"
  },
  {
   "property": "C15",
   "status": "proved",
   "theorems": [
    "Ledsa.C15_first_to_last",
    "Ledsa.C15_matchable_iff",
    "Ledsa.C15_unknown_edge_fails",
    "Ledsa.C15_consumed_edge_fails",
    "Ledsa.C15_equal_edges_take_everything",
    "Ledsa.C15_edge_text"
   ],
   "note": "array = first ... last, termination of the walk (walk_fuel), both error cases; finding: equal edges swallow all LEDs"
  },
  {
   "property": "C16",
   "status": "proved",
   "theorems": [
    "Ledsa.C16_next_is_best"
   ],
   "note": "for each step of each matched array"
  },
  {
   "property": "C17",
   "status": "partial",
   "theorems": [
    "Ledsa.C17_ignored_removed",
    "Ledsa.C17_ignored_text_partial",
    "Ledsa.C17_whitespace_false",
    "Ledsa.C17_one_bad_field_drops_all"
   ],
   "note": "removal proved for all arrays; text: only single blanks are understood, any other white space silently drops the whole list"
  },
  {
   "property": "C18",
   "status": "proved",
   "theorems": [
    "Ledsa.C18_partition"
   ],
   "note": ""
  },
  {
   "property": "C19",
   "status": "proved",
   "theorems": [
    "Ledsa.C19_renumbering",
    "Ledsa.C19_step2",
    "Ledsa.C19_gap_false"
   ],
   "note": "for tables as written by step 1 (ids 0..n-1); finding: tables with gaps are renumbered wrongly"
  },
  {
   "property": "C20",
   "status": "proved",
   "theorems": [
    "Ledsa.C20_reversed",
    "Ledsa.C20_edges",
    "Ledsa.C20_file_names"
   ],
   "note": "including that file names are distinct"
  },
  {
   "property": "C21",
   "status": "partial",
   "theorems": [
    "Ledsa.C21_merged",
    "Ledsa.C21_unknown_ignored",
    "Ledsa.C21_file_count_false",
    "Ledsa.C21_file_count_iff"
   ],
   "note": "content proved; the number of files is wrong iff a group has no known non-empty array"
  },
  {
   "property": "C22",
   "status": "proved",
   "theorems": [
    "Ledsa.C22_complete_runs",
    "Ledsa.C22_second_run_refused",
    "Ledsa.C22_step1_allows_step2"
   ],
   "note": "all histories of complete runs"
  },
  {
   "property": "C23",
   "status": "partial",
   "theorems": [
    "Ledsa.C23_crash_partial",
    "Ledsa.C23_crash_false"
   ],
   "note": "refuted: crash between writing the renumbered table and setting the flag; proved for crashes anywhere else"
  },
  {
   "property": "C24",
   "status": "partial",
   "theorems": [
    "Ledsa.C24_bad_edges_destroy",
    "Ledsa.C24_false",
    "Ledsa.C24_unknown_led_partial"
   ],
   "note": "refuted for every unreadable edge list; an unknown LED leaves the table unchanged"
  },
  {
   "property": "C25",
   "status": "proved",
   "theorems": [
    "Ledsa.C25_window_values",
    "Ledsa.C25_bounds",
    "Ledsa.C25_interior_with_fit"
   ],
   "note": "over any ordered field; LEDs at least one radius from the upper and left border"
  },
  {
   "property": "C26",
   "status": "partial",
   "theorems": [
    "Ledsa.C26_upper_left_error",
    "Ledsa.C26_false",
    "Ledsa.C26_wrong_pixels",
    "Ledsa.C26_lower_right_partial",
    "Ledsa.C26_fit_border_error",
    "Ledsa.C26_fit_shapes"
   ],
   "note": "refuted for the upper and left border (ValueError, or the wrong pixels in small images) and, with fitting, for the lower and right border; proved without fitting for the lower and right border"
  },
  {
   "property": "C27",
   "status": "proved",
   "theorems": [
    "Ledsa.C27_no_rows_leaves_empty_file",
    "Ledsa.C27_rows",
    "Ledsa.C27_succeeds_iff"
   ],
   "note": "finding: an image with no LED left to measure leaves an empty result file and an IndexError"
  },
  {
   "property": "C28",
   "status": "partial",
   "theorems": [
    "Ledsa.C28_schedule_independent_partial",
    "Ledsa.C28_runs_exist",
    "Ledsa.C28_log_entries",
    "Ledsa.C28_log_order_false",
    "Ledsa.C28_failing_image_false"
   ],
   "note": "proved for result files when every image can be processed, for all worker counts and interleavings; refuted for the order of the fit log and for runs with a failing image Fits that do not converge can stop a photo when several processes create the log directory at the same time: C177."
  },
  {
   "property": "C29",
   "status": "partial",
   "theorems": [
    "Ledsa.C29_restart_effect",
    "Ledsa.C29_existing_file_kept",
    "Ledsa.C29_second_channel_lost",
    "Ledsa.C29_restart_without_fit",
    "Ledsa.C29_truncated_false",
    "Ledsa.C29_channels_false",
    "Ledsa.C29_fit_false",
    "Ledsa.C29_unlisted_image_fails",
    "Ledsa.C29_restart_partial",
    "Ledsa.C29_names_sound",
    "Ledsa.C29_names_complete"
   ],
   "note": "exact law of a restart for every disk state; refuted for truncated files, several channels and fitted runs; proved for one channel without fit and any number of interruptions that leave no incomplete file"
  },
  {
   "property": "C30",
   "status": "partial",
   "theorems": [
    "Ledsa.C30_columns_without_fit",
    "Ledsa.C30_fit_columns_shifted",
    "Ledsa.C30_columns_with_fit_partial",
    "Ledsa.C30_fit_false",
    "Ledsa.C30_accepted_iff"
   ],
   "note": "proved without fit; refuted with fit for all values (columns shifted by one from max_col_val on)"
  },
  {
   "property": "C31",
   "status": "proved",
   "theorems": [
    "Ledsa.C31_small_sums_exact",
    "Ledsa.C31_relative_error",
    "Ledsa.C31_order_kept"
   ],
   "note": "integers of any size, exact text of the 10.4e format"
  },
  {
   "property": "C32",
   "status": "partial",
   "theorems": [
    "Ledsa.C32_centre_of_spot",
    "Ledsa.C32_recorded",
    "Ledsa.C32_right_iff",
    "Ledsa.C32_false"
   ],
   "note": "refuted: row and column of the recorded centre are exchanged; exact law proved for all proper spots"
  },
  {
   "property": "C33",
   "status": "proved",
   "theorems": [
    "Ledsa.C33_on_line",
    "Ledsa.C33_fraction_unique"
   ],
   "note": "over the reals; edge pixels linearly independent"
  },
  {
   "property": "C34",
   "status": "partial",
   "theorems": [
    "Ledsa.C34_succeeds_iff",
    "Ledsa.C34_false",
    "Ledsa.C34_single_led_fails"
   ],
   "note": "refuted (array along the first pixel row; any pixel line through the origin; single-LED arrays); exact condition proved"
  },
  {
   "property": "C35",
   "status": "proved",
   "theorems": [
    "Ledsa.C35_projection",
    "Ledsa.C35_idempotent"
   ],
   "note": "over the reals"
  },
  {
   "property": "C36",
   "status": "partial",
   "theorems": [
    "Ledsa.C36_widths_from_zero",
    "Ledsa.C36_width_difference",
    "Ledsa.C36_isometry_partial",
    "Ledsa.C36_oblique_stretched",
    "Ledsa.C36_false"
   ],
   "note": "refuted: widths stretched by the inverse cosine of the wall angle and folded at x = 0; exact law proved; isometry proved for walls parallel to x and LEDs on one side"
  },
  {
   "property": "C37",
   "status": "partial",
   "theorems": [
    "Ledsa.C37_own_coordinates_partial",
    "Ledsa.C37_three_leds_wrong",
    "Ledsa.C37_few_leds_fail",
    "Ledsa.C37_false"
   ],
   "note": "refuted for exactly three LEDs (coordinates of the matrix transpose) and for one or two (TypeError); proved from four LEDs on"
  },
  {
   "property": "C38",
   "status": "proved",
   "theorems": [
    "Ledsa.C38_equal_heights",
    "Ledsa.C38_tile"
   ],
   "note": "over the reals"
  },
  {
   "property": "C39",
   "status": "proved",
   "theorems": [
    "Ledsa.C39_length_in_layer"
   ],
   "note": "over the reals; length as Lebesgue measure of the part of the segment in the layer; includes vertical rays"
  },
  {
   "property": "C40",
   "status": "partial",
   "theorems": [
    "Ledsa.C40_missing_iff",
    "Ledsa.C40_horizontal",
    "Ledsa.C40_sum_partial",
    "Ledsa.C40_led_outside",
    "Ledsa.C40_top_border_false",
    "Ledsa.C40_same_position_nan"
   ],
   "note": "refuted for camera and LED both exactly at the upper bound (no distances) and for an LED at the camera position (nan accepted); proved for all other positions inside the domain; exact condition for missing distances for non-horizontal rays"
  },
  {
   "property": "C41",
   "status": "partial",
   "theorems": [
    "Ledsa.C41_aligned_iff",
    "Ledsa.C41_same_led_partial",
    "Ledsa.C41_merged_ascending_partial",
    "Ledsa.C41_merge_order_false",
    "Ledsa.C41_skip_false"
   ],
   "note": "refuted for merge groups in non-ascending order and for num_skip_leds > 0; exact condition proved; proved for unmerged arrays and for ascending merge groups"
  },
  {
   "property": "C42",
   "status": "proved",
   "theorems": [
    "Ledsa.C42_beer_lambert",
    "Ledsa.C42_range",
    "Ledsa.C42_antitone",
    "Ledsa.C42_split"
   ],
   "note": "Over the reals; layer splitting for arbitrary subdivisions of layers."
  },
  {
   "property": "C43",
   "status": "partial",
   "theorems": [
    "Ledsa.C43_linear_profile_partial",
    "Ledsa.C43_unregularised",
    "Ledsa.C43_condition_iff",
    "Ledsa.C43_dense_false",
    "Ledsa.C43_lambda_zero_false",
    "Ledsa.C43_two_layers_biased",
    "Ledsa.C43_unique_solution"
   ],
   "note": "Exact recovery for optical depths up to 10 ln 10 and positive regularisation, exact condition on the rays, existence and uniqueness of the solution for any data; refuted for denser smoke and for lambda = 0 when the rays only determine linear profiles; with one or two layers the exact coefficients are never returned except zero."
  },
  {
   "property": "C44",
   "status": "proved",
   "theorems": [
    "Ledsa.C44_clipping",
    "Ledsa.C44_clear_air",
    "Ledsa.C44_any_minimiser",
    "Ledsa.C44_smoke_detected"
   ],
   "note": "nnls is described by a contract: its result is a non-negative minimiser and it stays at zero if the gradient allows; C44_any_minimiser does not need the second part. Converse: C44_smoke_detected."
  },
  {
   "property": "C45",
   "status": "partial",
   "theorems": [
    "Ledsa.C45_same_intensities",
    "Ledsa.C45_linear",
    "Ledsa.C45_nonlinear_iff",
    "Ledsa.C45_nonlinear_false"
   ],
   "note": "For tables holding every LED in every image: the serial and the parallel run hand the same relative intensities to the solver, and with the linear solver they give the same coefficients. With the nonlinear solver the serial run starts each image from the previous solution and the parallel run does not; C45_nonlinear_iff gives the exact condition for equality and C45_nonlinear_false a case where they differ."
  },
  {
   "property": "C46",
   "status": "proved",
   "theorems": [
    "Ledsa.C46_value",
    "Ledsa.C46_mean_one",
    "Ledsa.C46_scaling",
    "Ledsa.C46_no_reference_fails",
    "Ledsa.C46_first_images",
    "Ledsa.C46_listed_images"
   ],
   "note": "Proved for tables holding every LED in every image, as step 3 produces them: the value of each relative intensity, the mean of one over the reference images, the invariance under scaling, and the failure when no reference image exists."
  },
  {
   "property": "C47",
   "status": "proved",
   "theorems": [
    "Ledsa.C47_named_pairs",
    "Ledsa.C47_warned_iff",
    "Ledsa.C47_complete_table"
   ],
   "note": "The named pairs are exactly the reference values deviating by more than the threshold; the warning is given iff one exists."
  },
  {
   "property": "C48",
   "status": "partial",
   "theorems": [
    "Ledsa.C48_parallel_partial",
    "Ledsa.C48_parallel_rows",
    "Ledsa.C48_serial_rows",
    "Ledsa.C48_false",
    "Ledsa.C48_parallel_nonlinear_iff"
   ],
   "note": "Refuted for the serial run: a second call appends to the first result (C48_false, C48_serial_rows). Proved for the parallel run with the linear solver; for the nonlinear solver C48_parallel_nonlinear_iff gives the exact condition."
  },
  {
   "property": "C49",
   "status": "proved",
   "theorems": [
    "Ledsa.C49_right_led",
    "Ledsa.C49_program_tables",
    "Ledsa.C49_missing_led_fails",
    "Ledsa.C49_unsorted_false"
   ],
   "note": "for coordinate tables with ascending ids, which are the ones the program writes; unsorted tables are joined wrongly (C49_unsorted_false)"
  },
  {
   "property": "C50",
   "status": "partial",
   "theorems": [
    "Ledsa.C50_permuted",
    "Ledsa.C50_restore_partial",
    "Ledsa.C50_overflow",
    "Ledsa.C50_order_false",
    "Ledsa.C50_subset_fails",
    "Ledsa.C50_singular"
   ],
   "note": "Holds for the channels 0..n-1 in order and values that fit into 16 bits (C50_restore_partial); with the identity it holds iff all sums fit (C50_overflow). Refuted for other orders (C50_order_false) and for channel subsets such as 1,2 (C50_subset_fails)."
  },
  {
   "property": "C51",
   "status": "partial",
   "theorems": [
    "Ledsa.C51_rows",
    "Ledsa.C51_pair",
    "Ledsa.C51_head",
    "Ledsa.C51_false",
    "Ledsa.C51_short_partial"
   ],
   "note": "Refuted: the times are averaged but the coefficients are not. An averaged run succeeds iff the binary table exists already and there are at most eleven images (C51_false); for those C51_short_partial."
  },
  {
   "property": "C52",
   "status": "partial",
   "theorems": [
    "Ledsa.C52_false",
    "Ledsa.C52_looked_up_partial",
    "Ledsa.C52_distinct_files"
   ],
   "note": "Refuted: the file looked for is never one that a calculation writes, so everything is always computed again (C52_false). C52_looked_up_partial: the check itself is right for the path it looks at; C52_distinct_files: no two calculations of a solver share a file."
  },
  {
   "property": "C53",
   "status": "partial",
   "theorems": [
    "Ledsa.C53_iff",
    "Ledsa.C53_never_wrong",
    "Ledsa.C53_false",
    "Ledsa.C53_any_case"
   ],
   "note": "Refuted; exact condition C53_iff: only the names 'linear' and 'nonlinear' give the solver its parameters. The parameters of the wrong solver are never taken (C53_never_wrong)."
  },
  {
   "property": "C54",
   "status": "partial",
   "theorems": [
    "Ledsa.C54_list",
    "Ledsa.C54_unset",
    "Ledsa.C54_false",
    "Ledsa.C54_unset_iff",
    "Ledsa.C54_any_list",
    "Ledsa.C54_floats",
    "Ledsa.C54_any_unset_iff"
   ],
   "note": "Integer and decimal lists (C54_list, C54_floats) and any other conversion (C54_any_list): numbers are returned exactly, whatever white space is used; None/empty means unset. Refuted for the last part: any unreadable token makes the option silently count as unset (C54_false, exact condition C54_unset_iff, C54_any_unset_iff)."
  },
  {
   "property": "C55",
   "status": "partial",
   "theorems": [
    "Ledsa.C55_round_trip",
    "Ledsa.C55_reload",
    "Ledsa.C55_new_options_partial",
    "Ledsa.C55_false",
    "Ledsa.C55_multiline_false",
    "Ledsa.C55_percent_false",
    "Ledsa.C55_no_percent",
    "Ledsa.C55_own_value",
    "Ledsa.C55_default_value",
    "Ledsa.C55_comment_lines"
   ],
   "note": "Writing and loading gives back every file the program writes (C55_round_trip, C55_reload) and every documented option of a new configuration (C55_new_options_partial). Refuted: the id of the time reference image is stored under another name (C55_false), a table whose lines are not indented makes the file unreadable (C55_multiline_false), texts with a percent sign cannot be stored (C55_percent_false)."
  },
  {
   "property": "C56",
   "status": "partial",
   "theorems": [
    "Ledsa.C56_asked",
    "Ledsa.C56_kept_partial",
    "Ledsa.C56_saved_partial",
    "Ledsa.C56_second_run",
    "Ledsa.C56_date_false",
    "Ledsa.C56_clock_false"
   ],
   "note": "Questions asked are exactly those for missing parameters, in order (C56_asked; a prefix if an exception ends the dialogue). Parameters that were set are kept and answers are saved (C56_kept_partial, C56_saved_partial), with two exceptions that refute the full claim: a set date is overwritten (C56_date_false), and the clock time is lost if the reference image cannot be read (C56_clock_false). A second run asks nothing unless an answer was 'None' (C56_second_run)."
  },
  {
   "property": "C57",
   "status": "partial",
   "theorems": [
    "Ledsa.C57_offset",
    "Ledsa.C57_file_only_false",
    "Ledsa.C57_id_only_false",
    "Ledsa.C57_neither"
   ],
   "note": "Offset = EXIF time minus clock time, the file wins (C57_offset, C57_neither). Refuted when creating a configuration: giving only the file raises KeyError (C57_file_only_false), giving only the id asks again (C57_id_only_false)."
  },
  {
   "property": "C58",
   "status": "partial",
   "theorems": [
    "Ledsa.C58_rows_iff",
    "Ledsa.C58_false",
    "Ledsa.C58_var",
    "Ledsa.C58_no_number_rejected"
   ],
   "note": "The rows loaded are the lines entered iff every line has the expected number of entries (C58_rows_iff); rows of variable length (C58_var); non-numbers are rejected. Refuted: a wrong number of entries is not rejected, the numbers are re-cut (C58_false)."
  },
  {
   "property": "C59",
   "status": "partial",
   "theorems": [
    "Ledsa.C59_inside_partial",
    "Ledsa.C59_in_domain",
    "Ledsa.C59_assigned_iff",
    "Ledsa.C59_below_false",
    "Ledsa.C59_upper_bound"
   ],
   "note": "Inside the domain proved (C59_inside_partial, C59_in_domain). Outside: refuted, heights up to one layer thickness below the domain get layer 0 (C59_below_false); exact set of heights with a layer in C59_assigned_iff."
  },
  {
   "property": "C60",
   "status": "partial",
   "theorems": [
    "Ledsa.C60_window",
    "Ledsa.C60_balanced_iff",
    "Ledsa.C60_even_partial",
    "Ledsa.C60_odd_false",
    "Ledsa.C60_odd_window",
    "Ledsa.C60_one",
    "Ledsa.C60_constant",
    "Ledsa.C60_missing"
   ],
   "note": "Exact window for every size (C60_window). Balanced iff the size is even (C60_balanced_iff); for every odd size >= 3 refuted (C60_odd_false). Window 1 and constant series proved."
  },
  {
   "property": "C61",
   "status": "partial",
   "theorems": [
    "Ledsa.C61_shifts",
    "Ledsa.C61_iff",
    "Ledsa.C61_one_shift_partial",
    "Ledsa.C61_twice_false",
    "Ledsa.C61_led_id_false",
    "Ledsa.C61_image_name"
   ],
   "note": "Shifts after any history in closed form (C61_shifts) and exact condition for agreement (C61_iff). Refuted for two calls (C61_twice_false) and for single LEDs (C61_led_id_false)."
  },
  {
   "property": "C62",
   "status": "proved",
   "theorems": [
    "Ledsa.C62_closest",
    "Ledsa.C62_exact",
    "Ledsa.C62_tie"
   ],
   "note": "Exact arithmetic; ties go to the first time in the data (C62_tie)."
  },
  {
   "property": "C63",
   "status": "proved",
   "theorems": [
    "Ledsa.C63_mean_one",
    "Ledsa.C63_default",
    "Ledsa.C63_absolute",
    "Ledsa.C63_led_id",
    "Ledsa.C63_same_second_false"
   ],
   "note": "For LEDs whose reference values do not average to 0. Beside it: two images in the same second make the call fail (C63_same_second_false)."
  },
  {
   "property": "C64",
   "status": "partial",
   "theorems": [
    "Ledsa.C64_lossless_partial",
    "Ledsa.C64_iff",
    "Ledsa.C64_new_names",
    "Ledsa.C64_numbers",
    "Ledsa.C64_order",
    "Ledsa.C64_overwrite_false",
    "Ledsa.C64_jpg_false"
   ],
   "note": "For every list of shots with distinct files and unused new names, no content is lost and the new names, numbers and order are as documented; exact condition for losing nothing. Refuted in general: a new name that exists is overwritten, and a raw file ending in jpg gets the name of its image."
  },
  {
   "property": "C65",
   "status": "partial",
   "theorems": [
    "Ledsa.C65_only_after_y",
    "Ledsa.C65_message_partial",
    "Ledsa.C65_message_false",
    "Ledsa.C65_once_partial",
    "Ledsa.C65_once_false",
    "Ledsa.C65_no_raw_false"
   ],
   "note": "Nothing is renamed without the answer y; an unchanged directory whenever only the message that no files were renamed appears; a second y fails harmlessly under the conditions of C64. Refuted: y, another answer, n prints that no files were renamed; y, another answer, y can rename twice; an image without raw file ends the renaming with an exception."
  },
  {
   "property": "C66",
   "status": "partial",
   "theorems": [
    "Ledsa.C66_lines_partial",
    "Ledsa.C66_files",
    "Ledsa.C66_line_end_false",
    "Ledsa.C66_twice",
    "Ledsa.C66_last_wins_iff",
    "Ledsa.C66_last_wins_partial",
    "Ledsa.C66_last_wins_false"
   ],
   "note": "Exact effect on every line of every file, idempotence, exact condition for the last value to win. Refuted: values with a line end add lines; a line that mentions the name only in its value keeps the first value."
  },
  {
   "property": "C67",
   "status": "proved",
   "theorems": [
    "Ledsa.C67_channel",
    "Ledsa.C67_partition",
    "Ledsa.C67_other_channel"
   ],
   "note": "For every raw image with four filters: each pixel is in exactly one channel (both green filters in green) and zero in the others; channel numbers above two are an error."
  },
  {
   "property": "C68",
   "status": "partial",
   "theorems": [
    "Ledsa.C68_range",
    "Ledsa.C68_black",
    "Ledsa.C68_white_partial",
    "Ledsa.C68_monotone_partial",
    "Ledsa.C68_monotone_14bit",
    "Ledsa.C68_overflow",
    "Ledsa.C68_monotone_false",
    "Ledsa.C68_white_false",
    "Ledsa.C68_other_filter_false"
   ],
   "note": "Range and black proved without restriction on the data; monotone for data below 32768 whose scaled values fit, in particular all 14 bit sensors with black level up to half the white level. Refuted: 16 bit data are mapped to black; white maps to white minus one for a common 14 bit sensor through single precision rounding; pixels of other filters use the wrong black level."
  },
  {
   "property": "C69",
   "status": "partial",
   "theorems": [
    "Ledsa.C69_partial",
    "Ledsa.C69_false",
    "Ledsa.C69_png_false",
    "Ledsa.C69_plain_false",
    "Ledsa.C69_channels",
    "Ledsa.C69_plain_columns"
   ],
   "note": "Grey value of 8 bit pixels is at most the largest and at least the smallest channel value minus one. Refuted: weights sum to 0.9999, so every grey pixel but black gets darker by one; PNG images (values 0 to 1) become black; pictures without colour axis give one number per row."
  },
  {
   "property": "C70",
   "status": "partial",
   "theorems": [
    "Ledsa.C70_channels",
    "Ledsa.C70_steps",
    "Ledsa.C70_main",
    "Ledsa.C70_processed",
    "Ledsa.C70_step3_iff",
    "Ledsa.C70_false",
    "Ledsa.C70_prepared",
    "Ledsa.C70_tests"
   ],
   "note": "Channels, order of steps, all steps but 3 exactly as requested; exact condition for step 3 and exact characterisation of the flag combinations that follow the documented rule. Refuted: the fast variant or a restart for a single channel also runs the slow step 3."
  },
  {
   "property": "C71",
   "status": "partial",
   "theorems": [
    "Ledsa.C71_partial",
    "Ledsa.C71_created",
    "Ledsa.C71_false"
   ],
   "note": "Without configuration and without the option to create one every extraction request ends with FileNotFoundError after nothing but the requested renaming. Refuted: with more than three values for the option neither is a configuration created nor looked for, and step 1 starts."
  },
  {
   "property": "C72",
   "status": "partial",
   "theorems": [
    "Ledsa.C72_content",
    "Ledsa.C72_first_partial",
    "Ledsa.C72_false",
    "Ledsa.C72_iff",
    "Ledsa.C72_coordinates_false"
   ],
   "note": "In a new program without binary file the table holds exactly the rows of the result files with their own coordinates (C72_content, C72_first_partial); exact condition C72_iff. Refuted: after the first analysis no later extraction is ever used, for every history (C72_false); within one program other coordinates are not used either (C72_coordinates_false)."
  },
  {
   "property": "C73",
   "status": "proved",
   "theorems": [
    "Ledsa.C73_curvature",
    "Ledsa.C73_cost",
    "Ledsa.C73_unseen_layer_pushed_up"
   ],
   "note": "Additionally: a negative preference pushes layers up that no ray crosses (C73_unseen_layer_pushed_up)."
  },
  {
   "property": "C74",
   "status": "proved",
   "theorems": [
    "Ledsa.C74_between",
    "Ledsa.C74_half_turn",
    "Ledsa.C74_exchange_axes",
    "Ledsa.C74_half_value",
    "Ledsa.C74_penalty_nonneg",
    "Ledsa.C74_penalty_zero_iff",
    "Ledsa.C74_cost_zero_iff",
    "Ledsa.C74_exact_spot_has_positive_cost"
   ],
   "note": "over the reals; division by zero excluded"
  },
  {
   "property": "C75",
   "status": "partial",
   "theorems": [
    "Ledsa.C75_any_file_partial",
    "Ledsa.C75_partial",
    "Ledsa.C75_one",
    "Ledsa.C75_iff",
    "Ledsa.C75_false"
   ],
   "note": "For every count from two on and every configuration file in which num_cores only occurs as the name of a one line option, that many cores are used and all other options stay. Exact condition; refuted for one core, where the four cores of the demo configuration are used."
  },
  {
   "property": "C76",
   "status": "partial",
   "theorems": [
    "Ledsa.C76_default_partial",
    "Ledsa.C76_false",
    "Ledsa.C76_passed_on",
    "Ledsa.C76_fails_false"
   ],
   "note": "Only without the option are the channels the documented ones. Refuted: given channels are appended to 0 1 2, never equal to the given ones, and the correction fails for every 3 x 3 matrix."
  },
  {
   "property": "C77",
   "status": "partial",
   "theorems": [
    "Ledsa.C77_without_config",
    "Ledsa.C77_iff",
    "Ledsa.C77_absolute_partial",
    "Ledsa.C77_relative_false"
   ],
   "note": "Absolute paths proved; exact condition in C77_iff; relative paths going down refuted (C77_relative_false). Symbolic links are not modelled."
  },
  {
   "property": "C78",
   "status": "partial",
   "theorems": [
    "Ledsa.C78_two_partial",
    "Ledsa.C78_single_false",
    "Ledsa.C78_array_partial",
    "Ledsa.C78_array_false",
    "Ledsa.C78_search_area_partial",
    "Ledsa.C78_search_area_false"
   ],
   "note": "Loading, the LEDs of an array and the search areas of step 3 work with at least two LEDs. Refuted for exactly one LED in all three places."
  },
  {
   "property": "C79",
   "status": "partial",
   "theorems": [
    "Ledsa.C79_false",
    "Ledsa.C79_single_partial"
   ],
   "note": "Refuted for every non-empty list (C79_false): str(list) does not read back. A single number works (C79_single_partial)."
  },
  {
   "property": "C80",
   "status": "partial",
   "theorems": [
    "Ledsa.C80_at_time",
    "Ledsa.C80_at_array_false",
    "Ledsa.C80_at_array",
    "Ledsa.C80_layers"
   ],
   "note": "Holds at a fixed time; refuted for LED arrays, where the labels of the times are overwritten or the call fails (C80_at_array_false, C80_at_array)."
  },
  {
   "property": "C81",
   "status": "partial",
   "theorems": [
    "Ledsa.C81_iff_partial",
    "Ledsa.C81_false"
   ],
   "note": "Exactly if channels 0, 1 and 2 are available (C81_iff_partial); refuted for fewer channels (C81_false)."
  },
  {
   "property": "C82",
   "status": "partial",
   "theorems": [
    "Ledsa.C82_file_partial",
    "Ledsa.C82_channel_false",
    "Ledsa.C82_array_false"
   ],
   "note": "Holds if the path of the directory contains neither 'channel_' nor 'array_'; refuted otherwise (C82_channel_false, C82_array_false)."
  },
  {
   "property": "C83",
   "status": "partial",
   "theorems": [
    "Ledsa.C83_inside_partial",
    "Ledsa.C83_default_false",
    "Ledsa.C83_border_false"
   ],
   "note": "Holds for a radius given as a number and LEDs at least one radius away from the upper and left border. Refuted for the default radius (C83_default_false) and at the border (C83_border_false)."
  },
  {
   "property": "C84",
   "status": "proved",
   "theorems": [
    "Ledsa.C84_coordinates",
    "Ledsa.C84_unknown"
   ],
   "note": "For tables whose ids are the row numbers, which steps 1 and 2 establish (C09, C19)."
  },
  {
   "property": "C85",
   "status": "partial",
   "theorems": [
    "Ledsa.C85_distinct_partial",
    "Ledsa.C85_iff",
    "Ledsa.C85_first"
   ],
   "note": "Holds iff no two images have the same time in seconds (C85_iff); the first image of each second is kept (C85_first)."
  },
  {
   "property": "C86",
   "status": "partial",
   "theorems": [
    "Ledsa.C86_switch",
    "Ledsa.C86_iff",
    "Ledsa.C86_ref_false",
    "Ledsa.C86_numeric_false"
   ],
   "note": "Exact condition in C86_iff; refuted for listed reference images without a number (C86_ref_false) and for solver 'numeric' (C86_numeric_false)."
  },
  {
   "property": "C87",
   "status": "proved",
   "theorems": [
    "Ledsa.C87_read_back"
   ],
   "note": "On lines of cells; the number format (%.18e) is not modelled."
  },
  {
   "property": "C88",
   "status": "partial",
   "theorems": [
    "Ledsa.C88_iff",
    "Ledsa.C88_case_false"
   ],
   "note": "Exact list of spellings accepted. Refuted: lower case raw extensions and mixed case are errors (UnboundLocalError)."
  },
  {
   "property": "C89",
   "status": "partial",
   "theorems": [
    "Ledsa.C89_column_again",
    "Ledsa.C89_extinction_once_partial",
    "Ledsa.C89_false"
   ],
   "note": "Coefficients are calculated at most once. Refuted: creating the analysis configuration and correcting the colours are carried out twice in every call. Adding the corrected column a second time changes nothing (C89_column_again)."
  },
  {
   "property": "C90",
   "status": "partial",
   "theorems": [
    "Ledsa.C90_demo",
    "Ledsa.C90_separate",
    "Ledsa.C90_zero_cores_false"
   ],
   "note": "Sensible requests are carried out exactly; demo and other actions never mix. Refuted: 0 cores is silently replaced by 1."
  },
  {
   "property": "C91",
   "status": "partial",
   "theorems": [
    "Ledsa.C91_false"
   ],
   "note": "Refuted: one image without result file makes loading fail, whatever the others are. With all files present loading works (C78_two_partial)."
  },
  {
   "property": "C92",
   "status": "partial",
   "theorems": [
    "Ledsa.C92_false"
   ],
   "note": "Refuted for every directory with files in one of the two older formats: loading raises KeyError, because max_col_val is not there. Nothing positive can be proved."
  },
  {
   "property": "C93",
   "status": "partial",
   "theorems": [
    "Ledsa.C93_existing_partial",
    "Ledsa.C93_false"
   ],
   "note": "An existing binary file of another directory is read and nothing is changed. Refuted without binary file: reading always fails, and the rows of the working directory are appended to its own binary file."
  },
  {
   "property": "C94",
   "status": "partial",
   "theorems": [
    "Ledsa.C94_false",
    "Ledsa.C94_first_partial"
   ],
   "note": "The first creation gives the table itself. Refuted: the second one doubles all rows."
  },
  {
   "property": "C95",
   "status": "proved",
   "theorems": [
    "Ledsa.C95_distances",
    "Ledsa.C95_input",
    "Ledsa.C95_recovered"
   ],
   "note": "Specification: line integral of the extinction coefficient along the sight line. Optical depths up to 23 because the code clips relative intensities at 1e-10."
  },
  {
   "property": "C96",
   "status": "partial",
   "theorems": [
    "Ledsa.C96_false"
   ],
   "note": "False: one LED whose distances are missing makes the analysis of its whole array fail with a ValueError (C96_false, every such case). With all LEDs inside, every LED is analysed (C95_input)."
  },
  {
   "property": "C97",
   "status": "proved",
   "theorems": [
    "Ledsa.C97_column_stored"
   ],
   "note": "For tables whose rows have the length of the header."
  },
  {
   "property": "C98",
   "status": "partial",
   "theorems": [
    "Ledsa.C98_file_partial",
    "Ledsa.C98_object_false"
   ],
   "note": "Proved for the file (C98_file_partial). False for the object: it stores the names with three blanks in front, so that ExperimentData(load_config_file=False) always raises KeyError (C98_object_false)."
  },
  {
   "property": "C99",
   "status": "partial",
   "theorems": [
    "Ledsa.C99_started_iff_partial",
    "Ledsa.C99_layers_false",
    "Ledsa.C99_channels_false",
    "Ledsa.C99_kept",
    "Ledsa.C99_second_run",
    "Ledsa.C99_again_false"
   ],
   "note": "Exact condition and result of a started analysis (C99_started_iff_partial), values kept and saved in every outcome (C99_kept), second run (C99_second_run). False for the number of layers (ValueError before the question), for the channels (never asked), and an answer 'None' for the LED arrays is asked again without using the answer. float() is a parameter."
  },
  {
   "property": "C100",
   "status": "partial",
   "theorems": [
    "Ledsa.C100_false"
   ],
   "note": "False: the option has no influence on an analysis from the command line (C100_false, all configurations and values)."
  },
  {
   "property": "C101",
   "status": "proved",
   "theorems": [
    "Ledsa.C101_values"
   ],
   "note": "Composition of the model of step 3, the text of the result files, np.loadtxt and the loading of the table. Hypotheses: LEDs not closer than the radius to the upper or left border (C26), at least two LEDs (C78), the coordinate file, if any, contains all LEDs."
  },
  {
   "property": "C102",
   "status": "partial",
   "theorems": [
    "Ledsa.C102_values_partial",
    "Ledsa.C102_false",
    "Ledsa.C102_iff",
    "Ledsa.C102_table_false",
    "Ledsa.C102_missing"
   ],
   "note": "Refuted (C102_false): maximum and led_center_x are written without separator, so a negative centre makes the file unreadable, and one such file prevents the whole table (C102_table_false). C102_iff is the exact condition; C102_values_partial gives the numbers read otherwise."
  },
  {
   "property": "C103",
   "status": "proved",
   "theorems": [
    "Ledsa.C103_header"
   ],
   "note": "For image lists with ids 1..n, as the program writes them (C05)."
  },
  {
   "property": "C104",
   "status": "partial",
   "theorems": [
    "Ledsa.C104_all_partial",
    "Ledsa.C104_false"
   ],
   "note": "Proved for file names without blanks (C104_all_partial). Refuted for every list with a blank in one name (C104_false): the file is read with blank as separator."
  },
  {
   "property": "C105",
   "status": "partial",
   "theorems": [
    "Ledsa.C105_loaded_partial",
    "Ledsa.C105_merged_partial",
    "Ledsa.C105_fewer_false",
    "Ledsa.C105_more_false",
    "Ledsa.C105_merged_false"
   ],
   "note": "Proved if num_arrays is the number of arrays found, or every merge group gives an array. Refuted otherwise: arrays are silently left out, step 3 stops, or stale files are used (C105_fewer_false, C105_more_false, C105_merged_false)."
  },
  {
   "property": "C106",
   "status": "proved",
   "theorems": [
    "Ledsa.C106_areas",
    "Ledsa.C106_position"
   ],
   "note": "As rows of the table; the use of a table with a single row is C78."
  },
  {
   "property": "C107",
   "status": "proved",
   "theorems": [
    "Ledsa.C107_rounding"
   ],
   "note": "Over the reals; the bound on the single values is the one proved for the text format (C101, C31)."
  },
  {
   "property": "C108",
   "status": "proved",
   "theorems": [
    "Ledsa.C108_measured",
    "Ledsa.C108_succeeds",
    "Ledsa.C108_stage",
    "Ledsa.C108_arrays"
   ],
   "note": "For every history of step 1, step 2 and combined runs from an empty directory, with the stage of a history specified separately (fresh, detected, matched, spoilt). C108_stage ties the stage to the last detection and a matching after it; C108_succeeds shows that the run ends without an exception, without fitting."
  },
  {
   "property": "C109",
   "status": "partial",
   "theorems": [
    "Ledsa.C109_together_partial",
    "Ledsa.C109_exception_partial",
    "Ledsa.C109_false"
   ],
   "note": "Holds for any number of LEDs but one (C109_together_partial), with the same exception from two LEDs on. Refuted for a single LED (C109_false): step 2 in a new program reads the one row of the file as a vector and always stops."
  },
  {
   "property": "C110",
   "status": "partial",
   "theorems": [
    "Ledsa.C110_stops_partial",
    "Ledsa.C110_mixed_false",
    "Ledsa.C110_false"
   ],
   "note": "Step 3 stops if LEDs were never matched or nothing was found (C110_stops_partial). Refuted if step 1 is repeated after step 2: the old array files are used with the new numbering by brightness, without a message (C110_mixed_false for all histories, C110_false with a witness in which the values of two LEDs are exchanged)."
  },
  {
   "property": "C111",
   "status": "proved",
   "theorems": [
    "Ledsa.C111_depths",
    "Ledsa.C111_coefficients",
    "Ledsa.C111_exists"
   ],
   "note": "C111_depths: sum of squared errors of the optical depths (and of the bending) for any smoke profile, from the projection property of non-negative least squares. C111_coefficients: one constant for all measurements, by compactness. C111_exists: such an analysis has a result. At least three layers, optical depths at most 23 (the program clips beyond). For which arrays the condition on the rays holds: C145."
  },
  {
   "property": "C112",
   "status": "proved",
   "theorems": [
    "Ledsa.C112_photos_to_coefficients"
   ],
   "note": "Composition of step 3, text files, table (C101) and solver (C111), for photos without fits, every LED analysed (skip 0), at least two LEDs. Arithmetic of the solver is exact."
  },
  {
   "property": "C113",
   "status": "proved",
   "theorems": [
    "Ledsa.C113_documented",
    "Ledsa.C113_main",
    "Ledsa.C113_spelling",
    "Ledsa.C113_order"
   ],
   "note": "argparse of the standard library is modelled for the declared options (exact names, =, prefixes, combined letters, words after an option); values starting with a dash are outside the statement."
  },
  {
   "property": "C114",
   "status": "partial",
   "theorems": [
    "Ledsa.C114_partial",
    "Ledsa.C114_false"
   ],
   "note": "Proved for all words but -rg, which is refused (C114_false) because it also begins -rgb."
  },
  {
   "property": "C115",
   "status": "partial",
   "theorems": [
    "Ledsa.C115_partial",
    "Ledsa.C115_stray",
    "Ledsa.C115_help",
    "Ledsa.C115_empty",
    "Ledsa.C115_false"
   ],
   "note": "Proved for words without a space and for stray values; a misspelled option with a space after -conf becomes the image directory (C115_false)."
  },
  {
   "property": "C116",
   "status": "proved",
   "theorems": [
    "Ledsa.C116_extraction",
    "Ledsa.C116_analysis",
    "Ledsa.C116_steps"
   ],
   "note": "C116_extraction (configuration file, edit, reading back, no question, tables of seven rows), C116_analysis (no question, all pairs), C116_steps (the command lines). The number of cores is that of the command line from two on; for one core see C75."
  },
  {
   "property": "C117",
   "status": "proved",
   "theorems": [
    "Ledsa.C117_consent",
    "Ledsa.C117_nothing",
    "Ledsa.C117_end"
   ],
   "note": "C117_consent, C117_nothing, C117_end for every sequence of answers."
  },
  {
   "property": "C118",
   "status": "partial",
   "theorems": [
    "Ledsa.C118_partial",
    "Ledsa.C118_false",
    "Ledsa.C118_folder_false"
   ],
   "note": "C118_partial: archives that begin with a folder and contain otherwise only files with different names. Refuted without this: the first member is never unpacked (C118_false), a second folder ends the setup with an exception (C118_folder_false)."
  },
  {
   "property": "C119",
   "status": "partial",
   "theorems": [
    "Ledsa.C119_error_partial",
    "Ledsa.C119_exact_partial"
   ],
   "note": "C119_error_partial and C119_exact_partial: true for every geometry whose rays determine linear profiles if the preference is weak enough (a threshold that depends on the rays and the curvature weight, not on the smoke). Missing: the default weights, where C120_false refutes the claim (its rays determine linear profiles, the profile is 0). bestFit_exists: there always is something to look for. That TNC finds the minimum is not claimed. In the whole program, with explicit constants and for any solver that stops near the least cost: C146."
  },
  {
   "property": "C120",
   "status": "partial",
   "theorems": [
    "Ledsa.C120_unseen_partial",
    "Ledsa.C120_default_partial",
    "Ledsa.C120_clear_partial",
    "Ledsa.C120_false"
   ],
   "note": "C120_clear_partial: zero and nothing else if every layer is crossed by enough ray length, with an explicit bound (example with the default weights). C120_false: with the default weights a layer crossed by no ray gets 10, the upper bound, in clear air. C120_unseen_partial and C120_default_partial: exactly how the weights decide this, for all intensities."
  },
  {
   "property": "C121",
   "status": "partial",
   "theorems": [
    "Ledsa.C121_kept",
    "Ledsa.C121_request",
    "Ledsa.C121_partial",
    "Ledsa.C121_false",
    "Ledsa.C121_second_false",
    "Ledsa.C121_raw",
    "Ledsa.C121_other_arrays"
   ],
   "note": "False (C121_false, C121_second_false): duplicates are judged by height and second of the experiment only, so of two arrays with the same heights the first loses them, and so does the first of two images in one second. Proved: exactly what is kept (C121_kept), what a request returns (C121_request), that everything is kept iff no two rows share second and height with differing array or image (C121_partial), and that without the option nothing is removed (C121_raw)."
  },
  {
   "property": "C122",
   "status": "partial",
   "theorems": [
    "Ledsa.C122_given_start",
    "Ledsa.C122_asked",
    "Ledsa.C122_entry",
    "Ledsa.C122_derived_partial",
    "Ledsa.C122_first_image_iff",
    "Ledsa.C122_template_false",
    "Ledsa.C122_fraction_false",
    "Ledsa.C122_date_false"
   ],
   "note": "With a given start time the list is complete and right (C122_given_start). Without one it is so if template, directory and id have the plain form (C122_derived_partial), and exactly then the start is read from the first image (C122_first_image_iff). False otherwise: a template with width always fails (C122_template_false), a fractional offset always fails (C122_fraction_false), and the date is never asked for (C122_date_false). Capture times are whole seconds; str of the seconds is exact for numbers below 10^16."
  },
  {
   "property": "C123",
   "status": "partial",
   "theorems": [
    "Ledsa.C123_default_false",
    "Ledsa.C123_new_config_false",
    "Ledsa.C123_load_partial",
    "Ledsa.C123_again",
    "Ledsa.C123_documented_defaults"
   ],
   "note": "False for the default of channels (C123_default_false) and for load_config_file=False, which replaces config.ini and then fails without a question (C123_new_config_false). Proved for a sequence of channels and an existing configuration (C123_load_partial, C123_again). The image lists, the last step of the constructor, are the subject of C122."
  },
  {
   "property": "C124",
   "status": "proved",
   "theorems": [
    "Ledsa.C124_double",
    "Ledsa.Machine.C124_raw",
    "Ledsa.Machine.C124_distances",
    "Ledsa.Machine.C124_accepted",
    "Ledsa.Machine.C124_layers"
   ],
   "note": "Proved for every arithmetic with relative error u of the basic operations and w of the library functions (u, w ≤ 1/1000) and for double precision as an instance (53 binary digits, library functions rounded correctly). Overflow and numbers below the normal range are not modelled. The check accepts all LEDs as long as (2nu + 28u + 9w) times the distance is at most 8e-7 m; in double precision a million layers and a kilometre."
  },
  {
   "property": "C125",
   "status": "proved",
   "theorems": [
    "Ledsa.Machine.C125_depths",
    "Ledsa.Machine.C125_coefficients",
    "Ledsa.Machine.C125_exists",
    "Ledsa.C125_double"
   ],
   "note": "Proved for at least three layers, true optical depths up to 23, and a minimiser whose result is non-negative with a residual that is minimal up to ε; u and w as in C124. Means are compensated sums as in pandas' groupby. Overflow and numbers below the normal range are not modelled. That nnls itself reaches ε is an assumption."
  },
  {
   "property": "C126",
   "status": "partial",
   "theorems": [
    "Ledsa.C126_positions_partial",
    "Ledsa.C126_edges_partial",
    "Ledsa.C126_analysis",
    "Ledsa.C126_left_out_false",
    "Ledsa.C126_missing_row"
   ],
   "note": "C126_positions_partial: for every history of invocations that ends with matched LEDs, every row of the file (id, pixel, position on the measured line up to half a micrometre, height). C126_edges_partial: the edge LEDs named by the user get the measured points. C126_analysis: the analysis reads the row of the LED number. C126_missing_row: too few rows of coordinates are an IndexError. Missing: configurations with at most three LEDs (C37), arrays whose line points to the corner of the image (C34); refuted for num_arrays smaller than the number of arrays (C126_left_out_false: (-1,-1,-1))."
  },
  {
   "property": "C127",
   "status": "partial",
   "theorems": [
    "Ledsa.C127_others_partial",
    "Ledsa.C127_edge_false",
    "Ledsa.C127_false"
   ],
   "note": "C127_others_partial: any two runs on the same detection with the same edges and different ignored LEDs give every common LED of an array the same pixel, position and height, if the edge LEDs of the array are not ignored. False in general: C127_edge_false (the point measured for an ignored edge LED is given to another LED), C127_false (concrete photo with five LEDs)."
  },
  {
   "property": "C128",
   "status": "partial",
   "theorems": [
    "Ledsa.C128_fit_contains",
    "Ledsa.C128_fit_is_wall",
    "Ledsa.C128_parallel_x_partial",
    "Ledsa.C128_strip",
    "Ledsa.C128_oblique_false",
    "Ledsa.C128_parallel_y",
    "Ledsa.C128_parallel_y_false"
   ],
   "note": "C128_fit_contains, C128_fit_is_wall: the fit finds the wall if it is not parallel to the y axis. C128_parallel_x_partial: right for walls parallel to the x axis with all LEDs on one side of x = 0; C128_strip: right for one vertical strip, even at a wall parallel to the y axis. C128_oblique_false: all differences too large by one factor for oblique walls. C128_parallel_y: for walls parallel to the y axis the factor is the slope of the plane, which is arbitrary (fit_parallel_y_iff); C128_parallel_y_false: a plane of least squares that gives all LEDs the same width. That the optimiser finds a plane of least squares is an assumption."
  },
  {
   "property": "C129",
   "status": "partial",
   "theorems": [
    "Ledsa.C129_depth",
    "Ledsa.C129_layers_partial",
    "Ledsa.C129_total",
    "Ledsa.C129_border_false"
   ],
   "note": "C129_layers_partial: |change of the distance in a layer| <= displacement * (1 + length / delta) if the camera is delta away from the layer borders; C129_depth: the same for the optical depth through any smoke; C129_total: the total length changes by at most the displacement, always. Refuted for a camera at the height of a border (C129_border_false: LEDs arbitrarily near to each other, the whole line of sight in different layers)."
  },
  {
   "property": "C130",
   "status": "proved",
   "theorems": [
    "Ledsa.C130_edges_to_coefficients"
   ],
   "note": "C130_edges_to_coefficients: for every history that ends with matched LEDs, the coordinates file and the index file of an array, and every result of the linear analysis with them. Composition of C126, C129 and C111. The deviation of the real positions from the lines is a parameter; the camera is not at a layer border."
  },
  {
   "property": "C131",
   "status": "proved",
   "theorems": [
    "Ledsa.C131_measured_exact",
    "Ledsa.C131_measured",
    "Ledsa.C131_photos_to_smoke"
   ],
   "note": "C131_photos_to_smoke: the whole tool chain as one theorem, from any history of steps 1 and 2 that ends with matched LEDs to the coefficients of any LED array (merged or not). Measured values are exact sums over the search area; the analysis is over the real numbers (C125 for its rounding); the camera is not at a layer border; no fitting in step 3."
  },
  {
   "property": "C132",
   "status": "partial",
   "theorems": [
    "Ledsa.C132_stuck",
    "Ledsa.C132_darker_lost",
    "Ledsa.C132_border_false",
    "Ledsa.C132_border_copies",
    "Ledsa.C132_one_by_one_partial",
    "Ledsa.C132_distances",
    "Ledsa.C132_radius_false"
   ],
   "note": "C132_one_by_one_partial: exactly once each, at a brightest pixel, in number min(limit, spots); C132_distances: the distances of the statement are sufficient. Refuted for spots that reach exactly the radius (C132_radius_false: reported twice). At the upper and left border the exact behaviour: once an LED there is reported all later reports are the same pixel up to the limit (C132_stuck), all darker LEDs are lost (C132_darker_lost), the number of reports is the limit however few LEDs there are (C132_border_false, C132_border_copies)."
  },
  {
   "property": "C133",
   "status": "proved",
   "theorems": [
    "Ledsa.C133_next",
    "Ledsa.C133_followed",
    "Ledsa.C133_nearly_straight",
    "Ledsa.C133_best_of_all_false",
    "Ledsa.C133_rounded"
   ],
   "note": "C133_next: for any distances, arithmetic and number of considered neighbours, arrays whose next LED is always the best one; C133_followed: for any distance with the triangle inequality and any weight below one, arrays whose next LED is nearer than all others by more than the weighted detour; C133_nearly_straight: the tolerance of an eighteenth of the gap for the distances, weight and number of neighbours of the program (real numbers); C133_rounded: the same in floating point. Refuted if only the weighted distance is required to be least (C133_best_of_all_false: five nearer LEDs behind hide the next one)."
  },
  {
   "property": "C134",
   "status": "partial",
   "theorems": [
    "Ledsa.C134_ties",
    "Ledsa.C134_numbered",
    "Ledsa.C134_exact",
    "Ledsa.C134_rounded",
    "Ledsa.C134_matched",
    "Ledsa.C134_bench_partial",
    "Ledsa.C134_measured",
    "Ledsa.C134_ties_bench"
   ],
   "note": "C134_numbered, C134_exact, C134_rounded (floating point, photos whose size times 20000 roundings is below the smallest gap), C134_matched, C134_bench_partial, C134_measured. Composition of C132, C133 and C108 for the distances of the program. Spots with several equally bright pixels: C134_ties, C134_ties_bench (each LED is found at one of its brightest pixels, and everything that follows, up to C142 and C151, holds with these). C134_measured is without ignored LEDs and merge groups (C134_bench_partial and C108_measured cover these). Refuted for LEDs near the upper or left border (C132_stuck, C132_darker_lost, C132_border_false)."
  },
  {
   "property": "C135",
   "status": "proved",
   "theorems": [
    "Ledsa.C135_measured",
    "Ledsa.C135_bench_to_smoke"
   ],
   "note": "C135_bench_to_smoke: composition of C134 and C131; hypotheses only about the photos, the bench, the camera and the user's input. Without ignored LEDs and merge groups. Example: column_bench_run, a photo of five LEDs with distances in double precision. The analysis itself is over the real numbers (its rounding: C124, C125). Error of the coefficients themselves: C145_bench."
  },
  {
   "property": "C136",
   "status": "partial",
   "theorems": [
    "Ledsa.C136_stamp",
    "Ledsa.C136_stamp_day",
    "Ledsa.C136_second",
    "Ledsa.C136_fraction",
    "Ledsa.C136_complete",
    "Ledsa.C136_order",
    "Ledsa.C136_numbers",
    "Ledsa.C136_renamed_partial",
    "Ledsa.C136_same_second_false",
    "Ledsa.C136_ties_false",
    "Ledsa.C136_no_date_false",
    "Ledsa.C136_shared_raw_false",
    "Ledsa.C136_same_type_false"
   ],
   "note": "Refuted in general: within one second, an image without a usable fraction entry sorts before one with a fraction (C136_same_second_false); images with equal dates may come in any order (C136_ties_false); an image without date ends the tool before anything is renamed (C136_no_date_false); two images with one raw file (C136_shared_raw_false) or an image whose type is also the raw type (C136_same_type_false) end the tool halfway. Proved otherwise: every wanted image is taken once, the order is right for different seconds whatever the fractions are, and to k digits if all fractions have k digits; numbers count the images taken before; the renaming keeps contents and pairs. Not modelled: glob patterns in the types, the sort algorithm (any sorted arrangement is allowed)."
  },
  {
   "property": "C137",
   "status": "proved",
   "theorems": [
    "Ledsa.Machine.C137_array",
    "Ledsa.Machine.C137_exists",
    "Ledsa.C137_bench_to_smoke"
   ],
   "note": "C137_bench_to_smoke: composition of C135_measured (files), C124/C125 (roundings) and C129 (positions). Hypotheses are about the photos, the bench, the camera, the user's input and the machine (limits of the experiment that is analysed are machine numbers, 100 u N ≤ 1 for N photos). The optical depths of the found coefficients are taken through the layers of the analysis, whose borders are rounded. Example: column_rounded_run, five LEDs, double precision. That nnls reaches ε is an assumption; the fit of the plane and steps 1 and 3 use exact pixel values; overflow is not modelled."
  },
  {
   "property": "C138",
   "status": "partial",
   "theorems": [
    "Ledsa.C138_array",
    "Ledsa.C138_layer",
    "Ledsa.C138_height",
    "Ledsa.C138_time",
    "Ledsa.C138_every_photo_partial",
    "Ledsa.C138_unknown",
    "Ledsa.C138_two_properties_false",
    "Ledsa.C138_union_partial",
    "Ledsa.C138_union_false",
    "Ledsa.C138_no_files",
    "Ledsa.C138_shift"
   ],
   "note": "The four requests are proved to show the saved coefficients (C138_array, C138_layer, C138_height, C138_time for any smoothing; C138_every_photo_partial for the single entries without smoothing), for any order of the files; unknown channels, arrays, layers and times give KeyError (C138_unknown). For files with different photos every coefficient is at its time and NaN elsewhere (C138_union_partial); no files give ValueError (C138_no_files); shifts of the time axis (C138_shift). Restricted: every photo only if no two photos share a second (otherwise the first one is shown, FirstPhotos). Refuted: with the files of two reference properties for one array the request at a time raises ValueError (C138_two_properties_false); files with different photos and two photos within one second make the whole table fail (C138_union_false)."
  },
  {
   "property": "C139",
   "status": "partial",
   "theorems": [
    "Ledsa.C139_near",
    "Ledsa.C139_labels",
    "Ledsa.C139_center_partial",
    "Ledsa.C139_bottom_iff",
    "Ledsa.C139_bottom_false",
    "Ledsa.C139_top_false",
    "Ledsa.C139_distinct",
    "Ledsa.C139_same_false"
   ],
   "note": "Labels in order and correct to 1/200 (borders) or 1/100 (centres) (C139_near, C139_labels); all labels strictly increasing if layers are thicker than 15 mm (C139_distinct); requests at centres return the layer if layers are thicker than 20 mm (C139_center_partial). Refuted: thin layers share a centre (C139_same_false), the lower border can be rounded into the layer below (C139_bottom_false, exactly when in C139_bottom_iff), the upper border belongs to the next layer (C139_top_false). Rational arithmetic; np.round is half to even on exact values."
  },
  {
   "property": "C140",
   "status": "partial",
   "theorems": [
    "Ledsa.C140_kept",
    "Ledsa.C140_kept_coordinates",
    "Ledsa.C140_ends_iff",
    "Ledsa.C140_coordinates_iff",
    "Ledsa.C140_wrong_entry_false",
    "Ledsa.C140_wrong_coordinates_false",
    "Ledsa.C140_no_number_false",
    "Ledsa.C140_percent_false",
    "Ledsa.C140_step2_pairs",
    "Ledsa.C140_positions"
   ],
   "note": "Proved: one question per array (C140_ends_iff, C140_coordinates_iff); lines are used as entered iff each has exactly two (six) numbers; after the first dialogue no run asks again and all use the same rows (C140_kept, C140_kept_coordinates), also if num_arrays is edited; the text gives step 2 the pairs and the positions the end points of the other models (C140_step2_pairs, C140_positions). Refuted: an entry that is no number is stored, no error is raised and no later run asks again, all go on without any array (C140_wrong_entry_false); for coordinates every later run raises the same exception without asking (C140_wrong_coordinates_false); without a number of arrays nothing is asked (C140_no_number_false); a percent sign loses all entries (C140_percent_false)."
  },
  {
   "property": "C141",
   "status": "partial",
   "theorems": [
    "Ledsa.C141_ends_iff",
    "Ledsa.C141_failure",
    "Ledsa.C141_following_false",
    "Ledsa.C141_saved",
    "Ledsa.C141_shown_partial",
    "Ledsa.C141_latest_false"
   ],
   "note": "Proved: the command ends without exception iff every pair succeeds (C141_ends_iff); then every pair has its file with its times and coefficients and other files are unchanged (C141_saved); started without older results every request shows exactly the calculated coefficients, for any order of the files, if no two photos share a second (C141_shown_partial, composed with C138); up to the first failing pair everything is saved (C141_failure). Refuted: pairs after a failing one are never analysed however often the command is repeated (C141_following_false); results of an earlier analysis stay in the table beside the new ones (C141_latest_false)."
  },
  {
   "property": "C142",
   "status": "partial",
   "theorems": [
    "Ledsa.C142_end_to_end_partial"
   ],
   "note": "C142_end_to_end_partial composes C134, C135, C137, C138 and C141 into one statement with hypotheses only about bench, photos, configuration and machine; non-vacuous by column_shown (five LEDs, two photos, two channels, double precision, error at most 1/2). Ignored LEDs and merge groups: C151_end_to_end_partial; the nonlinear solver: C152_end_to_end; the text of the saved coefficients: C155. Missing: image averaging and photos within one second (false, see C85)."
  },
  {
   "property": "C143",
   "status": "partial",
   "theorems": [
    "Ledsa.C143_corrected_partial",
    "Ledsa.C143_first_read",
    "Ledsa.C143_analysis_partial",
    "Ledsa.C143_overflow_false",
    "Ledsa.C143_twice",
    "Ledsa.C143_failed_unchanged",
    "Ledsa.C143_partly_false",
    "Ledsa.C143_together_false",
    "Ledsa.C143_no_matrix",
    "Ledsa.C143_missing_value",
    "Ledsa.C143_same_rows"
   ],
   "note": "C143_corrected_partial: channels 0..n-1, invertible matrix: exact corrected value for each image and LED, everything else unchanged. C143_analysis_partial: values mixed by the matrix that are 16 bit integers are restored, and every result of the analysis is that of the values before mixing. C143_first_read: binary files made on the way. C143_same_rows: success implies the same images and LEDs in all channels (as sets). C143_twice, C143_failed_unchanged (recorded channels below the size of the matrix), C143_no_matrix, C143_missing_value. Refuted: sums beyond 16 bits (C143_overflow_false), other channels are half written with the value of the wrong channel (C143_partly_false), correction and analysis in one command use the uncorrected values (C143_together_false). The matrix product is exact."
  },
  {
   "property": "C144",
   "status": "partial",
   "theorems": [
    "Ledsa.C144_leds_partial",
    "Ledsa.C144_only_its_files",
    "Ledsa.C144_default_false",
    "Ledsa.C144_missing_false",
    "Ledsa.C144_missing_iff",
    "Ledsa.C144_config_false",
    "Ledsa.C144_loaded"
   ],
   "note": "C144_leds_partial: at least two LEDs; exact ids and positions, file chosen by the option; C144_only_its_files. Refuted: the default of the argument reads the file of merged arrays (C144_default_false); missing files give an object without LEDs and then a TypeError (C144_missing_false, exact condition C144_missing_iff); a missing config.ini gives a KeyError after all questions (C144_config_false). Arrays with one LED fail (C78)."
  },
  {
   "property": "C145",
   "status": "proved",
   "theorems": [
    "Ledsa.C145_determined_iff",
    "Ledsa.C145_across_border",
    "Ledsa.C145_conditioned_iff",
    "Ledsa.C145_unique",
    "Ledsa.C145_history",
    "Ledsa.C145_bench"
   ],
   "note": "C145_determined_iff: exact geometric condition; C145_across_border: a condition visible on the bench; C145_conditioned_iff: a constant exists exactly under it; C145_unique; C145_history and C145_bench: error of the coefficients of the whole program with the constant of the array (positions known well enough for it: Precise). At least three layers, positive regularisation. Example: column_coefficients, constant 1/3, all hypotheses met."
  },
  {
   "property": "C146",
   "status": "proved",
   "theorems": [
    "Ledsa.C146_conditioned_iff",
    "Ledsa.C146_array",
    "Ledsa.C146_history",
    "Ledsa.C146_bench",
    "Ledsa.C146_mismatch"
   ],
   "note": "C146_array, C146_history, C146_bench: explicit bound with the constant of the array (CurveConditioned; exists exactly for arrays that determine linear profiles, C146_conditioned_iff). The iteration of scipy is not modelled: the statement is about coefficients whose cost is at most tol above the least within the bounds; that an iteration ends there is not claimed. Faint requires the errors and weights to be small compared to the light that arrives; the default preference -6e-3 is too strong for it on five LEDs. Examples: column_nonlinear (whole program), and the column in smoke."
  },
  {
   "property": "C147",
   "status": "partial",
   "theorems": [
    "Ledsa.C147_ray",
    "Ledsa.C147_array",
    "Ledsa.C147_coordinates",
    "Ledsa.C147_measured",
    "Ledsa.C147_ray_unit",
    "Ledsa.C147_solver_unit",
    "Ledsa.C147_unit",
    "Ledsa.C147_unit_false",
    "Ledsa.C147_cost_unit",
    "Ledsa.C147_nonlinear_larger",
    "Ledsa.C147_nonlinear_smaller",
    "Ledsa.C147_nonlinear_unit",
    "Ledsa.C147_nonlinear_false"
   ],
   "note": "Proved: independence of origin, direction and mirror image of the coordinates for the lengths in the layers, the coordinates command and the results of both solvers (C147_ray, C147_coordinates, C147_array, C147_measured); the conversion of the unit of length for the linear solver with camera and LEDs in the domain (C147_ray_unit, C147_solver_unit, C147_unit) and for the nonlinear solver as long as the converted coefficients are within its bounds (C147_cost_unit, C147_nonlinear_larger, C147_nonlinear_smaller, C147_nonlinear_unit). Refuted: the unit of length without converting the weight (C147_unit_false), and for the nonlinear solver even with converted weights, because its bounds 0 and 10 are fixed numbers (C147_nonlinear_false). Real arithmetic; the rounding to six decimals in the coordinate file is bounded in C130."
  },
  {
   "property": "C148",
   "status": "proved",
   "theorems": [
    "Ledsa.C148_local",
    "Ledsa.C148_prefix",
    "Ledsa.C148_errors",
    "Ledsa.C148_photos",
    "Ledsa.C148_reference_needed"
   ],
   "note": "C148_local and C148_prefix for result files, C148_errors for failures of the linear analysis, C148_photos from the photos for any history of steps 1 and 2, merged arrays included. Results of the solvers are relations (any minimiser, any point near the least cost), so the statement is that possible results carry over. C148_reference_needed: without the condition on the reference images it is false."
  },
  {
   "property": "C149",
   "status": "partial",
   "theorems": [
    "Ledsa.C149_order",
    "Ledsa.C149_tone",
    "Ledsa.C149_exposure",
    "Ledsa.C149_overexposed_false",
    "Ledsa.C149_files"
   ],
   "note": "Refuted for values cut off at a limit (C149_overexposed_false). Proved whenever different values stay different and ordered (C149_tone, C149_exposure), in terms of the order of bright pixels (C149_order), and for all files after any history (C149_files). Assumes that cv2.minMaxLoc reports the first of the brightest pixels, row by row."
  },
  {
   "property": "C150",
   "status": "partial",
   "theorems": [
    "Ledsa.C150_moved",
    "Ledsa.C150_detect",
    "Ledsa.C150_border_false",
    "Ledsa.C150_arrays",
    "Ledsa.C150_values"
   ],
   "note": "Refuted near the upper and left border (C150_border_false). Proved with the distance from the border: detection (C150_moved, C150_detect for the percentile threshold), matching (C150_arrays), and the values of step 3 after any history (C150_values). Assumes that cv2.minMaxLoc reports the first of the brightest pixels."
  },
  {
   "property": "C151",
   "status": "partial",
   "theorems": [
    "Ledsa.C151_measured",
    "Ledsa.C151_bench_to_smoke",
    "Ledsa.C151_rounded",
    "Ledsa.C151_nonlinear",
    "Ledsa.C151_end_to_end_partial"
   ],
   "note": "C151_measured (numbers, positions, values), C151_bench_to_smoke (linear solver), C151_rounded (floating point), C151_nonlinear (nonlinear solver), C151_end_to_end_partial (all channels, files and post-processing). The rounding of the analysis and everything after the coefficients for the nonlinear solver: C152_bench and C152_end_to_end, which include ignored LEDs and groups. Refuted for groups that are not ascending (C41_merge_order_false), hence the suffix."
  },
  {
   "property": "C152",
   "status": "proved",
   "theorems": [
    "Ledsa.Machine.C152_array",
    "Ledsa.Machine.C152_exists",
    "Ledsa.C152_bench",
    "Ledsa.C152_end_to_end"
   ],
   "note": "C152_array (one array), C152_exists (there is a result), C152_bench (from the bench), C152_end_to_end (to the numbers shown, merged and ignored LEDs included). Distances, reference means and relative intensities are rounded as in C124/C125; the roundings inside the cost function and scipy's iteration are covered by the tolerance above the least cost. exp_within: a relative error of an optical depth changes the light by at most exp(error)-1, independent of the depth. Hypotheses are about bench, photos, camera, configuration and machine; image averaging and photos within one second (false, C85) are outside. Example: column_rounded_nonlinear, five LEDs, double precision."
  },
  {
   "property": "C153",
   "status": "proved",
   "theorems": [
    "Ledsa.C153_fails_iff",
    "Ledsa.C153_rows_iff",
    "Ledsa.C153_column",
    "Ledsa.C153_plain",
    "Ledsa.C153_fields"
   ],
   "note": "C153_fails_iff, C153_rows_iff, C153_column, C153_plain, C153_fields. Model of np.loadtxt and np.atleast_1d/2d on rows of numbers; text parsing is C101/C05. Concrete cases in the example."
  },
  {
   "property": "C154",
   "status": "partial",
   "theorems": [
    "Ledsa.C154_denser_partial",
    "Ledsa.C154_dense_false",
    "Ledsa.C154_series",
    "Ledsa.C154_own_ray",
    "Ledsa.C154_layer_false",
    "Ledsa.C154_two_sources",
    "Ledsa.C154_sum",
    "Ledsa.C154_sum_false",
    "Ledsa.C154_nonlinear_false"
   ],
   "note": "C154_denser_partial: exactly proportional for any measured values (solver), C154_series: the same for the analysis of an array from its result files, as long as no light is below the 1e-10 to which the program raises intensities. C154_own_ray: an LED that alone gets darker does not get a smaller calculated light loss, and it grows by no more than the measured one. C154_two_sources: exact condition for coefficients to add up; C154_sum: they do if both sources have smoke in every layer. Refuted: beyond 1e-10 (C154_dense_false); sums in general (C154_sum_false: non-negativity); darker LEDs everywhere and yet a smaller coefficient (C154_layer_false); the nonlinear solver (C154_nonlinear_false: coefficients at most 10)."
  },
  {
   "property": "C155",
   "status": "proved",
   "theorems": [
    "Ledsa.C155_digits",
    "Ledsa.C155_number",
    "Ledsa.C155_distinct",
    "Ledsa.C155_file",
    "Ledsa.C155_near",
    "Ledsa.C155_fifteen_false"
   ],
   "note": "C155_file (whole file, correct rounding), C155_number and C155_distinct (one number, sixteen or more digits after the point), C155_digits (half a unit of the nineteenth digit), C155_near (any reader with a relative error, such as the default parser of pandas, which is not always correctly rounded), C155_fifteen_false. Floating point numbers have 53 binary digits and any exponent; nan, inf and the sign of zero are not in the model."
  },
  {
   "property": "C156",
   "status": "partial",
   "theorems": [
    "Ledsa.C156_known",
    "Ledsa.C156_repair",
    "Ledsa.C156_repair_sessions",
    "Ledsa.C156_again_false",
    "Ledsa.C156_torn",
    "Ledsa.C156_torn_false"
   ],
   "note": "The repair by complete runs is proved in full (C156_known, C156_repair, C156_repair_sessions), as is what can be read from a table that was cut off (C156_torn). Refuted with witnesses: that every cut is noticed (C156_torn_false) and that step 2 alone repairs a killed step 2 (C156_again_false)."
  },
  {
   "property": "C157",
   "status": "partial",
   "theorems": [
    "Ledsa.C157_torn",
    "Ledsa.C157_sums",
    "Ledsa.C157_same",
    "Ledsa.C157_single",
    "Ledsa.C157_single_false"
   ],
   "note": "Proved: what is read from a file that was cut off (C157_torn, C157_sums) and that complete coefficients are right (C157_same, for any missing LEDs). Refuted: with exactly one LED of the array left nothing is noticed (C157_single_false; C157_single says what is used instead). Files with fit values cannot be loaded at all (C102)."
  },
  {
   "property": "C158",
   "status": "proved",
   "theorems": [
    "Ledsa.C158_curves",
    "Ledsa.C158_single",
    "Ledsa.C158_exact",
    "Ledsa.C158_missing_column"
   ],
   "note": "C158_curves (both directions: cells and existence), C158_single, C158_exact. Text files, join by image number and normalisation are modelled; HDF5 storage is the table itself; smoothing is C60."
  },
  {
   "property": "C159",
   "status": "partial",
   "theorems": [
    "Ledsa.C159_notation",
    "Ledsa.C159_read",
    "Ledsa.C159_swallowed_false",
    "Ledsa.C159_lost_false",
    "Ledsa.C159_order"
   ],
   "note": "Proved for unindented options (C159_notation, C159_read) and for the order (C159_order). Refuted for indentation: an option indented further than the option before it becomes part of that option's value and is itself missing (C159_swallowed_false, C159_lost_false); files of a new configuration have indented options, so removing the indentation of one line loses the next option."
  },
  {
   "property": "C160",
   "status": "proved",
   "theorems": [
    "Ledsa.C160_numbering",
    "Ledsa.C160_ends"
   ],
   "note": "C160_numbering (any two sets of files that describe the same LEDs) and C160_ends (all steps; only arrays that are not merged). Over the reals: sums in another order may round differently. The solvers are described by what their results satisfy, so the statement is that the sets of possible results are equal."
  },
  {
   "property": "C161",
   "status": "partial",
   "theorems": [
    "Ledsa.C161_contents",
    "Ledsa.C161_turns_partial",
    "Ledsa.C161_sequential",
    "Ledsa.C161_false"
   ],
   "note": "refuted (C161_false): two runs can both stop with no result file, one of them without an error; a run can stop in the middle and leave an empty file; proved for every interleaving and any number of runs: contents of result files are never wrong (old, empty or right); if the two shared tables are written without interruption, a run delivers all or nothing and a run that ends without error delivers all (invariants over all interleavings); one after the other all runs deliver. One core per run, tables within one write buffer"
  },
  {
   "property": "C162",
   "status": "partial",
   "theorems": [
    "Ledsa.C162_limit",
    "Ledsa.C162_jpg",
    "Ledsa.C162_raw_bound",
    "Ledsa.C162_raw_false",
    "Ledsa.C162_raw_full_false",
    "Ledsa.C162_raw_partial",
    "Ledsa.C162_names",
    "Ledsa.C162_limits"
   ],
   "note": "proved for JPG photos; refuted for raw photos: below a white level of 16383 never 100 %, and with black level 512 and white level 16383 neither; exact bounds for raw photos proved; PNG and small letter raw extensions end the checker with NameError"
  },
  {
   "property": "C163",
   "status": "proved",
   "theorems": [
    "Ledsa.C163_widman"
   ],
   "note": "over the reals, for positive wavelengths"
  },
  {
   "property": "C164",
   "status": "partial",
   "theorems": [
    "Ledsa.C164_step1",
    "Ledsa.C164_step2_skipped",
    "Ledsa.C164_mixed_false",
    "Ledsa.C164_step2",
    "Ledsa.C164_index_torn",
    "Ledsa.C164_index_false"
   ],
   "note": "What is left is proved exactly (C164_step1, C164_step2 for every index file of the unmerged arrays), as is what is read from an index file that was cut off (C164_index_torn). Refuted: once the flag is set no step 2 changes anything, so that a step 2 killed while writing index files is never completed by step 2 (C164_step2_skipped); step 1 killed before it removes the flag leaves new search areas with the arrays of the old numbering (C164_mixed_false); a cut index file can give an LED of another array (C164_index_false). What repairs the files is C156."
  },
  {
   "property": "C165",
   "status": "partial",
   "theorems": [
    "Ledsa.C165_documented_iff",
    "Ledsa.C165_known",
    "Ledsa.C165_nothing_else",
    "Ledsa.C165_heights",
    "Ledsa.C165_references_false",
    "Ledsa.C165_weights_false",
    "Ledsa.C165_used"
   ],
   "note": "C165_documented_iff: the heads are equal iff channel, array, layers, camera, quantity, list of reference images, solver, weight of the linear solver and version are; C165_known: the same from the whole file; C165_heights: the lines of the heights; C165_nothing_else: no other setting can be seen. Refuted: the number of reference images, with which reference values differ (C165_references_false), and all parameters of the nonlinear solver (C165_weights_false). Texts of floating point numbers are a parameter with the assumption that different numbers have different texts without comma. C165_used: which images are the reference images."
  },
  {
   "property": "C166",
   "status": "partial",
   "theorems": [
    "Ledsa.C166_channel",
    "Ledsa.C166_values",
    "Ledsa.C166_relative",
    "Ledsa.C166_all_false",
    "Ledsa.C166_plain_false",
    "Ledsa.C166_pick"
   ],
   "note": "Holds for step 1 with a single channel (C166_channel) and for the values of step 3 up to the factor 255 (C166_values, C166_relative). Refuted for channel = all: every grey value of a PNG file is 0, no LED is found and step 1 ends with an IndexError (C166_all_false); pictures without colour axis are an IndexError (C166_plain_false). C166_pick: what a channel of a picture holds."
  },
  {
   "property": "C167",
   "status": "partial",
   "theorems": [
    "Ledsa.C167_led",
    "Ledsa.C167_nothing_else",
    "Ledsa.C167_images",
    "Ledsa.C167_times",
    "Ledsa.C167_values",
    "Ledsa.C167_rounding",
    "Ledsa.C167_depth",
    "Ledsa.C167_missing_false"
   ],
   "note": "Proved for the table that is calculated: C167_led and C167_nothing_else (every LED by itself, for all tables), C167_images and C167_times (ids fit the averaged times), C167_values (means), C167_rounding, C167_depth. Refuted: with a missing row the later averages of an LED are made of other photos (C167_missing_false). The table is never written and never read (C51_false)."
  },
  {
   "property": "C168",
   "status": "partial",
   "theorems": [
    "Ledsa.C168_noticed",
    "Ledsa.C168_noticed_nonlinear",
    "Ledsa.C168_merged",
    "Ledsa.C168_merged_later",
    "Ledsa.C168_places",
    "Ledsa.C168_factor",
    "Ledsa.C168_renamed_false"
   ],
   "note": "C168_noticed: any difference in the number of LEDs ends the linear analysis with a ValueError; C168_noticed_nonlinear for the nonlinear solver (not for a single LED, which is compared with all). C168_merged and C168_merged_later: groups of an array with others are always noticed. Refuted for groups that rename arrays of the same size (C168_renamed_false): the light is evaluated at the places of the other LEDs (C168_places), with an error by any factor (C168_factor)."
  },
  {
   "property": "C169",
   "status": "partial",
   "theorems": [
    "Ledsa.C169_dark",
    "Ledsa.C169_relative",
    "Ledsa.C169_background",
    "Ledsa.C169_depth_false"
   ],
   "note": "Proved for a dark background (C169_dark, C169_relative). Refuted for every background light that is not removed: the relative intensity of the sum is too large and grows with the radius (C169_background, with a bound for the error), so that the optical depth is underestimated (C169_depth_false)."
  },
  {
   "property": "C170",
   "status": "partial",
   "theorems": [
    "Ledsa.C170_sum",
    "Ledsa.C170_max",
    "Ledsa.C170_depth",
    "Ledsa.C170_false"
   ],
   "note": "Refuted in general (C170_false: half of the light recorded as 300/355 of the sum; no message, check_led_saturations is empty). Proved: clipping never makes the recorded part smaller; sum and maximum are exact if and only if no pixel of the search area was clipped in the reference photo (or t is 0 or 1) (C170_sum, C170_max); a maximum clipped in both photos shows no loss at all; the optical depth is never overestimated and strictly underestimated as soon as a reference pixel is clipped (C170_depth)."
  },
  {
   "property": "C171",
   "status": "partial",
   "theorems": [
    "Ledsa.C171_power",
    "Ledsa.C171_coefficients",
    "Ledsa.C171_linear_iff",
    "Ledsa.C171_rounding",
    "Ledsa.C171_false"
   ],
   "note": "Refuted in general (C171_false). Proved: with the tone curve v^g the recorded part is t^g for sum, mean and maximum (C171_power) and the coefficients of the linear analysis are exactly g times those of the light (C171_coefficients, above the 1e-10 floor); the recorded sums are exact for all photos if and only if the curve is proportional to the light (C171_linear_iff); rounding of pixel values by at most e changes the relative sum by at most 2e per pixel of the area in units of the reference sum (C171_rounding)."
  },
  {
   "property": "C172",
   "status": "partial",
   "theorems": [
    "Ledsa.C172_alone",
    "Ledsa.C172_copies",
    "Ledsa.C172_one_by_one",
    "Ledsa.C172_channels",
    "Ledsa.C172_false",
    "Ledsa.C172_analysis_false"
   ],
   "note": "Proved: a program alone behaves as read_hdf (C172_alone); for any number of programs and any interleaving no program fails to load and every loaded table is the rows of the result files a whole number of times (C172_copies); exactly once for a channel with a single program (C172_channels), and whenever never two programs are creating the file at the same moment (C172_one_by_one). Refuted: two programs that both look before one has written double the rows (C172_false), and every analysis of an array with at least two LEDs then ends with ValueError or KeyError (C172_analysis_false). Opening a file while another program writes it is not modelled (the library locks it)."
  },
  {
   "property": "C173",
   "status": "proved",
   "theorems": [
    "Ledsa.C173_measured",
    "Ledsa.C173_accuracy",
    "Ledsa.C173_reference",
    "Ledsa.C173_transmission",
    "Ledsa.C173_led_outside",
    "Ledsa.C173_photo"
   ],
   "note": "The photos before their JPEG compression. C173_measured: sum and maximum that step 3 finds at every LED; C173_accuracy and C173_reference: relative to a clear or nearly clear reference photo within 0.025 or 0.051 of the (ratio of the) transmission; C173_transmission: the transmission is Beer-Lambert with geometric lengths; C173_photo: the whole way from profile to measured light with the order of LEDs; C173_led_outside: TypeError for LEDs above the layers."
  },
  {
   "property": "C174",
   "status": "partial",
   "theorems": [
    "Ledsa.C174_last_digit",
    "Ledsa.C174_complete",
    "Ledsa.C174_cut",
    "Ledsa.C174_factor",
    "Ledsa.C174_false"
   ],
   "note": "Proved for every file and every cut: all rows but the last are as written, the last one has its first numbers as written, then one field made from the beginning of a number, then missing values (C174_complete, C174_cut). Refuted: a field made from the beginning of a number can be a wrong number (C174_last_digit, C174_factor, C174_false): for all coefficients from 1e-9 to less than 1 the file without its last digit is read as a complete table with the last coefficient 10 to 1e9 times too large. A later complete analysis writes the file anew (C52_false), so the damage stays only if the results are used as they are."
  },
  {
   "property": "C175",
   "status": "partial",
   "theorems": [
    "Ledsa.C175_indistinguishable",
    "Ledsa.C175_excess",
    "Ledsa.C175_varying",
    "Ledsa.C175_false"
   ],
   "note": "Refuted in general (C175_false), with what is found instead: result files with hazy reference photos are those of weaker LEDs and clear reference photos, so no program could tell them apart (C175_indistinguishable); for profiles linear in height exactly the smoke beyond the haze is found, and nothing for photos that are nowhere denser than the haze (C175_excess). Reference photos of different haze count like one haze per LED between the least and the mean loss (C175_varying)."
  },
  {
   "property": "C176",
   "status": "partial",
   "theorems": [
    "Ledsa.C176_light",
    "Ledsa.C176_depth",
    "Ledsa.C176_table",
    "Ledsa.C176_noisy",
    "Ledsa.C176_coefficients",
    "Ledsa.C176_false"
   ],
   "note": "Refuted (C176_false): clear air in one photo and 2 per metre in the other give less than 1 per metre, because the light is averaged before the logarithm. Proved instead for all inputs: the light of the averaged image is that of the mean smoke times cosh of half the difference of the losses (C176_light); the depth is the mean less the logarithm of that factor, never above the mean, equal to it only for equal losses, never below the smaller loss and at most an eighth of the squared difference below the mean (C176_depth); the averaged table holds these means, the sum column up to less than one unit (C176_table); the averaged images are images of the mean smoke up to a bounded factor (C176_noisy), so the coefficients of the whole series differ from the mean smoke by at most a constant of the array times the fourth power of the differences and the bending (C176_coefficients)."
  },
  {
   "property": "C177",
   "status": "partial",
   "theorems": [
    "Ledsa.C177_log",
    "Ledsa.C177_complete",
    "Ledsa.C177_failures",
    "Ledsa.C177_directory",
    "Ledsa.C177_again",
    "Ledsa.C177_ends",
    "Ledsa.C177_one_process",
    "Ledsa.C177_false",
    "Ledsa.C177_twice_false",
    "Ledsa.C177_plan",
    "Ledsa.C177_parameters",
    "Ledsa.C177_entry",
    "Ledsa.C177_entry_false",
    "Ledsa.C177_values"
   ],
   "note": "Refuted (C177_false): if logfiles does not exist, two processes can both find it missing and the second os.makedirs raises FileExistsError, which stops step 3; the photo has no result file and its fits no entry. C177_twice_false: a photo that is taken up again is logged again. Proved for every interleaving and every point at which step 3 is stopped: log and result files hold what was done, each entry once, in the order of its photo, nothing else (C177_log); complete if all photos ended without exception (C177_complete); with n processes fewer than n photos fail (C177_failures), none with one process or an existing directory (C177_one_process, C177_directory); after a failure the directory exists, so that a repeated run never fails (C177_again); photos never wait for each other (C177_ends). Which fits are logged: C177_plan. Text: the parameters come out in brackets with commas however NumPy pads and wraps them (C177_parameters); all values can be read back if the path has no white space (C177_entry, C177_entry_false). Entries are shorter than the write buffer."
  },
  {
   "property": "C178",
   "status": "partial",
   "theorems": [
    "Ledsa.C178_depth",
    "Ledsa.C178_recover",
    "Ledsa.C178_noisy",
    "Ledsa.C178_saturation",
    "Ledsa.C178_coefficients",
    "Ledsa.C178_false",
    "Ledsa.C178_nonlinear"
   ],
   "note": "Refuted (C178_false): with light as strong as the LEDs, smoke of 2 per metre is found as less. Proved for all inputs: the depth that is shown is never above the true one, equal only in clear air, grows with it, stays below log(1 + 1/beta) however dense the smoke is, and is at most beta (exp D - 1)/(1 + beta) too small (C178_depth); the depth can be recovered from known light (C178_recover). Whole series: light of at most the share q of what the LEDs still show changes the coefficients by at most a constant of the array times q; constant light of the share beta bounds the coefficients of every smoke (C178_coefficients with C178_noisy, C178_saturation). Linear solver, exact reals. C178_nonlinear: the bound with the nonlinear solver."
  },
  {
   "property": "C179",
   "status": "partial",
   "theorems": [
    "Ledsa.C179_marks",
    "Ledsa.C179_labels",
    "Ledsa.C179_arrays",
    "Ledsa.C179_merged",
    "Ledsa.C179_current",
    "Ledsa.C179_stale_false",
    "Ledsa.C179_photo_gone",
    "Ledsa.C179_false",
    "Ledsa.C179_merged_false",
    "Ledsa.C179_step1_photo_gone",
    "Ledsa.C179_once"
   ],
   "note": "C179_marks (all LEDs, at their pixels, with their ids, within the limits), C179_labels (a label belongs to one LED), C179_arrays and C179_merged (the plots of arrays show the detected pixels) and C179_current (up to date after any series of calls, also failed ones, if the reference photo could always be read) are proved. Refuted in general: C179_false (step 2 without the reference photo fails after it has replaced the table; the plot shows the old numbers; C179_photo_gone: the next step 2 is not refused and assigns the renumbered LEDs again), C179_stale_false (plots of arrays are never removed), C179_merged_false (a group without arrays shifts the numbers of later groups). Drawing itself (matplotlib) is not modelled; runs that are killed are those of C164."
  },
  {
   "property": "C180",
   "status": "partial",
   "theorems": [
    "Ledsa.C180_balance",
    "Ledsa.C180_loss",
    "Ledsa.C180_margin",
    "Ledsa.C180_coefficients",
    "Ledsa.C180_false",
    "Ledsa.C180_neighbour_false"
   ],
   "note": "C180_balance (exact balance for any photo), C180_loss (isolated LED: only losses, none exactly if no lit pixel leaves), C180_margin (all values unchanged if spot and movement fit into the area) and C180_coefficients (bound for the linear analysis by the share that is lost) are proved. Refuted without a margin: C180_false (one pixel suffices), C180_neighbour_false (a neighbour makes the LED look nearly twice as bright). Missing: rotations and movements by fractions of a pixel."
  },
  {
   "property": "C181",
   "status": "partial",
   "theorems": [
    "Ledsa.C181_constant",
    "Ledsa.C181_exact",
    "Ledsa.C181_bound",
    "Ledsa.C181_darker",
    "Ledsa.C181_false",
    "Ledsa.C181_nonlinear"
   ],
   "note": "C181_constant: a factor per LED that is the same in all images changes no result. Refuted for changes from image to image: C181_false (clear air, images darker by exp(-1): 1 per metre of smoke). C181_exact gives the coefficients exactly if some profile weakens all LEDs by the same depth: the smoke less log(gain) times this profile. C181_darker: if one LED is darker than in the reference images, smoke is reported. C181_bound: with brightness within exp(-g) and exp(g) of the true one the error is bounded by a constant of the array times g. Linear solver, real numbers. C181_nonlinear: the bound with the nonlinear solver."
  },
  {
   "property": "C182",
   "status": "partial",
   "theorems": [
    "Ledsa.C182_exists",
    "Ledsa.C182_float_exists",
    "Ledsa.C182_lit",
    "Ledsa.C182_dark",
    "Ledsa.C182_iff",
    "Ledsa.C182_not_named",
    "Ledsa.C182_failed",
    "Ledsa.C182_false",
    "Ledsa.C182_bright_later",
    "Ledsa.C182_nonlinear_others",
    "Ledsa.C182_nonlinear_false"
   ],
   "note": "C182_exists: the linear analysis has a result for all inputs (non-negative least squares is solvable for every matrix). C182_lit: if every LED has a reference intensity other than zero, inf and nan do not occur and the analysis is the one with real numbers. C182_dark: an LED that is dark in all reference images ends the analysis with ValueError; C182_iff: with intensities that are not negative, coefficients are found exactly if every LED shines in some reference image. C182_not_named: the check of the reference images does not warn about such an LED. C182_failed, C182_false: an LED that fails later counts as optical depth 10 ln 10 and makes the analysis report smoke. C182_nonlinear_false: the nonlinear solver reports smoke in clear air too, ln((k+1)/k)/d for one failed LED among k+1; C182_nonlinear_others: it fits the other LEDs up to the light of the failed one. Numbers are not rounded; an LED dark in all reference images is covered for the linear solver only."
  },
  {
   "property": "C183",
   "status": "partial",
   "theorems": [
    "Ledsa.C183_columns",
    "Ledsa.C183_files",
    "Ledsa.C183_restarts",
    "Ledsa.C183_iff",
    "Ledsa.C183_false",
    "Ledsa.C183_remedy"
   ],
   "note": "Refuted (C183_false): the restart never fits, so that its files have 5 columns, those of the interrupted run 18; the table is built with the columns of the first photo and pandas raises ValueError. No number of restarts helps, since existing files are kept (C183_restarts). Exact law (C183_iff): the results can be loaded exactly if the interrupted run had finished all photos or none. C183_columns: the same for arbitrary tables. C183_remedy: a complete run of step 3, with or without fitting, over any files gives results that can be loaded. One channel; interruption between result files (truncated files are C29); fitted centres not negative (C102)."
  },
  {
   "property": "C184",
   "status": "partial",
   "theorems": [
    "Ledsa.C184_depth",
    "Ledsa.C184_same",
    "Ledsa.C184_two",
    "Ledsa.C184_pixels",
    "Ledsa.C184_apart",
    "Ledsa.C184_noisy",
    "Ledsa.C184_coefficients",
    "Ledsa.C184_false",
    "Ledsa.C184_nonlinear"
   ],
   "note": "Refuted (C184_false): with light of the lowest LED in the areas of the others, smoke of 0, 1, 2 per metre comes out as 0, 0.5, 1. Proved: C184_pixels and C184_apart (what the sum over a search area contains; areas at least twice the radius apart share no pixel), C184_depth (the depth shown lies between the depths of the LEDs in the area and is at most their weighted mean), C184_same and C184_two (right exactly if the depths are equal, otherwise drawn towards the neighbour), C184_noisy and C184_coefficients (bound of the error of the whole analysis by the share of foreign light and the differences of the depths). C184_nonlinear: the bound with the nonlinear solver."
  },
  {
   "property": "C185",
   "status": "partial",
   "theorems": [
    "Ledsa.C185_depth",
    "Ledsa.C185_layers_partial",
    "Ledsa.C185_total",
    "Ledsa.C185_horizontal",
    "Ledsa.C185_noisy",
    "Ledsa.C185_coefficients_partial",
    "Ledsa.C185_false",
    "Ledsa.C185_nonlinear_partial"
   ],
   "note": "Refuted (C185_false): with the camera at a border of layers and an LED at its height, however small an error puts the whole line of sight into another layer. Proved for a camera at distance delta from the borders of its layer: C185_depth and C185_layers_partial (depth and distances per layer change by at most the error times (1 + L/delta)), C185_coefficients_partial (bound for the coefficients of the whole analysis). Proved without this condition: C185_total (sum of the distances), C185_horizontal (errors at the right height scale all depths by the ratio of the lengths). C185_nonlinear_partial: the bound with the nonlinear solver."
  },
  {
   "property": "C186",
   "status": "partial",
   "theorems": [
    "Ledsa.C186_digits",
    "Ledsa.C186_injective",
    "Ledsa.C186_order",
    "Ledsa.C186_command_partial",
    "Ledsa.C186_same_geometry_partial",
    "Ledsa.C186_iff",
    "Ledsa.C186_false"
   ],
   "note": "Refuted (C186_false): the file has no channel in its name; after a correction of the camera position and a new analysis of one channel it no longer belongs to the coefficients of the others. Proved: C186_digits and C186_injective (read back digit for digit), C186_order (row k is the LED with the k-th smallest id), C186_command_partial (after a command without exception all its arrays and channels fit), C186_same_geometry_partial (after any history of commands with the same geometry), C186_iff (exact condition for a further command)."
  },
  {
   "property": "C187",
   "status": "partial",
   "theorems": [
    "Ledsa.C187_nonlinear_partial",
    "Ledsa.C187_sum",
    "Ledsa.C187_conversions",
    "Ledsa.C187_noisy",
    "Ledsa.C187_coefficients_partial",
    "Ledsa.C187_thin",
    "Ledsa.C187_dense",
    "Ledsa.C187_indistinguishable",
    "Ledsa.C187_false"
   ],
   "note": "Refuted in general (C187_false; C187_thin, C187_dense, C187_indistinguishable: no calculation from the rounded values can tell such smoke apart). Proved: C187_sum, C187_conversions, C187_noisy and the bound C187_coefficients_partial for light that is large compared with the number of pixels. C187_nonlinear_partial: the bound with the nonlinear solver."
  },
  {
   "property": "C188",
   "status": "partial",
   "theorems": [
    "Ledsa.C188_calculate",
    "Ledsa.C188_partial",
    "Ledsa.C188_settings",
    "Ledsa.C188_too_late",
    "Ledsa.C188_other_property",
    "Ledsa.C188_false",
    "Ledsa.C188_colours",
    "Ledsa.C188_elsewhere",
    "Ledsa.C188_channels"
   ],
   "note": "Refuted for changes after a calculation (C188_false, C188_too_late, C188_other_property) and for another working directory (C188_elsewhere). Proved for all sequences of calls whose changes come in time (C188_partial, C188_calculate), for the correction of colours by the object (C188_colours) and for wrong numbers of channels (C188_channels). For solvers without memory; the nonlinear solver is treated in C48."
  },
  {
   "property": "C189",
   "status": "partial",
   "theorems": [
    "Ledsa.C189_complete",
    "Ledsa.C189_repeat",
    "Ledsa.C189_marker_partial",
    "Ledsa.C189_false",
    "Ledsa.C189_earlier"
   ],
   "note": "Proved: C189_complete, C189_repeat (for archives as in C118_partial). C189_marker_partial says exactly when the marker is there and what it guarantees. Refuted: the marker does not mean that configuration files exist (C189_false), nor that a second setup was completed (C189_earlier)."
  },
  {
   "property": "C190",
   "status": "partial",
   "theorems": [
    "Ledsa.C190_agrees",
    "Ledsa.C190_unchanged",
    "Ledsa.C190_outside",
    "Ledsa.C190_between",
    "Ledsa.C190_others",
    "Ledsa.C190_layers_false",
    "Ledsa.C190_twice",
    "Ledsa.C190_nonlinear"
   ],
   "note": "C190_agrees and C190_unchanged: an LED that agrees; C190_outside; C190_between: towards the measurement and not past it; C190_others. The last sentence is refuted: C190_layers_false, a layer that the LED is not seen through changes from 1 to 2/3. C190_twice: every LED twice is half the regularisation; C190_nonlinear: with the nonlinear solver even an LED outside the layers acts like larger weights."
  },
  {
   "property": "C191",
   "status": "partial",
   "theorems": [
    "Ledsa.C191_lambda",
    "Ledsa.C191_nearly_linear",
    "Ledsa.C191_price",
    "Ledsa.C191_few_layers",
    "Ledsa.C191_one_layer_false",
    "Ledsa.C191_curvature",
    "Ledsa.C191_preference"
   ],
   "note": "C191_lambda, C191_nearly_linear, C191_price for three and more layers; C191_curvature and C191_preference for the nonlinear solver. Missing: with one or two layers lambda_reg lowers the coefficients instead (C191_few_layers; C191_one_layer_false gives the factor for uniform smoke and one layer)."
  },
  {
   "property": "C192",
   "status": "partial",
   "theorems": [
    "Ledsa.C192_same_smoke",
    "Ledsa.C192_depth",
    "Ledsa.C192_distances",
    "Ledsa.C192_fit_partial",
    "Ledsa.C192_uniform",
    "Ledsa.C192_unregularised_partial",
    "Ledsa.C192_false"
   ],
   "note": "C192_same_smoke, C192_depth and C192_distances for all rays in the domain; C192_unregularised_partial: without regularisation the fit is no worse; C192_fit_partial: with regularisation up to lambda_reg times the bending of the steps on the divided layers. Missing: with regularisation the fit can be worse (C192_false: a tower of six LEDs above the camera, three and six layers)."
  },
  {
   "property": "C193",
   "status": "partial",
   "theorems": [
    "Ledsa.C193_log",
    "Ledsa.C193_stopped_partial",
    "Ledsa.C193_failed_partial",
    "Ledsa.C193_dialogue_partial",
    "Ledsa.C193_false"
   ],
   "note": "C193_log: the log is read back and tells the renamings, for all names; C193_stopped_partial, C193_failed_partial, C193_dialogue_partial: it restores the directory at every point if no new name was in use and no raw file ends in jpg. Missing: files that had a new name before are lost (C193_false)."
  },
  {
   "property": "C194",
   "status": "partial",
   "theorems": [
    "Ledsa.C194_layers",
    "Ledsa.C194_ray_partial",
    "Ledsa.C194_linear",
    "Ledsa.C194_nonlinear",
    "Ledsa.C194_array_partial",
    "Ledsa.C194_false"
   ],
   "note": "Proved for all arrangements in which no ray runs level along a border of layers, with both solvers and including failures (C194_array_partial, C194_ray_partial); the solvers are symmetric in all cases (C194_linear, C194_nonlinear). Refuted for rays along borders (C194_false): a border belongs to the layer with the larger coordinate and the upper end of the domain to none, so the light is put down to another layer or the ray is missing."
  },
  {
   "property": "C195",
   "status": "partial",
   "theorems": [
    "Ledsa.C195_no_information",
    "Ledsa.C195_outside",
    "Ledsa.C195_above",
    "Ledsa.C195_rising",
    "Ledsa.C195_below",
    "Ledsa.C195_few_layers",
    "Ledsa.C195_any",
    "Ledsa.C195_preference",
    "Ledsa.C195_false"
   ],
   "note": "Refuted (C195_false): smoke 0, 1, 0 with the upper layer unseen is reported as 0, 1, 2, the only possible result of the linear solver. Proved: C195_outside (which layers are unseen), C195_no_information (the light does not depend on them), C195_above, C195_rising and C195_below (the profile goes on in a straight line through the unseen layers if this line does not become negative, in particular if it rises towards them), C195_few_layers (zero with one or two layers), C195_any (nonlinear solver without weights: every value from 0 to 10 is possible), C195_preference (zero up to the tolerance with weighting_preference alone). Profiles that fall to zero within the unseen layers are not described."
  },
  {
   "property": "C196",
   "status": "partial",
   "theorems": [
    "Ledsa.C196_not_lost",
    "Ledsa.C196_amount_partial",
    "Ledsa.C196_darker",
    "Ledsa.C196_few_layers",
    "Ledsa.C196_centre",
    "Ledsa.C196_layer_false",
    "Ledsa.C196_false"
   ],
   "note": "Refuted as stated: where a layer is reported as empty the bound at zero adds smoke (C196_false), and more smoke in the lowest of three layers lowers the coefficient of the uppermost (C196_layer_false). Proved: with three layers or more no smoke is lost (C196_not_lost), the amount is exactly the measured one if smoke is reported in every layer, for every straight profile as weight (C196_amount_partial), for level rays the sum of the coefficients and the height of their centre are those of the smoke (C196_centre), darker LEDs give an amount that is not smaller (C196_darker), and with one or two layers the missing amount is exactly lambda_reg times the sum of squares (C196_few_layers)."
  },
  {
   "property": "C197",
   "status": "partial",
   "theorems": [
    "Ledsa.C197_status_partial",
    "Ledsa.C197_failed",
    "Ledsa.C197_no_return",
    "Ledsa.C197_rename_only",
    "Ledsa.C197_directory",
    "Ledsa.C197_dialogue",
    "Ledsa.C197_false",
    "Ledsa.C197_config_false",
    "Ledsa.C197_tests_false",
    "Ledsa.C197_demo"
   ],
   "note": "Refuted as stated: a mistyped directory for the renamer ends with the status 0 and the steps asked for beside it are not done (C197_false; with --prepare_images nothing else is ever done, C197_no_return and C197_rename_only), --config with four values or more writes nothing and ends with 0 (C197_config_false), and acceptance tests that fail end with 0 (C197_tests_false). Proved: without renaming and with at most three values after --config the status 0 says that all parts asked for were completed (C197_status_partial), a failing part gives 1 and no later part is done (C197_failed), the renamer works in the entered directory or changes nothing (C197_directory), C197_dialogue, and the status of the demo (C197_demo)."
  },
  {
   "property": "C198",
   "status": "proved",
   "theorems": [
    "Ledsa.C198_saved",
    "Ledsa.C198_resumed",
    "Ledsa.C198_asked_again"
   ],
   "note": "C198_saved: the file after the stop; C198_resumed: the questions and the result of the next run, for answers with which an analysis starts; C198_asked_again: an answer that cannot be read is saved and asked for again. Stopping is modelled by an answer that the program rejects (a single percent sign); an interrupt at a question assigns nothing either. For config.ini see C56."
  },
  {
   "property": "C199",
   "status": "partial",
   "theorems": [
    "Ledsa.C199_measured_partial",
    "Ledsa.C199_seen_partial",
    "Ledsa.C199_each_partial",
    "Ledsa.C199_between_partial",
    "Ledsa.C199_few_layers_partial",
    "Ledsa.C199_nonlinear_partial",
    "Ledsa.C199_false",
    "Ledsa.C199_other_false"
   ],
   "note": "Refuted as stated: smoke 9, 2, 2 is reported as 8, 4, 1 (C199_false), and along lines of sight without LED the loss can be wrong though it is right for all LEDs (C199_other_false). Proved for the linear solver: the sum of the squared errors of the optical depths is at most lambda_reg times the bending of the smoke (C199_seen_partial), which bounds the error of every LED (C199_each_partial) and of every line of sight that is a combination of seen ones (C199_between_partial); with errors of the measured light C199_measured_partial; for one or two layers C199_few_layers_partial. For the nonlinear solver the relative intensities are bounded by the penalties of the smoke, C199_nonlinear_partial."
  },
  {
   "property": "C200",
   "status": "partial",
   "theorems": [
    "Ledsa.C200_not_more",
    "Ledsa.C200_seen_partial",
    "Ledsa.C200_false"
   ],
   "note": "Refuted for layers that no LED is seen through: every value there belongs to a solution (C200_false). Proved: the sum of the squared optical depths through the reported smoke is at most the measured one (C200_not_more), and a layer that an LED is seen through over the length d has a coefficient of at most sqrt(number of LEDs) * 10 log 10 / d (C200_seen_partial), for all measured values and any number of layers. The nonlinear solver is given the bound 10."
  }
 ]
}