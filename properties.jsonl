{"id": "C01", "title": "Image list of an ascending image range", "statement": "When the last image number is not below the first, image_infos.csv / image_infos_analysis.csv list exactly the images first, first+k, first+2k, ... that do not exceed last, in that order, each once, where k is 1 for the experiment list and num_skip_imgs+1 for the analysis list; the number of rows is ceil((last-first+1)/k).", "quantifier": "all first <= last, all increments k >= 1", "why_tests_cant": "Off-by-one errors at the end of the range depend on the residue of last-first modulo k; there are unboundedly many such pairs.", "anchors": ["ledsa/data_extraction/init_functions.py:_find_img_number_list", "ledsa/data_extraction/init_functions.py:_build_img_data_string"]}
{"id": "C02", "title": "Image list across the camera's counter overflow", "statement": "When the last image number is below the first (the camera's four digit counter ran over), the list follows the circular counter ...,9998,9999,1,2,...: its j-th entry is the number reached from the first image by advancing the counter j*k shots, and it contains exactly the j with j*k <= the number of shots from first to last.", "quantifier": "all 1 <= last < first <= 9999, all increments k >= 1 (also increments that jump over the whole tail)", "why_tests_cant": "The seam position depends on first, last and k jointly (about 10^12 combinations); a test fixes a handful of seams.", "anchors": ["ledsa/data_extraction/init_functions.py:_find_img_number_list"]}
{"id": "C03", "title": "The analysis covers the images the user asked for", "statement": "The images listed in image_infos_analysis.csv are first_img_analysis_id, first_img_analysis_id+k, ..., up to last_img_analysis_id, whatever the experiment range is.", "quantifier": "all experiment ranges, analysis ranges and skips", "why_tests_cant": "A test with equal experiment and analysis start (as in all shipped tests and the demo) cannot see which of the two keys is used.", "anchors": ["ledsa/data_extraction/init_functions.py:_build_img_data_string", "ledsa/core/ConfigData.py:ConfigData"]}
{"id": "C04", "title": "Every extracted image is loaded for the analysis", "statement": "The number of per-image result files the analysis loads equals the number of images listed in image_infos_analysis.csv, so that no image is dropped and the time column fits the coefficient matrix.", "quantifier": "all image ranges, skips and overflow settings", "why_tests_cant": "The two counts are computed by independent formulas in different modules; they agree on the default settings used in tests.", "anchors": ["ledsa/core/file_handling.py:create_binary_data", "ledsa/data_extraction/init_functions.py:_find_img_number_list", "ledsa/analysis/ExtinctionCoefficients.py:save"]}
{"id": "C05", "title": "Image id and image name determine each other", "statement": "Rows of image_infos_analysis.csv carry ids 1..n without gaps; looking up the name of an id and the id of a name are inverse to each other on the listed images; ids or names that are not listed are reported as errors.", "quantifier": "all image lists produced by the program and all queried ids/names", "why_tests_cant": "Needs distinctness of all generated names for every range, including ranges across the counter overflow.", "anchors": ["ledsa/core/image_handling.py:get_img_name", "ledsa/core/image_handling.py:get_img_id", "ledsa/data_extraction/init_functions.py:_build_img_data_string"]}
{"id": "C06", "title": "Experiment time counts real seconds since the start of the experiment", "statement": "If start_time is derived by the program from the first experiment image, the first image has experiment time 0 and the experiment time of every image is the difference of the capture times; the real time column is the EXIF time minus the clock offset.", "quantifier": "all capture times, clock offsets and dates", "why_tests_cant": "Depends on offset and on crossing midnight; the tests only use offset 0 on a single day.", "anchors": ["ledsa/data_extraction/init_functions.py:_calc_experiment_and_real_time", "ledsa/core/ConfigData.py:get_start_time", "ledsa/core/ConfigData.py:get_datetime"]}
{"id": "C07", "title": "Fractional clock offsets are applied at their value", "statement": "An offset exif_time_infront_real_time given as a decimal number of seconds shifts the real time by exactly that many seconds.", "quantifier": "all decimal offset strings, positive and negative", "why_tests_cant": "The error depends on the number of fractional digits and the sign; a test of '1.500' passes.", "anchors": ["ledsa/data_extraction/init_functions.py:_calc_experiment_and_real_time"]}
{"id": "C08", "title": "Both date notations mean the same day", "statement": "The dates 'YYYY:MM:DD' and 'DD.MM.YYYY' of one calendar day yield the same point in time, different days yield different points in time, and the distance of two points in time is additive.", "quantifier": "all calendar days and times of day", "why_tests_cant": "Leap years and month lengths make a finite sample inconclusive.", "anchors": ["ledsa/core/ConfigData.py:_get_datetime_from_str", "ledsa/data_extraction/init_functions.py:_get_datetime_from_str"]}
{"id": "C09", "title": "LED detection terminates with consecutive ids within the limit", "statement": "Step 1 stops for every image and reports at most max_num_leds LEDs, numbered 0,1,2,... in order of discovery, each inside the image.", "quantifier": "all images, thresholds, radii and limits", "why_tests_cant": "Termination over all images is not testable; the loop does not obviously make progress (see C11).", "anchors": ["ledsa/data_extraction/step_1_functions.py:find_search_areas"]}
{"id": "C10", "title": "Detected LEDs are bright and sorted by brightness", "statement": "Every reported LED is a pixel whose value in the original image exceeds the threshold, and the brightness in the original image never increases with the LED id.", "quantifier": "all images with non-negative pixel values and all thresholds >= 0", "why_tests_cant": "The image is modified between detections; a universal statement over images is needed.", "anchors": ["ledsa/data_extraction/step_1_functions.py:find_search_areas"]}
{"id": "C11", "title": "Two detected LEDs never share a search area", "statement": "No reported LED lies in the search area of another reported LED of smaller id; in particular no pixel is reported twice.", "quantifier": "all images, radii and LED positions including the image border", "why_tests_cant": "The failure needs a bright spot closer than the radius to the upper or left border; test images keep LEDs away from it.", "anchors": ["ledsa/data_extraction/step_1_functions.py:find_search_areas"]}
{"id": "C12", "title": "No bright pixel is missed", "statement": "If fewer than max_num_leds LEDs are reported, every pixel above the threshold lies in the search area of a reported LED.", "quantifier": "all images, thresholds and radii", "why_tests_cant": "Universal over all pixels of all images.", "anchors": ["ledsa/data_extraction/step_1_functions.py:find_search_areas"]}
{"id": "C13", "title": "The percentile threshold bounds what is above it", "statement": "With percentile q at most a fraction (1-q/100) of the N pixels (rounded up over N-1) lies strictly above the threshold, the threshold lies between the smallest and the largest pixel value, and raising q never lowers it; q = 100 detects nothing.", "quantifier": "all pixel multisets and all q in [0,100]", "why_tests_cant": "Interpolation between order statistics makes ties and tiny images special; a sample cannot cover them.", "anchors": ["ledsa/data_extraction/step_1_functions.py:find_search_areas"]}
{"id": "C14", "title": "An LED belongs to at most one LED array", "statement": "After step 2 every LED id occurs at most once over all LED arrays, and every id in an array is one of the detected LEDs.", "quantifier": "all LED layouts, edge pairs, neighbour limits and distance weights, including the error exits of the walk", "why_tests_cant": "The greedy walk has data dependent length and several early exits; layouts are unbounded.", "anchors": ["ledsa/data_extraction/step_2_functions.py:match_leds_to_led_arrays"]}
{"id": "C15", "title": "An LED array runs from its first to its last edge LED", "statement": "If the two edge LEDs of an array are different and still available, the array starts with the first, ends with the last and the walk always arrives; if an edge LED is unknown or was consumed by an earlier array, step 2 fails with an error.", "quantifier": "all layouts and edge pairs", "why_tests_cant": "Reaching the end depends on a greedy choice over arbitrary layouts.", "anchors": ["ledsa/data_extraction/step_2_functions.py:match_leds_to_led_arrays"]}
{"id": "C16", "title": "The next LED of an array is the best of the nearest neighbours", "statement": "The LED chosen next is one of the (at most max_n_neighbours) remaining LEDs closest to the current one, and minimises distance-to-current plus weighted distance-to-last-edge among them.", "quantifier": "all remaining LED sets, positions and weights", "why_tests_cant": "Ties, fewer LEDs than neighbours and repeated extraction of the minimum need a proof over all lists.", "anchors": ["ledsa/data_extraction/step_2_functions.py:_find_next_led", "ledsa/data_extraction/step_2_functions.py:_find_neighbour_leds", "ledsa/data_extraction/step_2_functions.py:_find_closest_node"]}
{"id": "C17", "title": "Ignored LEDs are excluded", "statement": "LEDs listed in ignore_led_indices occur in no LED array, all other members keep their order, and any whitespace separated list of numbers is understood.", "quantifier": "all arrays and all ignore lists / strings", "why_tests_cant": "Needs interaction of list removal with duplicates and of string splitting with arbitrary spacing.", "anchors": ["ledsa/data_extraction/step_2_functions.py:_remove_ignored_leds", "ledsa/data_extraction/step_2_functions.py:_get_indices_of_ignored_leds"]}
{"id": "C18", "title": "Matched and unmatched LEDs partition the detected LEDs", "statement": "Every detected LED is either in exactly one array before ignoring or is reported as not matched, never both, never lost.", "quantifier": "all layouts and edge lists", "why_tests_cant": "Conservation over every run of the walk.", "anchors": ["ledsa/data_extraction/step_2_functions.py:match_leds_to_led_arrays"]}
{"id": "C19", "title": "Renumbering keeps every LED at its pixel", "statement": "After step 2 the LED ids are 0..n-1 in array order without gaps, every array is a block of consecutive ids of unchanged length, and the LED that is now number i of array a has the pixel position it had before.", "quantifier": "all detected LED tables and all matchings", "why_tests_cant": "Two separately written renumberings (search areas and arrays) must agree for every shape, including empty arrays.", "anchors": ["ledsa/data_extraction/step_2_functions.py:reorder_led_indices", "ledsa/data_extraction/step_2_functions.py:reorder_search_areas"]}
{"id": "C20", "title": "LED array files give back the arrays, first edge LED last", "statement": "Reading led_array_indices_NNN.csv returns the ids of array NNN in reverse order, so its last entry is the array's first edge LED and the first entry its last edge LED.", "quantifier": "all arrays (non-empty) and all array numbers", "why_tests_cant": "Decimal text round trip for all ids and lengths.", "anchors": ["ledsa/data_extraction/step_2_functions.py:generate_led_array_indices_files", "ledsa/core/file_handling.py:read_table", "ledsa/data_extraction/DataExtractor.py:load_led_array_indices"]}
{"id": "C21", "title": "Merging LED arrays", "statement": "Each merge group yields one merged array with exactly the LEDs of the listed arrays in the listed order, unknown array numbers contribute nothing, and the number of merged files equals the number the later steps expect.", "quantifier": "all arrays and merge configurations", "why_tests_cant": "Groups that vanish change the numbering of all later groups; configurations are unbounded.", "anchors": ["ledsa/data_extraction/step_2_functions.py:merge_indices_of_led_arrays", "ledsa/data_extraction/DataExtractor.py:load_led_array_indices"]}
{"id": "C22", "title": "Step 2 is never applied to already renumbered LEDs (complete runs)", "statement": "In every sequence of completed step 1 and step 2 runs, step 2 only ever processes an LED table as detected by step 1 and refuses otherwise; after a refused run nothing has changed.", "quantifier": "all finite histories of step 1 / step 2 invocations", "why_tests_cant": "Histories are unbounded.", "anchors": ["ledsa/data_extraction/DataExtractor.py:match_leds_to_led_arrays", "ledsa/data_extraction/DataExtractor.py:find_search_areas", "ledsa/core/file_handling.py:set_flag"]}
{"id": "C23", "title": "Step 2 is never applied to already renumbered LEDs (crashes)", "statement": "The same holds when any run may be interrupted between any two file operations.", "quantifier": "all histories with a crash at any point of any run", "why_tests_cant": "Crash points are not exercised by tests.", "anchors": ["ledsa/data_extraction/DataExtractor.py:match_leds_to_led_arrays", "ledsa/data_extraction/DataExtractor.py:write_search_areas"]}
{"id": "C24", "title": "A bad edge list does not destroy the detected LEDs", "statement": "If led_array_edge_indices cannot be read as numbers, step 2 leaves the detected LED table as it was.", "quantifier": "all unreadable edge lists and all LED tables", "why_tests_cant": "The fall-back value passes silently through three functions before a file is written.", "anchors": ["ledsa/data_extraction/step_2_functions.py:_get_indices_of_outer_leds", "ledsa/data_extraction/step_2_functions.py:reorder_search_areas", "ledsa/data_extraction/DataExtractor.py:match_leds_to_led_arrays"]}
{"id": "C25", "title": "Sum, mean and maximum of a search area", "statement": "For an LED at least one radius away from the upper and left border the recorded sum, mean and maximum are those of exactly the pixels with row in [x-R,x+R) and column in [y-R,y+R) that exist in the image; mean times pixel count equals sum, and max <= sum <= count*max for non-negative pixels.", "quantifier": "all images, LED positions and radii", "why_tests_cant": "Universal over images and positions.", "anchors": ["ledsa/data_extraction/step_3_functions.py:_generate_led_analysis_data"]}
{"id": "C26", "title": "LEDs at the border are measured like any other", "statement": "An LED closer than the radius to the image border is measured on the existing part of its search area.", "quantifier": "all positions within the image", "why_tests_cant": "Negative slice bounds have a different meaning; only positions near two of the four borders are affected.", "anchors": ["ledsa/data_extraction/step_3_functions.py:_generate_led_analysis_data"]}
{"id": "C27", "title": "LED skipping", "statement": "The result file of an image has exactly one row per array member whose id is divisible by num_skip_leds+1, in array order, labelled with the number of its array.", "quantifier": "all arrays and skip values", "why_tests_cant": "Universal over arrays.", "anchors": ["ledsa/data_extraction/step_3_functions.py:generate_analysis_data"]}
{"id": "C28", "title": "Result files do not depend on the number of cores or the schedule", "statement": "The files left by step 3 are the same for serial processing and for every interleaving of the worker processes at the granularity of single writes.", "quantifier": "all image lists with distinct names, all channel lists, all interleavings", "why_tests_cant": "Schedules cannot be enumerated by tests.", "anchors": ["ledsa/data_extraction/DataExtractor.py:process_image_data", "ledsa/data_extraction/DataExtractor.py:process_img_file"]}
{"id": "C29", "title": "A restarted run completes the interrupted one", "statement": "After step 3 was interrupted at any point, running the restart leaves the same result files as an uninterrupted run.", "quantifier": "all interruption points, image lists, channel lists, any number of interruptions", "why_tests_cant": "Crash points and directory states are not covered by tests.", "anchors": ["ledsa/data_extraction/step_3_functions.py:find_and_save_not_analysed_imgs", "ledsa/data_extraction/step_3_functions.py:_find_analysed_img_ids", "ledsa/data_extraction/step_3_functions.py:_save_results_in_file", "ledsa/data_extraction/DataExtractor.py:setup_restart"]}
{"id": "C30", "title": "Recorded values come back under their own column", "statement": "Every value step 3 writes for an LED is found by the analysis in the column of that name, with and without LED fitting.", "quantifier": "all recorded values (any textual form without separators)", "why_tests_cant": "A fused field is still parseable, so value checks on a few rows do not notice; the column count accidentally fits.", "anchors": ["ledsa/data_extraction/LEDAnalysisData.py:get_main_data_string", "ledsa/data_extraction/LEDAnalysisData.py:get_fit_data_string", "ledsa/core/file_handling.py:_get_column_names"]}
{"id": "C31", "title": "Intensity sums survive the text file to five digits", "statement": "An integer sum below 100000 is read back exactly from the result file; larger sums are read back with relative error at most 5e-5, and the order of two sums is never inverted.", "quantifier": "all non-negative integer sums", "why_tests_cant": "Rounding carries (e.g. 99999.5) are rare and magnitude dependent.", "anchors": ["ledsa/data_extraction/LEDAnalysisData.py:get_main_data_string", "ledsa/core/file_handling.py:create_binary_data"]}
{"id": "C32", "title": "The fitted LED centre is the centre of the spot", "statement": "If the fitted model's spot is centred at pixel row r and column c of the search area, the recorded led_center_x is the image row and led_center_y the image column of that centre.", "quantifier": "all search areas and fitted centres", "why_tests_cant": "Square symmetric test spots hide a row/column exchange.", "anchors": ["ledsa/data_extraction/step_3_functions.py:_fit_model_to_led", "ledsa/data_extraction/step_3_functions.py:_generate_led_analysis_data", "ledsa/data_extraction/model.py:led_model"]}
{"id": "C33", "title": "Edge LEDs get their measured coordinates and all LEDs lie on the line", "statement": "The first/last edge LED of an array is assigned exactly the first/second coordinate triple of the configuration, and every LED of the array is assigned a point of the straight line through them, at the fraction given by its orthogonal projection onto the pixel line.", "quantifier": "all pixel positions (edge pixels linearly independent) and all coordinates", "why_tests_cant": "A statement over reals.", "anchors": ["ledsa/ledpositions/coordinates.py:_calculate_3d_coordinates", "ledsa/ledpositions/coordinates.py:LED.conversion_matrix", "ledsa/ledpositions/coordinates.py:_orth_projection"]}
{"id": "C34", "title": "Coordinates exist whenever the edge LEDs differ", "statement": "The coordinate calculation succeeds for every array whose two edge LEDs have different pixel positions.", "quantifier": "all pairs of edge pixels", "why_tests_cant": "The singular configurations form a measure zero set that random tests miss.", "anchors": ["ledsa/ledpositions/coordinates.py:LED.conversion_matrix"]}
{"id": "C35", "title": "Projection of the LEDs onto the fitted wall plane", "statement": "The projected points lie on the fitted plane, have unchanged height, are the closest points of the plane, and projecting twice changes nothing.", "quantifier": "all points and all planes parallel to the z axis", "why_tests_cant": "A statement over reals.", "anchors": ["ledsa/ledpositions/coordinates.py:_project_points_to_plane"]}
{"id": "C36", "title": "Width coordinates measure distance along the wall", "statement": "The 2D width coordinates are non-negative with minimum 0, and the difference of the widths of two LEDs equals their distance along the wall.", "quantifier": "all planes and all point sets on them", "why_tests_cant": "The error vanishes for walls parallel to the x axis, the usual test case.", "anchors": ["ledsa/ledpositions/coordinates.py:_get_plane_coordinates"]}
{"id": "C37", "title": "2D coordinates work for every number of LEDs", "statement": "The 2D coordinates of each LED are computed from that LED's own 3D coordinates for every number of LEDs.", "quantifier": "all LED counts and coordinates", "why_tests_cant": "Fails for exactly one count.", "anchors": ["ledsa/ledpositions/coordinates.py:_calculate_2d_coordinates"]}
{"id": "C38", "title": "Layers tile the domain", "statement": "The layers are equally high, start at the lower bound, end at the upper bound, and every height from the lower (inclusive) to the upper bound (exclusive) lies in exactly one layer.", "quantifier": "all bounds lower < upper, all layer counts >= 1, all heights", "why_tests_cant": "A statement over reals.", "anchors": ["ledsa/analysis/Experiment.py:Layers", "ledsa/analysis/Experiment.py:Layer.__contains__"]}
{"id": "C39", "title": "Distance per layer is the geometric length of the ray in the layer", "statement": "For an LED at a height different from the camera's, the distance assigned to a layer is the length of the part of the straight camera-LED segment that runs inside that layer.", "quantifier": "all camera and LED positions and layers, including vertical rays", "why_tests_cant": "A statement over reals; involves arctan/sin and the division by a horizontal distance of zero.", "anchors": ["ledsa/analysis/Experiment.py:calc_traversed_dist_per_layer", "ledsa/analysis/Experiment.py:calc_traversed_height_in_layer"]}
{"id": "C40", "title": "Distances add up to the length of the ray, or are reported missing", "statement": "If camera and LED lie within the layer domain, the distances are non-negative and sum to the Euclidean distance of camera and LED; otherwise (deviation above 1e-6) no distances are returned.", "quantifier": "all positions and domains, including points on the domain borders", "why_tests_cant": "Border cases have measure zero.", "anchors": ["ledsa/analysis/Experiment.py:calc_traversed_dist_per_layer", "ledsa/analysis/Experiment.py:calc_traversed_dist_in_plane", "ledsa/analysis/Experiment.py:distance_calculation_is_consistent"]}
{"id": "C41", "title": "Distances and intensities refer to the same LED", "statement": "Row i of the distance matrix and entry i of the intensity vector given to the solver belong to the same LED.", "quantifier": "all arrays and merge configurations", "why_tests_cant": "Both orders are established in different modules; they coincide for the unmerged arrays of the tests.", "anchors": ["ledsa/analysis/ExtinctionCoefficients.py:calc_distance_array", "ledsa/analysis/ExtinctionCoefficients.py:calc_and_set_coefficients", "ledsa/core/file_handling.py:create_binary_data", "ledsa/data_extraction/step_2_functions.py:merge_indices_of_led_arrays"]}
{"id": "C42", "title": "Beer-Lambert forward model", "statement": "Predicted intensities equal exp of minus the sum of coefficient times distance, lie in (0,1] for non-negative coefficients, never increase when a coefficient increases, and are unchanged when a layer is split into two with the same coefficient.", "quantifier": "all coefficient vectors and distance matrices", "why_tests_cant": "A statement over reals and all dimensions.", "anchors": ["ledsa/analysis/ExtinctionCoefficientsNonLinear.py:calc_intensities"]}
{"id": "C43", "title": "The linear solver recovers linear smoke profiles exactly", "statement": "If the measured relative intensities are those of a non-negative extinction profile that is linear in height, and the rays determine such profiles uniquely, the returned coefficients are that profile, for every regularisation strength.", "quantifier": "all geometries with at least three layers, all non-negative affine profiles, all lambda >= 0 (uniqueness condition as stated)", "why_tests_cant": "A statement over reals and all dimensions.", "anchors": ["ledsa/analysis/ExtinctionCoefficientsLinear.py:calc_coefficients_of_img"]}
{"id": "C44", "title": "Clear air gives zero extinction", "statement": "If no LED is dimmer than in the reference images, the linear solver returns zero extinction in all layers; intensities above 1 are treated as 1 and intensities below 1e-10 (also negative ones) as 1e-10.", "quantifier": "all intensity vectors and geometries", "why_tests_cant": "A statement over reals.", "anchors": ["ledsa/analysis/ExtinctionCoefficientsLinear.py:calc_coefficients_of_img"]}
{"id": "C45", "title": "Extinction coefficients do not depend on the number of cores", "statement": "The coefficients computed with one core and with several cores are the same, for both solvers.", "quantifier": "all image series and core counts", "why_tests_cant": "Needs the state carried from image to image; tests run a single image or one mode.", "anchors": ["ledsa/analysis/ExtinctionCoefficients.py:calc_and_set_coefficients", "ledsa/analysis/ExtinctionCoefficients.py:calc_and_set_coefficients_mp", "ledsa/analysis/ExtinctionCoefficientsNonLinear.py:calc_coefficients_of_img"]}
{"id": "C46", "title": "Normalisation by the reference images", "statement": "The relative intensities of each LED average to 1 over the reference images, and multiplying all intensities of an LED by a positive factor (exposure, gain) leaves the relative intensities unchanged.", "quantifier": "all intensity tables with non-zero reference mean and all choices of reference images", "why_tests_cant": "A statement over reals and all tables.", "anchors": ["ledsa/analysis/ExtinctionCoefficients.py:calc_and_set_ref_intensities"]}
{"id": "C47", "title": "Reference intensity warning", "statement": "A warning is issued exactly if some LED in some reference image deviates by more than the tolerance from its mean, and names exactly those pairs.", "quantifier": "all reference tables and tolerances", "why_tests_cant": "Universal over tables.", "anchors": ["ledsa/data_extraction/data_integrity.py:check_intensity_normalization"]}
{"id": "C48", "title": "Recalculating coefficients is idempotent", "statement": "Calling the coefficient calculation again gives one coefficient row per image, as the first call did.", "quantifier": "all numbers of calls, serial and parallel", "why_tests_cant": "History property.", "anchors": ["ledsa/analysis/ExtinctionCoefficients.py:calc_and_set_coefficients", "ledsa/analysis/ExtinctionCoefficients.py:save"]}
{"id": "C49", "title": "Coordinates are attached to the right LED", "statement": "When per-image results are loaded, each LED row gets the width and height of the LED with the same id, whether all or only some LEDs were analysed.", "quantifier": "all result tables and coordinate tables", "why_tests_cant": "The join is positional; correctness depends on sortedness for all subsets.", "anchors": ["ledsa/core/file_handling.py:_append_coordinates_to_params", "ledsa/core/file_handling.py:create_binary_data"]}
{"id": "C50", "title": "Colour correction with the identity changes nothing", "statement": "Correcting with the identity matrix leaves all channel sums unchanged; correcting values that were mixed with the matrix restores them.", "quantifier": "all matrices, channel orders and sums", "why_tests_cant": "Sums beyond the 16 bit range do not occur in small test images.", "anchors": ["ledsa/analysis/data_preparation.py:apply_color_correction"]}
{"id": "C51", "title": "Averaged image series and their times match", "statement": "With image averaging the number of experiment times equals the number of coefficient rows.", "quantifier": "all image counts", "why_tests_cant": "Both are averaged (or not) by separate code.", "anchors": ["ledsa/core/file_handling.py:create_analysis_infos_avg", "ledsa/core/file_handling.py:read_hdf_avg", "ledsa/analysis/ExtinctionCoefficients.py:save"]}
{"id": "C52", "title": "Existing extinction coefficient files are not recomputed", "statement": "If the coefficient file of an array, channel and property exists, the analysis reports that and does not compute it again.", "quantifier": "all working directories, arrays, channels, properties and solvers", "why_tests_cant": "A check on a path that never exists behaves well in every fresh directory.", "anchors": ["ledsa/core/parser_arguments_run.py:extionction_coefficient_calculation", "ledsa/analysis/ExtinctionCoefficients.py:save"]}
{"id": "C53", "title": "Every accepted solver name runs with its parameters", "statement": "For every solver name the program accepts (any capitalisation, 'numeric', unknown names falling back to linear), the chosen solver gets its parameters from the configuration.", "quantifier": "all solver strings", "why_tests_cant": "All strings.", "anchors": ["ledsa/core/parser_arguments_run.py:extionction_coefficient_calculation", "ledsa/analysis/ExperimentData.py:load_config_parameters"]}
{"id": "C54", "title": "Lists in the analysis configuration", "statement": "A list option is returned as exactly the whitespace separated numbers given; 'None' (any case) or an empty value means not set; a list that cannot be read is not silently treated as not set.", "quantifier": "all option strings", "why_tests_cant": "All strings.", "anchors": ["ledsa/analysis/ConfigDataAnalysis.py:get_list_of_values", "ledsa/analysis/ExperimentData.py:load_config_parameters"]}
{"id": "C55", "title": "Configuration survives saving and loading", "statement": "Every option set when the configuration is created is read back with the given value under the documented name after loading config.ini, and saving a loaded configuration and loading it again changes nothing.", "quantifier": "all option values (single line, trimmed) and multi-line values", "why_tests_cant": "All strings; indentation and comment rules interact.", "anchors": ["ledsa/core/ConfigData.py:ConfigData", "ledsa/core/ConfigData.py:save", "ledsa/core/ConfigData.py:load"]}
{"id": "C56", "title": "Only missing parameters are asked for, and answers are kept", "statement": "The program prompts exactly for the required parameters that are unset, in a fixed order, never changes a parameter that was set, saves after each answer, and asks nothing when run again.", "quantifier": "all configurations and all user inputs", "why_tests_cant": "All combinations of set/unset parameters and inputs.", "anchors": ["ledsa/data_extraction/init_functions.py:request_config_parameters"]}
{"id": "C57", "title": "Time reference image", "statement": "A time reference image given by id or by file (the file wins) determines the clock offset as EXIF time minus clock time; giving only the file when creating the configuration works, and giving only the id when creating the configuration works without being asked again.", "quantifier": "all configurations and times", "why_tests_cant": "Key names are only compared at run time on configurations created without later prompts.", "anchors": ["ledsa/core/ConfigData.py:in_time_diff_to_img_time", "ledsa/core/ConfigData.py:__init__", "ledsa/data_extraction/init_functions.py:request_config_parameters"]}
{"id": "C58", "title": "Table valued options", "statement": "The i-th line a user enters for an array becomes the i-th row of the table; a line with a wrong number of entries is rejected.", "quantifier": "all entered lines", "why_tests_cant": "All shapes; an error in one line shifts all later ones.", "anchors": ["ledsa/core/ConfigData.py:get2dnparray", "ledsa/core/ConfigData.py:in_led_array_edge_indices"]}
{"id": "C59", "title": "Layer of a height", "statement": "For a height inside the domain the layer number is the layer containing it; a height outside the domain is not assigned a layer.", "quantifier": "all heights, domains and layer counts", "why_tests_cant": "A statement over reals; fails only next to the lower bound.", "anchors": ["ledsa/postprocessing/simulation.py:SimData.layer_from_height"]}
{"id": "C60", "title": "Moving average is centred", "statement": "Smoothing with window w averages equally many past and future values (differing by at most one for even w); window 1 returns the data; constant series stay constant where defined.", "quantifier": "all window sizes and series", "why_tests_cant": "All windows; a constant or slowly varying test series hides a shift.", "anchors": ["ledsa/postprocessing/simulation.py:SimData._apply_moving_average"]}
{"id": "C61", "title": "Time shift is applied consistently", "statement": "After any sequence of set_timeshift calls, extinction coefficients and LED parameters are shifted by the same amount.", "quantifier": "all call sequences", "why_tests_cant": "History property.", "anchors": ["ledsa/postprocessing/simulation.py:SimData.set_timeshift", "ledsa/postprocessing/simulation.py:SimData.get_ledparams_at_led_array", "ledsa/postprocessing/simulation.py:SimData.get_ledparams_at_led_id"]}
{"id": "C62", "title": "Closest time", "statement": "The time returned for a requested time is in the data and no other time in the data is closer; a time in the data is returned itself.", "quantifier": "all time series and requests", "why_tests_cant": "Universal over series.", "anchors": ["ledsa/postprocessing/simulation.py:SimData.get_closest_time"]}
{"id": "C63", "title": "Normalised LED parameters", "statement": "Normalised LED parameters average to 1 over the first n_ref images of every LED and are the absolute values if normalisation is switched off.", "quantifier": "all series and n_ref", "why_tests_cant": "A statement over reals.", "anchors": ["ledsa/postprocessing/simulation.py:SimData.get_ledparams_at_led_array", "ledsa/postprocessing/simulation.py:SimData.get_ledparams_at_led_id"]}
{"id": "C64", "title": "Renaming images loses no file", "statement": "After renaming images by date every file of the directory still exists with its content under exactly one name, and numbers increase with capture date.", "quantifier": "all directories, dates, names and raw files", "why_tests_cant": "Collisions of new with not yet renamed old names depend on the order.", "anchors": ["ledsa/tools/photo_renamer.py:rename_images_by_date", "ledsa/tools/photo_renamer.py:get_files"]}
{"id": "C65", "title": "The renaming dialogue tells the truth", "statement": "Files are renamed at most once, only after 'y', and 'No files were renamed' is only printed if no file was renamed; images without raw files can be renamed.", "quantifier": "all sequences of user inputs", "why_tests_cant": "All input histories.", "anchors": ["ledsa/tools/photo_renamer.py:rename_images_by_date"]}
{"id": "C66", "title": "Editing a parameter in a config file", "statement": "Setting a parameter rewrites exactly the lines that contain the name and '=', keeps everything before the first '=', keeps all other lines and the number of lines, and doing it twice is the same as once; the last value wins.", "quantifier": "all files, names and values", "why_tests_cant": "All strings.", "anchors": ["ledsa/demo/demo_setup.py:_replace_params_in_file"]}
{"id": "C67", "title": "Colour channels of a raw image partition the pixels", "statement": "Each pixel of the sensor contributes to exactly one of the channels red, green, blue and is zero in the other two; both green filters count as green.", "quantifier": "all raw images and filter patterns", "why_tests_cant": "Universal over images.", "anchors": ["ledsa/core/image_reading.py:_read_channel_data_from_raw_file"]}
{"id": "C68", "title": "Raw values are scaled to [0, white level]", "statement": "Corrected raw values lie between 0 and the white level, black maps to 0, white to white, and a brighter pixel is never mapped to a darker value.", "quantifier": "all raw values, black and white levels the sensor type can hold", "why_tests_cant": "16 bit overflow only shows for sensors above 15 bit.", "anchors": ["ledsa/core/image_reading.py:_read_img_array_from_raw_file"]}
{"id": "C69", "title": "Grayscale conversion", "statement": "The grey value of a pixel lies between the smallest and largest of its channel values for every supported image type.", "quantifier": "all pixels of 8 bit and floating point images", "why_tests_cant": "All pixel values; PNG images are read as floats in [0,1].", "anchors": ["ledsa/core/image_reading.py:_read_grayscale_img_array_from_img_file"]}
{"id": "C70", "title": "Command line: which steps and channels run", "statement": "The given channel flags select exactly those channels (red if none); step 3 with fitting runs exactly if it was requested or a channel was given without asking for the fast variant or a restart; steps run in the order 1, 2, 3, 3 fast, restart, coordinates.", "quantifier": "all flag combinations", "why_tests_cant": "2^10 combinations; operator precedence errors only show in some.", "anchors": ["ledsa/core/parser_arguments_run.py:run_data_extraction_arguments"]}
{"id": "C71", "title": "Command line: no step runs without a configuration", "statement": "If no configuration file exists and none is created, every extraction request fails before anything is written.", "quantifier": "all flag combinations and directories", "why_tests_cant": "All combinations.", "anchors": ["ledsa/core/parser_arguments_run.py:run_data_extraction_arguments"]}
{"id": "C72", "title": "The analysis uses the latest extraction", "statement": "The analysis uses the result files as they are on disk when it is run, also after step 3 was repeated or coordinates were recalculated.", "quantifier": "all histories of extraction and analysis runs", "why_tests_cant": "History property; tests start from an empty directory.", "anchors": ["ledsa/core/file_handling.py:read_hdf", "ledsa/core/file_handling.py:_append_coordinates"]}
{"id": "C73", "title": "Smoothness penalty", "statement": "The curvature term of the nonlinear cost is non-negative and zero exactly for profiles linear in the layer number; with zero preference the cost is non-negative and zero exactly for a linear profile that reproduces the target.", "quantifier": "all coefficient vectors, targets and weights", "why_tests_cant": "A statement over reals and all dimensions.", "anchors": ["ledsa/analysis/ExtinctionCoefficientsNonLinear.py:cost_function"]}
{"id": "C74", "title": "LED spot model", "statement": "Model values lie between 0 and the amplitude; rotating the spot by half a turn changes nothing; exchanging the two axes and turning by a quarter changes nothing; the penalty is non-negative and zero exactly for parameters within the documented limits.", "quantifier": "all parameters", "why_tests_cant": "A statement over reals.", "anchors": ["ledsa/data_extraction/model.py:led_model", "ledsa/data_extraction/model.py:target_function"]}
{"id": "C75", "title": "Demo core count", "statement": "Running the demo with --n_cores k uses k cores for every k >= 1.", "quantifier": "all k and all demo configurations", "why_tests_cant": "All k; fails for exactly one.", "anchors": ["ledsa/demo/demo_run.py:run_demo", "ledsa/core/parser_arguments_run.py:run_demo_arguments", "ledsa/demo/demo_setup.py:_edit_config_files"]}
{"id": "C76", "title": "Choosing the channels for colour correction", "statement": "--cc_channels a b c applies the colour correction to exactly the channels a b c.", "quantifier": "all channel lists", "why_tests_cant": "All lists; default handling of the argument parser interferes.", "anchors": ["ledsa/core/parser_arguments_declaration.py:add_parser_argument_analysis", "ledsa/analysis/data_preparation.py:apply_color_correction"]}
{"id": "C77", "title": "Post-processing opens simulations by any path", "statement": "SimData opens a simulation directory given by absolute or relative path.", "quantifier": "all paths and working directories", "why_tests_cant": "Tests pass absolute paths or '.'.", "anchors": ["ledsa/postprocessing/simulation.py:SimData.__init__"]}
{"id": "C78", "title": "Any number of LEDs can be analysed", "statement": "Result tables with any number n >= 1 of LEDs can be read back and used.", "quantifier": "all n", "why_tests_cant": "Fails for exactly one n.", "anchors": ["ledsa/core/file_handling.py:read_table", "ledsa/core/file_handling.py:create_binary_data", "ledsa/analysis/Experiment.py:get_led_ids"]}
{"id": "C79", "title": "List values given when creating the analysis configuration are used", "statement": "Camera channels, LED arrays and reference images passed as lists of integers when the analysis configuration is created are the ones used by the analysis afterwards.", "quantifier": "all lists of integers", "why_tests_cant": "Tests and demo pass ready-made strings, not the documented lists.", "anchors": ["ledsa/analysis/ConfigDataAnalysis.py:__init__", "ledsa/analysis/ConfigDataAnalysis.py:get_list_of_values"]}
{"id": "C80", "title": "Heights as labels of extinction coefficients", "statement": "Asking for heights instead of layer numbers labels the layers of the returned table with their heights, for coefficients at a time and for coefficients of an LED array.", "quantifier": "all tables, numbers of images and layers", "why_tests_cant": "Tests use the default labels.", "anchors": ["ledsa/postprocessing/simulation.py:SimData.get_extco_at_time", "ledsa/postprocessing/simulation.py:SimData.get_extco_at_led_array"]}
{"id": "C81", "title": "Post-processing with the analysed channels", "statement": "SimData reads all data of an experiment, whichever channels were analysed.", "quantifier": "all sets of channels", "why_tests_cant": "All sets; the test data contain all channels.", "anchors": ["ledsa/postprocessing/simulation.py:SimData.read_all", "ledsa/postprocessing/simulation.py:SimData.read_led_params"]}
{"id": "C82", "title": "Coefficient files are assigned to their channel and LED array", "statement": "Every coefficient file written by the analysis is assigned the channel and LED array it was calculated for, wherever the simulation directory is.", "quantifier": "all channels, LED arrays and directories", "why_tests_cant": "All directory names.", "anchors": ["ledsa/postprocessing/simulation.py:SimData._get_extco_df_from_path"]}
{"id": "C83", "title": "Pixel values around an LED", "statement": "The pixel values returned for an LED are those of its search area with the given radius, by default the radius of the configuration.", "quantifier": "all LED positions, radii and image sizes", "why_tests_cant": "Depends on the position relative to the border; the default is not tested.", "anchors": ["ledsa/postprocessing/simulation.py:SimData.get_pixel_values_of_led"]}
{"id": "C84", "title": "Pixel coordinates of an LED", "statement": "The pixel coordinates returned for an LED id are those saved for that LED; unknown ids raise an error.", "quantifier": "all LED tables", "why_tests_cant": "Relies on ids being row numbers, an invariant of earlier steps.", "anchors": ["ledsa/postprocessing/simulation.py:SimData.get_pixel_cordinates_of_LED"]}
{"id": "C85", "title": "Coefficients of all images are available", "statement": "After reading, the coefficients of every analysed image are available.", "quantifier": "all series of images", "why_tests_cant": "Depends on how many images are taken per second.", "anchors": ["ledsa/postprocessing/simulation.py:SimData._get_extco_df_from_path"]}
{"id": "C86", "title": "Analysed experiments can be opened", "statement": "Every experiment whose analysis ran through can be opened for post-processing and its coefficients are found.", "quantifier": "all settings of solver, reference images and averaging", "why_tests_cant": "All combinations of settings; two programs interpret the same options.", "anchors": ["ledsa/postprocessing/simulation.py:SimData.__init__", "ledsa/analysis/ExperimentData.py:load_config_parameters", "ledsa/core/parser_arguments_run.py:extionction_coefficient_calculation"]}
{"id": "C87", "title": "Saved coefficients are read back", "statement": "The times and coefficients read in post-processing are the ones saved by the analysis, for any number of layers and images.", "quantifier": "all numbers of layers and images, all values", "why_tests_cant": "Relies on the number of header lines agreeing in two places.", "anchors": ["ledsa/analysis/ExtinctionCoefficients.py:save", "ledsa/postprocessing/simulation.py:SimData._get_extco_df_from_path"]}
{"id": "C88", "title": "Image files are recognised whatever the case of the extension", "statement": "An image file whose extension denotes a supported type can be read whatever the case of the letters in its extension.", "quantifier": "all file names", "why_tests_cant": "All names and extensions; cameras write .JPG, .CR2 and mixed forms.", "anchors": ["ledsa/core/image_reading.py:read_channel_data_from_img", "ledsa/core/image_reading.py:read_img_array_from_img"]}
{"id": "C89", "title": "Requested analysis actions are carried out once", "statement": "In one call of the program each requested action (creating the analysis configuration, correcting the colours, calculating coefficients) is carried out once.", "quantifier": "all flag combinations", "why_tests_cant": "All combinations; a repeated action with the same result goes unnoticed.", "anchors": ["ledsa/__main__.py:main", "ledsa/core/parser_arguments_run.py:run_analysis_arguments_with_extinction_coefficient"]}
{"id": "C90", "title": "Demo requests", "statement": "With the demo option the demo is set up and run as requested, with the requested number of cores, and nothing else is done; without it the demo options have no effect.", "quantifier": "all option combinations", "why_tests_cant": "All combinations of options and values.", "anchors": ["ledsa/core/parser_arguments_run.py:run_demo_arguments", "ledsa/__main__.py:main"]}
{"id": "C91", "title": "Images without results", "statement": "If step 3 produced no result file for some of the images, the results of the other images can still be loaded and used.", "quantifier": "all sets of images without result file", "why_tests_cant": "Any set of missing files; tests have complete results.", "anchors": ["ledsa/core/file_handling.py:create_binary_data"]}
{"id": "C92", "title": "Older result files can be loaded", "statement": "Result files in the two older formats that the program knows (15 or 4 columns) can be loaded.", "quantifier": "all result files in these formats, all numbers of images and LEDs", "why_tests_cant": "Tests use files of the current format; the claim is about all contents.", "anchors": ["ledsa/core/file_handling.py:_get_old_columns", "ledsa/core/file_handling.py:create_binary_data"]}
{"id": "C93", "title": "Results of another directory", "statement": "Results can be read from a directory other than the working directory, with or without a binary file there, and reading leaves other directories unchanged.", "quantifier": "all directories, all contents", "why_tests_cant": "State of two directories; tests run in one.", "anchors": ["ledsa/core/file_handling.py:read_hdf"]}
{"id": "C94", "title": "Creating the binary file again gives the same data", "statement": "Creating the binary file of a channel again from unchanged result files gives the same data as creating it once.", "quantifier": "all result files, any number of repetitions", "why_tests_cant": "History property; tests create the file once.", "anchors": ["ledsa/core/file_handling.py:create_binary_data"]}
{"id": "C95", "title": "A known smoke profile is found by the whole analysis", "statement": "If the smoke weakens each LED by the exponential of the line integral of the extinction coefficient from camera to LED, the profile is linear in height, and the sight lines determine it, then the linear analysis returns exactly this profile for every image and layer, for any LED order in the files and any number of cores.", "quantifier": "all cameras, LED positions inside the layered domain, layer numbers, profiles with optical depth at most 23, reference images, image numbers", "why_tests_cant": "Composition of geometry, loading, normalisation, row order and solver for all setups; tests fix one experiment.", "anchors": ["ledsa/analysis/ExtinctionCoefficients.py:calc_and_set_coefficients", "ledsa/analysis/ExtinctionCoefficients.py:calc_distance_array", "ledsa/analysis/Experiment.py:calc_traversed_dist_per_layer", "ledsa/analysis/ExtinctionCoefficientsLinear.py:calc_coefficients_of_img"]}
{"id": "C96", "title": "LEDs outside the layer domain", "statement": "If single LEDs of an array are outside the height range of the layers, the other LEDs of the array can still be analysed.", "quantifier": "all arrays and LED positions", "why_tests_cant": "Claim about all geometries; the test setup has all LEDs inside.", "anchors": ["ledsa/analysis/Experiment.py:calc_traversed_dist_per_layer", "ledsa/analysis/ExtinctionCoefficients.py:calc_distance_array"]}
{"id": "C97", "title": "Added columns are stored", "statement": "After a column was added to the results of a channel, reading the channel gives its values in row order, all other columns as before, and other channels and directories are unchanged.", "quantifier": "all result tables, column names and values", "why_tests_cant": "Universal over tables; tests look at one column.", "anchors": ["ledsa/core/file_handling.py:extend_hdf", "ledsa/core/file_handling.py:read_hdf"]}
{"id": "C98", "title": "A new analysis configuration has the given values", "statement": "After creating an analysis configuration, every option has the value that was given, in the file and in the object that created it.", "quantifier": "all option values", "why_tests_cant": "All texts for 15 options, through writing and reading the file.", "anchors": ["ledsa/analysis/ConfigDataAnalysis.py:__init__", "ledsa/analysis/ConfigDataAnalysis.py:load", "ledsa/analysis/ExperimentData.py:__init__"]}
{"id": "C99", "title": "Missing parameters of the analysis are asked for", "statement": "If channels, LED arrays, number of layers, bounds or camera position are missing in the analysis configuration, the analysis asks for each of them once, uses and saves the answer, and keeps the given values; a later run asks nothing and uses the same settings.", "quantifier": "all configurations and answers, two consecutive runs", "why_tests_cant": "All combinations of texts and answers and the state of the file over several runs.", "anchors": ["ledsa/analysis/ExperimentData.py:load_config_parameters", "ledsa/analysis/ExperimentData.py:request_config_parameters", "ledsa/core/parser_arguments_run.py:extionction_coefficient_calculation"]}
{"id": "C100", "title": "The option for averaged images is used", "statement": "If average_images is set to True in the analysis configuration, the analysis uses intensities averaged over two consecutive images.", "quantifier": "all configurations", "why_tests_cant": "Non-interference over all configurations.", "anchors": ["ledsa/analysis/ConfigDataAnalysis.py:__init__", "ledsa/core/parser_arguments_run.py:extionction_coefficient_calculation"]}
{"id": "C101", "title": "Intensities reach the analysis from the pixels", "statement": "After step 3 (without fitting) on photos whose LEDs lie inside the picture, the table the analysis loads holds for every photo exactly the analysed LEDs, each once and in ascending order, with the photo's number, the LED's array, the sum of the pixel values in the LED's search area in that photo (relative error at most 5e-5, exact below 100000), their mean (same error), their maximum, and the LED's own coordinates.", "quantifier": "all photos with natural pixel values, all search areas and radii, all arrays and skip settings with at least two LEDs, all image lists, all coordinate files", "why_tests_cant": "the path leads over text files, column positions and a join; tests compare a few numbers of one experiment", "anchors": ["ledsa/data_extraction/DataExtractor.py:process_img_file", "ledsa/data_extraction/step_3_functions.py:create_fit_result_file", "ledsa/core/file_handling.py:create_binary_data"]}
{"id": "C102", "title": "Results with fitted LEDs can be loaded", "statement": "A result file written by step 3 with fitting can be loaded by the analysis, whatever the fitted values are.", "quantifier": "all LEDs, intensities and fit results", "why_tests_cant": "depends on the sign of a fitted value, which tests do not provoke", "anchors": ["ledsa/data_extraction/LEDAnalysisData.py:get_fit_data_string", "ledsa/core/file_handling.py:read_table"]}
{"id": "C103", "title": "Result files name their photo and its time", "statement": "The first line of a result file names the file name, channel and experiment time of the photo the values come from.", "quantifier": "all image lists, photos and channels", "why_tests_cant": "name and time are looked up in different ways (by id and by row), whose agreement is an invariant of all image lists", "anchors": ["ledsa/data_extraction/step_3_functions.py:_create_header", "ledsa/core/image_handling.py:get_img_name"]}
{"id": "C104", "title": "Step 3 processes every image of the list", "statement": "The list of images to process written by the setup of step 3 is read back as exactly the images of the image list, each once and under its own number, whatever the file names are.", "quantifier": "all image lists with distinct file names", "why_tests_cant": "depends on characters in file names and on the number of images", "anchors": ["ledsa/data_extraction/step_3_functions.py:create_imgs_to_process_file", "ledsa/data_extraction/DataExtractor.py:process_image_data"]}
{"id": "C105", "title": "Step 3 in a new session uses the LED arrays of step 2", "statement": "If step 3 is run in a new session, it uses exactly the LED arrays (merged, if configured) that the last step 2 has found, whatever earlier runs have left behind.", "quantifier": "all results of step 2, all earlier files, all configurations of number of arrays and merging", "why_tests_cant": "two configuration values must agree across sessions and stale files matter", "anchors": ["ledsa/data_extraction/DataExtractor.py:load_led_array_indices", "ledsa/data_extraction/step_2_functions.py:generate_led_array_indices_files"]}
{"id": "C106", "title": "Search areas survive their file", "statement": "The search areas read at the start of step 2 or 3 are those written by step 1 or 2: same LEDs, same pixel positions, same order.", "quantifier": "all tables of search areas", "why_tests_cant": "for all numbers of LEDs and all positions", "anchors": ["ledsa/data_extraction/DataExtractor.py:write_search_areas", "ledsa/data_extraction/DataExtractor.py:load_search_areas"]}
{"id": "C107", "title": "Text rounding hardly changes the optical depth", "statement": "Writing the intensities with five digits changes every relative intensity by a factor of at most 20001/19999 and its logarithm, the measured optical depth, by at most 2/19999.", "quantifier": "all positive intensities, all choices of reference images", "why_tests_cant": "an error bound over all intensities; tests can only sample", "anchors": ["ledsa/data_extraction/LEDAnalysisData.py:get_main_data_string", "ledsa/analysis/ExtinctionCoefficients.py:calc_and_set_ref_intensities"]}
{"id": "C108", "title": "Step 3 measures the LEDs that were matched", "statement": "Whatever sequence of step 1 and step 2 runs came before (repeated, failed, together or one by one): if the last detected LEDs have been matched and the options of step 3 fit, step 3 lists for every array exactly its matched LEDs, and every intensity is taken at the pixel where step 1 had found that LED.", "quantifier": "all histories of extraction runs, all detected LEDs, all matching options, all photos", "why_tests_cant": "an invariant over unbounded sequences of program runs with files left over from earlier ones", "anchors": ["ledsa/data_extraction/DataExtractor.py:find_search_areas", "ledsa/data_extraction/DataExtractor.py:match_leds_to_led_arrays", "ledsa/data_extraction/DataExtractor.py:process_image_data", "ledsa/core/parser_arguments_run.py:run_data_extraction_arguments"]}
{"id": "C109", "title": "Steps 1 and 2 give the same together or one by one", "statement": "Running steps 1 and 2 in one program or in two programs one after the other leaves the same files.", "quantifier": "all numbers and positions of LEDs, all options, all earlier files", "why_tests_cant": "equivalence of two ways of use for all inputs", "anchors": ["ledsa/data_extraction/DataExtractor.py:load_search_areas", "ledsa/data_extraction/DataExtractor.py:match_leds_to_led_arrays"]}
{"id": "C110", "title": "Step 3 does not use LED arrays of an earlier detection", "statement": "Step 3 stops if the LEDs of the last detection have not been matched to arrays.", "quantifier": "all histories of extraction runs", "why_tests_cant": "depends on what earlier runs have left behind, for all sequences", "anchors": ["ledsa/data_extraction/DataExtractor.py:load_led_array_indices", "ledsa/data_extraction/DataExtractor.py:setup_step3"]}
{"id": "C111", "title": "Measurement errors stay bounded in the coefficients", "statement": "If every intensity of an LED array is right up to a factor exp(g), the extinction coefficients found by the linear solver reproduce the optical depths along the lines of sight with errors whose squares add up to at most (number of LEDs)*(2g)^2, plus the smoothing weight times the squared bending of the true profile. If the rays determine linear profiles, a constant of the geometry and the smoothing bounds the error of the coefficients themselves in the same way.", "quantifier": "all geometries with rays inside the domain, all LEDs and reference choices, all smoke profiles, all errors, one or several cores", "why_tests_cant": "a stability bound over all profiles and all errors; tests compare single cases", "anchors": ["ledsa/analysis/ExtinctionCoefficientsLinear.py:calc_coefficients_of_img", "ledsa/analysis/ExtinctionCoefficients.py:calc_and_set_coefficients"]}
{"id": "C112", "title": "From the photos to the coefficients", "statement": "If the light of the LEDs in the photos follows the Beer-Lambert law up to a factor exp(g), then extracting the values with step 3, reading the result files and analysing the array gives coefficients that reproduce the optical depths of the true smoke, with errors bounded by those of the photos, the rounding in the text files (2/19999) and the smoothing.", "quantifier": "all photos, LED positions, arrays, geometries, smoke profiles and errors", "why_tests_cant": "composition of extraction, text files, tables and solver over all inputs", "anchors": ["ledsa/data_extraction/step_3_functions.py:generate_analysis_data", "ledsa/core/file_handling.py:create_binary_data", "ledsa/analysis/ExtinctionCoefficients.py:load_img_data", "ledsa/analysis/ExtinctionCoefficientsLinear.py:calc_coefficients_of_img"]}
{"id": "C113", "title": "Documented options are understood in any order and spelling", "statement": "A command line made of documented options sets exactly the requested flags and values: every flag is on exactly if one of its spellings occurs, a repeated option with a value takes the value given last, channels for the colour correction are collected in order. Neither the spelling nor the order of flags changes what the program does.", "quantifier": "all lists of documented options in all spellings, any order and repetition, all values not starting with a dash, all integers", "why_tests_cant": "The number of option lists is unbounded; tests try a few of them, and a new option can make an old spelling ambiguous.", "anchors": ["ledsa/__main__.py:main", "ledsa/core/parser_arguments_declaration.py:add_parser_arguments_data_extraction", "ledsa/core/parser_arguments_declaration.py:add_parser_argument_analysis", "ledsa/core/parser_arguments_declaration.py:add_parser_arguments_demo"]}
{"id": "C114", "title": "Channel letters can be written together", "statement": "The one-letter flags of the colour channels can be combined into one word, as usual on a command line: a dash followed by letters r, g, b in any order and number processes exactly these channels.", "quantifier": "all non-empty words over the letters r, g, b", "why_tests_cant": "The words are unboundedly many, and the failing one (-rg) is a proper beginning of another option.", "anchors": ["ledsa/core/parser_arguments_declaration.py:add_parser_arguments_data_extraction", "ledsa/core/parser_arguments_run.py:run_data_extraction_arguments"]}
{"id": "C115", "title": "A misspelled option stops the program before anything is done", "statement": "If a word of the command line starts with a dash but begins no documented option, or a word that is no option stands where no value is expected, the program ends with SystemExit and no file is touched, wherever the word stands and whatever else is requested.", "quantifier": "all lists of words containing such a word at any position", "why_tests_cant": "All positions and all other words have to be considered; a test can only misspell a few options.", "anchors": ["ledsa/__main__.py:main", "ledsa/core/parser_arguments_declaration.py:add_parser_arguments_data_extraction"]}
{"id": "C116", "title": "The demo runs without questions", "statement": "Once the demo is set up, its run asks nothing, for any number of cores: the configuration files written by the setup answer every question of the data extraction and of the analysis, there are ends and coordinates for every LED array, and the steps run in order up to the analysis of every array in every channel.", "quantifier": "all core counts, all answers the user might give, all ways to read decimal numbers", "why_tests_cant": "The demo needs a download of 5 GB; whether a question is asked depends on two configuration files after they were written, edited as text and read back.", "anchors": ["ledsa/demo/demo_setup.py:_create_config_files", "ledsa/demo/demo_setup.py:_edit_config_files", "ledsa/demo/demo_run.py:run_demo"]}
{"id": "C117", "title": "No download without consent", "statement": "Setting up the demo makes directories, downloads images and writes configuration files only if the user answers yes, and, where a demo was set up before, confirms a second time. A no ends the program with nothing done; anything else is asked again.", "quantifier": "all sequences of answers, with and without an earlier setup", "why_tests_cant": "The sequences of answers are unboundedly many, and the answers are typed.", "anchors": ["ledsa/demo/demo_setup.py:setup_demo", "ledsa/demo/demo_setup.py:_proceed_prompt"]}
{"id": "C118", "title": "All images of the archive are unpacked", "statement": "After the setup of the demo every image of the downloaded archive lies in the image directory under its own name and with its content; the archive and the folder are gone, other files are as before.", "quantifier": "all archives, all contents of the image directory before", "why_tests_cant": "The archive is outside the project and can be packed in different ways; a test uses one archive.", "anchors": ["ledsa/demo/demo_setup.py:_download_and_extract_images"]}
{"id": "C119", "title": "The nonlinear analysis finds a known smoke profile", "statement": "If the intensities of an image follow the Beer-Lambert law for a profile of extinction coefficients between 0 and 10 per metre that is linear in the layer number, and the rays determine such profiles, then the coefficients that the nonlinear solver looks for are that profile and nothing else. With errors of the intensities or a bent profile the distance from the truth is at most a constant times the error plus the curvature.", "quantifier": "all distance matrices, all profiles within the bounds, all measured intensities, all weights", "why_tests_cant": "A claim about the minimum of a function that is not convex, for every geometry and every smoke; a test can look at one minimum found by one run of the optimiser.", "anchors": ["ledsa/analysis/ExtinctionCoefficientsNonLinear.py:__init__", "ledsa/analysis/ExtinctionCoefficientsNonLinear.py:calc_coefficients_of_img", "ledsa/analysis/ExtinctionCoefficientsNonLinear.py:cost_function"]}
{"id": "C120", "title": "The nonlinear analysis reports no smoke in clear air", "statement": "If all relative intensities are 1, the coefficients that the nonlinear solver looks for with its default weights are zero in all layers.", "quantifier": "all distance matrices", "why_tests_cant": "Depends on which layers the rays of all LEDs cross and on the balance of three terms of the cost; a test sees one arrangement.", "anchors": ["ledsa/analysis/ExtinctionCoefficientsNonLinear.py:__init__", "ledsa/analysis/ExtinctionCoefficientsNonLinear.py:calc_coefficients_of_img", "ledsa/analysis/ExtinctionCoefficientsNonLinear.py:cost_function"]}
{"id": "C121", "title": "Removing duplicate heights keeps every LED array", "statement": "SimData with remove_duplicates=True keeps, for every image, every LED array and every height at which the array has an LED, one of the measured values, and a request for the LEDs of an array over the height returns them.", "quantifier": "all tables of LED parameters", "why_tests_cant": "Two LED arrays with LEDs at the same heights lose values only in combination; a test table has one array or distinct heights.", "anchors": ["ledsa/postprocessing/simulation.py:remove_duplicate_heights", "ledsa/postprocessing/simulation.py:get_ledparams_at_led_array"]}
{"id": "C122", "title": "Image lists can be written after the dialogue", "statement": "After the dialogue of a data extraction has ended without exception and the images of the experiment exist in the image directory, the image lists are written: one row for each image of the range with its name, its real time and its time since the start, the start being that of the first image if none is given.", "quantifier": "all configurations, image directories and name templates, image ranges, clock offsets", "why_tests_cant": "The start time is read from a path put together differently from the paths of the list; only some directories, templates and ids make them agree.", "anchors": ["ledsa/data_extraction/init_functions.py:generate_image_infos_csv", "ledsa/data_extraction/init_functions.py:request_config_parameters", "ledsa/core/ConfigData.py:get_start_time", "ledsa/data_extraction/init_functions.py:_calc_experiment_and_real_time"]}
{"id": "C123", "title": "A data extraction object can be created with any documented arguments", "statement": "DataExtractor can be created with all documented values of its arguments including the defaults; it asks for what is missing, makes the directories for its results, and leaves everything else as it is.", "quantifier": "all configurations, channels, answers, existing directories", "why_tests_cant": "The defaults are the values that tests replace; the effect on an existing configuration and on directories depends on the state before.", "anchors": ["ledsa/data_extraction/DataExtractor.py:__init__", "ledsa/data_extraction/init_functions.py:create_needed_directories", "ledsa/data_extraction/init_functions.py:request_config_parameters"]}
{"id": "C124", "title": "Distances per layer are right in floating point", "statement": "In double precision every distance that is computed for an LED and a layer is the length of the part of the line of sight in that layer up to a relative error of a few roundings; the layers that are set up follow each other without gaps; and the check of the distances rejects no LED in the domain because of roundings.", "quantifier": "all positions of camera and LED, all layers, all arithmetics with small relative errors including double precision, all orders of summation", "why_tests_cant": "Roundings depend on every digit of every coordinate; a test compares a few values up to a tolerance.", "anchors": ["ledsa/analysis/Experiment.py:calc_traversed_dist_per_layer", "ledsa/analysis/Experiment.py:__post_init__"]}
{"id": "C125", "title": "The linear analysis in floating point finds the smoke up to rounding", "statement": "If the light of the LEDs follows the Beer-Lambert law in the layers up to a given relative error, then the linear analysis in double precision - means of the reference images, relative intensities, clipping, logarithm, distances, regularisation and a minimiser of limited accuracy - returns coefficients whose optical depths along all lines of sight differ from the true ones by no more than that error, the smoothing and the accuracy of the minimiser cause, plus some hundred roundings, independent of the number of reference images.", "quantifier": "all arrangements of LEDs and layers, all intensities, all smoke with optical depths up to 23, all arithmetics with small relative errors", "why_tests_cant": "The roundings of all steps act together and with the measurement errors; tests compare one computed result with another one that has the same roundings.", "anchors": ["ledsa/analysis/ExtinctionCoefficientsLinear.py:calc_coefficients_of_img", "ledsa/analysis/ExtinctionCoefficients.py:calc_and_set_ref_intensities", "ledsa/analysis/Experiment.py:calc_traversed_dist_per_layer"]}
{"id": "C126", "title": "The coordinates command gives every LED its position", "statement": "After detection and matching, whatever was done before, the coordinates command writes one row for each LED of the arrays, in the order of the LED numbers; the row holds the pixel where the LED was detected and, up to the six decimals of the file, the point of the measured line of its array at the fraction given by the pixel. The edge LEDs named by the user get the measured points, and the analysis finds the position of an LED in the row of its number.", "quantifier": "all photos, all histories of invocations, all edge LEDs, all measured coordinates", "why_tests_cant": "The result depends on the files of two earlier steps, on the order of the index files (last LED first) and on the renumbering; tests of single functions with hand-made tables do not see the composition.", "anchors": ["ledsa/ledpositions/coordinates.py:calculate_coordinates", "ledsa/data_extraction/step_2_functions.py:generate_led_array_indices_files", "ledsa/analysis/Experiment.py:get_led_positions"]}
{"id": "C127", "title": "Ignoring an LED does not move the others", "statement": "If LEDs are added to the list of ignored LEDs and steps 1 and 2 and the coordinates command are run again, every LED still found in its array has the same pixel, position and height as before.", "quantifier": "all photos, all lists of ignored LEDs, all arrays, all measured coordinates", "why_tests_cant": "LED numbers shift with every ignored LED, so two runs have to be compared LED by LED; tests look at single runs.", "anchors": ["ledsa/ledpositions/coordinates.py:calculate_coordinates", "ledsa/data_extraction/step_2_functions.py:match_leds_to_led_arrays"]}
{"id": "C128", "title": "Width coordinates do not depend on which plane the fit finds", "statement": "If all LEDs are on one vertical wall, then whichever plane of least squares the fit returns, the differences of the width coordinates of the LEDs are their distances along the wall.", "quantifier": "all walls, all positions of LEDs on them, all planes of least squares", "why_tests_cant": "The fit has more parameters than the data determine, so one run of the optimiser shows only one of infinitely many admissible planes.", "anchors": ["ledsa/ledpositions/coordinates.py:_fit_plane", "ledsa/ledpositions/coordinates.py:_calculate_2d_coordinates"]}
{"id": "C129", "title": "Small errors of an LED position change the distances only a little", "statement": "If the position of an LED is wrong by a small amount, the distances its light travels in the layers, and the optical depth of its line of sight through any smoke, change by an amount proportional to the error.", "quantifier": "all cameras, LEDs, displacements, layers and smoke profiles", "why_tests_cant": "The worst case is a limit: LEDs arbitrarily near to the height of the camera; sampled positions miss it.", "anchors": ["ledsa/analysis/Experiment.py:calc_traversed_dist_per_layer", "ledsa/analysis/Experiment.py:calc_traversed_height_in_layer"]}
{"id": "C130", "title": "From the measured edge LEDs to the coefficients", "statement": "After detection and matching, the coordinates command and the analysis together work as if the LED positions were known: if the LEDs are near the points where the camera sees them on the lines between the measured edge LEDs, the coefficients reproduce the optical depths of the smoke along all lines of sight, up to the errors of the light, of the positions (including the decimals of the coordinates file) and the smoothing.", "quantifier": "all photos, histories of invocations, edge LEDs, measured coordinates, smoke profiles and intensities", "why_tests_cant": "Errors of the positions enter the matrix of the analysis and act on all coefficients; the composition of four programs through files cannot be covered by tests of one of them.", "anchors": ["ledsa/ledpositions/coordinates.py:calculate_coordinates", "ledsa/analysis/Experiment.py:set_leds", "ledsa/analysis/ExtinctionCoefficientsLinear.py:calc_coefficients_of_img"]}
{"id": "C131", "title": "From the photos to the smoke", "statement": "Take any sequence of runs of steps 1 and 2 that ends with matched LEDs, photos measured by step 3 of the data extraction, the coordinates command with surveyed ends of the arrays, the binary table built from the result files, and the linear analysis of one LED array (merged or not). If each LED's summed pixel values follow the Beer-Lambert law with a relative error gamma for a smoke field that is constant in each layer, and the LEDs are within eta of the lines between the surveyed ends, then the analysis reports non-negative coefficients whose optical depths along all lines of sight are close to those of the real smoke: the mean square deviation is bounded by an explicit expression in gamma, eta, the density of the smoke and the regularisation.", "quantifier": "for all histories of runs, all photos, arrays, merge groups, layers, cameras, smoke fields and errors; camera not at a layer border", "why_tests_cant": "The claim spans every program and file of the tool chain and all real smoke fields; a test fixes one experiment and compares with the output of the same code.", "anchors": ["ledsa/data_extraction/DataExtractor.py:DataExtractor", "ledsa/ledpositions/coordinates.py:calculate_coordinates", "ledsa/analysis/ExtinctionCoefficients.py:ExtinctionCoefficients", "ledsa/data_extraction/step_3_functions.py:generate_analysis_data"]}
{"id": "C132", "title": "Separate spots are detected one by one", "statement": "If the pixels above the threshold form separate spots - all pixels of a spot closer to each other than the search area radius, different spots farther apart than it, and no spot nearer than the radius to the upper or left border - step 1 reports every spot exactly once, at a brightest pixel of the spot, up to the configured number of LEDs; nothing else is reported.", "quantifier": "for all images, thresholds, radii, limits, all divisions of the bright pixels into spots, and every maximum finder that returns some brightest pixel", "why_tests_cant": "Images, spot shapes and ties between equally bright pixels are unbounded; a test only shows that the LEDs of one photo are found.", "anchors": ["ledsa/data_extraction/step_1_functions.py:find_search_areas"]}
{"id": "C133", "title": "Nearly straight arrays are matched completely and in order", "statement": "If the LEDs of each array lie close to a straight line in the photo (no farther from it than an eighteenth of the smallest gap between neighbours) and LEDs of other arrays are farther from each LED than the next LED of its own array by this gap, step 2 with the first and last LED of each array as edges returns exactly the arrays: all LEDs of the array, in order from the first to the last, no LED of another array, ignored LEDs removed; exactly the LEDs of no array are reported as not matched.", "quantifier": "for all tables of LEDs, any number of arrays of any length at least two, any direction of the lines, all lists of ignored LEDs", "why_tests_cant": "The greedy search depends on all distances between LEDs; tests use a few fixed layouts and cannot give the tolerance to deviations from a line.", "anchors": ["ledsa/data_extraction/step_2_functions.py:match_leds_to_led_arrays", "ledsa/data_extraction/step_2_functions.py:_find_next_led", "ledsa/data_extraction/step_2_functions.py:_find_neighbour_leds"]}
{"id": "C134", "title": "From the photo of a bench to its arrays and values", "statement": "Given a reference photo in which the LEDs are separate spots with one brightest pixel each and the LED arrays are nearly straight, step 1 gives every LED a number (from zero, brightest first); if the user enters the numbers of the first and last LED of each array, then after step 2 - in the same session or a later one, and whatever was done before - the arrays are those on the bench, and step 3 reports LED i of array k as LED of array k under the number (LEDs in the arrays before) + i, with the values of the photo around the brightest pixel of this very LED.", "quantifier": "for all photos, benches, numbers of arrays and LEDs, edge texts, earlier runs in the same directory, and every maximum finder", "why_tests_cant": "Three programs communicate by files and renumber the LEDs in between; a test compares with expected files of one photo, not with the physical arrangement.", "anchors": ["ledsa/data_extraction/DataExtractor.py:DataExtractor", "ledsa/data_extraction/step_1_functions.py:find_search_areas", "ledsa/data_extraction/step_2_functions.py:match_leds_to_led_arrays", "ledsa/data_extraction/step_3_functions.py:generate_analysis_data"]}
{"id": "C135", "title": "From the LED arrays on the bench to the smoke", "statement": "A user photographs LED arrays whose LEDs are separate bright spots on nearly straight lines, runs step 1, enters the numbers of the first and last LED of each array for step 2 and the measured positions of these LEDs, runs step 3 for all photos and the linear analysis of array k. Whatever numbers step 1 gives to the LEDs, the coefficients written for array k reproduce the optical depth of the smoke along the lines of sight to the LEDs of array k on the bench, with an error that is bounded by the error of the light in the photos, the distance of the LEDs from the straight line between the measured ends, the rounding in the files and the smoothing.", "quantifier": "all photos with separate spots, all numbers and sizes of arrays, all directions, all camera positions and layers, all smoke, all histories of the working directory", "why_tests_cant": "A test runs the steps on one set of recorded photos with fixed configuration; it cannot vary the numbering, the geometry and the smoke together.", "anchors": ["ledsa/data_extraction/step_1_functions.py:find_search_areas", "ledsa/data_extraction/step_2_functions.py:match_leds_to_led_arrays", "ledsa/ledpositions/coordinates.py:calculate_coordinates", "ledsa/data_extraction/step_3_functions.py:generate_analysis_data", "ledsa/analysis/ExtinctionCoefficientsLinear.py:ExtinctionCoefficientsLinear"]}
{"id": "C136", "title": "Photos are numbered in the order in which they were taken", "statement": "The renaming tool takes into account every image of the directory whose type the user names, each once, and numbers the images in the order in which they were taken: an image with a smaller number was not taken after one with a larger number. Each image and its raw file get the same number, no content is lost and no other file is touched.", "quantifier": "for all directories, image and raw types, capture times and fractions of a second in the EXIF data, and all orders in which the directory lists its files", "why_tests_cant": "Order depends on the EXIF texts of all images together, including missing or differently long fractions and the arrangement of equal dates by the sort; a test renames a few files with convenient dates.", "anchors": ["ledsa/tools/photo_renamer.py:get_files", "ledsa/tools/photo_renamer.py:rename_files"]}
{"id": "C137", "title": "From the LED arrays on the bench to the smoke, in floating point", "statement": "A user photographs LED arrays whose LEDs are separate bright spots on nearly straight lines, runs step 1, enters the numbers of the first and last LED of each array for step 2 and the measured positions of these LEDs, runs step 3 for all photos and the linear analysis of array k. The analysis reads its numbers from the files with rounding and calculates layers, distances, reference values, relative intensities and optical depths in floating point, and its solver stops within ε of the minimum. It still returns coefficients for every photo, none negative, and the optical depths they give along the lines of sight differ from those of the smoke on the bench only by a bound that consists of the error of the light in the photos, the error of the positions, the unit roundoff, ε and the smoothing.", "quantifier": "all photos with separate spots, all numbers and sizes of arrays, all directions, all camera positions and layers, all smoke, all histories of the working directory, all rounding machines and readers within the stated unit roundoff, all solvers within ε", "why_tests_cant": "A test compares one result with a recorded one up to a tolerance; it says nothing about how the roundings of four programs and their files add up for other geometries and photos.", "anchors": ["ledsa/data_extraction/step_2_functions.py:match_leds_to_led_arrays", "ledsa/ledpositions/coordinates.py:calculate_coordinates", "ledsa/data_extraction/step_3_functions.py:generate_analysis_data", "ledsa/analysis/ExtinctionCoefficients.py:ExtinctionCoefficients", "ledsa/analysis/ExtinctionCoefficientsLinear.py:ExtinctionCoefficientsLinear"]}
{"id": "C138", "title": "Coefficients can be looked up by array, layer, height and time", "statement": "After the analysis has saved its files, a user of the post-processing class asks for the extinction coefficients of an LED array, of a layer, at a height or at a time. All four requests show the same table: the entry for photo i, array a and layer l is the coefficient saved for them, under the time of the photo, the number of the array and the number of the layer, whatever order the files were found in. Channels, arrays, layers and times that were not analysed raise KeyError.", "quantifier": "all numbers of photos, channels, arrays and layers, all orders of the files, all times, all coefficients", "why_tests_cant": "Tests would read a few files of one simulation; they do not settle the order in which the file system lists the files, photos within one second, or other sets of channels and arrays.", "anchors": ["ledsa/postprocessing/simulation.py:SimData._get_extco_df_from_path", "ledsa/postprocessing/simulation.py:SimData.get_extco_at_time", "ledsa/postprocessing/simulation.py:SimData.get_extco_at_led_array", "ledsa/postprocessing/simulation.py:SimData.get_extco_at_layer", "ledsa/postprocessing/simulation.py:SimData.get_extco_at_height"]}
{"id": "C139", "title": "Heights shown for the layers denote these layers", "statement": "If heights are requested instead of layer numbers, the rows carry the lower border, upper border or centre of the layers in ascending order, correct to the shown digits and different for different layers, and a request for a shown height returns the coefficients of the layer it was shown for.", "quantifier": "all domains, all numbers of layers, all layers, all three references", "why_tests_cant": "Tests use a domain whose borders have two digits; whether rounding merges labels or moves them into the neighbouring layer depends on the domain and the number of layers.", "anchors": ["ledsa/postprocessing/simulation.py:SimData.__init__", "ledsa/postprocessing/simulation.py:SimData.get_extco_at_time", "ledsa/postprocessing/simulation.py:SimData.get_extco_at_height"]}
{"id": "C140", "title": "Ends of the LED arrays are used as entered, in this and every later run", "statement": "When the LED numbers or the room coordinates of the ends of the LED arrays are not set, the program asks for one line per LED array. What is entered for an array is what step 2 and the calculation of the positions use for this array, in this run and in every later run; later runs do not ask again; a wrong entry is reported, or can be corrected by running the program again.", "quantifier": "for all numbers of arrays, entered texts, and sequences of later runs with any answers", "why_tests_cant": "The entered lines pass through one text, the file, and a split into rows of fixed length; which entry reaches which array depends on all lines and on the history of runs.", "anchors": ["ledsa/core/ConfigData.py:377-407", "ledsa/core/ConfigData.py:191-221", "ledsa/data_extraction/step_2_functions.py:206-232", "ledsa/ledpositions/coordinates.py:79-98"]}
{"id": "C141", "title": "The analysis command delivers every LED array and channel to post-processing", "statement": "A user runs the analysis command for a list of LED arrays and channels and then opens the results with the post-processing class. For every requested LED array and channel a file with the times and coefficients of exactly this pair is saved; other files are left alone; every request shows the coefficients of the latest analysis; an LED array that cannot be analysed does not affect the others.", "quantifier": "for all lists of LED arrays and channels, coefficients, times, earlier results in the directory, orders in which the files are found, and numbers of repetitions of the command", "why_tests_cant": "Which file is written, kept or mixed into the table depends on all pairs, on earlier runs and on the first failing pair; a test covers one combination.", "anchors": ["ledsa/core/parser_arguments_run.py:193-249", "ledsa/analysis/ExtinctionCoefficients.py:135-159", "ledsa/postprocessing/simulation.py:162-189"]}
{"id": "C142", "title": "From the bench to the numbers shown", "statement": "If LED arrays on a bench are photographed, detected, matched and measured in all photos and colour channels, their positions interpolated between the surveyed ends, the coefficients of the requested arrays and channels calculated and saved by the analysis command, and the saved files read by post-processing, then for every photo, channel, LED array and layer a coefficient is shown, at the experiment time of the photo, the same whether asked for by array, layer, height or time; it is not negative, and the optical depths of the coefficients shown for a photo are those of the smoke in front of the LEDs of this array up to a bound made of the rounding, survey and solver errors.", "quantifier": "for all benches with separate spots and straight arrays, all photos, channels, sets of arrays, smoke up to optical depth 23, floating point formats, solvers with a residual error, and orders in which the files are found", "why_tests_cant": "The statement joins every stage of the program over unboundedly many benches, photos and roundings; a test compares one recorded data set with numbers recorded from an earlier version.", "anchors": ["ledsa/core/parser_arguments_run.py:extionction_coefficient_calculation", "ledsa/analysis/ExtinctionCoefficients.py:ExtinctionCoefficients.save", "ledsa/postprocessing/simulation.py:SimData", "ledsa/data_extraction/DataExtractor.py:DataExtractor"]}
{"id": "C143", "title": "Colour corrected values reach the analysis", "statement": "After a colour correction of the recorded channels with an invertible matrix, every channel has for every image and LED the corrected value as an additional property, and everything else is as before; if the recorded values were mixed by the matrix, an analysis of the corrected property gives what an analysis of the values before mixing would give. Channels about different images or LEDs are rejected, a failed correction changes nothing, a repeated one neither, and an analysis requested together with the correction uses the corrected values.", "quantifier": "for all matrices, numbers of channels, tables, properties, histories of the binary files and sums", "why_tests_cant": "The values of all channels, images and LEDs are joined, multiplied, converted to 16 bits and written back by position; a wrong assignment or overflow shows only for particular tables and sums, and a failure leaves some channels written.", "anchors": ["ledsa/analysis/data_preparation.py:7-28", "ledsa/core/parser_arguments_run.py:142-156", "ledsa/core/file_handling.py:203-217", "ledsa/analysis/ExtinctionCoefficients.py:120-133"]}
{"id": "C144", "title": "An experiment object has the LEDs of its array", "statement": "An experiment object has exactly the LEDs listed for its LED array, each at the position calculated for its number; the merged arrays are used if and only if merging is chosen, and not by default; other files do not matter; missing files, including the configuration, are reported as missing.", "quantifier": "for all directories, LED arrays, values of the merge option and contents of the files", "why_tests_cant": "Which file is read depends on a comparison of values of different types; errors are printed and forgotten, so that the failure appears elsewhere.", "anchors": ["ledsa/analysis/Experiment.py:134-162", "ledsa/analysis/Experiment.py:273-313", "ledsa/analysis/ExtinctionCoefficients.py:161-175", "ledsa/core/ConfigData.py:170-181", "ledsa/analysis/ExperimentData.py:65-106"]}
{"id": "C145", "title": "Which LED arrays determine the smoke profile", "statement": "The lines of sight of an LED array determine a smoke profile that changes linearly with height if and only if its LEDs are not all at one height and the lines of sight cross at least two layers; two LEDs on different sides of a border between layers suffice. Exactly for such arrays there is a constant that bounds the coefficients by the optical depths and the bending, the linear analysis has only one result, and for any photos, bench and history of the extraction steps the sum of the squared errors of the coefficients is at most four times this constant times the errors of the light, the positions and the bending of the smoke.", "quantifier": "for all camera positions, LED positions, layers, smoke profiles, light errors, histories of the program", "why_tests_cant": "Whether the measurement is solvable depends on the geometry of all lines of sight together; near a degenerate arrangement a solver still returns numbers, which are arbitrary.", "anchors": ["ledsa/analysis/Experiment.py:170-191", "ledsa/analysis/Experiment.py:193-262", "ledsa/analysis/ExtinctionCoefficientsLinear.py:43-94", "ledsa/analysis/ExtinctionCoefficients.py:73-103"]}
{"id": "C146", "title": "The whole program with the nonlinear solver", "statement": "If the nonlinear solver stops at coefficients whose cost is near the least possible, then for every LED array that determines linear smoke profiles, any history of the extraction steps, any photos and any smoke of at most 10 per metre, the sum of the errors of the coefficients is bounded by the errors of the light, the positions, the text files, the curvature of the smoke and the remaining cost, provided these and the preference are small compared to the light that arrives. The coefficients are between 0 and 10.", "quantifier": "for all benches, histories, photos, smoke profiles, weights and solver tolerances", "why_tests_cant": "The cost function is not convex and its minimum moves with every weight and position; whether a wrong profile fits as well as the true one cannot be seen from examples.", "anchors": ["ledsa/analysis/ExtinctionCoefficientsNonLinear.py:59-82", "ledsa/analysis/ExtinctionCoefficientsNonLinear.py:112-144", "ledsa/analysis/ExtinctionCoefficients.py:73-103"]}
{"id": "C147", "title": "Results do not depend on the coordinate system of the room", "statement": "Measuring the camera, the edge LEDs and the bounds of the domain in a coordinate system with another origin, turned or mirrored horizontally, changes nothing: the coordinates command gives every LED of an array its old position in the new coordinates, the lengths in the layers and all possible results of both solvers stay the same, including failures. In another unit of length the linear analysis gives the same smoke per unit if the weight of the smoothness is converted with the square of the factor.", "quantifier": "for all changes of the coordinate system, units, cameras, LED arrays, layers, measured tables", "why_tests_cant": "An expected value for one coordinate system says nothing about the infinitely many others; an accidental dependence (an absolute coordinate, a projection with a fixed axis) only shows for directions nobody tried.", "anchors": ["ledsa/analysis/Experiment.py:170-191", "ledsa/analysis/Experiment.py:193-262", "ledsa/ledpositions/coordinates.py:72-118", "ledsa/analysis/ExtinctionCoefficientsLinear.py:43-94"]}
{"id": "C148", "title": "Every image has its own coefficients", "statement": "The coefficients of an image depend on the light of the LEDs in this photo and in the reference photos and on nothing else: changing, adding or removing other photos, or changing these photos outside the search areas, does not change what the analysis can find for it, with both solvers and any number of cores. In particular the analysis of the first images gives the same as the analysis of all images for these, if it contains the reference images. Whether the linear analysis fails does not depend on the images.", "quantifier": "for all series of photos, histories of the program, LED arrays, merges, solvers, reference images", "why_tests_cant": "The independence is a statement about pairs of runs with arbitrarily different photos; state carried over from one image to the next shows up only for particular sequences.", "anchors": ["ledsa/analysis/ExtinctionCoefficients.py:73-103", "ledsa/analysis/ExtinctionCoefficients.py:177-191", "ledsa/analysis/ExtinctionCoefficients.py:231-245", "ledsa/data_extraction/step_3_functions.py:95-145"]}
{"id": "C149", "title": "Which LEDs step 1 finds does not depend on exposure, black level or tone curve", "statement": "If two reference images of the same size have the same pixels above their thresholds, in the same order of brightness, step 1 reports the same LEDs with the same ids at the same positions, and after any history of steps 1 and 2 the search areas, the flag and the index files are the same. With the percentile threshold of the program this holds for every strictly increasing change of pixel values to non-negative values (longer exposure, added background light, gamma correction), because the pixels above the percentile are the same whatever the interpolation. It is false for a sensor that cuts values off at a limit (overexposure).", "quantifier": "for all images with non-negative pixels, all percentiles from 0 to 100, radii, limits, strictly increasing tone curves, and histories of invocations", "why_tests_cant": "A test compares two exposures of one photo. That only comparisons of bright pixels matter, through the percentile interpolation and the repeated blanking of search areas, for every photo and every tone curve, needs an induction over the search loop and an argument about order statistics.", "anchors": ["ledsa/data_extraction/step_1_functions.py:27-43", "ledsa/data_extraction/DataExtractor.py:90-111"]}
{"id": "C150", "title": "The extraction moves with the photo", "statement": "If the bright pixels of a second reference image are those of the first, moved by some rows and columns (a moved camera, another crop), none nearer to the upper or left border than the search radius, then step 1 finds the same LEDs with the same ids at the moved positions; step 2, whose distances do not change when both pixels move, puts them into the same LED arrays; and step 3 reports for the moved photos the same LED and array numbers and exactly the same sums, means and maxima, or fails in the same way. Near the border this is false: an LED is found more than once.", "quantifier": "for all photos, displacements, thresholds, radii, options of steps 2 and 3, and all histories of invocations of steps 1 and 2", "why_tests_cant": "A test moves one photo by one displacement. That no step depends on absolute pixel positions, for every history of invocations, needs a simulation argument between two runs through the files of all three steps.", "anchors": ["ledsa/data_extraction/step_1_functions.py:27-43", "ledsa/data_extraction/step_2_functions.py:8-107", "ledsa/data_extraction/step_3_functions.py:110-162"]}
{"id": "C151", "title": "From the bench to the smoke with ignored LEDs and merged arrays", "statement": "Photograph any bench of LED arrays, run step 1, give the numbers of the first and last LEDs, of LEDs to ignore and of arrays to merge for step 2, measure the positions of the first and last LED of each array that are not ignored, run step 3 for all photos and channels, the analysis and the post-processing. If every merge group lists its arrays in ascending order and no array is in two groups, then array k of the analysis stands for exactly the LEDs of the k-th group on the bench that are not ignored, and the coefficients found and shown for it reproduce the optical depths of the smoke along the lines of sight to these LEDs, with both solvers, also in floating point.", "quantifier": "for all benches, sets of ignored LEDs, ascending disjoint merge groups, photos, smoke, histories of the program, channels, machines and solver tolerances", "why_tests_cant": "Ignoring LEDs renumbers all LEDs after them, merging changes file names and the order of ids, and the measured ends belong to other LEDs than the edge indices if an edge LED is ignored. A test fixes one such configuration; that numbers, positions and values of the same LED meet in the analysis for every configuration needs a proof through all files.", "anchors": ["ledsa/data_extraction/step_2_functions.py:8-107", "ledsa/data_extraction/step_2_functions.py:384-425", "ledsa/data_extraction/DataExtractor.py:150-193", "ledsa/ledpositions/coordinates.py:57-118", "ledsa/analysis/Experiment.py:193-262", "ledsa/analysis/ExtinctionCoefficients.py:73-103"]}
{"id": "C152", "title": "The nonlinear solver in floating point, from the bench to the numbers shown", "statement": "Run the whole program on any bench, with ignored LEDs and ascending disjoint merge groups, and analyse with the nonlinear solver. If the solver stops at coefficients whose cost, for the rounded distances and intensities, is near the least possible, then the numbers that the post-processing shows for every LED array, channel, time and layer are between 0 and 10, and the sum of their errors is bounded by the errors of the light, of the positions and of the text files, the curvature of the smoke, the remaining cost, and a few roundings. Rounding errors of the distances change the light of the model by at most a few units in the last place, however thick the smoke is.", "quantifier": "for all benches, ignored LEDs, merge groups, photos, smoke profiles of at most 10 per metre, weights, solver tolerances, channels and floating point machines with relative error bounds", "why_tests_cant": "The minimum of a cost function that is not convex may jump under a rounding of its coefficients; that it stays near the smoke for every experiment is a statement about all roundings, which no test samples.", "anchors": ["ledsa/analysis/ExtinctionCoefficientsNonLinear.py:59-82", "ledsa/analysis/ExtinctionCoefficientsNonLinear.py:112-144", "ledsa/analysis/ExtinctionCoefficients.py:73-118", "ledsa/core/parser_arguments_run.py:223-248"]}
{"id": "C153", "title": "The shape of a table that is read", "statement": "Reading a text table of numbers keeps all its numbers in order. With atleast_2d the result has the rows of the file exactly if the file has a single row or at least two columns; a single column of several rows comes back as one row. Without atleast_2d the rows come back exactly for at least two rows and two columns, and otherwise as a vector. Reading fails exactly if the rows have different numbers of fields.", "quantifier": "for all tables", "why_tests_cant": "The shape depends on the numbers of rows and columns; tests with tables of usual size do not meet the degenerate ones, which occur for a single image, a single LED or a single column.", "anchors": ["ledsa/core/file_handling.py:74-113"]}
{"id": "C154", "title": "Smoke twice as dense gives coefficients twice as large", "statement": "If the light losses of all LEDs are multiplied by a factor on the logarithmic scale, the linear analysis returns the coefficients multiplied by this factor; if the light passes the smoke of two sources, it returns the sum of the coefficients of the two; an LED that alone gets darker does not get a smaller calculated light loss; and if all LEDs get darker, no coefficient gets smaller.", "quantifier": "all geometries, weights of the smoothness, measured values (consistent or not) and factors", "why_tests_cant": "A test compares single runs; proportionality for inconsistent measured data is a property of the constrained minimisation itself.", "anchors": ["ledsa/analysis/ExtinctionCoefficientsLinear.py:43-92", "ledsa/analysis/ExtinctionCoefficients.py:73-103", "ledsa/analysis/ExtinctionCoefficientsNonLinear.py:59-138"]}
{"id": "C155", "title": "Saved coefficients are read back digit for digit", "statement": "The extinction coefficients and times that the analysis saves as text come back unchanged when the file is read: the head has exactly the lines that the reader skips, every number is written with nineteen digits, an error of at most half a unit of the last digit, and seventeen digits identify a floating point number, so a reader that rounds correctly returns the same numbers, for any head, number of images and layers. No two different numbers have the same text. A reader that is off by a relative error returns every coefficient within this error and the whole seconds exactly. With sixteen digits different numbers could be merged.", "quantifier": "for all floating point numbers (of any exponent), heads without line breaks, numbers of images and layers, whole times up to 2^53, and readers with a relative error", "why_tests_cant": "A round trip of sample numbers does not show that no number is changed: the critical ones are next to powers of two and at rounding ties, among 2^64 numbers.", "anchors": ["ledsa/analysis/ExtinctionCoefficients.py:135-159", "ledsa/analysis/ExtinctionCoefficients.py:68-71", "ledsa/analysis/Experiment.py:164-168", "ledsa/postprocessing/simulation.py:162-184"]}
{"id": "C156", "title": "A complete run of steps 1 and 2 repairs whatever killed runs have left", "statement": "Whatever sequence of invocations of steps 1 and 2 was carried out, each of them possibly killed at any moment, also in the middle of a file, beginning with any files at all: once steps 1 and 2 have run completely (in one invocation or in two), step 3 measures exactly what it would measure in a new directory, also if step 2 is tried again afterwards and killed. A table of search areas that was cut off is refused, or LEDs at its end are missing, or final digits of the column of its last LED; nothing else can be read from it. Not guaranteed: that a table cut off is noticed, and that step 2 alone, repeated after a kill, is right - killed after the table was renumbered (while the plot is drawn) it numbers the LEDs a second time and step 3 exchanges them without a message.", "quantifier": "for all files at the beginning, sequences of invocations and options, moments of the kill (between two changes or after any number of characters), photos and distances", "why_tests_cant": "A kill can come at any character of any file in any of the invocations; tests run the steps to their end.", "anchors": ["ledsa/data_extraction/DataExtractor.py:108-111", "ledsa/data_extraction/DataExtractor.py:153-177", "ledsa/core/file_handling.py:11-45", "ledsa/data_extraction/step_2_functions.py:289-313", "ledsa/core/parser_arguments_run.py:73-88"]}
{"id": "C157", "title": "A result file that was cut off does not give wrong coefficients", "statement": "If result files of step 3 were cut off at any character (the program was killed, the disk was full), the number, array, sum and mean of every LED that is still read from them are those of the complete file; only final digits of the maximum of the last LED can be missing. If the analysis nevertheless delivers coefficients for all images, serially or with several cores, these are the coefficients of the complete files - provided no file has exactly one LED of the array left. Not guaranteed: that a file with a single LED of the array is noticed; its value is silently used for all LEDs of the array.", "quantifier": "for all result files without fit, positions of the cut (any subset of the files), LED arrays, reference images, numbers of layers and cores", "why_tests_cant": "The cut can be at any character of any file, and whether it is noticed depends on the number of LEDs left in each array; a test covers single positions.", "anchors": ["ledsa/data_extraction/step_3_functions.py:165-188", "ledsa/data_extraction/LEDAnalysisData.py:62-71", "ledsa/core/file_handling.py:74-113", "ledsa/core/file_handling.py:247-265", "ledsa/analysis/ExtinctionCoefficients.py:73-103", "ledsa/analysis/ExtinctionCoefficients.py:231-245"]}
{"id": "C158", "title": "The LED curves of the post-processing are the light in the photos", "statement": "For every analysed photo and every analysed LED of the array, the table of LED parameters (`sum_col_val`) has exactly one cell, at the experiment time of that photo plus the time shift: the sum of the pixel values in the search area of the LED in that photo to five digits, or its ratio to the mean over the first reference photos. Other cells do not exist. The table exists exactly if no two photos have the same time in whole seconds; the curve of a single LED always exists (without the shift). Sums below 100000 are exact, so the ratio is that of the light in the photos.", "quantifier": "all photos, search areas, LED arrays, ignored LEDs, image lists and times, numbers of reference images, shifts", "why_tests_cant": "The statement runs through three programs (extraction, table, post-processing) and their files; tests of the post-processing start with an existing HDF5 table.", "anchors": ["ledsa/postprocessing/simulation.py:142-160", "ledsa/postprocessing/simulation.py:347-437", "ledsa/data_extraction/step_3_functions.py:11-80", "ledsa/core/file_handling.py:200-376"]}
{"id": "C159", "title": "The notation of options in configuration files does not matter", "statement": "Which values the program reads from config.ini and config_analysis.ini does not depend on how the user writes them: `=` or `:`, blanks around it and at the end of the line, upper or lower case of the option name, indentation, the order of options and of sections.", "quantifier": "all files, options, values, notations", "why_tests_cant": "Tests read files that the program itself has written; the combinations of notations and contexts of a line are unbounded.", "anchors": ["ledsa/core/ConfigData.py:83-160", "ledsa/analysis/ConfigDataAnalysis.py:91-104"]}
{"id": "C160", "title": "The numbering of the LEDs and the direction of an array do not matter", "statement": "Two runs of the program on the same photos with the same detected LEDs: the arrays may be given in another order in the configuration, other arrays may be added or left out, and the two ends of an array may be exchanged (together with their measured positions). The files then give the LEDs other numbers and list them in another order, but the analysis of the array that consists of the same LEDs can return exactly the same extinction coefficients, with the linear and with the nonlinear solver. The same holds for any two sets of files that describe the same LEDs with different numbers, and for any number of cores.", "quantifier": "all photos, detected LEDs, arrays, end positions, numberings, camera positions, layers, weights, histories of step 1 and step 2 before the runs", "why_tests_cant": "Needs two complete runs with different numbers in every file; a test fixes one order of the arrays, and an error that pairs values with wrong positions only shows for arrays that are not symmetric.", "anchors": ["ledsa/data_extraction/step_2_functions.py:match_leds_to_led_arrays", "ledsa/analysis/ExtinctionCoefficients.py:calc_distance_array", "ledsa/analysis/ExtinctionCoefficientsLinear.py:calc_coefficients_of_img", "ledsa/analysis/ExtinctionCoefficientsNonLinear.py:cost_function", "ledsa/ledpositions/coordinates.py"]}
{"id": "C161", "title": "Step 3 can run for several channels at the same time", "statement": "When several runs of step 3 are started at the same time in one working directory, each with channels of its own, every run that ends without an error has left complete and right result files for all images of its channels, whatever the order in which the operating system lets the runs proceed.", "quantifier": "all numbers of runs, channel lists, image tables, contents of the working directory at the start and all interleavings of the steps of the runs", "why_tests_cant": "a test runs one interleaving on one machine; the harmful ones need a particular moment", "anchors": ["ledsa/data_extraction/DataExtractor.py", "ledsa/data_extraction/step_3_functions.py", "ledsa/data_extraction/init_functions.py", "ledsa/core/image_handling.py"]}
{"id": "C162", "title": "The exposure checker shows 100 % exactly for saturated photos", "statement": "For every photo the exposure checker shows the largest value of each channel and the saturation in percent; it shows 100 % exactly if a pixel of the channel is saturated.", "quantifier": "all photos of all supported kinds, all black and white levels of cameras, all name templates and lists of photos", "why_tests_cant": "tests use sample photos; whether overexposure is always recognised depends on the levels of the camera and the rounding of all values", "anchors": ["ledsa/tools/exposure_checker.ipynb", "ledsa/core/image_reading.py"]}
{"id": "C163", "title": "Widman relation", "statement": "The specific extinction from the Widman relation is positive and falls with the wavelength; the ratio of two wavelengths does not depend on the unit of length.", "quantifier": "all positive wavelengths and units", "why_tests_cant": "tests evaluate sample wavelengths", "anchors": ["ledsa/postprocessing/helper_functions.py"]}
{"id": "C164", "title": "Steps 1 and 2 that were killed can be taken up again", "statement": "If step 1 or step 2 is killed at any moment (terminal closed, battery empty), it is determined what the files contain afterwards: complete tables, the beginning of the one being written, and the old content of all others. Running step 2 again completes what is missing, and an LED array index file that was cut off gives an error or at least only LEDs of that array.", "quantifier": "all photos, options and earlier contents of the files, all moments at which step 1 or 2 is killed and all lengths of what was already written, all later invocations of step 2", "why_tests_cant": "the process has to be killed between two particular writes; no test does that, and the damaged files are accepted without a message", "anchors": ["ledsa/data_extraction/DataExtractor.py", "ledsa/data_extraction/step_2_functions.py", "ledsa/core/file_handling.py"]}
{"id": "C165", "title": "A file of extinction coefficients documents how it was calculated", "statement": "From a file of extinction coefficients the settings of the analysis can be read: channel, LED array, layers, camera, quantity, reference images, solver with its parameters and version; the lines with the heights give the borders and centres of the layers. Files made with different settings are never alike.", "quantifier": "all settings, any number of layers and images, any numbers in the file, any representation of floating point numbers with distinct texts", "why_tests_cant": "a test compares a head with one expected text; whether two different settings can give the same file needs all pairs of settings", "anchors": ["ledsa/analysis/ExtinctionCoefficients.py", "ledsa/analysis/ExtinctionCoefficientsLinear.py", "ledsa/analysis/ExtinctionCoefficientsNonLinear.py", "ledsa/analysis/Experiment.py"]}
{"id": "C166", "title": "PNG photos give the same results as JPG photos with the same pixels", "statement": "A photo stored as PNG gives the same LEDs in step 1 and, up to the common factor 255 and the accuracy of single precision, the same sums, means and maxima in step 3 as its bytes do, so that relative intensities and with them extinction coefficients do not depend on the file format.", "quantifier": "all photos of any size, all channels and the option all, all percentiles, radii and limits, any rounding of the pixel values that keeps their order", "why_tests_cant": "a test reads one small PNG file; whether an LED is found needs the grey values of all possible photos", "anchors": ["ledsa/core/image_reading.py", "ledsa/data_extraction/DataExtractor.py", "ledsa/data_extraction/step_1_functions.py", "ledsa/data_extraction/step_3_functions.py"]}
{"id": "C167", "title": "Averaged images hold the mean light of consecutive images", "statement": "Averaging keeps the reference images and replaces the following ones by the means of groups of consecutive images: every LED has its own means under the ids that belong to the averaged times, no LED gets values of another one or of other photos, and the optical depth of an averaged image lies between those of its photos.", "quantifier": "all tables of a channel, any number of LEDs, arrays and images, any number of reference images and any group size, all positive intensities", "why_tests_cant": "a test averages one small table; alignment with the times for every number of images, incomplete groups and missing rows needs all tables", "anchors": ["ledsa/core/file_handling.py"]}
{"id": "C168", "title": "LED arrays merged after the extraction are noticed", "statement": "If the option for merging LED arrays was changed between step 3 and the analysis, the analysis of an array ends with an error instead of combining light of one set of LEDs with the positions of another.", "quantifier": "all arrays, merge groups, values, numbers of images, coordinates and both solvers", "why_tests_cant": "a test runs extraction and analysis with one setting; the mismatch appears only for combinations of settings, and whether it is noticed depends on the sizes of all arrays", "anchors": ["ledsa/data_extraction/step_2_functions.py", "ledsa/analysis/Experiment.py", "ledsa/analysis/ExtinctionCoefficients.py", "ledsa/analysis/ExtinctionCoefficientsLinear.py", "ledsa/analysis/ExtinctionCoefficientsNonLinear.py"]}
{"id": "C169", "title": "The radius of the search areas does not influence the results", "statement": "As long as the search areas contain the whole light spots of their LEDs and no others, the radius does not matter for the relative intensities, whichever of sum, mean and maximum is analysed.", "quantifier": "all photos, positions, spots, radii, backgrounds", "why_tests_cant": "tests use one radius; the influence of the radius depends on all pixels around all LEDs", "anchors": ["ledsa/data_extraction/step_3_functions.py", "ledsa/analysis/ExtinctionCoefficients.py"]}
{"id": "C170", "title": "Overexposed photos do not falsify the results", "statement": "If all light of an LED is reduced to a part t, the relative intensity that is analysed is t, also if pixels of the LED are overexposed (recorded with the largest value of the camera); or the program reports the overexposure.", "quantifier": "all photos, largest values, parts of the light, positions and radii, for the sum and the maximum of the search area", "why_tests_cant": "a test compares some photos; that clipping can only make smoke look thinner, and exactly when it does not, is a statement about all photos", "anchors": ["ledsa/data_extraction/step_3_functions.py", "ledsa/data_extraction/data_integrity.py", "ledsa/analysis/ExtinctionCoefficients.py"]}
{"id": "C171", "title": "The tone curve of the photos does not influence the coefficients", "statement": "The extinction coefficients are those of the light at the camera, also if the pixel values of the photos are not proportional to the light (tone curve of JPG photos) or are rounded to whole numbers.", "quantifier": "all photos, tone curves, exponents, parts of the light, sets of LEDs, distances and regularisations", "why_tests_cant": "tests use synthetic photos with proportional values; the effect of a curve on the coefficients of all layers is a statement about all solutions of the solver", "anchors": ["ledsa/core/image_reading.py", "ledsa/data_extraction/step_3_functions.py", "ledsa/analysis/ExtinctionCoefficientsLinear.py"]}
{"id": "C172", "title": "Several analyses can be started at the same time", "statement": "If several analyses of the same working directory are started at the same time, every one of them uses the values of the result files, as if they had been run one after the other.", "quantifier": "all numbers of programs, channels, result files and all interleavings of looking for, creating and reading the binary files", "why_tests_cant": "a test runs one analysis, or two in one accidental order; whether rows are doubled depends on the interleaving", "anchors": ["ledsa/core/file_handling.py", "ledsa/analysis/ExtinctionCoefficients.py"]}
{"id": "C173", "title": "The photos of the acceptance test show the smoke that they were made for", "statement": "For every camera, set of layers and LEDs within the layers and every non-negative smoke profile, the photos that the acceptance test makes up give, measured by step 3 at the places of the LEDs, relative intensities within 0.025 of the light that passes the smoke by Beer-Lambert; LEDs do not disturb each other, and their order in the photo is from the top down.", "quantifier": "all numbers of LEDs, positions, layers and profiles with different heights of camera and LEDs", "why_tests_cant": "the acceptance test itself trusts these photos; it cannot find out whether they are right", "anchors": ["ledsa/tests/AcceptanceTests/LedsaATestLibrary.py", "ledsa/tests/AcceptanceTests/TestExperiment.py", "ledsa/data_extraction/step_3_functions.py"]}
{"id": "C174", "title": "A coefficient file that was cut off does not give wrong coefficients", "statement": "If writing a file of extinction coefficients was interrupted (killed analysis, full disk), reading the results gives the coefficients that were computed, or missing values, or an error, but no other numbers.", "quantifier": "all coefficient files (numbers of layers and images, values) and all places where they are cut off", "why_tests_cant": "a test would have to try every place in every file; only some places (within the exponent of the last number) give plausible wrong numbers", "anchors": ["ledsa/analysis/ExtinctionCoefficients.py", "ledsa/postprocessing/simulation.py"]}
{"id": "C175", "title": "Haze in the reference photos does not change the result", "statement": "If the reference photos were taken when the room was already hazy, the extinction coefficients found for the later photos are those of all the smoke in the room at that time.", "quantifier": "all numbers of photos, LEDs, positions, layers, emissions, smoke profiles and hazes, one or several reference photos, one or several cores", "why_tests_cant": "tests use reference photos without smoke; with recorded data nobody knows the haze that was there", "anchors": ["ledsa/analysis/ExtinctionCoefficients.py", "ledsa/analysis/ExtinctionCoefficientsLinear.py"]}
{"id": "C176", "title": "Averaged images give the mean of the smoke", "statement": "With averaging, the extinction coefficients of an averaged image are the means of the coefficients of the two photos it was made of.", "quantifier": "all pairs of smoke profiles, emissions, numbers of photos, LEDs and layers, all positions of camera and LEDs, all tables of a channel", "why_tests_cant": "a test compares one averaged table; how the error grows with the change of the smoke between the two photos is a statement about all pairs", "anchors": ["ledsa/core/file_handling.py", "ledsa/analysis/ExtinctionCoefficients.py", "ledsa/analysis/ExtinctionCoefficientsLinear.py"]}
{"id": "C177", "title": "Fits that do not converge are logged and do not stop step 3", "statement": "With fits, step 3 delivers the result files of all photos whatever the number of cores, and logfiles/warnings.log gets exactly one readable entry for every fit that did not converge, under its photo, channel, array and LED.", "quantifier": "all photos, channels, arrays, skipped LEDs and outcomes of the fits, all interleavings of the processes and all points at which step 3 is stopped, with or without an existing log directory", "why_tests_cant": "a test sees one order of the processes; the exception occurs only if two processes look for the directory before one of them creates it", "anchors": ["ledsa/data_extraction/step_3_functions.py", "ledsa/data_extraction/DataExtractor.py"]}
{"id": "C178", "title": "Light from elsewhere does not change the coefficients", "statement": "Light that reaches the search areas from elsewhere, such as daylight or a glow of the fire, does not change the extinction coefficients if it is in the reference photos as well.", "quantifier": "all amounts of added light, emissions, smoke profiles, numbers of photos, LEDs and layers, all positions of camera and LEDs", "why_tests_cant": "tests use dark surroundings; how much dense smoke is underestimated and that no smoke, however dense, gives more than a bound are statements about all smoke and light", "anchors": ["ledsa/data_extraction/step_3_functions.py", "ledsa/analysis/ExtinctionCoefficients.py", "ledsa/analysis/ExtinctionCoefficientsLinear.py"]}
{"id": "C179", "title": "The plots of steps 1 and 2 show the LEDs as the next step uses them", "statement": "The plot of search areas shows every LED of the table once, at its pixel and with its id, within the limits of the plot. The plot of arrays shows each array exactly where its LEDs were detected; the plot of merged arrays shows each group. After any series of calls of steps 1 and 2, also failed ones, the plot that belongs to the state of the directory (the plot of step 1 before the renumbering, the reordered plot after it) shows the table that the next step reads.", "quantifier": "for all tables, radii, rules of assigning LEDs to arrays, merge groups, and all series of calls of step 1, step 2 and both", "why_tests_cant": "Users look up the edge LEDs in these plots; whether a plot is up to date depends on the whole history of calls and on the place where a call failed.", "anchors": ["ledsa/data_extraction/DataExtractor.py:113-144", "ledsa/data_extraction/DataExtractor.py:195-212", "ledsa/data_extraction/step_1_functions.py:46-64"]}
{"id": "C180", "title": "A camera that moves a little does not change the values", "statement": "The search areas stay where the LEDs were in the reference photo. If the camera moves by a few pixels, sum, mean and maximum of every LED stay the same as long as its light stays within its search area and no other light comes in. In general the sum changes exactly by the light that enters less the light that leaves; an isolated LED can only lose light. The coefficients change little if the share of the light that is lost is small.", "quantifier": "for all photos, LEDs, search areas, movements, and all arrays and smoke profiles", "why_tests_cant": "A test would need photos for every movement and every shape of the spots; the balance of light holds for all of them.", "anchors": ["ledsa/data_extraction/step_3_functions.py", "ledsa/data_extraction/DataExtractor.py"]}
{"id": "C181", "title": "The brightness of the LEDs and the exposure of the camera may change without changing the coefficients", "statement": "Each LED is compared with its own mean intensity in the reference images. If an LED shines brighter or weaker by the same factor in all images, reference images included, the coefficients of the linear analysis do not change. If the brightness changes during the experiment (automatic exposure, voltage of the LEDs, soot on the lens), it should not be taken for smoke.", "quantifier": "all camera positions, layers, LEDs, weights of the smoothing, choices of reference images, numbers of images and result files; all brightness factors per LED, or per image, or per image and LED between exp(-g) and exp(g)", "why_tests_cant": "Tests use synthetic photos of constant brightness. Whether a drift is told from smoke depends on all LED positions and on the solver; a test sees one array and one factor.", "anchors": ["ledsa/analysis/ExtinctionCoefficients.py", "ledsa/analysis/ExtinctionCoefficientsLinear.py"]}
{"id": "C182", "title": "An LED that is dark or fails does not stop the analysis or falsify the coefficients", "statement": "The analysis of an LED array gives coefficients for all images, or stops with an error, for every content of the result files. An LED that is dark in the reference images (switched on late, covered, ignored by the extraction) or fails during the experiment should neither stop the analysis of the array nor change its coefficients.", "quantifier": "all result files with any values, all camera positions, layers, LED positions, choices of reference images, weights of the smoothing and numbers of cores", "why_tests_cant": "Division by the mean of a dark LED gives inf or nan in numpy only for such data; tests use arrays whose LEDs all shine. Whether the solver has a solution for every matrix cannot be tested.", "anchors": ["ledsa/analysis/ExtinctionCoefficients.py", "ledsa/analysis/ExtinctionCoefficientsLinear.py", "ledsa/data_extraction/data_integrity.py"]}
{"id": "C183", "title": "A run with fitting that was completed by the restart can be analysed", "statement": "After a run of step 3 with fitting was interrupted and completed with --restart, the results of all photos can be loaded for the analysis.", "quantifier": "all photos, LED arrays, fit values and interruptions, all numbers of processes and of restarts", "why_tests_cant": "Needs an interrupted run, a restart and the loading of the results together; a test fixes one point of interruption, and each part works on its own.", "anchors": ["ledsa/core/parser_arguments_run.py:90-94", "ledsa/core/file_handling.py:220-272", "ledsa/data_extraction/DataExtractor.py:260-275"]}
{"id": "C184", "title": "Light of neighbouring LEDs in a search area does not change the coefficients", "statement": "If the search areas of neighbouring LEDs overlap or their spots reach into each other's area, the sums contain light of several LEDs, in the same shares in all photos. The coefficients are those without the foreign light.", "quantifier": "for all LED arrays, shares of foreign light, smoke profiles and series of photos", "why_tests_cant": "A test has one photo with one LED spacing; how much foreign light changes results depends on all shares and on the unknown smoke.", "anchors": ["ledsa/data_extraction/step_3_functions.py:140-162", "ledsa/analysis/ExtinctionCoefficients.py:218-243"]}
{"id": "C185", "title": "A small error of the camera position changes the coefficients only a little", "statement": "The camera stands a little beside the position that was entered in the analysis configuration. Distances per layer and coefficients differ from the right ones by at most a constant times the error of the position.", "quantifier": "for all camera positions and errors, LED positions, layers, smoke profiles and series of photos", "why_tests_cant": "Tests use exact positions; what an error does depends on the place of the camera relative to all borders of layers and on the unknown smoke.", "anchors": ["ledsa/analysis/ExperimentData.py:97-101", "ledsa/analysis/Experiment.py:170-248"]}
{"id": "C186", "title": "The file with the distances per layer belongs to the saved coefficients", "statement": "The analysis leaves a file led_array_n_distances_per_layer.txt for every LED array. A user who reads it gets the distances, LED by LED in ascending order of ids, with which the saved coefficients of this array were calculated.", "quantifier": "for all histories of analysis commands with any configurations, LED arrays, channels and distances", "why_tests_cant": "Tests look at the numbers of one run; which run a file on the disk stems from depends on all commands given before.", "anchors": ["ledsa/analysis/ExtinctionCoefficients.py:107-121", "ledsa/analysis/ExtinctionCoefficients.py:161-175", "ledsa/core/parser_arguments_run.py:218-249"]}
{"id": "C187", "title": "Whole numbers of the pixels do no harm", "statement": "Pixel values are whole numbers. The sum over a search area is off by at most the number of its pixels times the error of one pixel, and if the light in every area stays large compared with this in all images, the extinction coefficients are those of the unrounded light up to a bound by the ratio, besides smoothing. In general this is refuted: with dim LEDs thin smoke is not seen at all, and behind dense smoke all depths look alike, whatever is calculated from the photos.", "quantifier": "all search areas, spots, smoke, conversions with bounded error, camera and LED positions, numbers of layers, regularisations", "why_tests_cant": "A test uses a few synthetic photos; the bound is about all of them and about any method of calculation.", "anchors": ["ledsa/data_extraction/step_3_functions.py:157-159", "ledsa/analysis/data_preparation.py:7-28", "ledsa/analysis/ExtinctionCoefficients.py:73-118"]}
{"id": "C188", "title": "An analysis object calculates with its settings", "statement": "Whatever is done with an analysis object, calculating coefficients gives what its settings and the files of the moment give. This holds as long as every change of a setting or of files comes before the object has kept what it concerns, also after failed calculations; in particular for an object that corrects colours itself in the directory of its experiment. In general it is refuted: reference images, geometry and files changed after a calculation have no influence, another property raises KeyError, and the correction of colours works on the working directory even if the experiment is in another one.", "quantifier": "all sequences of changes and calculations, all data, solvers without memory, matrices, tables", "why_tests_cant": "Tests create an object, calculate once and look at the result; the claim is about every order of calls.", "anchors": ["ledsa/analysis/ExtinctionCoefficients.py:41-66", "ledsa/analysis/ExtinctionCoefficients.py:73-133", "ledsa/analysis/ExtinctionCoefficients.py:193-216"]}
{"id": "C189", "title": "A setup of the demo that was stopped can be repeated", "statement": "However often and wherever the setup of the demo was stopped (by the user, a lost connection or a full disk), a complete setup afterwards leaves exactly the images and configuration files that it would have left without the earlier attempts. The file that marks a successful setup is only there if all images are, where no demo was set up before. That the marker means a complete demo is refuted: it is written before the configuration files, and it stays from an earlier setup.", "quantifier": "all archives with one folder and files of different names, all contents, all points of interruption, any number of attempts, any previous contents of the directories", "why_tests_cant": "Interruptions at every written character and between any two operations cannot be enumerated by tests; the download needs the network.", "anchors": ["ledsa/demo/demo_setup.py:12-39", "ledsa/demo/demo_setup.py:162-206"]}
{"id": "C190", "title": "A further LED that agrees with the smoke changes nothing", "statement": "In an analysis with the linear solver a further LED whose light is what the coefficients found without it predict leaves the coefficients as they are; results stay unique if they were. An LED whose line of sight runs outside the layers has no influence, however bright or dark it is. An LED that does not agree moves the optical depth along its own line of sight towards its measurement and never past it, and the other LEDs are then fitted no better. LEDs change only the coefficients of layers that they are seen through.", "quantifier": "all numbers of LEDs and layers, all distances, relative intensities and regularisations", "why_tests_cant": "The coefficients are a minimum of a constrained problem over all LEDs; comparing two runs shows one pair of problems, not all, and a minimiser need not be unique.", "anchors": ["ledsa/analysis/ExtinctionCoefficientsLinear.py:43-92", "ledsa/analysis/ExtinctionCoefficientsNonLinear.py:110-138"]}
{"id": "C191", "title": "The weights of the solvers do what their names say", "statement": "A larger lambda_reg gives profiles that bend no more and fit the measured light no better; for large values the profile becomes linear, and the loss in fit is at most lambda_reg times the bending of the best profile. It does not lower the coefficients of uniform smoke, whatever the number of layers. A larger weighting_curvature gives profiles of the nonlinear solver that bend no more, a larger weighting_preference no larger coefficients on average, both up to the cost at which the solver stops above the least one.", "quantifier": "all numbers of LEDs and layers, all distances, intensities and pairs of weights", "why_tests_cant": "The statement compares the results of two optimisations for all data; tests compare single profiles, and the effect of a weight can be hidden by the stopping of the solver.", "anchors": ["ledsa/analysis/ExtinctionCoefficientsLinear.py:64-92", "ledsa/analysis/ExtinctionCoefficientsNonLinear.py:110-138"]}
{"id": "C192", "title": "More layers describe the same smoke", "statement": "If every layer is divided into the same number of layers, a smoke profile is described by the divided layers at every height as before, every line of sight has the same optical depth, and the distance of a line of sight through a layer is the sum of its distances through the parts. The analysis with the divided layers fits the measured light no worse.", "quantifier": "all positions of camera and LEDs, domains, numbers of layers and of parts, profiles and measured intensities", "why_tests_cant": "Distances are computed from heights of borders that depend on the number of layers; a test compares a few numbers of layers for a few rays, and fits for single measurements.", "anchors": ["ledsa/analysis/Experiment.py:38-60", "ledsa/analysis/Experiment.py:170-271", "ledsa/analysis/ExtinctionCoefficientsLinear.py:43-92"]}
{"id": "C193", "title": "A renaming of photos can be undone from its log", "statement": "The log that the tool for renaming photos writes can be read back as comma separated values, whatever characters the names of the files have, and tells exactly the renamings of the program. It is complete before the first file is renamed. Whenever the program ends, after all renamings, at a renaming that fails or stopped in between, giving the files back their old names from the last row to the first restores the directory.", "quantifier": "all directories, photos, entered names, answers of the user and points at which the program stops", "why_tests_cant": "The claim is about all names and all points of interruption; tests rename a few files with simple names and run to the end.", "anchors": ["ledsa/tools/photo_renamer.py:78-149"]}
{"id": "C194", "title": "Heights may be measured downwards", "statement": "If the vertical axis of the coordinates points down (for example distances below the ceiling are measured) and camera, LEDs and the bounds of the domain are all given in this way, the analysis gives the same extinction coefficients with the layers in the opposite order, with either solver.", "quantifier": "for all positions of the camera and the LEDs, bounds, numbers of layers, weights of the solvers and measured tables, including the analyses that fail", "why_tests_cant": "The layers are half open and the solvers regularise neighbouring layers; tests use one orientation and a few rays, and cannot compare all arrangements and all profiles.", "anchors": ["ledsa/analysis/Experiment.py:Layer.__contains__", "ledsa/analysis/Experiment.py:Experiment.calc_traversed_dist_per_layer", "ledsa/analysis/ExtinctionCoefficientsLinear.py:calc_coefficients_of_img", "ledsa/analysis/ExtinctionCoefficientsNonLinear.py:cost_function"]}
{"id": "C195", "title": "No smoke is invented in layers that no LED is seen through", "statement": "If the domain has layers that no line of sight from the camera to an LED crosses (for example above the highest LED and the camera), the analysis does not report smoke there.", "quantifier": "for all distances per layer, measured intensities, weights and tolerances of the solvers, numbers of layers", "why_tests_cant": "The light carries no information about these layers, so what is reported depends on the regularisation alone; tests with known smoke in layers that are seen cannot show it.", "anchors": ["ledsa/analysis/ExtinctionCoefficientsLinear.py:calc_coefficients_of_img", "ledsa/analysis/ExtinctionCoefficientsNonLinear.py:cost_function", "ledsa/analysis/Experiment.py:Experiment.calc_traversed_dist_per_layer"]}
{"id": "C196", "title": "Smoothing keeps the amount of smoke", "statement": "The linear solver spreads smoke over neighbouring layers, but it neither adds smoke nor takes any away: summed over the LEDs and weighted with the lengths of the rays, the optical depths through the reported smoke are the measured ones, and smoke added to the room lowers no reported coefficient.", "quantifier": "All numbers of LEDs and layers, all ray lengths, all non-negative weights of the regularisation, all measured intensities.", "why_tests_cant": "A test compares single profiles; that a weighted sum is kept for every matrix of ray lengths and every weight is a statement about all minima of a constrained problem, and the cases that break it depend on which layers are reported as empty.", "anchors": ["ledsa/analysis/ExtinctionCoefficientsLinear.py:45-96"]}
{"id": "C197", "title": "The exit status tells whether everything was done", "statement": "If the program ends with the exit status 0, everything that the command line asked for was completed; if a part fails, the status is not 0 and no later part is started. The photo renamer changes files only in the directory that was entered.", "quantifier": "All combinations of arguments, all ways in which the single parts end, all answers to the questions of the renamer, all directories.", "why_tests_cant": "A test runs single command lines and looks at their output; the status after any combination of arguments, failures and answers is not covered by any number of them.", "anchors": ["ledsa/__main__.py:27-43", "ledsa/tools/photo_renamer.py:10-21", "ledsa/tools/photo_renamer.py:117-155", "ledsa/core/parser_arguments_run.py:18-98", "ledsa/tests/AcceptanceTests/__main__.py:5-10"]}
{"id": "C198", "title": "A stopped dialogue loses no answers", "statement": "If the program is stopped at a question for a parameter of the analysis, all answers given before are in config_analysis.ini and nothing else in it has changed. The next run asks exactly for the remaining parameters, and with the same answers it makes the same analysis as a run that was not stopped.", "quantifier": "All configurations, all sets of missing parameters, all answers, every question at which the dialogue is stopped.", "why_tests_cant": "A test stops one dialogue at one question; that the two runs together do what one run does for every set of missing parameters and every answer is a statement about all pairs of runs.", "anchors": ["ledsa/analysis/ExperimentData.py:65-125", "ledsa/analysis/ConfigDataAnalysis.py:91-181", "ledsa/core/parser_arguments_run.py:200-219"]}
{"id": "C199", "title": "The light losses that follow from the coefficients are right", "statement": "Even where the coefficients of single layers differ from the smoke in the room, the light losses along the lines of sight that follow from them are those of the smoke: for every LED, and for every other line of sight through the layers.", "quantifier": "All numbers of LEDs and layers, all ray lengths, all smoke profiles that the camera can see through, all weights of the regularisation, all errors of the measured light.", "why_tests_cant": "A test compares the light losses for one profile and one arrangement; the bound has to hold for all minima of the solver, also where they are not unique.", "anchors": ["ledsa/analysis/ExtinctionCoefficientsLinear.py:43-96", "ledsa/analysis/ExtinctionCoefficientsNonLinear.py:57-136"]}
{"id": "C200", "title": "Wrong photos do not give arbitrarily large coefficients", "statement": "Whatever is measured in a photo, also with LEDs that are switched off, covered or overexposed, the coefficients reported by the linear solver stay below a bound that depends only on the lengths of the lines of sight in the layers, and the reported smoke does not take away more light than was measured.", "quantifier": "All numbers of LEDs and layers, all ray lengths, all measured relative intensities (also negative or zero), all weights of the regularisation.", "why_tests_cant": "A test tries some wrong photos; the bound has to hold for all of them and for every minimum that the solver may return.", "anchors": ["ledsa/analysis/ExtinctionCoefficientsLinear.py:43-96"]}
