# Formal model of LEDSmokeAnalysis (ledsa)

Prover: Lean 4.33.0 with Mathlib. Sources: `/verif/lean/Verif`. Code under study: `/repo/ledsa` (read as text, never run).

## 1. Architecture

| directory | content |
|---|---|
| `Verif/Py` | the parts of Python/numpy semantics the code relies on: slices with negative bounds, `range`, `str.zfill`, decimal printing and `int()` parsing, `str.split`, `int16`/`uint8` casts |
| `Verif/Model` | one file per group of source functions; each definition cites file and lines in `/repo` and states its simplifications |
| `Verif/Props` | the property theorems `Cnn_...`, with the small specifications they are stated against, helper lemmas, a concrete instance beside every theorem, and refutations |

Conventions

* Models are total computable functions where the code is discrete. Python exceptions are values (`Except Err α`, or `Option`), never default values.
* Quantities that are floats in the code are modelled over `ℝ` (geometry, solver, normalisation) or over an arbitrary linearly ordered field/commutative group. Theorems over ℝ do not speak about floating point rounding; rounding is modelled separately, by `Model/Rounding`, `Model/RoundedRun` and `Model/RoundedNonlinear` for the analysis (C124, C125, C137, C142, C151, C152), by `Model/Metric` for step 2, by `Model/Images` for raw data, and the text formats `%10.4e` (C31) and `%.18e` (C155) and the integer casts are modelled exactly. Which of the two a theorem uses is visible in its statement (`ℝ` or a `Machine`).
* Files are values in an explicit store; crash points are prefixes of the list of file operations; schedules are interleavings of the operation lists of the workers.
* If a property is false of the code, the file contains a theorem `..._false` (or `..._violated`) with a concrete witness, plus a `_partial` theorem giving the part that does hold, if possible as an exact characterisation ("holds iff").

## 2. Trusted base

* The Lean kernel. Axioms: only `propext`, `Classical.choice`, `Quot.sound` (printed by `#print axioms` in `Verif/Audit.lean` for every property theorem). No own axioms, no `sorry`, no `native_decide`/`bv_decide`.
* The hand translation from Python to Lean. Each definition cites its source lines.
* Library contracts that are assumed as hypotheses or parameters, never as axioms: `cv2.minMaxLoc` (some position of the maximum; modelled as a parameter with that contract and instantiated with the first maximum), `scipy.optimize.nnls` (a minimiser of the residual over non-negative vectors), `scipy.optimize.minimize` (arbitrary deterministic function of its inputs), `curve_fit` (arbitrary plane), `linalg.solve` (solution of a regular system, error on a singular one), pandas grouping/averaging (by their mathematical meaning), `configparser` (modelled for the subset used).

## 3. Properties: model and proof plan

| id | modelled | how proved |
|---|---|---|
| C01 | `_find_img_number_list` over Python `range` | closed form of `range`, membership and length by arithmetic |
| C02 | same, overflow branch | both branches concatenated equal the circular progression; case split at the seam |
| C03 | `_build_img_data_string` key selection | refutation by witness; exact condition (starts agree) |
| C04 | count formula of `create_binary_data` vs list length | exact characterisation `(skip+1) ∣ n`; refutation |
| C05 | image info rows, `get_img_name`, `get_img_id` | distinctness from injectivity of the list and of decimal printing |
| C06 | `_calc_experiment_and_real_time`, `get_start_time`, `get_datetime` on integer seconds | algebra on day/second-of-day pairs; refutations for offset≠0 and midnight |
| C07 | parsing of `a.b` offsets | exact value; refutation; holds iff three fractional digits and sign-compatible |
| C08 | both date parsers and the day number of a Gregorian date | injectivity/strict monotonicity of the day count by induction over years |
| C09–C12 | `find_search_areas` with Python slices on an image function | loop invariant by induction on the fuel `max_n_leds`; border refutation of C11 |
| C13 | `np.percentile` (linear interpolation) | order statistics of the sorted list |
| C14–C18 | the matching walk on a finite list of LED ids with an arbitrary cost/distance function | invariants by induction on the remaining LEDs |
| C19 | `reorder_led_indices`, `reorder_search_areas` | prefix sum lemma by induction over arrays |
| C20 | index file writer/reader with decimal text | parse∘print |
| C21 | `merge_indices_of_led_arrays` | list algebra; refutation of the file count |
| C22–C24 | step 1/2 as programs of file operations on a store | invariant over all histories; crash = prefix; refutation by witness |
| C25–C27 | `_generate_led_analysis_data`, `generate_analysis_data` | slice lemmas, finite sums; refutation at border |
| C28–C29 | workers as lists of atomic writes; restart | commutation of writes to distinct files; induction over interleavings; refutations |
| C30 | header and row writer, loader column naming | column alignment over arbitrary values; refutation for fit rows |
| C31 | `%10.4e` on naturals, exact integer rounding | error bound and monotonicity |
| C32 | mesh used by the fit | refutation and exact law (transposed) |
| C33–C37 | conversion matrix, projection, plane functions over ℝ | linear algebra; refutations |
| C38–C40 | layers, ray lengths over ℝ | telescoping sums, measure of segment ∩ slab |
| C41 | order of LED rows through index files, reversal, sorting | list algebra; refutation for merges |
| C42–C44, C73 | forward model, cost, linear solver with nnls contract | real analysis, finite sums |
| C45, C48 | serial and parallel drivers with abstract solver state | induction over the image list; refutation |
| C46–C47 | reference normalisation, integrity check | finite sums |
| C49 | positional join | sorted subset induction |
| C50, C76 | colour correction with int16 wrap | matrix algebra; refutation |
| C51 | averaging pipeline | counting; refutation |
| C52–C54 | path construction, solver dispatch, list parsing | string lemmas, case analysis |
| C55–C58 | ini writer/reader, prompting program, table parsing | induction over sections/lines; refutations |
| C59–C63, C77 | `SimData` functions | floor algebra, window algebra, history induction |
| C64–C66 | renaming as operations on a directory map, dialogue automaton, line editor | induction; refutations |
| C67–C69 | Bayer masks, raw scaling with int16, grey conversion | arithmetic; refutations |
| C70–C71 | command line dispatcher as effect trace | case analysis over all flags (finite, complete), trace reasoning |
| C72 | cache state machine | induction over histories; refutation |
| C74 | LED model functions over ℝ | algebra, trigonometric identities |
| C75 | demo driver | arithmetic; refutation |
| C78 | shape of `read_table` results | case on row count; refutation |
| C79 | `str(list)` against the list parser | refutation for every non-empty list |
| C80–C87 | further `SimData` functions and the files they read | list and string algebra, exact conditions, refutations |
| C88 | choice of the image reader by extension | string algebra; refutation |
| C89–C90 | command line dispatcher as effect trace | trace counting; refutation |
| C91–C94 | loading of result tables, binary files of several directories | contents of the table by induction over images; refutations |
| C95–C96 | the whole analysis of one LED array, from result files and coordinates to coefficients | path lengths times coefficients equal a line integral (sum of interval integrals); composition with loading, normalisation and the solver contract; refutation |
| C97 | `extend_hdf` on the tables of `Model/Binary` | list algebra |
| C98–C100 | new analysis configuration through `Model/Ini`; start of an analysis as a program with questions | inversion of the program to an exact condition; invariants of program steps; non-interference; refutations |
| C101–C107 | text of result files, search areas, array files and image lists, written and read | parse∘print for decimal and scientific notation over ℚ, composition with the models of step 3 and of loading; refutations; error bound over ℝ |
| C108–C110 | sessions: histories of step 1 and step 2 runs over the files they leave, read by step 3 | invariant (`Agrees`) between the files and a separately specified stage of the history; refutations |
| C111–C112 | the whole analysis with errors, and from the photos on | projection inequality for non-negative least squares; compactness; composition with C101 |
| C113–C115 | the words of the command line | induction over the words against a separate table of documented spellings; refutations |
| C116–C118 | the demo: no questions, consent, unpacking | composition of the file edit (C75), the round trip (C55) and the start of the analysis (C99); induction over answers and over members of the archive; refutations |
| C119–C120 | what the nonlinear solver looks for | compactness (existence, lower bound on the unit sphere), exact penalty, convexity of exp; refutation for the default weights |
| C121 | removal of duplicate heights | last row of each key; iff with witness |
| C122–C123 | start of the data extraction | induction over the list; equality of two paths; refutations for the defaults |
| C124–C125 | linear analysis in floating point | calculus of relative errors for every operation; invariant of the compensated sum; stability of almost-minimisers; 53-digit rounding as an instance |
| C126–C128 | the coordinates command | composition of the session invariant (C108) with the line formula (C33); comparison of two runs by uniqueness of the fraction; characterisation of all least squares planes |
| C129–C130 | errors of LED positions | mean of a bounded function along the ray, Lipschitz outside the layer of the camera; composition with C126 and C111 |
| C131 | whole program | composition of C108, C126, C29/C115 (binary table), C129, C111 along the files |
| C132–C134 | detection and matching of a real bench | invariant of the search loop (open spots unchanged, found spots dark); induction along the chain of LEDs; quadratic bound of the detour; composition with C108 |
| C135 | from the bench to the smoke | composition of C134 and C131; numbers of LEDs eliminated through the position of an LED in the arrays |
| C136 | photos are numbered in capture order | EXIF texts of moments parsed exactly, order of any sorted arrangement; refutations for ties, missing dates and shared raw files |
| C137 | from the bench to the smoke in floating point | C135 up to the files, then rounded reading, layers, distances and intensities (C124, C125) with displaced lines of sight (C129) |
| C138 | coefficients by array, layer, height and time | the files written for all pairs of channel and array, in any order, read into one table; every request against the coefficients; refutation for two reference properties |
| C139 | heights shown for the layers | rounding to two digits is monotone and moves by at most 1/200; C59 for requests at the labels; refutations for borders and thin layers |
| C140 | ends of the LED arrays as entered | an entered value is never read as unset, so the file keeps it along any sequence of runs (induction); tokens of the text are the tokens of the lines; refutations for wrong entries |
| C141 | from the analysis command to post-processing | the loop replaces exactly the files of its pairs (induction); names are injective (C52); permutations of the found files; then C138; refutations for failing pairs and older results |
| C142 | from the bench to the numbers shown | composition of C137 for every array and channel with C141; uniqueness of the files written joins the channels |
| C143 | colour corrected values reach the analysis | explicit state after storing all columns (induction over the channels); inverse matrix undoes the mixture; equality of the loaded data gives equality of all results |
| C144 | LEDs of an experiment object | case analysis over the files; composition with C78 |
| C145 | which LED arrays determine the smoke profile | the part of a line of sight above a border as a telescoping sum gives the depths of affine profiles; compactness constant made robust under displacement; composition with C131, C135 |
| C146 | the whole program with the nonlinear solver | cost comparison with the truth keeps the fit away from the dark, where the exponential is not invertible; then triangle inequality, constant by compactness; composition with C131, C135 |
| C147 | independence of the coordinate system of the room | every quantity is a function of distances in plan and differences of heights; the line of an array is affine in its two ends; scaling of the residual |
| C148 | every image has its own coefficients | both solvers as a relation per image; the recorded sums are a function of the light of the LEDs (strengthened C101, C131); composition with the history |
| C149 | exposure and tone curve do not change the LEDs found | relation between two photos (same bright pixels in the same order) kept by the search loop; order statistics; `cv2.minMaxLoc` is assumed to report the first maximum in row order; refuted for clipped values |
| C150 | the extraction moves with the photo | the same relation with a displacement; simulation between two directories through steps 1 to 3; refuted near the upper and left border |
| C151 | from the bench to the smoke with ignored LEDs and merged arrays | C135, C137, C142 and C146 again over the arrays without the ignored LEDs and over merge groups; numbers of the LEDs as positions in the remaining arrays |
| C152 | the nonlinear solver in floating point, from the bench to the numbers shown | rounded distances change every light of the model by at most exp(η)-1 plus the error of the layer borders, so a nearly best point stays nearly best with a looser tolerance; then C146's bound, C151's run and C141's display |
| C153 | shape of a table that is read | cases of `loadtxt` by numbers of rows and columns |
| C154 | denser smoke, two sources of smoke | optimality conditions of the regularised nonnegative least squares (a cone with slack conditions), exact light of the Beer-Lambert law; witnesses for clipped lights, single layers and sums |
| C155 | saved coefficients come back digit for digit | decimal mantissa and exponent of a rational number, spacing of the floating point numbers on both sides of a power of two; the text of the whole file split again |
| C156 | killed runs of steps 1 and 2 | the changes of files as a list, refinement to the complete run; invariant that relates what is known to the files; prefixes of the table line by line |
| C157 | result files that were cut off | prefixes of the text line by line and field by field; lengths of the relative intensities force complete images |
| C158 | LED curves of the post-processing are the light in the photos | composition of the extraction (C101) with the join by image number and the normalisation; cells characterised by membership in both directions, existence by distinct seconds |
| C159 | notation of options in configuration files | lines that mean the same are read the same (induction over the lines); order by membership of pairs; refuted for indented options |
| C160 | numbering of the LEDs, direction of an array | residual and cost as sums over the LEDs, hence equal for permuted rows; positions by uniqueness of the fraction; values by the pixel of the LED |
| C161 | several runs of step 3 at the same time | transition system of any number of runs over shared files, invariants over all interleavings; refuted by three schedules |
| C162 | exposure checker | maximum and percentage for all images; raw bounds from C68; refuted for raw photos |
| C163 | Widman relation | real powers |
| C164 | steps 1 and 2 killed at any moment | scripts of file changes cut anywhere; digits of a number that was cut off; refuted by the flag that is set before the index files are written |
| C165 | head of the coefficient files | texts with separators are injective; exact condition for equal heads; refuted by settings that are not written |
| C166 | PNG photos | order preserving change of the pixel values (C149); sums with relative errors; refuted for `channel = all` by the truncation of grey values below 1 |
| C167 | averaged images | groups of a list by position, filter of the concatenated tables of all LEDs; concavity of the logarithm; refuted by a missing row |
| C168 | merge option changed after the extraction | numbers of rows and values in the input of the solvers; lengths of merged arrays; refuted for groups that rename arrays |
| C169 | radius of the search areas | sums over nested areas; ratios with a common part; refuted for any background light |
| C170 | overexposed photos | clipping one value, then sums and maxima over the area; exact condition; refuted in general |
| C171 | tone curve and whole numbers | powers of products, C154 for the coefficients; exact condition on the curve; refuted in general |
| C172 | several analyses at the same time | invariant over all interleavings: whole copies, at most one per program; counting of creating programs; refuted for one channel |
| C173 | photos of the acceptance test | drawn LEDs do not overlap; sums over search areas by bijection; cut-off decimals bounded with numerical bounds on exp and pi |
| C174 | coefficient files that were cut off | prefixes of texts: whole lines, whole fields, one cut field; exact factor for the last digit; refuted |
| C175 | haze in the reference images | change of variables to C95, C44 for the clearer images, tangent of exp for the mean; refuted |
| C176 | smoke shown by averaged images | cosh identity and bounds, C167 for the table, C111 for the coefficients; refuted |
| C177 | log of fits that do not converge, several processes | invariants over all interleavings, counting argument for the failures, induction over the text; refuted |
| C178 | light from elsewhere in the search areas | exact formula and bounds of the shown depth, C111 for the coefficients with small light and for saturation; refuted |
| C179 | plots of steps 1 and 2 | marks and limits by folds over the table; invariant over all series of calls; refuted without the reference photo |
| C180 | camera that moves during the experiment | balance of light over the pixels of the search area (sums over integer boxes), C111 for the coefficients; refuted without margin |
| C181 | brightness that changes during the experiment | invariance of the relative intensities, reduction to C175 with the profile of equal depth, C111 for the bound, slope at zero; refuted for changes from image to image |
| C182 | LEDs that are dark or fail | division with `inf` and `nan`; solvability of non-negative least squares by induction on the number of columns; exact condition for coefficients; refuted otherwise |
| C183 | restart after an interrupted run with fitting | composition of the law of the restart (C29), the texts of result files (C102) and the loading of tables; exact condition; refuted |
| C184 | Light of neighbouring LEDs in a search area | Mixed Beer–Lambert light, Jensen's inequality, the error bound of C111; refutation with three rays |
| C185 | Errors of the camera position | Means of the extinction between two heights as integrals, the error bound of C111; refutation at a border |
| C186 | The file with the distances per layer | Text of savetxt read back (C155), invariant over the loop of the command and over histories of commands; refutation with two commands |
| C187 | whole numbers of the pixels | sum of bounded errors as relative error of C111; values that round alike as refutation |
| C188 | analysis object over its lifetime | invariant over sequences of calls: what is kept belongs to settings and files; colour correction by C143 |
| C189 | stopped setup of the demo | steps that write character by character; state of touched names determined by a complete run; prefixes of the steps |
| C190 | a further LED | adding a row to the least squares problem; inequality of projections onto convex sets |
| C191 | weights of the solvers | comparing two minimisers of weighted sums; one layer solved in closed form |
| C192 | dividing the layers | pointwise equality of the extinction, hence of the line integrals and distances; C191 for the fit |
| C193 | undoing a renaming | induction over the characters of the log and over the renamings; a reader of comma separated values as specification |
| C194 | heights measured downwards | layers of the turned domain are the layers reversed; symmetry of heights, angle and both objective functions; witness for level rays on borders |
| C195 | layers that no LED is seen through | comparison of the minimiser with its straight continuation; symmetry of C194; witness with three layers |
| C196 | the amount of smoke after smoothing | first variation of the least squares problem along straight profiles, closed form for three level rays |
| C197 | exit status | induction over the actions of a run; case analysis of the dialogue of the renamer |
| C198 | dialogue of the analysis that is stopped | evaluation of the program for each set of missing parameters; the characterisation of C99 for the second run |
| C199 | light losses that follow from the coefficients | comparison of the minimiser with the smoke in the room; witnesses with three layers |
| C200 | size of the coefficients for wrong photos | first variation along the solution itself; witness with three layers and one LED |

## 4. Not modelled

Plotting, progress bars, downloading demo data, EXIF/RAW decoding, numerical optimisers' internals, overflow and subnormal floating point numbers, rounding in the steps not listed in section 1, pandas/HDF internals, operating system behaviour other than files being atomic per operation, logging.

## 5. What each model file covers, and its simplifications

* `Model/Solver`: both solvers over ℝ. `nnls` appears only through the contract `IsNnls` (a minimiser over non-negative vectors); `minimize` is an arbitrary function of its arguments.
* `Model/Nonlinear`: the coefficients that the nonlinear solver looks for: within the bounds and of least cost. The iteration of TNC (start, step limit, tolerance) is not modelled, so C119 and C120 speak of the goal of the search, not of the point where it stops.
* `Model/Heights`: `remove_duplicate_heights` and the table over the height. Values are opaque; the order of rows is kept.
* `Model/Startup`: the start time, the image lists and `DataExtractor.__init__`. EXIF entries come from a parameter; capture times are whole seconds; no option of `DEFAULT` is overridden in `analyse_photo`; the template of the names is a prefix, a width and a suffix.
* `Model/Rounding`: the formulas of the layers, distances, reference means, relative intensities, optical depths and the regularised matrix with a rounding after every operation. A `Machine` is any arithmetic with bounded relative errors; `double` is an instance. Sums of numpy may be taken in any order and grouping; the minimiser is described by its accuracy. Overflow and numbers below the normal range are not modelled; layer borders and distances follow `np.linspace` and the checks of `Experiment`.
* `Model/Positions`: the coordinates command from the files of steps 1 and 2 to the rows of its file, over the real numbers with the six decimals of the file; the plane fit is any function (C126, C127) or any plane of least squares (C128); the optimiser itself is not modelled.
* `Model/Extinction`: the driver over the image series, serial and with a pool, reference images, the integrity check. The solver is an arbitrary function of its inputs and of the state it carries.
* `Model/Analysis`: colour correction (exact rational matrix product; the cast to 16 bit is an arbitrary function satisfying the contract `Int16Cast`), averaging of pairs of images, file names and lookup of results, options of the analysis configuration. Paths are resolved, without symbolic links.
* `Model/Ini`: `configparser` of Python 3.11 with `allow_no_value`, reading and writing, on lists of lines. Values are lists of lines, `\r` does not occur, a value with `%` is only checked for being storable (`percentOk`), references `%(name)s` are not modelled, a repeated header is an error for every section.
* `Model/Prompts`: the dialogue completing a configuration as a program over an explicit world (configuration in memory, file, answers, log of questions). Only the parameters the dialogue touches; answers are texts without line breaks; EXIF times are seconds.
* `Model/SimData`: `postprocessing/simulation.py` over ℚ; NaN and infinities are `none`; pandas tables are lists of rows. Plots, `remove_duplicate_heights` and the HDF files are not modelled.
* `Model/Rename`: the renaming tool on a directory that maps names to contents; `os.rename` replaces an existing target (POSIX). EXIF data are numbers together with the formatted text; the log file is not part of the directory.
* `Model/Demo`: the line editor on whole texts with `\n` line ends, the core count handed to the demo and the count read back from the edited configuration file (through `Model/Ini`).
* `Model/Images`: scaling of raw data with 16 bit wrap-around and 32 bit floating point rounding to nearest even (`fl`, exponents unbounded), Bayer masks, grey conversion (the dot product is any number within 10⁻⁶ of the exact one), choice of the reader by extension. Decoding the files is not modelled.
* `Model/Cli`: `main` after argument parsing as the list of actions and the exception ending it. Actions themselves are taken to succeed.
* `Model/Argv`: the declared options and what `argparse` of the standard library does with a list of words: exact names, `name=value`, unambiguous prefixes, combined one-letter flags, values after an option. Trusted: this reading of `argparse` (as in Python 3.8 to 3.11; later versions refuse `-r=b`, which is accepted here). The word `--` and the texts of messages are not modelled.
* `Model/DemoSetup`: the questions of the setup, unpacking the archive, the configuration files of the demo and its command lines. Simplified: the download succeeds, the image directory is a map from paths to contents, names in the archive use `/`. Not modelled: progress bars, the question for the root directory of the demo, the marker file of a successful setup (given as a truth value).
* `Model/Binary`: `read_table` for numbers, `create_binary_data`, `read_hdf`, `extend_hdf` over a state of directories with result files, coordinate file and binary files, and the coordinates a running program remembers; `set_leds` and the search areas of step 3. Numbers are rationals, ids natural numbers, NaN is a missing number. Versions as required by `pyproject.toml`: pandas 2 has no `DataFrame.append`. Not modelled: damaged binary files, the fallback key of older ones.
* `Model/Pipeline`: the analysis of one LED array by the linear solver, composed of the functions above: loading, positions, distances, normalisation, `nnls` by its contract. Intensities are real numbers; the binary file is created from the result files in the same run. `frameData` connects the table of `Model/Binary` with the analysis.
* `Model/AnalysisConfig`: a new analysis configuration, and the start of an analysis (loading parameters, questions, loop over arrays and channels) as a program over configuration, file and log of questions; answers may depend on earlier questions. `float()` is a parameter; options without value or with several lines do not occur; reading `config.ini` is left out.
* `Model/Extraction`: the text files between the steps: result files with header (numbers in the format `10.4e` of rational numbers, rounding half to even), search areas, array files, images to process, and their readers. `np.loadtxt` converts signed decimal numbers with optional exponent; other notations (`nan`, `inf`, hexadecimal) do not occur. Pixel values are integers, so the maximum is written as an integer. Means are exact rational numbers, not rounded to double precision.
* `Model/Session`: runs of step 1, step 2 and both together as functions on the files (search areas, reorder flag, array files), and the part of step 3 that reads them. Runs end regularly or by an exception of the program itself, not by a kill; the merge groups of the configuration are already parsed; LED ids in files of the program are not negative; plots only matter where they raise an exception; the files of step 3 are left out, as steps 1 and 2 do not read them.
* `Model/Metric`: the Euclidean distance of pixels, the number of neighbours and the weight of step 2 as the program sets them, over the real numbers and with the rounding of a floating point arithmetic.
* `Model/RenameFiles`: which images the renaming tool takes, their dates from the EXIF texts, their raw files; the sort is any sorted arrangement. Types contain no characters special to `glob`; EXIF entries are texts or missing.
* `Model/RoundedRun`: the analysis of an LED array with the operations of `Model/Rounding`: reference values, relative intensities, distance array, result for all images. Results are relations because the least squares solver is only known to come within ε of the minimum.
* `Model/ExtcoTable`: the table of coefficients of the post-processing class: reading the files, `pd.concat` along the columns with the union of the times, sorting of the columns, dropping of repeated times, requests by array, layer, height and time, labels of the layers. Missing entries are `none` (NaN). Heights are rational; `np.round(·, 2)` is rounding half to even of the exact value.
* `Model/EdgeDialog`: the questions for the ends of the arrays in step 2 and in the calculation of positions, the file between runs, reading of the rows. Lines beginning with comment signs and Ctrl-D at the prompt are not modelled; conversion of texts to floats is a parameter.
* `Model/Batch`: the loop over LED arrays and channels with the contents of the saved files, and the files found by `glob` in any order. The calculation for one pair is a parameter, see `Model/Pipeline`, `Model/RoundedRun`; numbers are not formatted as text.
* `Model/EndToEnd`: the experiment times used when saving (whole seconds), and what one passage of the analysis loop may calculate in floating point.
* `Model/ColourTables`: colour correction of the binary files of all channels: reading, joining by image and LED (including NaN for missing ones), matrix product, conversion to 16 bits, storing channel by channel. The product is exact; the file of the matrix is a square table.
* `Model/ExperimentObject`: `Experiment.__init__` with its files and the comparison that selects merged arrays, and the last line of `load_config_parameters` (`config.ini`).
* `Model/NonlinearRun`: what an analysis with the nonlinear solver may return for all images; the iteration of scipy is replaced by a tolerance above the least cost.
* `Model/RoundedNonlinear`: the nonlinear analysis with rounded distances, means and relative intensities; roundings inside the cost function are part of the solver's tolerance.
* `Model/SavedNumbers.lean`: the text of a file of extinction coefficients (`save`, `__str__` of the coefficients, the experiment, the layers and the camera, `np.savetxt` with `%.18e`) and its reading with `pd.read_csv(..., skiprows=7)`. Numbers are rational; the conversion of a decimal number to a floating point number is a parameter. Not modelled: `nan`, `inf`, the sign of zero, quotation marks.
* `Model/Interrupted`: the changes of files by steps 1 and 2 in their order, complete or killed after any change or any number of characters of a text. Not modelled: blocks of a file that reach the disk in another order.
* `Model/SimParams.lean`: the table of LED parameters of the post-processing: join of the HDF5 table with the times of the image list (simulation.py 142-160). Image numbers are compared as numbers; cells that are no numbers give no row (the extraction writes none).
* `Model/Concurrent.lean`: several runs of step 3 at the same time. A run is a state machine of single file operations on
  `image_infos_analysis.csv`, `images_to_process.csv` and the result files; the scheduler is any list of run numbers. A file that is
  removed while another run has it open keeps its number, so that writing to it has no effect on the name. Not modelled: pools within
  these runs, tables larger than one write buffer, the directories and `config.ini` (complete), log files of fits.
* `Model/ExposureChecker.lean`: the notebook `tools/exposure_checker.ipynb` (limits, maxima, loop over photos; EXIF reading and printing
  left out) and `get_widman_extco` over the reals for positive wavelengths.
* `Model/FileHead.lean`: the head of a coefficient file as a function of the settings of the analysis. `str` and `.2f` of floating point
  numbers are parameters (distinct numbers have distinct texts, no comma, no line end); `np.linspace` is a parameter.
* `Model/Picture.lean`: what `plt.imread` returns (plain or with colour axis) and how step 1 takes a channel or the grey values of it.
  The decoding of the files is not modelled; the grey value is a parameter within the rounding errors of the dot product.
* `Model/Averaging.lean`: the table calculated by `average_all_fitpar` (exact means, no missing values). That it is not written because
  of the wrong path is `readHdfAvg` in `Model/Analysis.lean`.
* `Model/ConcurrentLoad.lean`: several analyses at the same time, as far as `read_hdf` and `create_binary_data` are concerned. Looking, writing and reading are single steps; locks of the HDF5 library are not modelled.
* `Model/Acceptance.lean`: the made-up experiment and photos of the acceptance test (`TestExperiment.py`, `LedsaATestLibrary.py`), with exact real numbers up to the conversion to `uint8`. JPEG compression, EXIF entries, the random noise of the profiles (any profile is allowed) and the configuration files of the test are not modelled.
* `Model/CutCoefficients.lean`: `pd.read_csv` of coefficient files with short rows and fields that are no numbers.
* `Model/FitWarnings.lean`: `_log_warnings` as steps of processes that share the directory `logfiles` (exists, makedirs, append), the plan of a photo, and the text of an entry. Which fits converge is arbitrary; an entry is written in one piece.
* `Model/Plots.lean`: what the four plots of steps 1 and 2 show (marks, labels, limits, points of arrays) and when they are written and removed. Reading and drawing the reference photo is one Boolean; drawing by matplotlib is not modelled.
* `Model/DarkLeds.lean`: division of numpy with its special values. Division by zero gives `inf` or `nan` (zeros are positive zeros, as means of intensities that are not negative), `np.clip` keeps `nan`, and `nnls` rejects `nan` (`asarray_chkfinite`). Numbers are real numbers without rounding. Warnings of numpy about the division are not modelled.
* `Model/DistancesFile`: the files `led_array_n_distances_per_layer.txt` and the order in which the analysis command writes them. Not modelled: rows of `nan`, the test for existing coefficient files (C52).
* `Model/AnalysisObject`: attributes of `ExtinctionCoefficients` and what is kept between calls; the files are any world with a function that loads a property. Assumed: distances can be calculated, the reference property is not `led_array_id`. A calculation with one core that fails half-way stores nothing (really the coefficients before the failure stay).
* `Model/SetupKill`: the setup of the demo as a list of steps, stopped after any of them. Removing the folder of the archive is one step; a configuration file is there or not.
* `Model/RenameLog.lean`: the log file of the renaming tool (`photo_renamer.py` 91-115) as the text of `csv.writer` with the default dialect. The time in the name of the file and the encoding are not modelled.
* `Model/ExitStatus.lean` models how a run ends as the shell sees it: the actions of `Model/Cli.lean` one after the other, each of which may return, raise an exception, call `exit` or wait; `set_working_dir` and `main` of the renamer; the call of the acceptance tests. How the other actions end is a parameter.
