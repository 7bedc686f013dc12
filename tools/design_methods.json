[
 [
  119,
  122,
  "DataSource (batch.py 126-176): client, plugin and file sources; modules, clients and the reading of files are parameters, sys.path is state; C122 with EventIter",
  "case analysis on the kind of source; selection of traces by filter and map lemmas and a wildcard relation (Spec.Wild); C122 by induction over the pairs of event and station"
 ],
 [
  123,
  124,
  "Cli (batch.py 367-447): sub parsers, flags, words, and the hand-over to run/run_commands (Batch)",
  "induction over flags and words; C124 by unfolding run_commands for an absent command"
 ],
 [
  125,
  126,
  "Text (rfstream.py 110-150, 489-530): construction of streams from trace objects on a heap, read_rf, text of a trace; number formats are parameters",
  "loop invariant over the list of traces (fresh references, old objects unchanged); text by case analysis on header entries, combined with rf (Stream)"
 ],
 [
  127,
  129,
  "Maps (imaging.py 190-286): axes as list of drawn elements, np.median by sorting, set order a parameter",
  "permutation and dedup lemmas; median characterised by counting; composition of layers by unfolding"
 ],
 [
  130,
  131,
  "Stream, Deconvolve (rfstream.py 216-355, deconvolve.py 23-161); rotation, filters and kernels are parameters that act on one record at a time (GroupLocal, NoiseLocal, KeepsRecord)",
  "simulation relation between the run on the stream and the run on a part of it, carried through every stage; records of the part are the groups of the stream that it selects; C131 joins two runs"
 ],
 [
  132,
  132,
  "StreamDeconvolve (rfstream.py 252-261), Deconvolve, Stream; the custom function is a parameter on the heap of traces",
  "unfolding of deconvolve for the custom function; coverage lemma over the groups for functions that work in place; witness with a function that returns new traces"
 ],
 [
  133,
  134,
  "SingleArray (deconvolve.py 164-245, 293-382, 433-521): argument forms of the three functions and the info dictionary, on top of DeconvTime, DeconvFreq, DeconvIter",
  "length of results of the list form; deletion of the loop variable explicit (nameError); recovery of rf0 from the normalized result; two witnesses"
 ],
 [
  135,
  135,
  "DeconvFreq (deconvolve.py 170-245, 385-430)",
  "convolution theorem for the discrete transform; above the water level the denominator is the power of the source, hence the quotient is the spectrum of the series; shift theorem for tshift"
 ],
 [
  136,
  136,
  "DeconvIter (deconvolve.py 433-521)",
  "Cauchy-Schwarz for the correlation: the maximum is attained exactly where source and response agree up to a factor; residual zero after one step, second step finds no decrease; stop criterion"
 ],
 [
  137,
  137,
  "`RFStream.rf` and `deconvolve` on heaps (Model/Stream, Model/Deconvolve); the four kernels as called by `deconvolve` (Model/Kernels on top of DeconvTime, DeconvFreq, DeconvIter, DeconvMt). Filter, trimming, downsampling, rotation, taper and noise window of ObsPy are parameters that commute with a factor.",
  "Simulation: each stage maps scaled heaps to scaled heaps; groups of `iter3c` are those of the unscaled stream; the deconvolution of a group removes the factor (`deconvolve_gain`, induction over disjoint groups). The kernels are shown to satisfy the assumption (`C137_kernels`): the Toeplitz system is normalised, the water level and the noise power scale with the square of the factor, the loop of the iterative method is in lock step. `C137_not_normalized` shows that the exclusion is needed."
 ],
 [
  138,
  138,
  "`RFStream.rf`, `deconvolve`, `RFStream.moveout`, `RFStream.stack` on heaps (Model/Stream, Model/Deconvolve, Model/SimpleMoveout). The ObsPy calls are parameters that commute with a move of all times; the text of times in log messages is not part of the result.",
  "Simulation as for C137 with the map `later`; the groups of `iter3c` are formed by comparing times, so that the tables agree (`iterSubstreams_same`)"
 ],
 [
  139,
  139,
  "`SimpleModel.moveout`, `RFStream.moveout` (Model/Simple*, Model/Stream), np.interp as list function",
  "np.interp is linear in its values for fixed knots; the knots come from the header and the model only; lifted to streams by induction over the traces"
 ],
 [
  140,
  140,
  "`RFStream.write` (Model/Headers), `rf`, `stack`, `profile`, `harmonics`; the two models of traces are linked by the header entries type and event_time (`Holds`)",
  "composition of the header theorems (C44, C50, C76, `stack_header`) with C91; for harmonics the type is not in the table, KeyError for every stream (`C140_harmonics_fails`)"
 ],
 [
  141,
  141,
  "`RFStream.stack` (rfstream.py 403-430)",
  "exact form of a stacked trace (`stackOne_form`); the mean of one trace is the trace; permutation by the ids, which are distinct"
 ],
 [
  142,
  142,
  "`deconv_time`, `_xcorrt`, `_acorrt` (Model/DeconvTime); solver: parameter which solves exactly",
  "the cross correlation with a convolved response is the autocorrelation matrix applied to the series (`C142_equation`); the matrix is positive definite, so the solution is unique; the bound is the standard one for Tikhonov regularisation, by Cauchy-Schwarz"
 ],
 [
  143,
  143,
  "`deconvolve` with the kernels of the package (Model/Deconvolve, Model/Kernels)",
  "`C86_kernel_call` gives window and shift of the kernel call; then C135 (linear copies that fit are a circular convolution) and C142"
 ],
 [
  144,
  144,
  "`RFStream.rf` with `deconvolve` and the kernels of the package (Model/Stream, Model/Deconvolve, Model/Kernels); filter, trim, decimate and rotation of ObsPy: parameters, the rotation does not depend on the order of its traces",
  "each stage is shown to give the same heap for a permuted stream (`StepPerm`), the loop over records by the permutation lemma for the groups (C03) and the frame of `deconvolve` (C07); `C144_kernels` shows that the four kernels give each response its result in any order"
 ],
 [
  145,
  146,
  "`RFStream.rf` with `deconvolve` (Model/Stream, Model/Deconvolve); for C146 the kernels of the package (Model/Kernels); filter, trim, decimate, rotation of ObsPy: parameters",
  "C145: the loop over the groups of `iter3c` equals one call per group because `deconvolve` is local (C07) and the groups are disjoint (C03); the groups are shown to be exactly the records of two or three traces. C146: composition with C143 and the mirror lemma of C42; the example runs the whole chain on a real-valued record with an S conversion"
 ],
 [
  147,
  148,
  "`RFStream.rf` with all error branches (Model/Stream, Model/Deconvolve)",
  "both directions from the stages of `rf`; a loop over disjoint groups succeeds iff its body succeeds for each group alone; on failure the list of groups is split at the failing one (C148)"
 ],
 [
  149,
  150,
  "`profile` (Model/Profile); containment in a box: parameter",
  "from the description of each output trace as mean over the traces of its bin (C50); the traces of a bin of the whole are those of the parts one after the other; a mean of a concatenation is the weighted mean, a mean is linear"
 ],
 [
  151,
  152,
  "`harmonics` (Model/Harmonics); `numpy.linalg.lstsq`: parameter which returns the least squares solution of minimum norm",
  "superposition: the least squares solution of minimum norm is linear in the right hand side (orthogonality of the residual, `lstsq_linear`); angles: the matrix contains sine and cosine of the differences only; order: sorting by distinct times gives one list, for equal times the least squares problem is permuted (`minNorm_perm`)"
 ],
 [
  153,
  153,
  "`iter_event_data`, `iter_event_metadata` as generators with their items and final state (Model/EventIter)",
  "induction over the loop over events and stations; skipped streams are gaps in the list of metadata"
 ],
 [
  154,
  154,
  "`RFStream.write`, `RFTrace.__init__` and the header functions (Model/Headers); the files: predicates `StoredQ`, `StoredSac` saying which parts of a trace they keep; SAC and JSON conversions of ObsPy and Python: parameters",
  "the heap handed to the writer is taken from the loop of `write`; then the header round trips C56, C57 for each trace and the restoring of codes (C59)"
 ],
 [
  155,
  156,
  "`calculate_vertical_slowness`, `calculate_delay_times`, `ppoint_distance` (Model/Simple) over the reals",
  "derivative of each summand of the closed forms of C34 and C37 (`Real.hasDerivAt_sqrt`); monotonicity from the difference of the vertical slownesses of two velocities"
 ],
 [
  157,
  158,
  "`SimpleModel.moveout`, `RFStream.moveout`, `RFStream.stack` (Model/Simple, Model/Stream)",
  "`np.interp` on the table of delay times followed by `np.interp` on the samples, both evaluated at a knot; the value is a convex combination of two samples; a mean of values in an interval is in the interval"
 ],
 [
  159,
  159,
  "`deconv_iterative` (Model/DeconvIter), spectra over the complex numbers",
  "Parseval for the DFT of the model; the largest correlation is at least the energy of the remaining spike train times the smallest spectral value, so that each pass of the loop reduces the energy by a fixed factor; induction over the passes (`Reach`); the distance of the spike trains is bounded by the remaining energy"
 ],
 [
  160,
  161,
  "arrays as objects: buffers with an element type, views (offset, length, direction), trace objects which point to views (Model/Buffers); `moveout` assigns in place through the view, `RFTrace(trace=tr)` and `slice2` share the array",
  "the correction step of Model/Simple changes the samples of a range only and `write` changes the cells of this range only; views without common cells do not see the assignment; witnesses: a slice and a wrapped stream whose original changes, an integer array in which a conversion vanishes"
 ],
 [
  162,
  162,
  "binary64 rounding of rational numbers (Py/Double: nearest, ties to even, unbounded exponent), index of the onset and mute limit in doubles (Model/DoubleIndex)",
  "relative error 2^-53 of each rounding, so that the floor differs by at most one and not at all away from integers; exact if the time difference is a double; witness 0.29 s at 100 Hz"
 ],
 [
  163,
  164,
  "`rf`, `deconvolve`, `stack` (Model/Stream, Model/Deconvolve); a kernel which divides by zero returns arrays instead of raising (Model/NanData); `K` has no NaN, so these arrays hold arbitrary numbers, and what is proved for all of them does not depend on them",
  "`deconvolve` with and without exception agree unless the kernel divides by zero; C145, C147 and C130 for the environment without exception; the stack is a mean over all traces of the id, which changes in every sample with the number that stands for NaN"
 ],
 [
  165,
  165,
  "`rf`, `moveout`, `stack` (Model/Stream, Model/Deconvolve, Model/Simple) in sequence, kernels of Model/Kernels; records as superpositions of delayed copies of the cut source (Spec/Pipeline)",
  "the stages of `rf` give each record its own deconvolution (C145) with the copies as output (C146), header and length of the receiver functions follow from C44 and C147; C157 moves the two neighbours of the delay time into the reference sample, the stack is their mean (C47); example heap with all hypotheses"
 ],
 [
  166,
  166,
  "`get_profile_boxes`, `_get_box`, `_find_box` (Model/Profile) with the direct geodesic problem on a sphere (Spec/Sphere); the point in polygon test is a parameter that rejects points north of all four corners, or the plane test",
  "the solution of the direct problem is checked against unit vectors on the great circle; latitudes of displaced corners by spherical trigonometry: off the equator both corners lie south of the line, on the equator corners at the same azimuth are displaced in longitude by arctan(tan(d) / cos(w))"
 ],
 [
  167,
  167,
  "`rf`, piercing points in the headers, `moveout`, `profile` (Model/Stream, Model/Simple, Model/Profile)",
  "as C165 with the mean over the traces of a bin (C50); the move out correction keeps the headers with the piercing point (C40)"
 ],
 [
  168,
  169,
  "`harmonics`, `decomp_one`, `decomp_two` (Model/Harmonics) with the least squares solver as a parameter that returns a minimiser; coverage of back azimuths and the Fourier sums in Spec/Coverage; `stack` (Model/Stream)",
  "roots of unity: sums of sines and cosines of multiples 1 to 4 vanish for five or more even directions, hence the normal equations are diagonal; the two-component problem splits by an orthogonal change of the ten unknowns into two one-component problems; uniqueness from five directions (C56)"
 ],
 [
  170,
  170,
  "`stack`, `moveout` (Model/Stream, Model/Simple)",
  "`stackOne` writes no slowness, so `moveoutStep` fails on the first stacked trace; with the slowness assigned the correction is a linear function of the samples that depends on slowness, rate and onset only (C139)"
 ],
 [
  171,
  171,
  "`profile` (Model/Profile), `stack` (Model/Stream)",
  "both results are sums over the traces of a component (C47, C50), regrouped by id"
 ],
 [
  172,
  172,
  "the four deconvolutions (Model/DeconvTime, DeconvFreq, DeconvIter, DeconvMt)",
  "the solution of the normal equations is unique, the spectral quotients have the response in the numerator only; the iterative method picks the lag of the largest correlation, which is not linear: explicit counterexample with one pass"
 ],
 [
  173,
  173,
  "`profile` (Model/Profile), `moveout` (Model/Stream, Model/Simple)",
  "the profile trace carries the slowness of the first trace of its bin (C90), the correction is linear in the samples for one slowness (C139), so it passes through the mean of the bin (C50); two traces of different slowness give the counterexample"
 ],
 [
  174,
  174,
  "`rf`, `deconvolve` (Model/Stream, Model/Deconvolve) with `deconv_iterative` (Model/DeconvIter) as kernel; delays and pulses in Spec/PulseTrain",
  "what `rf` does to one record (C145), the call of the kernel (C86), and the results for one spike (C136) and for spike trains (C159) carried to times after the onset"
 ],
 [
  175,
  175,
  "`stretch_delay_times`, `moveout` (Model/Simple); evanescent layers and the cut model in Spec/Evanescent",
  "cumulated sums of a prefix are a prefix of the cumulated sums; the first NaN is the first layer in which one of the waves does not exist; with the cut model the results for models that are reached completely (C36, C118) apply"
 ],
 [
  176,
  176,
  "text and parser of the model file (Model/Iasp91, Model/LoadTxt), `load_model` (Model/Ppoints), `SimpleModel.__init__` (Model/Simple)",
  "the kernel evaluates parser and interpolation on the text of the file over the rationals (a closed computation, the file is one constant); the result is carried to any ordered field because interpolation and rounding commute with the embedding of the rationals"
 ],
 [
  177,
  177,
  "`moveout` (Model/Stream, Model/Simple) with `load_model` (Model/Ppoints) and the file of the package",
  "C175 with the facts of C176: the reference propagates everywhere, slownesses up to 10 s/deg reach the layer below 760 km, delays grow with depth because no two consecutive layers are empty, and the first mirrored entries span more than 2 s"
 ],
 [
  178,
  178,
  "`ppoint_distance` (Model/Simple) with the file of the package",
  "C37 gives the value one layer too deep; with the facts of C176 the error is non-negative and at most the distance travelled in the thickest layer; at the surface the error is the distance travelled in 2 km (counterexample)"
 ],
 [
  179,
  179,
  "option `length` of `deconv_time`, `deconv_waterlevel` (Model/Deconv, Model/Kernels) in `deconvolve` (Model/Stream)",
  "the cross correlation and its centred cut are computed sample by sample; water level: exact amplitudes in the first L samples; time domain: the cut is centred, hence shifted by about (N-L)/2 samples while the headers stay (counterexample)"
 ],
 [
  180,
  180,
  "`json.dumps`/`json.loads` with escapes, surrogate pairs, numbers, lists and objects (Model/Json) as used by the Q headers",
  "mutual structural induction: parsing what was printed, followed by any rest, gives the value and the rest; strings by induction over characters with hex digits and surrogates computed; numbers under the hypothesis that their text reads back, met by exact decimal texts; discharges the hypothesis on JSON of C57, C58 and C154"
 ],
 [
  181,
  182,
  "the text of the template `rf/example/conf.json`, `ConfigJSONDecoder` (comment removal), JSON parser (Model/Json, Model/ConfTemplate), `run`, `run_commands` (Model/Batch)",
  "the kernel evaluates comment removal and parser on the text (one constant); the statements about commands, command line and files are proved for all of them by unfolding `run` and by induction over the options. C182: the set of switched off lines is determined by evaluation; 5 of the 14 lines give a valid configuration when switched on alone, the others miss a comma before them or leave one after them, and the program stops with a message (counterexample: deconvolve)"
 ],
 [
  183,
  183,
  "keywords accepted by the functions of the methods (Model/Keywords), `deconvolve`, `rf` (Model/Stream)",
  "case distinction over the exits of `deconvolve`; only `onset` entries are changed before the call which fails; for `rf` the first complete record raises; without complete record, or without deconvolution, nothing is reported (counterexample)"
 ],
 [
  184,
  184,
  "`trim2` (Model/Stream) with ObsPy's `trim` as a parameter that drops samples on both sides, depending on the number of samples, rate and times relative to the start only (Spec/Trim; met by cutting at the nearest samples), `moveout` (Model/Simple, Model/Stream)",
  "the interpolation of a shortened trace is compared sample by sample: the time map F is the same increasing piecewise linear map in both orders, the shortened trace only lacks samples above its last time; hence equality before F(last time), zeros after it if the window is cut out first. Equality everywhere if nothing is cut at the end or if reference delays are not earlier (for Ps: slownesses up to the reference slowness, by monotony of the delay in the slowness). Counterexample: window of 9 s, conversion at 11 s, reference delay 7 s"
 ],
 [
  185,
  185,
  "`trim2`, `stack` (Model/Stream), cutting as in C184",
  "the same samples are cut out of all traces with the onset at the same sample; drop and take commute with the mean; start times differ by the length cut off, the onset relative to the start is the same. Empty windows: IndexError of `stack` against an empty stream. Counterexample with the onset at different samples"
 ],
 [
  186,
  186,
  "`trim2` (Model/Stream), `profile` (Model/Profile), cutting as in C184",
  "as C185 with the characterisation of profiles by bins (C50) and their headers (C90). Counterexample with the onset at different samples"
 ],
 [
  187,
  187,
  "`trim2` (Model/Stream), `harmonics` (Model/Harmonics), cutting as in C184",
  "the harmonics of both methods are the least squares solution sample by sample (C71-C74), so that cutting commutes with it; header entries are those of the first trace (C76). Counterexample: first trace of another component with the onset at another sample"
 ],
 [
  188,
  188,
  "`RFTrace.__init__`, `_read_format_specific_header` (Model/Headers; ObsPy's SAC reference time, the test for undefined values and `json.loads` are parameters)",
  "each step of the loop is an overwriting of entries which does not depend on the entries (induction over the table): the composition overwrites the entries defined by the format specific header and keeps all others; overwriting twice is overwriting once, and the codes of Q files are split once. Counterexamples: onset set by hand and field `a`; undefined field `a`"
 ],
 [
  189,
  189,
  "`iter_event_processed_data`, `_iter_profile`, `write` (Model/BatchFiles); file name patterns are a separate spec (Spec/Glob: `?`, `*`, sets in brackets, per path component as in `glob`)",
  "names and patterns begin with the directory; a text without opening bracket describes itself (induction, each wildcard matches itself), the rest is C98. Counterexamples: the directory `rf[1]` for all formats, codes and times; files of the directory `rf1` are read instead"
 ],
 [
  190,
  190,
  "`deconvolve` lines 145-153 (Model/Noise: `preEventNoise` with `trim2` of Model/Stream), the kernel `deconv_multitaper` (Model/Multitaper)",
  "the selection after `trim2` is that of the responses (channel codes are kept), hence noise and responses are lists of the same traces when nothing is empty; empty windows are dropped by `trim2` and then the kernel fails (`deconvMt_shape`). An onset less than 5 s after the start: ValueError of `trim`, whatever the kernels (counterexample with the onset at 4 s). The noise window is local, does not depend on the order of the traces, is multiplied with the gain and does not depend on absolute time: this discharges the hypotheses on the noise of C130, C137, C144. `C190_works_partial`: sufficient lengths for success"
 ],
 [
  191,
  191,
  "`deconv_multitaper` lines 571-649: taper length, overlap factor, number and starts of the windows in double precision (Model/DoubleWindows with `fl64` of Py/Double); compared with the exact model (Model/Multitaper)",
  "every operation is exact or its rounding does not pass a whole number for overlaps which are multiples of a power of two (`C191_dyadic_partial`), hence for the default 0.75; otherwise the start differs by at most one sample (`C191_near_partial`, bound on the accumulated relative error). Counterexamples: overlaps 0.9 and 0.8"
 ],
 [
  192,
  192,
  "`deconvolve` lines 146, 150-157 with the keyword `noise` (Model/Noise: `givenNoise`, `withGivenNoise`); the noise stream shares no traces with the record",
  "`C192_position`: the kernel gets the data of the response components of the noise stream in its order; the same order of channels gives a matching function (induction over the list of responses). Counterexample: a noise stream with the order T, Q, L. `C192_enough`: fewer noise traces than responses cannot succeed"
 ],
 [
  193,
  193,
  "the models of `rf`, `moveout`, `ppoints`, `stack`, `profile`, `harmonics` (Model/Stream, Simple, Ppoints, Profile, Harmonics); relation `SameKept ks` between traces in Spec/KeptHeaders: equal codes, times, samples and entries with keys in `ks`",
  "relational simulation: every stage maps related states to related states and raises the same exception. `indexOf?` compares whole headers, but the source is the only trace of the record with its channel (`select_unique`), so that the comparison is by identity. The list of processing steps is outside of `ks` (`addInfo_kept`). ObsPy's functions and the user function have to respect the relation (hypothesis `KeptEnv`). `C193_saved`: the required keys are among `_HEADERS`"
 ],
 [
  194,
  194,
  "`plot_rf`, `plot_profile` (Model/Imaging)",
  "congruence of all parts of the figures (`C194_rf`, `C194_profile_partial` for profiles without histogram, `C194_hist_partial` if `num` agrees). Counterexample: `top='hist'` needs `num`, which is not written to SAC and SH files (AttributeError)"
 ],
 [
  195,
  195,
  "`iter_event_processed_data`, `write` and the loop of `run_commands` on files that are read while the loop runs (Model/BatchLazy: `lazyLoop`, `runData`, `runFiles`, `qFiles`); file names by `fmtPattern` as in C96",
  "induction over the list of pairs: the loop in closed form (`lazyLoop_spec`), file names are injective (`pairFile_inj`), steps respect the relation of C193 (`C195_steps`). `C195_loop`: without feedback the loop is that of Model/Batch. `C195_leftover`, `C195_twice`: the two conditions of the statement are needed"
 ],
 [
  196,
  196,
  "`rf`, `moveout` with all their stages (Model/Stream, Deconvolve, Simple); relation `SameSource` between traces before and after",
  "one invariance lemma for an arbitrary attribute of a trace (`rf_attr`, `streamMoveout_attr`), by stages, with exceptions and aliasing; ObsPy's functions have to keep the attribute (hypothesis `KeepsSource`). `C195_records` uses it to discharge the hypothesis of C195"
 ],
 [
  197,
  197,
  "`__find_nearest`, snapping of the onset and shift of the time domain method in double precision (Model/DoubleSnap with `fl64` of Py/Double; ObsPy's `times`, `delta` and `UTCDateTime.__add__` as documented there)",
  "relative error 2^-53 of each rounding; a sample axis with errors below one half sample is ordered and has one nearest sample (`findNearest_near`); rounding a number next to a whole number gives the whole number (`roundEven_near`)"
 ],
 [
  198,
  198,
  "`Model/BatchLazy.lean` (`writeEach`, `writeSacFiles`, `Files.put`) with the file names and patterns of `Model/BatchFiles.lean`.",
  "Induction over the stream for the content of the folder; with the injectivity of file names (C81) and the meaning of the pattern of a pair (C98) the traces which are read are the written ones and the older ones of other channels (`C198_read_partial`, `C198_exact_partial`); `C198_counterexample` is the calculation in place after a rotation; `C198_q` for Q files."
 ],
 [
  199,
  199,
  "`Model/SacTimes.lean` (`toSac`, `fromSac`, `sacTime`) with single precision numbers of `Py/Single.lean` and `Model/DoubleSnap.lean`.",
  "Sum of the relative errors of the roundings (`C199_time`), which is below 3/10 of a sample (`C199_sample`), so that the nearest sample and the onset set by deconvolve are those of C197 (`C199_deconvolve`); numbers of 24 bits are exact (`C199_exact`)."
 ],
 [
  200,
  200,
  "`streamMoveout`, `stack` of `Model/Stream.lean`, `Simple.moveout` of `Model/Simple.lean`, `profile` of `Model/Profile.lean`, single precision of `Py/Single.lean`.",
  "The difference of the results is the result for the difference (C139), which has no larger amplitude (C35 for all traces of a stream, `streamMoveout_bound`): `C200_moveout`; means differ by at most the largest deviation (`C200_stack`, `C200_profile`); `C200_sac` combines them with the rounding of the samples."
 ],
 [
  201,
  201,
  "`deconvWaterlevel` of `Model/DeconvFreq.lean` with `fft`, `ifft` of `Py/Dft.lean` over the complex numbers.",
  "Parseval's identity for the transforms (`parseval_W`, from the orthogonality `sum_W` of the characters) turns the bound C15 of each spectral value into `C201_energy`; a frequency whose power is at least the energy of the source exists (`exists_power`). `C201_noise` uses linearity (C19), `C201_sample` bounds single samples and their real parts. Equality for a spike and waterlevel 1."
 ],
 [
  202,
  202,
  "`deconvTime` of `Model/DeconvTime.lean`; the solver is a parameter that returns the solution when there is exactly one.",
  "The quadratic form of the system for the solution is the energy of its convolution with the source plus `spiking` times its energy and equals the scalar product of the response with that convolution; completing the square gives `sol_energy`, hence `C202_energy`. `C202_noise` and `C202_sample` use linearity (C172). Equality for source [1], response [2], spiking 1."
 ],
 [
  203,
  203,
  "`harmonics` of `Model/Harmonics.lean` with the least squares solver as parameter.",
  "The terms are the means of the traces multiplied by the trigonometric functions (C168); these functions are orthogonal for balanced directions, which gives Bessel's inequality (`bessel_five`): `C203_energy`. The formula is linear in the samples: `C203_noise`, `C203_sample`."
 ],
 [
  204,
  204,
  "`Model/DoubleMean.lean`: `stack64` and `profile64` with each addition and division of samples rounded to 53 bits (`fl64`); the order of the additions in `np.mean` is a parameter (`SumOrder`).",
  "Forward error analysis by induction over the order of additions (`sum64_err`, `npMean64_err`): `C204_stack`, `C204_amplitude`. For the profile a simulation of three runs of the loop (rounded, exact, exact with absolute values; `step_err`, `loop_err`, `profile_err`), C50 gives the means: `C204_profile`. Not modelled: overflow and subnormal numbers."
 ],
 [
  205,
  205,
  "`streamMethod`, `rf`, `moveoutPhase`, `streamMoveout` of `Model/Stream.lean`.",
  "False as stated: `C205_counterexample` (phases P and PP: no method, ValueError of `rf`, KeyError of `moveout`, `rf(method='P')` replaces PP by P). `C205_several` proves this for every stream with two different phases, `C205_one_phase_partial` that a single phase works, and `C205_rf` says exactly which phases the traces have after `rf`."
 ],
 [
  206,
  206,
  "`deconvWaterlevel` of `Model/DeconvFreq.lean`; `Spec.DelayedBy` says what a delay is, sample by sample.",
  "`C206_response` (responses), `C206_tshift` (time shift), `C206_common` (source and responses together): the shift theorem of the transform (`dft_delayed`), that the phase factors of time shifts multiply (`filter_add`), and that the water level only sees the modulus (`waterPower_delayed`)."
 ],
 [
  207,
  207,
  "`deconvIterative` of `Model/DeconvIter.lean`; `picks` of `Model/IterPicks.lean` lists the positions of the spikes the loop picks.",
  "False as stated: `C207_counterexample` (source `[1]`, one pass, responses `[1 + eps, 1]` and `[1, 1 + eps]`: the single spike jumps, the results differ by a fixed number however small eps is). `C207_same_spikes_partial` proves the bound, with the explicit constant passes * sampling rate / norm of the low-passed source, whenever the same positions are picked for both responses: a pass removes the projection onto the delayed source, so that the difference of what is left never grows (`lock_step`). The water level and time domain methods have such a constant without this condition (C201, C202)."
 ],
 [
  208,
  208,
  "`loadTxt` of `Model/LoadTxt.lean` (NumPy's reader, external, exact values), `loadModel` of `Model/Ppoints.lean`. Texts and values of numbers (`Spec.Decimal`) and layouts (`Spec.Laid`, `LineOf`, `FileOf`) are specified apart from the reader.",
  "`C208_number` (value of every text), `C208_line` (words of every layout), `C208_table`, `C208_model`, `C208_ragged`, `C208_single` (one row, one column, no numbers); inductions over digits, layouts and lines. Rounding to double precision is not modelled here; for the numbers of the shipped file see C176."
 ],
 [
  209,
  209,
  "`procInfo` of `Model/ProcInfo.lean` with the signatures of rf, moveout and stack; the values a call gives to the parameters are `effective` (C70).",
  "`C209_identifies_partial`: if no text contains the separator `::` the entry determines the text of every argument apart from the stream and the boxes of a profile, by splitting the entry again (`split_colons`, `join_inj`, `infoText_inj`). `C209_counterexample`: two calls of moveout with different models and phases and the same entry. `C209_moveout`, `C209_rf`, `C209_stack`: the exact text for all arguments; stack accepts no keywords."
 ],
 [
  210,
  210,
  "`deconvWaterlevel` of `Model/DeconvFreq.lean` over the complex numbers and `deconvTime` of `Model/DeconvTime.lean` over any ordered field; the Toeplitz solver is a parameter that solves exactly.",
  "`C210_water`: all denominators are the water level (`high_water`), and the inverse transform of the product of the spectra is the correlation (`circ_sum`). `C210_levels`: equal outcomes, including failures, for any Gauss filter, time shift and normalisation. `C210_time`: the remainder of a row is bounded with Cauchy-Schwarz, the bound of autocorrelations by the energy (`corr_bound`) and the energy of the solution (C202)."
 ],
 [
  211,
  211,
  "`deconvTime`, `deconvWaterlevel`, `deconvIterative` (`Model/DeconvTime.lean`, `DeconvFreq.lean`, `DeconvIter.lean`); the shift of the time domain method is computed as in `deconvolve`.",
  "`C211_time_partial`: equal auto- and cross-correlations (`acorrt_zeroPadded`, `corrAt_zeroPadded`), for windows with the onset inside or with an odd number of samples; `C211_counterexample_time` otherwise. `C211_water_partial`: the factors of the delay cancel in every frequency (`rawRf_source`), if the source with the leading zeros fits into the transform; `C211_counterexample` otherwise. `C211_src_partial`: normalize='src' if all samples of the transform are returned (the own receiver function of the source is the same up to a cyclic shift, `rawRf_cyclic`, and the largest value does not depend on the order, `maxC_congr`); `C211_counterexample_src` otherwise. `C211_water_after`, `C211_iterative`: zeros after the source, without condition."
 ],
 [
  212,
  212,
  "`writeHeader`, `writeLoop`, `write` of `Model/Headers.lean` and `traceWrite`, `writeTraces` of `Model/TraceWrite.lean`; `obspy_to_sac_header` is a parameter which, for a SAC header made by it for the same trace, keeps the entries of rf and gives the other entries again (`SacAgain`).",
  "`C212_formats`: the loop over the headers commutes with exchanging the header of the other format (`fold_map`). `C212_q`, `C212_sac`: same entries after the second call. `C212_stream`: the same for the calls of the writer of a whole stream in Q format, whose station codes are restored in between. `C212_stream_sac`: the same for SAC. `C212_h5`: a call in H5 format leaves traces and index as they were. `C212_traces`: the loop over `RFTrace.write`, by induction."
 ],
 [
  213,
  213,
  "`interp64` (`np.interp` with all six operations rounded to 53 bits), `stretch2_64`, `sampleTimes64` and `moveoutP64` in `Model/DoubleInterp.lean`; the search of the interval is a parameter with the guarantee of NumPy (`FindSpec`). Exponents are not bounded. Sample times, tables and samples are the doubles the interpolations are called with.",
  "`segment_err` adds the relative errors of the operations between two knots, `C213_interp` covers all branches. `C213_times`: new times and their order. `C213_knots`: exact interpolation between shifted knots, by comparing positions in the table (`pos_order`, `pos_close`). `C213_moveout` and `C213_trace` combine them."
 ],
 [
  214,
  214,
  "`interp64`, `stretch2_64`, `sampleTimes64`, `moveoutP64` of `Model/DoubleInterp.lean` with the same table for both slownesses (both are computed by the same operations).",
  "False in general: `C214_counterexample` (mirrored table as made by `stretch_delay_times`; the last sample becomes zero). `C214_times_partial`, `C214_samples_partial`, `C214_trace_partial`: a sample is returned bit by bit if its time is 0, a time of the table, or at most twice the time before it in the table (`Near`), and the sample times are more than T/2^49 apart, T the largest time of the table; the difference is exact then (`double_sub`), the slope is 1 and the sum is the time itself; the other new times are in order by C213, so the second interpolation hits the knot (`interp64_knot`). `C214_inside_partial`: the two interpolations return all samples if all of their times are such times, whatever is filled in outside of the table (S multiples). Missing: samples between the last mirrored (negative) time and the first delay time of the table other than time 0; there the difference is rounded and only the bound of C213 holds."
 ],
 [
  215,
  215,
  "`vslow64`, `vertSlow64`, `layerDelay64`, `cumsum64`, `delayTimes64`, `stretch64` of `Model/DoubleDelay.lean`: each operation rounded to 53 bits (unbounded exponent); `v ** (-2)` and `np.sqrt` are parameters of which only monotony, sign and being doubles are used (`Library`), the square of the slowness is an arbitrary function.",
  "`fl64_nearest`, `fl64_mono`: rounding gives a nearest double and keeps the order; so no rounded difference `#P*qp + #S*qs - 2*q` changes its sign (`layer_nonneg`, `layer_nonpos`) and no rounded sum falls below the sum before (`cumsum64_sorted`). `C215_delays`, `C215_sp`, `C215_tables`, `C215_reached`; `library_sqrt` shows that the conditions on the library functions can be met."
 ],
 [
  216,
  216,
  "`normalizeAll64` of `Model/DoubleNorm.lean` (the code is the same in the three functions): quotient and products rounded to 53 bits (unbounded exponent).",
  "False for the maximum: `C216_counterexample` (maximum 49 gives 1 - 2^-53). `C216_max_partial`: the maximum is 1 or 1 - 2^-53 (`mul_inv64`, `double_near_one`). `C216_samples`: order, sign and accuracy of all samples. `C216_again`: after a second normalisation it is 1 and nothing changes any more. `C216_units`: powers of two (`fl64_zpow`)."
 ],
 [
  217,
  217,
  "`delayTimes` of `Model/Simple.lean` with the real square root (C28 gives the sums over the layers).",
  "True for at least two S legs (`C217_many`). For one S leg and n P legs exactly if in each layer the vertical slowness of S is at most n times the one of P (`C217_one_partial`, via `sums_sorted`); `C217_counterexample`: Sppp at 13.344 s/deg in two layers has delay times 1.3 s and then 0.3 s, so that the table given to np.interp is out of order."
 ],
 [
  218,
  218,
  "`delayTimes64` of `Model/DoubleDelay.lean`: each operation rounded to 53 bits; the power, the root and the square are parameters with relative errors of at most 2^-51 (`Accurate`; `accurate_exists` shows that there are such functions).",
  "`C218_delays` against `delaySpec` with the real root: error of the vertical slowness by the condition of the root (`vslow64_err`), of one layer (`layer_err`, `layerDelay64_err`), and of the sums one after the other (`cumsum64_err`, induction over the layers). Exponents are not bounded (no overflow or underflow), and slownesses closer to critical than a cosine of 2^-20 are excluded."
 ],
 [
  219,
  219,
  "`stretch64` of `Model/DoubleDelay.lean` against `stretch` of `Model/Simple.lean` with the real root (`realModel`, empty cache).",
  "`C219_tables` from C218 for both slownesses (`close_delays`); closeness is kept by the change of sign, by cutting and by mirroring (`close_neg`, `close_take`, `close_drop`, `close_mirror`), and close tables have no NaN (`close_noNaN`)."
 ],
 [
  220,
  220,
  "`ppointDistance64` of `Model/DoublePpoint.lean` (each operation rounded to 53 bits, library functions as in C218) against `ppointDistance` of `Model/Simple.lean` with the real root.",
  "`C220_distance`: one layer and leg (`ppNum_err`, `ppTerm_err`), sums one after the other (`ppSum64_err` via `cumsum64_err` of C218), both kinds of legs (`ppLeg_err`, `ppAdd_err`, `ppX64_err`) and the interpolation in depth (`ppInterp_err`); the exact value is the one of C37, which belongs to one layer below. Exponents are not bounded."
 ],
 [
  221,
  221,
  "`secondsBetween6`, `endTime64`, `mirrorOnset64`, `stackOnset64` of `Model/DoubleOnset.lean` with `fl64` and `addSeconds` of C197; ObsPy's `UTCDateTime.__sub__`, `__add__` and `Stats.endtime` as documented there.",
  "A whole number of microseconds survives the way through seconds (`micro_back`), rounding to 6 digits (`round6_err`, `round6_exact`), end time (`endTime64_err`); `C221_mirror`, `C221_exact`, `C221_sample`, `C221_stack`; `C221_moved` is the witness at 30 Hz."
 ],
 [
  222,
  222,
  "`moveoutP` of `Model/Simple.lean` with `np.interp` of `Py/Interp.lean` for two pairs of tables; any search in the table.",
  "A position in a table is an index and a fraction of the interval (`interp_position`); times at a position are monotone, values Lipschitz in the times (`pv_mono`, `pv_lip`). `C222_interp` for one interpolation, `stretch_spaced` for the distance of new times, `C222_moveout` for the samples; `C222_double` says that the tables in double precision of C219 are an instance."
 ],
 [
  223,
  223,
  "`moveoutP64` and `sampleTimes64` of `Model/DoubleInterp.lean`, `moveoutS64` of `Model/DoubleMoveoutS.lean`, `stretch64` of `Model/DoubleDelay.lean` (each operation rounded to 53 bits, exponents not bounded) against `moveoutP`, `moveoutS` and `stretch` of `Model/Simple.lean` over the real numbers.",
  "`C223_moveout` (and `C223_multiple` for S multiples) joins C213 (roundings inside of np.interp), C222 (sensitivity to times, values and points of a table) and `C213_sampleTimes`; exact interpolation of doubles agrees in rational and real arithmetic (`interp1_cast`); `C223_tables` (C219) supplies the tables."
 ],
 [
  224,
  224,
  "`delayTimes`, `stretch` and `moveoutP` of `Model/Simple.lean` over the real numbers; the pairs of layers are described by `NearLayer`.",
  "The difference of two roots is the difference of the radicands divided by the sum of the roots, which gives `qSpec_near`; sums over layers (`C224_delays`), the two tables (`C224_tables`) and with C222 the samples (`C224_moveout`)."
 ],
 [
  225,
  225,
  "`ppointDistance` of `Model/Simple.lean` over the real numbers; pairs of layers are described by `NearLayer` (C224).",
  "Tangents of the angles of incidence (`tan_near`), sums over layers (`C225_layers`), linear interpolation between two depths with `C37_value_partial` (`C225_distance`)."
 ],
 [
  226,
  226,
  "`delayTimes` of `Model/Simple.lean` over the real numbers; pairs of layers are described by `SameVelocities`, which leaves the thickness free.",
  "Closed form of the delay times (C28), vertical slowness at most the slowness of the layer (`qSpec_le`), sums over layers (`thickness_sum`)."
 ]
]