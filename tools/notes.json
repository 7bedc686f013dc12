{
 "C01": [
  "proved",
  ""
 ],
 "C02": [
  "proved",
  ""
 ],
 "C03": [
  "proved",
  ""
 ],
 "C04": [
  "partial",
  "Holds for every onset that is not after the last sample; after it the call fails with IndexError (C04_after_end_fails, C04_counterexample)."
 ],
 "C07": [
  "partial",
  "All traces other than responses and source are untouched; the source trace is cut and tapered in place if it is not a response (C07_counterexample)."
 ],
 "C102": [
  "partial",
  "False: the stack is drawn at the times of the last trace of the stream (C102_counterexample). C102_stack_partial proves when the stack is drawn, its data, and that the times are right if the last trace agrees with the stack in sampling, length and time between start and onset."
 ],
 "C103": [
  "partial",
  "False: show_traces=False with show_vlines=True uses an unbound name whenever the stream stacks to a single trace (C103_fails, C103_counterexample). C103_vlines_partial covers the other combinations."
 ],
 "C104": [
  "partial",
  "The horizontal limits are proved for all profiles. The vertical limits are those of the last trace only (C104_counterexample); C104_vertical_partial holds if all traces have the same times."
 ],
 "C105": [
  "partial",
  "False: left edges are given to bar, which centres the bars, so that each bar ends at the middle of its box (C105_shifted_partial for all profiles, C105_counterexample). Number, order, width and height of the bars are proved."
 ],
 "C106": [
  "partial",
  "False: the tick labelled with a depth is at the delay time of the next depth of the model (delay times are cumulative sums up to the bottom of each layer, depths are the tops), and for Sp all ticks are at negative times. Proved: exact position and error for increasing depths, sign for Sp, relation to the table, minor and major ticks, range. Missing: nothing of the exact behaviour for increasing depths without evanescent rays; with repeated depths only the table statement."
 ],
 "C109": [
  "partial",
  "Counterexample proved: the object 'inventory' offered by the help text is taken as a file name; the keyword is 'stations'. The rest is proved."
 ],
 "C11": [
  "partial",
  "Holds for source windows with an odd number of samples and for even windows containing the onset strictly inside; off by one sample otherwise (C11_exact, C11_counterexample)."
 ],
 "C112": [
  "partial",
  "False regarding the documented attributes plat and plon (pp_latitude and pp_longitude are written). Proved: everything else, including the default phase. The distance itself is wrong by one layer, see C37."
 ],
 "C113": [
  "partial",
  "False: traces before the offending one have been changed. Proved: exact state after a failure; success with complete headers, depth inside the model and propagating rays."
 ],
 "C114": [
  "partial",
  "False: moveout overwrites the slowness by the reference slowness which ppoints uses afterwards. Proved: the points after a correction are those of the reference slowness; equal to the original ones if the slowness of the trace is the reference slowness."
 ],
 "C116": [
  "partial",
  "False for lists without n (list ** -2 raises TypeError). Proved: lists are as good as arrays with n; exact condition for the error."
 ],
 "C117": [
  "partial",
  "False: slowness_before_moveout holds the reference slowness after the second correction, and samples at or after the last tabulated delay time change. Proved: samples before the last tabulated delay time are unchanged (P phases), the second correction succeeds."
 ],
 "C118": [
  "partial",
  "False: the reference delay times of a phase are computed once per session and model, with the reference of the first call. Proved: independence if all earlier corrections with the same model and phase used the same reference; independence of the other traces; success."
 ],
 "C120": [
  "partial",
  "A source that is given but unusable is reported; without the option data the example waveforms of ObsPy are used silently (C120_example, C120_counterexample)."
 ],
 "C121": [
  "partial",
  "Restored if the module can be imported and leaves sys.path alone; after a failed import, or if the module appends to the path, '.' stays in sys.path (C121_failed, C121_foreign, C121_counterexample)."
 ],
 "C122": [
  "partial",
  "A plugin without event works like its client; the documented one never delivers a stream since event is not passed: its KeyError becomes None, which ends the program with AttributeError (C122_nothing, C122_counterexample)."
 ],
 "C124": [
  "partial",
  "Never writes anything; but rf without command ends silently, or with NotImplementedError if processed data are found, instead of a usage error (C124_counterexample)."
 ],
 "C127": [
  "partial",
  "Holds for streams and for inventories without repeated stations; stations repeated in an inventory (several epochs) are marked and labelled repeatedly (C127_counterexample)."
 ],
 "C128": [
  "partial",
  "The centre is the median of longitudes and latitudes, thus between the stations in both coordinates; for stations on both sides of the date line it is on the other side of the earth (C128_counterexample)."
 ],
 "C130": [
  "partial",
  "Data and header agree except for phase and processing (C130_records_partial); with a single phase also the phases (C130_one_phase). False for the phase in general: a PP record alone keeps PP, together with a P record it becomes P (C130_counterexample)."
 ],
 "C132": [
  "partial",
  "stream.deconvolve proved in full (C132_stream). rf: only for functions that work in place (C132_rf_partial); rf drops the traces a function returns, so with a function that returns new traces the stream keeps data that were not deconvolved, labelled rf (C132_counterexample)."
 ],
 "C133": [
  "partial",
  "proved for deconv_time and for deconv_waterlevel with normalization; false for deconv_waterlevel with normalize=None (the variable rf is unbound when a single array is returned) and for deconv_iterative, which rejects a single array"
 ],
 "C134": [
  "partial",
  "results and the case normalize='src' proved; false for an index (info['norm'] is 1, the factor of the result is another one) and for normalize=None (unbound variables)"
 ],
 "C137": [
  "proved",
  "ObsPy's filter, cut, downsampling, rotation and taper enter as parameters that commute with a factor; without normalisation the time domain result scales (C137_not_normalized)"
 ],
 "C140": [
  "partial",
  "False for harmonics: C140_harmonics_fails / C140_counterexample (type 'harmonic' is not in _H5INDEX, KeyError for every result). Proved for rf, profile and stack (C140_rf_partial, C140_profile_partial, C140_stack_partial)."
 ],
 "C144": [
  "partial",
  "False if the source component is not among response_components and no normalisation is given (the first response of the stream is then used), or if normalize is the number of a response: C144_counterexample. Proved for all other calls (C144_order_partial, C144_kernels for the four kernels of the package)."
 ],
 "C145": [
  "proved",
  ""
 ],
 "C146": [
  "proved",
  ""
 ],
 "C147": [
  "proved",
  ""
 ],
 "C148": [
  "proved",
  ""
 ],
 "C149": [
  "proved",
  ""
 ],
 "C150": [
  "proved",
  ""
 ],
 "C151": [
  "proved",
  ""
 ],
 "C152": [
  "proved",
  ""
 ],
 "C153": [
  "proved",
  ""
 ],
 "C154": [
  "proved",
  ""
 ],
 "C155": [
  "proved",
  ""
 ],
 "C156": [
  "proved",
  ""
 ],
 "C157": [
  "proved",
  ""
 ],
 "C158": [
  "proved",
  ""
 ],
 "C159": [
  "proved",
  "exact arithmetic; next_fast_len: parameter"
 ],
 "C160": [
  "partial",
  "False as stated: RFStream(stream) and slice2 share arrays with the original, and moveout of the new stream changes the samples of the original (C160_counterexample). Proved: with arrays of floats and without shared cells the result is that of the value model (C160_values), and every trace which shares no cell with the stream keeps its samples (C160_others_partial)."
 ],
 "C161": [
  "partial",
  "False as stated: in integer arrays the assigned samples are cut towards zero and a conversion can vanish (C161_counterexample). Proved: the assigned samples are the converted corrected samples (C161_step_partial), exact for floats and with error below 1 for integers (C161_cast)."
 ],
 "C162": [
  "partial",
  "False as stated: onset at 0.29 s with 100 Hz gives index 28 and changes the sample before the onset (C162_counterexample). Proved: the index differs by at most one, is exact away from integers and for dyadic time differences, samples at least two before the onset stay untouched."
 ],
 "C163": [
  "proved",
  "Waterlevel, iterative and multitaper methods; the time domain method hands NaN to the Toeplitz solver, whose behaviour is not known."
 ],
 "C164": [
  "partial",
  "False as stated: every sample of the stack of an id is undetermined if the samples of one of its traces are (C164_poisoned, C164_counterexample). Proved: stacks of ids without such a trace do not change."
 ],
 "C165": [
  "proved",
  ""
 ],
 "C166": [
  "partial",
  "False as stated: _get_box uses the azimuth of the profile at its start for all four corners also where the meridians have turned (C166_counterexample: from 45 degrees north with the default width of 2000 km a point on the line is in no box; C166_meridian in general). Proved for profiles along the equator, with the box found being that of the bin or one before it (C166_equator_partial); the boxes overlap (C166_overlap, C166_wrong_box)."
 ],
 "C167": [
  "proved",
  ""
 ],
 "C168": [
  "partial",
  "false for two components: the constants are the stacks divided by the scalars (3 and 0.3 by default), shown by a counterexample; true for one component and, up to the scalars, for two"
 ],
 "C169": [
  "proved",
  ""
 ],
 "C170": [
  "partial",
  "false: stack drops the slowness, so moveout of a stack always fails; proved if the common slowness is assigned to the stacked traces"
 ],
 "C171": [
  "proved",
  ""
 ],
 "C172": [
  "partial",
  "false for the iterative method (counterexample); proved for time, waterlevel and multitaper"
 ],
 "C173": [
  "partial",
  "false for traces of different slownesses (counterexample); proved for bins with one slowness; C173_first says what the code does"
 ],
 "C174": [
  "proved",
  "for source windows given by numbers, responses on all components"
 ],
 "C175": [
  "proved",
  "the code drops the last valid layer above the cut as well; the theorems state this"
 ],
 "C176": [
  "proved",
  ""
 ],
 "C177": [
  "proved",
  ""
 ],
 "C178": [
  "partial",
  "false as stated: the result belongs to one layer below (C37), e.g. the piercing point at depth 0 is the one of 2 km; proved are the sign and a bound of the error"
 ],
 "C179": [
  "partial",
  "False for the time domain method: the header is not moved with the cut, which is centred (counterexample); proved for the water level method and, with the exact shift, for the time domain method."
 ],
 "C180": [
  "proved",
  "Texts of numbers are a parameter; the hypothesis that they read back is proved for exact decimal texts."
 ],
 "C181": [
  "proved",
  "The decoder of the configuration is modelled with numbers as exact decimals."
 ],
 "C182": [
  "partial",
  "False: e.g. the line of deconvolve (counterexample); which lines can be switched on is determined exactly."
 ],
 "C183": [
  "partial",
  "False without complete records or with deconvolve=None (counterexample); proved for deconvolve and for rf with at least one complete record."
 ],
 "C184": [
  "partial",
  "False as stated: what is moved to earlier times into the window comes from outside of it, so that cutting first gives zeros (C184_counterexample). Proved: exact comparison of both orders (C184_samples_partial); equality if nothing is cut off at the end or the reference delays are not earlier (C184_commutes_partial), for Ps whenever the slownesses do not exceed the reference slowness (C184_ps_partial)."
 ],
 "C185": [
  "partial",
  "False as stated: stack adds sample by sample, whatever the onsets (C185_counterexample). Proved if the onset is at the same sample of all traces (C185_commutes_partial); an empty window makes stack raise IndexError (C185_empty_partial)."
 ],
 "C186": [
  "partial",
  "False as stated: profile adds sample by sample, whatever the onsets (C186_counterexample). Proved if the onset is at the same sample of all traces (C186_commutes_partial)."
 ],
 "C187": [
  "partial",
  "False in general (C187_counterexample): samples with the same index are combined whatever the onsets are and the header is that of the first trace. Proved for streams with the onset at the same sample of all traces, one and two components, both methods, identical headers (C187_one_component_partial, C187_two_components_partial)."
 ],
 "C188": [
  "partial",
  "False in general (C188_counterexample): an onset set by hand is replaced by the field a of the SAC header, and with an undefined field (-12345) the entry set before is a TypeError (C188_counterexample_null). Proved: exactly the entries defined by the format specific header are replaced, all others are kept, success does not depend on the entries (C188_file_headers_partial), and doing it again changes nothing (C188_again_partial), if the time fields are absent or defined."
 ],
 "C189": [
  "partial",
  "false: obspy's read expands patterns, so that files in a directory rf[1] are not found (the exceptions are swallowed) or those of rf1 are read; proved for all names without an opening bracket, also with * and ?"
 ],
 "C19": [
  "partial",
  "Linearity, invariance under rescaling and realness are proved in full; 'the maximum of result i is 1' is proved when the unnormalised result i has a positive sample and refuted (C19_counterexample) otherwise: an all-negative result flips its sign and its maximum exceeds 1."
 ],
 "C190": [
  "partial",
  "the windows are as stated (C190_noise, C190_own); it does not always work: an onset less than 5 s after the start of the record raises ValueError (C190_early, C190_counterexample); C190_works_partial gives lengths for which only NaN can occur. ObsPy's trim is a parameter"
 ],
 "C191": [
  "partial",
  "false: with overlap 0.9 and tapers of 100 samples the second window starts at sample 9 instead of 10 (C191_counterexample); exact for dyadic overlaps such as the default 0.75, within one sample for overlaps up to 1-2^-10"
 ],
 "C192": [
  "partial",
  "false: noise and responses are put together by position in the two streams (C192_position, C192_counterexample); holds if both streams have the components in the same order (C192_own_partial)"
 ],
 "C193": [
  "proved",
  ""
 ],
 "C194": [
  "partial",
  "False for plot_profile with top='hist': the number of traces (num) is not among the headers written to SAC and SH files, so that the histogram of a profile read back raises AttributeError. Proved for plot_rf, for profiles without histogram, and for the histogram if num agrees."
 ],
 "C195": [
  "proved",
  "for formats with one file per stream (Q). The commands must not leave an empty stream (C195_records; true without trimming, C196_untrimmed); counterexamples show that files left over from earlier calls and two instruments at one location have to be excluded"
 ],
 "C196": [
  "proved",
  "custom deconvolution functions (method func) may change anything and are excluded"
 ],
 "C197": [
  "proved",
  "records up to 2^40 samples, 13 days; the exponent range of doubles is not modelled"
 ],
 "C198": [
  "partial",
  "false for SAC files with older channels (counterexample); exact description of what is read"
 ],
 "C199": [
  "proved",
  "the start time and the reference time in the file are those of the record (ObsPy); exponent range of single precision not modelled"
 ],
 "C200": [
  "proved",
  "NaN delay times: the external result is assumed to be linear and bounded"
 ],
 "C201": [
  "proved",
  "all waterlevel > 0; energy and sample bounds"
 ],
 "C202": [
  "proved",
  "all spiking > 0; energy and sample bounds"
 ],
 "C203": [
  "proved",
  "balanced directions, one component, both methods"
 ],
 "C204": [
  "proved",
  "stack64 and profile64 against the exact means for every order of additions"
 ],
 "C205": [
  "partial",
  "False: two different phases with the same last letter give no method (C205_several, C205_counterexample). Proved for one common phase; C205_rf gives the phases after rf exactly."
 ],
 "C206": [
  "proved",
  "delayed responses, larger tshift, common delays; exact arithmetic"
 ],
 "C207": [
  "partial",
  "false: counterexample; bound proved for equal spike positions"
 ],
 "C208": [
  "proved",
  "texts of numbers and layouts; exact values"
 ],
 "C209": [
  "partial",
  "false for texts which contain the separator of the entries (counterexample); proved for all others"
 ],
 "C210": [
  "proved",
  "Exact arithmetic; Gauss filter and time shift by fractions of a sample only in the statement on water levels."
 ],
 "C211": [
  "partial",
  "Time domain: one sample off for some windows with an even number of samples (C11). Water level: false if the source is cut off by the leading zeros (C211_counterexample) and for normalize='src' if fewer samples are returned than the transform has (C211_counterexample_src); proved otherwise. Iterative: zeros after the source only; leading zeros change which lags are admitted and are left open."
 ],
 "C212": [
  "proved",
  "Codes without dots for Q (C59); for SAC under the condition SacAgain on the header made by ObsPy; the writer does not fail (second call in Q and H5 format, and trace by trace). Trace by trace: not for H5, whose headers are not changed at all (C212_h5)."
 ],
 "C213": [
  "proved",
  "Branch of all phases but S multiples (C213_trace); for S multiples the two interpolations are covered by C213_moveout. The reference is exact interpolation at the sample times as rounded."
 ],
 "C214": [
  "partial",
  "False in general (counterexample with a mirrored table: the last sample becomes zero); proved for each sample whose time is 0, a time of the table or at most twice the time before it in the table: for whole traces (C214_trace_partial, all phases but S multiples) and for the two interpolations (C214_samples_partial, C214_inside_partial). Missing for other times, e.g. between the last mirrored time and the first delay time; there the bound of C213 holds."
 ],
 "C215": [
  "proved",
  "Proved with all operations rounded to 53 bits; of v ** (-2) and np.sqrt only monotony, sign and 53 bits are assumed; exponents are not bounded."
 ],
 "C216": [
  "partial",
  "False: 1/M times M is 1 - 2^-53 for some M, e.g. 49 (counterexample); proved that these are the only two values, and order, accuracy and independence of units in full."
 ],
 "C217": [
  "partial",
  "Proved for at least two S legs; false for phases with one S leg such as Sppp at large slownesses (counterexample), for which the exact condition is proved."
 ],
 "C218": [
  "proved",
  "Double precision delay times within an explicit bound of the exact sums, for rays away from critical."
 ],
 "C219": [
  "proved",
  "Both tables within the bound of C218 of the exact ones, for rays away from critical."
 ],
 "C220": [
  "proved",
  "Within an explicit bound of the exact value of the same formula, for rays away from critical; that the formula itself is off by one layer is C37."
 ],
 "C221": [
  "proved",
  "Times in nanoseconds, rounding to microseconds by ObsPy in the model."
 ],
 "C222": [
  "proved",
  "Tables of delay times as arguments; C219 bounds their error in double precision, C224 their change with the velocity model. C222_moveout, C222_multiple (S multiples)."
 ],
 "C223": [
  "proved",
  "The index of the onset is the exact one, see C162."
 ],
 "C224": [
  "proved",
  "Bounds for delay times, tables and corrected samples, S multiples included (C224_multiple)."
 ],
 "C225": [
  "proved",
  "Bound for the distance returned by ppoint_distance (as the code calculates it, see C37)."
 ],
 "C226": [
  "proved",
  "Exact arithmetic; the thickness may also be zero or negative. Slowness up to the critical one included. C226_delays, C226_delay_times, C226_tables (two tables of stretch_delay_times, even number of letters, no reference times cached before), C226_moveout, C226_multiple (S multiples)."
 ],
 "C24": [
  "partial",
  "Proved that no shape mismatch or division by a window count occurs under explicit conditions on the lengths (C24_no_failure_partial); the unconditional claim is false: C24_counterexample (the source loop has no je < nft guard), C24_counterexample_noise (noise without a window)."
 ],
 "C30": [
  "partial",
  "False in general: the cached reference times ignore ref (C30_stale, C30_counterexample). Proved for histories that use the same reference for the phase."
 ],
 "C31": [
  "partial",
  "False in general (C31_counterexample): the reference table may contain NaN. Proved if every layer that is evanescent for the reference slowness is evanescent for the trace slowness and the uppermost layer propagates."
 ],
 "C33": [
  "partial",
  "Proved for all phases but S multiples (with the sample at exactly the largest tabulated time excluded, np.interp returns the last sample there), and for S multiples if the table covers all samples; false otherwise (C33_counterexample)."
 ],
 "C36": [
  "partial",
  "Proved for all phases but S multiples (P phases and Sp). False for S multiples, which are moved off by one sample (C36_counterexample)."
 ],
 "C37": [
  "partial",
  "The code is off by one layer: C37_value_partial gives the exact value it returns, C37_homogeneous_partial the case where both agree, C37_counterexample a depth where they differ."
 ],
 "C39": [
  "partial",
  "ValueError and no change of the offending and later traces is proved; earlier traces are already corrected (C39_counterexample)."
 ],
 "C41": [
  "partial",
  "False for '' and 'PS', which the substring test lets through (C41_counterexample); proved for every other explicit string and for the method derived from the phase."
 ],
 "C45": [
  "partial",
  "False for incomplete records and with response_components (C45_counterexample); proved when every record of the prepared stream has two or three components and all traces are responses."
 ],
 "C48": [
  "partial",
  "False: header of all stacked traces comes from the first trace of the stream (C48_counterexample); proved for the id of the first trace and for streams whose traces agree in these entries."
 ],
 "C56": [
  "proved",
  "Assumptions: obspy_to_sac_header built from scratch holds none of the rf fields, get_sac_reftime does not read them, values representable (times for onset/event_time, no '-12345'); ObsPy stores the SAC header in the file and returns it unchanged."
 ],
 "C57": [
  "proved",
  "Assumption: json.loads inverts json.dumps on dictionaries of numbers and strings; the Q writer/reader keeps the SH header."
 ],
 "C58": [
  "partial",
  "False as stated (C58_counterexample, C58_counterexample_sac): old fields of the format specific header are not removed. Proved: absent headers stay absent iff their field was absent; COMMENT headers never come back if COMMENT is rewritten, removed or was absent."
 ],
 "C59": [
  "partial",
  "False as stated: a failing writer leaves ids as station codes, and a trace contained twice ends with IndexError and a wrong code. Proved for distinct traces, codes without dots in network/station and a succeeding writer; reading restores the codes; other formats never change codes."
 ],
 "C60": [
  "partial",
  "False as stated (C60_counterexample): not restored if the writer raises. Proved for every outcome except an exception of the writer."
 ],
 "C61": [
  "partial",
  "None iff out of range and stream filtering proved in full; the claim that other phases have no default is false for 'PS' and '' (substring test), proved for all other phases."
 ],
 "C63": [
  "partial",
  "False as stated (C63_counterexample): event or station given alone is ignored. Proved if both are given."
 ],
 "C66": [
  "partial",
  "False as stated (C66_counterexample: event without origin; C66_counterexample_none: data service returning None). Proved: exceptions of coordinates, rfstats and the data service skip only their pair; exact condition for the generator to stop."
 ],
 "C67": [
  "partial",
  "False for the ray attributes of traces with SAC or SH header (C67_counterexample: header fields overwrite them). Proved: three traces, no gaps, request window, default windows; attributes for traces without such headers."
 ],
 "C70": [
  "partial",
  "False for failures (C70_counterexample: boxes without profile raise KeyError before the function is called). Proved: entry depends on effective arguments only, keyword order, position/keyword, defaults, appended exactly once, transparent once the entry is computed, exact condition for computing it."
 ],
 "C74": [
  "partial",
  "Proved (also for rank deficient systems and erroneous calls) if all traces used have as many samples as the first trace of the stream; otherwise false, see the counterexample: the loop runs over the samples of stream[0] only."
 ],
 "C75": [
  "partial",
  "Proved for streams with exactly one trace of each component for each event; false in general: traces are paired by their position after sorting, see the counterexample."
 ],
 "C76": [
  "partial",
  "All header entries of the result are characterised; false as stated: traces 5-8 lack 'components' (line 132 is outside the loop) and 'distance' of the first trace stays."
 ],
 "C77": [
  "partial",
  "False for # inside JSON strings (C77_counterexample): the rest of the line is removed. C77_strings_partial: values without # survive."
 ],
 "C78": [
  "partial",
  "The dictionary is merged as stated (C78_override), but options and boxes from the command line are replaced by phase, moveout, boxbins and so on of the file (C78_counterexample); C78_effect_partial states when the command line value is effective."
 ],
 "C79": [
  "partial",
  "Unknown options are rejected (C79_unknown). Repeated calc is accepted after data (C79_counterexample); C79_repeated_partial is the exact condition."
 ],
 "C80": [
  "partial",
  "File names and pairs work; catalogs and lists of events are never used (C80_never_given, C80_counterexample)."
 ],
 "C83": [
  "partial",
  "Bounds are proved for plot_rf with both scalings (attained unless the data vanish), for plot_profile, for the left panel of plot_harmonics and for the unmodelled traces in its right panel. False for a second stream: its scale is compared with the largest value of the first stream instead of its own (C83_counterexample); C83_harmonics_right_partial gives the case in which it holds."
 ],
 "C87": [
  "partial",
  "False for sampling rates which are no whole numbers: the rate is truncated before the division (2.5 Hz to 1.25 Hz stays at 2.5 Hz, 0.5 Hz to 0.25 Hz calls decimate with 0). Proved for whole rates, with bounds for all rates."
 ],
 "C89": [
  "partial",
  "Closed form of the estimate proved; covering is false: windows ending at or behind the last sample are dropped, so the end of the response has no influence (proved for all input and with a concrete pulse)."
 ],
 "C94": [
  "partial",
  "False (C94_counterexample): the wrapper of init_data returns None, which raises AttributeError in iter_event_data (C94_abort for every failing pair). C94_prefix: what is yielded before is right."
 ],
 "C95": [
  "partial",
  "False (C95_counterexample): n numbers give n-1 boxes; C95_edges_partial: the n edges are equally spaced from start to end."
 ],
 "C97": [
  "partial",
  "False for SAC files of streams with several stations (C97_counterexample); holds for all other cases (C97_directory_partial)."
 ],
 "C99": [
  "partial",
  "False for a format in lower case (C99_counterexample), which write accepts; C99_processed_partial for the keys of FNAMES."
 ]
}