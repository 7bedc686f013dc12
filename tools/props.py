#!/usr/bin/env python3
"""Generates /verif/properties.jsonl (one property per line)."""
import json, os
P = []
def p(title, statement, quantifier, why, anchors):
    P.append(dict(id='C%02d' % (len(P) + 1), title=title, statement=statement,
                  quantifier=quantifier, why_tests_cant=why, anchors=anchors))

U = 'rf/util.py'; D = 'rf/deconvolve.py'; S = 'rf/rfstream.py'; M = 'rf/simple_model.py'
PR = 'rf/profile.py'; H = 'rf/harmonics.py'; B = 'rf/batch.py'; I = 'rf/imaging.py'

# --- IterMultipleComponents
p('Component grouping is a partition',
  'Iterating IterMultipleComponents(stream, key) with number_components=None yields non-empty substreams which together contain every trace of the stream exactly once, and nothing else.',
  'every stream (any number, order and repetition of traces) and every grouping key',
  'Holds for arbitrary streams; a test only samples a few component layouts.',
  [U + ':IterMultipleComponents.__init__', U + ':IterMultipleComponents.__iter__'])
p('Component grouping puts together exactly the associated traces',
  'Two traces of a stream end up in the same substream iff their SEED ids agree up to the last character and the string of the given stats entry agrees; inside a substream the traces keep the order of the stream.',
  'every stream, every pair of traces in it, every grouping key',
  'Needs all pairs of ids, including ids that share prefixes, and all interleavings in the stream.',
  [U + ':IterMultipleComponents.__init__'])
p('Component grouping order and number_components filter',
  'Substreams come out in strictly increasing order of (id prefix, key value), independently of the order of the traces in the stream; a substream is kept iff number_components is None, equals its size (int), or contains its size (tuple).',
  'every stream, every permutation of it, every number_components value',
  'Order independence quantifies over all permutations of all streams.',
  [U + ':IterMultipleComponents.__init__', U + ':IterMultipleComponents.__len__'])

# --- deconvolve driver
p('Onset is snapped to the nearest sample',
  'deconvolve() moves the onset of source and responses to a sample time of the source trace that is at least as close to the old onset as every other sample; on a regular time axis the shift is at most half a sample for an onset inside the data.',
  'every time axis, every onset time (before, inside and after the trace)',
  'Boundary cases (before first sample, exact ties, after the last sample) for arbitrary real times cannot be enumerated.',
  [D + ':__find_nearest', D + ':deconvolve'])
p('deconvolve() accepts exactly one source and one to three responses',
  'deconvolve() raises NotImplementedError for an unknown method and ValueError unless the stream has exactly one trace whose component letter is in source_components and between one and three traces selected by response_components; on such an error no trace of the stream has been modified.',
  'every stream, every source_components / response_components selection, every method name',
  'The error cases range over all streams and component selections.',
  [D + ':deconvolve'])
p('Default normalisation refers to the source trace',
  'If normalize is not given, results are normalised against the position of the source trace inside the responses whenever the source is one of the responses, and against the first response otherwise.',
  'every admissible stream and component selection',
  'Depends on the equality test between traces with arbitrary content.',
  [D + ':deconvolve'])
p('deconvolve() writes only to the traces it deconvolves',
  'deconvolve() replaces the data of the response traces and sets their onset; every other trace of the stream keeps its data and header.',
  'every heap of trace objects, every stream, every selection of responses, every deconvolution kernel',
  'In-place effects on shared trace objects depend on which traces alias each other.',
  [D + ':deconvolve', S + ':RFStream.deconvolve'])
p('Default source windows',
  "For winsrc 'P' or 'S' deconvolve() uses the documented window for every method, the iterative and (P) waterlevel windows cover the source trace exactly from its first to its last sample, and an explicit winsrc tuple is used unchanged.",
  'every method, every onset, every trace length',
  'Quantifies over all onset positions and trace lengths.',
  [D + ':deconvolve'])

# --- time domain deconvolution
p('Autocorrelation vector of deconv_time',
  'The autocorrelation used by deconv_time has exactly `length` samples, sample k being the sum of products of source samples at distance k; sample 0 is the energy and dominates all others in absolute value.',
  'every source array and every length >= 1',
  'Index arithmetic of padding plus "valid" correlation for all sizes; domination is an inequality over all real vectors.',
  [D + ':_acorrt', D + ':_add_zeros', D + ':deconv_time'])
p('Cross-correlation length never trips the assertion in deconv_time',
  'For every response, source, shift and length the cross-correlation vector has exactly `length` samples, so deconv_time never fails its internal length assertion.',
  'every response length, source length, signed shift, and requested length >= 1',
  'Two padding branches, integer halving and signs: infinitely many parity combinations.',
  [D + ':_xcorrt', D + ':deconv_time'])
p('Zero-lag alignment of deconv_time',
  'With the shift computed by deconvolve(), output sample k of the cross-correlation relates response sample k - tshift*sr + m to source sample m for every m, so that the receiver function has its zero time at the onset sample.',
  'every response length, source window length (odd or even), and window start (before, at or after the onset)',
  'Alignment for every parity and every position of the window; existing tests check a few window lengths only.',
  [D + ':_xcorrt', D + ':deconvolve', D + ':deconv_time'])
p('The regularised Toeplitz system is uniquely solvable',
  'For every source with non-zero energy and every spiking > 0 the linear system solved by deconv_time has exactly one solution (symmetric positive definite matrix), for every length.',
  'every non-zero source, every spiking > 0, every length',
  'Positive definiteness for matrices of every size.',
  [D + ':deconv_time'])
p('deconv_time normalisation and scale invariance',
  'With normalize=i the results are scaled so that the largest absolute sample of result i is 1; multiplying all responses by a positive factor or the source by a positive factor does not change the normalised results; without normalisation results are linear in the responses.',
  'every source, every list of responses, every positive factor, every exact solver',
  'Algebraic law over all real inputs.',
  [D + ':deconv_time'])
p('Self-deconvolution of the prepared source is centred on the onset',
  'If the response is the prepared source placed at its own window position, the time-domain receiver function value at the onset sample is non-negative and bounds the squared norm of the whole receiver function, and the cross-correlation is maximal at the onset sample.',
  'every source, every length, every spiking > 0, every window position inside the response',
  'Inequality over all signals.',
  [D + ':deconv_time', D + ':_xcorrt'])

# --- waterlevel
p('Water level deconvolution never divides by zero and is stable',
  'For every non-zero source spectrum and waterlevel > 0 all spectral denominators are at least waterlevel * max|S|^2 > 0, and each spectral value of the (unfiltered) result is bounded by |R| / sqrt(waterlevel * max|S|^2).',
  'every source, response, waterlevel > 0 and FFT length',
  'Inequality over all spectra.',
  [D + ':deconv_waterlevel'])
p('Water level deconvolution is exact division above the water level',
  'At every frequency whose source power is at or above the water level the result spectrum is exactly filter * R / S; for waterlevel <= 0 this holds at all frequencies with S != 0.',
  'every source, response, filter, waterlevel',
  'Holds per frequency for all spectra.',
  [D + ':deconv_waterlevel'])
p('Water level self-deconvolution peaks at tshift',
  'Deconvolving the source from itself (any waterlevel >= 0, any Gauss filter) gives a trace whose value at sample tshift*sr is real, non-negative and at least as large in modulus as every other sample.',
  'every non-zero source, every FFT length, every integer sample shift, every Gauss parameter',
  'Statement about all signals, via the triangle inequality on the inverse DFT.',
  [D + ':deconv_waterlevel', D + ':_phase_shift_filter', D + ':_gauss_filter'])
p('Phase shift filter is a circular delay',
  'Multiplying a spectrum with the phase-shift filter for tshift = s/sampling_rate (s an integer) delays the time series circularly by exactly s samples; a Gauss filter has values in (0, 1] with value 1 at zero frequency.',
  'every series, every FFT length, every integer delay of either sign, every Gauss width',
  'All lengths, all shifts; uses DFT inversion.',
  [D + ':_phase_shift_filter', D + ':_gauss_filter', D + ':_apply_filter'])
p('Water level deconvolution: linearity and amplitude invariance',
  'Without normalisation the result is linear in the responses; with normalize=i and real outputs the results are invariant under positive rescaling of all responses and the result i has maximum 1.',
  'every source, responses, scale factors',
  'Algebraic law over all inputs.',
  [D + ':deconv_waterlevel'])

# --- iterative
p('Iterative deconvolution: misfit never increases',
  'The recorded normalised misfit of deconv_iterative is non-increasing from iteration to iteration, starts from 1 and stays in [0, 1].',
  'every response, source with non-zero filtered power, Gauss width, mute setting, number of iterations',
  'Invariant of a loop of unbounded length over all signals.',
  [D + ':deconv_iterative'])
p('Iterative deconvolution: termination and stop criterion',
  'deconv_iterative performs at most itmax iterations per component; if it stops earlier the last improvement of the misfit was at most minderr percent; for a zero response it performs no iteration and returns an all-zero spike train.',
  'every input, every itmax >= 0, every minderr >= 0',
  'Loop exit conditions over all executions.',
  [D + ':deconv_iterative'])
p('Iterative deconvolution: spikes only at admissible lags',
  'All non-zero spikes of the constructed spike train lie at lags 0 .. len(rsp)-1 or, unless mute_shift is set, in the last int(tshift*sampling_rate) positions (negative lags not before the window start).',
  'every input, every tshift, with and without mute_shift, after any number of iterations',
  'Loop invariant over all executions.',
  [D + ':deconv_iterative'])
p('Iterative deconvolution: greedy optimality of each spike',
  'Among all single spikes at admissible lags, with any amplitude, the spike added in one iteration achieves the smallest possible remaining misfit.',
  'every residual, every admissible lag, every amplitude',
  'Optimality over a continuum of alternatives.',
  [D + ':deconv_iterative'])

# --- multitaper
p('Multitaper windows stay inside the trace',
  'For every source shorter than the response, deconv_multitaper places all taper windows inside the padded trace, i.e. never fails with a shape mismatch or a division by zero.',
  'every source length, response length, noise length, taper length and overlap',
  'Integer truncation for all lengths and overlaps.',
  [D + ':deconv_multitaper'])
p('Multitaper time reversal and phase shift give the right zero time',
  'The reversal of the output array together with the shift by tshift - dt equals the inverse DFT of the conjugate spectrum delayed by the source window offset, so the zero time of the receiver function is at the same sample as for the other methods.',
  'every spectrum, every FFT length, every (also non-integer) time shift',
  'Identity for all lengths and shifts ("one sample gets lost in the shuffle").',
  [D + ':deconv_multitaper', D + ':_phase_shift_filter'])
p('Multitaper spectral estimate is damped',
  'The multitaper spectral quotient has a non-negative real denominator and its modulus is bounded by the Cauchy-Schwarz quotient sqrt(sum|D_k|^2)/sqrt(sum|S_k|^2); noise power only reduces the modulus.',
  'every number of tapers and every set of tapered spectra',
  'Inequality over all spectra.',
  [D + ':deconv_multitaper'])

# --- simple model
p('Model refinement keeps the knots and the monotone depth axis',
  'Refining a model with n support points keeps every original depth/velocity knot in order, yields 1 + sum(n[i+1]+1) points, and the refined depth axis is non-decreasing whenever the given one is.',
  'every model file, every list of support point numbers',
  'All sizes of models and support point vectors.',
  [M + ':_interpolate_n', M + ':SimpleModel.__init__'])
p('Delay time formula of converted phases and multiples',
  'calculate_delay_times accumulates over layers (#P*qp + #S*qs - 2*q_first)*dz; in particular Ps gives qs-qp, Ppps qp+qs, Ppss 2*qs, Sp the negative of Ps; the result depends only on the letter counts, the first letter and not on letter case.',
  'every model, slowness, and phase string over the letters p, s, P, S',
  'All phase strings and all models.',
  [M + ':SimpleModel.calculate_delay_times', M + ':SimpleModel.calculate_vertical_slowness'])
p('Delay times are non-negative and monotone in depth',
  'For every model with 0 < vs <= vp and non-decreasing depths and every non-evanescent slowness, Ps (and every multiple starting with P and containing an s) delay times are non-negative and non-decreasing with depth; the time axes used for stretching are sorted.',
  'every model with 0 < vs <= vp, every slowness below cut-off',
  'Inequality over all models; a test uses iasp91 only.',
  [M + ':SimpleModel.calculate_delay_times', M + ':SimpleModel.stretch_delay_times'])
p('Moveout reference times do not depend on earlier calls',
  'moveout(ref=r) stretches to the delay times of slowness r, whatever moveout corrections (with other reference slownesses) were performed before with the same model.',
  'every history of moveout calls on a shared (cached) model object',
  'Property of call histories; each test starts from one fixed reference.',
  [M + ':SimpleModel.stretch_delay_times', M + ':load_model', S + ':RFStream.moveout'])
p('No NaN reaches the stretching tables',
  'stretch_delay_times returns tables without NaN also for slownesses for which deeper layers are evanescent.',
  'every model, slowness and reference slowness',
  'All positions of the first evanescent layer, including the surface.',
  [M + ':SimpleModel.stretch_delay_times'])
p('Piecewise linear interpolation facts used by moveout',
  'The interpolation used for moveout reproduces the table values at the knots, is monotone for monotone tables and never leaves the interval spanned by the table values and the outside values.',
  'every sorted table, every query point',
  'All tables and all query points.',
  [M + ':SimpleModel.moveout'])
p('Moveout at the reference slowness is the identity',
  'A trace whose slowness already is the reference slowness is unchanged by the moveout correction on all samples earlier than the largest tabulated delay time.',
  'every trace, every model with increasing delay times, every phase',
  'All traces and models.',
  [M + ':SimpleModel.moveout', M + ':SimpleModel.stretch_delay_times'])
p('Moveout leaves the trace length and the samples before the onset untouched',
  'moveout never changes the number of samples and, for all phases but S multiples, changes no sample before the onset sample; for S multiples it changes no sample at or after the onset sample.',
  'every trace, model, phase and reference slowness',
  'All onset positions and trace lengths.',
  [M + ':SimpleModel.moveout'])
p('Moveout does not create larger amplitudes',
  'No sample of the moveout corrected trace exceeds in absolute value the largest absolute sample of the input trace.',
  'every trace, model, phase and reference slowness',
  'Inequality over all data.',
  [M + ':SimpleModel.moveout'])
p('Moveout moves a conversion to its reference delay time',
  'The stretching of the time axis maps the delay time of a discontinuity at each model depth for the slowness of the trace to the delay time of the same depth for the reference slowness.',
  'every model depth, every slowness and reference slowness, every trace sample at that time',
  'All depths and slownesses.',
  [M + ':SimpleModel.moveout', M + ':SimpleModel.stretch_delay_times'])
p('Piercing point distance is the ray-geometric distance at the requested depth',
  'ppoint_distance(depth) is the horizontal distance accumulated by the ray between the surface and that depth, hence 0 for depth 0.',
  'every model, depth, slowness, phase',
  'All depths between the knots; the tests only compare with 5-20 % tolerance.',
  [M + ':SimpleModel.ppoint_distance'])
p('Piercing point distance: monotone in depth, errors outside the model',
  'For non-evanescent rays ppoint_distance is non-negative and non-decreasing with depth, an even phase length is rejected with ValueError, and a depth not smaller than the deepest tabulated depth raises IndexError instead of extrapolating.',
  'every model, pair of depths, slowness, phase',
  'All pairs of depths.',
  [M + ':SimpleModel.ppoint_distance', M + ':SimpleModel.ppoint'])
p('Moveout rejects onsets outside of the data without side effects',
  'If the onset of some trace is outside its data, moveout raises ValueError and the stream is left unchanged.',
  'every stream, every position of the offending trace',
  'Crash point inside a loop over an arbitrarily long stream.',
  [M + ':SimpleModel.moveout', S + ':RFStream.moveout'])
p('RFStream.moveout bookkeeping',
  'After a successful moveout every trace has moveout=phase, slowness=ref, slowness_before_moveout = the previous slowness, and the default phase is Ps for P and Sp for S receiver functions.',
  'every stream',
  'All streams.',
  [S + ':RFStream.moveout'])

# --- rf()
p('rf() accepts only the methods P and S',
  "RFStream.rf() raises ValueError for every method (explicit or derived from the phase) that is not 'P' or 'S'.",
  'every method string',
  'All strings.',
  [S + ':RFStream.rf', S + ':RFStream.method'])
p('S receiver functions are mirrored at the onset',
  'For method S the sample at lag tau relative to the old onset is found at lag -tau relative to the new onset, start and end times are kept, and mirroring twice restores the trace.',
  'every trace, every sample, every onset',
  'All traces and lags.',
  [S + ':RFStream.rf'])
p('Sign convention of the Q component',
  'Before the deconvolution exactly the traces whose channel ends in Q are multiplied by -1; other traces are untouched by this step.',
  'every stream of distinct traces',
  'All channel codes and all streams.',
  [S + ':RFStream.rf'])
p('rf() labels the stream with type and method',
  "After rf(method) every trace has type 'rf' and the stream's method property equals the requested method, whatever mixture of phases the traces had before.",
  'every non-empty stream and any phases in it',
  'All mixtures of phase headers (missing, different, multi-letter).',
  [S + ':RFStream.rf', S + ':RFStream.type', S + ':RFStream.method'])
p('rf() deconvolves every trace it labels as receiver function',
  "Every trace that is in the stream after rf() and has type 'rf' holds deconvolved data.",
  'every stream, incl. incomplete component groups and restricted response components',
  'All group sizes and component selections.',
  [S + ':RFStream.rf', U + ':IterMultipleComponents'])
p('rf() keeps the stream membership and order',
  'rf() returns the stream itself, with the same traces in the same order (in-place calculation; with the trim option traces without samples are dropped), and adds exactly one processing entry per call of a decorated function (as long as the history has fewer than 100 entries).',
  'every stream, every option combination that succeeds',
  'All streams and options.',
  [S + ':RFStream.rf', U + ':_add_processing_info'])

# --- stack / trim2 / slice2
p('Stack is the per-channel mean',
  'stack() returns exactly one trace per distinct SEED id, whose samples are the arithmetic means of all traces with that id, independently of the order of the traces; the new id equals the old one and the onset offset is kept.',
  'every stream with equal sample numbers per id, every permutation of it',
  'All streams and permutations.',
  [S + ':RFStream.stack'])
p('Stack metadata belongs to the stacked channel',
  'Sampling rate, station coordinates, phase and onset offset of a stacked trace come from a trace with the same SEED id.',
  'every stream, incl. several stations',
  'All mixtures of stations.',
  [S + ':RFStream.stack'])
p('trim2 and slice2 agree and drop only empty traces',
  'slice2 returns what trim2 would leave on a copy of the stream, trim2 keeps the order and removes exactly the traces without samples, absolute times are used as they are and relative times are offset by each trace\'s own reference time.',
  'every stream, window and reference time',
  'All windows and reference headers.',
  [S + ':RFStream.trim2', S + ':RFStream.slice2', S + ':RFTrace._seconds2utc'])

# --- profile
p('Profile traces are box means',
  'profile() returns one trace per (box position, component) hit by at least one trace; its data are the mean and its num the count of exactly those traces whose piercing point lies in that box and which have this component; traces outside all boxes are ignored.',
  'every stream and every list of boxes',
  'All streams and box layouts; fold over an unbounded stream.',
  [PR + ':profile', PR + ':_find_box'])
p('Profile counts add up',
  'The sum of num over the profile traces equals the number of input traces with a piercing point inside some box, every trace contributes to exactly one profile trace, and a point in overlapping boxes goes to the first one.',
  'every stream and every list of boxes',
  'Counting argument over all streams.',
  [PR + ':profile', PR + ':_find_box'])
p('Profile is independent of the trace order and does not modify its input',
  'The data and num of the profile do not depend on the order of the traces in the stream and the input traces are unchanged.',
  'every permutation of every stream',
  'All permutations.',
  [PR + ':profile'])
p('Profile boxes tile the bins',
  'get_profile_boxes returns len(bins)-1 boxes with position at the bin midpoints and length equal to the bin widths; positions increase strictly for increasing bins, the lengths add up to the recorded profile length, and only the first box carries the profile dictionary.',
  'every list of bin edges',
  'All bin lists.',
  [PR + ':get_profile_boxes', PR + ':_get_box'])
p('On a flat earth every point of the strip is in exactly one box',
  'With planar geometry a point with profile distance strictly between two neighbouring bin edges and offset smaller than half the width is inside exactly one box, the one of these edges; points outside of the strip are in no box.',
  'every azimuth (unit direction), every starting point, every increasing bin list, every point',
  'Continuum of points and azimuths.',
  [PR + ':_get_box', PR + ':get_profile_boxes', PR + ':_find_box'])

# --- header IO
p('Format header tables are consistent',
  'Every stats header is mapped to exactly one SAC field, no two headers share a SAC field and no header is dropped by the pairing; for SH/Q the headers not stored in COMMENT have distinct fields.',
  'all entries of the header tables',
  'Complete table statement; a test with one value per header cannot see collisions of equal values.',
  [S + ':_HEADERS', S + ':_FORMATHEADERS'])
p('Header round trip through SAC',
  'Writing the stats entries into the SAC header and reading them back into fresh stats restores every supported header that was present, times included, and invents no other.',
  'every subset of headers, every value representable in the format',
  'All subsets and values, incl. sentinel-like values.',
  [S + ':RFTrace._write_format_specific_header', S + ':RFTrace._read_format_specific_header'])
p('Header round trip through SH/Q',
  'Writing the stats entries into the SH header and reading them back into fresh stats restores every supported header that was present; with sh_compat=True exactly the headers kept in COMMENT are lost.',
  'every subset of headers and every value',
  'All subsets and values.',
  [S + ':RFTrace._write_format_specific_header', S + ':RFTrace._read_format_specific_header'])
p('Deleted headers do not come back',
  'A supported header that is absent from the stats when writing is absent after reading the file back.',
  'every earlier content of the format specific header',
  'Depends on history (stale format headers).',
  [S + ':RFTrace._write_format_specific_header'])
p('Writing Q files does not change the station codes',
  'After RFStream.write(format="Q") all traces have the same network, station, location and channel as before, and reading a Q file restores the codes.',
  'every stream, every code, also if a trace object occurs twice or the writer fails',
  'All codes and aliasing patterns, crash points in the writer.',
  [S + ':RFStream.write', S + ':RFTrace.__init__'])
p('Writing H5 files restores the global index',
  'The module-wide obspyh5 index is the same after RFStream.write(format="H5") as before.',
  'every stream type, every outcome of the underlying writer',
  'Crash points in the writer.',
  [S + ':RFStream.write'])

# --- rfstats
p('rfstats distance filter',
  'rfstats returns None iff the epicentral distance is outside the (inclusive) distance range, applied to a stream it keeps exactly the traces inside the range in order, and without explicit range only phases P (30-90) and S (50-85) have defaults, others raise ValueError.',
  'every distance, range, phase and stream',
  'All distances, incl. the boundaries.',
  [S + ':rfstats'])
p('rfstats results',
  'On success onset = event time + travel time of the first arrival and distance, back azimuth, inclination, slowness, phase are set from the same arrival; if no arrival exists an exception is raised and no ray parameter is set; other stats entries are preserved.',
  'every stats object, event, station and list of arrivals',
  'All arrival lists.',
  [S + ':rfstats', S + ':obj2stats'])
p('rfstats uses an event or station given on its own',
  'Event attributes given by the event argument are used also if the station attributes are already stored in obj (and vice versa).',
  'every obj, event',
  'All combinations of given and stored attributes.',
  [S + ':rfstats'])
p('Event and station attributes',
  'obj2stats maps the preferred origin (or else the first one) to event latitude, longitude, depth in km and time, raises ValueError if there is no origin or an attribute is missing, and maps station coordinates unchanged.',
  'every event and station',
  'All combinations of missing values.',
  [S + ':obj2stats', S + ':__get_event_origin_prop', S + ':__get_event_magnitude'])

# --- iter_event_data
p('iter_event_data visits every event-station pair once, in order',
  'The streams yielded by iter_event_data form a subsequence of the event-major product of events and stations; pbar is advanced once per pair; pairs are skipped exactly if coordinates, rfstats or waveforms fail, the distance is out of range, there are not three components or there are gaps.',
  'every list of events, every inventory, every behaviour of the services',
  'All failure patterns of external services.',
  [U + ':iter_event_data', U + ':_get_stations'])
p('One failing event or waveform request does not stop iter_event_data',
  'A failure that concerns one event-station pair only (event without origin, data service error) skips this pair and all other pairs are still processed.',
  'every position and kind of failure',
  'All failure positions; history of service errors.',
  [U + ':iter_event_data', B + ':init_data'])
p('Yielded event streams are complete',
  'Every stream yielded by iter_event_data has exactly three gap-free traces which all carry the ray attributes of the event-station pair and were requested for the window onset+request_window extended by pad.',
  'every event, station, window and pad',
  'All inputs.',
  [U + ':iter_event_data'])
p('Stations are derived from channels without duplicates',
  'Every channel of the inventory belongs to exactly one station entry (id with component replaced by "?"), station entries are distinct and each is represented by the component of its last channel.',
  'every channel list',
  'All inventories.',
  [U + ':_get_stations', U + ':iter_event_metadata'])

# --- caches, processing info
p('Cached example streams are isolated',
  'minimal_example_rf and minimal_example_Srf return equal data on every call, whatever the caller does with earlier results.',
  'every sequence of calls and modifications of returned streams',
  'Unbounded histories.',
  [U + ':minimal_example_rf', U + ':minimal_example_Srf'])
p('Processing information is canonical',
  'The processing entry recorded for a call does not depend on whether arguments are passed by position, by keyword or as defaults, nor on keyword order, and is appended once to every trace of the returned stream; failures to record it never change the result.',
  'every decorated function signature and argument list',
  'All ways of passing arguments.',
  [U + ':_add_processing_info'])

# --- harmonics
p('Harmonic decomposition recovers exact harmonics (one component)',
  'If the data are a constant plus first and second order harmonics in back azimuth - azim and at least five back azimuths differ modulo 360 degrees, harmonics() returns exactly the coefficients used.',
  'every set of back azimuths with five distinct directions, all coefficients, all azim',
  'Rank statement over a continuum of azimuths.',
  [H + ':decomp_one', H + ':harmonics'])
p('Harmonic decomposition recovers exact harmonics (two components)',
  'If R/Q and T data follow the ten term modelled/unmodelled expansion, at least five back azimuths differ and both scalars are non-zero, harmonics() returns exactly the coefficients used.',
  'all azimuth sets with five distinct directions, all coefficients, all non-zero scalars',
  'Rank statement over a continuum.',
  [H + ':decomp_two', H + ':harmonics'])
p('Harmonic decomposition: rotation covariance',
  'Decomposing relative to azimuth a+d instead of a leaves the constant unchanged and rotates the first-order pair by d and the second-order pair by 2d.',
  'every data set with unique solution, every a and d',
  'All angles.',
  [H + ':decomp_one', H + ':harmonics'])
p('Harmonic decomposition: time and frequency method agree',
  "method='freq' and method='time' give the same harmonics.",
  'every data set and Jacobian, also rank deficient (minimum norm solutions)',
  'All data sets.',
  [H + ':harmonics'])
p('Harmonic decomposition pairs R and T traces of the same event',
  'The R and T samples fitted against one back azimuth belong to the same event.',
  'every stream',
  'All streams, incl. missing components.',
  [H + ':harmonics'])
p('Harmonic decomposition output layout',
  'harmonics() returns five traces (ten for two components) with channels 0-4 and location mod (and unmod), all carrying the components entry, none carrying event specific headers of the first input trace.',
  'every accepted input',
  'All inputs.',
  [H + ':harmonics'])

# --- batch
p('Configuration comments',
  'Everything from a # to the end of a line of the configuration file is ignored, text without # is unchanged, stripping is idempotent, and JSON string values containing # survive.',
  'every configuration text',
  'All texts.',
  [B + ':ConfigJSONDecoder.decode'])
p('Command line options win over the configuration file',
  'For every option given on the command line its value is used instead of the one in the configuration file, other configuration values are kept.',
  'every configuration and every set of options',
  'All option sets.',
  [B + ':run'])
p('Unknown options and repeated commands are rejected',
  'run_commands raises ParseError for every option that is not known, and for command lists in which calc or moveout occurs more than once.',
  'every option name and command list',
  'All command lists.',
  [B + ':run_commands'])
p('Batch accepts event catalogs',
  'run_commands accepts events as Catalog or list of events as well as as file name or (file name, format) pair.',
  'every events argument',
  'All argument kinds.',
  [B + ':run_commands'])
p('Batch output files do not collide',
  'Two traces that differ in network, station, location, channel or event time (to the second) are written to different SAC files, and equal ones to the same file.',
  'all codes without dots, slashes and underscores and all event times',
  'Injectivity over all strings.',
  [B + ':write', B + ':FNAMES'])
p('Batch write does nothing for empty streams and writes each SAC trace once',
  'write() of an empty stream creates no file; for SAC every trace is written exactly once to the file of its own header; for Q and H5 a single file is written.',
  'every stream and format',
  'All streams.',
  [B + ':write'])

# --- imaging
p('Plot scaling keeps amplitudes within the scale',
  'Normalised trace amplitudes used for plotting never exceed the scale factor in absolute value, for global and trace-wise scaling; the harmonics plot scales each panel by the maximum of the traces shown in it.',
  'every stream with non-zero data',
  'All data.',
  [I + ':plot_rf', I + ':plot_profile', I + ':plot_harmonics'])
p('Plot label names what all traces have in common',
  'The plot label is the full id if all traces share it, else the id with the component replaced by ? if they share that, else network.station if they share that, else empty.',
  'every stream',
  'All streams.',
  [I + ':_label'])
p('iter_event_metadata yields one record per event and station',
  'For channel ids of four codes and events with origin, iter_event_metadata yields exactly one record per event-station pair, event by event, with the codes of the station and the origin time, advancing pbar once per pair; without events it yields one record per station without event time.',
  'every list of events and channels',
  'All inventories and catalogs.',
  [U + ':iter_event_metadata', U + ':_get_stations'])

p('Deconvolution passes the right window and shift to the kernel',
  'deconvolve() with an explicit source window (w0, w1, taper) hands the kernel of the chosen method the tapered source cut around the onset, the untrimmed responses in order and the shift belonging to w0 (w0 in samples relative to half the source length for the time domain, -w0 seconds for waterlevel and iterative, w0 for multitaper), and stores the i-th result in the i-th response; freq and waterlevel are the same method.',
  'every stream, method, window and kernel',
  'All windows and streams.',
  [D + ':deconvolve'])
p('Downsampling gives the requested rate',
  'rf(downsample=f) leaves traces sampled slower than f untouched and brings traces whose sampling rate is a multiple of f to the rate f; the result is never sampled slower than f.',
  'every stream and every rate f > 0',
  'All sampling rates.',
  [S + ':RFStream.rf'])
p('Defaults of rf follow the method',
  'rf() without source_components equals rf() with LZ for method P and QR for method S, without winsrc it uses the window of the method, and without method it uses the method of the stream.',
  'every stream and every combination of the other arguments',
  'Equality of two calls for all streams.',
  [S + ':RFStream.rf'])
p('Multitaper windows cover the response',
  'Each multitaper spectral estimate is the Fourier transform of the detrended trace weighted by the sum of the shifted tapers, and each sample of the response is covered by a window.',
  'every response, taper set, taper length and overlap',
  'All lengths and overlaps; the loss of the last samples is not visible in a typical result.',
  [D + ':deconv_multitaper'])

p('Profile headers describe the box',
  'The coordinates of a profile box are those of its middle on the profile line. The header of a profile trace consists of position, length and coordinates of the first box enclosing the piercing point, of start, azimuth and length of the profile, of slowness, phase, moveout and processing of the first trace of the bin, of its onset relative to the start, of the number of traces and the type; nothing else is copied.',
  'every stream, every set of boxes and every predicate for being inside',
  'All header keys, including keys the code does not know.',
  [PR + ':profile', PR + ':_get_box'])
p('H5 files are organised by the type of the stream',
  'write() in H5 format calls the writer with the index for receiver functions if the common type is rf or if there is no common type and the first trace has an event time, with the index for profiles if the common type is profile, with the index set by the user if there is neither type nor event time; any other type raises KeyError with nothing written.',
  'every non-empty stream and every writer',
  'All combinations of types within a stream.',
  [S + ':RFStream.write', S + ':RFStream.type'])
p('rfstats calculates the piercing point of the converted phase',
  'rfstats with pp_depth calculates the piercing point at this depth for pp_phase, by default for S if the phase ends with P (any case) and for P otherwise, from the slowness and back azimuth of the first arrival; without pp_depth no piercing point is calculated.',
  'every stats object, phase and ray tracer',
  'All phase names.',
  [S + ':rfstats'])

p('The batch program processes every stream once',
  'The commands calc and moveout, alone or one after the other, handle the streams in the order they are yielded, apply the steps in the order of the commands, and pass each processed stream to the output exactly once; a failing step stops the run after the streams before it have been written; a rejected command line writes nothing.',
  'every command list, every list of streams and every implementation of the processing steps',
  'All command lists and failures at any stream.',
  [B + ':run_commands'])
p('Missing data do not stop the batch program',
  'If the configured data source has no data for an event and station, the batch program leaves out this pair and continues with the others.',
  'every inventory, catalog and data source',
  'Failures of a remote data source at any position.',
  [B + ':init_data', U + ':iter_event_data'])
p('The option boxbins gives the number of boxes',
  'boxbins [start, end, n] in the configuration stands for n boxes of equal size between start and end.',
  'all numbers start, end and n',
  'All numbers of boxes.',
  [B + ':run_commands', 'rf/example/conf.json'])
p('create copies the configuration and the tutorial',
  'rf create copies the configuration file to the working directory and, with tutorial, also the example data; nothing else is read or run.',
  'every working directory and set of options',
  'All options given together with create.',
  [B + ':run', B + ':run_commands'])
p('write() of the batch program creates the directories it needs',
  'write() of the batch program creates the directory of each file it writes, so that it succeeds if writing the files succeeds.',
  'every stream, format and type of output',
  'All combinations of stations within a stream.',
  [B + ':write', B + ':_create_dir'])
p('The batch program reads the files it has written',
  'The SAC pattern for an event and a station describes exactly the files of this station and event with channels of three letters; without events it describes the files of all events of the station; Q files are read by the name under which they are written, H5 files by the single file with the metadata as filter; the pattern for profiles describes all profile files.',
  'all codes without separators, all event times and output directories without wildcards',
  'All codes and times.',
  [B + ':iter_event_processed_data', B + ':_iter_profile', B + ':write'])
p('Unreadable files are left out when processed data are read',
  'iter_event_processed_data yields one stream for every event and station whose files can be read, in order, for every spelling of the format accepted by write.',
  'every catalog, inventory, format and set of unreadable files',
  'Failures at any position.',
  [B + ':iter_event_processed_data'])
p('Panels of plot_rf are inside the figure and do not overlap',
  'The panels for the traces, the stack and the information at the side lie within the figure without overlap; each trace gets trace_height inches and the stack stack_height inches.',
  'every number of traces and all positive sizes, the figure being wider than the margins',
  'All numbers of traces and sizes.',
  [I + ':plot_rf'])
p('Axis limits of plot_rf show all traces',
  'The time axis of plot_rf covers all samples of all traces and the onset; the vertical axis leaves room for the amplitudes of all traces for scale factors up to 1.5.',
  'every stream and scale factor up to 1.5',
  'All combinations of start times and lengths.',
  [I + ':plot_rf'])
p('The stack in plot_rf is aligned with its onset',
  'The stack above the traces is drawn at times relative to its own onset.',
  'every stream which stacks to a single trace',
  'Traces with different times between start and onset.',
  [I + ':plot_rf'])
p('Options of plot_rf can be combined',
  'plot_rf works for all combinations of show_traces and show_vlines.',
  'every stream and combination of options',
  'Combinations are not covered by single calls.',
  [I + ':plot_rf'])
p('Axis limits of plot_profile show all traces',
  'The limits of the profile plot enclose all traces with their wiggles and all of their samples.',
  'every profile and non-negative scale',
  'All box positions, lengths and trace lengths.',
  [I + ':plot_profile'])
p('The histogram of plot_profile lines up with the boxes',
  'With top=hist there is one bar per box which covers exactly the box, its height is the number of stacked receiver functions; other values of top are rejected.',
  'every profile',
  'All box positions and lengths.',
  [I + ':plot_profile'])
p('Depth ticks of plot_profile are at the delay time of their depth',
  'The tick labelled with a depth of the model is at the delay time of the phase for this depth; ticks in between are interpolated and within the range of delay times; every major tick is a minor tick, too.',
  'every model with increasing depths and every profile after move out correction',
  'All models and slownesses.',
  [I + ':plot_profile'])
p('plot_harmonics draws each term next to its label',
  'The output of harmonics() can be plotted with plot_harmonics: each of the five terms is drawn at the height of its label, the modelled ones on the left, the modelled ones of the second stream or the unmodelled ones on the right; with fewer than five modelled terms the plot fails.',
  'every harmonic decomposition',
  'All data and numbers of components.',
  [I + ':plot_harmonics', H + ':harmonics'])
p('Panels with header values in plot_rf match the traces',
  'Each of at most two entries of info gives a panel with the header values of all traces in order, each point at the height of its trace; a missing header raises KeyError, more than two entries an error; without traces there are no such panels.',
  'every stream and list of entries',
  'All numbers of traces and entries.',
  [I + ':plot_rf'])

p('The print command shows what its help offers',
  'rf print shows the events for the object events, the stations for the object inventory (as documented) and otherwise the streams of all files named, in order; it writes nothing.',
  'every list of objects',
  'All objects; names of files may clash with keywords.',
  [B + ':run_commands', B + ':run', B + ':run_cli'])
p('The plot commands draw every trace in exactly one figure',
  'plot draws one figure per channel of a stream with all traces of the channel sorted by back azimuth, plot-profile one per component of a profile with the boxes in the order of the file; every trace is in exactly one figure and the figures have different names; a trace without back azimuth raises KeyError for plot.',
  'every stream with channel codes without wildcards which differ by more than case, every order of set iteration',
  'All numbers of traces and channels, set order is arbitrary.',
  [B + ':run_commands'])
p('Batch commands treat every stream once',
  'convert, stack, plot and plot-profile treat every stream read exactly once in the order of the iterator, profile all traces at once; the first failure ends the program after the earlier ones have been written; if stations, events (but for stack and plot) or the source of waveforms cannot be read nothing is processed or written; an unknown command writes nothing.',
  'every sequence of streams, configuration and position of a failure',
  'All lengths and positions of failures.',
  [B + ':run_commands'])

p('ppoints returns and stores the piercing point of every trace',
  'ppoints(depth) returns for every trace of the stream, in order, the point at the piercing distance from the station in the direction of the back azimuth, for the slowness of the trace and the phase S for P receiver functions, P for S receiver functions; as documented the coordinates are stored in the attributes plat and plon; nothing else is changed.',
  'every stream (a trace may occur several times), model and depth',
  'All headers, all streams; the existing tests only look at the returned numbers for one stream.',
  [S + ':RFStream.ppoints', M + ':SimpleModel.ppoint', U + ':direct_geodetic'])
p('ppoints works for all traces or changes none',
  'If the piercing point of some trace cannot be calculated, no trace is changed; with complete headers, a depth inside the model and propagating rays the call succeeds.',
  'every stream, every position of the offending trace',
  'Crash point inside a loop over an arbitrarily long stream.',
  [S + ':RFStream.ppoints', M + ':SimpleModel.ppoint'])
p('Piercing points do not depend on the order of moveout and ppoints',
  'The piercing points of a stream are the same before and after a move out correction.',
  'every stream, reference slowness and model',
  'Interplay of two methods over all streams.',
  [S + ':RFStream.moveout', S + ':RFStream.ppoints'])
p('load_model reads a model once',
  'load_model returns for a file with four columns the refined model, with three columns the model without refinement and raises for other files; models that could not be created are not kept; later calls return the same object, whatever has happened to the file.',
  'every file content and every history of calls',
  'Histories of calls and all contents of files.',
  [M + ':load_model', M + ':SimpleModel.__init__'])
p('SimpleModel accepts lists and arrays',
  'As documented all arguments of SimpleModel can be lists or arrays; the delay times are the same.',
  'all models',
  'All combinations of types.',
  [M + ':SimpleModel'])
p('Repeating a move out correction changes nothing',
  'A second move out correction with the same arguments is possible whenever the first one was, changes no sample and keeps the slowness recorded in slowness_before_moveout.',
  'every stream, P phases, every reference slowness',
  'All streams and models.',
  [S + ':RFStream.moveout', M + ':SimpleModel.moveout'])
p('Move out correction of a stream is independent of what happened before',
  'The result of RFStream.moveout does not depend on move out corrections of other streams earlier in the session, nor on the other traces of the stream.',
  'every history of move out corrections, every stream',
  'Property of histories: the model object is shared by all streams.',
  [S + ':RFStream.moveout', M + ':load_model', M + ':SimpleModel.stretch_delay_times'])

p('The option data selects where waveforms come from',
  'As documented, data names a client module of ObsPy (created with client_options and asked without the event), plugin with the option plugin "module : func", or files (glob expression) from which every request gets the traces with matching codes cut to the requested times; the function that delivers data returns None instead of raising; what cannot be used is reported when the program starts.',
  'every configuration, module system, client, file content and request',
  'All sources and requests; the tests use one example file and one plugin that returns a number.',
  [B + ':init_data', B + ':load_func'])
p('Without a data option no waveforms are used',
  'If the option data is missing or names no usable source, the program reports an error; it never works with other data.',
  'every configuration',
  'A missing option is not covered by tests.',
  [B + ':init_data', B + ':run_commands'])
p('Loading a plugin leaves the module search path as it was',
  'load_func makes the current directory available while the plugin is imported and restores sys.path afterwards.',
  'every search path and module, importable or not',
  'Side effect on the interpreter; modules may change the path themselves.',
  [B + ':load_func'])
p('The documented plugin works',
  'A plugin written as in the comments of the example configuration (taking event out of its keyword arguments and asking a client) delivers what the client delivers.',
  'every client, event catalogue and set of channels',
  'The comment is not executed by any test.',
  [B + ':init_data', U + ':iter_event_data', 'rf/example/conf.json'])
p('The command line passes commands, paths and options on',
  'Every sub command of rf takes exactly the paths its help names; data and calc take further commands before the paths; unknown options and commands are rejected; all options of the command line are known to the program.',
  'every command line',
  'All sequences of words.',
  [B + ':run_cli', B + ':run'])
p('A command line without a command is rejected',
  'Calling rf without a command reports a usage error.',
  'every command line without a command, every configuration and directory content',
  'Depends on the files in the current directory.',
  [B + ':run_cli', B + ':run_commands'])
p('RFStream and read_rf make one RFTrace of every trace',
  'RFStream(traces) has one trace per given trace in order; RFTrace objects are used as they are, other traces are left unchanged and replaced by new RFTrace objects with the header of the file format; making a stream of a stream again changes nothing; read_rf reads the file in the given format, or the example without a path.',
  'every list of traces, also with repetitions, and every format',
  'All mixtures of trace types and aliasing.',
  [S + ':RFStream.__init__', S + ':RFTrace.__init__', S + ':read_rf'])
p('The text of a trace shows its header',
  'str(trace) is the text of ObsPy without onset, otherwise method or type and id, times relative to the onset, sampling, and exactly the entries present in the header in a fixed order; after rf() it begins with Prf or Srf.',
  'every header',
  'All combinations of entries.',
  [S + ':RFTrace.__str__'])
p('plot_stations marks and labels every station once at its place',
  'Every station of a stream or an inventory is marked once at its coordinates and, if wanted, labelled there once with its name.',
  'every stream and inventory, every order of set iteration',
  'All numbers of stations and repetitions; maps are not compared by the tests.',
  [I + ':plot_stations'])
p('Maps are centred at what they show',
  'Without axes and projection the centre of a map of stations is amid the stations, whatever the order in which the set of stations is listed; given axes and projections are used as they are.',
  'every set of stations',
  'All sets of coordinates, set order is arbitrary.',
  [I + ':_get_geoaxes', I + ':plot_stations'])
p('Maps show stations, points and boxes once in one axes',
  'plot_ppoints draws the stations and then every point once, plot_profile_map the stations, the points and then the polygon of every box, all into one axes whose previous content is kept; given options replace the default ones of the last layer; the first map is centred at the points, the second at the middle box; empty input raises.',
  'all lists of points and boxes, all options',
  'All numbers of elements and combinations of optional arguments.',
  [I + ':plot_ppoints', I + ':plot_profile_map', I + ':plot_stations'])
p('rf() treats the records of a stream independently',
  'Calling rf() with an explicit method on a stream gives every record (traces of one event and station) the same traces, data and header as calling rf() on the part of the stream that holds the record.',
  'every stream, every part made of whole records, all arguments and built-in deconvolutions',
  'Relates two runs for all streams and all ways to divide them.',
  [S + ':RFStream.rf', S + ':RFStream.deconvolve', U + ':IterMultipleComponents', D + ':deconvolve'])
p('rf() succeeds for a stream exactly if it succeeds for its records',
  'With an explicit method and a built-in deconvolution (or none) rf() raises no exception for a stream made of two parts of whole records if and only if it raises none for either part.',
  'every stream, every division into whole records, all arguments',
  'Relates three runs, including failing ones, for all streams.',
  [S + ':RFStream.rf', S + ':RFStream.deconvolve', U + ':IterMultipleComponents', D + ':deconvolve'])
p('The results of a custom deconvolution function end up in the stream',
  'With deconvolve="func" the function gets the responses, the tapered source window and tshift, and the stream afterwards holds the traces it returns, for stream.deconvolve and for rf.',
  'every function, stream and source window',
  'All functions; the tests use one function that works in place.',
  [D + ':deconvolve', S + ':RFStream.deconvolve', S + ':RFStream.rf'])
p('A single array is treated like a list of one array',
  'The deconvolution functions deconv_time, deconv_waterlevel and deconv_iterative, called with a single response array, give what a call with a list of this one array gives, without the list.',
  'every array, source, and all options',
  'The tests call the functions with stream data, i.e. lists, only.',
  [D + ':deconv_time', D + ':deconv_waterlevel', D + ':deconv_iterative'])
p('The info returned by the water level deconvolution belongs to the result',
  'With return_info the result of deconv_waterlevel is the same as without; info["norm"] is the factor between the results with and without normalization, and info["rf_src"] is the deconvolution of the source by itself, multiplied with the same factor.',
  'all responses, sources and normalizations',
  'All inputs; return_info is not used by any test.',
  [D + ':deconv_waterlevel'])
p('The water level deconvolution undoes a convolution',
  'If a response is the (circular) convolution of the source with a series and the spectrum of the source lies above the water level, deconv_waterlevel without Gauss filter returns the series, moved by tshift; with a Gauss filter it returns what it returns for the series and a unit spike as source; a linear convolution that fits into nfft is recovered as well.',
  'all sources, series, sampling rates, shifts and lengths',
  'Universally quantified over real-valued inputs.',
  [D + ':deconv_waterlevel', D + ':_gauss_filter'])
p('The iterative deconvolution finds a single conversion',
  'If a response is a delayed and scaled copy of the source and the delay is in the admitted range, deconv_iterative stops after two iterations with no residual, and its result is one spike with this delay and factor, filtered by the Gauss filter.',
  'all sources, delays, factors and options',
  'Universally quantified; requires the search to find the maximum in the first iteration for every source.',
  [D + ':deconv_iterative'])
p("The gain of the instruments does not matter for receiver functions",
  "If the data of each record are multiplied with a positive factor (one factor per record, possibly different between records), rf() ends in the same way, keeps the same traces and writes the same headers; if all components are deconvolved with normalisation, from records with two or three components, the data of the receiver functions are identical.",
  "all streams, all records and gain factors, the time domain, water level, iterative and multitaper methods with any parameters, any normalisation (time domain: not None)",
  "tests compare one or two scaled records with a tolerance; the claim is about every method, every error branch and the stopping criterion of the iteration",
  [S + ':RFStream.rf', D + ':deconvolve', D + ':deconv_time', D + ':deconv_waterlevel', D + ':deconv_iterative', D + ':deconv_multitaper'])
p('Receiver functions do not depend on the absolute time',
  'If all times of a stream (start times, onsets, event times) are moved by the same amount, rf() ends in the same way and gives the same stream with all times moved by this amount; the same holds for the move out correction; a stack is identical.',
  'every stream, amount and all arguments, including custom deconvolution functions and all error branches',
  'Relates two runs for all amounts; a test compares one pair.',
  [S + ':RFStream.rf', S + ':RFStream.moveout', S + ':RFStream.stack', D + ':deconvolve'])
p('The move out correction is linear in the data',
  'The move out correction of a linear combination of two streams with the same headers is the linear combination of the corrected streams; headers, exceptions and the state of the model do not depend on the samples; the mean of corrected traces is the correction of the mean.',
  'all streams with the same headers, all factors, models, phases and reference slownesses',
  'Universally quantified over samples.',
  [M + ':SimpleModel.moveout', S + ':RFStream.moveout', S + ':RFStream.stack'])
p('Results of every processing step can be written to an H5 file',
  'The streams returned by rf, stack, profile and harmonics can be written in H5 format: the call hands the traces to the writer at the place which belongs to the kind of result.',
  'every stream and arguments for which the processing step returns',
  'Needs the composition of each processing step with the writer; the tests write receiver functions and profiles only.',
  [S + ':RFStream.write', S + ':RFStream.harmonics', S + ':RFStream.stack', H + ':harmonics', PR + ':profile'])
p('Stacking a stack changes nothing',
  'If the traces of a stack are stacked again, in any order, the result consists of the same traces with the same samples and headers.',
  'every stream, every order of traces and of the set of ids',
  'All orders of set iteration and all streams.',
  [S + ':RFStream.stack'])
p('The time domain deconvolution undoes a convolution',
  'If the responses are the convolution of the source with series of the length of the result, deconv_time without spiking returns these series times the energy of the source, or normalised by the largest amplitude of the chosen one; with spiking the mean square error relative to the scaled series is at most lam/(mu+lam), where lam is the spiking and mu the smallest eigenvalue of the autocorrelation matrix.',
  'all sources which are not zero, series, shifts and lengths; source windows with an odd number of samples or with the onset strictly inside; exact solver of the Toeplitz system',
  'Universally quantified over real-valued inputs; needs that the autocorrelation matrix is positive definite for every source.',
  [D + ':deconv_time', D + ':_xcorrt', D + ':_acorrt'])
p('A conversion appears in the receiver function at its time after the onset',
  'If the responses consist of copies of the source in the source window, deconvolve gives the amplitudes of the copies, each at the sample where the onset of the copy lies: exactly for the water level method without Gauss filter and normalisation, up to one positive factor for the whole stream for the time domain method without spiking (the energy of the source or the inverse of the largest amplitude of the component chosen for the normalisation).',
  'all streams, source windows that start a whole number of samples before the onset (time domain: with an odd number of samples or with the onset strictly inside), copies at any samples and with any amplitudes',
  'Composition of the windowing, the shift and the kernel for every choice of window, onset and conversions; the tests look at a synthetic spike for one window.',
  [D + ':deconvolve', D + ':deconv_time', D + ':deconv_waterlevel'])
p('The order of the traces in the stream does not matter for rf',
  'Calling rf on the same traces in another order gives every trace the same data and the same header and keeps the same traces in the stream.',
  'every stream for which rf returns, every permutation, methods P and S, all built-in deconvolutions or none, records whose traces have the same span',
  'All permutations of all streams; the tests use one order.',
  [S + ':RFStream.rf', D + ':deconvolve', U + ':IterMultipleComponents.__iter__', D + ':deconv_time', D + ':deconv_waterlevel', D + ':deconv_iterative', D + ':deconv_multitaper'])
p('Every receiver function in a stream is the deconvolution of its own record',
  'After rf() the traces of each record (same id up to the component, same onset) with two or three traces are what deconvolve gives for that record alone after the preparation (filter, trim, decimation, rotation, sign of Q); traces of other records are as prepared. For S the results are mirrored in time; headers change at most in type, phase and processing information.',
  'every stream, any number and order of records, all arguments with a deconvolution method of the package',
  'Quantifies over all streams; the tests use one or three records and do not compare with single calls for every method.',
  [S + ':RFStream.rf', D + ':deconvolve', U + ':IterMultipleComponents.__iter__'])
p('Conversions appear in the output of rf at their time after the onset, mirrored for S',
  'If the prepared traces of a record consist of copies of its cut source, the receiver function of rf() shows the amplitude of each copy at the lag between the copy and the onset: at positive lags for P and at the negative lags for S, relative to the onset written to the header; exactly for the water level method without Gauss filter and normalisation, up to one positive factor per record for the time domain method without spiking. The onset is the sample time of the source trace next to the onset in its header.',
  'every stream of records, all amplitudes and times of conversions, source windows that start a whole number of samples before the onset',
  'Composition of grouping, onset snapping, windowing, kernel and mirroring for all inputs.',
  [S + ':RFStream.rf', D + ':deconvolve', D + ':deconv_waterlevel', D + ':deconv_time'])
p('rf returns if and only if each record can be processed',
  'rf() with a deconvolution method of the package raises no exception if and only if the method is P or S (up to the substring test), the preparation raises none, all prepared traces have an onset, deconvolve raises none for each record of two or three traces taken by itself, and the common phase, if there is one, is a non-empty string. For the water level method with positive water level it is enough that each record has one source trace with an onset not after its end and a cut source that is not zero.',
  'every stream and all arguments',
  'An equivalence over all inputs including all error branches.',
  [S + ':RFStream.rf', D + ':deconvolve', S + ':RFStream.method'])
p('A failing call of rf leaves the other records complete',
  'If rf() raises an exception after the preparation, for a stream with onsets and readable phase, the exception is the one deconvolve raises for one record; every trace of another record is either as prepared or completely deconvolved; the list of traces is the prepared one, no type or phase has been written, and nothing has been mirrored.',
  'every stream, all arguments with a deconvolution method of the package',
  'State after a failure, for all positions of the failing record.',
  [S + ':RFStream.rf', D + ':deconvolve'])
p('The profile of a stream follows from the profiles of its parts',
  'If a stream is split into two parts, the profile of the whole has a trace for a box and component iff one of the two profiles has; the header num is the sum of both; the data is the mean of both weighted by num; a trace present in one profile only keeps its data and num.',
  'every stream and split, all boxes, all traces of equal length per box and component',
  'Relates three runs for all splits; the tests make one profile.',
  [PR + ':profile', PR + ':_find_box'])
p('A profile is linear in the samples',
  'For streams with the same headers, the profile of the linear combination of the samples is the linear combination of the profiles; num does not depend on the samples.',
  'all streams with the same headers, all factors and boxes',
  'Universally quantified over samples.',
  [PR + ':profile'])
p('Harmonics obey superposition',
  'For streams with the same headers, harmonics() of a linear combination of the samples gives the linear combination of the harmonics, for one component without scalars and for two components, in time and frequency domain.',
  'all streams with event times, back azimuths and equal lengths, all factors; exact minimum norm solution of the least squares problem',
  'Universally quantified over samples, and over least squares problems which may be singular.',
  [H + ':harmonics'])
p('Harmonics depend on the back azimuths relative to azim only, and not on the order of the traces',
  'If azim and all back azimuths are increased by the same angle, and back azimuths by full turns, harmonics() gives the identical result, exceptions included. Another order of the traces gives the same samples if the event times of each component are distinct, and for one component for all event times.',
  'all streams, angles, numbers of turns and permutations with a first trace of the same length',
  'Relates two runs for all angles and all permutations.',
  [H + ':harmonics'])
p('The metadata contain an entry for every stream of iter_event_data, in the same order',
  'Origin times and codes of the streams which iter_event_data yields are a sublist of the origin times and codes of the metadata which iter_event_metadata yields for the same events and inventory.',
  'all events, inventories with station ids of four codes, phases, windows and behaviours of the waveform source and travel time model',
  'Relates two generators for all behaviours of external services.',
  [U + ':iter_event_data', U + ':iter_event_metadata'])
p('A stream written to SAC or Q files is read back with its headers and codes',
  'If write is called in Q or SAC format for a stream of new traces, it fails only if the writer of ObsPy does, and the traces handed to this writer, read back from the file, give an RFStream with the same number of traces in which each trace has the codes and all rf headers of its original.',
  'every stream without repeated traces and with representable headers, codes without dots for Q; the file keeps the SAC header and codes, or the SH header, station and component',
  'Quantifies over all streams and headers; the tests write and read one stream.',
  [S + ':RFStream.write', S + ':RFTrace.__init__', S + ':RFTrace._write_format_specific_header', S + ':RFTrace._read_format_specific_header'])
p('Delay times and piercing points of the layer model belong together',
  'The derivative of a delay time with respect to the slowness is the piercing distance of the direct leg, taken twice, minus the sum of the piercing distances of all legs of the phase, divided by the 111.2 km of a degree; both are calculated by different code (calculate_delay_times, ppoint_distance).',
  'every layered model, every depth of a layer boundary, every slowness at which P and S propagate in all layers, every phase of P and S legs',
  'A statement about a derivative, for all models; the tests compare numbers for one slowness.',
  [M + ':SimpleModel.calculate_delay_times', M + ':SimpleModel.ppoint_distance', M + ':SimpleModel.calculate_vertical_slowness'])
p('Delay times of Ps grow with slowness, those of Sp and of P multiples fall',
  'For two slownesses x <= y the delay times of Ps at all depths are not smaller at y, those of Sp are not larger at y, and those of phases starting with P with at least two P legs are not larger at y.',
  'every layered model with vs <= vp, all slownesses at which both waves propagate, every depth',
  'Monotonicity over all pairs of slownesses and all models.',
  [M + ':SimpleModel.calculate_delay_times', M + ':SimpleModel.calculate_vertical_slowness'])
p('A conversion between two samples keeps its amplitude in the move out correction',
  'If the delay time of a depth at the slowness of the trace lies between two samples and the delay time at the reference slowness is a sample time, the corrected trace has at this sample a mean of the two samples with weights between 0 and 1 (linear interpolation).',
  'every model, trace, depth, slowness and reference slowness, phases starting with P',
  'All positions of conversions relative to the sampling; the tests place conversions on samples.',
  [M + ':SimpleModel.moveout', S + ':RFStream.moveout'])
p('After move out correction conversions from one depth stack coherently',
  'If each trace of an id records the conversion from a depth with amplitudes in an interval at the two samples next to the delay time for its own slowness, the stack after the move out correction has an amplitude in this interval at the delay time for the reference slowness, and the time axis of the stack relative to its onset is that of the traces.',
  'every stream with different slownesses, ids and onsets, all models, intervals and depths',
  'End-to-end statement over two methods and all streams.',
  [S + ':RFStream.moveout', S + ':RFStream.stack', M + ':SimpleModel.moveout'])
p('Iterative deconvolution converges to the spike train that explains the response',
  'If a component is the convolution of the source with a spike train in the allowed range of lags and the low passed source has no spectral zeros, the recorded misfit after pass j is at most (1 - rho)^(j+1) with an explicit rho in (0, 1], and each sample of the output differs from the Gauss filtered spike train by at most an explicit bound, which becomes arbitrarily small for enough passes and small enough minderr.',
  'every source, spike train, sampling rate, Gauss parameter, time shift; all numbers of passes and thresholds; without normalisation',
  'A limit over the number of passes, with rate.',
  [D + ':deconv_iterative', D + ':_gauss_filter'])
p('The move out correction changes the samples of the traces in the stream only',
  'moveout assigns into the arrays of the traces of the stream. Traces outside the stream, in particular the traces from which the stream was made by RFStream(stream) or slice2, keep their samples, and the result is that of the correction of each trace alone.',
  'every world of trace objects, arrays and views, every stream, phase and model',
  'Depends on which traces share an array, a property of the whole program state; the tests correct streams read from a file.',
  [M + ':SimpleModel.moveout', S + ':RFStream.moveout', S + ':RFStream.slice2', S + ':RFTrace.__init__'])
p('The move out correction gives the interpolated samples whatever the element type of the arrays',
  'The samples after moveout are the interpolated samples of the correction for arrays of floats and of integers.',
  'every trace with an array of floats or integers, every model and phase',
  'The element type is an input that the tests do not vary.',
  [M + ':SimpleModel.moveout', S + ':RFStream.moveout'])
p('The sample index of the onset is right in double precision',
  'If the onset lies on sample k, int(floor((onset - starttime) * sampling_rate)) computed in double precision is k; samples before the onset stay untouched by the move out correction of P conversions; the mute limit of deconv_iterative counts the samples of the time shift.',
  'all onsets, start times and sampling rates, rounding to nearest even in each operation',
  'Rounding errors occur for some pairs of times and rates only.',
  [M + ':SimpleModel.moveout', D + ':deconv_iterative'])
p('A record whose deconvolution divides by zero does not change the other receiver functions',
  'With the methods waterlevel, iterative and multitaper rf does not fail because of a record whose deconvolution divides by zero (for example a source component of zeros). All other records get exactly the receiver functions which they get without it.',
  'all streams, records, kernels and arguments, all values which NumPy leaves after the division',
  'Needs dead records in all combinations with live ones; the tests have none.',
  [S + ':RFStream.rf', S + ':RFStream.deconvolve', D + ':deconvolve', D + ':deconv_waterlevel'])
p('A stack is determined by its traces with finite samples',
  'The stack of an id is the mean of those of its traces whose samples are finite; traces with undetermined samples (NaN after a division by zero in the deconvolution) do not change it.',
  'all streams, ids and undetermined samples',
  'Undetermined samples occur for dead records only.',
  [S + ':RFStream.stack', S + ':RFStream.rf'])
p('Records to stack: a conversion gets its amplitude at the right time of the stack',
  'rf with waterlevel or freq deconvolution, then moveout() and stack(): if each record of an id is a superposition of delayed copies of its source whose amplitudes around the delay time of a depth for its own slowness lie in an interval, the stack has an amplitude in this interval at the delay time of this depth for the reference slowness, measured from the onset in its header.',
  'all streams of records with different slownesses, start times and onsets, both methods P and S, all models, depths and intervals, every source above the water level',
  'End-to-end statement over three methods and all inputs; the tests compare single steps with stored numbers.',
  [S + ':RFStream.rf', S + ':RFStream.moveout', S + ':RFStream.stack', D + ':deconv_waterlevel', M + ':SimpleModel.moveout'])
p('A piercing point on the line of a profile belongs to the bin of its distance',
  'If the piercing point of a receiver function lies on the great circle from the start of the profile in the direction of its azimuth, at a distance inside of a bin, get_profile_boxes and profile put the receiver function into this bin.',
  'all start points, azimuths, bins and widths, geodesics on a sphere, all distances inside of a bin',
  'The boxes are built from four geodesic corners; the test uses one profile with the traces far from the ends of the boxes.',
  [PR + ':get_profile_boxes', PR + ':_get_box', PR + ':_find_box', PR + ':profile'])
p('Records to profile: a conversion gets its amplitude in the bin of its piercing points',
  'rf with waterlevel or freq deconvolution, storage of piercing points, moveout() and profile(): if each record whose piercing point lies in a bin is a superposition of delayed copies of its source whose amplitudes around the delay time of a depth for its own slowness lie in an interval, the trace of the bin has an amplitude in this interval in the sample at the delay time for the reference slowness.',
  'all streams, piercing points, boxes, models, depths and intervals, both methods P and S',
  'End-to-end statement over four methods and all inputs.',
  [S + ':RFStream.rf', S + ':RFStream.moveout', S + ':RFStream.profile', PR + ':profile', M + ':SimpleModel.moveout'])
p('With evenly distributed back azimuths the constant harmonic terms are the stacks of the components',
  'If at least five traces per component have back azimuths which divide a full turn evenly, the constant terms of the harmonic decomposition are the stacks of the components, and the other terms of a one-component decomposition are the discrete Fourier sums over back azimuth.',
  'all streams with evenly distributed back azimuths in any order, all data, azimuths and scalars, one and two components, both methods',
  'Relates two methods of the stream over all data and numbers of directions; the test compares a decomposition with stored numbers.',
  [H + ':harmonics', H + ':decomp_one', H + ':decomp_two', S + ':RFStream.stack'])
p('The two-component decomposition is a combination of the two one-component decompositions',
  'With five different directions the ten terms of the two-component decomposition are sums and differences of the five terms of each component. The scalars do not weight the regression: they divide the two constant terms and leave the eight other terms as they are.',
  'all streams with paired traces and five directions, all data and nonzero scalars, both methods',
  'A statement about the solution of the least squares problem for all data and directions.',
  [H + ':harmonics', H + ':decomp_one', H + ':decomp_two'])
p('Move out correction and stack commute for traces of one slowness',
  'If the traces of a stream have one slowness, sampling rate and time from start to onset, stack().moveout() gives the traces of moveout().stack().',
  'all streams, models, phases and reference slownesses',
  'Order of two methods over all streams; the tests call them in one order.',
  [S + ':RFStream.moveout', S + ':RFStream.stack', M + ':SimpleModel.moveout'])
p('A profile with one bin for all traces is the stack weighted by the numbers of traces',
  'If the piercing points of all traces lie in one bin, the profile has one trace per component, which multiplied by its header num is the sum of the stacked traces of this component times the numbers of traces stacked. For one id per component profile and stack have the same samples.',
  'all streams, boxes, ids and data',
  'Relates two methods for all streams.',
  [PR + ':profile', S + ':RFStream.profile', S + ':RFStream.stack'])
p('Deconvolution of a superposition is the superposition of the deconvolutions',
  'For a given source (and noise) the deconvolution of a response a * y + b * z is a times the deconvolution of y plus b times the deconvolution of z, for each of the four methods, with or without normalisation to a response which is the same in the calls.',
  'all sources, responses and factors, all shifts, water levels, Gauss filters, tapers and paddings',
  'Linearity over all data; the tests use single records.',
  [D + ':deconv_time', D + ':deconv_waterlevel', D + ':deconv_iterative', D + ':deconv_multitaper'])
p('Move out correction and profile commute',
  'profile(boxes).moveout() gives the traces of moveout() followed by profile(boxes).',
  'all streams, boxes, models, phases and reference slownesses',
  'Order of two methods over all streams; the tests call them in one order and on one data set.',
  [S + ':RFStream.moveout', S + ':RFStream.profile', PR + ':profile', M + ':SimpleModel.moveout'])
p('Receiver functions of the iterative method show conversions at their times after the onset',
  'After rf with deconvolve=iterative and without normalisation: a prepared trace which is the cut source delayed and scaled gives one Gaussian pulse at the time of the delayed onset after the onset (before it for S); a trace which is the source convolved with spikes at admissible delays gives the train of these pulses up to an error that decreases geometrically with itmax.',
  'all streams, records, source windows, Gauss widths, iteration limits and spike trains',
  'End to end statement for all data, with a convergence rate; the test looks at the maximum of one synthetic record.',
  [S + ':RFStream.rf', S + ':RFStream.deconvolve', D + ':deconvolve', D + ':deconv_iterative'])
p('Layers that a ray does not reach are ignored by the move out correction',
  'If the rays of a trace do not exist in some layer (evanescent), the time tables and the corrected trace are those of the model cut above that layer (one more layer is dropped than necessary); conversions above are still moved to the reference delay.',
  'all models with positive velocities, slownesses, references, phases and traces',
  'Tests use slownesses for which all layers are reached or look at the absence of exceptions; the off-by-one at the cut is invisible in plots.',
  [M + ':SimpleModel.stretch_delay_times', M + ':SimpleModel.moveout', M + ':SimpleModel.calculate_vertical_slowness'])
p('The velocity model of the package is loaded and is consistent',
  'load_model("iasp91") succeeds for the file of the package and returns 669 layers: depths start at 0 and do not decrease, each depth plus thickness is the next depth, S waves are slower than P waves, no velocity exceeds 13.691 km/s, and there is at most one empty layer at a time.',
  'the content of the file, any state of the model cache without the model',
  'No test looks at the loaded values; the proof parses the text of the file and evaluates the interpolation exactly.',
  [M + ':load_model', M + ':SimpleModel'])
p('Default move out correction works for usual slownesses',
  'moveout() of a stream with the model of the package succeeds if all traces have a sampling interval of at most 2 s, their onset before the last sample and a slowness of at most 10 s/deg (reference at most 8.1 s/deg, default 6.4); a sample at the delay of a conversion at a tabulated depth between 2 km and 760 km is moved to the sample at the delay for the reference slowness, for Sp and all phases that start with P and contain S.',
  'all streams, traces, slownesses in the range, phases and depths of the table',
  'Tests correct a few synthetic traces with one model and look at the maximum within a tolerance of samples.',
  [S + ':RFStream.moveout', M + ':SimpleModel.moveout', M + ':SimpleModel.stretch_delay_times', M + ':load_model'])
p('Piercing points with the model of the package are at the distance travelled down to the given depth',
  'ppoint_distance with the model of the package returns the horizontal distance travelled by the ray between the surface and the given depth.',
  'all depths inside of the model, slownesses up to 8.1 s/deg and phases of odd length',
  'The tests compare with numbers computed with the same code; the error is at most one layer.',
  [M + ':SimpleModel.ppoint_distance', M + ':load_model'])
p('Receiver functions with a given number of samples start where their headers say',
  'With the option length=L of the time and frequency domain deconvolution, the receiver function consists of the first L samples: a copy of the source appears at the sample of its onset, so that it is at its delay after the onset of the header.',
  'all records made of copies of the source window, all L, windows and sampling rates',
  'No test uses the option; the shift of the time domain method is half of the number of dropped samples and depends on parity.',
  [D + ':deconvolve', D + ':deconv_time', D + ':deconv_waterlevel'])
p('Headers written as text come back from the text',
  'The dictionary of headers which is written as JSON text into a Q file is read back with the same keys, strings and numbers, for any characters including quotes, backslashes, control characters and characters beyond the basic plane; the written text is printable ASCII.',
  'all header dictionaries whose numbers are printed so that they are read back',
  'All strings and nesting; the test writes one set of simple headers.',
  [S + ':RFTrace._write_format_specific_header', S + ':RFTrace._read_format_specific_header'])
p('The configuration written by create is accepted by all commands',
  'The template of the configuration is valid after removal of its comments; every command but create and print is called with its options, replaced by those of the command line; the options are accepted and the example files created with --tutorial are the files named in it.',
  'all commands, options of the command line and names of the configuration file',
  'The test runs some of the commands with some options; here the text of the template is parsed in the proof and the command line is arbitrary.',
  [B + ':run', B + ':run_commands', B + ':ConfigJSONDecoder'])
p('Each option which is commented out in the template can be switched on by removing its comment sign',
  'Removing the # in front of an option in the template of the configuration gives a valid configuration with known keys.',
  'all lines of the template with a switched off option',
  'No test edits the template.',
  [B + ':run', B + ':ConfigJSONDecoder'])
p('Misspelled or unsuitable keywords of rf and deconvolve are reported',
  'rf and deconvolve called with a keyword which the function of the chosen method does not have raise TypeError and deconvolve nothing; other keywords change nothing in the handling of the stream.',
  'all streams, methods, keyword sets and arguments',
  'The tests use correct keywords only.',
  [S + ':RFStream.rf', D + ':deconvolve', D + ':deconv_time', D + ':deconv_waterlevel', D + ':deconv_iterative', D + ':deconv_multitaper'])
p('Cutting out a window and correcting for move out can be exchanged',
  'trim2 with a window relative to the onset followed by moveout gives the same samples, start times and traces as moveout followed by trim2.',
  'all streams, windows, models, phases and reference slownesses',
  'The order of two methods for all windows; the tests use them separately.',
  [S + ':RFStream.trim2', S + ':RFStream.moveout', M + ':SimpleModel.moveout', M + ':SimpleModel.stretch_delay_times'])
p('A window of the stack is the stack of the windows',
  'trim2 with a window relative to the onset followed by stack gives the samples, headers and the onset relative to the start of stack followed by trim2.',
  'all streams and windows',
  'The order of two methods for all streams; in the tests all traces have their onset at the same sample.',
  [S + ':RFStream.trim2', S + ':RFStream.stack', S + ':RFTrace._seconds2utc'])
p('A window of the profile is the profile of the windows',
  'trim2 with a window relative to the onset followed by profile gives the samples, headers and the onset relative to the start of profile followed by trim2.',
  'all streams, boxes and windows',
  'The order of two methods for all streams; in the tests all traces have their onset at the same sample.',
  [S + ':RFStream.trim2', S + ':RFStream.profile', PR + ':profile'])
p('A window of the harmonics is the harmonics of the windows',
  'trim2 with a window relative to the onset followed by harmonics gives the same traces (samples, start times, header entries) as harmonics followed by trim2, with the methods time and freq.',
  'all streams, components, methods and windows',
  'The order of two methods for all streams; the method freq transforms the whole traces, so that equality in a window is not obvious.',
  [S + ':RFStream.trim2', H + ':harmonics'])
p('Making receiver function objects of traces keeps the header entries set before',
  'RFTrace(trace=tr), hence RFStream(stream), keeps the entries of the stats, adds those of the SAC or SH header, and making an RFTrace of the result changes nothing.',
  'all traces, header entries, SAC and SH headers',
  'The tests make RFStreams of freshly read streams; the effect of entries set before depends on the file format.',
  [S + ':RFTrace.__init__', S + ':RFTrace._read_format_specific_header'])
p('Files written by the batch program are found again whatever the name of the output directory',
  'The patterns made from the directory, an event and a station (or for a profile) describe the files which write makes for this directory, event and station, for all formats.',
  'all directory names, events, stations and formats',
  'Names of directories with wildcard characters; the tests use one directory name.',
  [B + ':iter_event_processed_data', B + ':_iter_profile', B + ':write'])
p('The multitaper method takes the noise from the record before the onset',
  'Without the keyword noise, deconvolve(method=multitaper) deconvolves each response with the samples of the same trace from the start of the record to 5 s before the onset, and works with the default options whenever the record contains the onset and the source window.',
  'all records, onsets, response components and kernels',
  'The noise window is not returned; the tests use records whose onset is long after the start.',
  [D + ':deconvolve', D + ':deconv_multitaper', S + ':RFStream.trim2'])
p('The windows of the multitaper method are where the overlap says, in double precision',
  'The number of windows and their starts which deconv_multitaper computes with double precision numbers from the length of a taper, the overlap and the length of the record are those of exact arithmetic.',
  'all sampling rates, taper lengths, overlaps and record lengths',
  'Rounding errors at whole numbers occur for special overlaps only; the tests use the default overlap.',
  [D + ':deconv_multitaper'])
p('Noise given to the multitaper method is used for the component it was recorded on',
  'With the keyword noise, deconvolve(method=multitaper) deconvolves each response with the noise trace of the same channel, whatever the order of the traces in the noise stream.',
  'all records, noise streams, response components and kernels',
  'All orders of both streams; no test uses the keyword with components in different orders.',
  [D + ':deconvolve', D + ':deconv_multitaper'])
p('Only the header entries kept in files have an influence on the results',
  'rf, moveout, ppoints, stack, profile and harmonics give the same exception or the same samples, times, codes and kept header entries for two streams that agree in samples, times, codes and the header entries written to SAC and SH files; in particular for a stream and what is read back from its files.',
  'all streams, arguments, kernels and further header entries',
  'Independence of all other header entries; the tests use one set of header entries.',
  [S + ':RFStream.rf', S + ':RFStream.moveout', S + ':RFStream.ppoints', S + ':RFStream.stack', PR + ':profile', H + ':harmonics'])
p('The figures of a stream read back from files are those of the stream in memory',
  'plot_rf and plot_profile draw the same for two streams that agree in samples, times, codes and the header entries written to SAC and SH files.',
  'all streams, arguments and further header entries',
  'The tests plot streams in memory only, and compare no figures.',
  [I + ':plot_rf', I + ':plot_profile'])
p('Commands given in one call of the program leave the files of separate calls',
  'rf batch with several commands (e.g. rf and moveout) writes for each event and station the same file as separate calls with one command each which read the files of the call before, as far as kept header entries are concerned, if there is one instrument at each location and no files are left over from earlier calls; an exception is raised by the one call if and only if it is raised by one of the separate calls.',
  'all events, stations, data sources, commands, options and Q files',
  'The tests run the commands once in a fixed order and never compare the files of joint and separate calls.',
  [B + ':run_commands', B + ':write', B + ':iter_event_processed_data'])
p('Receiver functions and move out correction keep the event, station and ray of each trace',
  'rf (with a deconvolution method of the package or none) changes no network, station and location code and no header entry other than onset, iterations, type, phase and processing, and moveout none other than moveout, slowness, slowness_before_moveout and processing; both also if they fail, and also for traces outside of the stream.',
  'all streams, arguments, kernels and header entries',
  'The tests compare single header entries after successful calls.',
  [S + ':RFStream.rf', S + ':RFStream.moveout', D + ':deconvolve', M + ':SimpleModel.moveout'])
p('The onset of deconvolved records is exactly on a sample in double precision',
  'In double precision deconvolve moves the onset to the same sample as exact arithmetic if it is not within 1/1024 sample of the middle between two samples; the new onset is exactly the time of this sample if sample times are whole nanoseconds; the shift given to deconv_time is exact if the source window starts a whole number of samples from the onset.',
  'all sampling rates, start times, onsets, record lengths and windows',
  'Rounding errors occur for special combinations of sampling rate and onset only.',
  [D + ':deconvolve', D + ':__find_nearest'])
p("Results written into the folder of the data replace the data of the pair",
  "After the records or receiver functions of an event and a station were written with write(stream, root, format), "
  "reading this pair from the same root gives exactly the traces written, whatever was stored for the pair before. "
  "For Q files this holds. For SAC files it is false: the file name pattern of the pair describes every channel code of "
  "three characters, so that the traces which were in the folder before with a channel that is not written now are read "
  "as well, e.g. Z, N and E records beside the L, Q and T receiver functions calculated in place. What is read are "
  "exactly the traces written together with these older ones, and exactly the traces written if no older trace of the "
  "pair has another channel.",
  "all folders of named files, roots, pairs, streams of a pair with different channels, and sample values",
  "Tests write into fresh temporary folders or use different folders for data and receiver functions; the effect "
  "depends on which channels were in the folder earlier and on the patterns of all pairs.",
  [B + ':write', B + ':iter_event_processed_data', B + ':run_commands'])

p("Onsets stored in SAC files belong to the same sample after reading",
  "SAC headers hold the onset as a single precision number of seconds after the reference time of the file. A time "
  "written with _write_format_specific_header('SAC') and read back differs by at most its distance to the reference time "
  "divided by 2^22, plus half a nanosecond. An onset on a sample is nearest to the same sample after reading, and "
  "deconvolve of records that were stored in between takes the same source sample and sets exactly the same onset again. "
  "The time itself is restored if the distance has 24 bits and the product is of double precision.",
  "all times, reference times, sampling rates up to 10^8 Hz, onsets up to 2^20 samples from the reference time, and "
  "roundings of the product of single precision or better",
  "The round trip tests compare a few headers with a tolerance; whether a rounded onset moves to a neighbouring sample "
  "depends on the sampling rate, the length of the record and the last bits of the numbers.",
  [S + ':RFTrace._read_format_specific_header', S + ':RFTrace._write_format_specific_header', D + ':deconvolve'])

p("Small deviations of the samples stay small in move out correction, stack and profile",
  "If two streams have the same headers and their samples differ nowhere by more than eps, then moveout raises the same "
  "exception for both or gives samples that differ nowhere by more than eps, and so do the traces with the same id of "
  "stack and the traces of the same bin of profile. In particular the stack of move out corrected receiver functions that "
  "were stored in SAC files, with samples in single precision, differs by at most 2^-24 of the largest amplitude.",
  "all streams, samples, deviations, models, reference slownesses, phases, boxes, and orders of stacked ids",
  "Tests compare outputs for single data sets with tolerances; that no data set amplifies rounding errors is a statement "
  "on all pairs of inputs.",
  [S + ':RFStream.moveout', S + ':RFStream.stack', PR + ':profile', M + ':SimpleModel.moveout'])

p("The water level bounds the amplification of noise",
  "Without normalisation the energy (sum of squared samples) of a result of deconv_waterlevel is at most the energy of the "
  "response divided by waterlevel and by the energy of the source, both inside the transform window. Noise d in a response "
  "changes the result at most by the energy of d divided by waterlevel and the energy of the source, and no sample by more "
  "than the root of that; the Gaussian filter, the shift and the cut to length never amplify.",
  "all sources with a non-zero sample, responses, noise, waterlevel > 0, filters, shifts, lengths, and transform lengths",
  "Tests compare single results with tolerances; the bound has to hold for the worst noise, which is the one concentrated "
  "at the frequencies where the source has no power.",
  [D + ':deconv_waterlevel'])

p("The spiking parameter bounds the amplification of noise in the time domain deconvolution",
  "Without normalisation the energy (sum of squared samples) of a result of deconv_time is at most the energy of the source "
  "times the energy of the response, divided by 4*spiking. Noise d in a response changes the result at most by the energy "
  "of the source times the energy of d, divided by 4*spiking, and no sample by more than the root of that.",
  "all sources with a non-zero sample, responses, noise, spiking > 0, lengths, shifts, and exact solvers",
  "Tests compare single results with tolerances; the bound has to hold for the worst source and the worst noise.",
  [D + ':deconv_time'])

p("Harmonics for evenly distributed back azimuths neither create energy nor amplify deviations",
  "For one component and five or more evenly distributed (or otherwise balanced) back azimuths the square of the constant "
  "term plus half of the squares of the other four terms is at each sample at most the mean of the squared samples of the "
  "traces. If the samples of the traces are changed, the changes of the terms satisfy the same inequality: deviations of at "
  "most eps change the constant term by at most eps and each other term by at most sqrt(2)*eps.",
  "all streams with balanced directions, azimuths, both methods, samples, and deviations",
  "Tests use noise free synthetic data; the worst distribution of noise over the traces is not among the test cases.",
  [H + ':harmonics'])

p("Stack and profile in double precision are close to the exact means",
  "With samples in double precision stack() and profile() raise the same exceptions as with exact arithmetic and return traces "
  "with the same headers in the same order. Each sample of a stack of n traces deviates from the exact mean by at most "
  "(1+2**-53)**(d+1)-1 times the mean of the absolute values, where d < n is the largest number of additions a row takes part "
  "in, whatever the order in which NumPy adds the rows; this is at most n*2**-52 times the largest amplitude. Each sample of a "
  "profile trace of n traces deviates by at most (1+2**-53)**n-1 times the mean of the absolute values.",
  "all streams, orders of summation, boxes, samples, headers",
  "Tests compare with tolerances for a few traces; an accumulation of rounding errors over thousands of traces is not tested.",
  [S + ':RFStream.stack', PR + ':profile'])

p("A stream with several P phases is a stream of method P",
  "If the phases of all traces of a stream end with the letter P (e.g. P and PP), or all with S, stream.method is this letter, "
  "rf() and moveout() work without giving method or phase, and rf() keeps the phase of each trace.",
  "all streams and phases",
  "The tests use streams of one phase; streams put together from several calls of iter_event_data with different phases are not tested.",
  [S + ':RFStream.method', S + ':RFStream.rf', S + ':RFStream.moveout'])

p("Delays in the water level deconvolution",
  "Without normalisation, a response delayed by k samples (with enough zeros at its end) gives the result of deconv_waterlevel delayed by "
  "k samples, and so does a tshift which is larger by k samples. If source and responses are delayed together the result "
  "is unchanged, with every normalisation.",
  "all sources, responses, sampling rates, water levels, Gauss filters, FFT lengths and delays",
  "The tests check the position of the first maximum for one delay of one signal; a wrong sign or period of the phase factor for other delays stays unseen.",
  [D + ':deconv_waterlevel', D + ':_phase_shift_filter', D + ':_gauss_filter'])

p("Small changes of the responses in the iterative deconvolution",
  "For a fixed source and fixed parameters of deconv_iterative there is a constant K such that two responses which differ by at "
  "most eps at every sample give receiver functions which differ by at most K * eps at every sample.",
  "all sources, responses, sampling rates, Gauss parameters, numbers of passes and tolerances",
  "Noise is only added in tests with loose tolerances and well separated peaks; two peaks of nearly the same height are needed to see the jump.",
  [D + ':deconv_iterative'])

p("Velocity models in text files of any layout",
  "load_model reads a file with three or four columns of numbers in decimal notation (sign, digits, point, exponent) exactly, whatever white space is "
  "before, between and behind the numbers and whatever empty lines and comments there are: the model is "
  "SimpleModel of these columns. Rows with different numbers of columns raise an error.",
  "all tables of decimal numbers with at least two rows, all layouts",
  "Only the file of the package is read in the tests.",
  [M + ':load_model', M + ':SimpleModel.__init__'])

p("A processing entry tells which call was made",
  "The processing entry of a call shows the function and all its arguments sorted by name; two calls of the same function which leave the same entry "
  "were made with the same arguments.",
  "every decorated function, all accepted calls, all versions",
  "All texts of arguments; two different calls with the same entry have to be found.",
  [U + ':_add_processing_info', S + ':RFStream.rf', S + ':RFStream.moveout', S + ':RFStream.stack'])

p("With strong damping the deconvolution is a cross-correlation with the source",
  "With a water level of one or more deconv_waterlevel returns, without normalisation and Gauss filter, the circular cross-correlation of the response "
  "with the source, delayed by the time shift and divided by the water level times the largest power of the source; normalised results do not depend on "
  "such water levels at all. For deconv_time, spiking times the result tends to the cross-correlation with the source as spiking grows, with an explicit bound.",
  "all responses, sources, water levels of one or more, shifts by whole samples, lengths, nfft; every positive spiking",
  "Statement about a limit and about all arrays at once; the bound on the error holds for each sample of every result.",
  [D + ':deconv_waterlevel', D + ':deconv_time', D + ':_xcorrt'])

p("Zeros at the ends of the source window do not matter",
  "A source window extended over samples which are zero gives the same receiver functions: l zeros before the source together with a time shift larger by "
  "l samples, and any number of zeros after it, change nothing in the results of the deconvolution functions.",
  "all sources, responses, numbers of zeros, water levels, Gauss filters, solvers",
  "Equality of all results (also failures) for all numbers of zeros; it breaks only for special combinations of length and shift.",
  [D + ':deconv_time', D + ':deconv_waterlevel', D + ':deconv_iterative', D + ':_xcorrt', D + ':_acorrt'])

p("A stream can be written again, in any format and trace by trace",
  "Writing a stream a second time in the same format gives the writer the same codes and headers as the first time. What was written in Q format before "
  "does not matter for SAC files and vice versa. Writing the traces of a stream one by one with RFTrace.write gives each trace to the writer with the same "
  "codes and headers as RFStream.write.",
  "all streams of distinct traces, all headers, both formats, with and without sh_compat",
  "The state of the stats after the first call is the input of the second one; all combinations of headers and formats have to be considered.",
  [S + ':RFStream.write', S + ':RFTrace.write', S + ':RFTrace._write_format_specific_header'])

p("The interpolations of move out are accurate in double precision",
  "In double precision the new times of the samples computed by moveout differ from exact interpolation by at most 2^-49 of the largest "
  "time of the table and stay in increasing order, as np.interp needs them. The samples of the result differ from exact interpolation by at most "
  "2^-49 (A + D T / m), where A is the largest sample, D the largest difference of neighbouring samples, T the largest time and m the smallest distance "
  "of the new times; only samples within 2^-49 T of the last new time, after which zeros are filled in, may differ by more.",
  "all sample times, tables and samples whose new times are more than 2^-48 T apart",
  "The roundings of all samples and tables; the order of the new times in double precision is a property of all tables.",
  [M + ':SimpleModel.moveout'])

p("Move out at the reference slowness changes no bit in double precision",
  "In double precision moveout leaves a trace whose slowness is the reference slowness unchanged, bit by bit, on all samples earlier than the largest "
  "tabulated delay time.",
  "all traces, sample times and tables of delay times",
  "Exactness in spite of roundings for all times and tables; a single bit in the time of the last sample makes this sample zero.",
  [M + ':SimpleModel.moveout'])

p("Tables of delay times are sorted in double precision",
  "In double precision, too, the delay times of Sp (with changed sign) and of all phases which start with P are not negative and do not decrease with depth, "
  "and both time tables of stretch_delay_times, with their mirrored parts, are sorted as np.interp requires, also if deep layers are not reached; "
  "if the first layer is reached there is no NaN in the table for the slowness of the trace.",
  "all models with 0 < vs <= vp and non-decreasing depths, all slownesses and reference slownesses",
  "Roundings of all operations for all models; a table out of order by a single bit would make np.interp return arbitrary values.",
  [M + ':SimpleModel.calculate_vertical_slowness', M + ':SimpleModel.calculate_delay_times', M + ':SimpleModel.stretch_delay_times'])

p("The normalised maximum is 1 in double precision",
  "With normalize=i the time domain, iterative and multitaper methods return results whose trace i has the largest absolute value 1, in double precision, too. "
  "All other samples keep their order and, up to a relative error of 2^-51, their ratio to the maximum; data in units which differ by a power of two give the same bits.",
  "all results with a non-vanishing trace i, all indices",
  "Whether 1/M times M is 1 after two roundings depends on the last bits of M; tests compare with a tolerance or with few numbers.",
  [D + ':deconv_time', D + ':deconv_iterative', D + ':deconv_multitaper'])

p("Delay times of S multiples grow with depth",
  "For every model with positive layer thicknesses and every slowness for which all rays exist, the delay times of phases which start with S, other than Sp, grow from 0 "
  "with depth, so that the time tables of moveout are in order (with changed sign).",
  "all layer models, slownesses and phases starting with S",
  "All models and phases; Sppp and the like are not tested, and the order depends on the slowness.",
  [M + ':SimpleModel.calculate_delay_times', M + ':SimpleModel.stretch_delay_times'])

p("Delay times in double precision are close to the exact ones",
  "For every model with layers of nonnegative thickness and vp >= vs >= v > 0, every phase which starts with P or S, and every slowness whose rays have angles of "
  "incidence with a cosine of at least c (c >= 2^-20), the delay times calculated in double precision are none of them NaN and differ from the exact sums over the "
  "layers by at most (nP + nS + 2) * Z / v * (64 / c + 4 n) * 2^-53, with the total thickness Z and the number n of layers (at most 2^50).",
  "all layer models, slownesses away from critical, and phases",
  "A bound over all models and slownesses; tests compare a few values with a tolerance that says nothing about others.",
  [M + ':SimpleModel.calculate_vertical_slowness', M + ':SimpleModel.calculate_delay_times'])

p("The tables of delay times of move out are close to the exact ones",
  "For every model with layers of nonnegative thickness and vp >= vs >= v > 0, every phase of an even number of letters P and S, and slownesses of data and reference whose "
  "rays have angles of incidence with a cosine of at least c (c >= 2^-20), the two tables of stretch_delay_times in double precision contain no NaN, have the lengths of "
  "the exact ones and differ from them in no entry by more than (nP + nS + 2) * Z / v * (64 / c + 4 n) * 2^-53.",
  "all layer models, pairs of slownesses away from critical, and phases",
  "A bound over all models, slownesses and phases, including the mirrored part of the tables and the change of sign for S.",
  [M + ':SimpleModel.calculate_delay_times', M + ':SimpleModel.stretch_delay_times'])

p("Distances of piercing points in double precision are close to the exact ones",
  "For every model with layers of nonnegative thickness and vp >= vs > 0, every phase of an odd number of letters with P or S, every depth inside the model and every slowness "
  "whose rays have angles of incidence with a cosine of at least c (c >= 2^-20), ppoint_distance in double precision returns a number (no NaN) which differs from the value "
  "of the same formula in exact arithmetic by at most (nP + nS) * Z / c * (352 / c^2 + 16 n) * 2^-53 km, with the total thickness Z and the number n of layers.",
  "all layer models, depths, slownesses away from critical, and phases",
  "A bound over all models, depths and slownesses; tests compare a few points with a tolerance.",
  [M + ':SimpleModel.calculate_vertical_slowness', M + ':SimpleModel.ppoint_distance'])

p("Onsets of mirrored and stacked records are kept to half a microsecond",
  "ObsPy rounds differences of times to microseconds. For records and windows up to 2^18 s, rf(method='S') sets an onset which lies within 0.502 microseconds (plus the distance of the "
  "old onset from its sample) of the sample to which the reversed data move the sample of the old onset; it is exact, and mirroring twice restores the onset, if onset and end lie "
  "whole microseconds after the start. stack() keeps the distance between start and onset in the same sense. At sampling rates such as 30 Hz mirroring twice moves an onset.",
  "all start times, onsets, sampling rates and numbers of samples",
  "Rounding in binary and decimal digits acts on every combination of times; tests use one sampling rate with short decimal intervals.",
  [S + ':RFStream.rf', S + ':RFStream.stack'])

p("Small errors of the delay times stay small in the move out correction",
  "Let all delay times of the two tables used by moveout be off by at most eps (an inaccurate velocity model, or rounding), let the stretching between neighbouring entries be between lo and hi, "
  "let the record be inside of the tables and neighbouring samples differ by at most D. Then the times to which samples are moved are off by at most (1 + 2 hi) eps, and the corrected samples by at "
  "most 2 D (1 + 2 hi) eps / (lo dt), except at times within (1 + 2 hi) eps of the new time of the last sample, after which zeros are filled in. Samples before the onset do not change. "
  "For S multiples the same holds for the samples before the onset, with times close to the new time of the first sample left out as well.",
  "all tables of delay times, all deviations of them, all records inside of the tables",
  "A sensitivity bound over all tables and perturbations; tests use one velocity model.",
  [M + ':SimpleModel.moveout', M + ':SimpleModel.stretch_delay_times'])

p("Move out correction in double precision is close to the exact correction",
  "Let eps bound the rounding errors of the delay times (C219), let the stretching be between lo and hi, the record be inside of the tables, the samples be at most A with neighbours differing "
  "by at most D, the delay times at most T and the times of the samples at most M. With tau = 20 M 2^-53 and eta = 2^-49 T + eps + hi (2 eps + tau), the samples computed by moveout in double "
  "precision differ from the exact correction of the same record in real arithmetic, with exact delay times and sample times, by at most 2^-49 A + D (2 eta + tau) / (lo dt), except at times "
  "within eta + tau of the new time of the last sample. Samples before the onset are bitwise equal. For S multiples the same holds for the samples before the onset (also except near the new time of the first one), and those after it are equal. The sample of the onset is taken as the exact one (C162).",
  "all velocity models, slownesses away from critical, records inside of the tables",
  "A bound for the result of a chain of roundings, root, sums and two interpolations; tests compare with stored results of the same code.",
  [M + ':SimpleModel.moveout', M + ':SimpleModel.stretch_delay_times', M + ':SimpleModel.calculate_delay_times'])

p("Small errors of velocities and slowness change delay times and move out little",
  "Compare two velocity models with the same depths whose velocities differ by a relative error of at most delta, and two slownesses s and s'. If no velocity of the second model is below v0 and all rays "
  "have an angle with the horizontal whose sine is at least c, the tables of stretch_delay_times have the same length, no NaN, and differ by at most "
  "eps = (nP + nS + 2) z (delta / v0 + |s' - s| / 111.2) / c, where z is the depth of the model and nP, nS the numbers of letters of the phase. If the stretching is between lo and hi, neighbouring samples "
  "differ by at most D and the record is inside of the tables, the samples corrected with the two models differ by at most 2 D (1 + 2 hi) eps / (lo dt), except close to the new times of the first and last sample.",
  "all velocity models and slownesses away from critical, all phases with letters P and S; records inside of the tables",
  "A bound for all pairs of models; tests use one model.",
  [M + ':SimpleModel.calculate_delay_times', M + ':SimpleModel.calculate_vertical_slowness', M + ':SimpleModel.stretch_delay_times', M + ':SimpleModel.moveout'])

p("Small errors of velocities and slowness move piercing points little",
  "Compare two velocity models with the same depths whose velocities differ by a relative error of at most delta and are at most V, and two slownesses s and s' of rays whose angle with the horizontal has a sine "
  "of at least c. For every depth inside of the model ppoint_distance returns numbers for both, and they differ by at most n z (delta + 2 V |s' - s| / 111.2) / c^3, where z is the depth of the model and n the "
  "number of letters P and S of the phase.",
  "all velocity models, depths inside of the model, slownesses away from critical and phases with an odd number of letters",
  "A bound for all pairs of models; tests use one model.",
  [M + ':SimpleModel.ppoint_distance', M + ':SimpleModel.calculate_vertical_slowness'])

p("Small errors of the thickness of layers change delay times little",
  "Compare two velocity models with the same velocities of at least v0 in their layers and any thickness of the layers, and a slowness for which P waves propagate in all layers. calculate_delay_times returns "
  "numbers for all layers of both models, and the delay times at the bottom of a layer differ by at most (nP + nS + 2) / v0 times the sum of the absolute differences of the thickness of this layer and the layers "
  "above. nP and nS count the letters P and S of the phase. The same bound, with the sum over all layers, holds for the two tables of stretch_delay_times, and the samples after move out differ as little as C222 says.",
  "all velocity models, thicknesses, slownesses for which waves propagate, and phases of letters P and S",
  "A bound for all pairs of models; tests use one model.",
  [M + ':SimpleModel.stretch_delay_times', M + ':SimpleModel.calculate_delay_times', M + ':SimpleModel.calculate_vertical_slowness'])

out = os.path.join(os.path.dirname(os.path.abspath(__file__)), '..', 'properties.jsonl')
with open(out, 'w') as f:
    for x in P:
        f.write(json.dumps(x, ensure_ascii=True) + '\n')
print(len(P))
