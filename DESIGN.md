# Formal model of trichter/rf in Lean 4

## 1. Layout

* `properties.jsonl` – the properties (generated by `tools/props.py`).
* `lean/Verif/Py/*.lean` – the small part of Python / NumPy semantics that is needed
  (slices with negative indices, `in` on strings, dictionaries, exceptions, trace objects on a
  heap, `np.interp`, DFT).
* `lean/Verif/Model/*.lean` – the model, one file per Python module or part of it.  Every
  definition cites file and lines of `/repo` and names its simplifications.
* `lean/Verif/Spec/*.lean` – small independent specifications used in theorem statements.
* `lean/Verif/Props/*.lean` – the property theorems with proofs, and after each a concrete case
  (`example`) which meets its hypotheses.
* `MANIFEST.json` – property -> theorem names and status (generated by `tools/manifest.py` from
  theorem names and `tools/notes.json`).
* `AXIOMS.txt` – axioms of every theorem in the manifest (`tools/axioms.sh`).
* `seeded/LOG.jsonl` – trials with wrong programs: an edit of a model definition, the claim it breaks
  and the theorems whose proofs failed.
* This file is generated by `tools/design.py`.

## 2. Modelling conventions

* **Numbers.** Floating point numbers are modelled by exact arithmetic: an arbitrary linearly
  ordered field `K` (instantiated by `ℚ` in examples) where only field operations and order are
  used, `ℝ` where trigonometric functions occur, `ℂ` for spectra.  Rounding
  errors, overflow and signed zeros are *not* modelled, except for the sample index of a time, which is
  also modelled in double precision (Py/Double, Model/DoubleIndex, C162).  `NaN` is modelled as `none`
  where the code depends on it (evanescent layers).  A division by zero in a deconvolution
  kernel is the exceptional outcome `other`; Model/NanData describes how the code goes on (C163, C164).  The square root in `simple_model.py` is a
  parameter with hypotheses (`SqrtMono`, `SqrtStrict`) which are proved for the real square root.
* **Strings** are `List Char` where the code inspects them; dictionary keys are `String`.
* **Exceptions** are values (`Except PyErr _`); functions which mutate in place and may
  raise return the mutated state *and* the error, so that crash points are visible.
* **Objects.** Trace objects live on a heap (`Nat → Trace`), streams are lists of references, so that
  aliasing (the same trace twice in a stream, substreams sharing traces) is expressible.  Data
  arrays are values in this model.  The one place of the package which assigns *into* an array,
  `SimpleModel.moveout`, is modelled a second time in Model/Buffers, where arrays, their element types
  and views on them are objects (C160, C161).
* **State between calls** is explicit where the code has it: the `t_ref` cache of a model, the cache
  of models in `load_model`, the `cached` example streams, the global index of `obspyh5`, the files
  written by the batch program.
* **External code** (ObsPy, NumPy linear algebra, shapely, cartopy, TauPy, geographiclib, file
  systems, JSON) is a parameter of the model; assumptions on it are explicit hypotheses of the
  theorems.  NumPy functions with a short exact definition (`interp`, `correlate(..., 'valid')`, `fft`,
  `linspace`, `searchsorted`, `cumsum`, slices) are modelled by their definition.
* **Figures** are records of what is drawn (curves, filled areas, bars, axis limits, panels).
* A property that is false of the code is *not* repaired in the model: the negation is proved with a
  concrete witness (`*_counterexample` / `*_fails`) next to a `*_partial` theorem that
  holds under the stated extra condition.

## 3. What is modelled and what is not

| source | modelled | not modelled |
|---|---|---|
| `util.py` | `_get_stations`, `iter_event_data`, `iter_event_metadata` (EventIter), `IterMultipleComponents` (Iter), `direct_geodetic` (Ppoints; the geodesic itself is a parameter), `cached` behaviour of the example streams (Cache), `_add_processing_info` (ProcInfo) | progress bar; content of the example streams |
| `deconvolve.py` | all functions (Deconvolve, DeconvTime, DeconvFreq, DeconvIter, DeconvMt) | the Toeplitz solver of `toeplitz`/SciPy (relation "x solves the system"), the tapers (`dpss`, parameters), logging |
| `rfstream.py` | `obj2stats`, `rfstats` (RfStats), header conversion, `RFStream.write`, `RFTrace.write`, `RFTrace.__init__`, H5 index (Headers), `type`, `method`, `trim2`, `slice2`, `deconvolve`, `rf`, `moveout`, `stack` (Stream), `ppoints` (Ppoints), `harmonics`, `profile`, `RFTrace.__str__`, `RFStream.__init__`, `read_rf` (Text) | ObsPy's filter, trim, rotate, decimate, interpolation and taper (parameters) |
| `simple_model.py` | everything (Simple; `load_model` and `ppoint` in Ppoints); `np.loadtxt` for the model of the package (LoadTxt, Iasp91) | model files of the user (their table is a parameter) |
| `profile.py` | everything (Profile) | shapely polygons and the cartopy projection (parameters; one planar instance) |
| `harmonics.py` | everything (Harmonics) | the algorithm of `lstsq` (relation; the `rcond` truncation of small singular values is ignored) |
| `batch.py` | `write`, file names, reading of processed data and profiles, `_create_dir` (BatchFiles), the comment stripping decoder, `run`, `run_commands` (Batch, BatchCommands), `init_data`, `load_func` (DataSource), `run_cli` (Cli) | IPython shell of the print command, locale and logging; the parsing of words by `argparse` is modelled as far as the declared arguments need it |
| `imaging.py` | `_label`, `plot_rf`, `plot_profile`, `plot_harmonics` (Imaging), `plot_stations`, `plot_ppoints`, `plot_profile_map` (Maps) | matplotlib and cartopy themselves |

## 4. Trusted base

* Lean's kernel and the axioms `propext`, `Classical.choice`, `Quot.sound` (section 6).  There are no
  own axioms, no `sorry`, no `native_decide`.
* The reading of the Python source, documented in the comments of `Model/*` with line numbers.  The
  code has not been run; where behaviour of a library matters, the reading relies on its documentation.
* Exact arithmetic as described in section 2.
* Library behaviour which is part of definitions rather than hypotheses:
  ObsPy keeps header values as set and `copy()` of a trace copies the header deeply; `Stream.trim`,
  `slice` cut at the nearest sample and drop empty traces;
  `np.interp` clamps outside of the knots unless `left`/`right` are given; `np.fft` is the discrete Fourier
  transform; `matplotlib.Axes.bar` centres bars on the given positions;
  `fnmatch` (patterns with `*` and `?` only); `str.format` and `strftime` for the
  fields used in file names; dictionaries iterate in insertion order; `sorted` is stable.
* Library behaviour which enters as hypotheses: `json.loads` inverts `json.dumps`; the
  Toeplitz solver returns a solution of a uniquely solvable system; `lstsq` returns the
  minimum norm solution of the normal equations; tapers are finite sequences;
  services raise or return as stated in each theorem.

## 5. Properties

The theorems of a property carry its id as prefix and are listed in `MANIFEST.json`; all are in the
namespace `Verif.Props`.  "partial" means that the full statement is false of the code (then a
`*_counterexample` proves the negation for a concrete input) or only proved under the stated
conditions; the remark says what is missing.

**C01-C03** Model: Iter: `IterMultipleComponents` over streams of heap traces with a key function; insertion-ordered dictionary of groups, sorted keys, filter. Proof: induction over the stream; permutation and sortedness lemmas.

* C01 (proved, `Props/Iter`, 1 theorems) Component grouping is a partition.
* C02 (proved, `Props/Iter`, 1 theorems) Component grouping puts together exactly the associated traces.
* C03 (proved, `Props/Iter`, 4 theorems) Component grouping order and number_components filter.

**C04** Model: Deconvolve: `__find_nearest` with negative index and IndexError. Proof: reasoning on sorted lists; negation for onsets after the last sample.

* C04 (partial, `Props/DeconvolveProps`, 3 theorems) Onset is snapped to the nearest sample. Holds for every onset that is not after the last sample; after it the call fails with IndexError (C04_after_end_fails, C04_counterexample).

**C05-C08** Model: Deconvolve: `deconvolve` on the heap, kernel as parameter. Proof: case analysis, frame lemmas for heap updates; negation of C07.

* C05 (proved, `Props/DeconvolveProps`, 2 theorems) deconvolve() accepts exactly one source and one to three responses.
* C06 (proved, `Props/DeconvolveProps`, 1 theorems) Default normalisation refers to the source trace.
* C07 (partial, `Props/DeconvolveProps`, 3 theorems) deconvolve() writes only to the traces it deconvolves. All traces other than responses and source are untouched; the source trace is cut and tapered in place if it is not a response (C07_counterexample).
* C08 (proved, `Props/DeconvolveProps`, 2 theorems) Default source windows.

**C09-C11** Model: DeconvTime: `_add_zeros`, `_acorrt`, `_xcorrt`, `correlate(valid)` on lists. Proof: length and index arithmetic, Cauchy-Schwarz; exact offset and negation of C11.

* C09 (proved, `Props/Corr`, 2 theorems) Autocorrelation vector of deconv_time.
* C10 (proved, `Props/Corr`, 2 theorems) Cross-correlation length never trips the assertion in deconv_time.
* C11 (partial, `Props/Corr`, 3 theorems) Zero-lag alignment of deconv_time. Holds for source windows with an odd number of samples and for even windows containing the onset strictly inside; off by one sample otherwise (C11_exact, C11_counterexample).

**C12-C14** Model: DeconvTime: Toeplitz system as relation, exact solver as parameter. Proof: quadratic form is a sum of squares; injective square systems.

* C12 (proved, `Props/Toeplitz`, 1 theorems) The regularised Toeplitz system is uniquely solvable.
* C13 (proved, `Props/DeconvTime`, 3 theorems) deconv_time normalisation and scale invariance.
* C14 (proved, `Props/DeconvTime`, 1 theorems) Self-deconvolution of the prepared source is centred on the onset.

**C15-C19** Model: DeconvFreq: DFT by definition over the complex numbers, water level formula, filters. Proof: norm inequalities, orthogonality of the roots of unity.

* C15 (proved, `Props/Water`, 2 theorems) Water level deconvolution never divides by zero and is stable.
* C16 (proved, `Props/Water`, 1 theorems) Water level deconvolution is exact division above the water level.
* C17 (proved, `Props/WaterNorm`, 2 theorems) Water level self-deconvolution peaks at tshift.
* C18 (proved, `Props/Freq`, 2 theorems) Phase shift filter is a circular delay.
* C19 (partial, `Props/Real`, `WaterNorm`, 5 theorems) Water level deconvolution: linearity and amplitude invariance. Linearity, invariance under rescaling and realness are proved in full; 'the maximum of result i is 1' is proved when the unnormalised result i has a positive sample and refuted (C19_counterexample) otherwise: an all-negative result flips its sign and its maximum exceeds 1.

**C20-C23** Model: DeconvIter: loop as fuelled recursion on a state record, correlation through the DFT. Proof: loop invariants; expansion of the squared norm; Parseval and convolution theorem.

* C20 (proved, `Props/IterativeProps`, 1 theorems) Iterative deconvolution: misfit never increases.
* C21 (proved, `Props/IterativeProps`, 3 theorems) Iterative deconvolution: termination and stop criterion.
* C22 (proved, `Props/IterativeProps`, 2 theorems) Iterative deconvolution: spikes only at admissible lags.
* C23 (proved, `Props/IterativeProps`, 1 theorems) Iterative deconvolution: greedy optimality of each spike.

**C24-C26** Model: DeconvMt: window index arithmetic, output reversal, spectral quotient. Proof: arithmetic; DFT index algebra; Cauchy-Schwarz; negation of C24.

* C24 (partial, `Props/Multitaper`, 4 theorems) Multitaper windows stay inside the trace. Proved that no shape mismatch or division by a window count occurs under explicit conditions on the lengths (C24_no_failure_partial); the unconditional claim is false: C24_counterexample (the source loop has no je < nft guard), C24_counterexample_noise (noise without a window).
* C25 (proved, `Props/Multitaper`, 2 theorems) Multitaper time reversal and phase shift give the right zero time.
* C26 (proved, `Props/Multitaper`, 3 theorems) Multitaper spectral estimate is damped.

**C27-C29** Model: Simple: `_interpolate_n`, `SimpleModel`, vertical slowness with NaN as `none`. Proof: list induction, monotonicity of the square root.

* C27 (proved, `Props/Delay`, 3 theorems) Model refinement keeps the knots and the monotone depth axis.
* C28 (proved, `Props/Delay`, 4 theorems) Delay time formula of converted phases and multiples.
* C29 (proved, `Props/Delay`, 2 theorems) Delay times are non-negative and monotone in depth.

**C30** Model: Simple: model object with `t_ref` as state, histories of calls. Proof: invariant for equal references, negation by a two-call witness.

* C30 (partial, `Props/Stretch`, 3 theorems) Moveout reference times do not depend on earlier calls. False in general: the cached reference times ignore ref (C30_stale, C30_counterexample). Proved for histories that use the same reference for the phase.

**C31** Model: Simple: lists of optional numbers, truncation index including -1. Proof: first NaN index; negation for NaN at index 0.

* C31 (partial, `Props/Stretch`, 2 theorems) No NaN reaches the stretching tables. False in general (C31_counterexample): the reference table may contain NaN. Proved if every layer that is evanescent for the reference slowness is evanescent for the trace slowness and the uppermost layer propagates.

**C32-C36** Model: Simple, Py/Interp: `np.interp` by definition, `moveout` per trace. Proof: convex combinations, sortedness of the knots.

* C32 (proved, `Props/Moveout`, 3 theorems) Piecewise linear interpolation facts used by moveout.
* C33 (partial, `Props/MoveoutModel`, `MoveoutStream`, `MoveoutTime`, 4 theorems) Moveout at the reference slowness is the identity. Proved for all phases but S multiples (with the sample at exactly the largest tabulated time excluded, np.interp returns the last sample there), and for S multiples if the table covers all samples; false otherwise (C33_counterexample).
* C34 (proved, `Props/Moveout`, `MoveoutStream`, 2 theorems) Moveout leaves the trace length and the samples before the onset untouched.
* C35 (proved, `Props/Moveout`, 1 theorems) Moveout does not create larger amplitudes.
* C36 (partial, `Props/MoveoutModel`, `MoveoutStream`, `MoveoutTime`, 4 theorems) Moveout moves a conversion to its reference delay time. Proved for all phases but S multiples (P phases and Sp). False for S multiples, which are moved off by one sample (C36_counterexample).

**C37-C38** Model: Simple: `ppoint_distance` with index wrap and IndexError. Proof: exact characterisation (distance one layer deeper); negation.

* C37 (partial, `Props/Ppoint`, 3 theorems) Piercing point distance is the ray-geometric distance at the requested depth. The code is off by one layer: C37_value_partial gives the exact value it returns, C37_homogeneous_partial the case where both agree, C37_counterexample a depth where they differ.
* C38 (proved, `Props/Ppoint`, 2 theorems) Piercing point distance: monotone in depth, errors outside the model.

**C39-C40** Model: Simple, Stream: loop with error over traces; labels of `RFStream.moveout`. Proof: state at the crash point; negation of atomicity.

* C39 (partial, `Props/MoveoutStream`, 3 theorems) Moveout rejects onsets outside of the data without side effects. ValueError and no change of the offending and later traces is proved; earlier traces are already corrected (C39_counterexample).
* C40 (proved, `Props/StreamOps`, 3 theorems) RFStream.moveout bookkeeping.

**C41-C46** Model: Stream: `rf` on the heap, ObsPy steps as parameters. Proof: case analysis, heap frame lemmas for every stage.

* C41 (partial, `Props/Stream`, `StreamDec`, 3 theorems) rf() accepts only the methods P and S. False for '' and 'PS', which the substring test lets through (C41_counterexample); proved for every other explicit string and for the method derived from the phase.
* C42 (proved, `Props/StreamRf`, 2 theorems) S receiver functions are mirrored at the onset.
* C43 (proved, `Props/StreamDec`, 2 theorems) Sign convention of the Q component.
* C44 (proved, `Props/Stream`, 1 theorems) rf() labels the stream with type and method.
* C45 (partial, `Props/StreamDec`, 2 theorems) rf() deconvolves every trace it labels as receiver function. False for incomplete records and with response_components (C45_counterexample); proved when every record of the prepared stream has two or three components and all traces are responses.
* C46 (proved, `Props/Stream`, 3 theorems) rf() keeps the stream membership and order.

**C47-C49** Model: Stream: `stack`, `trim2`, `slice2`. Proof: list induction, permutations; negation of C48.

* C47 (proved, `Props/StreamOps`, 5 theorems) Stack is the per-channel mean.
* C48 (partial, `Props/StreamOps`, 2 theorems) Stack metadata belongs to the stacked channel. False: header of all stacked traces comes from the first trace of the stream (C48_counterexample); proved for the id of the first trace and for streams whose traces agree in these entries.
* C49 (proved, `Props/StreamOps`, 2 theorems) trim2 and slice2 agree and drop only empty traces.

**C50-C54** Model: Profile: `profile` as fold with dictionary, `get_profile_boxes`, planar geometry as instance. Proof: fold invariant equals filter; algebra of rotated rectangles.

* C50 (proved, `Props/Profile`, 4 theorems) Profile traces are box means.
* C51 (proved, `Props/Profile`, 2 theorems) Profile counts add up.
* C52 (proved, `Props/Profile`, `ProfileBoxes`, 3 theorems) Profile is independent of the trace order and does not modify its input.
* C53 (proved, `Props/ProfileBoxes`, 3 theorems) Profile boxes tile the bins.
* C54 (proved, `Props/ProfileBoxes`, 2 theorems) On a flat earth every point of the strip is in exactly one box.

**C55-C60** Model: Headers: header tables, reading and writing of format headers, station codes on the heap, H5 index as global state. Proof: finite tables by evaluation, dictionary lemmas; negations.

* C55 (proved, `Props/Headers`, `WriteIndex`, 4 theorems) Format header tables are consistent.
* C56 (proved, `Props/HeaderRoundtrip`, 1 theorems) Header round trip through SAC. Assumptions: obspy_to_sac_header built from scratch holds none of the rf fields, get_sac_reftime does not read them, values representable (times for onset/event_time, no '-12345'); ObsPy stores the SAC header in the file and returns it unchanged.
* C57 (proved, `Props/HeaderRoundtrip`, 1 theorems) Header round trip through SH/Q. Assumption: json.loads inverts json.dumps on dictionaries of numbers and strings; the Q writer/reader keeps the SH header.
* C58 (partial, `Props/HeaderStale`, 4 theorems) Deleted headers do not come back. False as stated (C58_counterexample, C58_counterexample_sac): old fields of the format specific header are not removed. Proved: absent headers stay absent iff their field was absent; COMMENT headers never come back if COMMENT is rewritten, removed or was absent.
* C59 (partial, `Props/Write`, 5 theorems) Writing Q files does not change the station codes. False as stated: a failing writer leaves ids as station codes, and a trace contained twice ends with IndexError and a wrong code. Proved for distinct traces, codes without dots in network/station and a succeeding writer; reading restores the codes; other formats never change codes.
* C60 (partial, `Props/Write`, 4 theorems) Writing H5 files restores the global index. False as stated (C60_counterexample): not restored if the writer raises. Proved for every outcome except an exception of the writer.

**C61-C64** Model: RfStats: `rfstats`, `obj2stats` with TauPy and geodetics as parameters. Proof: case analysis; negation of C63.

* C61 (partial, `Props/RfStats`, 7 theorems) rfstats distance filter. None iff out of range and stream filtering proved in full; the claim that other phases have no default is false for 'PS' and '' (substring test), proved for all other phases.
* C62 (proved, `Props/RfStats`, 3 theorems) rfstats results.
* C63 (partial, `Props/RfStats`, 2 theorems) rfstats uses an event or station given on its own. False as stated (C63_counterexample): event or station given alone is ignored. Proved if both are given.
* C64 (proved, `Props/RfStats`, 3 theorems) Event and station attributes.

**C65-C68** Model: EventIter: generators as list functions with a trace of effects, services as parameters. Proof: induction over the product; negation of C66.

* C65 (proved, `Props/EventIter`, 3 theorems) iter_event_data visits every event-station pair once, in order.
* C66 (partial, `Props/EventData`, 5 theorems) One failing event or waveform request does not stop iter_event_data. False as stated (C66_counterexample: event without origin; C66_counterexample_none: data service returning None). Proved: exceptions of coordinates, rfstats and the data service skip only their pair; exact condition for the generator to stop.
* C67 (partial, `Props/EventData`, 4 theorems) Yielded event streams are complete. False for the ray attributes of traces with SAC or SH header (C67_counterexample: header fields overwrite them). Proved: three traces, no gaps, request window, default windows; attributes for traces without such headers.
* C68 (proved, `Props/EventData`, 1 theorems) Stations are derived from channels without duplicates.

**C69** Model: Cache: heap and cache as state machine. Proof: invariant over histories of operations.

* C69 (proved, `Props/Cache`, 3 theorems) Cached example streams are isolated.

**C70** Model: ProcInfo: argument binding of `getcallargs`, sorted argument list. Proof: permutation invariance of sorting; negation.

* C70 (partial, `Props/ProcInfo`, 9 theorems) Processing information is canonical. False for failures (C70_counterexample: boxes without profile raise KeyError before the function is called). Proved: entry depends on effective arguments only, keyword order, position/keyword, defaults, appended exactly once, transparent once the entry is computed, exact condition for computing it.

**C71-C76** Model: Harmonics: Jacobians, least squares as relation (normal equations and minimum norm). Proof: trigonometric polynomial with five roots; linearity; negations of C74-C76.

* C71 (proved, `Props/HarmonicsExact`, 1 theorems) Harmonic decomposition recovers exact harmonics (one component).
* C72 (proved, `Props/HarmonicsExact`, 1 theorems) Harmonic decomposition recovers exact harmonics (two components).
* C73 (proved, `Props/HarmonicsSymm`, 2 theorems) Harmonic decomposition: rotation covariance.
* C74 (partial, `Props/HarmonicsCounter`, `HarmonicsSymm`, 3 theorems) Harmonic decomposition: time and frequency method agree. Proved (also for rank deficient systems and erroneous calls) if all traces used have as many samples as the first trace of the stream; otherwise false, see the counterexample: the loop runs over the samples of stream[0] only.
* C75 (partial, `Props/HarmonicsCounter`, 2 theorems) Harmonic decomposition pairs R and T traces of the same event. Proved for streams with exactly one trace of each component for each event; false in general: traces are paired by their position after sorting, see the counterexample.
* C76 (partial, `Props/HarmonicsLayout`, 3 theorems) Harmonic decomposition output layout. All header entries of the result are characterised; false as stated: traces 5-8 lack 'components' (line 132 is outside the loop) and 'distance' of the first trace stays.

**C77-C82** Model: Batch, BatchFiles: comment stripping, option handling, file names, `write`. Proof: list lemmas; injectivity of formatting; negations.

* C77 (partial, `Props/BatchConfig`, 7 theorems) Configuration comments. False for # inside JSON strings (C77_counterexample): the rest of the line is removed. C77_strings_partial: values without # survive.
* C78 (partial, `Props/BatchRun`, `BatchTight`, 11 theorems) Command line options win over the configuration file. The dictionary is merged as stated (C78_override), but options and boxes from the command line are replaced by phase, moveout, boxbins and so on of the file (C78_counterexample); C78_effect_partial states when the command line value is effective.
* C79 (partial, `Props/BatchRun`, 5 theorems) Unknown options and repeated commands are rejected. Unknown options are rejected (C79_unknown). Repeated calc is accepted after data (C79_counterexample); C79_repeated_partial is the exact condition.
* C80 (partial, `Props/BatchRun`, 3 theorems) Batch accepts event catalogs. File names and pairs work; catalogs and lists of events are never used (C80_never_given, C80_counterexample).
* C81 (proved, `Props/BatchNames`, 4 theorems) Batch output files do not collide.
* C82 (proved, `Props/BatchFiles`, 5 theorems) Batch write does nothing for empty streams and writes each SAC trace once.

**C83-C84** Model: Imaging: scaling and label logic of the plots. Proof: order lemmas; negation for `ref1` of `plot_harmonics`.

* C83 (partial, `Props/Imaging`, `ImagingHarmonics`, `ImagingProfile`, 10 theorems) Plot scaling keeps amplitudes within the scale. Bounds are proved for plot_rf with both scalings (attained unless the data vanish), for plot_profile, for the left panel of plot_harmonics and for the unmodelled traces in its right panel. False for a second stream: its scale is compared with the largest value of the first stream instead of its own (C83_counterexample); C83_harmonics_right_partial gives the case in which it holds.
* C84 (proved, `Props/Imaging`, 4 theorems) Plot label names what all traces have in common.

**C85** Model: EventIter: `iter_event_metadata`. Proof: induction over the product.

* C85 (proved, `Props/EventData`, 1 theorems) iter_event_metadata yields one record per event and station.

**C86** Model: Deconvolve: arguments passed to the kernel. Proof: evaluation of the window arithmetic.

* C86 (proved, `Props/DeconvolveKernel`, 2 theorems) Deconvolution passes the right window and shift to the kernel.

**C87-C88** Model: Stream: downsampling stage and defaults of `rf`. Proof: floor arithmetic; negation for fractional rates; case analysis.

* C87 (partial, `Props/StreamDefaults`, 4 theorems) Downsampling gives the requested rate. False for sampling rates which are no whole numbers: the rate is truncated before the division (2.5 Hz to 1.25 Hz stays at 2.5 Hz, 0.5 Hz to 0.25 Hz calls decimate with 0). Proved for whole rates, with bounds for all rates.
* C88 (proved, `Props/StreamDefaults`, 4 theorems) Defaults of rf follow the method.

**C89** Model: DeconvMt: closed form of the windowed sum. Proof: induction over the windows; negation of covering.

* C89 (partial, `Props/MultitaperWindows`, 3 theorems) Multitaper windows cover the response. Closed form of the estimate proved; covering is false: windows ending at or behind the last sample are dropped, so the end of the response has no influence (proved for all input and with a concrete pulse).

**C90** Model: Profile: headers of profile traces. Proof: fold invariant.

* C90 (proved, `Props/ProfileHeaders`, 3 theorems) Profile headers describe the box.

**C91** Model: Headers: choice of the H5 index. Proof: case analysis.

* C91 (proved, `Props/WriteIndex`, 4 theorems) H5 files are organised by the type of the stream.

**C92** Model: RfStats: piercing point entries. Proof: case analysis.

* C92 (proved, `Props/RfStatsPiercing`, 3 theorems) rfstats calculates the piercing point of the converted phase.

**C93-C99** Model: Batch, BatchFiles: `run`, `run_commands`, processing loop, reading of processed data. Proof: induction over the streams; negations.

* C93 (proved, `Props/BatchRun`, 4 theorems) The batch program processes every stream once.
* C94 (partial, `Props/BatchData`, 4 theorems) Missing data do not stop the batch program. False (C94_counterexample): the wrapper of init_data returns None, which raises AttributeError in iter_event_data (C94_abort for every failing pair). C94_prefix: what is yielded before is right.
* C95 (partial, `Props/BatchRun`, 3 theorems) The option boxbins gives the number of boxes. False (C95_counterexample): n numbers give n-1 boxes; C95_edges_partial: the n edges are equally spaced from start to end.
* C96 (proved, `Props/BatchRun`, `BatchTight`, 2 theorems) create copies the configuration and the tutorial.
* C97 (partial, `Props/BatchFiles`, 4 theorems) write() of the batch program creates the directories it needs. False for SAC files of streams with several stations (C97_counterexample); holds for all other cases (C97_directory_partial).
* C98 (proved, `Props/BatchNames`, 5 theorems) The batch program reads the files it has written.
* C99 (partial, `Props/BatchData`, 2 theorems) Unreadable files are left out when processed data are read. False for a format in lower case (C99_counterexample), which write accepts; C99_processed_partial for the keys of FNAMES.

**C100-C108** Model: Imaging: geometry and content of the figures of `plot_rf`, `plot_profile`, `plot_harmonics` (a figure is a record of what is drawn). Proof: order lemmas, induction over the traces; negations.

* C100 (proved, `Props/Imaging`, 2 theorems) Panels of plot_rf are inside the figure and do not overlap.
* C101 (proved, `Props/Imaging`, 2 theorems) Axis limits of plot_rf show all traces.
* C102 (partial, `Props/ImagingProfile`, 2 theorems) The stack in plot_rf is aligned with its onset. False: the stack is drawn at the times of the last trace of the stream (C102_counterexample). C102_stack_partial proves when the stack is drawn, its data, and that the times are right if the last trace agrees with the stack in sampling, length and time between start and onset.
* C103 (partial, `Props/ImagingProfile`, 4 theorems) Options of plot_rf can be combined. False: show_traces=False with show_vlines=True uses an unbound name whenever the stream stacks to a single trace (C103_fails, C103_counterexample). C103_vlines_partial covers the other combinations.
* C104 (partial, `Props/ImagingProfile`, `PlotDetails`, 5 theorems) Axis limits of plot_profile show all traces. The horizontal limits are proved for all profiles. The vertical limits are those of the last trace only (C104_counterexample); C104_vertical_partial holds if all traces have the same times.
* C105 (partial, `Props/ImagingProfile`, 3 theorems) The histogram of plot_profile lines up with the boxes. False: left edges are given to bar, which centres the bars, so that each bar ends at the middle of its box (C105_shifted_partial for all profiles, C105_counterexample). Number, order, width and height of the bars are proved.
* C106 (partial, `Props/DepthTicks`, `ImagingProfile`, 5 theorems) Depth ticks of plot_profile are at the delay time of their depth. False: the tick labelled with a depth is at the delay time of the next depth of the model (delay times are cumulative sums up to the bottom of each layer, depths are the tops), and for Sp all ticks are at negative times. Proved: exact position and error for increasing depths, sign for Sp, relation to the table, minor and major ticks, range. Missing: nothing of the exact behaviour for increasing depths without evanescent rays; with repeated depths only the table statement.
* C107 (proved, `Props/ImagingHarmonics`, `PlotDetails`, 5 theorems) plot_harmonics draws each term next to its label.
* C108 (proved, `Props/ImagingProfile`, 3 theorems) Panels with header values in plot_rf match the traces.

**C109-C111** Model: BatchCommands: `print`, `plot`, `plot-profile`, `stack`, `moveout`, `profile` commands. Proof: induction over streams and channels; glob matching specification.

* C109 (partial, `Props/BatchCommands`, `BatchTight`, 3 theorems) The print command shows what its help offers. Counterexample proved: the object 'inventory' offered by the help text is taken as a file name; the keyword is 'stations'. The rest is proved.
* C110 (proved, `Props/BatchCommands`, 4 theorems) The plot commands draw every trace in exactly one figure.
* C111 (proved, `Props/BatchCommands`, 10 theorems) Batch commands treat every stream once.

**C112-C114** Model: Ppoints: `ppoint`, `RFStream.ppoints`, `direct_geodetic` over the model table. Proof: heap induction with error; exact state after a failure.

* C112 (partial, `Props/Ppoints`, 3 theorems) ppoints returns and stores the piercing point of every trace. False regarding the documented attributes plat and plon (pp_latitude and pp_longitude are written). Proved: everything else, including the default phase. The distance itself is wrong by one layer, see C37.
* C113 (partial, `Props/Ppoints`, 3 theorems) ppoints works for all traces or changes none. False: traces before the offending one have been changed. Proved: exact state after a failure; success with complete headers, depth inside the model and propagating rays.
* C114 (partial, `Props/Ppoints`, 2 theorems) Piercing points do not depend on the order of moveout and ppoints. False: moveout overwrites the slowness by the reference slowness which ppoints uses afterwards. Proved: the points after a correction are those of the reference slowness; equal to the original ones if the slowness of the trace is the reference slowness.

**C115-C118** Model: Ppoints, Simple: `load_model` with cache of models, sequences as lists or arrays, sessions of move out calls. Proof: invariants over sessions; negations.

* C115 (proved, `Props/Models`, `PlotDetails`, 3 theorems) load_model reads a model once.
* C116 (partial, `Props/Models`, 2 theorems) SimpleModel accepts lists and arrays. False for lists without n (list ** -2 raises TypeError). Proved: lists are as good as arrays with n; exact condition for the error.
* C117 (partial, `Props/Models`, 3 theorems) Repeating a move out correction changes nothing. False: slowness_before_moveout holds the reference slowness after the second correction, and samples at or after the last tabulated delay time change. Proved: samples before the last tabulated delay time are unchanged (P phases), the second correction succeeds.
* C118 (partial, `Props/Models`, 4 theorems) Move out correction of a stream is independent of what happened before. False: the reference delay times of a phase are computed once per session and model, with the reference of the first call. Proved: independence if all earlier corrections with the same model and phase used the same reference; independence of the other traces; success.

**C119-C122** Model: DataSource (batch.py 126-176): client, plugin and file sources; modules, clients and the reading of files are parameters, sys.path is state; C122 with EventIter. Proof: case analysis on the kind of source; selection of traces by filter and map lemmas and a wildcard relation (Spec.Wild); C122 by induction over the pairs of event and station.

* C119 (proved, `Props/BatchCommands`, `DataSource`, 7 theorems) The option data selects where waveforms come from.
* C120 (partial, `Props/DataSource`, 3 theorems) Without a data option no waveforms are used. A source that is given but unusable is reported; without the option data the example waveforms of ObsPy are used silently (C120_example, C120_counterexample).
* C121 (partial, `Props/DataSource`, 4 theorems) Loading a plugin leaves the module search path as it was. Restored if the module can be imported and leaves sys.path alone; after a failed import, or if the module appends to the path, '.' stays in sys.path (C121_failed, C121_foreign, C121_counterexample).
* C122 (partial, `Props/DataSource`, 3 theorems) The documented plugin works. A plugin without event works like its client; the documented one never delivers a stream since event is not passed: its KeyError becomes None, which ends the program with AttributeError (C122_nothing, C122_counterexample).

**C123-C124** Model: Cli (batch.py 367-447): sub parsers, flags, words, and the hand-over to run/run_commands (Batch). Proof: induction over flags and words; C124 by unfolding run_commands for an absent command.

* C123 (proved, `Props/Cli`, 6 theorems) The command line passes commands, paths and options on.
* C124 (partial, `Props/Cli`, 2 theorems) A command line without a command is rejected. Never writes anything; but rf without command ends silently, or with NotImplementedError if processed data are found, instead of a usage error (C124_counterexample).

**C125-C126** Model: Text (rfstream.py 110-150, 489-530): construction of streams from trace objects on a heap, read_rf, text of a trace; number formats are parameters. Proof: loop invariant over the list of traces (fresh references, old objects unchanged); text by case analysis on header entries, combined with rf (Stream).

* C125 (proved, `Props/Text`, 5 theorems) RFStream and read_rf make one RFTrace of every trace.
* C126 (proved, `Props/Text`, 5 theorems) The text of a trace shows its header.

**C127-C129** Model: Maps (imaging.py 190-286): axes as list of drawn elements, np.median by sorting, set order a parameter. Proof: permutation and dedup lemmas; median characterised by counting; composition of layers by unfolding.

* C127 (partial, `Props/Maps`, 5 theorems) plot_stations marks and labels every station once at its place. Holds for streams and for inventories without repeated stations; stations repeated in an inventory (several epochs) are marked and labelled repeatedly (C127_counterexample).
* C128 (partial, `Props/Maps`, 4 theorems) Maps are centred at what they show. The centre is the median of longitudes and latitudes, thus between the stations in both coordinates; for stations on both sides of the date line it is on the other side of the earth (C128_counterexample).
* C129 (proved, `Props/Maps`, 5 theorems) Maps show stations, points and boxes once in one axes.

**C130-C131** Model: Stream, Deconvolve (rfstream.py 216-355, deconvolve.py 23-161); rotation, filters and kernels are parameters that act on one record at a time (GroupLocal, NoiseLocal, KeepsRecord). Proof: simulation relation between the run on the stream and the run on a part of it, carried through every stage; records of the part are the groups of the stream that it selects; C131 joins two runs.

* C130 (partial, `Props/IndependentRf`, 3 theorems) rf() treats the records of a stream independently. Data and header agree except for phase and processing (C130_records_partial); with a single phase also the phases (C130_one_phase). False for the phase in general: a PP record alone keeps PP, together with a P record it becomes P (C130_counterexample).
* C131 (proved, `Props/Join`, 1 theorems) rf() succeeds for a stream exactly if it succeeds for its records.

**C132** Model: StreamDeconvolve (rfstream.py 252-261), Deconvolve, Stream; the custom function is a parameter on the heap of traces. Proof: unfolding of deconvolve for the custom function; coverage lemma over the groups for functions that work in place; witness with a function that returns new traces.

* C132 (partial, `Props/CustomFunc`, 4 theorems) The results of a custom deconvolution function end up in the stream. stream.deconvolve proved in full (C132_stream). rf: only for functions that work in place (C132_rf_partial); rf drops the traces a function returns, so with a function that returns new traces the stream keeps data that were not deconvolved, labelled rf (C132_counterexample).

**C133-C134** Model: SingleArray (deconvolve.py 164-245, 293-382, 433-521): argument forms of the three functions and the info dictionary, on top of DeconvTime, DeconvFreq, DeconvIter. Proof: length of results of the list form; deletion of the loop variable explicit (nameError); recovery of rf0 from the normalized result; two witnesses.

* C133 (partial, `Props/SingleArray`, 4 theorems) A single array is treated like a list of one array. proved for deconv_time and for deconv_waterlevel with normalization; false for deconv_waterlevel with normalize=None (the variable rf is unbound when a single array is returned) and for deconv_iterative, which rejects a single array
* C134 (partial, `Props/SingleArray`, 4 theorems) The info returned by the water level deconvolution belongs to the result. results and the case normalize='src' proved; false for an index (info['norm'] is 1, the factor of the result is another one) and for normalize=None (unbound variables)

**C135** Model: DeconvFreq (deconvolve.py 170-245, 385-430). Proof: convolution theorem for the discrete transform; above the water level the denominator is the power of the source, hence the quotient is the spectrum of the series; shift theorem for tshift.

* C135 (proved, `Props/Recover`, 3 theorems) The water level deconvolution undoes a convolution.

**C136** Model: DeconvIter (deconvolve.py 433-521). Proof: Cauchy-Schwarz for the correlation: the maximum is attained exactly where source and response agree up to a factor; residual zero after one step, second step finds no decrease; stop criterion.

* C136 (proved, `Props/OneSpike`, 3 theorems) The iterative deconvolution finds a single conversion.

**C137** Model: `RFStream.rf` and `deconvolve` on heaps (Model/Stream, Model/Deconvolve); the four kernels as called by `deconvolve` (Model/Kernels on top of DeconvTime, DeconvFreq, DeconvIter, DeconvMt). Filter, trimming, downsampling, rotation, taper and noise window of ObsPy are parameters that commute with a factor.. Proof: Simulation: each stage maps scaled heaps to scaled heaps; groups of `iter3c` are those of the unscaled stream; the deconvolution of a group removes the factor (`deconvolve_gain`, induction over disjoint groups). The kernels are shown to satisfy the assumption (`C137_kernels`): the Toeplitz system is normalised, the water level and the noise power scale with the square of the factor, the loop of the iterative method is in lock step. `C137_not_normalized` shows that the exclusion is needed..

* C137 (proved, `Props/GainKernels`, `GainRf`, 4 theorems) The gain of the instruments does not matter for receiver functions. ObsPy's filter, cut, downsampling, rotation and taper enter as parameters that commute with a factor; without normalisation the time domain result scales (C137_not_normalized)

**C138** Model: `RFStream.rf`, `deconvolve`, `RFStream.moveout`, `RFStream.stack` on heaps (Model/Stream, Model/Deconvolve, Model/SimpleMoveout). The ObsPy calls are parameters that commute with a move of all times; the text of times in log messages is not part of the result.. Proof: Simulation as for C137 with the map `later`; the groups of `iter3c` are formed by comparing times, so that the tables agree (`iterSubstreams_same`).

* C138 (proved, `Props/LaterRf`, 3 theorems) Receiver functions do not depend on the absolute time.

**C139** Model: `SimpleModel.moveout`, `RFStream.moveout` (Model/Simple*, Model/Stream), np.interp as list function. Proof: np.interp is linear in its values for fixed knots; the knots come from the header and the model only; lifted to streams by induction over the traces.

* C139 (proved, `Props/MoveoutLinear`, 2 theorems) The move out correction is linear in the data.

**C140** Model: `RFStream.write` (Model/Headers), `rf`, `stack`, `profile`, `harmonics`; the two models of traces are linked by the header entries type and event_time (`Holds`). Proof: composition of the header theorems (C44, C50, C76, `stack_header`) with C91; for harmonics the type is not in the table, KeyError for every stream (`C140_harmonics_fails`).

* C140 (partial, `Props/WriteResults`, 5 theorems) Results of every processing step can be written to an H5 file. False for harmonics: C140_harmonics_fails / C140_counterexample (type 'harmonic' is not in _H5INDEX, KeyError for every result). Proved for rf, profile and stack (C140_rf_partial, C140_profile_partial, C140_stack_partial).

**C141** Model: `RFStream.stack` (rfstream.py 403-430). Proof: exact form of a stacked trace (`stackOne_form`); the mean of one trace is the trace; permutation by the ids, which are distinct.

* C141 (proved, `Props/StackTwice`, 1 theorems) Stacking a stack changes nothing.

**C142** Model: `deconv_time`, `_xcorrt`, `_acorrt` (Model/DeconvTime); solver: parameter which solves exactly. Proof: the cross correlation with a convolved response is the autocorrelation matrix applied to the series (`C142_equation`); the matrix is positive definite, so the solution is unique; the bound is the standard one for Tikhonov regularisation, by Cauchy-Schwarz.

* C142 (proved, `Props/RecoverTime`, 3 theorems) The time domain deconvolution undoes a convolution.

**C143** Model: `deconvolve` with the kernels of the package (Model/Deconvolve, Model/Kernels). Proof: `C86_kernel_call` gives window and shift of the kernel call; then C135 (linear copies that fit are a circular convolution) and C142.

* C143 (proved, `Props/DeconvolveRecover`, 2 theorems) A conversion appears in the receiver function at its time after the onset.

**C144** Model: `RFStream.rf` with `deconvolve` and the kernels of the package (Model/Stream, Model/Deconvolve, Model/Kernels); filter, trim, decimate and rotation of ObsPy: parameters, the rotation does not depend on the order of its traces. Proof: each stage is shown to give the same heap for a permuted stream (`StepPerm`), the loop over records by the permutation lemma for the groups (C03) and the frame of `deconvolve` (C07); `C144_kernels` shows that the four kernels give each response its result in any order.

* C144 (partial, `Props/OrderKernels`, `OrderRf`, 3 theorems) The order of the traces in the stream does not matter for rf. False if the source component is not among response_components and no normalisation is given (the first response of the stream is then used), or if normalize is the number of a response: C144_counterexample. Proved for all other calls (C144_order_partial, C144_kernels for the four kernels of the package).

**C145-C146** Model: `RFStream.rf` with `deconvolve` (Model/Stream, Model/Deconvolve); for C146 the kernels of the package (Model/Kernels); filter, trim, decimate, rotation of ObsPy: parameters. Proof: C145: the loop over the groups of `iter3c` equals one call per group because `deconvolve` is local (C07) and the groups are disjoint (C03); the groups are shown to be exactly the records of two or three traces. C146: composition with C143 and the mirror lemma of C42; the example runs the whole chain on a real-valued record with an S conversion.

* C145 (proved, `Props/RecordRf`, 1 theorems) Every receiver function in a stream is the deconvolution of its own record.
* C146 (proved, `Props/RecoverRf`, 2 theorems) Conversions appear in the output of rf at their time after the onset, mirrored for S.

**C147-C148** Model: `RFStream.rf` with all error branches (Model/Stream, Model/Deconvolve). Proof: both directions from the stages of `rf`; a loop over disjoint groups succeeds iff its body succeeds for each group alone; on failure the list of groups is split at the failing one (C148).

* C147 (proved, `Props/ReturnsRf`, 2 theorems) rf returns if and only if each record can be processed.
* C148 (proved, `Props/FailRf`, 1 theorems) A failing call of rf leaves the other records complete.

**C149-C150** Model: `profile` (Model/Profile); containment in a box: parameter. Proof: from the description of each output trace as mean over the traces of its bin (C50); the traces of a bin of the whole are those of the parts one after the other; a mean of a concatenation is the weighted mean, a mean is linear.

* C149 (proved, `Props/ProfileParts`, 3 theorems) The profile of a stream follows from the profiles of its parts.
* C150 (proved, `Props/ProfileParts`, 1 theorems) A profile is linear in the samples.

**C151-C152** Model: `harmonics` (Model/Harmonics); `numpy.linalg.lstsq`: parameter which returns the least squares solution of minimum norm. Proof: superposition: the least squares solution of minimum norm is linear in the right hand side (orthogonality of the residual, `lstsq_linear`); angles: the matrix contains sine and cosine of the differences only; order: sorting by distinct times gives one list, for equal times the least squares problem is permuted (`minNorm_perm`).

* C151 (proved, `Props/HarmonicsLinear`, 2 theorems) Harmonics obey superposition.
* C152 (proved, `Props/HarmonicsLinear`, 3 theorems) Harmonics depend on the back azimuths relative to azim only, and not on the order of the traces.

**C153** Model: `iter_event_data`, `iter_event_metadata` as generators with their items and final state (Model/EventIter). Proof: induction over the loop over events and stations; skipped streams are gaps in the list of metadata.

* C153 (proved, `Props/EventMetadata`, 3 theorems) The metadata contain an entry for every stream of iter_event_data, in the same order.

**C154** Model: `RFStream.write`, `RFTrace.__init__` and the header functions (Model/Headers); the files: predicates `StoredQ`, `StoredSac` saying which parts of a trace they keep; SAC and JSON conversions of ObsPy and Python: parameters. Proof: the heap handed to the writer is taken from the loop of `write`; then the header round trips C56, C57 for each trace and the restoring of codes (C59).

* C154 (proved, `Props/StreamRoundtrip`, 2 theorems) A stream written to SAC or Q files is read back with its headers and codes.

**C155-C156** Model: `calculate_vertical_slowness`, `calculate_delay_times`, `ppoint_distance` (Model/Simple) over the reals. Proof: derivative of each summand of the closed forms of C34 and C37 (`Real.hasDerivAt_sqrt`); monotonicity from the difference of the vertical slownesses of two velocities.

* C155 (proved, `Props/DelaySlowness`, 1 theorems) Delay times and piercing points of the layer model belong together.
* C156 (proved, `Props/DelaySlowness`, 1 theorems) Delay times of Ps grow with slowness, those of Sp and of P multiples fall.

**C157-C158** Model: `SimpleModel.moveout`, `RFStream.moveout`, `RFStream.stack` (Model/Simple, Model/Stream). Proof: `np.interp` on the table of delay times followed by `np.interp` on the samples, both evaluated at a knot; the value is a convex combination of two samples; a mean of values in an interval is in the interval.

* C157 (proved, `Props/CoherentStack`, 1 theorems) A conversion between two samples keeps its amplitude in the move out correction.
* C158 (proved, `Props/CoherentStack`, 3 theorems) After move out correction conversions from one depth stack coherently.

**C159** Model: `deconv_iterative` (Model/DeconvIter), spectra over the complex numbers. Proof: Parseval for the DFT of the model; the largest correlation is at least the energy of the remaining spike train times the smallest spectral value, so that each pass of the loop reduces the energy by a fixed factor; induction over the passes (`Reach`); the distance of the spike trains is bounded by the remaining energy.

* C159 (proved, `Props/IterConverge`, 3 theorems) Iterative deconvolution converges to the spike train that explains the response. exact arithmetic; next_fast_len: parameter

**C160-C161** Model: arrays as objects: buffers with an element type, views (offset, length, direction), trace objects which point to views (Model/Buffers); `moveout` assigns in place through the view, `RFTrace(trace=tr)` and `slice2` share the array. Proof: the correction step of Model/Simple changes the samples of a range only and `write` changes the cells of this range only; views without common cells do not see the assignment; witnesses: a slice and a wrapped stream whose original changes, an integer array in which a conversion vanishes.

* C160 (partial, `Props/BatchTight`, `Buffers`, 5 theorems) The move out correction changes the samples of the traces in the stream only. False as stated: RFStream(stream) and slice2 share arrays with the original, and moveout of the new stream changes the samples of the original (C160_counterexample). Proved: with arrays of floats and without shared cells the result is that of the value model (C160_values), and every trace which shares no cell with the stream keeps its samples (C160_others_partial).
* C161 (partial, `Props/Buffers`, 3 theorems) The move out correction gives the interpolated samples whatever the element type of the arrays. False as stated: in integer arrays the assigned samples are cut towards zero and a conversion can vanish (C161_counterexample). Proved: the assigned samples are the converted corrected samples (C161_step_partial), exact for floats and with error below 1 for integers (C161_cast).

**C162** Model: binary64 rounding of rational numbers (Py/Double: nearest, ties to even, unbounded exponent), index of the onset and mute limit in doubles (Model/DoubleIndex). Proof: relative error 2^-53 of each rounding, so that the floor differs by at most one and not at all away from integers; exact if the time difference is a double; witness 0.29 s at 100 Hz.

* C162 (partial, `Props/DoubleIndex`, 4 theorems) The sample index of the onset is right in double precision. False as stated: onset at 0.29 s with 100 Hz gives index 28 and changes the sample before the onset (C162_counterexample). Proved: the index differs by at most one, is exact away from integers and for dyadic time differences, samples at least two before the onset stay untouched.

**C163-C164** Model: `rf`, `deconvolve`, `stack` (Model/Stream, Model/Deconvolve); a kernel which divides by zero returns arrays instead of raising (Model/NanData); `K` has no NaN, so these arrays hold arbitrary numbers, and what is proved for all of them does not depend on them. Proof: `deconvolve` with and without exception agree unless the kernel divides by zero; C145, C147 and C130 for the environment without exception; the stack is a mean over all traces of the id, which changes in every sample with the number that stands for NaN.

* C163 (proved, `Props/NanData`, 5 theorems) A record whose deconvolution divides by zero does not change the other receiver functions. Waterlevel, iterative and multitaper methods; the time domain method hands NaN to the Toeplitz solver, whose behaviour is not known.
* C164 (partial, `Props/NanData`, 3 theorems) A stack is determined by its traces with finite samples. False as stated: every sample of the stack of an id is undetermined if the samples of one of its traces are (C164_poisoned, C164_counterexample). Proved: stacks of ids without such a trace do not change.

**C165** Model: `rf`, `moveout`, `stack` (Model/Stream, Model/Deconvolve, Model/Simple) in sequence, kernels of Model/Kernels; records as superpositions of delayed copies of the cut source (Spec/Pipeline). Proof: the stages of `rf` give each record its own deconvolution (C145) with the copies as output (C146), header and length of the receiver functions follow from C44 and C147; C157 moves the two neighbours of the delay time into the reference sample, the stack is their mean (C47); example heap with all hypotheses.

* C165 (proved, `Props/Pipeline`, 2 theorems) Records to stack: a conversion gets its amplitude at the right time of the stack.

**C166** Model: `get_profile_boxes`, `_get_box`, `_find_box` (Model/Profile) with the direct geodesic problem on a sphere (Spec/Sphere); the point in polygon test is a parameter that rejects points north of all four corners, or the plane test. Proof: the solution of the direct problem is checked against unit vectors on the great circle; latitudes of displaced corners by spherical trigonometry: off the equator both corners lie south of the line, on the equator corners at the same azimuth are displaced in longitude by arctan(tan(d) / cos(w)).

* C166 (partial, `Props/SphereBoxes`, 5 theorems) A piercing point on the line of a profile belongs to the bin of its distance. False as stated: _get_box uses the azimuth of the profile at its start for all four corners also where the meridians have turned (C166_counterexample: from 45 degrees north with the default width of 2000 km a point on the line is in no box; C166_meridian in general). Proved for profiles along the equator, with the box found being that of the bin or one before it (C166_equator_partial); the boxes overlap (C166_overlap, C166_wrong_box).

**C167** Model: `rf`, piercing points in the headers, `moveout`, `profile` (Model/Stream, Model/Simple, Model/Profile). Proof: as C165 with the mean over the traces of a bin (C50); the move out correction keeps the headers with the piercing point (C40).

* C167 (proved, `Props/Pipeline`, 2 theorems) Records to profile: a conversion gets its amplitude in the bin of its piercing points.

**C168-C169** Model: `harmonics`, `decomp_one`, `decomp_two` (Model/Harmonics) with the least squares solver as a parameter that returns a minimiser; coverage of back azimuths and the Fourier sums in Spec/Coverage; `stack` (Model/Stream). Proof: roots of unity: sums of sines and cosines of multiples 1 to 4 vanish for five or more even directions, hence the normal equations are diagonal; the two-component problem splits by an orthogonal change of the ten unknowns into two one-component problems; uniqueness from five directions (C56).

* C168 (partial, `Props/HarmonicsEven`, 4 theorems) With evenly distributed back azimuths the constant harmonic terms are the stacks of the components. false for two components: the constants are the stacks divided by the scalars (3 and 0.3 by default), shown by a counterexample; true for one component and, up to the scalars, for two
* C169 (proved, `Props/HarmonicsEven`, 2 theorems) The two-component decomposition is a combination of the two one-component decompositions.

**C170** Model: `stack`, `moveout` (Model/Stream, Model/Simple). Proof: `stackOne` writes no slowness, so `moveoutStep` fails on the first stacked trace; with the slowness assigned the correction is a linear function of the samples that depends on slowness, rate and onset only (C139).

* C170 (partial, `Props/StackMoveout`, 4 theorems) Move out correction and stack commute for traces of one slowness. false: stack drops the slowness, so moveout of a stack always fails; proved if the common slowness is assigned to the stacked traces

**C171** Model: `profile` (Model/Profile), `stack` (Model/Stream). Proof: both results are sums over the traces of a component (C47, C50), regrouped by id.

* C171 (proved, `Props/ProfileStack`, 2 theorems) A profile with one bin for all traces is the stack weighted by the numbers of traces.

**C172** Model: the four deconvolutions (Model/DeconvTime, DeconvFreq, DeconvIter, DeconvMt). Proof: the solution of the normal equations is unique, the spectral quotients have the response in the numerator only; the iterative method picks the lag of the largest correlation, which is not linear: explicit counterexample with one pass.

* C172 (partial, `Props/Superposition`, 4 theorems) Deconvolution of a superposition is the superposition of the deconvolutions. false for the iterative method (counterexample); proved for time, waterlevel and multitaper

**C173** Model: `profile` (Model/Profile), `moveout` (Model/Stream, Model/Simple). Proof: the profile trace carries the slowness of the first trace of its bin (C90), the correction is linear in the samples for one slowness (C139), so it passes through the mean of the bin (C50); two traces of different slowness give the counterexample.

* C173 (partial, `Props/ProfileMoveout`, 3 theorems) Move out correction and profile commute. false for traces of different slownesses (counterexample); proved for bins with one slowness; C173_first says what the code does

**C174** Model: `rf`, `deconvolve` (Model/Stream, Model/Deconvolve) with `deconv_iterative` (Model/DeconvIter) as kernel; delays and pulses in Spec/PulseTrain. Proof: what `rf` does to one record (C145), the call of the kernel (C86), and the results for one spike (C136) and for spike trains (C159) carried to times after the onset.

* C174 (proved, `Props/IterRf`, 2 theorems) Receiver functions of the iterative method show conversions at their times after the onset. for source windows given by numbers, responses on all components

**C175** Model: `stretch_delay_times`, `moveout` (Model/Simple); evanescent layers and the cut model in Spec/Evanescent. Proof: cumulated sums of a prefix are a prefix of the cumulated sums; the first NaN is the first layer in which one of the waves does not exist; with the cut model the results for models that are reached completely (C36, C118) apply.

* C175 (proved, `Props/Evanescent`, 3 theorems) Layers that a ray does not reach are ignored by the move out correction. the code drops the last valid layer above the cut as well; the theorems state this

**C176** Model: text and parser of the model file (Model/Iasp91, Model/LoadTxt), `load_model` (Model/Ppoints), `SimpleModel.__init__` (Model/Simple). Proof: the kernel evaluates parser and interpolation on the text of the file over the rationals (a closed computation, the file is one constant); the result is carried to any ordered field because interpolation and rounding commute with the embedding of the rationals.

* C176 (proved, `Props/Iasp91`, 1 theorems) The velocity model of the package is loaded and is consistent.

**C177** Model: `moveout` (Model/Stream, Model/Simple) with `load_model` (Model/Ppoints) and the file of the package. Proof: C175 with the facts of C176: the reference propagates everywhere, slownesses up to 10 s/deg reach the layer below 760 km, delays grow with depth because no two consecutive layers are empty, and the first mirrored entries span more than 2 s.

* C177 (proved, `Props/Iasp91Moveout`, 2 theorems) Default move out correction works for usual slownesses.

**C178** Model: `ppoint_distance` (Model/Simple) with the file of the package. Proof: C37 gives the value one layer too deep; with the facts of C176 the error is non-negative and at most the distance travelled in the thickest layer; at the surface the error is the distance travelled in 2 km (counterexample).

* C178 (partial, `Props/Iasp91Ppoint`, 2 theorems) Piercing points with the model of the package are at the distance travelled down to the given depth. false as stated: the result belongs to one layer below (C37), e.g. the piercing point at depth 0 is the one of 2 km; proved are the sign and a bound of the error

**C179** Model: option `length` of `deconv_time`, `deconv_waterlevel` (Model/Deconv, Model/Kernels) in `deconvolve` (Model/Stream). Proof: the cross correlation and its centred cut are computed sample by sample; water level: exact amplitudes in the first L samples; time domain: the cut is centred, hence shifted by about (N-L)/2 samples while the headers stay (counterexample).

* C179 (partial, `Props/LengthOption`, 4 theorems) Receiver functions with a given number of samples start where their headers say. False for the time domain method: the header is not moved with the cut, which is centred (counterexample); proved for the water level method and, with the exact shift, for the time domain method.

**C180** Model: `json.dumps`/`json.loads` with escapes, surrogate pairs, numbers, lists and objects (Model/Json) as used by the Q headers. Proof: mutual structural induction: parsing what was printed, followed by any rest, gives the value and the rest; strings by induction over characters with hex digits and surrogates computed; numbers under the hypothesis that their text reads back, met by exact decimal texts; discharges the hypothesis on JSON of C57, C58 and C154.

* C180 (proved, `Props/JsonGrammar`, `JsonProps`, `PlotDetails`, 9 theorems) Headers written as text come back from the text. Texts of numbers are a parameter; the hypothesis that they read back is proved for exact decimal texts.

**C181-C182** Model: the text of the template `rf/example/conf.json`, `ConfigJSONDecoder` (comment removal), JSON parser (Model/Json, Model/ConfTemplate), `run`, `run_commands` (Model/Batch). Proof: the kernel evaluates comment removal and parser on the text (one constant); the statements about commands, command line and files are proved for all of them by unfolding `run` and by induction over the options. C182: the set of switched off lines is determined by evaluation; 5 of the 14 lines give a valid configuration when switched on alone, the others miss a comma before them or leave one after them, and the program stops with a message (counterexample: deconvolve).

* C181 (proved, `Props/BatchTight`, `ConfTemplateProps`, `JsonGrammar`, 7 theorems) The configuration written by create is accepted by all commands. The decoder of the configuration is modelled with numbers as exact decimals.
* C182 (partial, `Props/ConfTemplateProps`, `KeywordProps`, 5 theorems) Each option which is commented out in the template can be switched on by removing its comment sign. False: e.g. the line of deconvolve (counterexample); which lines can be switched on is determined exactly.

**C183** Model: keywords accepted by the functions of the methods (Model/Keywords), `deconvolve`, `rf` (Model/Stream). Proof: case distinction over the exits of `deconvolve`; only `onset` entries are changed before the call which fails; for `rf` the first complete record raises; without complete record, or without deconvolution, nothing is reported (counterexample).

* C183 (partial, `Props/KeywordProps`, 8 theorems) Misspelled or unsuitable keywords of rf and deconvolve are reported. False without complete records or with deconvolve=None (counterexample); proved for deconvolve and for rf with at least one complete record.

**C184** Model: `trim2` (Model/Stream) with ObsPy's `trim` as a parameter that drops samples on both sides, depending on the number of samples, rate and times relative to the start only (Spec/Trim; met by cutting at the nearest samples), `moveout` (Model/Simple, Model/Stream). Proof: the interpolation of a shortened trace is compared sample by sample: the time map F is the same increasing piecewise linear map in both orders, the shortened trace only lacks samples above its last time; hence equality before F(last time), zeros after it if the window is cut out first. Equality everywhere if nothing is cut at the end or if reference delays are not earlier (for Ps: slownesses up to the reference slowness, by monotony of the delay in the slowness). Counterexample: window of 9 s, conversion at 11 s, reference delay 7 s.

* C184 (partial, `Props/TrimMoveout`, 4 theorems) Cutting out a window and correcting for move out can be exchanged. False as stated: what is moved to earlier times into the window comes from outside of it, so that cutting first gives zeros (C184_counterexample). Proved: exact comparison of both orders (C184_samples_partial); equality if nothing is cut off at the end or the reference delays are not earlier (C184_commutes_partial), for Ps whenever the slownesses do not exceed the reference slowness (C184_ps_partial).

**C185** Model: `trim2`, `stack` (Model/Stream), cutting as in C184. Proof: the same samples are cut out of all traces with the onset at the same sample; drop and take commute with the mean; start times differ by the length cut off, the onset relative to the start is the same. Empty windows: IndexError of `stack` against an empty stream. Counterexample with the onset at different samples.

* C185 (partial, `Props/TrimStack`, 3 theorems) A window of the stack is the stack of the windows. False as stated: stack adds sample by sample, whatever the onsets (C185_counterexample). Proved if the onset is at the same sample of all traces (C185_commutes_partial); an empty window makes stack raise IndexError (C185_empty_partial).

**C186** Model: `trim2` (Model/Stream), `profile` (Model/Profile), cutting as in C184. Proof: as C185 with the characterisation of profiles by bins (C50) and their headers (C90). Counterexample with the onset at different samples.

* C186 (partial, `Props/TrimProfile`, 2 theorems) A window of the profile is the profile of the windows. False as stated: profile adds sample by sample, whatever the onsets (C186_counterexample). Proved if the onset is at the same sample of all traces (C186_commutes_partial).

**C187** Model: `trim2` (Model/Stream), `harmonics` (Model/Harmonics), cutting as in C184. Proof: the harmonics of both methods are the least squares solution sample by sample (C71-C74), so that cutting commutes with it; header entries are those of the first trace (C76). Counterexample: first trace of another component with the onset at another sample.

* C187 (partial, `Props/TrimHarmonics`, 3 theorems) A window of the harmonics is the harmonics of the windows. False in general (C187_counterexample): samples with the same index are combined whatever the onsets are and the header is that of the first trace. Proved for streams with the onset at the same sample of all traces, one and two components, both methods, identical headers (C187_one_component_partial, C187_two_components_partial).

**C188** Model: `RFTrace.__init__`, `_read_format_specific_header` (Model/Headers; ObsPy's SAC reference time, the test for undefined values and `json.loads` are parameters). Proof: each step of the loop is an overwriting of entries which does not depend on the entries (induction over the table): the composition overwrites the entries defined by the format specific header and keeps all others; overwriting twice is overwriting once, and the codes of Q files are split once. Counterexamples: onset set by hand and field `a`; undefined field `a`.

* C188 (partial, `Props/HeaderOverride`, 5 theorems) Making receiver function objects of traces keeps the header entries set before. False in general (C188_counterexample): an onset set by hand is replaced by the field a of the SAC header, and with an undefined field (-12345) the entry set before is a TypeError (C188_counterexample_null). Proved: exactly the entries defined by the format specific header are replaced, all others are kept, success does not depend on the entries (C188_file_headers_partial), and doing it again changes nothing (C188_again_partial), if the time fields are absent or defined.

**C189** Model: `iter_event_processed_data`, `_iter_profile`, `write` (Model/BatchFiles); file name patterns are a separate spec (Spec/Glob: `?`, `*`, sets in brackets, per path component as in `glob`). Proof: names and patterns begin with the directory; a text without opening bracket describes itself (induction, each wildcard matches itself), the rest is C98. Counterexamples: the directory `rf[1]` for all formats, codes and times; files of the directory `rf1` are read instead.

* C189 (partial, `Props/RootNames`, 7 theorems) Files written by the batch program are found again whatever the name of the output directory. false: obspy's read expands patterns, so that files in a directory rf[1] are not found (the exceptions are swallowed) or those of rf1 are read; proved for all names without an opening bracket, also with * and ?

**C190** Model: `deconvolve` lines 145-153 (Model/Noise: `preEventNoise` with `trim2` of Model/Stream), the kernel `deconv_multitaper` (Model/Multitaper). Proof: the selection after `trim2` is that of the responses (channel codes are kept), hence noise and responses are lists of the same traces when nothing is empty; empty windows are dropped by `trim2` and then the kernel fails (`deconvMt_shape`). An onset less than 5 s after the start: ValueError of `trim`, whatever the kernels (counterexample with the onset at 4 s). The noise window is local, does not depend on the order of the traces, is multiplied with the gain and does not depend on absolute time: this discharges the hypotheses on the noise of C130, C137, C144. `C190_works_partial`: sufficient lengths for success.

* C190 (partial, `Props/Noise`, `NoiseKernel`, `NoiseUse`, 11 theorems) The multitaper method takes the noise from the record before the onset. the windows are as stated (C190_noise, C190_own); it does not always work: an onset less than 5 s after the start of the record raises ValueError (C190_early, C190_counterexample); C190_works_partial gives lengths for which only NaN can occur. ObsPy's trim is a parameter

**C191** Model: `deconv_multitaper` lines 571-649: taper length, overlap factor, number and starts of the windows in double precision (Model/DoubleWindows with `fl64` of Py/Double); compared with the exact model (Model/Multitaper). Proof: every operation is exact or its rounding does not pass a whole number for overlaps which are multiples of a power of two (`C191_dyadic_partial`), hence for the default 0.75; otherwise the start differs by at most one sample (`C191_near_partial`, bound on the accumulated relative error). Counterexamples: overlaps 0.9 and 0.8.

* C191 (partial, `Props/DoubleWindows`, 5 theorems) The windows of the multitaper method are where the overlap says, in double precision. false: with overlap 0.9 and tapers of 100 samples the second window starts at sample 9 instead of 10 (C191_counterexample); exact for dyadic overlaps such as the default 0.75, within one sample for overlaps up to 1-2^-10

**C192** Model: `deconvolve` lines 146, 150-157 with the keyword `noise` (Model/Noise: `givenNoise`, `withGivenNoise`); the noise stream shares no traces with the record. Proof: `C192_position`: the kernel gets the data of the response components of the noise stream in its order; the same order of channels gives a matching function (induction over the list of responses). Counterexample: a noise stream with the order T, Q, L. `C192_enough`: fewer noise traces than responses cannot succeed.

* C192 (partial, `Props/NoiseGiven`, 4 theorems) Noise given to the multitaper method is used for the component it was recorded on. false: noise and responses are put together by position in the two streams (C192_position, C192_counterexample); holds if both streams have the components in the same order (C192_own_partial)

**C193** Model: the models of `rf`, `moveout`, `ppoints`, `stack`, `profile`, `harmonics` (Model/Stream, Simple, Ppoints, Profile, Harmonics); relation `SameKept ks` between traces in Spec/KeptHeaders: equal codes, times, samples and entries with keys in `ks`. Proof: relational simulation: every stage maps related states to related states and raises the same exception. `indexOf?` compares whole headers, but the source is the only trace of the record with its channel (`select_unique`), so that the comparison is by identity. The list of processing steps is outside of `ks` (`addInfo_kept`). ObsPy's functions and the user function have to respect the relation (hypothesis `KeptEnv`). `C193_saved`: the required keys are among `_HEADERS`.

* C193 (proved, `Props/KeptHeaders`, `KeptHeadersMore`, 8 theorems) Only the header entries kept in files have an influence on the results.

**C194** Model: `plot_rf`, `plot_profile` (Model/Imaging). Proof: congruence of all parts of the figures (`C194_rf`, `C194_profile_partial` for profiles without histogram, `C194_hist_partial` if `num` agrees). Counterexample: `top='hist'` needs `num`, which is not written to SAC and SH files (AttributeError).

* C194 (partial, `Props/KeptPlot`, 4 theorems) The figures of a stream read back from files are those of the stream in memory. False for plot_profile with top='hist': the number of traces (num) is not among the headers written to SAC and SH files, so that the histogram of a profile read back raises AttributeError. Proved for plot_rf, for profiles without histogram, and for the histogram if num agrees.

**C195** Model: `iter_event_processed_data`, `write` and the loop of `run_commands` on files that are read while the loop runs (Model/BatchLazy: `lazyLoop`, `runData`, `runFiles`, `qFiles`); file names by `fmtPattern` as in C96. Proof: induction over the list of pairs: the loop in closed form (`lazyLoop_spec`), file names are injective (`pairFile_inj`), steps respect the relation of C193 (`C195_steps`). `C195_loop`: without feedback the loop is that of Model/Batch. `C195_leftover`, `C195_twice`: the two conditions of the statement are needed.

* C195 (proved, `Props/BatchChain`, `KeptCodes`, 8 theorems) Commands given in one call of the program leave the files of separate calls. for formats with one file per stream (Q). The commands must not leave an empty stream (C195_records; true without trimming, C196_untrimmed); counterexamples show that files left over from earlier calls and two instruments at one location have to be excluded

**C196** Model: `rf`, `moveout` with all their stages (Model/Stream, Deconvolve, Simple); relation `SameSource` between traces before and after. Proof: one invariance lemma for an arbitrary attribute of a trace (`rf_attr`, `streamMoveout_attr`), by stages, with exceptions and aliasing; ObsPy's functions have to keep the attribute (hypothesis `KeepsSource`). `C195_records` uses it to discharge the hypothesis of C195.

* C196 (proved, `Props/KeptCodes`, 5 theorems) Receiver functions and move out correction keep the event, station and ray of each trace. custom deconvolution functions (method func) may change anything and are excluded

**C197** Model: `__find_nearest`, snapping of the onset and shift of the time domain method in double precision (Model/DoubleSnap with `fl64` of Py/Double; ObsPy's `times`, `delta` and `UTCDateTime.__add__` as documented there). Proof: relative error 2^-53 of each rounding; a sample axis with errors below one half sample is ordered and has one nearest sample (`findNearest_near`); rounding a number next to a whole number gives the whole number (`roundEven_near`).

* C197 (proved, `Props/DoubleSnap`, 3 theorems) The onset of deconvolved records is exactly on a sample in double precision. records up to 2^40 samples, 13 days; the exponent range of doubles is not modelled

**C198** Model: `Model/BatchLazy.lean` (`writeEach`, `writeSacFiles`, `Files.put`) with the file names and patterns of `Model/BatchFiles.lean`.. Proof: Induction over the stream for the content of the folder; with the injectivity of file names (C81) and the meaning of the pattern of a pair (C98) the traces which are read are the written ones and the older ones of other channels (`C198_read_partial`, `C198_exact_partial`); `C198_counterexample` is the calculation in place after a rotation; `C198_q` for Q files..

* C198 (partial, `Props/BatchInPlace`, 5 theorems) Results written into the folder of the data replace the data of the pair. false for SAC files with older channels (counterexample); exact description of what is read

**C199** Model: `Model/SacTimes.lean` (`toSac`, `fromSac`, `sacTime`) with single precision numbers of `Py/Single.lean` and `Model/DoubleSnap.lean`.. Proof: Sum of the relative errors of the roundings (`C199_time`), which is below 3/10 of a sample (`C199_sample`), so that the nearest sample and the onset set by deconvolve are those of C197 (`C199_deconvolve`); numbers of 24 bits are exact (`C199_exact`)..

* C199 (proved, `Props/SacTimes`, 4 theorems) Onsets stored in SAC files belong to the same sample after reading. the start time and the reference time in the file are those of the record (ObsPy); exponent range of single precision not modelled

**C200** Model: `streamMoveout`, `stack` of `Model/Stream.lean`, `Simple.moveout` of `Model/Simple.lean`, `profile` of `Model/Profile.lean`, single precision of `Py/Single.lean`.. Proof: The difference of the results is the result for the difference (C139), which has no larger amplitude (C35 for all traces of a stream, `streamMoveout_bound`): `C200_moveout`; means differ by at most the largest deviation (`C200_stack`, `C200_profile`); `C200_sac` combines them with the rounding of the samples..

* C200 (proved, `Props/Stable`, 4 theorems) Small deviations of the samples stay small in move out correction, stack and profile. NaN delay times: the external result is assumed to be linear and bounded

**C201** Model: `deconvWaterlevel` of `Model/DeconvFreq.lean` with `fft`, `ifft` of `Py/Dft.lean` over the complex numbers.. Proof: Parseval's identity for the transforms (`parseval_W`, from the orthogonality `sum_W` of the characters) turns the bound C15 of each spectral value into `C201_energy`; a frequency whose power is at least the energy of the source exists (`exists_power`). `C201_noise` uses linearity (C19), `C201_sample` bounds single samples and their real parts. Equality for a spike and waterlevel 1..

* C201 (proved, `Props/WaterEnergy`, 3 theorems) The water level bounds the amplification of noise. all waterlevel > 0; energy and sample bounds

**C202** Model: `deconvTime` of `Model/DeconvTime.lean`; the solver is a parameter that returns the solution when there is exactly one.. Proof: The quadratic form of the system for the solution is the energy of its convolution with the source plus `spiking` times its energy and equals the scalar product of the response with that convolution; completing the square gives `sol_energy`, hence `C202_energy`. `C202_noise` and `C202_sample` use linearity (C172). Equality for source [1], response [2], spiking 1..

* C202 (proved, `Props/TimeEnergy`, 3 theorems) The spiking parameter bounds the amplification of noise in the time domain deconvolution. all spiking > 0; energy and sample bounds

**C203** Model: `harmonics` of `Model/Harmonics.lean` with the least squares solver as parameter.. Proof: The terms are the means of the traces multiplied by the trigonometric functions (C168); these functions are orthogonal for balanced directions, which gives Bessel's inequality (`bessel_five`): `C203_energy`. The formula is linear in the samples: `C203_noise`, `C203_sample`..

* C203 (proved, `Props/HarmonicsStable`, 3 theorems) Harmonics for evenly distributed back azimuths neither create energy nor amplify deviations. balanced directions, one component, both methods

**C204** Model: `Model/DoubleMean.lean`: `stack64` and `profile64` with each addition and division of samples rounded to 53 bits (`fl64`); the order of the additions in `np.mean` is a parameter (`SumOrder`).. Proof: Forward error analysis by induction over the order of additions (`sum64_err`, `npMean64_err`): `C204_stack`, `C204_amplitude`. For the profile a simulation of three runs of the loop (rounded, exact, exact with absolute values; `step_err`, `loop_err`, `profile_err`), C50 gives the means: `C204_profile`. Not modelled: overflow and subnormal numbers..

* C204 (proved, `Props/DoubleMean`, 3 theorems) Stack and profile in double precision are close to the exact means. stack64 and profile64 against the exact means for every order of additions

**C205** Model: `streamMethod`, `rf`, `moveoutPhase`, `streamMoveout` of `Model/Stream.lean`.. Proof: False as stated: `C205_counterexample` (phases P and PP: no method, ValueError of `rf`, KeyError of `moveout`, `rf(method='P')` replaces PP by P). `C205_several` proves this for every stream with two different phases, `C205_one_phase_partial` that a single phase works, and `C205_rf` says exactly which phases the traces have after `rf`..

* C205 (partial, `Props/PhaseMethod`, 4 theorems) A stream with several P phases is a stream of method P. False: two different phases with the same last letter give no method (C205_several, C205_counterexample). Proved for one common phase; C205_rf gives the phases after rf exactly.

**C206** Model: `deconvWaterlevel` of `Model/DeconvFreq.lean`; `Spec.DelayedBy` says what a delay is, sample by sample.. Proof: `C206_response` (responses), `C206_tshift` (time shift), `C206_common` (source and responses together): the shift theorem of the transform (`dft_delayed`), that the phase factors of time shifts multiply (`filter_add`), and that the water level only sees the modulus (`waterPower_delayed`)..

* C206 (proved, `Props/WaterDelay`, 3 theorems) Delays in the water level deconvolution. delayed responses, larger tshift, common delays; exact arithmetic

**C207** Model: `deconvIterative` of `Model/DeconvIter.lean`; `picks` of `Model/IterPicks.lean` lists the positions of the spikes the loop picks.. Proof: False as stated: `C207_counterexample` (source `[1]`, one pass, responses `[1 + eps, 1]` and `[1, 1 + eps]`: the single spike jumps, the results differ by a fixed number however small eps is). `C207_same_spikes_partial` proves the bound, with the explicit constant passes * sampling rate / norm of the low-passed source, whenever the same positions are picked for both responses: a pass removes the projection onto the delayed source, so that the difference of what is left never grows (`lock_step`). The water level and time domain methods have such a constant without this condition (C201, C202)..

* C207 (partial, `Props/IterNoise`, 2 theorems) Small changes of the responses in the iterative deconvolution. false: counterexample; bound proved for equal spike positions

**C208** Model: `loadTxt` of `Model/LoadTxt.lean` (NumPy's reader, external, exact values), `loadModel` of `Model/Ppoints.lean`. Texts and values of numbers (`Spec.Decimal`) and layouts (`Spec.Laid`, `LineOf`, `FileOf`) are specified apart from the reader.. Proof: `C208_number` (value of every text), `C208_line` (words of every layout), `C208_table`, `C208_model`, `C208_ragged`, `C208_single` (one row, one column, no numbers); inductions over digits, layouts and lines. Rounding to double precision is not modelled here; for the numbers of the shipped file see C176..

* C208 (proved, `Props/ModelText`, 7 theorems) Velocity models in text files of any layout. texts of numbers and layouts; exact values

**C209** Model: `procInfo` of `Model/ProcInfo.lean` with the signatures of rf, moveout and stack; the values a call gives to the parameters are `effective` (C70).. Proof: `C209_identifies_partial`: if no text contains the separator `::` the entry determines the text of every argument apart from the stream and the boxes of a profile, by splitting the entry again (`split_colons`, `join_inj`, `infoText_inj`). `C209_counterexample`: two calls of moveout with different models and phases and the same entry. `C209_moveout`, `C209_rf`, `C209_stack`: the exact text for all arguments; stack accepts no keywords..

* C209 (partial, `Props/ProcText`, 6 theorems) A processing entry tells which call was made. false for texts which contain the separator of the entries (counterexample); proved for all others

**C210** Model: `deconvWaterlevel` of `Model/DeconvFreq.lean` over the complex numbers and `deconvTime` of `Model/DeconvTime.lean` over any ordered field; the Toeplitz solver is a parameter that solves exactly.. Proof: `C210_water`: all denominators are the water level (`high_water`), and the inverse transform of the product of the spectra is the correlation (`circ_sum`). `C210_levels`: equal outcomes, including failures, for any Gauss filter, time shift and normalisation. `C210_time`: the remainder of a row is bounded with Cauchy-Schwarz, the bound of autocorrelations by the energy (`corr_bound`) and the energy of the solution (C202)..

* C210 (proved, `Props/CrossCorr`, 3 theorems) With strong damping the deconvolution is a cross-correlation with the source. Exact arithmetic; Gauss filter and time shift by fractions of a sample only in the statement on water levels.

**C211** Model: `deconvTime`, `deconvWaterlevel`, `deconvIterative` (`Model/DeconvTime.lean`, `DeconvFreq.lean`, `DeconvIter.lean`); the shift of the time domain method is computed as in `deconvolve`.. Proof: `C211_time_partial`: equal auto- and cross-correlations (`acorrt_zeroPadded`, `corrAt_zeroPadded`), for windows with the onset inside or with an odd number of samples; `C211_counterexample_time` otherwise. `C211_water_partial`: the factors of the delay cancel in every frequency (`rawRf_source`), if the source with the leading zeros fits into the transform; `C211_counterexample` otherwise. `C211_src_partial`: normalize='src' if all samples of the transform are returned (the own receiver function of the source is the same up to a cyclic shift, `rawRf_cyclic`, and the largest value does not depend on the order, `maxC_congr`); `C211_counterexample_src` otherwise. `C211_water_after`, `C211_iterative`: zeros after the source, without condition..

* C211 (partial, `Props/SourceZeros`, 8 theorems) Zeros at the ends of the source window do not matter. Time domain: one sample off for some windows with an even number of samples (C11). Water level: false if the source is cut off by the leading zeros (C211_counterexample) and for normalize='src' if fewer samples are returned than the transform has (C211_counterexample_src); proved otherwise. Iterative: zeros after the source only; leading zeros change which lags are admitted and are left open.

**C212** Model: `writeHeader`, `writeLoop`, `write` of `Model/Headers.lean` and `traceWrite`, `writeTraces` of `Model/TraceWrite.lean`; `obspy_to_sac_header` is a parameter which, for a SAC header made by it for the same trace, keeps the entries of rf and gives the other entries again (`SacAgain`).. Proof: `C212_formats`: the loop over the headers commutes with exchanging the header of the other format (`fold_map`). `C212_q`, `C212_sac`: same entries after the second call. `C212_stream`: the same for the calls of the writer of a whole stream in Q format, whose station codes are restored in between. `C212_stream_sac`: the same for SAC. `C212_h5`: a call in H5 format leaves traces and index as they were. `C212_traces`: the loop over `RFTrace.write`, by induction..

* C212 (proved, `Props/WriteAgain`, 8 theorems) A stream can be written again, in any format and trace by trace. Codes without dots for Q (C59); for SAC under the condition SacAgain on the header made by ObsPy; the writer does not fail (second call in Q and H5 format, and trace by trace). Trace by trace: not for H5, whose headers are not changed at all (C212_h5).

**C213** Model: `interp64` (`np.interp` with all six operations rounded to 53 bits), `stretch2_64`, `sampleTimes64` and `moveoutP64` in `Model/DoubleInterp.lean`; the search of the interval is a parameter with the guarantee of NumPy (`FindSpec`). Exponents are not bounded. Sample times, tables and samples are the doubles the interpolations are called with.. Proof: `segment_err` adds the relative errors of the operations between two knots, `C213_interp` covers all branches. `C213_times`: new times and their order. `C213_knots`: exact interpolation between shifted knots, by comparing positions in the table (`pos_order`, `pos_close`). `C213_moveout` and `C213_trace` combine them..

* C213 (proved, `Props/DoubleInterp`, 6 theorems) The interpolations of move out are accurate in double precision. Branch of all phases but S multiples (C213_trace); for S multiples the two interpolations are covered by C213_moveout. The reference is exact interpolation at the sample times as rounded.

**C214** Model: `interp64`, `stretch2_64`, `sampleTimes64`, `moveoutP64` of `Model/DoubleInterp.lean` with the same table for both slownesses (both are computed by the same operations).. Proof: False in general: `C214_counterexample` (mirrored table as made by `stretch_delay_times`; the last sample becomes zero). `C214_times_partial`, `C214_samples_partial`, `C214_trace_partial`: a sample is returned bit by bit if its time is 0, a time of the table, or at most twice the time before it in the table (`Near`), and the sample times are more than T/2^49 apart, T the largest time of the table; the difference is exact then (`double_sub`), the slope is 1 and the sum is the time itself; the other new times are in order by C213, so the second interpolation hits the knot (`interp64_knot`). `C214_inside_partial`: the two interpolations return all samples if all of their times are such times, whatever is filled in outside of the table (S multiples). Missing: samples between the last mirrored (negative) time and the first delay time of the table other than time 0; there the difference is rounded and only the bound of C213 holds..

* C214 (partial, `Props/DoubleIdentity`, 5 theorems) Move out at the reference slowness changes no bit in double precision. False in general (counterexample with a mirrored table: the last sample becomes zero); proved for each sample whose time is 0, a time of the table or at most twice the time before it in the table: for whole traces (C214_trace_partial, all phases but S multiples) and for the two interpolations (C214_samples_partial, C214_inside_partial). Missing for other times, e.g. between the last mirrored time and the first delay time; there the bound of C213 holds.

**C215** Model: `vslow64`, `vertSlow64`, `layerDelay64`, `cumsum64`, `delayTimes64`, `stretch64` of `Model/DoubleDelay.lean`: each operation rounded to 53 bits (unbounded exponent); `v ** (-2)` and `np.sqrt` are parameters of which only monotony, sign and being doubles are used (`Library`), the square of the slowness is an arbitrary function.. Proof: `fl64_nearest`, `fl64_mono`: rounding gives a nearest double and keeps the order; so no rounded difference `#P*qp + #S*qs - 2*q` changes its sign (`layer_nonneg`, `layer_nonpos`) and no rounded sum falls below the sum before (`cumsum64_sorted`). `C215_delays`, `C215_sp`, `C215_tables`, `C215_reached`; `library_sqrt` shows that the conditions on the library functions can be met..

* C215 (proved, `Props/DoubleDelay`, 4 theorems) Tables of delay times are sorted in double precision. Proved with all operations rounded to 53 bits; of v ** (-2) and np.sqrt only monotony, sign and 53 bits are assumed; exponents are not bounded.

**C216** Model: `normalizeAll64` of `Model/DoubleNorm.lean` (the code is the same in the three functions): quotient and products rounded to 53 bits (unbounded exponent).. Proof: False for the maximum: `C216_counterexample` (maximum 49 gives 1 - 2^-53). `C216_max_partial`: the maximum is 1 or 1 - 2^-53 (`mul_inv64`, `double_near_one`). `C216_samples`: order, sign and accuracy of all samples. `C216_again`: after a second normalisation it is 1 and nothing changes any more. `C216_units`: powers of two (`fl64_zpow`)..

* C216 (partial, `Props/DoubleNorm`, 5 theorems) The normalised maximum is 1 in double precision. False: 1/M times M is 1 - 2^-53 for some M, e.g. 49 (counterexample); proved that these are the only two values, and order, accuracy and independence of units in full.

**C217** Model: `delayTimes` of `Model/Simple.lean` with the real square root (C28 gives the sums over the layers).. Proof: True for at least two S legs (`C217_many`). For one S leg and n P legs exactly if in each layer the vertical slowness of S is at most n times the one of P (`C217_one_partial`, via `sums_sorted`); `C217_counterexample`: Sppp at 13.344 s/deg in two layers has delay times 1.3 s and then 0.3 s, so that the table given to np.interp is out of order..

* C217 (partial, `Props/DelayAll`, 3 theorems) Delay times of S multiples grow with depth. Proved for at least two S legs; false for phases with one S leg such as Sppp at large slownesses (counterexample), for which the exact condition is proved.

**C218** Model: `delayTimes64` of `Model/DoubleDelay.lean`: each operation rounded to 53 bits; the power, the root and the square are parameters with relative errors of at most 2^-51 (`Accurate`; `accurate_exists` shows that there are such functions).. Proof: `C218_delays` against `delaySpec` with the real root: error of the vertical slowness by the condition of the root (`vslow64_err`), of one layer (`layer_err`, `layerDelay64_err`), and of the sums one after the other (`cumsum64_err`, induction over the layers). Exponents are not bounded (no overflow or underflow), and slownesses closer to critical than a cosine of 2^-20 are excluded..

* C218 (proved, `Props/DoubleDelayErr`, 1 theorems) Delay times in double precision are close to the exact ones. Double precision delay times within an explicit bound of the exact sums, for rays away from critical.

**C219** Model: `stretch64` of `Model/DoubleDelay.lean` against `stretch` of `Model/Simple.lean` with the real root (`realModel`, empty cache).. Proof: `C219_tables` from C218 for both slownesses (`close_delays`); closeness is kept by the change of sign, by cutting and by mirroring (`close_neg`, `close_take`, `close_drop`, `close_mirror`), and close tables have no NaN (`close_noNaN`)..

* C219 (proved, `Props/DoubleTables`, 1 theorems) The tables of delay times of move out are close to the exact ones. Both tables within the bound of C218 of the exact ones, for rays away from critical.

**C220** Model: `ppointDistance64` of `Model/DoublePpoint.lean` (each operation rounded to 53 bits, library functions as in C218) against `ppointDistance` of `Model/Simple.lean` with the real root.. Proof: `C220_distance`: one layer and leg (`ppNum_err`, `ppTerm_err`), sums one after the other (`ppSum64_err` via `cumsum64_err` of C218), both kinds of legs (`ppLeg_err`, `ppAdd_err`, `ppX64_err`) and the interpolation in depth (`ppInterp_err`); the exact value is the one of C37, which belongs to one layer below. Exponents are not bounded..

* C220 (proved, `Props/DoublePpoint`, 1 theorems) Distances of piercing points in double precision are close to the exact ones. Within an explicit bound of the exact value of the same formula, for rays away from critical; that the formula itself is off by one layer is C37.

**C221** Model: `secondsBetween6`, `endTime64`, `mirrorOnset64`, `stackOnset64` of `Model/DoubleOnset.lean` with `fl64` and `addSeconds` of C197; ObsPy's `UTCDateTime.__sub__`, `__add__` and `Stats.endtime` as documented there.. Proof: A whole number of microseconds survives the way through seconds (`micro_back`), rounding to 6 digits (`round6_err`, `round6_exact`), end time (`endTime64_err`); `C221_mirror`, `C221_exact`, `C221_sample`, `C221_stack`; `C221_moved` is the witness at 30 Hz..

* C221 (proved, `Props/DoubleOnset`, 5 theorems) Onsets of mirrored and stacked records are kept to half a microsecond. Times in nanoseconds, rounding to microseconds by ObsPy in the model.

**C222** Model: `moveoutP` of `Model/Simple.lean` with `np.interp` of `Py/Interp.lean` for two pairs of tables; any search in the table.. Proof: A position in a table is an index and a fraction of the interval (`interp_position`); times at a position are monotone, values Lipschitz in the times (`pv_mono`, `pv_lip`). `C222_interp` for one interpolation, `stretch_spaced` for the distance of new times, `C222_moveout` for the samples; `C222_double` says that the tables in double precision of C219 are an instance..

* C222 (proved, `Props/TableError`, `TableErrorS`, 4 theorems) Small errors of the delay times stay small in the move out correction. Tables of delay times as arguments; C219 bounds their error in double precision, C224 their change with the velocity model. C222_moveout, C222_multiple (S multiples).

**C223** Model: `moveoutP64` and `sampleTimes64` of `Model/DoubleInterp.lean`, `moveoutS64` of `Model/DoubleMoveoutS.lean`, `stretch64` of `Model/DoubleDelay.lean` (each operation rounded to 53 bits, exponents not bounded) against `moveoutP`, `moveoutS` and `stretch` of `Model/Simple.lean` over the real numbers.. Proof: `C223_moveout` (and `C223_multiple` for S multiples) joins C213 (roundings inside of np.interp), C222 (sensitivity to times, values and points of a table) and `C213_sampleTimes`; exact interpolation of doubles agrees in rational and real arithmetic (`interp1_cast`); `C223_tables` (C219) supplies the tables..

* C223 (proved, `Props/DoubleMoveoutEnd`, `DoubleMoveoutS`, 3 theorems) Move out correction in double precision is close to the exact correction. The index of the onset is the exact one, see C162.

**C224** Model: `delayTimes`, `stretch` and `moveoutP` of `Model/Simple.lean` over the real numbers; the pairs of layers are described by `NearLayer`.. Proof: The difference of two roots is the difference of the radicands divided by the sum of the roots, which gives `qSpec_near`; sums over layers (`C224_delays`), the two tables (`C224_tables`) and with C222 the samples (`C224_moveout`)..

* C224 (proved, `Props/TableErrorS`, `VelocityError`, 4 theorems) Small errors of velocities and slowness change delay times and move out little. Bounds for delay times, tables and corrected samples, S multiples included (C224_multiple).

**C225** Model: `ppointDistance` of `Model/Simple.lean` over the real numbers; pairs of layers are described by `NearLayer` (C224).. Proof: Tangents of the angles of incidence (`tan_near`), sums over layers (`C225_layers`), linear interpolation between two depths with `C37_value_partial` (`C225_distance`)..

* C225 (proved, `Props/VelocityPpoint`, 2 theorems) Small errors of velocities and slowness move piercing points little. Bound for the distance returned by ppoint_distance (as the code calculates it, see C37).

**C226** Model: `delayTimes` of `Model/Simple.lean` over the real numbers; pairs of layers are described by `SameVelocities`, which leaves the thickness free.. Proof: Closed form of the delay times (C28), vertical slowness at most the slowness of the layer (`qSpec_le`), sums over layers (`thickness_sum`)..

* C226 (proved, `Props/DepthError`, 5 theorems) Small errors of the thickness of layers change delay times little. Exact arithmetic; the thickness may also be zero or negative. Slowness up to the critical one included. C226_delays, C226_delay_times, C226_tables (two tables of stretch_delay_times, even number of letters, no reference times cached before), C226_moveout, C226_multiple (S multiples).

## 6. Axioms

`AXIOMS.txt` lists the output of `#print axioms` for every theorem of the manifest.  Summary:

| axioms | theorems |
|---|---|
| propext, Classical.choice, Quot.sound | 711 |
| propext, Quot.sound | 44 |
| propext | 8 |
| none | 6 |
