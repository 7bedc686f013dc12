# Formal model of trichter/rf in Lean 4

## 1. Layout

* `properties.jsonl` – the properties (generated by `tools/props.py`).
* `lean/Verif/Py/*.lean` – the small part of Python / NumPy semantics that is needed
  (slices with negative indices, `in` on strings, dictionaries, exceptions, trace objects on a
  heap, `np.interp`, DFT).
* `lean/Verif/Model/*.lean` – the model, one file per Python module or part of it.  Every
  definition cites file and lines of `/repo` and names its simplifications.
* `lean/Verif/Spec/*.lean` – small independent specifications used in theorem statements.
* `lean/Verif/Props/*.lean` – the property theorems with proofs, and after each a concrete case
  (`example`) which meets its hypotheses.
* `MANIFEST.json` – property -> theorem names and status (generated by `tools/manifest.py` from
  theorem names and `tools/notes.json`).
* `AXIOMS.txt` – axioms of every theorem in the manifest (`tools/axioms.sh`).
* `seeded/LOG.jsonl` – trials with wrong programs: an edit of a model definition, the claim it breaks
  and the theorems whose proofs failed.
* This file is generated by `tools/design.py`.

## 2. Modelling conventions

* **Numbers.** Floating point numbers are modelled by exact arithmetic: an arbitrary linearly
  ordered field `K` (instantiated by `ℚ` in examples) where only field operations and order are
  used, `ℝ` where trigonometric functions occur, `ℂ` for spectra.  Rounding
  errors, overflow and signed zeros are *not* modelled, except for the sample index of a time, which is
  also modelled in double precision (Py/Double, Model/DoubleIndex, C162).  `NaN` is modelled as `none`
  where the code depends on it (evanescent layers).  A division by zero in a deconvolution
  kernel is the exceptional outcome `other`; Model/NanData describes how the code goes on (C163, C164).  The square root in `simple_model.py` is a
  parameter with hypotheses (`SqrtMono`, `SqrtStrict`) which are proved for the real square root.
* **Strings** are `List Char` where the code inspects them; dictionary keys are `String`.
* **Exceptions** are values (`Except PyErr _`); functions which mutate in place and may
  raise return the mutated state *and* the error, so that crash points are visible.
* **Objects.** Trace objects live on a heap (`Nat → Trace`), streams are lists of references, so that
  aliasing (the same trace twice in a stream, substreams sharing traces) is expressible.  Data
  arrays are values in this model.  The one place of the package which assigns *into* an array,
  `SimpleModel.moveout`, is modelled a second time in Model/Buffers, where arrays, their element types
  and views on them are objects (C160, C161).
* **State between calls** is explicit where the code has it: the `t_ref` cache of a model, the cache
  of models in `load_model`, the `cached` example streams, the global index of `obspyh5`, the files
  written by the batch program.
* **External code** (ObsPy, NumPy linear algebra, shapely, cartopy, TauPy, geographiclib, file
  systems, JSON) is a parameter of the model; assumptions on it are explicit hypotheses of the
  theorems.  NumPy functions with a short exact definition (`interp`, `correlate(..., 'valid')`, `fft`,
  `linspace`, `searchsorted`, `cumsum`, slices) are modelled by their definition.
* **Figures** are records of what is drawn (curves, filled areas, bars, axis limits, panels).
* A property that is false of the code is *not* repaired in the model: the negation is proved with a
  concrete witness (`*_counterexample` / `*_fails`) next to a `*_partial` theorem that
  holds under the stated extra condition.

## 3. What is modelled and what is not

| source | modelled | not modelled |
|---|---|---|
| `util.py` | `_get_stations`, `iter_event_data`, `iter_event_metadata` (EventIter), `IterMultipleComponents` (Iter), `direct_geodetic` (Ppoints; the geodesic itself is a parameter), `cached` behaviour of the example streams (Cache), `_add_processing_info` (ProcInfo) | progress bar; content of the example streams |
| `deconvolve.py` | all functions (Deconvolve, DeconvTime, DeconvFreq, DeconvIter, DeconvMt) | the Toeplitz solver of `toeplitz`/SciPy (relation "x solves the system"), the tapers (`dpss`, parameters), logging |
| `rfstream.py` | `obj2stats`, `rfstats` (RfStats), header conversion, `RFStream.write`, `RFTrace.write`, `RFTrace.__init__`, H5 index (Headers), `type`, `method`, `trim2`, `slice2`, `deconvolve`, `rf`, `moveout`, `stack` (Stream), `ppoints` (Ppoints), `harmonics`, `profile`, `RFTrace.__str__`, `RFStream.__init__`, `read_rf` (Text) | ObsPy's filter, trim, rotate, decimate, interpolation and taper (parameters) |
| `simple_model.py` | everything (Simple; `load_model` and `ppoint` in Ppoints); `np.loadtxt` for the model of the package (LoadTxt, Iasp91) | model files of the user (their table is a parameter) |
| `profile.py` | everything (Profile) | shapely polygons and the cartopy projection (parameters; one planar instance) |
| `harmonics.py` | everything (Harmonics) | the algorithm of `lstsq` (relation; the `rcond` truncation of small singular values is ignored) |
| `batch.py` | `write`, file names, reading of processed data and profiles, `_create_dir` (BatchFiles), the comment stripping decoder, `run`, `run_commands` (Batch, BatchCommands), `init_data`, `load_func` (DataSource), `run_cli` (Cli) | IPython shell of the print command, locale and logging; the parsing of words by `argparse` is modelled as far as the declared arguments need it |
| `imaging.py` | `_label`, `plot_rf`, `plot_profile`, `plot_harmonics` (Imaging), `plot_stations`, `plot_ppoints`, `plot_profile_map` (Maps) | matplotlib and cartopy themselves |

## 4. Trusted base

* Lean's kernel and the axioms `propext`, `Classical.choice`, `Quot.sound` (section 6).  There are no
  own axioms, no `sorry`, no `native_decide`.
* The reading of the Python source, documented in the comments of `Model/*` with line numbers.  The
  code has not been run; where behaviour of a library matters, the reading relies on its documentation.
* Exact arithmetic as described in section 2.
* Library behaviour which is part of definitions rather than hypotheses:
  ObsPy keeps header values as set and `copy()` of a trace copies the header deeply; `Stream.trim`,
  `slice` cut at the nearest sample and drop empty traces;
  `np.interp` clamps outside of the knots unless `left`/`right` are given; `np.fft` is the discrete Fourier
  transform; `matplotlib.Axes.bar` centres bars on the given positions;
  `fnmatch` (patterns with `*` and `?` only); `str.format` and `strftime` for the
  fields used in file names; dictionaries iterate in insertion order; `sorted` is stable.
* Library behaviour which enters as hypotheses: `json.loads` inverts `json.dumps`; the
  Toeplitz solver returns a solution of a uniquely solvable system; `lstsq` returns the
  minimum norm solution of the normal equations; tapers are finite sequences;
  services raise or return as stated in each theorem.
