"""Generate DESIGN.md from design_head.md, the manifest, the axiom listing and the table below."""
import collections, json, pathlib, re

root = pathlib.Path(__file__).resolve().parent.parent
lean = root / 'lean/Verif'

# first id, last id, model, method of proof
METHOD = [
 (1, 3, 'Iter: `IterMultipleComponents` over streams of heap traces with a key function; insertion-ordered dictionary of groups, sorted keys, filter', 'induction over the stream; permutation and sortedness lemmas'),
 (4, 4, 'Deconvolve: `__find_nearest` with negative index and IndexError', 'reasoning on sorted lists; negation for onsets after the last sample'),
 (5, 8, 'Deconvolve: `deconvolve` on the heap, kernel as parameter', 'case analysis, frame lemmas for heap updates; negation of C07'),
 (9, 11, 'DeconvTime: `_add_zeros`, `_acorrt`, `_xcorrt`, `correlate(valid)` on lists', 'length and index arithmetic, Cauchy-Schwarz; exact offset and negation of C11'),
 (12, 14, 'DeconvTime: Toeplitz system as relation, exact solver as parameter', 'quadratic form is a sum of squares; injective square systems'),
 (15, 19, 'DeconvFreq: DFT by definition over the complex numbers, water level formula, filters', 'norm inequalities, orthogonality of the roots of unity'),
 (20, 23, 'DeconvIter: loop as fuelled recursion on a state record, correlation through the DFT', 'loop invariants; expansion of the squared norm; Parseval and convolution theorem'),
 (24, 26, 'DeconvMt: window index arithmetic, output reversal, spectral quotient', 'arithmetic; DFT index algebra; Cauchy-Schwarz; negation of C24'),
 (27, 29, 'Simple: `_interpolate_n`, `SimpleModel`, vertical slowness with NaN as `none`', 'list induction, monotonicity of the square root'),
 (30, 30, 'Simple: model object with `t_ref` as state, histories of calls', 'invariant for equal references, negation by a two-call witness'),
 (31, 31, 'Simple: lists of optional numbers, truncation index including -1', 'first NaN index; negation for NaN at index 0'),
 (32, 36, 'Simple, Py/Interp: `np.interp` by definition, `moveout` per trace', 'convex combinations, sortedness of the knots'),
 (37, 38, 'Simple: `ppoint_distance` with index wrap and IndexError', 'exact characterisation (distance one layer deeper); negation'),
 (39, 40, 'Simple, Stream: loop with error over traces; labels of `RFStream.moveout`', 'state at the crash point; negation of atomicity'),
 (41, 46, 'Stream: `rf` on the heap, ObsPy steps as parameters', 'case analysis, heap frame lemmas for every stage'),
 (47, 49, 'Stream: `stack`, `trim2`, `slice2`', 'list induction, permutations; negation of C48'),
 (50, 54, 'Profile: `profile` as fold with dictionary, `get_profile_boxes`, planar geometry as instance', 'fold invariant equals filter; algebra of rotated rectangles'),
 (55, 60, 'Headers: header tables, reading and writing of format headers, station codes on the heap, H5 index as global state', 'finite tables by evaluation, dictionary lemmas; negations'),
 (61, 64, 'RfStats: `rfstats`, `obj2stats` with TauPy and geodetics as parameters', 'case analysis; negation of C63'),
 (65, 68, 'EventIter: generators as list functions with a trace of effects, services as parameters', 'induction over the product; negation of C66'),
 (69, 69, 'Cache: heap and cache as state machine', 'invariant over histories of operations'),
 (70, 70, 'ProcInfo: argument binding of `getcallargs`, sorted argument list', 'permutation invariance of sorting; negation'),
 (71, 76, 'Harmonics: Jacobians, least squares as relation (normal equations and minimum norm)', 'trigonometric polynomial with five roots; linearity; negations of C74-C76'),
 (77, 82, 'Batch, BatchFiles: comment stripping, option handling, file names, `write`', 'list lemmas; injectivity of formatting; negations'),
 (83, 84, 'Imaging: scaling and label logic of the plots', 'order lemmas; negation for `ref1` of `plot_harmonics`'),
 (85, 85, 'EventIter: `iter_event_metadata`', 'induction over the product'),
 (86, 86, 'Deconvolve: arguments passed to the kernel', 'evaluation of the window arithmetic'),
 (87, 88, 'Stream: downsampling stage and defaults of `rf`', 'floor arithmetic; negation for fractional rates; case analysis'),
 (89, 89, 'DeconvMt: closed form of the windowed sum', 'induction over the windows; negation of covering'),
 (90, 90, 'Profile: headers of profile traces', 'fold invariant'),
 (91, 91, 'Headers: choice of the H5 index', 'case analysis'),
 (92, 92, 'RfStats: piercing point entries', 'case analysis'),
 (93, 99, 'Batch, BatchFiles: `run`, `run_commands`, processing loop, reading of processed data', 'induction over the streams; negations'),
 (100, 108, 'Imaging: geometry and content of the figures of `plot_rf`, `plot_profile`, `plot_harmonics` (a figure is a record of what is drawn)', 'order lemmas, induction over the traces; negations'),
 (109, 111, 'BatchCommands: `print`, `plot`, `plot-profile`, `stack`, `moveout`, `profile` commands', 'induction over streams and channels; glob matching specification'),
 (112, 114, 'Ppoints: `ppoint`, `RFStream.ppoints`, `direct_geodetic` over the model table', 'heap induction with error; exact state after a failure'),
 (115, 118, 'Ppoints, Simple: `load_model` with cache of models, sequences as lists or arrays, sessions of move out calls', 'invariants over sessions; negations'),
]
extra = root / 'tools/design_methods.json'
if extra.exists():
    METHOD += [tuple(e) for e in json.load(open(extra))]

props = {}
for l in open(root / 'properties.jsonl'):
    d = json.loads(l)
    props[d['id']] = d
claims = {c['property']: c for c in json.load(open(root / 'MANIFEST.json'))['claims']}
where = {}
for f in sorted((lean / 'Props').glob('*.lean')):
    for m in re.finditer(r'^theorem (C\d+)_', f.read_text(), re.M):
        where.setdefault(m.group(1), [])
        if f.stem not in where[m.group(1)]:
            where[m.group(1)].append(f.stem)

out = [(root / 'tools/design_head.md').read_text().rstrip(), '', '## 5. Properties', '']
out += ['The theorems of a property carry its id as prefix and are listed in `MANIFEST.json`; all are in the',
        'namespace `Verif.Props`.  "partial" means that the full statement is false of the code (then a',
        '`*_counterexample` proves the negation for a concrete input) or only proved under the stated',
        'conditions; the remark says what is missing.', '']
for a, b, model, proof in METHOD:
    out.append('**C%02d%s** Model: %s. Proof: %s.' % (a, '' if a == b else '-C%02d' % b, model, proof))
    out.append('')
    for i in range(a, b + 1):
        i = 'C%02d' % i
        c = claims[i]
        out.append('* %s (%s, `Props/%s`, %d theorems) %s.%s' % (
            i, c['status'], '`, `'.join(where[i]), len(c['theorems']), props[i]['title'],
            ' ' + c['note'] if c['note'] else ''))
    out.append('')
covered = {'C%02d' % i for a, b, *_ in METHOD for i in range(a, b + 1)}
assert covered == set(claims), covered ^ set(claims)

axioms = collections.OrderedDict()
text = re.sub(r'\n\s+', ' ', (root / 'AXIOMS.txt').read_text())
for m in re.finditer(r"^'(\S+)' (?:depends on axioms: \[(.*?)\]|does not depend on any axioms)", text, re.M):
    axioms[m.group(1)] = m.group(2) or 'none'
manifest = [t for c in claims.values() for t in c['theorems']]
assert set(manifest) <= set(axioms), set(manifest) - set(axioms)
count = collections.Counter(axioms[t] for t in manifest)
out += ['## 6. Axioms', '',
        '`AXIOMS.txt` lists the output of `#print axioms` for every theorem of the manifest.  Summary:', '',
        '| axioms | theorems |', '|---|---|']
out += ['| %s | %d |' % kv for kv in count.most_common()]
(root / 'DESIGN.md').write_text('\n'.join(out) + '\n')
