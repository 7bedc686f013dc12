"""Generate MANIFEST.json.

Every property theorem carries its property id as name prefix (``C01_...``).  The status and note of
each property are in the table below; a property without theorems is reported as partial/not proved.
"""
import json, re, pathlib
root = pathlib.Path(__file__).resolve().parent.parent
props = [json.loads(l) for l in open(root / 'properties.jsonl')]
thms = {}
for f in sorted((root / 'lean/Verif/Props').rglob('*.lean')):
    ns = 'Verif.Props'
    for m in re.finditer(r'^theorem (C\d+_\w*)', f.read_text(), re.M):
        name = m.group(1)
        thms.setdefault(name.split('_')[0], []).append(ns + '.' + name)
NOTES = json.load(open(root / 'tools/notes.json'))
claims = []
for p in props:
    i = p['id']
    t = thms.get(i, [])
    if not t:
        if i in NOTES and NOTES[i][0] == 'not_applicable':
            claims.append({'property': i, 'status': 'not_applicable', 'theorems': [], 'note': NOTES[i][1]})
        continue
    status, note = NOTES.get(i, ['proved', ''])
    claims.append({'property': i, 'status': status, 'theorems': t, 'note': note})
json.dump({'claims': claims}, open(root / 'MANIFEST.json', 'w'), indent=1, ensure_ascii=False)
print(len(claims), 'claims', sum(len(c['theorems']) for c in claims), 'theorems; missing:',
      [p['id'] for p in props if p['id'] not in {c['property'] for c in claims}])
