#!/bin/sh
# Write AXIOMS.txt: axioms of every theorem listed in MANIFEST.json (run after lake build).
cd "$(dirname "$0")/.." || exit 1
python3 - > /tmp/axioms.lean <<'P'
import json
print('import Verif')
for c in json.load(open('MANIFEST.json'))['claims']:
    for t in c['theorems']:
        print('#print axioms', t)
P
cd lean && lake env lean /tmp/axioms.lean > ../AXIOMS.txt
