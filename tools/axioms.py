#!/usr/bin/env python3
"""Runs `#print axioms` for every theorem of MANIFEST.json (modules must be built) and writes tools/axioms.json."""
import json, re, glob, os, subprocess, tempfile
root = os.path.realpath(os.path.join(os.path.dirname(__file__), '..'))
ts = [t for c in json.load(open(root + '/MANIFEST.json'))['claims'] for t in c['theorems']]
mods = ['Verif.Props.' + os.path.basename(f)[:-5] for f in sorted(glob.glob(root + '/lean/Verif/Props/*.lean'))]
d = tempfile.mkdtemp()
open(d + '/Ax.lean', 'w').write('set_option maxErrors 10000\n' if False else '' + '\n'.join('import ' + m for m in mods) + '\n' + '\n'.join('#print axioms ' + t for t in ts) + '\n')
out = subprocess.run(['lake', 'env', 'lean', d + '/Ax.lean'], cwd=root + '/lean', capture_output=True, text=True).stdout
res = {}
for m in re.finditer(r"'(\S+)' (does not depend on any axioms|depends on axioms: \[([^\]]*)\])", out):
    res[m.group(1)] = re.sub(r'\s+', ' ', m.group(3) or '').strip()
miss = [t for t in ts if t not in res]
if miss: print('missing', miss[:5], len(miss)); print(out[:500])
json.dump(res, open(root + '/tools/axioms.json', 'w'), indent=0, sort_keys=True)
from collections import Counter
print(Counter(res.values()))
