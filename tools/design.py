#!/usr/bin/env python3
"""Writes DESIGN.md from tools/design_head.md, the plan tables, tools/design_cov.md, MANIFEST.json and tools/axioms.json."""
import json, os
here = os.path.dirname(os.path.realpath(__file__)); root = os.path.dirname(here)
g = {'__file__': here + '/plan.py'}
exec(open(here + '/plan.py').read(), g)
plan = g['plan']
m = {c['property']: c for c in json.load(open(root + '/MANIFEST.json'))['claims']}
titles = {}
for l in open(root + '/properties.jsonl'):
    d = json.loads(l); titles[d['id']] = d['title']
ax = json.load(open(here + '/axioms.json'))
out = open(here + '/design_head.md').read()
out += '\n## 4. Plan per property\n\n| id | property | modelled | proof | status |\n|---|---|---|---|---|\n'
for i in titles:
    assert i in plan, i
    a, b = plan[i]
    out += '| %s | %s | %s | %s | %s |\n' % (i, titles[i], a, b, m[i]['status'] if i in m else 'planned')
out += '\n' + open(here + '/design_cov.md').read()
out += '\n## 6. Axioms per theorem\n\nFrom `#print axioms` (`tools/axioms.py`). No theorem depends on anything outside these three.\n\n'
groups = {}
for t, a in ax.items(): groups.setdefault(a, []).append(t.replace('Coniks.Props.', ''))
for a in sorted(groups, key=len):
    out += '* %s (%d): %s\n\n' % (a or 'no axioms', len(groups[a]), ', '.join('`%s`' % t for t in sorted(groups[a])))
open(root + '/DESIGN.md', 'w').write(out)
