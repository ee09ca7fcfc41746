#!/usr/bin/env python3
"""Writes MANIFEST.json from the `claims` table below (theorem names are checked to exist in lean/Verif/Props)."""
import json, re, glob, os
root = os.path.join(os.path.dirname(__file__), '..')
src = {}
for f in glob.glob(root + '/lean/Verif/Props/*.lean'):
    for m in re.finditer(r'^theorem ((C\d\d)\w+)', open(f).read(), re.M):
        src.setdefault(m.group(2), []).append(m.group(1))
notes = {}
exec(open(os.path.join(os.path.dirname(__file__), 'notes.py')).read())
ids = [json.loads(l)['id'] for l in open(root + '/properties.jsonl')]
claims = []
for i in ids:
    if i not in notes:
        continue
    status, note = notes[i]
    thms = [] if status == 'not_applicable' else src.get(i, [])
    assert thms or status == 'not_applicable', i
    claims.append({"property": i, "status": status, "theorems": ["Coniks.Props." + t for t in thms], "note": note})
json.dump({"claims": claims}, open(root + '/MANIFEST.json', 'w'), indent=1)
print(len(claims), 'claims of', len(ids), '; missing', [i for i in ids if i not in notes])
