#!/usr/bin/env python3
"""Regenerate MANIFEST.json from the theorems in lean/Verif/Props (Cxx_*)."""
import glob, json, re
NOTES = json.load(open('/verif/tools/notes.json'))
thms = {}
for p in sorted(glob.glob('/verif/lean/Verif/Props/*.lean')):
    for m in re.finditer(r'^theorem (C\d\d)_(\w+)', open(p).read(), re.M):
        thms.setdefault(m.group(1), []).append('Cmpa.Props.%s_%s' % (m.group(1), m.group(2)))
claims = []
for c in sorted(thms):
    partial = any(t.endswith('_partial') or t.endswith('_fails') for t in thms[c])
    n = NOTES.get(c, {})
    claims.append({'property': c, 'status': n.get('status', 'partial' if partial else 'proved'),
                   'theorems': thms[c], 'note': n.get('note', '')})
json.dump({'claims': claims}, open('/verif/MANIFEST.json', 'w'), indent=1)
print(len(claims), sum(len(t) for t in thms.values()))
