#!/usr/bin/env python3
"""Regenerate MANIFEST.json: theorems named Cnn_* in lean/Verif/Props, statuses and notes from tools/status.json."""
import json, re, glob, os
root = os.path.dirname(os.path.dirname(os.path.abspath(__file__)))
props = [json.loads(l) for l in open(root + '/properties.jsonl') if l.strip()]
st = json.load(open(root + '/tools/status.json'))
thms = {}
for f in sorted(glob.glob(root + '/lean/Verif/Props/*.lean')):
    for m in re.finditer(r'^theorem (C(\d\d)_\w+)', open(f).read(), re.M):
        thms.setdefault('C' + m.group(2), []).append('BeTree.' + m.group(1))
claims = []
for p in props:
    i = p['id']
    s = st.get(i, {})
    claims.append({'property': i, 'status': s.get('status', 'partial'), 'theorems': thms.get(i, []),
                   'note': s.get('note', 'in progress: no theorem yet' if not thms.get(i) else '')})
json.dump({'claims': claims}, open(root + '/MANIFEST.json', 'w'), indent=1)
for c in claims:
    print(c['property'], c['status'], len(c['theorems']))
