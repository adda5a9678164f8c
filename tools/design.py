#!/usr/bin/env python3
"""Regenerates the per-property table of DESIGN.md from properties.jsonl, MANIFEST.json and tools/plan.json."""
import json
P=[json.loads(l) for l in open('properties.jsonl') if l.strip()]
M={c['property']:c for c in json.load(open('MANIFEST.json'))['claims']}
plan=json.load(open('tools/plan.json'))
s=open('DESIGN.md').read()
a,b='<!-- table -->','<!-- end table -->'
out=[a]
for p in P:
    c=M.get(p['id'],{'status':'?','theorems':[],'note':''})
    out.append(f"### {p['id']} {p['title']} — {c['status']}")
    if p['id'] in plan: out.append(plan[p['id']])
    if c['note']: out.append(f"Scope: {c['note']}.".replace('..','.'))
    out.append('Theorems: '+', '.join('`'+t.replace('BeTree.','')+'`' for t in c['theorems'])+'\n')
out.append(b)
i,j=s.index(a),s.index(b)
open('DESIGN.md','w').write(s[:i]+'\n'.join(out)+s[j+len(b):])
