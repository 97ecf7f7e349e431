#!/usr/bin/env python3
"""Append properties (JSON list on stdin, each with an extra field "design") to properties.jsonl and the table of DESIGN.md."""
import json,sys
L=json.load(sys.stdin)
p='/verif/properties.jsonl'
have={json.loads(l)['id'] for l in open(p)}
s=open('/verif/DESIGN.md').read().split("\n")
with open(p,'a') as f:
    for d in L:
        if d['id'] in have: continue
        k=max(i for i,l in enumerate(s) if l.startswith("| C") and l[3:5].isdigit())
        s.insert(k+1,f"| {d['id']} | {d['title']} | {d.pop('design')} |")
        f.write(json.dumps(d)+"\n")
open('/verif/DESIGN.md','w').write("\n".join(s))
