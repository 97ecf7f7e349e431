#!/usr/bin/env python3
"""Regenerates MANIFEST.json from the theorem names in lean/Verif/Props and tools/notes.json."""
import re, json, glob, os
root = os.path.dirname(os.path.dirname(os.path.abspath(__file__)))
thms = {}
for f in sorted(glob.glob(root + '/lean/Verif/Props/**/*.lean', recursive=True)):
    ns = []
    for line in open(f):
        m = re.match(r'namespace (\S+)', line)
        if m: ns.append(m.group(1)); continue
        m = re.match(r'end (\S+)', line)
        if m and ns and ns[-1] == m.group(1): ns.pop(); continue
        m = re.match(r'(?:@\[[^\]]*\] )?theorem ((?:C\d\d+)_\S+)', line)
        if m:
            n = m.group(1)
            thms.setdefault(n.split('_')[0], []).append('.'.join(ns + [n]))
notes = json.load(open(root + '/tools/notes.json'))
props = [json.loads(l)['id'] for l in open(root + '/properties.jsonl') if l.strip()]
claims = []
for p in props:
    t = thms.get(p, [])
    n = notes.get(p, {})
    if n.get('status') == 'not_applicable': st = 'not_applicable'
    elif not t: 
        continue
    elif n.get('status'): st = n['status']
    elif any('_partial' in x or '_violated' in x for x in t): st = 'partial'
    else: st = 'proved'
    claims.append({'property': p, 'status': st, 'theorems': t, 'note': n.get('note', '')})
for p in thms:
    if p not in props: print('WARNING: theorem for unknown property', p)
json.dump({'claims': claims}, open(root + '/MANIFEST.json', 'w'), indent=1)
print(len(claims), 'claims', sum(len(c['theorems']) for c in claims), 'theorems', [c['property'] for c in claims if c['status']=='partial'])
