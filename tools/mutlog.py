#!/usr/bin/env python3
"""Collect the results of the mutation runs (scratch copies under /tmp/mut) into seeded/LOG.jsonl."""
import json,glob,os
out='/verif/seeded/LOG.jsonl'
try: T=json.load(open('/verif/tools/tightened.json'))
except FileNotFoundError: T={}
seen=set(); rows=[]
if os.path.exists(out):
    for l in open(out):
        d=json.loads(l); k=(d['definition'],d['edit'])
        if k not in seen: seen.add(k); rows.append(d)
n=0
for f in sorted(glob.glob('/tmp/mut/res*.jsonl')):
    for l in open(f):
        d=json.loads(l)
        if d.get('model_error'): continue
        k=(d['definition'],d['edit'])
        if k in seen: continue
        seen.add(k); n+=1
        rows.append({'definition':d['definition'],'file':'Verif/'+d['file']+'.lean','edit':d['edit'],'claim_broken':d['breaks'],
          'theorems_failed':d['theorems_failed'],'theorems_depending_on_failed_lemmas':d.get('theorems_depending_on_failed_lemmas') or [],
          'survived':bool(d.get('built_ok')),'theorems_tightened':T.get(d['definition']+' '+d['edit'],[])})
for r in rows: r['theorems_tightened']=T.get(r['definition']+' '+r['edit'],r['theorems_tightened'])
with open(out,'w') as o:
    for r in rows: o.write(json.dumps(r,ensure_ascii=False)+'\n')
print(len(rows),'entries,',n,'new; survivors:',[(r['definition'],r['edit']) for r in rows if r.get('survived')])
