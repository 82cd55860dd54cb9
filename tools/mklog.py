#!/usr/bin/env python3
"""Collect the results of the mutation runs (written outside /verif) into seeded/LOG.jsonl.
usage: mklog.py RES.jsonl... ; reads tools/tightened.json: {"<definition>|<claim>": {"theorems": [...], "note": "..."}}"""
import sys, json, os
here=os.path.dirname(os.path.abspath(__file__))
T=json.load(open(here+'/tightened.json'))
out=[]; seen=set(); used=set()
for f in sys.argv[1:]:
    for l in open(f):
        r=json.loads(l)
        k=r['definition']+'|'+r['claim']
        t=T.get(k) if r['status']=='SURVIVED' else None
        if r['status']=='SURVIVED' and t is None: print('UNEXPLAINED SURVIVOR',k)
        if t: used.add(k)
        import re
        ids=sorted({m for n in r['failed']+(t or {}).get('theorems',[]) for m in re.findall(r'^C\d+',n)})
        o=dict(definition=r['definition'],file=r['file'],edit=r['old']+'  ==>  '+r['new'],claim=r['claim']+(' (breaks '+', '.join(ids)+')' if ids else ''),
               outcome={'SURVIVED':'survived','killed':'killed','MODELFAIL':'killed (model file itself no longer checks)'}[r['status']],
               failed=r['failed'],tightened=(t or {}).get('theorems',[]))
        if t and t.get('note'): o['note']=t['note']
        key=json.dumps(o,sort_keys=True)
        if key in seen: continue
        seen.add(key); out.append(o)
for k in T:
    if k not in used: print('UNUSED',k)
open(here+'/../seeded/LOG.jsonl','w').write(''.join(json.dumps(o,ensure_ascii=False)+'\n' for o in out))
print(len(out))
