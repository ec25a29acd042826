#!/usr/bin/env python3
"""Append the results of mutate.py (MUTS.json.res) to seeded/LOG.jsonl.
usage: logmut.py RES [survivors.json]  (survivors: {index: {"tightened": [...], "note": "..."}})"""
import json,sys,re
titles={json.loads(l)['id']:json.loads(l)['title'] for l in open('/verif/properties.jsonl')}
surv=json.load(open(sys.argv[2])) if len(sys.argv)>2 else {}
with open('/verif/seeded/LOG.jsonl','a') as g:
    for i,m in enumerate(json.load(open(sys.argv[1]))):
        if '_failed' not in m: continue
        b=m['breaks']; pid=(re.match(r'C\d+',b) or [b[:3]])[0]; rest=b[len(pid):].lstrip(': ')
        claim=b if pid not in titles else '%s (%s)%s'%(pid,titles[pid],(': '+rest) if rest else '')
        e={"definition":m['def'],"file":m['file'],"edit":m['edit']+': `'+m['old']+'` -> `'+m['new']+'`',"claim_broken":claim,
           "theorems_failed":m['_failed'],"theorems_tightened":[]}
        s=surv.get(str(i))
        if s: e["theorems_tightened"]=s.get("tightened",[]); e["note"]=s["note"]
        elif not m['_failed']: e["note"]="survived"; print('survivor without a note:',i,m['def'],m['edit'])
        g.write(json.dumps(e)+'\n')
