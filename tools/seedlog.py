#!/usr/bin/env python3
"""Turns the results of the mutation harness (seeded/mut.py, /tmp/mut/out) into seeded/LOG.jsonl, and reports survivors."""
import json,os,sys
V='/verif/seeded'
TIGHT=json.load(open(V+'/tightened.json')) if os.path.exists(V+'/tightened.json') else {}
out=[];surv=[]
for spec in ['mutants3.py','mutants.py','mutants2.py','mutants4.py','mutants5.py','mutants6.py','mutants7.py','mutants8.py','mutants9.py','mutants10.py','mutants11.py','mutants12.py','mutants13.py','mutants14.py',"mutants15.py", "mutants16.py","mutants17.py","mutants18.py","mutants19.py","mutants20.py","mutants21.py","mutants22.py","mutants23.py","mutants24.py","mutants25.py","mutants26.py","mutants27.py"]:
    if not os.path.exists(f'{V}/{spec}'): continue
    g={}; exec(open(f'{V}/{spec}').read(),g)
    for m in g['MUTS']:
        p=f"/tmp/mut/out/{m['name']}.json"
        if not os.path.exists(p): continue
        r=json.load(open(p))
        if r.get('error'): print('ERROR',m['name'],r['error']); continue
        props=m['props'].split() if isinstance(m['props'],str) else m['props']
        cl=[n for n in r['dead'] if any(('.'+n).split('.')[-1].startswith(q+'_') for q in props)]
        miss=[q for q in props if not any(n.split('.')[-1].startswith(q+'_') for n in r['dead'])]
        if miss and m['name'] not in TIGHT: surv.append((m['name'],miss,len(r['dead'])))
        out.append(dict(name=m['name'],definition=m['defn'],
            edit=[dict(file=f'lean/Verif/{f}.lean',old=o,new=n) for f,o,n in m['edits']],
            claim_broken=m['claim'],properties=props,
            theorems_failed=sorted(set(cl)|set(r['own'])),
            other_theorems_that_lost_their_proof=len(set(r['dead'])-set(cl)),
            theorems_tightened=TIGHT.get(m['name'],[])))
open(V+'/LOG.jsonl','w').write(''.join(json.dumps(x,ensure_ascii=False)+'\n' for x in out))
print(len(out),'entries'); print('survivors:')
for s in surv: print(s)
