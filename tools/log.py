#!/usr/bin/env python3
"""Writes seeded/LOG.jsonl from seeded/mutants.json, the results of tools/mutate.py and seeded/tightened.json
(mutant id -> [theorems tightened or added because of it, remark])."""
import json
muts=json.load(open('/verif/seeded/mutants.json')); tight=json.load(open('/verif/seeded/tightened.json'))
res={}
for l in open('/tmp/scratch/results.jsonl'):
    r=json.loads(l); res[r['id']]=r
out=[]
for m in muts:
    r=res.get(m['id'])
    if not r or r['status']!='ok': continue
    t=tight.get(m['id'],[[],''])
    br=r['broken']; isC=lambda b: b[:1]=='C' and b[1:3].isdigit()
    o={'id':m['id'],'definition':m['def'],'edit':m['edit'],
       'diff':[{'file':'lean/Verif/'+e['file'],'old':e['old'],'new':e['new']} for e in m['edits']],
       'claim_broken':m['claim'],
       'theorems_failed':sorted(set(r['failed'])|{b for b in br if isC(b)}),
       'own_proof_failed':[b for b in br],
       'theorems_tightened':t[0]}
    if t[1]: o['remark']=t[1]
    if not o['theorems_failed'] and not t[1]: print('SURVIVOR',m['id'],m['def'],m['edit'],m['claim'],'lemmas:',br[:5])
    out.append(json.dumps(o,ensure_ascii=False))
open('/verif/seeded/LOG.jsonl','w').write('\n'.join(out)+'\n')
print(len(out),'entries')
