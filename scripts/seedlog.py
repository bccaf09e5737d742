#!/usr/bin/env python3
"""seedlog.py results.jsonl mutations.json... [auto.jsonl]: write /verif/seeded/LOG.jsonl from the results of the mutation runs"""
import json,sys
EXCLUDE={'ma09','ua03','mb10','mb11'}  # equivalent or ill-typed edits
last={}
for l in open(sys.argv[1]):
    r=json.loads(l)
    if r['id'] not in EXCLUDE: last[r['id']]=r
res=list(last.values())
muts={}
auto=[f for f in sys.argv[2:] if f.endswith('.jsonl')]
for f in [f for f in sys.argv[2:] if f.endswith('.json')]:
    for m in json.load(open(f)): muts[m['id']]=m
tight={}
try: tight=json.load(open('/verif/seeded/tightened.json'))
except FileNotFoundError: pass
with open('/verif/seeded/LOG.jsonl','w') as o:
    for r in res:
        if 'error' in r or r['id'] not in muts: continue
        m=muts[r['id']]
        d=r['desc'].split(':')[0]
        o.write(json.dumps({'id':r['id'],'definition':d,'file':m['edits'][0]['file'],'edit':r['desc'].split(':',1)[1].strip() if ':' in r['desc'] else r['desc'],
          'change':[{'old':e['old'],'new':e['new']} for e in m['edits']],
          'claim_broken':r['breaks'],'theorems_failed':[x.replace('Ssp.','',1) for x in r['failed']],
          'proofs_that_stopped':r['errors'],'tightened':tight.get(r['id'],[])})+'\n')
    # generated mutants: the run stops at the first theorem that fails
    for f in auto:
        for l in open(f):
            r=json.loads(l)
            if r['verdict'] in ('invalid','stale'): continue
            o.write(json.dumps({'id':r['id'],'definition':r['defn'],'file':r['file'],'edit':'line %d (generated)'%(r['line']+1),
              'change':[{'old':r['old'],'new':r['new']}],'claim_broken':'any','theorems_failed':[],
              'proofs_that_stopped':r['errs'],'verdict':r['verdict'],'note':tight.get(r['id']+'_note',''),'tightened':tight.get(r['id'],[])})+'\n')
