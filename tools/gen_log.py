#!/usr/bin/env python3
"""Convert the results of the mutation harness to /verif/seeded/LOG.jsonl.  Entries of tools/log_notes.py override."""
import sys,json,os
sys.path.insert(0,'/tmp/mt'); sys.path.insert(0,os.path.dirname(__file__))
try: from log_notes import NOTES
except ImportError: NOTES={}
out=[]
for name in sorted(f[:-3] for f in os.listdir('/tmp/mt') if f.endswith('.py') and f[0]=='m' and f[1].isdigit()):
    mod=__import__(name); ms={m['id']:m for m in mod.M}
    p=f'/tmp/mt/{name}.res.jsonl'
    if not os.path.exists(p): continue
    last={}
    for l in open(p):
        r=json.loads(l); last.setdefault(r['id'],[]).append(r)
    for id,rs in last.items():
        if id not in ms: continue
        m=ms[id]; r=rs[-1]
        if r['status']=='BADPATTERN': continue
        n=NOTES.get(id,{})
        short=lambda x: x.replace('Drift.','',1)
        failed=sorted({short(x) for x in r.get('direct',[])})
        e=dict(id=id,definition=m['defn'],file='lean/Verif/'+m['file'],edit=m['old']+'  =>  '+m['new'],claim_broken=m['claim'],
               properties=m['expect'],outcome=r['status'],theorems_failed=failed,
               property_theorems_failed=sorted(r.get('hit',[])),
               theorems_tightened=n.get('tightened',[]))
        if n.get('note'): e['note']=n['note']
        out.append(e)
os.makedirs('/verif/seeded',exist_ok=True)
# keep entries not produced by the harness
keep=[]
P='/verif/seeded/LOG.jsonl'
ids={e['id'] for e in out}
if os.path.exists(P):
    for l in open(P):
        if l.strip():
            e=json.loads(l)
            if e.get('id') not in ids: keep.append(e)
with open(P,'w') as f:
    for e in keep+out: f.write(json.dumps(e,ensure_ascii=False)+'\n')
print(len(keep),'kept',len(out),'from harness')
