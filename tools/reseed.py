#!/usr/bin/env python3
"""Re-run survivors of the automated campaigns against the current development (all of /verif/lean, examples included)."""
import json,sys,time,seed
skip=set(sys.argv[2].split(',')) if len(sys.argv)>2 else set()
camp=sys.argv[1]
ms={x['id']:x for x in json.load(open(f'/tmp/work/auto/mut_{camp}.json'))}
done={json.loads(l)['id'] for l in open('/tmp/work/auto/re.jsonl')} if __import__('os').path.exists('/tmp/work/auto/re.jsonl') else set()
surv=[]
for l in open(f'/tmp/work/auto/res_{camp}_0.jsonl'):
    r=json.loads(l)
    if r.get('status')=='survived': surv.append(r['id'])
seed.sync()
for i in surv:
    if i in skip or i in done: continue
    m=ms[i]; p=f"{seed.DST}/Verif/{m['file']}"; s=open(p).read(); L=s.split('\n')
    c=[k for k,x in enumerate(L) if x.strip()==m['oldline'].strip()]
    if not c: print(i,'NOLINE'); continue
    k=min(c,key=lambda k:abs(k-(m['line']-1)))
    L2=L[:]; L2[k]=L[k].replace(m['oldline'].strip(),m['newline'].strip()); open(p,'w').write('\n'.join(L2))
    t=time.time(); ok,errs,o=seed.build(); open(p,'w').write(s)
    with open('/tmp/work/auto/re.jsonl','a') as f: f.write(json.dumps({'id':i,'ok':ok,'errs':errs})+'\n')
    print(i,m['defn'],'SURVIVED' if ok else 'killed',[e[1] for e in errs][:8],'%ds'%(time.time()-t),flush=True)
