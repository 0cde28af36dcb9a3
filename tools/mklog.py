import json,re
TIGHT={'k05':['C49_key_rates'],'w07':['C62_term_leg'],'s08':['C08_months_bounds'],'t15':['C58_set_dt'],'t17':['C57_set_dt_resets'],'o03':['C50_bounds']}
try: TIGHT.update(json.load(open('/tmp/work/tight.json')))
except FileNotFoundError: pass
EQ=json.load(open('/tmp/work/equiv.json')) if __import__('os').path.exists('/tmp/work/equiv.json') else {'l06':'equivalent program: the edited branch gives the same result, the claim stays true'}
recs=[json.loads(l) for l in open('/tmp/work/seed_results.jsonl')]
EXTRA={'w10':['C62_term_leg (checked separately with the failing examples removed)']}
import collections
seen_surv=set(); out=[]; last={}
for r in recs: last[r['id']]=r
def defname(r):
    s=open('/verif/lean/Verif/'+r['file']).read()
    i=s.find(r['old'])
    if i<0: return r['file']
    nm='?'
    ns=[]
    for m in re.finditer(r'^(?:@\[[^\]]*\] )?(?:noncomputable )?(?:def|structure|inductive|abbrev) ([^\s:({\[]+)|^namespace (\S+)|^end (\S+)',s[:i],re.M):
        if m.group(1): nm='.'.join(ns+[m.group(1)])
        elif m.group(2): ns.append(m.group(2))
        elif m.group(3) and ns: ns.pop()
    return nm+' ('+r['file']+')'
done=set()
for r in recs:
    th=[e[1] for e in r['errs']]+EXTRA.get(r['id'],[])
    if r['ok']:
        if (r['id'],r['old'],r['new']) in done: continue
        done.add((r['id'],r['old'],r['new']))
        o={'id':r['id'],'definition':defname(r),'edit':r['edit'],'claim_broken':r['claim'],'theorems_failed':[],'theorems_tightened':TIGHT.get(r['id'],[]),'result':'survived','from':r['old'],'to':r['new']}
        if r['id'] in EQ: o['note']=EQ[r['id']]
        out.append(o)
    else:
        out.append({'id':r['id'],'definition':defname(r),'edit':r['edit'],'claim_broken':r['claim'],'theorems_failed':th,'theorems_tightened':[],'result':'killed','from':r['old'],'to':r['new']})
uniq=[];
for o in out:
    if o not in uniq: uniq.append(o)
out=uniq
for o in out:
    if o['id']=='s08' and o['theorems_failed']==['C33_coupons']: o['theorems_tightened']=['C08_months_bounds']
keys={}
for o in out:
    ks=keys.setdefault(o['id'],[]); k=(o['from'],o['to'])
    if k not in ks: ks.append(k)
    n=ks.index(k)
    if n: o['id']=o['id']+'abcdefgh'[n]
with open('/verif/seeded/LOG.jsonl','w') as f:
    for o in out: f.write(json.dumps(o,ensure_ascii=False)+'\n')
print(len(out),[o['id'] for o in out if o['result']=='survived'])
# diff text
