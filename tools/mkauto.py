import json,re,os
V={'2':{},'1':{},'3':{}}
def t(c,ids,v):
    for i in ids.split(): V[c][i]=v
T=lambda *n:('tight',list(n)); E=lambda n:('equivalent',n); U=lambda n:('unreachable',n)
t('3','0025 0027',E('the edited value is a debug evaluation that is discarded')); t('3','0247',U('the branch needs an empty list of knots'))
t('2','0006',T('C33_annual_interest'))
t('2','0011 0012',T('C102_bond_tenor')); t('2','0033',T('C102_bond_no_period')); t('2','0041',T('C102_bond_before_dated'))
t('2','0071 0099 0108',T('C102_bond_zero_division')); t('2','0139',E('the edited index only selects among values the theorems leave arbitrary'))
t('2','0198',T('C77_slice_back')); t('2','0200 0208 0221 0222 0255',E('the edited program gives the same results'))
t('2','0243',T('C78_sizes_partial')); t('2','0273',U('the branch needs an empty grid')); t('2','0275 0277',T('C102_curve_stale_grid'))
t('2','0284',T('C102_curve_no_knots')); t('2','0295 0298',T('C102_curve_reset_index')); t('2','0326',E('the edited value is a debug evaluation that is discarded'))
t('2','0911 0913 0923',T('C102_key_rate_replace')); t('2','0917',U('the branch cannot be reached')); t('2','0977',T('C81_clear_empty'))
t('2','0988 0989',U('the method always raises earlier (C81_reverse_raises)')); t('2','1005 1012 1050',T('C102_loan_arguments')); t('2','1007',T('C39_zero_rate'))
t('2','1597',T('C102_schedule_arguments')); t('2','1676',U('index -len is not asked for')); t('2','1679 1682',U('the branch cannot be reached'))
t('2','1705',T('C55_wrong_order')); t('2','1741',T('C57_unset')); t('2','1744 1747 1755',E('the trapezoid branches are algebraically equal'))
t('2','1761',E('the old accrual is always 0 there')); t('2','1767',T('C103_default_times')); t('2','1771',T('C102_no_path'))
t('2','1784 1790 1795',T('C102_swap_arguments')); t('2','1800',T('C102_swap_legs')); t('2','1842',T('C102_vasicek_zero_speed'))
t('2','1847',E('x 1 = x 0 in Fin 1')); t('2','1861 1862 1863 1864',T('C102_vasicek_setters'))
t('1','0026',('unreachable','the branch is unreachable, now proved in C73_bond_knot')); t('1','0040',T('C94_treasury_future_raises'))
t('1','0054 0068 0070 0114 0115 0267 0282',E('the edited program gives the same results')); t('1','0089 0102 0106 0113 0229 0237',U('the branch cannot be reached'))
t('1','0093',T('C27_empty')); t('1','0141 0142',('removed','the definition was not used and has been removed')); t('1','0154 0155',T('C96_weekday')); t('1','0167',T('C08_datetimes'))
t('1','0217 0218',T('C22_constructor')); t('1','0243',T('C102_key_rate_index')); t('1','0281',T('C102_loan_frequency')); t('1','0299',T('C102_starting_values'))
t('1','0313 0314 0315 0317',T('C102_doubly_setters')); t('1','0324 0331 0337',T('C102_abstract_classes'))
props={}
for l in open('/verif/properties.jsonl'):
    d=json.loads(l); props[d['id']]=d['title']
re_={}
for l in open('auto/re.jsonl'):
    d=json.loads(l); re_[d['id']]=d
import glob
from collections import defaultdict,deque
DECL=re.compile(r'^(?:private |noncomputable |protected |@\[[^\]]*\] )*(theorem|lemma|def|example|instance|structure|inductive|abbrev)\b\s*([^\s:({\[]*)')
users=defaultdict(set)
for f in glob.glob('/verif/lean/Verif/**/*.lean',recursive=True):
    cur=None
    for l in open(f):
        m=DECL.match(l)
        if m: cur=m.group(2).split('.')[-1] or None
        if cur:
            for tok in re.findall(r"[A-Za-z_\u0370-\u03ff][\w'₀-₉.]*",l):
                users[tok.split('.')[-1]].add(cur)
def down(n):
    n=n.split(' ')[-1].split('.')[-1]
    q=deque([n]); seen={n}
    while q:
        x=q.popleft()
        m=re.match(r'(C\d+)_',x)
        if m: return m.group(1),x
        for y in sorted(users[x]):
            if y not in seen: seen.add(y); q.append(y)
def claim(names):
    for n in names:
        m=re.match(r'(C\d+)_',n.split('.')[-1])
        if m: return m.group(1)+': '+props[m.group(1)]
    for n in names:
        d=down(n)
        if d and d[0] in props: return d[0]+': '+props[d[0]]+' (through '+n+', used for '+d[1]+')'
    return 'the statement of '+names[0]
out=[];bad=[]
for c in '123':
    for l in open(f'auto/res_{c}_0.jsonl'):
        d=json.loads(l)
        if d['status']=='invalid': continue
        names=[e[1] if isinstance(e,list) else e for e in d['errs']]
        o={'id':d['id'],'definition':f"{d['defn']} ({d['file']})",'edit':'mechanical: '+d['old']+' -> '+d['new'],'from':d['oldline'].strip(),'to':d['newline'].strip()}
        if d['status']=='killed':
            if not names: bad.append(d['id']); continue
            o.update(claim_broken=claim(names),theorems_failed=names,theorems_tightened=[],result='killed')
        else:
            k=d['id'][-4:]; v=V[c].get(k)
            if not v: bad.append(d['id']); continue
            if v[0]=='tight':
                o.update(claim_broken=claim(v[1]),theorems_failed=[],theorems_tightened=v[1],result='survived')
            else:
                o.update(claim_broken='none: '+v[1],theorems_failed=[],theorems_tightened=[],result='survived',note=v[0])
        out.append(o)
        r=re_.get(d['id'])
        if d['status']=='survived' and r and not r['ok']:
            n2=[e[1] for e in r['errs']]
            o2=dict(o); o2.update(claim_broken=claim(n2),theorems_failed=n2,theorems_tightened=[],result='killed',note='run again after tightening'); out.append(o2)
print(len(out),'auto; unresolved',bad)
with open('/verif/seeded/LOG.jsonl','a') as f:
    for o in out: f.write(json.dumps(o,ensure_ascii=False)+'\n')
