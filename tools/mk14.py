import json,glob
M=[]
def m(i,f,o,n,e,c,all=False): M.append(dict(id=i,file='Model/'+f,old=o,new=n,edit=e,claim=c,all=all))
R='RoundedRisk.lean'
m('q01',R,"        .ok (rnd (first.value + a))","        .ok first.value","the adjustment ignored before the first knot","C128_value / C128_exact")
m('q02',R,"      .ok (rnd (y + a))","      .ok (rnd (y - a))","the adjustment subtracted","C128_value / C128_pv01")
m('q03',R,"if linear then interpLinear rnd grid x else interpPrevious grid x","if linear then interpPrevious grid x else interpLinear rnd grid x","the interpolation methods exchanged","C128_value")
m('q04',R,"    if d < first.date then\n      match left with","    if d ≤ first.date then\n      match left with","the first knot treated as outside","C128_value / C128_exact")
m('q05',R,"    else if last.date < d then .error","    else if last.date ≤ d then .error","the last knot treated as outside","C128_value")
m('q06',R,"exp (rnd (-ya.1 * ya.2))","exp (rnd (ya.1 * ya.2))","sign of the exponent dropped","C128_value")
m('q07',R,"exp (rnd (-ya.1 * ya.2))","exp (rnd (-ya.1))","yield not multiplied by the time","C128_value")
m('q08',R,"exp (rnd (-ya.1 * ya.2))","rnd (1 - ya.1 * ya.2)","first-order discounting","C128_value")
m('q09',R,"(yields.zip accruals)","(accruals.zip accruals)","accruals used as yields","C128_value")
m('q10',R,"  presentValue rnd schedule ⟨ref, interpolate rnd knots dcc ref true","  presentValue rnd schedule ⟨ref, interpolate rnd knots dcc ref false","discount curve not linear","C128_exact")
m('q11',R,"ref true .error (fun _ => .ok 0)⟩","ref true .error adj⟩","the adjustment applied twice","C128_value")
m('q12',R,"(rnd (-bp / 2))","(rnd (-bp))","a whole basis point down","C128_pv01")
m('q13',R,"(rnd (bp / 2))","(rnd (-bp / 2))","both bumps down","C128_pv01")
m('q14',R,"div rnd (rnd (up - down)) bp","div rnd (rnd (down - up)) bp","difference the wrong way round","C128_pv01")
m('q15',R,"  .ok (rnd (deriv * bp))","  .ok deriv","derivative returned instead of pv01","C128_pv01")
m('q16',R,"div rnd (rnd (up - down)) bp","div rnd (rnd (up - down)) (rnd (bp / 2))","divided by half a basis point","C128_pv01")
m('q17',R,"  let bp := rnd oneBasisPoint","  let bp := rnd (oneBasisPoint * 10)","ten basis points","C128_pv01")
m('q18',R,"let dates ← YieldCurve.dateRange ref last.date","let dates ← YieldCurve.dateRange last.date last.date","only the last day discounted","C128_value")
seen={}
for f in glob.glob('mut*.json'):
    if f=='mut14.json': continue
    for x in json.load(open(f)): seen[(x['file'],x['old'],x['new'])]=x['id']
M2=[]
for x in M:
    k=(x['file'],x['old'],x['new'])
    if k in seen: print('dup',x['id'],seen[k]); continue
    M2.append(x)
json.dump(M2,open('mut14.json','w'),indent=1,ensure_ascii=False)
for x in M2:
    s=open('/verif/lean/Verif/'+x['file']).read()
    if s.count(x['old'])!=1: print(x['id'],s.count(x['old']))
