import json,glob
M=[]
def m(i,f,o,n,e,c,all=False): M.append(dict(id=i,file='Model/'+f,old=o,new=n,edit=e,claim=c,all=all))
R='RoundedRisk.lean'
m('r01',R,"let v ← interpolate rnd values dcc ref linear left adj k.date\n    .ok ⟨k.date, v⟩","let v ← interpolate rnd values dcc ref linear left (fun _ => .ok 0) k.date\n    .ok ⟨k.date, v⟩","discount factors not bumped","C129_value / C129_pv01")
m('r02',R,"let v ← interpolate rnd values dcc ref linear left adj k.date\n    .ok ⟨k.date, v⟩","let v ← interpolate rnd values dcc ref linear left adj ref\n    .ok ⟨k.date, v⟩","every knot evaluated at the reference date","C129_value")
m('r03',R,"    .ok ⟨k.date, v⟩) (pySorted Knot.date values)","    .ok ⟨k.date, v⟩) (pySorted Knot.date values).tail","first knot dropped","C129_value")
m('r04',R,"    .ok ⟨k.date, v⟩) (pySorted Knot.date values)","    .ok ⟨k.date, k.value⟩) (pySorted Knot.date values)","adjusted value discarded","C129_value")
m('r05',R,"interpolate rnd knots dcc ref linear .error (fun _ => .ok 0)⟩","interpolate rnd knots dcc ref linear .error adj⟩","the adjustment applied twice","C129_value")
m('r06',R,"interpolate rnd knots dcc ref linear .error (fun _ => .ok 0)⟩","interpolate rnd knots dcc ref true .error (fun _ => .ok 0)⟩","always linear","C129_value")
m('r07',R,"interpolate rnd knots dcc ref linear .error (fun _ => .ok 0)⟩","interpolate rnd knots dcc ref linear left (fun _ => .ok 0)⟩","the curve's own end behaviour used for the discount curve","C129_exact")
m('r08',R,"interpolate rnd knots dcc ref linear .error (fun _ => .ok 0)⟩","interpolate rnd values dcc ref linear .error (fun _ => .ok 0)⟩","unbumped knots interpolated","C129_value")
m('r09',R,"  pv01Of rnd (discountPresentValue rnd values dcc ref linear left schedule) k","  pv01Of rnd (fun _ => discountPresentValue rnd values dcc ref linear left schedule (fun _ => .ok 0)) k","risk without a bump","C129_pv01")
m('r10',R,"schedule (heap i)) c.keyRates","schedule (heap i)) c.keyRates.tail","first key rate missing from the ladder","C129_ladder")
m('r11',R,"schedule (heap i)) c.keyRates","schedule (heap 0)) c.keyRates","the same key rate throughout the ladder","C129_ladder")
seen={}
for f in glob.glob('mut[0-9]*.json'):
    if f=='mut15.json': continue
    for x in json.load(open(f)): seen[(x['file'],x['old'],x['new'])]=x['id']
M2=[]
for x in M:
    k=(x['file'],x['old'],x['new'])
    if k in seen: print('dup',x['id'],seen[k]); continue
    M2.append(x)
json.dump(M2,open('mut15.json','w'),indent=1,ensure_ascii=False)
for x in M2:
    s=open('/verif/lean/Verif/'+x['file']).read()
    if s.count(x['old'])!=1: print(x['id'],s.count(x['old']))
