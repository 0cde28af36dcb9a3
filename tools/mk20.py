import json
M=[]
def m(i,f,o,n,e,c,all=False): M.append(dict(id=i,file='Model/'+f,old=o,new=n,edit=e,claim=c,all=all))
D='GeometricInit.lean'
m('gi01',D,"let motion ← SizedBrownian.create start stop dimension corr\n","let motion ← SizedBrownian.create stop start dimension corr\n","start and end of the Brownian motion swapped","C141_constructor")
m('gi02',D,".ok ⟨drift, volatility, dt, motion, none⟩",".ok ⟨volatility, drift, dt, motion, none⟩","drift and volatility swapped in the constructor","C141_constructor, C141_simulated")
m('gi03',D,"create drift volatility start stop dimension 1 dt","create drift volatility start stop dimension 0 dt","zero matrix instead of the identity","C141_default")
m('gi04',D,"else if xs.length = 1 then some (fun _ => xs.headD 0)\n","","no broadcasting of a single number","C141_starting_value")
m('gi05',D,"else if xs.length = 1 then some","else if xs.length ≤ 1 then some","an empty array broadcast","C141_starting_value")
m('gi06',D,"| .float _ => (.error .attributeError, { g with motion := b })","| .float _ => (.ok [], { g with motion := b })","a float accepted","C141_starting_value")
m('gi07',D,"path := if set then some path else g.path","path := some path","path stored although not asked for","C141_repeatable")
m('gi08',D,"path := if set then some path else g.path","path := if set then some path else none","path cleared when not asked for","C141_repeatable")
m('gi09',D,"| none => (.error .valueError, { g with motion := b })","| none => (.error .valueError, { g with motion := b, path := none })","a failed simulation drops the stored path","C141_repeatable")
m('gi10',D,"let path := Geometric.loop g.drift g.volatility (r.1.zip r.2) x","let path := Geometric.loop g.drift g.volatility (r.1.zip r.2).tail x","first increment left out","C141_starting_value, C141_simulated")
m('gi11',D,"let path := Geometric.loop g.drift g.volatility (r.1.zip r.2) x","let path := Geometric.loop g.drift g.volatility (r.1.zip r.2) ((g.path.getD []).getLastD x)","simulation continued from the stored path","C141_repeatable")
D='KeyRate.lean'
m('kb01',D,"    if f ≤ d ∨ d ≤ p then .ok 0","    if f ≤ d ∨ d < p then .ok 0","boundary of the window at the prior date","C140 (same value: the ramp is zero there)")
m('kb02',D,"      let timeSincePrior ← DayCount.accrual p d k.dcc\n","      let timeSincePrior ← DayCount.accrual p d .act360\n","rising ramp measured in ACT/360 whatever the convention","C140_yield")
m('kb03',D,"    if k.keyDate ≤ d then .ok k.bump\n    else if d ≤ p then .ok 0","    if d ≤ p then .ok 0\n    else if p < d then .ok k.bump","bump jumps to its full size after the prior date","C140_yield")
D='Curve.lean'
m('kb04',D,"      let x ← axis c.referenceDate c.dcc d\n      let y ← c.interpolator x\n      let a ← adj (.date d)\n      .ok (y + a)","      let x ← axis c.referenceDate c.dcc d\n      let y ← c.interpolator x\n      let a ← adj (.date c.referenceDate)\n      .ok (y + a)","adjustment taken at the reference date","C140_curve")
m('kb05',D,"let v ← yc.base.interpolate k.date adj","let v ← yc.base.interpolate k.date noAdjustment","bump ignored in discount-factor space","C140_risk")
json.dump(M,open('mut20.json','w'),indent=1,ensure_ascii=False)
for x in M:
    s=open('/verif/lean/Verif/'+x['file']).read()
    if s.count(x['old'])!=1: print(x['id'],s.count(x['old']))
