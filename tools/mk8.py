import json
M=[]
def m(i,f,o,n,e,c,all=False): M.append(dict(id=i,file='Model/'+f,old=o,new=n,edit=e,claim=c,all=all))
P='PathCurve.lean'
m('p01',P,"else if x < x1 then .ok (y0 + ((x - x0 : ℚ) : ℝ) * ((y1 - y0) / ((x1 - x0 : ℚ) : ℝ)))","else if x < x1 then .ok y0","interpolates as 'previous' instead of linearly","C103_linear")
m('p02',P,"else if x < x1 then .ok (y0 +","else if x < x1 then .ok (y1 +","line drawn from the wrong knot","C103_discount_curve")
m('p03',P,"let knots := pySorted DtKnot.knot values","let knots := values","knots not sorted","C103 sorted knots (input order)")
m('p04',P,"    | .date _ => .error .typeError\n    | .datetime d micros h =>\n      let t","    | .date _ => .ok first.value\n    | .datetime d micros h =>\n      let t","a plain date silently gets the first value","C103_discount_curve")
m('p05',P,"if t < first.knot then\n        match c.left","if t ≤ first.knot then\n        match c.left","left boundary excluded","C103_discount_curve")
m('p06',P,"else if last.knot < t then","else if last.knot ≤ t then","right boundary excluded","C103_discount_curve")
m('p07',P,"| .constant => .ok last.value\n        | .error => .error .valueError","| .constant => .ok last.value\n        | .error => .ok last.value","flat extrapolation instead of an error","C103_discount_curve")
m('p08',P,"let x ← dtAccrual c.reference t c.dcc","let x ← dtAccrual c.reference t .act365","lookup axis ignores the curve's convention","C103_discount_curve")
m('p09',P,"if c.reference ≤ (⟨d, micros, h⟩ : PyDatetime) then do","if c.reference < (⟨d, micros, h⟩ : PyDatetime) then do","payment at the reference datetime dropped","C103_present_value")
m('p10',P,".ok (df * a + rest)",".ok (a + rest)","payments not discounted","C103_present_value")
m('p11',P,"      | .date _ => .error .typeError\n      | .datetime d micros h =>\n        if","      | .date _ => presentValue c ps\n      | .datetime d micros h =>\n        if","date payments skipped silently","C103_date_cashflow")
m('p12',P,"(.ok kvs, m') => (DtCurve.create (kvs.map fun kv => ⟨kv.1, kv.2⟩) m'.bm.dcc m'.bm.start .error .error, m')","(.ok kvs, m') => (DtCurve.create (kvs.map fun kv => ⟨kv.1, kv.2⟩) m'.bm.dcc m'.bm.start .constant .constant, m')","discount curve extrapolates","C103_discount_curve")
m('p13',P,"DtCurve.create (kvs.map fun kv => ⟨kv.1, kv.2⟩) m.bm.dcc m.bm.start .error .error\n","DtCurve.create (kvs.map fun kv => ⟨kv.1, kv.2⟩) m.bm.dcc m.bm.stop .error .error\n","accrual curve's reference is the end","C103_accrual_curve")
m('p14','Stochastic.lean',"| some vs => .ok ((m.bm.start, 1) :: dts.zip (vs.map Real.exp))","| some vs => .ok ((m.bm.start, 1) :: dts.zip (vs.map fun v => Real.exp (-v)))","accrual curve is the discount curve","C103_inverse, C57")
m('p15','Stochastic.lean',"    | none => .error .typeError\n    | some vs => .ok ((m.bm.start","    | none => .ok [(m.bm.start, 1)]\n    | some vs => .ok ((m.bm.start","accrual curve without integrated path returns one knot","C57_accrual_fresh")
R='RoundedLoan.lean'
m('p16',R,"let interest := rnd (rnd (acc * rate) * remaining)","let interest := rnd (acc * remaining)","interest ignores the rate","C100")
m('p17',R,"let candidate := rnd (rnd (amount - interest) + extra)","let candidate := rnd (amount + extra)","interest not deducted from the instalment","C100")
m('p18',R,"let principal := if remaining ≤ candidate then remaining else candidate","let principal := candidate","last payment not capped","C100_amortization")
m('p19',R,"if remaining ≤ candidate then rnd (remaining + interest) else amount","if remaining ≤ candidate then remaining else amount","last payment without interest","C100")
m('p20',R,"paymentLoop rnd rate dcc (rnd (remaining - principal)) amount rest","paymentLoop rnd rate dcc (rnd (remaining - amount)) amount rest","balance reduced by the whole payment","C100")
m('p21',R,".ok (⟨ed, amount, principal, interest⟩ :: ps)",".ok (⟨sd, amount, principal, interest⟩ :: ps)","payments dated at the period's start","C100/C38 dates")
m('p22','Curve.lean',"  let knots := pySorted Knot.date values\n  match makeGrid c.referenceDate c.dcc knots with","  let knots := values\n  match makeGrid c.referenceDate c.dcc knots with","reset does not sort","C97_reset_values")
m('p23','Curve.lean',"    let knots := c.knots.set index new\n","    let knots := c.knots.set (index + 1) new\n","replaces the following knot","C97_replace_value")
m('p24','Curve.lean',"    | .ok g => (.ok (), { c with knots := knots, grid := g })\n    | .error e => (.error e, { c with knots := knots })\n  else","    | .ok g => (.ok (), { c with knots := knots })\n    | .error e => (.error e, { c with knots := knots })\n  else","interpolator not rebuilt after replacing a value","C97_replace_value")
m('p25','Datetime.lean',"    if (if positive then d ≤ stop else stop ≤ d) then do","    if (if positive then d < stop else stop < d) then do","end date excluded from the grid","C08_datetimes")
m('p26','Datetime.lean',"  | .timedelta k => .ok (decide (0 ≤ k))","  | .timedelta k => .ok (decide (k ≤ 0))","sign of the increment reversed","C08_datetimes")
m('p27','Datetime.lean',"  incrementLoop inc pos stop (maxDates + 1) start","  incrementLoop inc pos stop maxDates start","one date fewer than the limit allows","C08_datetimes")
m('p28','DayCount.lean',"__X__","","placeholder","")
M.pop()
json.dump(M,open('mut8.json','w'),indent=1,ensure_ascii=False)
