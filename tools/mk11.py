import json
M=[]
def m(i,f,o,n,e,c,all=False): M.append(dict(id=i,file='Model/'+f,old=o,new=n,edit=e,claim=c,all=all))
P='PlainDates.lean'; V='Vasicek.lean'; R='MeanReverting.lean'; K='KeyRate.lean'; S='Stochastic.lean'; B='Bond.lean'; C='Curve.lean'; SC='Scheduler.lean'
m('r01',P,"else .error .typeError\n\n/-- `min(l)` after","else .ok (decide (a.instant ≤ b.instant))\n\n/-- `min(l)` after","a date compares with a datetime","C117_compare_raises")
m('r02',P,"if a.isDatetime = b.isDatetime then .ok (decide (a.instant ≤ b.instant))","if a.isDatetime = b.isDatetime then .ok (decide (a.instant < b.instant))","<= becomes <","C117_datetimes")
m('r03',P,"minLoop (if x.instant < best.instant then x else best) xs else .error .typeError","minLoop (if best.instant < x.instant then x else best) xs else .error .typeError","maximum instead of minimum","C117_datetimes")
m('r04',P,"| [] => .error .valueError\n  | x :: xs => minLoop x xs","| [] => .error .typeError\n  | x :: xs => minLoop x xs","empty list: another exception","C117")
m('r05',P,"| none => .error .valueError\n    | some _ => .error .typeError","| none => .error .valueError\n    | some _ => .ok 0","a plain purchase date gives a state","C117_purchase_raises")
m('r06',P,"let accrual ← v.core.timeAt (v.core.purchaseAt p) maturity\n  let weight := Real.exp (-v.speed * (accrual : ℝ))","let accrual ← v.core.timeAt v.core.bm.start.like maturity\n  let weight := Real.exp (-v.speed * (accrual : ℝ))","purchase date dropped in the expected rate","C117_datetimes")
m('r07',P,"let c ← v.priceCoeffsAt maturity none\n  let r ← v.core.callAt (v.core.purchaseAt p)\n  .ok (Real.exp (c.1 + c.2 * r))","let c ← v.priceCoeffsAt maturity p\n  let r ← v.core.callAt (v.core.purchaseAt p)\n  .ok (Real.exp (c.1 + c.2 * r))","purchase date passed on","C117_datetimes")
m('r08',V,"let intercept ← floatDiv (term1 + term2) accrual\n  let c ← floatDiv (-coefficient) accrual\n  .ok (intercept, c)","let intercept ← floatDiv (term1 - term2) accrual\n  let c ← floatDiv (-coefficient) accrual\n  .ok (intercept, c)","sign of the convexity term of the yield","C113 / C47")
m('r09',V,"let convexityLimit ← floatDiv (-vol ^ 2) (2 * speed ^ 2)\n  .ok { mean","let convexityLimit ← floatDiv (vol ^ 2) (2 * speed ^ 2)\n  .ok { mean","sign of the convexity limit","C113 / C47")
m('r10',V,"let intercept ← floatDiv (term1 + term2) accrual\n  let c ← floatDiv (-coefficient) accrual\n  .ok (intercept, c)","let intercept ← floatDiv (term1 + term2) accrual\n  let c ← floatDiv coefficient accrual\n  .ok (intercept, c)","yield falls with the short rate","C113 / C47")
m('r11',R,"!![q.longSpeed, 0, 0; -q.mediumSpeed, q.mediumSpeed, 0; 0, -q.shortSpeed, q.shortSpeed]","!![q.longSpeed, 0, 0; -q.longSpeed, q.mediumSpeed, 0; 0, -q.shortSpeed, q.shortSpeed]","the medium rate follows at the wrong speed","C69")
m('r12',R,"!![q.longSpeed, 0, 0; -q.mediumSpeed, q.mediumSpeed, 0; 0, -q.shortSpeed, q.shortSpeed]","!![q.longSpeed, 0, 0; -q.mediumSpeed, q.mediumSpeed, 0; -q.shortSpeed, 0, q.shortSpeed]","the short rate reverts to the long rate","C69")
m('r13',R,"!![q.riskSpeed, 0, 0; -q.mediumVol, q.mediumSpeed, 0; 0, -q.shortSpeed, q.shortSpeed]","!![q.riskSpeed, 0, 0; -q.mediumSpeed, q.mediumSpeed, 0; 0, -q.shortSpeed, q.shortSpeed]","the price of risk scaled by the speed","C69_risk_price")
m('r14',R,"q.longVol * q.mediumVol * q.mediumLong, q.mediumVol ^ 2, q.mediumVol * q.shortVol * q.shortMedium;\n     q.longVol * q.shortVol * q.shortLong","q.longVol * q.mediumVol * q.mediumLong, q.mediumVol ^ 2, q.mediumVol * q.shortVol * q.shortLong;\n     q.longVol * q.shortVol * q.shortLong","wrong correlation in the variance","C69")
m('r15',R,"def level (q : TreblyParams) : Vec 3 := ![q.mean, q.mean, q.mean]","def level (q : TreblyParams) : Vec 3 := ![q.mean, 0, 0]","only the long rate has a level","C69")
m('r16',SC,"    if d ≤ endDate then do\n      let d' ← addSingleBusinessDay cal d\n      let rest","    if d < endDate then do\n      let d' ← addSingleBusinessDay cal d\n      let rest","end date excluded","C112 / C07")
m('r17',SC,"let d ← addBusinessDays cal startDate 0\n  businessDayLoop","let d ← addBusinessDays cal startDate 1\n  businessDayLoop","list starts one business day late","C112 / C07")
m('r18',K,"let ids := c.keyRates.eraseIdx k\n    let r := setDates h ids\n    (r.1, { c with keyRates := ids }, r.2)","let ids := c.keyRates.eraseIdx k\n    (.ok (), { c with keyRates := ids }, h)","deletion does not rewire","C114 / C52")
m('r19',K,"if (h new).keyDate < n then","if (h new).keyDate ≤ n then","replacement may coincide with its neighbour","C114 / C52")
m('r20',S,"fun i => ∑ j, chol i j * (z j * Real.sqrt (dt : ℝ))","fun i => ∑ j, chol i j * (z j * (dt : ℝ))","no square root","C116 / C56")
m('r21',S,"fun i => ∑ j, chol i j * (z j * Real.sqrt (dt : ℝ))","fun i => ∑ j, chol j i * (z j * Real.sqrt (dt : ℝ))","transposed factor","C56 / C116")
m('r22',S,"| (shock, dt) :: rest, time, x => x :: euler coords rest (time + dt) (step coords time x shock dt)","| (shock, dt) :: rest, time, x => x :: euler coords rest (time + dt) (step coords (time + dt) x shock dt)","coefficients read at the end of the step","C45 / C116")
m('r23',B,"let power : ℝ := (1 + rate / n) ^ ((accrual : ℝ) * n)","let power : ℝ := (1 + rate / n) ^ ((accrual : ℝ))","exponent not in periods","C37 / C118")
m('r24',B,"let power : ℝ := (1 + rate / n) ^ ((accrual : ℝ) * n)","let power : ℝ := (1 + rate) ^ ((accrual : ℝ) * n)","rate not divided by the frequency","C37 / C115")
m('r25',B,"let up ← b.discountByFixedRate (ytm + offset + (oneBasisPoint : ℝ) / 2) none\n","let up ← b.discountByFixedRate (ytm + offset + (oneBasisPoint : ℝ)) none\n","asymmetric difference","C118_pv_deriv / C82")
m('r26',B,".ok ((up - down) / (oneBasisPoint : ℝ))",".ok ((up - down) / (2 * (oneBasisPoint : ℝ)))","difference divided by two basis points","C118_pv_deriv / C82")
m('r27',B,"let keep := fun p => b.isPaymentReceived p (some curve.referenceDate)","let keep := fun p => b.isPaymentReceived p none","present value counts from the bond's settlement","C119_strips / C34")
m('r28',B,"let df ← curve.call p.date\n    .ok (df * p.amount)","let df ← curve.call p.unadjusted\n    .ok (df * p.amount)","discounted to the unadjusted date","C119_strips / C34")
m('r29',B,"  | f => t.principal * t.couponRate / (100 * f.value)","  | f => t.principal * t.couponRate / 100","coupon not divided by the frequency","C119_affine / C33")
m('r30',C,"let knots := c.knots.set index new\n    match makeGrid c.referenceDate c.dcc knots with\n    | .ok g => (.ok (), { c with knots := knots, grid := g })","let knots := c.knots.set index new\n    match makeGrid c.referenceDate c.dcc knots with\n    | .ok _ => (.ok (), { c with knots := knots })","grid not rebuilt after a replacement","C97_history")
m('r31',C,"let knots := pySorted Knot.date values\n  match makeGrid c.referenceDate c.dcc knots with\n  | .ok g => (.ok (), { c with knots := knots, grid := g })","let knots := values\n  match makeGrid c.referenceDate c.dcc knots with\n  | .ok g => (.ok (), { c with knots := knots, grid := g })","reset does not sort","C97_history")
m('r32','Holidays.lean','("Thanksgiving", ⟨11, 22, fun d => getNextWeekday d 3⟩)','("Thanksgiving", ⟨11, 21, fun d => getNextWeekday d 3⟩)',"Thanksgiving from the 21st","C11 / C112")
m('r33','Holidays.lean','("Labor",        ⟨9, 1, fun d => getNextWeekday d 0⟩)','("Labor",        ⟨9, 1, usFederalHolidayAdjustment⟩)',"Labor day on the first","C11 / C112")
json.dump(M,open('mut11.json','w'),indent=1,ensure_ascii=False)
import os
for x in M:
    s=open('/verif/lean/Verif/'+x['file']).read()
    if s.count(x['old'])!=1: print(x['id'],s.count(x['old']))
