import json
M=[]
def m(id,file,old,new,edit,claim,all=False): M.append(dict(id=id,file=file,old=old,new=new,edit=edit,claim=claim,all=all))
S='Model/Stochastic.lean'; D='Model/Datetime.lean'; R='Model/Risk.lean'; O='Model/Optimizer.lean'; W='Model/Swap.lean'
m('t01',S,"next i * (factor : ℝ) + prev i * (1 - (factor : ℝ))","next i * (1 - (factor : ℝ)) + prev i * (factor : ℝ)","weights unswapped (the bug fixed)","C44 negation theorems: recorded defect")
m('t02',S,"let factor ← pyDiv toNext (toNext + sinceLast)","let factor ← pyDiv sinceLast toNext","wrong denominator","C44: read values lie between the neighbours")
m('t03',S,"if q = atUpper then pyGet path upper else","if q = atUpper then pyGet path (upper - 1 : Int) else","grid point reads the previous column","C44: exact at grid points")
m('t04',S,"if q < start ∨ stop < q then .error .valueError","if q < start ∨ stop ≤ q then .error .valueError","the end is out of range","C44: range is inclusive")
m('t05',S,"if last < stop then dates ++ [stop] else dates","dates","end not appended","C55: grid ends at the end")
m('t06',S,"if last < stop then dates ++ [stop] else dates","dates ++ [stop]","end appended twice","C55: grid strictly increasing")
m('t07',S,"chol i j * (z j * Real.sqrt (dt : ℝ))","chol i j * (z j * (dt : ℝ))","no square root of dt","C56: covariance correlation*dt")
m('t08',S,"chol i j * (z j * Real.sqrt (dt : ℝ))","chol j i * (z j * Real.sqrt (dt : ℝ))","Cholesky factor transposed","C56")
m('t09',S,"increment chol (normals k) dt :: increments chol normals (k + 1) dts","increment chol (normals 0) dt :: increments chol normals (k + 1) dts","same draws every step","C56: independence across steps")
m('t10',S,"let path := cumulate (fun _ => 0) r.1","let path := cumulate (fun _ => 1) r.1","Brownian path starts at one","C45/C56")
m('t11',S,"x :: euler coords rest (time + dt) (step coords time x shock dt)","x :: euler coords rest time (step coords time x shock dt)","time not advanced","C45")
m('t12',S,"(coords i).drift time x * (dt : ℝ) + ∑","(coords i).drift time x + ∑","drift not multiplied by dt","C45")
m('t13',S,"∑ j, (coords i).diffusion time x j * shock j","(coords i).diffusion time x i * shock i","only own shock used","C45")
m('t14',S,"x i + drift * x i * (dt : ℝ) + volatility * x i * shock i","x i + drift * (dt : ℝ) + volatility * x i * shock i","arithmetic drift","C59")
m('t15',S,"{ d with path := none, dt := dt }","{ d with dt := dt }","set_dt keeps the old path","C45/C58")
m('t16',S,"path := some (cols.map m.transform) }","path := some (cols.map m.transform), integrated := none }","integrated path reset (bug fixed)","C57 negation theorems: recorded defect")
m('t17',S,"{ m with dt := dt, path := none, integrated := none }","{ m with dt := dt, path := none }","set_dt keeps integrated path","C57")
m('t18',S,"if minRate < 0 then maxRate * accrual + (minRate - maxRate) * accrual / 2","if minRate < 0 then maxRate * accrual + (minRate - maxRate) * accrual","negative-rate trapezoid without half","C46")
m('t19',S,"let oldAccrual : ℝ := 0","let oldAccrual : ℝ := 1","accrual shifted","C46")
m('t20',S,"      | some vs => (.ok (dts.zip (vs.map (fun v => Real.exp (-v)))), m)","      | some vs => (.ok (dts.zip (vs.map (fun v => Real.exp v))), m)","discount curve from stored path grows","C57/C46")
m('t21',S,"(.ok vs, m') => (.ok (dts.zip (vs.map (fun v => Real.exp (-v)))), m')","(.ok vs, m') => (.ok (dts.zip (vs.map (fun v => Real.exp v))), m')","discount factors above one","C57/C46")
m('t22',S,".ok ((m.bm.start, 1) :: dts.zip (vs.map Real.exp))","  .ok (dts.zip (vs.map Real.exp))","start knot missing","accrual curve")
m('t23',S,"(.ok path, if set then { d with path := some path } else d, b')","(.ok path, { d with path := some path }, b')","set_path ignored","C45/C57")
m('t24',S,"(.ok path, if set then { b' with path := some path } else b')","(.ok path, { b' with path := some path })","set_path ignored by Brownian motion","C45")
m('t25',S,".ok (increments b.chol normals 0 dts, dts), { b with grid := some grid })",".ok (increments b.chol normals 0 dts, dts), b)","grid not stored","C44/C58")
m('t26',D,"match PyDate.ofOrd? (n / 86400000000) with","match PyDate.ofOrd? (n / 86400000001) with","microseconds per day","C55")
m('t27',D,".ok ⟨e, d.micros, d.bounds⟩",".ok ⟨e, 0, by omega⟩","time of day lost adding months","C55")
m('t28',D,"    let e ← addIncrement d (.relativedelta m k)\n    .ok (decide (d ≤ e))","    let e ← addIncrement d (.relativedelta m k)\n    .ok (decide (e ≤ d))","direction flipped for relativedelta","C55")
m('t29',D,"incrementLoop inc pos stop (maxDates + 1) start","incrementLoop inc pos stop maxDates start","cap one lower","C55")
m('r01',R,"{ l with iterIndex := 0 })","l)","ladder iterator not restarted","C49")
m('r02',R,"{ p with iterIndex := 0 })","p)","portfolio iterator not restarted","C49")
m('r03',R,"l.iter.map Risk.pv01","(l.iter.map Risk.pv01).reverse","pv01 column reversed","C48 columns")
m('r04',R,"(List.range' base knots.length)","(List.range' base (knots.length - 1))","last asset dropped","C60")
m('r05',R,"KeyRate.create dcc d none none","KeyRate.create .act360 d none none","convention ignored","C60")
m('r06',R,"def containsMethod (_l : RiskLadder) (_r : Risk) : Option Bool := none","def containsMethod (l : RiskLadder) (r : Risk) : Option Bool := some (decide (r ∈ l.risks))","defect fixed","C48 negation theorems")
m('o01',O,"(2 : ℝ) • (o.cov *ᵥ w)","(1 : ℝ) • (o.cov *ᵥ w)","gradient without factor 2","C50")
m('o02',O,"((fun _ => 1) ⬝ᵥ w - 1, o.mean ⬝ᵥ w - target)","((fun _ => 1) ⬝ᵥ w - 1, o.mean ⬝ᵥ w + target)","target sign","C61")
m('o03',O,"if allowShort then (none, none) else (some 0, some 1)","if allowShort then (some 0, some 1) else (none, none)","flag inverted","C50/C61: no shorts means weights in [0,1]")
m('o04',O,"fun _ => 1 / (n : ℝ)","fun _ => 1","starting weights one each","C50")
m('o05',O,"-(w ⬝ᵥ o.mean) + w","(w ⬝ᵥ o.mean) + w","mean sign","C50")
m('o06',O,"-o.mean + (2 * (param","-o.mean + ((param","gradient misses 2","C50")
m('o07',O,"lower.getD (lo + increment)","lower.getD lo","default lower bound on the boundary","C61")
m('o08',O,"arange lowerReturn (upperReturn + increment) increment","arange lowerReturn upperReturn increment","upper excluded","C61")
m('w10',W,"let fixingDate ← Scheduler.calculateSettlementDate s.terms.calendar a.start s.terms.fixing","let fixingDate ← Scheduler.calculateSettlementDate s.terms.calendar a.stop s.terms.fixing","fixing from period end","C62")
m('w11',W,"Scheduler.calculateSettlementDate s.terms.calendar a.stop s.terms.paymentDelay","Scheduler.calculateSettlementDate s.terms.calendar a.start s.terms.paymentDelay","paid at period start","C62")
m('w12',W,"let r ← annualizedRate s.terms.calendar rate a.start a.stop","let r ← rate a.start","no compounding","C62/C54")
json.dump(M,open('mut3.json','w'),indent=1)
