import json
M=[]
def m(id,file,old,new,edit,claim,all=False): M.append(dict(id=id,file='Model/'+file+'.lean',old=old,new=new,edit=edit,claim=claim,all=all))
m('h01','Rounded','.ok (rnd (rnd (((wholeYears - 1 : Int) : ℚ) + startResidual) + endResidual))','.ok (rnd (rnd (((wholeYears : Int) : ℚ) + startResidual) + endResidual))','one whole year too many','C95_accrual')
m('h02','Rounded','| .thirty360 => .ok (rnd ((DayCount.thirty360Days s e : ℚ) / 360))','| .thirty360 => .ok (rnd ((DayCount.thirty360Days s e : ℚ) / 365))','30/360 divided by 365','C95_accrual')
m('h03','Rounded','foldl (fun acc x => rnd (acc + x)) 0','foldl (fun acc x => rnd (acc + rnd x) + 0) 1','sum starts at one','C95_parallel, C95_present_value')
m('h04','Rounded','if curve.referenceDate ≤ p.date then','if curve.referenceDate < p.date then','payments on the reference date dropped','C95_present_value')
m('h05','Rounded','.ok (rnd (df * pa.2)))','.ok (rnd (df + pa.2)))','discount factor added','C95_present_value')
m('h06','Rounded','else if x < x1 then .ok (rnd (rnd (rnd (rnd (y1 - y0) / rnd (x1 - x0)) * rnd (x - x0)) + y0))','else if x < x1 then .ok (rnd (rnd (rnd (rnd (y1 - y0) / rnd (x1 - x0)) * rnd (x - x0)) + y1))','interpolation starts from the right value','C95_linear')
m('h07','Rounded','let y ← if linear then interpLinear rnd grid x else interpPrevious grid x','let y ← if linear then interpPrevious grid x else interpLinear rnd grid x','interpolation methods swapped','C95_step, C95_linear')
m('h08','Rounded','let timeSincePrior ← accrual rnd p d k.dcc','let timeSincePrior ← accrual rnd d k.keyDate k.dcc','hat rises the wrong way','C95_hat')
m('h09','Rounded','    if f ≤ d ∨ d ≤ p then .ok 0\n    else if d ≤ k.keyDate','    if f < d ∨ d ≤ p then .ok 0\n    else if d ≤ k.keyDate','strict comparison with the following date: the value there is computed, and is zero','(equivalent)')
m('h10','Future','.ok (state.1 + fixing * a, state.2 + a)','.ok (state.1 + fixing, state.2 + a)','rates not weighted','C89_average_partial')
m('h11','Future','let fixing ← rate p.1','let fixing ← rate p.2','rate fixed at the end of the period','C89_average_partial')
m('h12','Future','let days ← Scheduler.generateBusinessDays f.calendar firstDay lastDay','let days ← Scheduler.generateBusinessDays f.calendar lastDay firstDay','dates swapped','C89_average_partial')
m('h13','Future','def dateWithoutArguments : Except PyErr PyDate := .error .typeError','def dateWithoutArguments : Except PyErr PyDate := PyDate.mk? 2023 1 1','date() returns a date','C89_settlement_raises')
m('h14','CallableBond','⟨[.price], price, some (pySorted CallOption.callDate calls)⟩','⟨[.price], price, some calls⟩','call schedule not sorted','C94_schedule_partial')
m('h15','CallableBond','⟨[.price], price, some (pySorted','⟨[.price, .cashflows], price, some (pySorted','base class half initialized','C94_methods_raise')
m('h16','CallableBond','CreditDefaultSwap := ⟨spread⟩','CreditDefaultSwap := ⟨-spread⟩','spread negated','C94_schedule_partial')
m('h17','KeyRateOrder','def le (a b : KeyRate) : Bool := decide (a.keyDate ≤ b.keyDate)','def le (a b : KeyRate) : Bool := decide (a.keyDate < b.keyDate)','<= strict','C93_order_partial')
m('h18','KeyRateOrder','def gt (a b : KeyRate) : Bool := decide (b.keyDate < a.keyDate)','def gt (a b : KeyRate) : Bool := decide (a.keyDate < b.keyDate)','> swapped','C93_order_partial')
m('h19','KeyRateOrder','hash (k.dcc, k.keyDate)','hash (k.dcc, (k.next.getD k.keyDate))','hash reads the next date','C93: equal key rates have equal hashes')
m('h20','KeyRateOrder','def truthy (c : KeyRateCollection) : Bool := !c.keyRates.isEmpty','def truthy (c : KeyRateCollection) : Bool := c.keyRates.isEmpty','truth inverted','C93_truthy')
m('h21','KeyRateOrder','| (.error .valueError, h\') => (.ok c, h\')','| (.error .valueError, h\') => (.ok d, h\')','the other collection returned on failure','C93_combine')
m('h22','KeyRateOrder','bisectRight (fun j','bisectLeft (fun j','inserted on the left','C93_add_duplicate_raises')
m('h23','KeyRateOrder','c.keyRates.insertIdx i x } else c','c.keyRates.insertIdx (i + 1) x } else c','inserted one place too far','C93_add_partial: same outcome, the constructor sorts')
m('h24','Date','def isLeap (y : Int) : Bool := y % 4 == 0 && (y % 100 != 0 || y % 400 == 0)','def isLeap (y : Int) : Bool := y % 4 == 0 && y % 100 != 0','no leap year in years divisible by 400','C96_constructor')
m('h25','Date','def maxOrd : Int := 3652059','def maxOrd : Int := 3652058','last day of 9999 lost','C96_add_days')
m('h26','Date','  mk? y m (min d.day (daysInMonth y m))','  mk? y m (min d.day (daysInMonth y d.month))','clipped by the wrong month','C96_add_months')
m('h27','Date','def weekday (d : PyDate) : Int := (d.ord + 6) % 7','def weekday (d : PyDate) : Int := (d.ord + 5) % 7','weekday off by one','C96_weekday')
m('h28','Curve','def resetValueAt','def resetValueAt','(placeholder)','x')
m('n01','Vasicek','(1 - weight) * v.mean','(1 - weight) * v.vol','expected rate reverts to the volatility','C98_same_model, C47')
m('n02','MultiVasicek','.ok (v.matExp accrual *ᵥ x + (1 - v.matExp accrual) *ᵥ v.level)','.ok (v.matExp accrual *ᵥ x + v.matExp accrual *ᵥ v.level)','complement forgotten','C98_same_model, C65')
m('n03','MultiVasicek','drift := fun _ x => (reversion i) ⬝ᵥ (level - x)','drift := fun _ x => (reversion i) ⬝ᵥ (x - level)','drift away from the level','C98_paths, C99')
m('n04','MeanReverting','!![q.longSpeed, 0; -q.shortSpeed, q.shortSpeed]','!![q.longSpeed, q.shortSpeed; -q.shortSpeed, q.shortSpeed]','long-term rate depends on the short rate','C99_doubly, C68')
m('n05','MeanReverting','!![q.longSpeed, 0, 0; -q.mediumSpeed, q.mediumSpeed, 0; 0, -q.shortSpeed, q.shortSpeed]','!![q.longSpeed, 0, 0; -q.mediumSpeed, q.mediumSpeed, q.shortSpeed; 0, -q.shortSpeed, q.shortSpeed]','medium rate depends on the short rate','C99_trebly, C69')
m('n06','MeanReverting','def level (q : TreblyParams) : Vec 3 := ![q.mean, q.mean, q.mean]','def level (q : TreblyParams) : Vec 3 := ![q.mean, q.mean + 1, q.mean]','medium level shifted','C99_trebly, C69')
m('n07','MeanReverting','!![q.riskVol ^ 2, q.riskVol * q.mediumVol * q.mediumRisk,','!![q.mediumVol ^ 2, q.riskVol * q.mediumVol * q.mediumRisk,','variance of the market price of risk','C99_risk_price, C69')
m('n08','MultiVasicek','    .ok (Real.sqrt ((-d.2) ⬝ᵥ (v.cMat *ᵥ (-d.2))))','    .ok ((-d.2) ⬝ᵥ (v.cMat *ᵥ (-d.2)))','variance instead of volatility','C98_same_model, C64')
m('n09','Vasicek','.ok (-ratio * v.vol)','.ok (ratio * v.vol)','sign of the yield volatility','C98_same_bonds, C47')
m('n10','MultiVasicek','    .ok (y - a)','    .ok (a - y)','yield convexity negated','C98_same_bonds, C66')
m('s01','Stochastic','(fun i => x i + d i) ds','(fun i => d i) ds','increments not accumulated','C44')
m('s02','Stochastic','fun i => x i + drift * x i * (dt : ℝ) + volatility * x i * shock i','fun i => x i + drift * x i * (dt : ℝ) + volatility * shock i','absolute volatility in the geometric motion','C86, C55')
m('s03','Stochastic','fun i => x i + ((coords i).drift time x * (dt : ℝ) + ∑ j','fun i => x i + ((coords i).drift time x + ∑ j','drift not scaled by the step','C87, C45')
M=[x for x in M if x['id']!='h28']
json.dump(M,open('mut7.json','w'),indent=1,ensure_ascii=False)
