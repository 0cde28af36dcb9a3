import json
M=[]
def m(id,file,old,new,edit,claim,all=False): M.append(dict(id=id,file='Model/'+file,old=old,new=new,edit=edit,claim=claim,all=all))
S='SchedulerDatetime.lean'
m('g01',S,'dates.any (fun _ => false)','dates.any (fun x => x == _x.day)','membership compares the day of the datetime','C83_is_business_day: holidays are not noticed')
m('g02',S,'d.day.weekday != 5 && d.day.weekday != 6','d.day.weekday != 5','Sundays are business days on datetimes','C83')
m('g03',S,'let d\' ← d.addMicros dayMicros\n    roll cal 1 loopFuel d\'','let d\' ← d.addMicros (dayMicros / 2)\n    roll cal 1 loopFuel d\'','adds half a day','C83: keeps time of day')
m('g04',S,'if c.day.month = d.day.month then .ok c else addBusinessDays cal d (-1)','if c.day.month = d.day.month then .ok c else addBusinessDays cal c (-1)','modified following steps back from the wrong date','C83_modified')
m('g05',S,'if d ≤ endDate then do\n      let d\' ← addSingle','if d < endDate then do\n      let d\' ← addSingle','generate excludes the end','C83_generate')
m('g06',S,'| .tPlusTwoBusiness => addBusinessDays cal purchase 2','| .tPlusTwoBusiness => addBusinessDays cal purchase 3','T+2 counts three days','C83_settlement')
m('g07',S,'if b then .ok purchase else addBusinessDays cal purchase (-1)','if b then addBusinessDays cal purchase (-1) else .ok purchase','T-0 branches swapped','C83_settlement')
m('g08',S,'let d1 ← if b then .ok d else roll cal 1 loopFuel d','let d1 ← if b then .ok d else roll cal (-1) loopFuel d','subtract rolls back first','C83_subtract_iff (unreachable: argument is a business day)')
O='Optimizer.lean'
m('g09',O,'admitted w ∧ ∀ v, admitted v → o.varianceObjective w ≤ o.varianceObjective v','admitted w ∧ ∀ v, admitted v → o.varianceObjective v ≤ o.varianceObjective w','maximizes variance','C84_problem')
m('g10',O,'(allowShort = false → ∀ i, 0 ≤ v i) ∧\n    (∀ i, (∀ lo','(allowShort = true → ∀ i, 0 ≤ v i) ∧\n    (∀ i, (∀ lo','sign constraint applied when short sales are allowed','C84_problem')
m('g11',O,'fun w => Real.sqrt (w ⬝ᵥ (o.cov *ᵥ w))','fun w => (w ⬝ᵥ (o.cov *ᵥ w))','frontier reports variances','C84_frontier')
m('g12',O,'(r - riskFree) / v','r / v - riskFree','Sharpe ratio precedence error','C84_sharpe')
m('g13',O,'(returns, volatilities, weights)','(returns, volatilities, weights.reverse)','weights listed in reverse','C84_frontier')
m('g14',O,'-(w ⬝ᵥ o.mean) + w ⬝ᵥ (o.cov *ᵥ w) * (param * wealth / 2)','-(w ⬝ᵥ o.mean) - w ⬝ᵥ (o.cov *ᵥ w) * (param * wealth / 2)','utility rewards variance','C85_problem')
m('g15',O,'weightConstraint v = 0 ∧\n','weightConstraint v ≤ 0 ∧\n','utility weights may sum to less than one','C85_problem')
D='Default.lean'
m('g16',D,'if draw pos ≤ prob then .ok (some time, pos + 1)','if draw pos ≤ prob then .ok (some (time + dt), pos + 1)','default reported one step late','C76')
m('g17',D,'pathLoop hazard maturity dt draw fuel dt pos','pathLoop hazard maturity dt draw fuel 0 pos','first test at time zero','C76')
m('g18',D,'if time < maturity then','if time ≤ maturity then','tests at maturity','C76_before_maturity')
m('g19',D,'let prob := hazard time * dt','let prob := hazard (time + dt) * dt','hazard of the next date','C76')
m('g20',D,'let ts ← pathsFrom hazard maturity dt draw fuel n pos\'','let ts ← pathsFrom hazard maturity dt draw fuel n (pos + 1)','paths reuse draws','C76')
C='CashflowSequence.lean'
m('g21',C,'if i < 0 then max (i + n) lower else min i upper','if i < 0 then max (i + n) lower else i','slice bounds not clipped','C77')
m('g22',C,'| none => if step < 0 then -1 else n','| none => if step < 0 then 0 else n','reverse slices drop the first element','C77')
m('g23',C,'let j := if i < 0 then i + l.length else i\n  if j < 0 then .error','let j := if i < 0 then i + l.length - 1 else i\n  if j < 0 then .error','negative index off by one','C77')
m('g24',C,'.ok (create l)','.ok l','slices are not sorted','C77: slice with negative step is in date order')
m('g25',C,'if y = x then .ok true\n    else do','if y = x then .ok false\n    else do','identical object not found','C78')
m('g26',C,'if c.len = d.len then c.le d member else .ok false','if c.len ≤ d.len then c.le d member else .ok false','subset counts as equal','C78')
K='KeyRateSequence.lean'
m('g27',K,'if same h v value then .ok i else indexLoop h value stop rest (i + 1)','if same h v value then .ok (i + 1) else indexLoop h value stop rest (i + 1)','index is one-based','C80')
m('g28',K,'if start < 0 then max (c.keyRates.length + start) 0 else start','if start < 0 then max start 0 else start','negative start not counted from the end','C80')
m('g29',K,'match c.delItem h i with\n    | (.ok _, c\', h\') => (.ok v, c\', h\')','match c.delItem h 0 with\n    | (.ok _, c\', h\') => (.ok v, c\', h\')','pop deletes the first element','C80')
m('g30',K,'fun p => !idx.contains (p.2 : Int)','fun p => idx.contains (p.2 : Int)','deleting a slice keeps the slice','C80')
m('g31',K,'let r := setDates h ids\n    (r.1, { c with keyRates := ids }, r.2)','(.ok (), { c with keyRates := ids }, h)','slice deletion does not re-wire','C80')
m('g32',K,'v == value || (h v).eq (h value)','v == value','membership by identity only','C80')
m('g33',K,'(List.range c.keyRates.length).reverse).mapM','(List.range c.keyRates.length)).mapM','reversed goes forward','C80')
B='Bond.lean'
m('g34',B,'.ok (df * (p.amount : ℝ) * (a : ℝ))','.ok (df * (p.amount : ℝ) * (a : ℝ) * b.terms.frequency.value)','Macaulay time in periods','C82_macaulay')
m('g35',B,'(ytm + offset - (oneBasisPoint : ℝ) / 2) none','(ytm + offset) none','one-sided difference','C82_derivative')
m('g36',B,'.ok (-d / (b.fullPrice : ℝ))','.ok (d / (b.fullPrice : ℝ))','duration without the sign','C82_duration')
m('g37',B,'let keep := fun p => b.isPaymentReceived p none\n  let c ← sumIf keep value b.coupons\n  let p ← sumIf keep value b.principalPayments\n  let scaled','let keep := fun p => b.isPaymentReceived p none\n  let c ← sumIf keep value b.coupons\n  let p ← sumIf keep value b.coupons\n  let scaled','Macaulay duration forgets the principal','C82_macaulay')
V='Stochastic.lean'
json.dump(M,open('mut6.json','w'),indent=1)
