import json
M=[]
def m(i,f,o,n,e,c,all=False): M.append(dict(id=i,file='Model/'+f,old=o,new=n,edit=e,claim=c,all=all))
B='BrownianInit.lean'; V='RoundedValuation.lean'
m('q01',B,"if j ≤ i then a i j else a j i","a i j","Cholesky reads the whole matrix","C110_lower_triangle")
m('q02',B,"if j ≤ i then a i j else a j i","if i ≤ j then a i j else a j i","Cholesky reads the upper triangle","C110_lower_triangle")
m('q03',B,"if dimension = 0 then .error .assertionError","if dimension ≠ p then .error .assertionError","dimension checked against the matrix","C110_dimension_unchecked")
m('q04',B,"(if b.dimension = p then .ok x else .error .valueError","(.ok x","the product of mismatched matrices goes through","C110_dimension_unchecked")
m('q05',B,"createDefault (start stop : PyDatetime) (dimension : Nat) (dcc : DayCountConvention := .actAct) :\n    Except PyErr (SizedBrownian dimension) := create start stop dimension 1 dcc","createDefault (start stop : PyDatetime) (dimension : Nat) (dcc : DayCountConvention := .actAct) :\n    Except PyErr (SizedBrownian dimension) := create start stop dimension (fun _ _ => 1) dcc","default correlation is all ones","C110_default")
m('q06',V,"| .receiverFixed => .ok (rnd (fixedPv - floatPv))\n  | .payerFixed => .ok (rnd (floatPv - fixedPv))","| .receiverFixed => .ok (rnd (floatPv - fixedPv))\n  | .payerFixed => .ok (rnd (fixedPv - floatPv))","direction swapped","C111_swap_value")
m('q07',V,"| .payerFixed => .ok (rnd (floatPv - fixedPv))","| .payerFixed => .ok (floatPv - fixedPv)","difference not rounded for the payer","C111_opposite")
m('q08',V,"rnd (acc.2 * rnd (1 + rnd (r * a)))","rnd (acc.2 + rnd (r * a))","simple instead of compound growth","C111_overnight")
m('q09',V,"let a ← accrual rnd p.1 p.2 .act360\n    let r ← rate p.1","let a ← accrual rnd p.1 p.2 .act365\n    let r ← rate p.1","overnight accrual under ACT/365","C111_overnight")
m('q10',V,"let fraction ← div rnd period whole","let fraction ← div rnd whole period","accrual fraction inverted","C111_accrued")
m('q11',V,".ok (rnd (t.price + rnd (x * 100)))",".ok (rnd (t.price + x))","accrued interest not per hundred","C111_accrued full price")
m('q12',V,"div rnd floatPv (sum rnd xs)","div rnd (sum rnd xs) floatPv","par rate inverted","C111_par")
m('q13',V,"  .ok (rnd (df * rnd (a.factor * s.terms.notional)))","  .ok (rnd (a.factor * s.terms.notional))","annuity undiscounted","C111_par")
m('q14',V,"let fixingDate ← Scheduler.calculateSettlementDate s.terms.calendar a.start s.terms.fixing","let fixingDate ← Scheduler.calculateSettlementDate s.terms.calendar a.stop s.terms.fixing","fixing in arrears","C111_term_leg")
m('q15','Scheduler.lean',"@@","@@","","")
M.pop()
json.dump(M,open('mut10.json','w'),indent=1,ensure_ascii=False)
m('q15','Scheduler.lean',"if c.month = d.month then .ok c else addBusinessDays cal d (-1)","if c.month = d.month then .ok c else addBusinessDays cal d (-2)","modified following goes one day too far back","C108_modified_monotone")
m('q16','Scheduler.lean',"  let d0 ← roll cal 1 loopFuel d\n  if businessDays ≥ 0 then iterSteps","  let d0 ← roll cal (if businessDays < 0 then -1 else 1) loopFuel d\n  if businessDays ≥ 0 then iterSteps","negative shifts roll backward first","C108_order_of_shifts / C04")
json.dump(M,open('mut10.json','w'),indent=1,ensure_ascii=False)
