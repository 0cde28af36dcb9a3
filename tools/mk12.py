import json,glob
M=[]
def m(i,f,o,n,e,c,all=False): M.append(dict(id=i,file='Model/'+f,old=o,new=n,edit=e,claim=c,all=all))
L='Loan.lean'; W='Swap.lean'; B='Bond.lean'; C='Curve.lean'; K='KeyRate.lean'
m('s01',L,"PyDate.mk? (l.originationDate.year + 1) 1 1","PyDate.mk? l.originationDate.year 1 1","December loans start in January of the same year","C122 / C38")
m('s02',L,"(daysInMonth l.originationDate.year 11)","(daysInMonth l.originationDate.year l.originationDate.month)","the right month is asked","C122 / C38")
m('s03',L,"    if d ≤ endDate then do\n      let d' ← d.addMonths","    if d < endDate then do\n      let d' ← d.addMonths","last payment dropped","C122 / C38")
m('s04',L,"| .semiAnnual => .ok 6\n  | .annual => .ok 12\n  | .zeroCoupon","| .semiAnnual => .ok 5\n  | .annual => .ok 12\n  | .zeroCoupon","semi-annual loans step five months","C122 / C38")
m('s05',L,"let stop ← Scheduler.addIncrement start l.termLength","let stop ← Scheduler.addIncrement l.originationDate l.termLength","schedule ends at the loan's end date","C122 / C38")
m('s06',L,"let compound : ℝ := (1 + (l.rate : ℝ) / f) ^ ((years : ℝ) * f)","let compound : ℝ := (1 + (l.rate : ℝ) / f) ^ ((years : ℝ))","exponent in years","C39 / C100")
m('s07',L,"xs ++ List.replicate (n - xs.length) 0","List.replicate (n - xs.length) 0 ++ xs","extra payments padded in front","C40 / C105")
m('s08',B,"if settlement < dated then .error .valueError","if settlement ≤ dated then .error .valueError","settlement on the dated date refused","C121")
m('s09',B,"if branch ≤ first.unadjusted then .ok (dated, first.unadjusted)","if branch < first.unadjusted then .ok (dated, first.unadjusted)","boundary of the first period","C121 / C35")
m('s10',B,"let stop ← dated.addDays 1","let stop ← dated.addDays 0","a coupon on the dated date","C33 / C121")
m('s11',B,"bisectRight id (coupons.map BondPayment.date) t.purchaseDate","bisectRight id (coupons.map BondPayment.unadjusted) t.purchaseDate","period found by unadjusted dates","C35 / C121")
m('s12',B,"t.maturityDate.addMonths (-(12 * n))","t.maturityDate.addMonths (-(11 * n))","years of eleven months","C121 / C33")
m('s13',W,"if t.tenor.unit = 'Y' then start.addMonths (12 * n)","if t.tenor.unit = 'Y' then start.addMonths (-(12 * n))","a swap ends before it starts","C120 / C41")
m('s14',W,"else if t.tenor.unit = 'M' then start.addMonths n\n","else if t.tenor.unit = 'M' then start.addDays n\n","months counted as days","C120 / C41")
m('s15',W,"  let accruals ← s.fixedAccruals\n  let annuity","  let accruals ← s.floatAccruals\n  let annuity","annuity of the floating leg","C125 / C43")
m('s16',W,".ok (df * (a.factor * s.terms.notional))",".ok (df * a.factor)","notional omitted in the annuity","C125 / C43")
m('s17',W,"compoundLoop rate ps (acc.1 + a, acc.2 * (1 + r * a))","compoundLoop rate ps (acc.1 + a, acc.2 * (1 - r * a))","growth with the wrong sign","C124_compounding")
m('s18',W,"    let r ← rate p.1\n    compoundLoop","    let r ← rate p.2\n    compoundLoop","rate at the end of the day","C124_compounding / C42")
m('s19',W,"Scheduler.calculateSettlementDate s.terms.calendar a.start s.terms.fixing","Scheduler.calculateSettlementDate s.terms.calendar a.stop s.terms.fixing","fixed in arrears","C120 / C62")
m('s20',W,"  let r ← annualizedRate s.terms.calendar rate a.start a.stop\n  .ok ⟨d, some (a.factor * s.terms.notional * r)⟩","  let r ← annualizedRate s.terms.calendar rate a.start a.stop\n  .ok ⟨d, some (s.terms.notional * r)⟩","overnight payment without the accrual","C124 / C62")
m('s21',W,"| .receiverFixed => .ok (fixedPv - floatPv)","| .receiverFixed => .ok (floatPv - fixedPv)","receiver worth the same as payer","C124_floating")
m('s22',W,"pyDiv (r.2 - 1) r.1","pyDiv (r.2 - 1) (r.1 + r.1)","annualized over twice the time","C125 / C42")
m('s23',K,"    if d ≤ k.keyDate then .ok k.bump\n    else match following with","    if d < k.keyDate then .ok k.bump\n    else match following with","boundary of the first key rate","C22 / C102")
m('s24',K,"if f ≤ d ∨ d ≤ p then .ok 0","if f ≤ d then .ok 0","dates before the prior key rate not cut off","C123 / C22")
m('s25',K,"      let timeToNext ← DayCount.accrual d f k.dcc\n      let totalTime ← DayCount.accrual k.keyDate f k.dcc\n      let q ← pyDiv timeToNext totalTime\n      .ok (q * k.bump)","      let timeToNext ← DayCount.accrual k.keyDate d k.dcc\n      let totalTime ← DayCount.accrual k.keyDate f k.dcc\n      let q ← pyDiv timeToNext totalTime\n      .ok (q * k.bump)","falling side rises","C123 / C23")
m('s26',C,"exp (-ya.1 * ya.2)","exp (ya.1 * ya.2)","growth factors instead of discount factors","C123_yield_space / C91")
m('s27',C,"let yields ← collect (fun d => yc.base.interpolate d adj) dates","let yields ← collect (fun d => yc.base.interpolate d (fun _ => .ok 0)) dates","yields not bumped","C123_yield_value")
m('s28',C,"let v ← yc.base.interpolate k.date adj\n    .ok ⟨k.date, v⟩","let v ← yc.base.interpolate k.date (fun _ => .ok 0)\n    .ok ⟨k.date, v⟩","discount factors not bumped","C123_discount_space")
m('s29',C,"let kDown := k.setBumpVal (-oneBasisPoint / 2)","let kDown := k.setBumpVal (oneBasisPoint / 2)","both bumps up","C30 / C123")
m('s30',C,"(pyDiv (up - down) oneBasisPoint, yc2, kUp)","(pyDiv (down - up) oneBasisPoint, yc2, kUp)","derivative with the wrong sign","C123 / C30")
m('s31',C,"v * oneBasisPoint, .usTreasury","v, .usTreasury","derivative instead of one-basis-point risk","C30 / C107")
m('s32',C,"| .ok knots => storeDiscount yc knots yc.base.method","| .ok knots => storeDiscount yc knots .linear","discount curve always linear","C29")
seen={}
for f in glob.glob('mut*.json'):
    if f=='mut12.json': continue
    for x in json.load(open(f)): seen[(x['file'],x['old'],x['new'])]=x['id']
M2=[]
for x in M:
    k=(x['file'],x['old'],x['new'])
    if k in seen: print('dup',x['id'],seen[k]); continue
    M2.append(x)
json.dump(M2,open('mut12.json','w'),indent=1,ensure_ascii=False)
for x in M2:
    s=open('/verif/lean/Verif/'+x['file']).read()
    if s.count(x['old'])!=1: print(x['id'],s.count(x['old']))
