import json
M=[]
def m(id,file,old,new,edit,claim,all=False):
    M.append(dict(id=id,file=file,old=old,new=new,edit=edit,claim=claim,all=all))
S='Model/Scheduler.lean';H='Model/Holidays.lean';D='Model/DayCount.lean';C='Model/Cashflow.lean';K='Model/KeyRate.lean';CV='Model/Curve.lean';B='Model/Bond.lean';L='Model/Loan.lean';W='Model/Swap.lean';PL='Model/PyList.lean'
m('s01',S,'d.weekday != 5 && d.weekday != 6','d.weekday != 6','Saturday counts as a business day','C01: weekends are never business days')
m('s02',S,'.ok (notHoliday && isWeekday)','.ok isWeekday','holidays dropped from is_business_day','C01: holidays are never business days')
m('s03',S,'else roll cal 1 loopFuel d\n  let d2','else .ok d\n  let d2','subtract_single_business_day no longer rolls forward first','C04/C05: subtracting n business days from a non-business day starts at the next business day')
m('s04',S,"if businessDays ≥ 0 then iterSteps (addSingleBusinessDay cal) businessDays.toNat d0","if businessDays ≥ 0 then iterSteps (addSingleBusinessDay cal) (businessDays.toNat - 1) d0",'off by one in the range of the adding loop','C03: add_business_days(d, n) is the n-th business day after')
m('s05',S,"if c.month = d.month then .ok c else addBusinessDays cal d (-1)","if c.month = d.month then .ok c else addBusinessDays cal d (-2)",'modified following goes back two days','C06: modified following is the last business day of the month')
m('s06',S,"if d ≤ endDate then do\n      let d' ← addSingleBusinessDay cal d","if d < endDate then do\n      let d' ← addSingleBusinessDay cal d",'end date excluded','C07: generate_business_days includes the end date')
m('s07',S,'(maxDates + 1).toNat','maxDates.toNat','count < max_dates instead of <=','C08: up to max_dates + 1 dates')
m('s08',S,".ok (decide (d ≤ e))",".ok (decide (d < e))",'zero increments count as negative','C08')
m('s09',S,"| .tPlusTwoBusiness => addBusinessDays cal purchase 2","| .tPlusTwoBusiness => addBusinessDays cal purchase 3",'T+2 settles at T+3','C04: settlement date is n business days after')
m('s10',S,"let hols ← generateAllHolidays d.year d.year cal","let hols ← generateAllHolidays d.year (d.year + 1) cal",'holidays of next year also consulted','C10/C12: a New Year on a Saturday is not observed on 31 December')
m('h01',H,'else if d.weekday = 6 then d.addDays 1','else if d.weekday = 6 then d.addDays (-1)','Sunday holidays observed on Saturday','C09: observed on the following Monday')
m('h02',H,'let daysDiff := (wd - d.weekday) % 7','let daysDiff := (wd - d.weekday) % 7 + 7','one week too late','C09: next weekday is within 6 days')
m('h03',H,'⟨9, 1, fun','⟨9, 2, fun','Labor day base moved to 2 September','C11: Labor day is the first Monday of September')
m('h04',H,'("Columbus",     ⟨10, 8, fun d => getNextWeekday d 0⟩),\n','','Columbus day missing','C11: eleven holidays')
m('h05',H,'(toYear + 1 - fromYear).toNat','(toYear - fromYear).toNat','to_year excluded','C10: years from_year..to_year inclusive')
m('d01',D,'(startDay = 31 ∨ startDay = 30) then 30','startDay = 31 then 30','end day 31 not clipped when start day is 30','C14/C15: 30/360 rule')
m('d02',D,'if startLastFeb && endLastFeb then 30 else e.day','if endLastFeb then 30 else e.day','end of February clipped regardless of start','C14')
m('d03',D,'((wholeYears - 1 : Int) : ℚ)','((wholeYears : Int) : ℚ)','act/act counts one year too many','C16/C17: additivity of act/act')
m('d04',D,'let scaling ← pyDiv (startSeconds + endSeconds) (startWidth + endWidth)','let scaling ← pyDiv (startSeconds) (startWidth + endWidth)','end-day part forgotten','datetime accruals')
m('d05',D,'decide (s.instant ≤ e.instant)','decide (s.instant < e.instant)','equal dates rejected','C13: zero accrual between equal dates')
m('d06',D,"| .act365 => includeDatetimes (actOver 365) s e","| .act365 => includeDatetimes (actOver 360) s e",'act/365 dispatches to act/360','C13')
m('c01',C,'if curve.referenceDate ≤ p.date then some','if curve.referenceDate < p.date then some','payments on the reference date dropped','C19')
m('c02',C,'def addPayment (schedule : List Payment) (p : Payment) : List Payment := insortRight Payment.date schedule p','def addPayment (schedule : List Payment) (p : Payment) : List Payment := schedule ++ [p]','append instead of insort','C18: schedule stays sorted')
m('c03',C,'if dates.length ≠ amounts.length then .error .valueError\n  else .ok','if dates.length < amounts.length then .error .valueError\n  else .ok','only one length mismatch rejected','C18/C20')
m('c04',C,'keys := c.keys ++ [k], cashflows','keys := c.keys, cashflows','new key not recorded','C20/C21')
m('c05',C,'.ok (df * pa.2))','.ok (df + pa.2))','discount factor added','C19')
m('p01',PL,'bisectLoop (fun a => !decide (kx < key a))','bisectLoop (fun a => decide (key a < kx))','insort_left instead of insort_right','C18: stable insertion')
m('k01',K,'if f ≤ d ∨ d ≤ p then .ok 0','if f ≤ d then .ok 0','left guard dropped','C22: zero outside (prior, next)')
m('k02',K,'let timeToNext ← DayCount.accrual d f k.dcc\n      let totalTime','let timeToNext ← DayCount.accrual k.keyDate d k.dcc\n      let totalTime','swapped interpolation','C22/C23')
m('k03',K,'if x ≤ k.keyDate then .error .valueError','if x < k.keyDate then .error .valueError','next date equal to key date accepted','C24')
m('k04',K,'fun _ h => setNextTo h ids i (k + 1)\n  else if','fun _ h => setNextTo h ids i (k + 2)\n  else if','first key rate wired to the second neighbour','C24/C23')
m('k05',K,'{ c with iterIndex := 0 })','c)','iterator index not reset','C49: restart')
m('k06',K,'if s.any (fun j => (h j).eq (h i)) then s else s ++ [i]','s ++ [i]','duplicates kept in the set union','C25')
m('k07',K,'if p < (h new).keyDate then','if p ≤ (h new).keyDate then','equal to prior accepted by __setitem__','C52')
m('k08',K,'let ids := c.keyRates.eraseIdx k','let ids := c.keyRates.eraseIdx (k + 1)','deletes the wrong element','C52')
m('k09',K,'  setDates (setBumpLoop h b c.keyRates) c.keyRates','  setDates h c.keyRates','bump not set','C26')
json.dump(M,open('/tmp/work/mut1.json','w'),indent=1)
M.clear()
m('v01',CV,'(y0 + (x - x0) * ((y1 - y0) / (x1 - x0)))','(y1 + (x - x0) * ((y1 - y0) / (x1 - x0)))','wrong anchor in linear interpolation','C27')
m('v02',CV,'else if x < x1 then .ok y0\n','else if x < x1 then .ok y1\n','next instead of previous','C27')
m('v03',CV,'    else if last.date < d then','    else if last.date ≤ d then','the last knot extrapolated','C28/C30')
m('v04',CV,'{ c with knots := knots, grid := g })\n  | .error e => (.error e, { c with knots := knots })\n\n/-- base_curve.py:136','{ c with knots := knots })\n  | .error e => (.error e, { c with knots := knots })\n\n/-- base_curve.py:136','interpolator not rebuilt on reset','C28')
m('v05',CV,'exp (-ya.1 * ya.2)','exp (ya.1 * ya.2)','sign of the exponent','C29/C30')
m('v06',CV,'let kUp := kDown.setBumpVal (oneBasisPoint / 2)','let kUp := kDown.setBumpVal oneBasisPoint','asymmetric bump','C31')
m('v07',CV,'.ok (e.quantity * v)) entries','.ok v) entries','quantity ignored','C32')
m('v08',CV,'.ok (s + cash)','.ok s','cash ignored','C32')
m('v09',CV,'match presentValue exp yc1 asset kUp.asAdjustment','match presentValue exp yc1 asset kDown.asAdjustment','down bump used twice','C31')
m('v10',CV,'(.ok ⟨k\'.keyDate, v * oneBasisPoint⟩','(.ok ⟨k\'.keyDate, v⟩','PV01 not scaled','C31/C32')
m('v11',CV,'let knots := pySorted Knot.date values\n  let ref','let knots := values\n  let ref','knots not sorted','C27')
m('b01',B,'t.principal * t.couponRate / (100 * f.value)','t.principal * t.couponRate / 100','coupon not divided by frequency','C33')
m('b02',B,'let stop ← dated.addDays 1','let stop ← dated.addDays 0','coupon on the dated date','C33')
m('b03',B,'let adjusted ← collect t.adjust unadjusted\n      .ok (List.zipWith','let adjusted ← collect (fun d => .ok d) unadjusted\n      .ok (List.zipWith','payment dates not adjusted','C33')
m('b04',B,'| some r => Scheduler.addBusinessDays b.terms.calendar r 1','| some r => Scheduler.addBusinessDays b.terms.calendar r 0','cut-off one business day early','C34')
m('b05',B,'.ok (decide (settlement ≤ p.unadjusted))','.ok (decide (settlement < p.unadjusted))','payment on the settlement date dropped','C34')
m('b06',B,'let whole ← DayCount.accrual between.1 between.2 t.dcc','let whole ← DayCount.accrual dated between.2 t.dcc','period measured from the dated date','C35')
m('b07',B,'t.price + normalized * 100⟩','t.price - normalized * 100⟩','accrued interest subtracted','C36')
m('b08',B,'((accrual : ℝ) * n)','(accrual : ℝ)','compounding exponent not multiplied','C37')
m('b09',B,'.ok ((up - down) / (oneBasisPoint : ℝ))','.ok ((down - up) / (oneBasisPoint : ℝ))','sign of derivative','C37')
m('b10',B,'.ok ((b.fullPrice * b.terms.principal / 100 : ℚ) - pv)','.ok ((b.terms.price * b.terms.principal / 100 : ℚ) - pv)','clean price solved for','C37')
m('b11',B,'let i := bisectRight id','let i := bisectLeft id','wrong bisection','C35')
m('l01',L,'let interest := accrual * rate * remaining','let interest := accrual * rate','interest not on the balance','C38')
m('l02',L,'let principal := if remaining ≤ candidate then remaining else candidate','let principal := candidate','no payoff cap','C38')
m('l03',L,'paymentLoop rate dcc (remaining - principal) amount rest','paymentLoop rate dcc remaining amount rest','balance not reduced','C38')
m('l04',L,'(1 - compound) / (-(l.rate : ℝ) / f)','(1 - compound) / (-(l.rate : ℝ))','annuity formula wrong','C39')
m('l05',L,'(daysInMonth l.originationDate.year 11)','(daysInMonth l.originationDate.year l.originationDate.month)','END_OF_MONTH fixed (a repair)','C40 negation theorems')
m('l06',L,'xs.take n','xs','too many extras kept (invisible: zip truncates)','none: equivalent program')
m('l07',L,'| .quarterly => .ok 3','| .quarterly => .ok 4','quarterly every four months','C38/C40')
m('w01',W,'| .receiverFixed => .ok (fixedPv - floatPv)','| .receiverFixed => .ok (floatPv - fixedPv)','receiver sign','C41')
m('w02',W,'acc.2 * (1 + r * a)','acc.2 * (1 + r)','overnight rate not accrued','C43')
m('w03',W,'.ok ⟨d, some (a.factor * s.terms.notional * s.terms.fixedRate)⟩','.ok ⟨d, some (s.terms.notional * s.terms.fixedRate)⟩','fixed payment without accrual','C42')
m('w04',W,'.ok (df * (a.factor * s.terms.notional))','.ok (df * a.factor)','annuity without notional','C42')
m('w05',W,'if set then { s with legs','if !set then { s with legs','flag inverted','C41')
m('w06',W,'| .quarterly => .ok (.relativedelta (-3) 0)\n  | _','| .quarterly => .ok (.relativedelta (-4) 0)\n  | _','quarterly every four months','C53')
m('w07',W,'let r ← rate fixingDate','let r ← rate a.start','term rate fixed at the start of accrual','term leg fixing')
m('w08',W,'let adjusted ← collect s.terms.adjust unadjusted.reverse','let adjusted ← collect s.terms.adjust unadjusted','not reversed','C53')
m('w09',W,'pyDiv (r.2 - 1) r.1','pyDiv r.2 r.1','one not subtracted','C43')
json.dump(M,open('/tmp/work/mut2.json','w'),indent=1)
