import json
M=[]
def m(i,f,o,n,e,c):
    s=open('/verif/lean/Verif/'+f).read(); assert s.count(o)==1,(i,s.count(o))
    M.append(dict(id=i,file=f,old=o,new=n,edit=e,claim=c,all=True))
B='Model/Bond.lean';R='Model/Risk.lean';C='Model/Curve.lean';F='Model/CurveFactory.lean'
m('br01',B,'.ok (decide (settlement ≤ p.unadjusted))','.ok (decide (settlement < p.unadjusted))','strict settlement boundary','C142_remaining: a payment due on the next business day is remaining')
m('br02',B,'  .ok (c + p)\n\n/-- us_treasury_instruments.py:92-103','  .ok c\n\n/-- us_treasury_instruments.py:92-103','principal dropped from the present value','C142_remaining')
m('br03',B,'max c.date p.date, b','min c.date p.date, b','knot at the earlier of last coupon and principal','C142_workflow: knots of the curve reach the last payments')
m('br04',C,'(.ok ⟨k\'.keyDate, v * oneBasisPoint, .usTreasury⟩, yc\', k\')','(.ok ⟨k\'.keyDate, v, .usTreasury⟩, yc\', k\')','derivative reported as the pv01','C142_bond_ladder')
m('br05',C,'  .ok (s + cash)','  .ok (s - cash)','cash subtracted','C142_workflow (value only)')
m('br06',C,'    .ok (e.quantity * v)) entries','    .ok v) entries','quantity ignored','C142_workflow: quantity times risk')
m('br07',C,'riskLadderLoop exp asset c.keyRates yc h','riskLadderLoop exp asset c.keyRates.reverse yc h','ladder computed from the last key rate','C142_workflow: risks in date order')
m('br08',C,'let kDown := k.setBumpVal (-oneBasisPoint / 2)','let kDown := k.setBumpVal (oneBasisPoint / 2)','both values with the upward bump','C142_bond_ladder')
m('br09',C,'(pyDiv (up - down) oneBasisPoint, yc2, kUp)','(pyDiv (down - up) oneBasisPoint, yc2, kUp)','sign of the derivative','C142_bond_risk')
m('br10',R,'(KeyRate.create dcc d none none)','(KeyRate.create .thirty360 d none none)','key rates ignore the day count convention given','C142_workflow')
m('br11',R,'(List.range\' base knots.length)','(List.range\' base (knots.length - 1))','last asset gets no key rate','C142_workflow: a risk for each last payment date')
m('br12',C,"riskLadderLoop exp asset ids yc' (Function.update h i k')","riskLadderLoop exp asset ids yc h",'history of the first risk forgotten','equivalent for C142_workflow results; heap effects claimed elsewhere')
json.dump(M,open('mut21.json','w'),indent=1)
