import json,glob
M=[]
def m(i,f,o,n,e,c,all=False): M.append(dict(id=i,file='Model/'+f,old=o,new=n,edit=e,claim=c,all=all))
Y='RoundedYield.lean'
m('n01',Y,"power := pow (rnd (1 + rnd (rate / n))) (rnd (a * n))","power := pow (rnd (1 + rnd (rate / n))) (rnd a)","exponent in years","C131_value")
m('n02',Y,"power := pow (rnd (1 + rnd (rate / n))) (rnd (a * n))","power := pow (rnd (1 + rate)) (rnd (a * n))","rate not divided by the frequency","C131_value")
m('n03',Y,".ok (rnd (1 / power))",".ok power","growth factor instead of discount factor","C131_value")
m('n04',Y,"    else discountLoop rnd pow b rate ref ps acc","    else discountLoop rnd pow b rate ref ps (rnd (acc + p.amount))","past payments added undiscounted","C131_value")
m('n05',Y,"(rnd (acc + rnd (df * p.amount)))","(rnd (acc + rnd (df * b.terms.principal)))","every payment the principal","C131_value")
m('n06',Y,"let a ← accrual rnd ref p.date b.terms.dcc","let a ← accrual rnd ref p.unadjusted b.terms.dcc","accrual to the unadjusted date","C131_value")
m('n07',Y,"let a ← accrual rnd ref p.date b.terms.dcc","let a ← accrual rnd b.settlementDate p.date b.terms.dcc","accrual from the settlement date","C131_value")
m('n08',Y,"discountLoop rnd pow b rate ref b.principalPayments c","discountLoop rnd pow b rate ref b.principalPayments 0","coupons dropped","C131_value")
m('n09',Y,"  discountLoop rnd pow b rate ref b.principalPayments c","  .ok c","principal dropped","C131_value")
m('n10',Y,"rnd (rnd (rnd (b.fullPrice * b.terms.principal) / 100) - pv)","rnd (pv - rnd (rnd (b.fullPrice * b.terms.principal) / 100))","sign of the residual","C131_yield (only the size of the residual enters: the bound is symmetric)")
m('n11',Y,"rnd (rnd (rnd (b.fullPrice * b.terms.principal) / 100) - pv)","rnd (b.fullPrice - pv)","price not scaled by the principal","C131_yield")
m('n12',Y,"rnd (rnd (rnd (b.fullPrice * b.terms.principal) / 100) - pv)","rnd (rnd (rnd (b.terms.price * b.terms.principal) / 100) - pv)","clean price","C131_yield")
m('n13',Y,"p.date, couponPayment rnd t⟩","p.date, rnd (t.principal * t.couponRate)⟩","annual coupon in percent","C131_value")
m('n14',Y,"accruedInterest := accrued, fullPrice := full","accruedInterest := accrued, fullPrice := b.fullPrice","exact full price kept (more accurate than the code)","none of C131 but the claim that this is what the code computes")
m('n15',Y,"let full ← fullPrice rnd t accrued","let full ← fullPrice rnd t 0","accrued interest left out of the full price","C131_yield")
m('n16',Y,"(some (reference.getD b.terms.purchaseDate))","(some b.terms.purchaseDate)","reference date ignored","C131_yield")
m('n17',Y,"let k ← b.isPaymentReceived p (some ref)","let k ← b.isPaymentReceived p none","settlement date instead of reference date","C131_value")
m('n18',Y,"  let ref := reference.getD b.terms.purchaseDate\n  let c","  let ref := b.terms.purchaseDate\n  let c","reference date ignored in discounting","C131_value")
seen={}
for f in glob.glob('mut[0-9]*.json'):
    if f=='mut16.json': continue
    for x in json.load(open(f)): seen[(x['file'],x['old'],x['new'])]=x['id']
M2=[]
for x in M:
    k=(x['file'],x['old'],x['new'])
    if k in seen: print('dup',x['id'],seen[k]); continue
    M2.append(x)
json.dump(M2,open('mut16.json','w'),indent=1,ensure_ascii=False)
for x in M2:
    s=open('/verif/lean/Verif/'+x['file']).read()
    if s.count(x['old'])!=1: print(x['id'],s.count(x['old']))
