import json,glob
M=[]
def m(i,f,o,n,e,c,all=False): M.append(dict(id=i,file='Model/'+f,old=o,new=n,edit=e,claim=c,all=all))
S='Stochastic.lean'; V='Vasicek.lean'
m('q01',V,"diffusion := fun _ _ _ => vol\n","diffusion := fun _ x _ => vol * x 0\n","volatility proportional to the rate","C133_rates")
m('q02',V,"diffusion := fun _ _ _ => vol\n","diffusion := fun _ _ _ => vol ^ 2\n","variance used as volatility","C133_rates")
m('q03',V,"drift := fun _ x => speed * (mean - x 0)","drift := fun _ x => mean - x 0","drift ignores the speed","C133_rates")
m('q04',V,"ShortRateModel.new (fun x => x 0) process bm","ShortRateModel.new (fun x => |x 0|) process bm","the short rate is the absolute value of the state","C133_rates")
m('q05',V,"ShortRateModel.new (fun x => x 0) process bm","ShortRateModel.new (fun x => max (x 0) 0) process bm","the short rate is floored at zero","C133_rates")
m('q06',S,"fun i => x i + drift * x i * (dt : ℝ) + volatility * x i * shock i","fun i => max 0 (x i + drift * x i * (dt : ℝ) + volatility * x i * shock i)","geometric Brownian motion floored at zero","C134_false")
m('q07',S,"fun i => x i + drift * x i * (dt : ℝ) + volatility * x i * shock i","fun i => x i * Real.exp (drift * (dt : ℝ) + volatility * shock i)","log-Euler step","C134_false")
m('q08',S,"fun i => x i + drift * x i * (dt : ℝ) + volatility * x i * shock i","fun i => x i + drift * x i * (dt : ℝ) + volatility * shock i","volatility not proportional to the value","C134_positive_partial")
m('q09',S,"  | x, [] => [x]\n  | x, d :: ds => x :: cumulate","  | _, [] => []\n  | x, d :: ds => x :: cumulate","last column of the path dropped","C133_brownian")
m('q10',S,"vs.map (fun v => Real.exp (-v))","vs.map (fun v => 1 / (1 + v))","simple discounting","C133_discounts",True)
m('q11',S,"if minRate < 0 then maxRate * accrual + (minRate - maxRate) * accrual / 2","if minRate < 0 then maxRate * accrual","negative rates contribute only the higher end","C133_discounts")
m('q12',S,"(coords i).drift time x * (dt : ℝ) + ∑ j, (coords i).diffusion time x j * shock j","(coords i).drift time x * (dt : ℝ) + (∑ j, (coords i).diffusion time x j) * shock i","every volatility applied to the coordinate's own shock","C133_factors")
m('q13','MultiVasicek.lean',"drift := fun _ x => (reversion i) ⬝ᵥ (level - x)","drift := fun _ x => reversion i i * (level i - x i)","only the diagonal of the mean reversion matrix used","C133_factors")
m('q14','MultiVasicek.lean',"diffusion := fun _ _ => volatility i","diffusion := fun _ x => fun j => volatility i j * x i","volatility proportional to the factor","C133_factors")
seen={}
for f in glob.glob('mut[0-9]*.json'):
    if f=='mut17.json': continue
    for x in json.load(open(f)): seen[(x['file'],x['old'],x['new'])]=x['id']
M2=[]
for x in M:
    k=(x['file'],x['old'],x['new'])
    if k in seen: print('dup',x['id'],seen[k]); continue
    M2.append(x)
json.dump(M2,open('mut17.json','w'),indent=1,ensure_ascii=False)
for x in M2:
    s=open('/verif/lean/Verif/'+x['file']).read()
    if s.count(x['old'])!=1: print(x['id'],s.count(x['old']))
