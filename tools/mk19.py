import json,glob
M=[]
def m(i,f,o,n,e,c,all=False): M.append(dict(id=i,file='Model/'+f,old=o,new=n,edit=e,claim=c,all=all))
D='Examples.lean'
m('ex01',D,"let termTwo := b2 * ((1 - Real.exp (-t / tau1)) / (t / tau1) - Real.exp (t / tau1))","let termTwo := b2 * ((1 - Real.exp (-t / tau1)) / (t / tau1) - Real.exp (-t / tau1))","first hump term corrected only","C137_error")
m('ex02',D,"let termOne := b1 * (1 - Real.exp (-t / tau1)) / (t / tau1)","let termOne := b1 * (1 - Real.exp (-t / tau1)) / (t * tau1)","division by t tau instead of t / tau","C137_short_end")
m('ex03',D,"(∑ i, data i j) / n","(∑ i, data i j) / (n - 1)","mean divided by n - 1","C138_scores")
m('ex04',D,"fun j => vtᵀ j i","fun j => vt j i","columns of Vt taken instead of its rows","C138_closest")
m('ex05',D,"if ∑ j, component vt i j < 0 then","if 0 < ∑ j, component vt i j then","sign test the wrong way round","C138_sign")
m('ex06',D,"(pcs.map fun pc => (pc ⬝ᵥ (curve - means)) • pc).sum + means","(pcs.map fun pc => (pc ⬝ᵥ curve) • pc).sum + means","curve not centered before projecting","C138_closest")
m('ex07',D,"(pcs.map fun pc => (pc ⬝ᵥ (curve - means)) • pc).sum + means","(pcs.map fun pc => (pc ⬝ᵥ (curve - means)) • pc).sum","mean curve not added back","C138_closest")
m('ex08',D,"centered data *ᵥ pc","data *ᵥ pc","scores of uncentered data","C138_scores")
m('ex09',D,"data i.succ j - data i.castSucc j","data i.castSucc j - data i.succ j","changes with the wrong sign","C138_changes")
m('ex10',D,"(c1 - c0) / c1 ::","(c1 - c0) / c0 ::","relative change of the price (the intended program)","C139_returns_false")
m('ex11',D,"Real.sqrt ((∑ i, (x i - (∑ j, x j) / n) ^ 2) / n)","Real.sqrt ((∑ i, (x i) ^ 2) / n)","root mean square instead of the standard deviation","C139_risk")
m('ex12',D,"returns i - marketPart beta market i","returns i - market i","excess return instead of the residual","C139_beta")
m('ex13',D,"Real.sqrt (std (marketPart beta market) ^ 2 + std (idioPart beta market returns) ^ 2)","std (marketPart beta market) + std (idioPart beta market returns)","risks added without squaring","C139_risk")
m('ex14',D,"let returns := NdArray.vec frontierReturns","let returns := _returns","table of returns not overwritten (the intended program)","C139_bootstrap_raises")
m('ex15',D,"List.ofFn fun i : Fin k => if (i : Nat) = 0 then","List.ofFn fun i : Fin k => if (i : Nat) = 1 then","second component turned over instead of the first","C138_sign")
m('ex16',D,"then -component vt i else component vt i","then 0 else component vt i","a component with negative sum dropped","C138_best")
json.dump(M,open('mut19.json','w'),indent=1,ensure_ascii=False)
for x in M:
    s=open('/verif/lean/Verif/'+x['file']).read()
    if s.count(x['old'])!=1: print(x['id'],s.count(x['old']))
