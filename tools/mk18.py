import json,glob
M=[]
def m(i,f,o,n,e,c,all=False): M.append(dict(id=i,file='Model/'+f,old=o,new=n,edit=e,claim=c,all=all))
D='Default.lean'; R='RoundedDefault.lean'
m('z01',D,"let ts ← pathsFrom hazard maturity dt draw fuel n pos'","let ts ← pathsFrom hazard maturity dt draw fuel n pos","every path uses the same draws","C135_independent")
m('z02',D,"let ts ← pathsFrom hazard maturity dt draw fuel n pos'","let ts ← pathsFrom hazard maturity dt draw fuel n (pos' + 1)","a draw is skipped between paths","C103_default_times")
m('z03',D,"if draw pos ≤ prob then .ok (some time, pos + 1)","if prob ≤ draw pos then .ok (some time, pos + 1)","comparison the wrong way round","C76_default_times")
m('z04',D,"else .ok (none, pos)","else .ok (some maturity, pos)","survivors get the maturity as default time","C76_default_times")
m('z05',R,"(rnd (time + dt)) (pos + 1)","(time + dt) (pos + 1)","running time not rounded","C136_extra_test")
m('z06',R,"if time < maturity then","if time ≤ maturity then","maturity itself tested","C136_paths")
m('z07',R,"defaultLoop rnd hazard maturity dt draw fuel dt pos","defaultLoop rnd hazard maturity dt draw fuel 0 pos","first test at time 0","C136_paths")
m('z08',R,"let prob := rnd (hazard time * dt)","let prob := rnd (hazard (rnd (time + dt)) * dt)","hazard at the end of the interval","C136_paths")
m('z09',R,"let prob := rnd (hazard time * dt)","let prob := hazard time * dt","product not rounded","C136_paths")
m('z10',R,".ok (some time, pos + 1)",".ok (some (rnd (time + dt)), pos + 1)","default reported one step late","C136_paths")
m('z11',R,"let ts ← defaultPaths rnd hazard maturity dt draw fuel n pos'","let ts ← defaultPaths rnd hazard maturity dt draw fuel n pos","every path uses the same draws","C136_paths")
m('z12',R,"if draw pos ≤ prob","if draw pos < prob","strict comparison","C136_paths")
json.dump(M,open('mut18.json','w'),indent=1,ensure_ascii=False)
for x in M:
    s=open('/verif/lean/Verif/'+x['file']).read()
    if s.count(x['old'])!=1: print(x['id'],s.count(x['old']))
