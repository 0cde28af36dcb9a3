import json
M=[]
def m(i,f,o,n,e,c):
    s=open('/verif/lean/Verif/'+f).read(); assert s.count(o)==1,(i,s.count(o))
    M.append(dict(id=i,file=f,old=o,new=n,edit=e,claim=c,all=True))
B='Model/Bond.lean';C='Model/Curve.lean';F='Model/CurveFactory.lean'
m('st01',C,'.ok (y0 + (x - x0) * ((y1 - y0) / (x1 - x0)))','.ok (y0 + (x - x0) * ((y0 - y1) / (x1 - x0)))','sign of the slope of linear interpolation','C144_bond: yields before a knot stay within the difference of the knots')
m('st02',C,'    else if x < x1 then .ok y0\n','    else if x < x1 then .ok y1\n','previous interpolation takes the next knot','C144_bond: yields before the last payment depend on earlier knots only')
m('st03',F,'bootstrapLoop exp points (index + 1) as yc2','bootstrapLoop exp points index as yc2','every search fits the first knot','C143_bootstrap, C144_bootstrap')
m('st04',F,'match yc.base.resetValue ⟨k.date, x⟩ index with','match yc.base.resetValue ⟨k.date, -x⟩ index with','the point is put into the knot with the opposite sign','C143_search, C144_bootstrap: the searches end at the yields')
m('st05',F,'| (.ok v, yc\') => (.ok (v - a.price), yc\')\n\n/-- The evaluations','| (.ok v, yc\') => (.ok (2 * (v - a.price)), yc\')\n\n/-- The evaluations','difference doubled','C144_bootstrap: an error of the search is an error of the price')
m('st06',B,'max c.date p.date, b','max c.unadjusted p.unadjusted, b','knot at the unadjusted last payment date','C144_bootstrap: every bond has its last payment at its knot')
json.dump(M,open('mut22.json','w'),indent=1)
