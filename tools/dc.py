from fractions import Fraction as F
import datetime as D
def days(s,e):
    d1,d2=s.day,e.day
    sl=(s.month==2 and s.day==28); el=(e.month==2 and e.day==28)
    if sl and el: d2=30
    if sl: d1=30
    if d2==31 and d1>=30: d2=30
    if d1==31: d1=30
    return 360*(e.year-s.year)+30*(e.month-s.month)+d2-d1
def yc(d):
    L=366 if (d.year%4==0 and(d.year%100 or d.year%400==0)) else 365
    return d.year+F((d-D.date(d.year-1,12,31)).days,L)
allD=[]
for y in (2022,2023,2024,2025,2028):
    d=D.date(y,1,1)
    while d.year==y: allD.append(d); d+=D.timedelta(1)
lo=hi=(F(0),None)
c={d:yc(d) for d in allD}
for s in allD:
    for e in allD:
        if s<=e:
            x=days(s,e)-360*(c[e]-c[s])
            if x>hi[0]: hi=(x,(s,e))
            if x<lo[0]: lo=(x,(s,e))
print(lo,float(lo[0]),hi,float(hi[0]))
