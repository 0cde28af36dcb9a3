import re
base='/tmp/dev/Verif/Props/'
for f in ['Bond','Duration','Yields','PriceConvexity','ApproximateYield','ParBond']:
    s=open(base+f+'.lean').read()
    if f=='Bond':
        i=s.index('theorem discountByFixedRate_eq'); pre,s=s[:i],s[i:]
        # only up to C37_zero_coupon_fails
    else: pre=''
    j=s.index('theorem C37_zero_coupon_fails') if f=='Bond' else len(s)
    s,post=s[:j],s[j:]
    s=re.sub(r'\s*\(hτ : timeAxis t\.dcc = some τ\)','',s)
    s=re.sub(r'\(hok : AxisOk t\.dcc (\S+)\)',r'(hτ : MeasuresFrom t.dcc \1 s τ)',s)
    s=re.sub(r'τ hτ ((?:\S+ )?)s hok',r'τ \1s hτ',s)
    s=s.replace('hτ hok hs','hτ hs')
    s=s.replace('accrual_axis hτ (le_trans (le_of_lt hrs) hd) hok','(hτ p.date hd).1')
    s=s.replace('axis_strictMono hτ (lt_of_lt_of_le hrs hd)','(hτ p.date hd).2')
    open(base+f+'.lean','w').write(pre+s+post)
