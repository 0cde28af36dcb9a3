import add
add.prop('''
p("Key-rate risk has one sign and reaches only the key rate's own window",
  "For a cashflow without negative payments, a key rate with at least one neighbour: in DISCOUNT_FACTOR space its pv01 lies between zero and one basis point of the total of the counted payments, and is zero when no knot of the curve lies strictly between its neighbours; on a curve of continuously compounded yields its pv01 is never positive, and is zero exactly when nothing is paid strictly between its neighbours after the reference date. The value under any adjustment is, payment by payment, the amount times the exponential of minus adjusted yield times time.",
  "every curve, cashflow within its range, key rate with neighbours and history of earlier valuations","The sign and the zero set are claims over every curve, cashflow and key rate.",YC+":YieldCurve.calculate_pv01_risk",YC+":YieldCurve.calculate_key_rate_deriv",YC+":YieldCurve.to_discount_curve",KR+":KeyRate.__call__")
''')
add.note('C123','proved',"C123_discount_space, C123_yield_value, C123_yield_space (iff); np.exp is any strictly increasing function.")
s=open('/verif/DESIGN.md').read()
l=[x for x in s.split('\n') if x.startswith('| C122 |')][0]+'\n'
s=s.replace(l,l+"""| C123 | key-rate pv01 of cashflows in both interpolation spaces (Model/Curve, Model/KeyRate) | weights of the key rate from C22, positive exactly inside the window; the linear functional of C107 in discount-factor space; the daily knots of the discount curve and C19 in yield space, then a sum of nonpositive terms |
""",1)
open('/verif/DESIGN.md','w').write(s)
v=open('/verif/lean/Verif.lean').read()
for m in ['Props.KeyRateSign']:
    if f'import Verif.{m}\n' not in v: v=v.rstrip('\n')+f'\nimport Verif.{m}\n'
open('/verif/lean/Verif.lean','w').write(v)
