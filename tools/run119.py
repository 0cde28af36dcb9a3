import add
add.prop('''
p("A bond's value on a curve is that of its strips, hence linear in its terms",
  "A coupon bond is worth, on every curve, exactly the portfolio of zero-coupon bonds holding its payments still due. So bonds with the same schedule, of either class, are worth principal * (coupon rate * annuity + principal factor) with the same two numbers; values scale with the principal; two coupons price a third; exactly one coupon rate is worth par, and bonds with a higher one are worth more than par; higher discount factors give higher values.",
  "every coupon-bearing bond, every family of bonds with its schedule, every curve and pair of curves","Quantifies over all bonds sharing a schedule and over all curves; tests price individual bonds on individual curves.",UST+":UsTreasuryBond.present_value",UST+":UsTreasuryBond.is_payment_received",CB+":FixedRateBond.present_value",CF+":ZeroCoupon.present_value",PF+":Portfolio.present_value")
''')
add.note('C119','proved',"C119_strips (bond = portfolio of ZeroCoupon instruments, including whether a value exists), C119_affine, C119_replication, C119_par_coupon, C119_curve_monotone.")
s=open('/verif/DESIGN.md').read()
l=[x for x in s.split('\n') if x.startswith('| C118 |')][0]+'\n'
s=s.replace(l,l+"""| C119 | present_value of both bond classes, ZeroCoupon and Portfolio (Model/Bond, Model/Cashflow, Model/Curve) | from C34 (sum over payments due), C19 and C32; bonds with the same schedule differ in amounts only (C92); linear algebra |
""",1)
open('/verif/DESIGN.md','w').write(s)
v=open('/verif/lean/Verif.lean').read()
for m in ['Props.BondLinear']:
    if f'import Verif.{m}\n' not in v: v=v.rstrip('\n')+f'\nimport Verif.{m}\n'
open('/verif/lean/Verif.lean','w').write(v)
