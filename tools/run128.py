import add,json
add.prop('''
p("Prices and key-rate risk in yield space are accurate in floating point",
  "With every float operation rounded, and np.exp accurate to v, the value of any schedule of payments on a curve of continuously compounded yields, bumped or not, differs from the sum of payments times true exponentials by at most a stated multiple of the unit of rounding, times the total size of the payments; the one-basis-point risk to a key rate differs from the true difference of values half a basis point up and down by at most three such errors (dividing by the basis point and multiplying by it again amplifies nothing). In double precision, with yields up to 12.5%, 40 years and 1000 payments: 3e-9 and 1e-8 of the total size.",
  "every float format with unit of rounding up to 2^-40, exponential, knots, schedule, key rate and interpolation method LINEAR or PREVIOUS","A bound on rounding errors for all inputs; a test sees the error of a few.",YC+":YieldCurve.to_discount_curve",YC+":YieldCurve.calculate_pv01_risk",CV+":Curve.interpolate",CF+":Cashflow.present_value")
''')
add.note('C128','proved',"C128_value, C128_pv01 for any rounding (Spec.Rounding) and float exponential (Spec.FloatExp); C128_double in double precision; C128_exact: with exact arithmetic these functions are the exact model's. Overflow is not modelled.")
n=json.load(open('notes.json'))
n['C81'][1]=n['C81'][1].replace(" Proved part"," Assigning to a slice raises AttributeError and leaves neighbours wrong (C81_slice_assignment_raises, C81_slice_assignment_breaks). Proved part")
json.dump(n,open('notes.json','w'),indent=1)
s=open('/verif/DESIGN.md').read()
l=[x for x in s.split('\n') if x.startswith('| C127 |')][0]+'\n'
s=s.replace(l,l+"""| C128 | to_discount_curve, present_value and calculate_pv01_risk with every operation rounded (Model/RoundedRisk) and np.exp an arbitrary float function close to the true exponential | absolute error of the interpolated yield, of the exponent (Lipschitz bound of exp), of the products and of the left-to-right sum; the key rate's bump by C95's relative bounds; nearest53 gives the double-precision constants |
""",1)
s=s.rstrip('\n')+"""
| Assigning one key rate to a slice of a collection raises AttributeError after the collection has been changed, so its neighbours are wrong afterwards | C81_slice_assignment_raises, C81_slice_assignment_breaks |
"""
s=s.replace("`Model/RoundedValuation`","`Model/RoundedValuation`, `Model/RoundedRisk`",1)
open('/verif/DESIGN.md','w').write(s)
v=open('/verif/lean/Verif.lean').read()
for m in ['Model.RoundedRisk','Spec.RoundedRisk','Props.RoundedRisk','Props.RoundedRiskDouble']:
    if f'import Verif.{m}\n' not in v: v=v.rstrip('\n')+f'\nimport Verif.{m}\n'
open('/verif/lean/Verif.lean','w').write(v)
