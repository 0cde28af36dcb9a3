import add,json
add.prop('''
p("Prices, key-rate risk and risk ladders on discount factors are accurate in floating point",
  "With every float operation rounded, the value of any schedule of payments on a curve of discount factors, bumped or not, and its one-basis-point risk to a key rate differ from the values of exact arithmetic by at most a stated multiple of the unit of rounding times the total size of the payments, whatever the curve was used for before. The risks of a ladder over any collection of two or more key rates add up, within the sum of these errors, to one basis point of the payments still to come. In double precision, 40 years and 1000 payments: 4e-10 and 1.3e-9 of the total size.",
  "every float format with unit of rounding up to 2^-40, knots, schedule, key rate or collection, history of use and interpolation method LINEAR or PREVIOUS","A bound on rounding errors for all inputs; a test sees the error of a few.",YC+":YieldCurve.to_discount_curve",YC+":YieldCurve.calculate_pv01_risk",YC+":YieldCurve.calculate_pv01_risk_ladder",CV+":Curve.interpolate")
''')
add.note('C129','proved',"C129_value, C129_pv01, C129_ladder for any rounding (Spec.Rounding); C129_double in double precision; C129_exact: with exact arithmetic these functions are the exact model's, errors included. Overflow is not modelled.")
s=open('/verif/DESIGN.md').read()
l=[x for x in s.split('\n') if x.startswith('| C128 |')][0]+'\n'
s=s.replace(l,l+"""| C129 | the same in DISCOUNT_FACTOR space, and calculate_pv01_risk_ladder (Model/RoundedRisk) | interpolation is a weighted mean of knots with weights independent of their values, so it does not amplify the knots' rounding errors; C128's lemmas for schedules and central differences; C107 for the exact total of the ladder |
""",1)
s=s.replace("""  C111 and C128, rounding""","""  C111, C128 and C129, rounding""").replace("and C128 (prices and key-rate risk on a yield curve) put a","and C128 and C129 (prices and key-rate risk on a yield curve) put a")
open('/verif/DESIGN.md','w').write(s)
