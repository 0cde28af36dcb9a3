import add
add.prop('''
p("Bumping a curve by the key rate of one of its knots is moving that knot",
  "For a key rate at a knot of a curve, with the neighbouring knots as its neighbours (as made from the dates of the knots by to_key_rate_collection), valuing anything on the curve with the key rate bumped by b gives what valuing it on a curve built from the same knots with b added to that one gives; so the pv01 is the difference of two plain valuations. In discount-factor space this holds for every interpolation method and any convention of the key rate, in yield space for linear interpolation in the key rate's convention (pointwise, up to the last knot); with PREVIOUS it fails between knots, where the bump decays while moving a knot does not.",
  "all knots, reference dates, end behaviours, key rates at a knot (first, last or between), bumps, assets and histories of both curves","Equality of two valuations for every curve, knot, bump and asset.",YC+":YieldCurve.calculate_pv01_risk",KR+":KeyRate.create_adjustment_function",CV+":Curve.interpolate",PF+":Portfolio.to_key_rate_collection")
''')
add.note('C140','proved',"C140_curve, C140_discount_factor, C140_yield, C140_risk and C140_portfolio; C140_previous_false shows why yield space needs linear interpolation.")
s=open('/verif/DESIGN.md').read()
l=[x for x in s.split('\n') if x.startswith('| C139 |')][0]+'\n'
s=s.replace(l,l+"| C140 | key rates at a curve's knots (Model/KeyRate, Model/Curve); specification: the knots with one value changed | the bump is a weight linear in time between adjacent knots; bracketing of dates by knots |\n",1)
s=s.rstrip('\n')+"\n| with PREVIOUS interpolation in yield space the bump of a key rate decays between knots although the curve is flat there: the bumped curve is not a curve of the same kind | C140_previous_false |\n"
open('/verif/DESIGN.md','w').write(s)
v=open('/verif/lean/Verif.lean').read().rstrip('\n')
v+='\nimport Verif.Props.KnotBump'
open('/verif/lean/Verif.lean','w').write(v+'\n')
