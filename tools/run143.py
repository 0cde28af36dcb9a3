import add
add.prop('''
p("Bond prices determine the yield curve, so every way of building it gives the same one",
  "Raising knots of a linearly or previous-value interpolated curve of continuously compounded yields, at or before the last payment of a bond, never raises the bond's value, and lowers it if the knot at the last payment is among them. So two curves with the same knot dates which value equally, for each knot, some bond with its last payment on that date, have the same knots. In each search of the bootstrap the function whose root is wanted is strictly decreasing in the points evaluated. Hence the curve bootstrapped from bonds given in order of their last payments does not depend on the points the root searches evaluate, provided they end where the bonds are repriced; and the curve constructed by one simultaneous root search, if it ends where the bonds are repriced, is that curve too: same knots, and the same values, sensitivities, risks and risk ladders of every asset, after any history.",
  "all curves, day counts with a time axis, bonds accepted by the constructors with non-negative coupons, histories, and all behaviours of the numerical root searches","All curves and bonds, and all solvers: a test sees the one solution its solver returns.",YC+":YieldCurveFactory.bootstrap_yield_curve",YC+":YieldCurveFactory.construct_yield_curve",YC+":YieldCurve.present_value",UST+":UsTreasuryBond.present_value")
''')
add.note('C143','proved',"C143_decreasing, C143_determined, C143_search, C143_bootstrap, C143_methods. Exact arithmetic; solvers end at exact roots.")
s=open('/verif/DESIGN.md').read()
l=[x for x in s.split('\n') if x.startswith('| C142 |')][0]+'\n'
s=s.replace(l,l+"| C143 | uniqueness of the curves of the factory (Props/CurveUnique; no new model) | interpolation is monotone in the knots, bond values decrease (C142); the earliest differing knot contradicts the price of its bond; C73/C74 for the factory |\n",1)
s=s.replace("the other examples/ (the workflow of main.py","examples/rates/yield_curve_examples.py beyond the calls it makes (the workflow of main.py")
open('/verif/DESIGN.md','w').write(s)
v=open('/verif/lean/Verif.lean').read().rstrip('\n')
v+='\nimport Verif.Props.CurveUnique'
open('/verif/lean/Verif.lean','w').write(v+'\n')
