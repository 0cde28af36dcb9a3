import add
add.prop('''
p("Curves which price bonds nearly alike are nearly alike, so the tolerance of the root searches bounds the error of the bootstrapped yields",
  "Two linearly or previous-value interpolated curves of continuously compounded yields with the same knot dates, which value a bond within eps of each other and whose knots before its last payment differ by at most D: their knots at its last payment differ by at most (eps + C*E*D)/(c*L), where L and E are the sums of amount times time over the payments left on the last date and before it, and c and C bound the slope of the exponential over the range of the yields. So if every knot has a bond whose last payment is on its date, and e and q bound eps/(c*L) and C*E/(c*L), the yields at the knot with n knots before it differ by at most e*(1+q)^n, and the yields of all dates up to the last of N knots by at most e*(1+q)^(N-1). In particular two bootstraps of the same bonds, whatever points their root searches evaluate, whose searches end within delta of a root (eps = 2*delta), end at yields for the i-th bond which differ by at most e*(1+q)^i.",
  "all curves, bounds on the yields, day counts with a time axis, bonds accepted by the constructors with non-negative coupons, tolerances, and all behaviours of the numerical root searches","All curves, bonds, tolerances and solvers: a test sees the one approximate solution its solver returns, and not how far another may be.",YC+":YieldCurveFactory.bootstrap_yield_curve",YC+":YieldCurve.present_value",CV+":Curve.__call__",UST+":UsTreasuryBond.present_value")
''')
add.note('C144','proved',"C144_bond, C144_stable, C144_yields, C144_bootstrap: what remains of C143 when the solvers stop within a tolerance. Exact arithmetic; the slope bounds of the exponential are a hypothesis (exp is abstract over the rationals).")
s=open('/verif/DESIGN.md').read()
l=[x for x in s.split('\n') if x.startswith('| C143 |')][0]+'\n'
s=s.replace(l,l+"| C144 | stability of the curves of the factory under pricing errors (Props/CurveStability; no new model) | the margin version of C143's monotonicity; induction over the number of earlier knots; C73 for the factory |\n",1)
open('/verif/DESIGN.md','w').write(s)
v=open('/verif/lean/Verif.lean').read().rstrip('\n')
v+='\nimport Verif.Props.CurveStability'
open('/verif/lean/Verif.lean','w').write(v+'\n')
