import add
add.prop('''
p("The value of a bond is convex in the bumps of its yields, so its pv01 never flatters the position",
  "On a curve of continuously compounded yields, moved by h times any profile of adjustments (a key rate, a parallel shift), the value of a bond with non-negative coupons is a convex function of h, and a non-increasing one if the profile is nowhere negative. The pv01 of a key rate is the change of that function between minus and plus half a basis point. So half a basis point up loses at most half of the pv01, half a basis point down gains at least half of it, for all larger moves the bond is worth at least what the pv01 predicts from its value at minus half a basis point, and for all smaller ones at most that. The same holds for a portfolio with any cash which holds no bond short.",
  "all bonds accepted by the constructors with non-negative coupons, curves reaching to their last payment, sizes of the bump, profiles, key rates with a neighbour, histories of the curve","Convexity is a statement about every triple of bumps, for every bond and curve.",YC+":YieldCurve.calculate_pv01_risk",YC+":YieldCurve.present_value",KR+":KeyRate.set_bump_val",UST+":UsTreasuryBond.present_value")
''')
add.note('C145','proved',"C145_profile, C145_key_rate, C145_parallel, C145_portfolio. Exact arithmetic; that the exponential is convex and increasing is a hypothesis (exp is abstract over the rationals).")
s=open('/verif/DESIGN.md').read()
l=[x for x in s.split('\n') if x.startswith('| C144 |')][0]+'\n'
s=s.replace(l,l+"| C145 | convexity of bond values in the bumps (Props/BondConvexity; no new model) | C142_bond_value gives a sum of exponentials of affine functions of the bump; the three-point inequality; C30's central difference |\n",1)
open('/verif/DESIGN.md','w').write(s)
v=open('/verif/lean/Verif.lean').read().rstrip('\n')
v+='\nimport Verif.Props.BondConvexity'
open('/verif/lean/Verif.lean','w').write(v+'\n')
