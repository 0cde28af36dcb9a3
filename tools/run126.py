import add
add.prop('''
p("Spline curves are the splines through their knots",
  "A curve with method CUBIC_SPLINE equals, at every date from its first to its last knot, the not-a-knot cubic spline through its knots as a function of the time from the reference date, and one with QUADRATIC_SPLINE the quadratic spline with breakpoints half-way between knots; these splines exist and are unique whatever the order in which knots are given. Construction succeeds exactly with at least four (three) knots at distinct dates none of which is before the reference date, and raises ValueError otherwise. The value is a fixed combination of the knot values with weights adding up to one, and knots on a polynomial of degree three (two) give that polynomial. A unit payment on a yield curve of discount factors is worth the spline through the adjusted knots.",
  "every list of knots, order, convention, reference date, date between the knots and adjustment","Existence, uniqueness and equality of functions over every knot set; a test can only probe values.",CV+":Curve._create_interpolation_object",CV+":Curve.interpolate",YC+":YieldCurve.present_value")
p("Splines keep what interpolation promises",
  "Whatever the interpolation method: discount factors between 0 and 1 that fall with maturity give unit payments worth at most 1, nonnegative yields give discount factors of at most 1, a key rate has no effect outside its neighbours and never a negative one on a positive payment in discount-factor space, and bootstrapping in order of maturity reprices every instrument that pays nothing after its own knot. (True for LINEAR and PREVIOUS, and with splines for zero-coupon bonds at the knots; false with CUBIC_SPLINE.)",
  "every curve, method, key rate and set of instruments","Universal claims; the counterexamples are curves a test author would not think of.",CV+":Curve.interpolate",YC+":YieldCurve.calculate_pv01_risk",YC+":YieldCurveFactory.bootstrap_yield_curve")
''')
add.note('C126','proved',"C126_cubic, C126_quadratic, C126_builds, C126_weights, C126_polynomials, C126_discount_factors. scipy's own algorithm is trusted to compute the spline its documentation describes; the model solves the textbook linear systems and is proved to agree with the specification. Splines are also covered by C27_knots, C29_reprices, C29_yield_space, C74, C88, C97, C107_ladder_total, C123_yield_space.")
add.note('C127','partial',"Holds for linear and previous interpolation (C73, C90, C91, C123) and for zero-coupon bonds with every method (C127_zero_coupons_partial); with a cubic spline all four parts fail: C127_shape_false, C127_yields_false, C127_key_rate_sign_false, C127_bootstrap_false.")
s=open('/verif/DESIGN.md').read()
l=[x for x in s.split('\n') if x.startswith('| C125 |')][0]+'\n'
s=s.replace(l,l+"""| C126 | spline interpolation (Model/Spline: the textbook systems for second derivatives / midpoint slopes) | diagonally dominant systems have exactly one solution (max-norm argument after eliminating the not-a-knot rows); piecewise polynomials glued at the breakpoints match the spec's spline and conversely; linearity and polynomial reproduction by uniqueness |
| C127 | yield curves and bootstrap with splines | explicit cubics through four knots (a cubic spline through four knots is one cubic), C126 for their values; zero-coupon bonds by C27_knots |
""",1)
s=s.replace("cubic/quadratic splines are not modelled.","cubic and quadratic splines (kinds of interp1d) by the splines scipy documents (not-a-knot ends for the cubic, half-way breakpoints for the quadratic), solved from textbook systems and proved to meet Spec/Spline; that scipy's B-spline code computes these functions is trusted.")
s=s.replace("| splines (opaque interpolants), scipy","| scipy's B-spline algorithm (the splines themselves are in `Model/Spline`), scipy")
s=s.replace("`Model/Curve`, `Model/CurveFactory` |","`Model/Curve`, `Model/Spline`, `Model/CurveFactory` |",1)
s=s.rstrip('\n')+"""
| With CUBIC_SPLINE, falling discount factors in (0, 1] can give a unit payment worth more than 1 in between, and nonnegative yields a negative one | C127_shape_false, C127_yields_false |
| With CUBIC_SPLINE in discount-factor space a positive payment outside a key rate's window has a negative pv01 | C127_key_rate_sign_false |
| Bootstrapping with CUBIC_SPLINE: later searches move earlier parts of the curve, so instruments paying between knots are not repriced | C127_bootstrap_false |
"""
open('/verif/DESIGN.md','w').write(s)
v=open('/verif/lean/Verif.lean').read()
for m in ['Model.Spline','Spec.Spline','Lemmas.Spline','Lemmas.SplineCurve','Props.Splines','Props.SplineRisk']:
    if f'import Verif.{m}\n' not in v: v=v.rstrip('\n')+f'\nimport Verif.{m}\n'
open('/verif/lean/Verif.lean','w').write(v)
