import add
add.prop('''
p("An interpolated curve keeps the shape of its knots; discount factors built from bond prices admit no arbitrage",
  "With linear or previous interpolation and constant extension, a curve's values stay between the smallest and largest knot value, are monotone when the knots are, and are a fixed nonnegative weighting, with weights adding to 1, of the knot values (so the curve price of a payment is the price of a static portfolio of the knot instruments). If the knots are discount factors decreasing in the maturity, so are the discount factors of all dates and every implied forward rate is nonnegative.",
  "every list of knots, date, interpolation method in {linear, previous} and day count convention with a linear time axis","Must hold for all knot sets and dates.",CV+":Curve.interpolate",YC+":YieldCurve.discount_factor",YC+":YieldCurve.present_value")
p("Discount factors of a yield-space curve never exceed one and decrease with the date",
  "When the knots are nonnegative yields whose implied discount factors decrease with the maturity, the discount factors of a curve interpolated in yield space lie in (0, 1] and decrease with the date.",
  "every list of yield knots and every pair of dates","Must hold for all dates between the knots.",YC+":YieldCurve.discount_factor",CV+":Curve.interpolate")
p("A bond's yield moves against its price and with its coupon, and its sign says whether the holder earns anything",
  "For two bonds with the same schedule, the one with the higher price (per unit of principal) has the lower yield to maturity; at equal price the higher coupon has the higher yield; and the yield is positive exactly when the remaining payments add up to more than the full price.",
  "every pair of constructed bonds with the same dates, every root of the yield equation","Ranges over all bonds and all solver results.",UST+":UsTreasuryBond.yield_to_maturity",CB+":FixedRateBond.calculate_yield_to_maturity")
''')
add.note('C90','proved',"30/360 is excluded because its day difference is not additive. Spline interpolations do not keep the shape and are outside the claim.")
add.note('C91','partial',"False of the code for falling yields: C91_falling_yields_false exhibits knots with decreasing discount factors between which linear interpolation of the yields makes discount factors rise (negative forward rates). Bounds hold (C91_bounds); the exact condition is C91_decreasing_iff; rising yields are fine (C91_rising_yields_partial).")
add.note('C92','proved',"The solver enters as any root of the yield equation above minus the frequency; the initial guess and the convergence of scipy's secant iteration are not modelled.")
s=open('/verif/DESIGN.md').read()
s=s.replace("telescoping sum over business days (C07) for the remaining code |\n","""telescoping sum over business days (C07) for the remaining code |
| C90 | curve values against knot values | case analysis of a date's position (exact knot, between neighbours, outside); linearity of C28 |
| C91 | exp(−y·t) on an interpolated yield | reduction to y·t; explicit counterexample for falling yields |
| C92 | the yield equation of two bonds on one schedule | strict monotonicity of the discounted sum (C36) |
""",1)
s=s.rstrip('\n')+"\n| interpolating falling yields linearly gives rising discount factors (negative forwards) between knots whose discount factors fall | C91_falling_yields_false |\n"
open('/verif/DESIGN.md','w').write(s)
v='/verif/lean/Verif.lean';s=open(v).read().rstrip('\n')
s+="\nimport Verif.Props.NoArbitrage\nimport Verif.Props.YieldSpace\nimport Verif.Props.Yields\n";open(v,'w').write(s)
