import add,json
add.prop('''
p("The rate returned as a yield is as close to the yield as it reprices the bond",
  "yield_to_maturity returns the point where the root finder stopped, converged or not. For any such rate above minus the frequency, the amount by which the bond's value at that rate misses the full price is zero exactly at the yield, negative below it and positive above, and lies between the price sensitivities at the higher and the lower of the two rates times their distance. A bound on the error follows from the rate, the amount missed and the time of the first payment alone. Two rates that miss on opposite sides enclose the yield; a Newton step never overshoots it from below.",
  "every coupon bond and note that can be constructed with a nonnegative coupon, every reference date before maturity and every rate above minus the coupon frequency","The solver's stopping point depends on scipy and its success flag is ignored; the claim is about every point it may return.",UST+":UsTreasuryBond.yield_to_maturity",CB+":FixedRateBond.yield_to_maturity",UST+":UsTreasuryBond.discount_cashflows_by_fixed_rate")
''')
add.note('C130','proved',"C130_residual, C130_computable, C130_bracket, C130_newton, for any reference date. The scipy root finder itself is not modelled: the rate is any real number above -f.")
s=open('/verif/DESIGN.md').read()
l=[x for x in s.split('\n') if x.startswith('| C129 |')][0]+'\n'
s=s.replace(l,l+"""| C130 | the equation passed to scipy.optimize.root by yield_to_maturity, at any returned rate | the value is decreasing and convex in the rate (C82, C118, here for any reference date), so its fall between two rates lies between the end slopes times their distance |
""",1)
s=s.replace("from 3.12 on Python floats are summed with compensation.","from 3.12 on Python floats are summed with compensation, which Model/RoundedSum models and C95_parallel_compensated covers.")
s=s.rstrip('\n')+"\n| yield_to_maturity and the curve factories use the point where scipy's root finder stopped without looking at its success flag, so a failed search is returned as a yield; its error is bounded by the amount it misses the price | C130_residual, C130_computable |\n"
open('/verif/DESIGN.md','w').write(s)
