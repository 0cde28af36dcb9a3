import add
add.prop('''
p("The curves of a simulated short-rate path",
  "create_discount_curve on a freshly simulated model returns a curve which is exp(-integral) at each simulation datetime (1 at the start), linear in time between neighbouring ones, raises ValueError outside them and TypeError for a plain date; accrual_curve, after integration, is exp(integral) likewise; at the simulation datetimes the two are inverse, between them their product is at least one. A cashflow of datetimes is priced with these factors and payments before the start are dropped; a cashflow with a payment on a plain date raises TypeError.",
  "every short-rate model with a path, list of datetimes and cashflow","It is a claim about every path, grid and lookup datetime; a test reads a few points of one path.",SR+":ShortRateModel.create_discount_curve",SR+":ShortRateModel.accrual_curve",CV+":Curve.interpolate",CF+":Cashflow.present_value")
p("Actual/actual accruals between datetimes",
  "Under actual/actual the accrual between datetimes is the distance on the axis of calendar years, hence zero from a datetime to itself, positive between different ones, additive, and increasing in its end. (Additivity and monotonicity hold when the times of day are equal or the years have equal length; in general they are false, the error being at most half the difference between a 365th and a 366th of a year.)",
  "every pair and triple of datetimes","The failure needs a leap year, a non-leap year and unequal times of day together.",DCC+":DayCountCalculator.include_datetimes",DCC+":DayCountCalculator.compute_accrual_length")
''')
add.note('C103','proved',"Datetime knots, LINEAR interpolation and ERROR ends, as the short-rate model builds them. The integral itself is the code's (C46 shows it is not the trapezoidal one).")
add.note('C104','partial',"Exact formula for all datetimes; additivity and monotonicity proved for equal times of day and for years of equal length (monotonicity also from a leap-year start), and refuted in general.")
s=open('/verif/DESIGN.md').read()
l=[x for x in s.split('\n') if x.startswith('| C102 |')][0]+'\n'
s=s.replace(l,l+"""| C103 | `Curve` with datetime knots, `create_discount_curve`, `accrual_curve`, `Cashflow.present_value` on them (Model/PathCurve) | interpolation lemmas by induction on the grid, accruals increasing along the grid from C16/C104 |
| C104 | `include_datetimes` over ACT/ACT | closed form in the calendar-year coordinate, then algebra; counterexamples evaluated by the kernel |
""",1)
s=s.rstrip('\n')+"""
| a curve simulated by a short-rate model has datetime knots: asking it for a plain date, or pricing any cashflow with date payments on it, raises TypeError | C103_discount_curve, C103_date_cashflow |
| under ACT/ACT a later datetime can accrue less than an earlier one, and accruals of adjacent intervals need not add up | C104_not_monotone, C104_not_additive |
"""
open('/verif/DESIGN.md','w').write(s)
