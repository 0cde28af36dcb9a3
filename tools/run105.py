import add
add.prop('''
p("Paying a loan faster never costs more",
  "Of two loans with the same calendar, the one with no more principal, no higher a rate and no smaller an instalment and extra payments has at every date no more outstanding and no more interest due, is paid off no later, and pays no more interest in total. The balance follows one recurrence before and after pay-off, and an extra payment x lowers every later balance by at least x or to zero.",
  "every pair of loans with nonnegative terms, instalments and extra-payment lists","It compares two whole schedules for all terms; a test compares two.",LN+":Loan.generate_payment_schedule",LN+":Loan._calculate_interest_payment")
p("A swap's value as a function of rate, notional and direction",
  "If a swap can be valued, so can every swap differing only in direction, fixed rate and notional, and its value is notional times (fixed rate times annuity minus floating value), with opposite signs for payer and receiver; annuity and floating value depend on neither. Hence the value is linear in the notional, monotone in the fixed rate, and the difference between two strikes does not depend on the floating rates.",
  "every swap, curve, floating-rate function, fixed rate and notional","It is an identity in continuous parameters over every schedule.",IRS+":FixedToFloatInterestRateSwap.present_value",IRS+":FixedToFloatInterestRateSwap.generate_fixed_leg_cashflow")
p("Key-rate risks add up to the parallel-shift risk",
  "In discount-factor space the value of a cashflow is an affine, monotone function of the adjustment at the knots, and the pv01s of a risk ladder over the key rates of a collection add up to the value change of a parallel shift of one basis point, which is one basis point of the total counted payments.",
  "every curve in discount-factor space, cashflow within its range and collection of two or more key rates","The sum is over every ladder and cashflow; a unit test checks one ladder to a tolerance.",YC+":YieldCurve.calculate_pv01_risk_ladder",YC+":YieldCurve.calculate_key_rate_deriv",KR+":KeyRateCollection.__call__")
''')
add.note('C105','proved',"Nonnegative rates, instalments and extra payments (with negative ones the code reopens a paid-off loan).")
add.note('C106','proved',"Exact arithmetic; any curve and floating-rate function, which may raise.")
add.note('C107','proved',"LINEAR and PREVIOUS interpolation, payments between the first and the last knot, key rates not under 30/360 (C24 shows why).")
s=open('/verif/DESIGN.md').read()
l=[x for x in s.split('\n') if x.startswith('| C104 |')][0]+'\n'
s=s.replace(l,l+"""| C105 | `generate_payment_schedule` (Model/Loan) | one balance recurrence from C38 for open and paid-off loans, then induction on the date index comparing two loans |
| C106 | `present_value`, both leg generators (Model/Swap) | closed form of both legs in notional and rate from C41/C62, then algebra |
| C107 | `calculate_key_rate_deriv`, `calculate_pv01_risk_ladder`, `KeyRateCollection.__call__` (Model/Curve, Model/KeyRate) | weights of a knot pair independent of the values (C27), partition of unity (C24), linearity over the ladder (C30) |
""",1)
open('/verif/DESIGN.md','w').write(s)
