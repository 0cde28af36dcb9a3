import add
add.prop('''
p("The implied rate is an average of the floating rates",
  "For a swap whose legs have the same frequency and day count, with no payment before the curve's reference date and nonnegative discount and accrual factors, the implied rate of a term swap lies between any bounds of the floating rates and equals a flat floating rate; that of an overnight swap is at least any nonnegative lower bound of the daily rates. Struck at a flat floating rate such a term swap is worth nothing at any reference date, even a seasoned one. Where the daily rates are the forward rates of the discount curve, an overnight actual/360 leg paid without delay has implied rate (discount factor at the start minus at the end) over the annuity. On the US federal holiday calendar the provisos hold by themselves.",
  "every swap with equal legs, curve, rate function and bounds","Bounds and identities over all curves and rate functions.",IRS+":FixedToFloatInterestRateSwap.implied_rate",IRS+":TermInterestRateSwap",IRS+":OvernightIndexSwap")
''')
add.note('C125','proved',"C125_bounds, C125_flat, C125_par_formula, C125_us.")
s=open('/verif/DESIGN.md').read()
l=[x for x in s.split('\n') if x.startswith('| C124 |')][0]+'\n'
s=s.replace(l,l+"""| C125 | implied rate of swaps with equal legs (Model/Swap) | the quotient of C42 is a weighted average over the common periods; C43 for compounded rates, C54 for self-consistent curves, C120 for the US calendar |
""",1)
open('/verif/DESIGN.md','w').write(s)
v=open('/verif/lean/Verif.lean').read()
for m in ['Props.SwapAverage']:
    if f'import Verif.{m}\n' not in v: v=v.rstrip('\n')+f'\nimport Verif.{m}\n'
open('/verif/lean/Verif.lean','w').write(v)
