import add
add.prop('''
p("Swaps respond to the floating rates with one sign",
  "Raising the floating rates (from nonnegative rates for overnight swaps) never lowers the compounded overnight rate, the implied rate or the value to the payer of the fixed rate, and never raises the value to the receiver, provided discount and accrual factors are not negative. On the US federal holiday calendar with positive discount factors and notional no proviso is needed: the implied rate is defined, nonnegative and ordered like the rates, and strictly so for strictly ordered rates when the floating leg has a period.",
  "every swap, curve and pair of ordered rate functions","It is an order relation between the results for all pairs of rate functions.",IRS+":OvernightIndexSwap",IRS+":FixedToFloatInterestRateSwap.implied_rate",IRS+":FixedToFloatInterestRateSwap.present_value")
''')
add.note('C124','proved',"C124_compounding, C124_floating (any calendar), C124_us (hypothesis-free on the US calendar).")
s=open('/verif/DESIGN.md').read()
l=[x for x in s.split('\n') if x.startswith('| C123 |')][0]+'\n'
s=s.replace(l,l+"""| C124 | floating legs under two rate functions (Model/Swap) | both compoundings run over the same business days (C07, C43); product of growth factors by induction; payments compared period by period, discounted sums, C42 quotient; C120 for the US calendar |
""",1)
open('/verif/DESIGN.md','w').write(s)
v=open('/verif/lean/Verif.lean').read()
for m in ['Props.SwapFloating']:
    if f'import Verif.{m}\n' not in v: v=v.rstrip('\n')+f'\nimport Verif.{m}\n'
open('/verif/lean/Verif.lean','w').write(v)
