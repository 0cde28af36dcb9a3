import add
add.prop('''
p("Swap values, par rates and accrued interest survive floating point",
  "With a rounding after every operation: payer and receiver values of the same legs are exactly opposite; every payment of the fixed leg and of a term swap's floating leg is within five roundings of its exact amount, and the value of the swap within 2(n+7)u of the exact value relative to the leg values; a swap struck at the par rate the code computes is worth at most 4(2n+12)u of its floating leg; nonnegative overnight rates never give a negative annualized rate; accrued interest lies between zero and the computed coupon, within ten roundings of the exact value, and the full price is not below the clean price.",
  "every rounding function of relative error u, swap with nonnegative accruals, rate function, curve without underflow, and coupon bond with no coupon date between purchase and settlement","Rounding errors depend on every input; tests compare a few values to a tolerance.",IRS+":FixedToFloatInterestRateSwap.present_value",IRS+":FixedToFloatInterestRateSwap.implied_rate",UST+":UsTreasuryBond.calculate_accrued_interest",UST+":UsTreasuryBond.get_full_price")
''')
add.note('C111','proved',"Any rounding satisfying Spec/Rounded (53-bit round-to-nearest does); rates, discount factors and coupons zero or not minute (no underflow); no overflow; CPython's plain left-to-right sum. Discount factors and floating rates are taken as the floats the curve returns.")
s=open('/verif/DESIGN.md').read()
l=[x for x in s.split('\n') if x.startswith('| C110 |')][0]+'\n'
s=s.replace(l,l+"""| C111 | legs, `present_value`, `implied_rate`, `calculate_annualized_rate`, `calculate_accrued_interest`, `get_full_price` with a rounding per operation (Model/RoundedValuation) | relational induction over the schedules (same dates, amounts near), C95 for sums; monotone rounding for the order statements; C111_exact ties the rounded model to the exact one |
""",1)
s=s.replace("Except in C95,\n  rounding is not modelled: numeric theorems are about the exact-arithmetic reading of the formulas. C95 models the day counts, key\n  rates, present values and curve evaluation with a rounding after every operation (`Model/Rounded`, any rounding satisfying","Except in C95, C100\n  and C111, rounding is not modelled: numeric theorems are about the exact-arithmetic reading of the formulas. C95 (day counts, key\n  rates, present values, curve evaluation), C100 (loans) and C111 (swaps, accrued interest) put a rounding after every operation (`Model/Rounded*`, any rounding satisfying")
open('/verif/DESIGN.md','w').write(s)
v=open('/verif/lean/Verif.lean').read()
for m in ['Model.RoundedValuation','Lemmas.RoundedValuation','Props.RoundedValuation']:
    if f'import Verif.{m}\n' not in v: v=v.rstrip('\n')+f'\nimport Verif.{m}\n'
open('/verif/lean/Verif.lean','w').write(v)
