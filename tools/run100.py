import add
add.prop('''
p("Loan amortization survives floating-point rounding",
  "With every float operation rounded, a loan's schedule has the same dates, its balance is never negative, no principal part exceeds it, the closing payment brings it to exactly zero and everything after is exactly zero; if the amount covers the interest the balance never rises, the principal parts sum to the principal within one rounding of it per period, and balances, interest and principal parts stay within an explicit bound (a few roundings of the largest amount per period, compounded at the interest rate) of the exact schedule.",
  "every loan, amount, extra payments and rounding function with the properties of IEEE 754 rounding, in particular binary64 round-to-nearest","Rounding errors accumulate over every schedule length and every input; a test only sees a few loans.",LN+":Loan.generate_payment_schedule")
''')
add.note('C100','proved',"Overflow is not modelled; underflow is bounded through the smallest normal number. The amount computed by calculate_fixed_payment_amount (a power) is not rounded: the amount is any representable number.")
s=open('/verif/DESIGN.md').read()
l=[x for x in s.split('\n') if x.startswith('| C99 |')][0]+'\n'
s=s.replace(l,l+"""| C100 | Model/RoundedLoan: the payment loop with a rounding after every operation | induction over periods; min and max are Lipschitz, so the exact and rounded runs may disagree about the period of payoff; error recursion E' = gE + δ |
""",1)
open('/verif/DESIGN.md','w').write(s)
v='/verif/lean/Verif.lean';s=open(v).read().rstrip('\n')
s+="\nimport Verif.Props.RoundedLoan\n";open(v,'w').write(s)
