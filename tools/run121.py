import add
add.prop('''
p("Exactly which bonds on the US federal holiday calendar can be built, and every one built can be valued and has one yield",
  "For every coupon bond on the US federal holiday calendar with a recognised tenor of at least a month, a supported frequency, business-day settlement and a nonzero principal, the dated date, coupons (at least 84 days apart, paid on business days at most four days from their due dates), principal payment and settlement date all exist; the constructor succeeds if and only if the settlement date is not before the dated date and either no coupon is due before settlement, or the purchase date lies between the payment dates of two successive coupons the earlier of which is due by settlement. In particular it succeeds for every purchase away from coupon dates. Every bond built has a present value on every curve defined from its reference date on, and, if bought a week before maturity at a positive full price, exactly one yield.",
  "every purchase and maturity date, tenor, frequency, convention, adjustment and day count in the stated range; every total curve","An equivalence over the whole calendar: a test can show that some bond is built or rejected, not that these are exactly the cases.",UST+":UsTreasuryBond",UST+":UsTreasuryBond.calculate_accrued_interest",UST+":UsTreasuryBond.present_value",UST+":UsTreasuryBond.yield_to_maturity",CB+":FixedRateBond",SCH+":Scheduler.calculate_settlement_date",HOL+":US_FEDERAL_HOLIDAYS")
p("Which loans can be scheduled, how many payments they have, and when the level payment is defined",
  "A loan of M months paid every m months can be scheduled, whatever the payment amount and the extra payments, exactly when it is START_OF_MONTH or an END_OF_MONTH loan not originated in February; it then has exactly M / m payments (rounded down), one every m months. Its level payment is defined for every nonzero rate above minus the payment frequency: it is positive, it solves the annuity equation over the loan's length, and at a positive rate it exceeds one period's interest on the principal.",
  "every loan with a term in months within the calendar, every payment amount and list of extra payments","Quantifies over all dates, terms, rates, amounts and extra-payment lists; includes the exact set of rejected loans.",LN+":Loan.generate_payment_schedule",LN+":Loan.calculate_fixed_payment_amount")
''')
add.note('C121','proved',"C121_schedule, C121_creatable (iff), C121_away_from_coupons, C121_valued, C121_yield (day counts other than 30/360).")
add.note('C122','proved',"C122_schedule (iff, count and dates), C122_amount (annuity equation, positivity, lower bound).")
s=open('/verif/DESIGN.md').read()
l=[x for x in s.split('\n') if x.startswith('| C120 |')][0]+'\n'
s=s.replace(l,l+"""| C121 | construction, value and yield of bonds on the US calendar (Model/Bond, Model/Scheduler, Model/Holidays) | totality of the coupon loop as in C120; coupons 84 days apart and adjusted by at most four days are in the same order adjusted and unadjusted, so the bisection finds the neighbours of the purchase date; periods ending in a later month have positive length under every day count; C34, C37 |
| C122 | payment dates, schedule and level payment of loans (Model/Loan) | induction on the date loop (months advance, days only shrink), C38 and C40; annuity algebra with real powers |
""",1)
open('/verif/DESIGN.md','w').write(s)
v=open('/verif/lean/Verif.lean').read()
for m in ['Props.UsBonds','Props.LoanTotal']:
    if f'import Verif.{m}\n' not in v: v=v.rstrip('\n')+f'\nimport Verif.{m}\n'
open('/verif/lean/Verif.lean','w').write(v)
