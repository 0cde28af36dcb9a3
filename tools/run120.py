import add
add.prop('''
p("A swap on the US federal holiday calendar can always be built, valued and struck at par",
  "For any purchase date between the years 3 and 9997 less the tenor, any recognised tenor in months or years, any supported payment frequencies, business-day conventions and day counts, creating a swap on the US federal holiday calendar raises nothing: both accrual schedules exist, every period runs between two business days, is as long as its frequency up to a few days, and has a strictly positive accrual factor; both legs can be generated, the swap can be valued on any curve and overnight rate that never raise, and (if the tenor holds at least one fixed period and discount factors are positive) the implied rate is defined and is the only fixed rate at which the swap is worth zero. On any calendar at all, accrual factors are never negative save under 30/360 from 28 to 29 February of one year.",
  "every purchase date, tenor, frequency, convention and day count in the stated range; every total curve and overnight rate","Totality over the whole calendar (every holiday configuration of every year) and over all tenors and conventions; a test builds a few swaps.",IRS+":InterestRateSwap",IRS+":InterestRateSwap._create_fixed_leg_accrual_schedule",IRS+":InterestRateSwap._create_float_leg_accrual_schedule",IRS+":FixedToFloatInterestRateSwap.present_value",IRS+":FixedToFloatInterestRateSwap.implied_rate",SCH+":Scheduler.calculate_settlement_date",HOL+":US_FEDERAL_HOLIDAYS")
''')
add.note('C120','proved',"C120_periods, C120_valued, C120_par (no scheduling hypothesis: the schedules are shown to exist), C120_factor_nonneg (any calendar). The range of years keeps every date inside datetime's years 1..9999.")
s=open('/verif/DESIGN.md').read()
l=[x for x in s.split('\n') if x.startswith('| C119 |')][0]+'\n'
s=s.replace(l,l+"""| C120 | swap construction, accrual schedules, legs, value and implied rate on the US holiday calendar (Model/Swap, Model/Scheduler, Model/Holidays) | Lemmas/UsDates: a business day within a few days of any date (C09, C112), month arithmetic stays in range; then each schedule loop is total by induction and each period is longer than the adjustments; C106 for uniqueness of the par rate |
""",1)
open('/verif/DESIGN.md','w').write(s)
v=open('/verif/lean/Verif.lean').read()
for m in ['Lemmas.UsDates','Props.UsSwaps']:
    if f'import Verif.{m}\n' not in v: v=v.rstrip('\n')+f'\nimport Verif.{m}\n'
open('/verif/lean/Verif.lean','w').write(v)
