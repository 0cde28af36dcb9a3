import add
add.prop('''
p("Business-day shifts compose, invert and keep order",
  "Shifting a date by i and then j business days is shifting it by i+j whenever the middle date exists and the shifts end on business days; from a business day a shift is undone by the opposite shift; a larger shift never lands earlier, and a later date shifted by the same number never lands earlier, so settlement dates never cross. The modified-following adjustment is idempotent and keeps the order of dates (for US federal holidays without provisos).",
  "every holiday calendar, pair of dates and pair of integers","It quantifies over all calendars, dates and integer shifts.",SCH+":Scheduler.add_business_days",SCH+":Scheduler.calculate_settlement_date",SCH+":Scheduler.modified_following_date_adjustment")
p("Day-count conventions stay close to one another",
  "For start no later than end the accruals under ACT/360, ACT/365 and ACT/365.25 are ordered, ACT/ACT lies between days/366 and days/365, and 30/360 differs from ACT/ACT by less than three days out of 360, however long the period.",
  "every pair of ordered dates from year 2 on","The bound is uniform over millions of date pairs.",DCC+":DayCountCalculator.compute_accrual_length")
p("A Brownian motion can be built exactly from positive definite correlations",
  "For a symmetric matrix the constructor succeeds exactly when the matrix is positive definite (a perfectly correlated pair raises LinAlgError) and the simulated increments over a step of length dt then have covariance dt times the matrix; without a matrix the drivers are independent. Only the lower triangle is read, and the number of drivers is not compared with the shape of the matrix: a mismatch constructs and every simulation then raises ValueError.",
  "every symmetric matrix of any size, dimension, horizon and time step","Positive definiteness of every matrix of every size is not testable by samples.",BM+":BrownianMotion.__init__",BM+":BrownianMotion.generate_increments")
''')
add.note('C108','proved',"Every calendar and integer; the order of modified-following dates in full for US federal holidays, with a proviso (adjusted months are not all holidays) for arbitrary calendars.")
add.note('C109','proved',"Dates from year 2 on for ACT/ACT (the code subtracts a year).")
add.note('C110','proved',"numpy's Cholesky modelled as the exact factor of the lower triangle when it exists, LinAlgError otherwise.")
s=open('/verif/DESIGN.md').read()
l=[x for x in s.split('\n') if x.startswith('| C107 |')][0]+'\n'
s=s.replace(l,l+"""| C108 | `add_business_days`, `calculate_settlement_date`, `modified_following_date_adjustment` (Model/Scheduler) | counting characterisation of the shift (C02), composition by cases on signs; monotonicity by counting |
| C109 | `compute_accrual_length` (Model/DayCount) | closed forms of C13–C16 and year-length bounds; 30/360 through day-of-year estimates |
| C110 | `BrownianMotion.__init__`, `generate_increments` (Model/BrownianInit, Model/Stochastic) | existence of the Cholesky factor of every positive definite n×n matrix (Lemmas/Cholesky, via Mathlib's LDL), covariance from C56 |
""",1)
s=s.rstrip('\n')+"""
| BrownianMotion's `assert dimension, …` never compares the dimension with the matrix: the default dimension 1 with a larger matrix constructs and every simulation then raises ValueError | C110_dimension_unchecked |
| only the lower triangle of a correlation matrix is read: non-symmetric matrices are accepted | C110_lower_triangle |
"""
open('/verif/DESIGN.md','w').write(s)
v=open('/verif/lean/Verif.lean').read()
for m in ['Lemmas.Cholesky','Model.BrownianInit','Props.FailuresModels','Props.BusinessDayShift','Props.DayCountCompare','Props.BrownianInit']:
    if f'import Verif.{m}\n' not in v: v=v.rstrip('\n')+f'\nimport Verif.{m}\n'
open('/verif/lean/Verif.lean','w').write(v)
