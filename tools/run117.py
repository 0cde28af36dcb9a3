import add
add.prop('''
p("Model quantities accept plain dates",
  "Maturity and purchase dates of the Vasicek models may be given as dates or datetimes, as annotated: a plain date means midnight of that day, and every quantity of either model is the same for both.",
  "every one-factor and multivariate model, every maturity, list of maturities and purchase date of either kind, every convention","Ranges over all models, both kinds of argument at each position and every convention; the repo's tests pass datetimes only.",VM+":VasicekModel",VM+":MultivariateVasicekModel",DCC+":DayCountCalculator.compute_accrual_length",BP+":DiffusionProcess.__call__")
''')
add.note('C117','partial',"Proved for plain maturity dates, conventions with a fixed year and the methods that do not compare dates (C117_midnight_partial, C117_multi_midnight_partial); datetimes in both positions are the methods of the other properties (C117_datetimes, C117_multi_datetimes). False of the code otherwise: methods that compare raise TypeError for a plain maturity (C117_compare_raises, C117_multi_compare_raises), a plain purchase date never gives a state-dependent value (C117_purchase_raises, C117_multi_purchase_raises), and under ACT/ACT a date and its midnight give different accruals (C117_act_act_gap). 30/360 with one datetime is not characterised here.")
s=open('/verif/DESIGN.md').read()
l=[x for x in s.split('\n') if x.startswith('| C116 |')][0]+'\n'
s=s.replace(l,l+"""| C117 | all methods of both Vasicek models on date and datetime arguments (Model/PlainDates) | unfolding: they are the datetime methods on datetimes; accruals of a date and its midnight compared by C16 and C104; comparisons raise |
""",1)
s=s.rstrip('\n')+"""
| quantities of the Vasicek models that compare dates raise TypeError for a plain maturity date although annotated with it | C117_compare_raises, C117_multi_compare_raises |
| a plain purchase date never gives a price, rate or yield in a Vasicek model | C117_purchase_raises, C117_multi_purchase_raises |
| under ACT/ACT a maturity date and its midnight give different accruals | C117_act_act_gap |
"""
open('/verif/DESIGN.md','w').write(s)
v=open('/verif/lean/Verif.lean').read()
for m in ['Model.PlainDates','Props.PlainDates']:
    if f'import Verif.{m}\n' not in v: v=v.rstrip('\n')+f'\nimport Verif.{m}\n'
open('/verif/lean/Verif.lean','w').write(v)
