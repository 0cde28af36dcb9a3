import add
add.prop('''
p("Key rate collections stay well formed through any history",
  "After any interleaved history of building collections, replacing, deleting, popping, removing, clearing and reversing members, += that does not raise, setting bumps (of one member or a whole collection) and stepping through them, in which no key rate is shared by two collections, every collection is strictly sorted by key date, every member's prior and next dates are those of its neighbours (or absent at the ends), and no key date or convention has changed. Setting the collection's bump to b (two or more key rates, one convention other than 30/360) then succeeds and shifts every date by exactly b.",
  "every number of collections, every finite history of operations in any order, every date","Histories are unbounded and interleave; a test runs one sequence of operations.",KR+":KeyRateCollection.__setitem__",KR+":KeyRateCollection.__delitem__",KR+":KeyRateCollection.__iadd__",KR+":KeyRateCollection.set_bump_val",KR+":KeyRateCollection._set_dates_in_collection")
p("A bond is worth par at its coupon rate, more below it and less above it",
  "For a bond whose remaining payments are one coupon period apart on its day-count axis up to an error eps, the first after a fraction w of a period: discounted at a rate at most (at least) its coupon rate it is worth at least (at most) its principal times (1 + r/f)^(1 - w -+ eps). With exact periods it is worth exactly par at its coupon rate on a coupon date, and its yield is below, equal to or above the coupon rate exactly when its full price is above, equal to or below 100.",
  "every US Treasury bond with a coupon frequency, non-negative coupon and positive principal, every valuation date, every non-negative rate (yields: every rate above -f)","Quantifies over all real rates and all schedules; tests check single bonds within a tolerance.",UST+":UsTreasuryBond.discount_cashflows_by_fixed_rate",UST+":UsTreasuryBond.yield_to_maturity",UST+":UsTreasuryBond.create_coupon_payments_cashflow")
''')
add.note('C114','proved',"Sharing one key rate object between two collections is excluded by hypothesis (two collections rewire the same object's neighbours); += that raises is excluded (the code appends before raising, C51).")
add.note('C115','proved',"Exact real arithmetic; the day-count error eps is a hypothesis of the statement (zero for the exactly periodic case).")
s=open('/verif/DESIGN.md').read()
l=[x for x in s.split('\n') if x.startswith('| C113 |')][0]+'\n'
s=s.replace(l,l+"""| C114 | `KeyRate`, `KeyRateCollection` mutators (Model/KeyRate, Model/KeyRateSequence) | inductive histories over a heap of key rates and a family of collections; invariant: sorted, linked to neighbours, members within the collection's pool; each operation preserves it and frames the other collections |
| C115 | bond cash flows and fixed-rate discounting (Model/Bond) | telescoping geometric bound over the remaining payments; yield comparison by strict monotonicity (C37) |
""",1)
open('/verif/DESIGN.md','w').write(s)
v=open('/verif/lean/Verif.lean').read()
for m in ['Props.KeyRateHistory','Props.ParBond']:
    if f'import Verif.{m}\n' not in v: v=v.rstrip('\n')+f'\nimport Verif.{m}\n'
open('/verif/lean/Verif.lean','w').write(v)
