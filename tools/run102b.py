import json
p='props.py';s=open(p).read()
old="and dividing by a zero price or a zero compounding base is a ZeroDivisionError."
assert old in s
s=s.replace(old,"dividing by a zero price or a zero compounding base is a ZeroDivisionError; resetting a curve value at a position outside raises IndexError and changes nothing, a curve without knots raises IndexError everywhere, and a curve whose reset failed raises ValueError outside its old grid; refused key rate replacements raise TypeError at the ends and ValueError between and change nothing; a zero-length or coupon-free loan has no fixed payment (ZeroDivisionError) and extra payments of a wrong type raise TypeError; a swap with a malformed tenor cannot be made and a leg paid monthly or never cannot be generated (ValueError, the swap unchanged); an increment of a wrong type is a TypeError and the next business day of a holiday a ValueError; a one-factor dictionary too short leaves exactly the parameters given overwritten.")
s=s.replace("every collection, position, loan, model, dictionary, list of starting values and set of bond terms","every collection, position, curve, loan, swap, model, dictionary, list of starting values and set of bond terms")
s=s.replace('DM+":DoublyMeanRevertingVasicek.set_volatiltiy_parameters_from_dict",UST+":UsTreasuryBond")','DM+":DoublyMeanRevertingVasicek.set_volatiltiy_parameters_from_dict",UST+":UsTreasuryBond",CV+":Curve.reset_value",IRS+":InterestRateSwap",SCH+":Scheduler.add_single_business_day")')
open(p,'w').write(s)
d=json.load(open('notes.json'))
d['C65']=['partial','Means and averages proved; covariance for diagonal reversion (and one factor); C65_covariance_rotated says exactly what is reported for orthogonal eigenvectors (G^T V G, with the right trace, right iff V commutes with G); C65_covariance_false refutes it for doubly mean-reverting models with uncorrelated shocks.']
json.dump(d,open('notes.json','w'),indent=1)
s=open('/verif/DESIGN.md').read()
s=s.replace("| C102 | error branches of the models already present (KeyRate, Loan, MultiVasicek, Doubly, Bond) |","| C102 | error branches of the models already present (KeyRate, Curve, Loan, Swap, Scheduler, Vasicek, MultiVasicek, Doubly, Bond) |")
open('/verif/DESIGN.md','w').write(s)
