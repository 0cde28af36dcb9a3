import add
add.prop('''
p("Bad arguments raise a definite exception and leave a definite state",
  "Positions outside a key rate collection raise IndexError on reading, replacing and deleting and change nothing; a loan without coupons has no schedule (ValueError); a number of starting values that is neither one nor the number of state variables never gives a path; setting a doubly mean-reverting model from a too short parameter list raises IndexError after overwriting exactly the parameters given; the multivariate, trebly mean-reverting and market-price-of-risk classes always raise TypeError on construction; a bond with a malformed tenor or settling before its dated date raises ValueError, with no coupon period IndexError, without principal ZeroDivisionError, and dividing by a zero price or a zero compounding base is a ZeroDivisionError.",
  "every collection, position, loan, model, dictionary, list of starting values and set of bond terms","The claims are about every bad argument, of any size, and about the state left behind.",KR+":KeyRateCollection.__getitem__",LN+":Loan.generate_payment_schedule",VM+":MultivariateVasicekModel.generate_path",DM+":DoublyMeanRevertingVasicek.set_volatiltiy_parameters_from_dict",UST+":UsTreasuryBond")
''')
add.note('C102','proved',"Each theorem names the exception and, where there is state, the state afterwards. Error messages are not modelled, only the exception class.")
s=open('/verif/DESIGN.md').read()
l=[x for x in s.split('\n') if x.startswith('| C101 |')][0]+'\n'
s=s.replace(l,l+"""| C102 | error branches of the models already present (KeyRate, Loan, MultiVasicek, Doubly, Bond) | case analysis on the argument, showing which exception and the state afterwards |
""",1)
open('/verif/DESIGN.md','w').write(s)
