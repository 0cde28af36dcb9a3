import add
p='/tmp/work/props.py';s=open(p).read()
if 'DF=S' not in s:
    s=s.replace("\nP=[]","\nDF=S+'curves/credit_curves/default_models.py'\nP=[]",1);open(p,'w').write(s)
add.prop('''
p("Simulated default times follow the hazard rate",
  "default_bernoulli_paths(hazard, maturity, dt, n) with dt > 0 terminates and returns n results. Each is the first grid time j*dt < maturity whose uniform draw does not exceed hazard(j*dt)*dt, or no default if there is none; consecutive paths use consecutive draws. With independent uniform draws the probability of no default is the product of (1 - hazard(t)*dt) (clamped to [0,1]) over the grid, the probability of default exactly at a grid time is the corresponding product, and for a constant hazard rate the survival probability tends to exp(-rate*maturity) as dt tends to 0.",
  "every hazard function, maturity, positive time step, number of paths and sequence of draws; for the probabilities every probability space carrying independent uniform draws","Infinitely many draw sequences; a distribution cannot be established by finitely many runs.",DF+":default_bernoulli_paths")
p("A cashflow behaves as the sequence of its payments in date order",
  "Indexing a Cashflow by i returns the i-th payment in date order (negative i from the end) and raises IndexError outside; slicing with any start, stop and positive step returns the cashflow of exactly the selected payments, in order; any nonzero step gives a date-ordered cashflow of payments of the original; [::-1] of a cashflow with distinct dates is the same cashflow; c[:k] and c[k:] together are c and their present values add up; rebuilding from the dates and amounts gives an equal cashflow.",
  "every list of payments, every index and slice (any integers or absent), every discount curve","Unbounded lists and slices.",CF+":Cashflow.__getitem__",CF+":Cashflow.create_from_iterables",CF+":Cashflow.get_payment_dates")
p("Instruments can be iterated, compared and looked up in lists",
  "Iterating over an instrument (a CashflowCollection) yields its cashflows; two instruments with the same cashflows are equal, different ones are not; `x in instruments` finds an instrument.",
  "every instrument with any cashflows, every list of instruments","All instruments and all positions in a list.",CF+":CashflowCollection.__iter__",CF+":CashflowCollection.__len__",CF+":CashflowCollection.__contains__")
p("A loan charges interest from its origination to its last payment",
  "The first interest payment of a loan covers the time from origination to the first payment, every later one the time since the payment before; present_value of a loan is the value of its payments.",
  "every loan, payment amount, extra payments and day count convention","All dates, terms and amounts.",LN+":Loan.generate_payment_schedule",LN+":Loan.present_value")
''')
add.note('C76','proved',"Exact arithmetic; the random generator is an arbitrary sequence of draws (for the probabilities: independent uniforms). The interval before maturity is never tested. For dt <= 0 the simulation can run forever (C76_diverges).")
add.note('C77','proved',"All slices of Python semantics.")
add.note('C78','partial',"False of the code: __iter__ returns dict items (not an iterator), so iteration raises TypeError, as do == and membership whenever two instruments have equally many cashflows (C78_iteration_raises, C78_equality_raises, C78_membership_raises). Proved part: collections of different sizes compare by size.")
add.note('C79','partial',"False of the code: interest runs from the adjusted start date; the origination day has no influence (C79_same_month), the stub is not charged with START_OF_MONTH (C79_stub_uncharged), with END_OF_MONTH a loan of the 31st accrues from the 30th (C79_before_origination); present_value raises TypeError. Proved part: later periods have no gap and no overlap.")
