import add
add.prop('''
p("Delta hedging with one bond per key rate leaves no key-rate risk",
  "When each hedging instrument pays only on its own key-rate date, the matrix of key-rate sensitivities built as in the hedging example is diagonal with nonzero entries, so the hedge weights are uniquely determined and the hedged position has zero sensitivity to every key rate.",
  "every curve, set of key-rate dates, set of zero-coupon hedges and portfolio value","Ranges over all curves, dates and positions.",KR+":KeyRate.set_bump_val",RM+":Pv01Calculator","examples/rates/delta_hedging.py")
p("The settlement rate of a one-month SOFR future is the average of the month's fixings",
  "calculate_settlement_rate returns the accrual-weighted average of the fixings over the business days of the contract month.",
  "every future and every fixing history","All months, calendars and histories.","fixedIncome/src/assets/rates/linear_rates/interest_rate_future.py:OneMonthSofrFuture.calculate_settlement_rate")
''')
add.note('C88','proved',"np.linalg.solve enters by its contract (a solution of the system). Instruments paying on one key-rate date each (zero-coupon bonds).")
add.note('C89','partial',"False of the code: date() without arguments raises TypeError for every future (C89_settlement_raises); value, knot and last trading date do not exist (C89_methods_missing). What the rest of the method would compute is proved in C89_average_partial, C89_too_short.")
