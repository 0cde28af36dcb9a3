import add
add.prop('''
p("Reading and removing key rates works as on a list",
  "For a wired key rate collection, membership, reversed, index(value, start, stop), pop(i), remove(value), slicing and deleting a slice all answer and act as on the Python list of its key rates in date order: index returns the first position in range or raises ValueError, pop and remove return or drop exactly the addressed element, a slice is the collection of the selected key rates, and after a removal that leaves at least one key rate the remaining rates are re-wired to their neighbours.",
  "every key rate collection of any length, every value, index and slice","Unbounded collections, indexes and slices.",KR+":KeyRateCollection.__getitem__",KR+":KeyRateCollection.__delitem__",KR+":KeyRateCollection.__contains__",KR+":KeyRateCollection.__len__")
p("The inherited mutators of a key rate collection grow, reverse and empty it",
  "append, insert and extend add key rates to the collection, reverse and clear complete without an exception and leave an empty or equal collection.",
  "every key rate collection, value and position","All collections and all values.",KR+":KeyRateCollection.insert",KR+":KeyRateCollection.__setitem__",KR+":KeyRateCollection.__delitem__")
p("Duration and convexity measure the sensitivity of the price to the yield",
  "pv_deriv is the derivative of the present value with respect to the yield to maturity (up to the half basis point offset of its central difference), duration is minus the relative derivative, convexity the relative second derivative, and macaulay_duration is the value-weighted average time to payment, lies between the first and last time, and equals the modified duration times (1 + ytm/frequency).",
  "every fixed rate US Treasury bond, settlement date and yield","All bonds, dates and yields; a derivative is a limit.",UST+":UsTreasuryBond.duration",UST+":UsTreasuryBond.pv_deriv",UST+":UsTreasuryBond.convexity",CB+":FixedRateBond.macaulay_duration")
''')
add.note('C80','proved',"Collections whose key rates are in date order (as every constructor leaves them).")
add.note('C81','partial',"False of the code: append, insert and extend always raise TypeError (C81_growth_raises), reverse raises TypeError for two or more key rates (C81_reverse_raises), clear empties the collection and raises ValueError (C81_clear_raises). Proved part: the trivial cases.")
add.note('C82','partial',"False of the code: duration is too large by the factor principal/100 (C82_principal_false), convexity always raises AttributeError (C82_convexity_raises). Proved: the derivative claim (exact sensitivity at a rate within half a basis point), duration for principal 100, the Macaulay claims when settling on the next business day.")
