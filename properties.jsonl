{"id": "C01", "title": "Business-day predicate", "statement": "Scheduler.is_business_day(d, cal) returns True exactly when d is Monday to Friday and d is none of the adjusted holiday dates which the calendar's templates generate for d's own calendar year.", "quantifier": "every date in Python's range 0001-01-01..9999-12-31 and every holiday calendar (any dict of templates, any adjustment functions)", "why_tests_cant": "3.65 million dates times arbitrary calendars; tests sample a few dates of a few years.", "anchors": ["fixedIncome/src/scheduling_tools/scheduler.py:Scheduler.is_business_day", "fixedIncome/src/scheduling_tools/holidays.py:generate_all_holidays", "fixedIncome/src/scheduling_tools/holidays.py:generate_holiday_dates"]}
{"id": "C02", "title": "Following adjustment is the least business day on or after", "statement": "Whenever Scheduler.following_date_adjustment(d, cal) returns r: r is a business day, r >= d, and no business day lies in [d, r). Hence a business day is its own adjustment, the adjustment is idempotent, and it is monotone in d.", "quantifier": "every date in Python's range 0001-01-01..9999-12-31 and every holiday calendar (any dict of templates, any adjustment functions)", "why_tests_cant": "Gaps between business days depend on the calendar and year; minimality is a statement about all days in between.", "anchors": ["fixedIncome/src/scheduling_tools/scheduler.py:Scheduler.following_date_adjustment", "fixedIncome/src/scheduling_tools/scheduler.py:Scheduler.add_business_days"]}
{"id": "C03", "title": "Adding n >= 0 business days counts business days", "statement": "Whenever Scheduler.add_business_days(d, n, cal) returns r with n >= 0: r is a business day and exactly n business days lie in [r0, r), where r0 is the following-adjusted d; and adding n then m days equals adding n+m.", "quantifier": "every date in Python's range 0001-01-01..9999-12-31 and every holiday calendar (any dict of templates, any adjustment functions); every natural n and m", "why_tests_cant": "n is unbounded and the result depends on all holidays in between.", "anchors": ["fixedIncome/src/scheduling_tools/scheduler.py:Scheduler.add_business_days", "fixedIncome/src/scheduling_tools/scheduler.py:Scheduler.add_single_business_day"]}
{"id": "C04", "title": "Negative business-day offsets invert positive ones", "statement": "Whenever add_business_days(d, -n, cal) returns r: r is a business day and exactly n business days lie in [r, r0), with r0 the following-adjusted d. For a business day d, add_business_days(add_business_days(d, n), -n) == d, whenever the calls return.", "quantifier": "every date in Python's range 0001-01-01..9999-12-31 and every holiday calendar (any dict of templates, any adjustment functions); every natural n", "why_tests_cant": "Inverse law over all dates, offsets and calendars.", "anchors": ["fixedIncome/src/scheduling_tools/scheduler.py:Scheduler.add_business_days", "fixedIncome/src/scheduling_tools/scheduler.py:Scheduler.subtract_single_business_day"]}
{"id": "C05", "title": "Modified following stays in the month", "statement": "Whenever modified_following_date_adjustment(d, cal) returns r: r is a business day; if the following-adjusted date has the same month number as d then r is that date; otherwise r is the last business day before d. If some business day of d's month exists on or before d or on or after it within the month (and the roll does not jump a whole year), r lies in d's month and year.", "quantifier": "every date in Python's range 0001-01-01..9999-12-31 and every holiday calendar (any dict of templates, any adjustment functions)", "why_tests_cant": "Month-end behaviour depends on where weekends and holidays fall for each month of each year.", "anchors": ["fixedIncome/src/scheduling_tools/scheduler.py:Scheduler.modified_following_date_adjustment"]}
{"id": "C06", "title": "Settlement conventions", "statement": "calculate_settlement_date returns, for T-2, T-1, T+0..T+3 business conventions, the business day at that signed count from the purchase date; for T-0 the last business day on or before it; and raises ValueError for every calendar-day convention of the SettlementConvention enumeration, although those are members of the accepted type.", "quantifier": "every date in Python's range 0001-01-01..9999-12-31 and every holiday calendar (any dict of templates, any adjustment functions); every member of SettlementConvention", "why_tests_cant": "Each convention must hold for all dates and calendars.", "anchors": ["fixedIncome/src/scheduling_tools/scheduler.py:Scheduler.calculate_settlement_date", "fixedIncome/src/scheduling_tools/schedule_enumerations.py:SettlementConvention"]}
{"id": "C07", "title": "generate_business_days is exactly the business days of the interval", "statement": "Whenever generate_business_days(a, b, cal) returns L: L is strictly increasing and a date is in L iff it is a business day in [a, b].", "quantifier": "every date in Python's range 0001-01-01..9999-12-31 and every holiday calendar (any dict of templates, any adjustment functions); every pair a, b", "why_tests_cant": "Interval length is unbounded; completeness is universally quantified.", "anchors": ["fixedIncome/src/scheduling_tools/scheduler.py:Scheduler.generate_business_days"]}
{"id": "C08", "title": "generate_dates_by_increments: arithmetic progression, bounds and cap", "statement": "For a timedelta increment of k days: the k-th returned date is start + k*increment, all returned dates lie between start and end (inclusive), the list is the maximal such prefix, and its length never exceeds max_dates + 1 (one more than the documented cap).", "quantifier": "every start, end, signed increment and max_dates, including zero increments and increments pointing away from end", "why_tests_cant": "Unbounded sizes; off-by-one on the cap only shows at the boundary.", "anchors": ["fixedIncome/src/scheduling_tools/scheduler.py:Scheduler.generate_dates_by_increments"]}
{"id": "C09", "title": "US calendar: rolls always terminate within few days", "statement": "With US_FEDERAL_HOLIDAYS, is_business_day never raises, and following_date_adjustment(d) returns a date at most 4 days after d for every d up to 9999-12-27; the only error at the end of the range is OverflowError.", "quantifier": "every date of the supported range", "why_tests_cant": "Termination of a while loop for every date of 9999 years.", "anchors": ["fixedIncome/src/scheduling_tools/scheduler.py:Scheduler.add_business_days", "fixedIncome/src/scheduling_tools/holidays.py:US_FEDERAL_HOLIDAYS"]}
{"id": "C10", "title": "Federal holiday adjustment", "statement": "us_federal_holiday_adjustment(d) is never on a weekend, differs from d by at most one day, equals d on weekdays, is the preceding Friday for a Saturday and the following Monday for a Sunday; get_next_weekday(d, w) is the least date on or after d that falls on w. (OverflowError only at the ends of the date range.)", "quantifier": "every date and every weekday", "why_tests_cant": "All dates; modular arithmetic on weekdays.", "anchors": ["fixedIncome/src/scheduling_tools/holidays.py:us_federal_holiday_adjustment", "fixedIncome/src/scheduling_tools/holidays.py:get_next_weekday"]}
{"id": "C11", "title": "US federal holidays fall on their legal dates", "statement": "For every year the US_FEDERAL_HOLIDAYS templates generate the legally observed dates: Presidents' Day third Monday of February, Labor Day first Monday of September, Columbus Day second Monday of October, Thanksgiving fourth Thursday of November, MLK Day third Monday of January, Memorial Day last Monday of May, fixed-date holidays moved off weekends.", "quantifier": "every year 1..9999", "why_tests_cant": "A yearly calendar rule; tests look at single years (MLK and Memorial Day are wrong in most years).", "anchors": ["fixedIncome/src/scheduling_tools/holidays.py:US_FEDERAL_HOLIDAYS", "fixedIncome/src/scheduling_tools/holidays.py:generate_holiday_dates"]}
{"id": "C12", "title": "Observed holidays crossing a year end are still holidays", "statement": "A date that some year's US_FEDERAL_HOLIDAYS templates generate as an observed holiday is not a business day, including 31 December when the following 1 January is a Saturday.", "quantifier": "every year", "why_tests_cant": "Only certain years expose it.", "anchors": ["fixedIncome/src/scheduling_tools/scheduler.py:Scheduler.is_business_day", "fixedIncome/src/scheduling_tools/holidays.py:generate_all_holidays"]}
{"id": "C13", "title": "Actual/fixed-denominator day counts", "statement": "compute_accrual_length(s, e, dcc) for ACT/360, ACT/365, ACT/365.25 on dates s <= e equals (days from s to e)/360, /365, /365.25 exactly; so it is nonnegative, zero iff s == e, strictly increasing in e and additive: acc(a,c) = acc(a,b) + acc(b,c).", "quantifier": "all dates s <= e (and a <= b <= c), exact rational arithmetic", "why_tests_cant": "Additivity and monotonicity quantify over triples of dates.", "anchors": ["fixedIncome/src/scheduling_tools/day_count_calculator.py:DayCountCalculator.compute_accrual_length"]}
{"id": "C14", "title": "Actual/actual day count is additive and exact on whole years", "statement": "For dates with year >= 2, ACT/ACT accrual equals the difference of a year-fraction coordinate, hence is additive over a <= b <= c, nonnegative, strictly increasing, and equals k between the same month and day k years apart when both years have equal length (and between 31 Decembers always); for dates in year 1 it raises ValueError.", "quantifier": "all dates a <= b <= c", "why_tests_cant": "Leap-year interplay over all year pairs.", "anchors": ["fixedIncome/src/scheduling_tools/day_count_calculator.py:DayCountCalculator._dcc_act_over_act"]}
{"id": "C15", "title": "30/360 day count", "statement": "The 30/360 accrual of s <= e is the US 30/360 count (360*years+30*months+days after the four end-of-month adjustments) over 360, is nonnegative and monotone in e. (The code treats only day 28 as the last day of February, so non-negativity fails for 28 Feb to 29 Feb of a leap year.)", "quantifier": "all dates s <= e", "why_tests_cant": "End-of-month special cases across all months and leap years.", "anchors": ["fixedIncome/src/scheduling_tools/day_count_calculator.py:DayCountCalculator._dcc_30_over_360"]}
{"id": "C16", "title": "Day counts accept datetimes consistently", "statement": "For datetimes at midnight every convention returns the same accrual as for the corresponding dates when the dates' days are uniformly counted (ACT/fixed: always), and for ACT/fixed conventions the accrual of arbitrary datetimes is exactly the elapsed seconds over the denominator in seconds, hence additive.", "quantifier": "all datetimes (microsecond resolution) s <= e and mixtures of date and datetime", "why_tests_cant": "Inner/outer interpolation must be exact for every timestamp.", "anchors": ["fixedIncome/src/scheduling_tools/day_count_calculator.py:DayCountCalculator.include_datetimes"]}
{"id": "C17", "title": "Reversed intervals are rejected by every convention", "statement": "compute_accrual_length(s, e, dcc) raises ValueError iff s > e (compared as datetimes), for every convention (ACT/ACT also raises in year 1).", "quantifier": "all dates/datetimes and conventions", "why_tests_cant": "Error behaviour on all inputs.", "anchors": ["fixedIncome/src/scheduling_tools/day_count_calculator.py:DayCountCalculator.check_dates"]}
{"id": "C18", "title": "Cashflow schedules stay sorted under every history", "statement": "After constructing a Cashflow from any payments in any order and applying any sequence of add_payment calls, iterating yields payments in non-decreasing payment-date order, the payments are exactly those supplied (as a multiset), and payments with equal dates keep their insertion order.", "quantifier": "every initial list and every sequence of add_payment calls", "why_tests_cant": "All histories of operations.", "anchors": ["fixedIncome/src/assets/base_cashflow.py:Cashflow.__init__", "fixedIncome/src/assets/base_cashflow.py:Cashflow.add_payment"]}
{"id": "C19", "title": "Cashflow present value", "statement": "Cashflow.present_value(curve) equals the sum of curve(date)*amount over exactly the payments with a known amount dated on or after the curve's reference date; it does not depend on the order in which payments were supplied, and a concatenated cashflow's value is the sum of the values.", "quantifier": "every list of payments, every curve, every reference date", "why_tests_cant": "Order-independence and linearity over all lists.", "anchors": ["fixedIncome/src/assets/base_cashflow.py:Cashflow.present_value"]}
{"id": "C20", "title": "CashflowCollection behaves as a map from keys to cashflows", "statement": "For any construction and any sequence of c[key] = cf assignments, c[key] returns the latest cashflow assigned to key, `key in c` holds iff it was ever assigned, len(c) is the number of distinct keys.", "quantifier": "every construction (also with repeated keys or lists of unequal length) and every assignment history", "why_tests_cant": "Refinement to an abstract map over all histories.", "anchors": ["fixedIncome/src/assets/base_cashflow.py:CashflowCollection.__setitem__", "fixedIncome/src/assets/base_cashflow.py:CashflowCollection.__getitem__"]}
{"id": "C21", "title": "cashflow_list stays in step with the collection", "statement": "After any assignments the public cashflow_list/keys attributes list exactly the cashflows reachable by key. (False: replacing an existing key leaves the old cashflow in cashflow_list.)", "quantifier": "every assignment history", "why_tests_cant": "History-dependent staleness.", "anchors": ["fixedIncome/src/assets/base_cashflow.py:CashflowCollection.__setitem__"]}
{"id": "C22", "title": "KeyRate bump is a hat function", "statement": "A KeyRate with prior date p, key date m and next date n (p < m < n) maps dates d <= p and d >= n to 0, m to the bump value, and lies between 0 and the bump elsewhere, rising on [p, m] and falling on [m, n] linearly in the day-count coordinate; without a prior (next) date it equals the bump for all d <= m (>= m).", "quantifier": "all dates p < m < n, d, all bump values, all additive day-count conventions", "why_tests_cant": "Piecewise function over all dates and conventions.", "anchors": ["fixedIncome/src/risk/key_rate.py:KeyRate.create_adjustment_function", "fixedIncome/src/risk/key_rate.py:KeyRate.__call__"]}
{"id": "C23", "title": "KeyRateCollection construction and neighbour wiring", "statement": "KeyRateCollection(krs) raises ValueError iff krs is empty or two key rates share a key date; otherwise it holds the same key rates sorted by date, the i-th having prior/next dates equal to its neighbours' key dates (None at the ends); the result does not depend on the order of krs.", "quantifier": "every list of key rates in any order", "why_tests_cant": "Permutation invariance over all lists.", "anchors": ["fixedIncome/src/risk/key_rate.py:KeyRateCollection.__init__", "fixedIncome/src/risk/key_rate.py:KeyRateCollection._set_dates_in_collection"]}
{"id": "C24", "title": "Key rates partition a parallel shift", "statement": "For a collection of key rates (common bump and convention), the combined adjustment equals the bump at every date. (Holds for >= 2 key rates under additive conventions; fails for 30/360 and, with TypeError, for a single key rate past its key date.)", "quantifier": "every collection, every date, every bump value", "why_tests_cant": "Sum over arbitrarily many hat functions at every date.", "anchors": ["fixedIncome/src/risk/key_rate.py:KeyRateCollection._create_combined_adjustment_function"]}
{"id": "C25", "title": "KeyRateCollection addition is set union", "statement": "c1 + c2 is a collection of the union of key rates (equal key rates merged by convention and date), commutative and idempotent; it raises ValueError iff two distinct conventions share a date.", "quantifier": "all pairs of collections", "why_tests_cant": "All pairs of arbitrary size.", "anchors": ["fixedIncome/src/risk/key_rate.py:KeyRateCollection.__add__"]}
{"id": "C26", "title": "In-place addition keeps the collection sorted", "statement": "c += key_rates keeps the key rates ordered by date as documented. (False: the set union is not re-sorted, so depending on set order it raises ValueError or mis-wires.)", "quantifier": "every collection, every added iterable, every set iteration order", "why_tests_cant": "Depends on hash order, not on the test input.", "anchors": ["fixedIncome/src/risk/key_rate.py:KeyRateCollection.__iadd__"]}
{"id": "C27", "title": "Curve interpolation is faithful to its knots", "statement": "A linear Curve on distinct knots returns exactly the knot value at each knot, the straight-line value in the day-count coordinate between adjacent knots (so between their values), the end value or ValueError outside according to the end behaviour, and is independent of the order in which knots were supplied; an adjustment function is added pointwise.", "quantifier": "every knot list of any size and order, every query date, every adjustment", "why_tests_cant": "All knot configurations and all dates.", "anchors": ["fixedIncome/src/curves/base_curve.py:Curve.interpolate", "fixedIncome/src/curves/base_curve.py:Curve._create_interpolation_object"]}
{"id": "C28", "title": "Right constant extrapolation with an adjustment", "statement": "With right_end_behavior CONSTANT, curve(d, adj) for d after the last knot equals last value + adj(d). (False: the code passes the class `date` instead of d to adj.)", "quantifier": "every curve, adjustment function, and later date", "why_tests_cant": "Every date beyond the last knot.", "anchors": ["fixedIncome/src/curves/base_curve.py:Curve.interpolate"]}
{"id": "C29", "title": "A discount-factor yield curve reprices its zero-coupon instruments", "statement": "The discount curve derived (DISCOUNT_FACTOR space) from zero-coupon bonds with distinct payment dates gives each input bond a present value equal to its quoted price, and every payment date's value lies between the neighbouring prices.", "quantifier": "every set of zero-coupon bonds", "why_tests_cant": "All instrument sets.", "anchors": ["fixedIncome/src/curves/yield_curves/yield_curve.py:YieldCurve.to_discount_curve", "fixedIncome/src/assets/base_cashflow.py:ZeroCoupon"]}
{"id": "C30", "title": "Key-rate sensitivities are linear in positions", "statement": "calculate_key_rate_deriv / pv01 of a portfolio equals the quantity-weighted sum of the assets' sensitivities (cash contributes zero); a risk ladder lists one risk per key rate in date order; pv01 = (PV(+bp/2) - PV(-bp/2)).", "quantifier": "every portfolio, curve and key-rate collection", "why_tests_cant": "Linearity for all portfolios.", "anchors": ["fixedIncome/src/curves/yield_curves/yield_curve.py:YieldCurve.calculate_key_rate_deriv", "fixedIncome/src/curves/yield_curves/yield_curve.py:YieldCurve.calculate_pv01_risk_ladder"]}
{"id": "C31", "title": "Risk calculations leave their inputs unchanged", "statement": "calculate_key_rate_deriv restores the key rate's bump value and does not change discount curves previously returned by the yield curve. (False: the key rate is left at +bp/2, and to_discount_curve mutates and returns one shared object.)", "quantifier": "every call sequence", "why_tests_cant": "History/aliasing dependent.", "anchors": ["fixedIncome/src/curves/yield_curves/yield_curve.py:YieldCurve.calculate_key_rate_deriv", "fixedIncome/src/curves/yield_curves/yield_curve.py:YieldCurve.to_discount_curve"]}
{"id": "C32", "title": "Portfolio value is linear", "statement": "Portfolio.present_value(curve) = cash + sum of quantity * asset PV; it is invariant under reordering, additive under concatenation, homogeneous in quantities.", "quantifier": "every list of entries", "why_tests_cant": "All portfolios.", "anchors": ["fixedIncome/src/portfolio/base_portfolio.py:Portfolio.present_value"]}
{"id": "C33", "title": "Treasury coupon schedule", "statement": "For frequency f in {1,2,4}: the coupon dates are strictly before-or-equal maturity and strictly after the dated date, the last unadjusted coupon date is the maturity date, consecutive unadjusted dates are 12/f months apart by iterated calendar-month subtraction, payment dates are business-day adjusted (on or after the unadjusted date under FOLLOWING), each pays principal*rate/(100 f); a zero-coupon bond has none; an n-year bond whose maturity day is at most 28 has exactly n*f coupons.", "quantifier": "every maturity date, tenor, frequency, adjustment convention, calendar", "why_tests_cant": "All dates/tenors; month-end drift.", "anchors": ["fixedIncome/src/assets/us_treasury_instruments/us_treasury_instruments.py:UsTreasuryBond.create_coupon_payments_cashflow", "fixedIncome/src/assets/us_treasury_instruments/us_treasury_instruments.py:UsTreasuryBond.calculate_dated_date"]}
{"id": "C34", "title": "Treasury present value counts exactly the payments still to be received", "statement": "bond.present_value(curve) equals the discounted sum of coupons and principal whose unadjusted date is on or after one business day after the curve's reference date; payments earlier than that never contribute.", "quantifier": "every bond, curve, reference date", "why_tests_cant": "All schedules and reference dates.", "anchors": ["fixedIncome/src/assets/us_treasury_instruments/us_treasury_instruments.py:UsTreasuryBond.present_value", "fixedIncome/src/assets/us_treasury_instruments/us_treasury_instruments.py:UsTreasuryBond.is_payment_received"]}
{"id": "C35", "title": "Accrued interest lies between zero and one coupon", "statement": "Accrued interest of a coupon bond purchased before maturity is between 0 and the coupon payment. (Proved when no coupon date lies between purchase and settlement; the code fails or exceeds one coupon otherwise.)", "quantifier": "every bond and purchase date", "why_tests_cant": "Boundary cases around coupon dates falling on weekends.", "anchors": ["fixedIncome/src/assets/us_treasury_instruments/us_treasury_instruments.py:UsTreasuryBond.calculate_accrued_interest"]}
{"id": "C36", "title": "Full price responds to the reference date", "statement": "get_full_price(reference_date) returns price plus the accrued interest at that reference date. (False: the accrued interest cached at construction is always used.)", "quantifier": "every bond and reference date", "why_tests_cant": "Cache staleness over all call histories.", "anchors": ["fixedIncome/src/assets/us_treasury_instruments/us_treasury_instruments.py:UsTreasuryBond.get_full_price"]}
{"id": "C37", "title": "Fixed-rate discounting is monotone, so yields are unique", "statement": "For a bond with nonnegative coupons and positive principal still to be received, under a day count that puts every payment still due at a positive time, the fixed-rate present value is strictly decreasing in the rate on r > -f, equals the undiscounted sum at r = 0, and exactly one yield to maturity reproduces any given positive price. ACT/360, ACT/365, ACT/365.25 and ACT/ACT always do so; 30/360 does so exactly when the next business day is not both the day after the reference date and a 31st or a 29 February, and in that case the value of a bond maturing that day does not depend on the rate, or rises with it.", "quantifier": "every payment schedule with at least one positive payment strictly after the settlement date, every pair of rates", "why_tests_cant": "Strict monotonicity over the reals.", "anchors": ["fixedIncome/src/assets/us_treasury_instruments/us_treasury_instruments.py:UsTreasuryBond.discount_cashflows_by_fixed_rate", "fixedIncome/src/assets/us_treasury_instruments/us_treasury_instruments.py:UsTreasuryBond.yield_to_maturity"]}
{"id": "C38", "title": "Loan amortization invariants", "statement": "In every generated payment schedule: principal payments sum to at most the original principal, the remaining balance after k periods is the principal minus the sum of the first k principal payments and never negative, interest is accrual*rate*remaining, payment+extra = interest + principal before payoff, and after the balance hits zero all later principal and interest are zero.", "quantifier": "every principal, rate, schedule length, extra-payment list", "why_tests_cant": "Induction over payment periods for arbitrary lists.", "anchors": ["fixedIncome/src/assets/credit/loan.py:Loan.generate_payment_schedule"]}
{"id": "C39", "title": "The fixed payment amortizes the loan exactly", "statement": "With equal accruals 1/f and no extra payments, the payment returned by calculate_fixed_payment_amount brings the balance to zero exactly after years*f payments (in exact arithmetic), and the closed formula balance_k = P(1+i)^k - A((1+i)^k-1)/i holds.", "quantifier": "every principal, nonzero rate, number of periods", "why_tests_cant": "Closed form for every k.", "anchors": ["fixedIncome/src/assets/credit/loan.py:Loan.calculate_fixed_payment_amount"]}
{"id": "C40", "title": "Loan payment dates", "statement": "END_OF_MONTH payment dates are the last calendar day of their months. (False: the code uses November's length, 30, and raises for February.)", "quantifier": "every origination month", "why_tests_cant": "Per-month behaviour.", "anchors": ["fixedIncome/src/assets/credit/loan.py:Loan.generate_payment_schedule"]}
{"id": "C41", "title": "Swap value is antisymmetric in direction", "statement": "The PV of a payer swap is the negation of the PV of the receiver swap with the same terms; PV is raised as ValueError unless both legs have been generated; the PV of receiver = fixed leg PV - floating leg PV.", "quantifier": "every swap, curve and leg cashflows", "why_tests_cant": "All cashflows and curves.", "anchors": ["fixedIncome/src/assets/rates/linear_rates/interest_rate_swap.py:FixedToFloatInterestRateSwap.present_value"]}
{"id": "C42", "title": "The implied rate makes the swap fair", "statement": "A swap whose fixed rate equals implied_rate(curve, rates) has zero PV. (Proved when no fixed payment precedes the curve's reference date; false for seasoned swaps.)", "quantifier": "every swap schedule, curve and floating rates with nonzero annuity", "why_tests_cant": "All schedules and curves.", "anchors": ["fixedIncome/src/assets/rates/linear_rates/interest_rate_swap.py:FixedToFloatInterestRateSwap.implied_rate"]}
{"id": "C43", "title": "Overnight compounding", "statement": "calculate_annualized_rate over business days satisfies 1 + rate*sum(accruals) = prod(1 + r_i*accrual_i); it is at least the accrual-weighted average rate when rates are nonnegative; raises ZeroDivisionError iff fewer than two business days are in the interval.", "quantifier": "every rate function, every interval", "why_tests_cant": "Products of arbitrary length.", "anchors": ["fixedIncome/src/assets/rates/linear_rates/interest_rate_swap.py:OvernightIndexSwap.calculate_annualized_rate"]}
{"id": "C44", "title": "Path lookup between grid points", "statement": "A simulated path evaluated at a grid datetime returns the simulated value there, outside the grid raises, and between two grid points returns a value between theirs which tends to the nearer one. (False between points: the weights are swapped.)", "quantifier": "every grid, path and query datetime", "why_tests_cant": "All query times.", "anchors": ["fixedIncome/src/stochastics/brownian_motion.py:BrownianMotion.datetime_to_path_call", "fixedIncome/src/stochastics/base_processes.py:DiffusionProcess"]}
{"id": "C45", "title": "Simulated paths start at their initial value and follow the Euler recursion", "statement": "Every path generated by the Brownian motion and diffusion classes has one value per grid time, starts at the given start value, and each step adds drift*dt plus diffusion*increment evaluated at the previous state; a Brownian path's increments are the generated increments.", "quantifier": "every grid, increments, drift and diffusion functions", "why_tests_cant": "Induction over path length.", "anchors": ["fixedIncome/src/stochastics/brownian_motion.py:BrownianMotion.generate_path", "fixedIncome/src/stochastics/base_processes.py:DiffusionProcess.generate_path"]}
{"id": "C46", "title": "Integrated short rate", "statement": "The integrated path of a short-rate model is the trapezoidal integral of the short rate over time. (False: old_time_accrual is never advanced, so each step uses the cumulative accrual.)", "quantifier": "every path with at least two steps", "why_tests_cant": "Depends on the number of steps.", "anchors": ["fixedIncome/src/stochastics/short_rate_models/base_short_rate_model.py:ShortRateModel.generate_integrated_path"]}
{"id": "C47", "title": "The one-factor Vasicek model prices by its own short-rate dynamics", "statement": "A path of the Vasicek model moves the short rate by k(theta-r)dt + sigma dW from the given start. A zero-coupon bond costs the expectation of exp(-integral of the short rate) given the short rate on the purchase date and the time from then to maturity; it solves the pricing equation, is 1 at maturity, positive and strictly decreasing in the rate; the yield is -log(price)/T, the forward rate -d/dT log(price); expected rate, variance, average expected rate, convexities and volatilities are those of the dynamics. (False for a purchase date after the start: price and yield keep counting time from the start.)", "quantifier": "every nonzero reversion speed, every volatility, mean level, short rate, purchase date and maturity (real arithmetic), after any number of path generations", "why_tests_cant": "Identities over the reals.", "anchors": ["fixedIncome/src/stochastics/short_rate_models/affine_yield_curve_models/vasicek_model.py:VasicekModel"]}
{"id": "C48", "title": "RiskLadder containment", "statement": "`risk in ladder` is True exactly for the risks stored. (False: __contains__ returns None, so the test is always False.)", "quantifier": "every ladder and risk", "why_tests_cant": "Always wrong, but untested.", "anchors": ["fixedIncome/src/risk/risk_metrics.py:RiskLadder.__contains__"]}
{"id": "C49", "title": "Iteration protocols", "statement": "Calling next() repeatedly on a RiskLadder, KeyRateCollection or Portfolio yields the elements in order, raises StopIteration after the last, then restarts from the first.", "quantifier": "every collection and every number of next() calls", "why_tests_cant": "All call histories.", "anchors": ["fixedIncome/src/risk/risk_metrics.py:RiskLadder.__next__", "fixedIncome/src/risk/key_rate.py:KeyRateCollection.__next__", "fixedIncome/src/portfolio/base_portfolio.py:Portfolio.__next__"]}
{"id": "C50", "title": "Optimizer gradients match their objectives", "statement": "In both portfolio optimizations (minimum variance, maximum utility) the gradient handed to the solver is the derivative of the objective handed to it, for a symmetric covariance matrix; for a positive semidefinite one the objective is convex.", "quantifier": "every weight vector, mean vector, symmetric covariance matrix, wealth and risk parameter", "why_tests_cant": "Vector calculus identity for all inputs.", "anchors": ["fixedIncome/src/portfolio/portfolio_optimization.py"]}
{"id": "C51", "title": "Collections do not interfere", "statement": "Building a KeyRateCollection (directly, by slicing, or by +) does not change the adjustment function of any other collection. (False when key rates are shared: c[0:1] makes c raise TypeError; proved for collections sharing no key rate.)", "quantifier": "every heap of key rates, every collection built from them, every date", "why_tests_cant": "Aliasing between all pairs of collections.", "anchors": ["fixedIncome/src/risk/key_rate.py:KeyRateCollection.__getitem__", "fixedIncome/src/risk/key_rate.py:KeyRateCollection._set_dates_in_collection"]}
{"id": "C52", "title": "Item assignment and deletion keep a key-rate collection consistent", "statement": "c[k] = kr succeeds exactly when kr's date lies strictly between the neighbours and keeps the collection sorted and wired; del c[k] keeps it sorted and wired, and deleting the last key rate raises ValueError. (Assignment to the first or last position always fails.)", "quantifier": "every collection, index and key rate", "why_tests_cant": "All sizes and positions.", "anchors": ["fixedIncome/src/risk/key_rate.py:KeyRateCollection.__setitem__", "fixedIncome/src/risk/key_rate.py:KeyRateCollection.__delitem__"]}
{"id": "C53", "title": "Swap accrual periods are contiguous and cover the swap's life", "statement": "The accrual periods of each swap leg are contiguous business-day-adjusted intervals, one per payment period, starting at the adjusted start of accrual and ending at the adjusted end of accrual. (False for starts on the 29th-31st, where a period can be lost, and for tenors that are not a whole number of periods, where the first stub is dropped.)", "quantifier": "every swap whose construction succeeds, every frequency and day count", "why_tests_cant": "All start dates, tenors, calendars.", "anchors": ["fixedIncome/src/assets/rates/linear_rates/interest_rate_swap.py:FixedToFloatInterestRateSwap.generate_fixed_leg_accrual_schedule", "fixedIncome/src/assets/rates/linear_rates/interest_rate_swap.py:FixedToFloatInterestRateSwap.generate_floating_leg_accrual_schedule"]}
{"id": "C54", "title": "An overnight floating leg is worth par minus par", "statement": "For an overnight swap with an actual/360 floating leg paid at period end, each floating payment is notional * (compounded growth - 1), and if the overnight rates are the forwards of the discount curve, the leg's PV is notional * (P(start) - P(end)).", "quantifier": "every schedule, calendar, positive discount function and its forwards", "why_tests_cant": "Telescoping over any number of business days and periods.", "anchors": ["fixedIncome/src/assets/rates/linear_rates/interest_rate_swap.py:OvernightIndexSwap.generate_floating_leg_cashflow", "fixedIncome/src/assets/rates/linear_rates/interest_rate_swap.py:OvernightIndexSwap.calculate_annualized_rate"]}
{"id": "C55", "title": "Simulation grids", "statement": "With a positive step and a start not after the end, the simulation grid starts at the start, ends exactly at the end, is strictly increasing, all steps but the last are exactly the requested step, and the last is at most that (unless the cap of a million dates is reached).", "quantifier": "every start, end and positive timedelta or relativedelta", "why_tests_cant": "All calendars, month ends and step sizes.", "anchors": ["fixedIncome/src/stochastics/brownian_motion.py:BrownianMotion.generate_increments"]}
{"id": "C56", "title": "Simulated increments have the requested correlation", "statement": "If the random draws are independent standard normals and the Cholesky factor is a square root of the correlation matrix, the increments have mean zero, covariance correlation*dt within a step, zero across steps, and the path's covariance is correlation*min(elapsed times).", "quantifier": "every dimension, correlation matrix, grid and pair of steps (any convention but 30/360)", "why_tests_cant": "A statement about distributions, not samples.", "anchors": ["fixedIncome/src/stochastics/brownian_motion.py:BrownianMotion.generate_increments", "fixedIncome/src/stochastics/brownian_motion.py:BrownianMotion.generate_path"]}
{"id": "C57", "title": "Short-rate outputs reflect the latest path", "statement": "After a new path is generated, the integrated path, discount curve and accrual curve of a short-rate model are those of the new path, and set_dt changes the step of later paths. (False: the integrated path is kept, set_dt does not reach the state process, accrual_curve raises TypeError on a fresh model; true for a fresh model's discount curve.)", "quantifier": "every history of generate_path, create_discount_curve, accrual_curve and set_dt", "why_tests_cant": "Depends on call history.", "anchors": ["fixedIncome/src/stochastics/short_rate_models/base_short_rate_model.py:ShortRateModel.generate_path", "fixedIncome/src/stochastics/short_rate_models/base_short_rate_model.py:ShortRateModel.create_discount_curve", "fixedIncome/src/stochastics/short_rate_models/base_short_rate_model.py:ShortRateModel.accrual_curve"]}
{"id": "C58", "title": "Reading a simulated process back, with shared Brownian motions", "statement": "After generating and keeping a path, reading the process at each grid datetime gives the generated values; another process sharing the Brownian motion does not change what is read. (The second part is false when it uses a finer step: reads raise IndexError.)", "quantifier": "every pair of processes sharing a Brownian motion", "why_tests_cant": "Aliasing over all histories.", "anchors": ["fixedIncome/src/stochastics/base_processes.py:DiffusionProcess.__call__", "fixedIncome/src/stochastics/brownian_motion.py:BrownianMotion.__call__"]}
{"id": "C59", "title": "Geometric Brownian motion multiplies", "statement": "Each coordinate of a geometric Brownian path is its start times the product of 1 + drift*dt + volatility*dW over the steps; it stays positive while every factor is, and zero stays zero.", "quantifier": "every drift, volatility, start, grid and draws", "why_tests_cant": "Induction over the number of steps.", "anchors": ["fixedIncome/src/stochastics/geometric_brownian_motion.py:GeometricBrownianMotion.generate_path"]}
{"id": "C60", "title": "A portfolio's key rates", "statement": "Portfolio.to_key_rate_collection succeeds exactly when the portfolio is non-empty and its instruments have pairwise distinct knot dates; the result has one key rate per instrument, in date order, and bumping a curve by the whole collection is a parallel shift of one basis point.", "quantifier": "every portfolio, day-count convention and evaluation date", "why_tests_cant": "All maturity sets, any order, any evaluation date.", "anchors": ["fixedIncome/src/portfolio/base_portfolio.py:Portfolio.to_key_rate_collection"]}
{"id": "C61", "title": "Efficient-frontier targets", "statement": "By default the efficient frontier's target returns lie strictly between the smallest and largest mean return, so each is attained by some long-only weights; with explicit limits the targets start at the lower one, are one increment apart, and the last is at least the upper limit and passes it by less than one increment.", "quantifier": "every mean vector, limits and positive increment", "why_tests_cant": "Real-valued ranges of any length.", "anchors": ["fixedIncome/src/portfolio/portfolio_optimization.py:PortfolioOptimizer.calculate_efficient_frontier"]}
{"id": "C62", "title": "Swap leg payments", "statement": "Each period of a swap leg pays notional times the period's accrual times its rate - the fixed rate, the curve's rate on the fixing date, or the compounded overnight rate - on the settlement date the payment delay names: that many business days after the period's end.", "quantifier": "every leg, schedule, delay, holiday calendar and curve", "why_tests_cant": "Every schedule and calendar.", "anchors": ["fixedIncome/src/assets/rates/linear_rates/interest_rate_swap.py:FixedToFloatInterestRateSwap"]}
{"id": "C63", "title": "Bond prices of a multivariate affine model", "statement": "For every purchase date, a zero-coupon bond of a multivariate Vasicek model costs the expected discount factor over the time to maturity given the state on the purchase date; as a function of time to maturity and state it solves the model's pricing equation with one unit paid at maturity, and the reported derivative with respect to the state variables is its gradient.", "quantifier": "every number of factors, coefficients, diagonalizable reversion matrix, volatility, dates and state", "why_tests_cant": "Real-analytic identity over all parameters and dimensions.", "anchors": ["fixedIncome/src/stochastics/short_rate_models/affine_yield_curve_models/vasicek_model.py:MultivariateVasicekModel.zero_coupon_bond_price", "fixedIncome/src/stochastics/short_rate_models/affine_yield_curve_models/vasicek_model.py:MultivariateVasicekModel.zero_coupon_bond_price_deriv_wrt_state_variables"]}
{"id": "C64", "title": "Forward rates of a multivariate affine model", "statement": "The instantaneous forward rate is the derivative of minus the log bond price with respect to the maturity, the reported maturity derivative of the price is its derivative, and covariances and volatilities of forward rates are those given by their gradients in the state. (True for symmetric reversion matrices; false for every doubly mean-reverting model with a non-zero long-term rate.)", "quantifier": "every multivariate model, dates and state", "why_tests_cant": "Derivative identities over all parameters.", "anchors": ["fixedIncome/src/stochastics/short_rate_models/affine_yield_curve_models/vasicek_model.py:MultivariateVasicekModel.instantaneous_forward_rate", "fixedIncome/src/stochastics/short_rate_models/affine_yield_curve_models/vasicek_model.py:MultivariateVasicekModel.instantaneous_forward_rate_covariance", "fixedIncome/src/stochastics/short_rate_models/affine_yield_curve_models/vasicek_model.py:MultivariateVasicekModel.zero_coupon_price_deriv_wrt_maturity"]}
{"id": "C65", "title": "Moments of a multivariate affine model", "statement": "Expected state, expected short rate, average expected short rate, state covariance and short-rate variance are the moments of the model's stochastic equation, for every purchase date. (The covariance is false for every doubly mean-reverting model with uncorrelated shocks.)", "quantifier": "every multivariate model, dates and state", "why_tests_cant": "Solutions of differential equations for all parameters.", "anchors": ["fixedIncome/src/stochastics/short_rate_models/affine_yield_curve_models/vasicek_model.py:MultivariateVasicekModel.expected_state_variable_mean", "fixedIncome/src/stochastics/short_rate_models/affine_yield_curve_models/vasicek_model.py:MultivariateVasicekModel.average_expected_short_rate", "fixedIncome/src/stochastics/short_rate_models/affine_yield_curve_models/vasicek_model.py:MultivariateVasicekModel.state_variable_covariance", "fixedIncome/src/stochastics/short_rate_models/affine_yield_curve_models/vasicek_model.py:MultivariateVasicekModel.short_rate_variance"]}
{"id": "C66", "title": "Yields, convexities and yield covariances of a multivariate affine model", "statement": "The yield is minus the log price over the time to maturity; its convexity is the yield less the average expected short rate and never positive; yield covariances and volatilities are those given by the yields' gradients, and the covariance matrix is positive semidefinite; price convexities are minus half the second-order term of the price's dynamics; maturities not after the purchase date are refused.", "quantifier": "every multivariate model, dates, state and list of maturities", "why_tests_cant": "Real identities for all parameters and list lengths.", "anchors": ["fixedIncome/src/stochastics/short_rate_models/affine_yield_curve_models/vasicek_model.py:MultivariateVasicekModel.zero_coupon_bond_yield", "fixedIncome/src/stochastics/short_rate_models/affine_yield_curve_models/vasicek_model.py:MultivariateVasicekModel.yield_convexity", "fixedIncome/src/stochastics/short_rate_models/affine_yield_curve_models/vasicek_model.py:MultivariateVasicekModel.yield_covariance_matrix", "fixedIncome/src/stochastics/short_rate_models/affine_yield_curve_models/vasicek_model.py:MultivariateVasicekModel.price_convexities"]}
{"id": "C67", "title": "The riskless portfolio", "statement": "weights_for_riskless_portfolio needs one more bond than state variables; its weights are the only ones that add up to one and make the portfolio's value insensitive to every state variable; the portfolio then grows at the short rate, the passing of time plus the reported convexity.", "quantifier": "every multivariate model, state and list of maturities", "why_tests_cant": "No-arbitrage identity over all models and dimensions.", "anchors": ["fixedIncome/src/stochastics/short_rate_models/affine_yield_curve_models/vasicek_model.py:MultivariateVasicekModel.weights_for_riskless_portfolio", "fixedIncome/src/stochastics/short_rate_models/affine_yield_curve_models/vasicek_model.py:MultivariateVasicekModel.riskless_portfolio_convexity"]}
{"id": "C68", "title": "The doubly mean-reverting model", "statement": "It is accepted for exactly the non-zero volatilities and correlations strictly between -1 and 1; its simulated paths follow the documented equations with the requested correlation; for different reversion speeds its expected rates and bond prices are those of these equations; for equal speeds no eigenvalue decomposition exists.", "quantifier": "every parameter set, dates, state and draws", "why_tests_cant": "Differential equations and arbitrary draws.", "anchors": ["fixedIncome/src/stochastics/short_rate_models/affine_yield_curve_models/doubly_mean_reverting_vasicek.py:DoublyMeanRevertingVasicek"]}
{"id": "C69", "title": "The three-factor models", "statement": "Simulated paths of the trebly mean-reverting model and of the model with a stochastic market price of risk follow the documented equations, with shocks of the requested correlations, and their bond prices are the expected discount factors of these equations. (As written the classes cannot be instantiated.)", "quantifier": "every parameter set, dates, state and draws", "why_tests_cant": "Arbitrary parameters and draws.", "anchors": ["fixedIncome/src/stochastics/short_rate_models/affine_yield_curve_models/trebly_mean_reverting_vasicek.py:TreblyMeanRevertingVasicek", "fixedIncome/src/stochastics/short_rate_models/affine_yield_curve_models/stochastic_market_price_of_risk.py:StochasticMarketPriceOfRisk"]}
{"id": "C70", "title": "Calibration dictionaries round-trip", "statement": "A model made from a dictionary has the dictionary's parameters and starts its path at the dictionary's state variables; a too short dictionary is refused; and giving a model's own dictionary back yields a model with the same parameters and state variables. (False for the state variables, which a model does not record.)", "quantifier": "every dictionary, dates and draws", "why_tests_cant": "All dictionaries and histories.", "anchors": ["fixedIncome/src/stochastics/short_rate_models/affine_yield_curve_models/doubly_mean_reverting_vasicek.py:DoublyMeanRevertingVasicek.from_volatility_shape_parameters"]}
{"id": "C71", "title": "Parameter setters", "statement": "After changing the calibration dictionary and calling the setters, a model has the dictionary's parameters and behaves like a model constructed with them. (False: only attributes change; paths, and all prices of the multivariate models, keep the old parameters; the one-factor price is right only if the ratio of volatility to reversion speed is unchanged.)", "quantifier": "every model and dictionary", "why_tests_cant": "Staleness over all parameter changes.", "anchors": ["fixedIncome/src/stochastics/short_rate_models/affine_yield_curve_models/vasicek_model.py:VasicekModel.set_volatiltiy_parameters_from_dict", "fixedIncome/src/stochastics/short_rate_models/affine_yield_curve_models/doubly_mean_reverting_vasicek.py:DoublyMeanRevertingVasicek.set_volatiltiy_parameters_from_dict"]}
{"id": "C72", "title": "The factorized calibrator", "statement": "Calibration returns a model on the given dates whose parameters are the best found by the two searches. (False: imported as a module it is a NameError; the parameters are those of the last evaluated points, not of the results; one-factor models are an IndexError; the first volatility point has a defective reversion matrix.)", "quantifier": "every set of inputs, model and behaviour of the minimizer", "why_tests_cant": "All evaluation sequences of the minimizer.", "anchors": ["fixedIncome/src/stochastics/calibrators/factorized_calibrator.py:VolatilityFactorizedCalibrator.calibrate"]}
{"id": "C73", "title": "A bootstrapped curve reprices its instruments", "statement": "The curve returned by bootstrap_yield_curve values every instrument used at its quoted price, up to what the root search left: later searches do not disturb earlier instruments and later pricing does not change it. (Holds with the error last seen by each search, for instruments in increasing order of their knot dates; in another order the searches move the wrong knots, and the solver's result is never written back, so that the last evaluated point counts.)", "quantifier": "every list of instruments depending on discount factors up to their knot dates, and every sequence of points the root searches evaluate", "why_tests_cant": "All instruments and all behaviours of the solver.", "anchors": ["fixedIncome/src/curves/yield_curves/yield_curve.py:YieldCurveFactory.bootstrap_yield_curve"]}
{"id": "C74", "title": "The curve constructed by a simultaneous root search", "statement": "construct_yield_curve returns a curve which values every asset like a new curve holding the solver's solution at the instruments' knot dates, in whatever order the instruments come and whatever was evaluated before; if the solver saw zero errors at the solution, every instrument is repriced exactly.", "quantifier": "every list of instruments, points evaluated and solution", "why_tests_cant": "All instruments and all behaviours of the solver.", "anchors": ["fixedIncome/src/curves/yield_curves/yield_curve.py:YieldCurveFactory.construct_yield_curve"]}
{"id": "C75", "title": "The curve constructed from yields to maturity", "statement": "construct_curve_from_yield_to_maturities returns a curve taking at each instrument's maturity the instrument's yield to maturity. (False: it takes the quoted price there; and no asset can be valued on it.)", "quantifier": "every list of instruments and asset", "why_tests_cant": "All instruments.", "anchors": ["fixedIncome/src/curves/yield_curves/yield_curve.py:YieldCurveFactory.construct_curve_from_yield_to_maturities"]}
{"id": "C76", "title": "Simulated default times follow the hazard rate", "statement": "default_bernoulli_paths(hazard, maturity, dt, n) with dt > 0 terminates and returns n results. Each is the first grid time j*dt < maturity whose uniform draw does not exceed hazard(j*dt)*dt, or no default if there is none; consecutive paths use consecutive draws. With independent uniform draws the probability of no default is the product of (1 - hazard(t)*dt) (clamped to [0,1]) over the grid, the probability of default exactly at a grid time is the corresponding product, and for a constant hazard rate the survival probability tends to exp(-rate*maturity) as dt tends to 0.", "quantifier": "every hazard function, maturity, positive time step, number of paths and sequence of draws; for the probabilities every probability space carrying independent uniform draws", "why_tests_cant": "Infinitely many draw sequences; a distribution cannot be established by finitely many runs.", "anchors": ["fixedIncome/src/curves/credit_curves/default_models.py:default_bernoulli_paths"]}
{"id": "C77", "title": "A cashflow behaves as the sequence of its payments in date order", "statement": "Indexing a Cashflow by i returns the i-th payment in date order (negative i from the end) and raises IndexError outside; slicing with any start, stop and positive step returns the cashflow of exactly the selected payments, in order; any nonzero step gives a date-ordered cashflow of payments of the original; [::-1] of a cashflow with distinct dates is the same cashflow; c[:k] and c[k:] together are c and their present values add up; rebuilding from the dates and amounts gives an equal cashflow.", "quantifier": "every list of payments, every index and slice (any integers or absent), every discount curve", "why_tests_cant": "Unbounded lists and slices.", "anchors": ["fixedIncome/src/assets/base_cashflow.py:Cashflow.__getitem__", "fixedIncome/src/assets/base_cashflow.py:Cashflow.create_from_date_and_float_iterables", "fixedIncome/src/assets/base_cashflow.py:Cashflow.get_payment_dates"]}
{"id": "C78", "title": "Instruments can be iterated, compared and looked up in lists", "statement": "Iterating over an instrument (a CashflowCollection) yields its cashflows; two instruments with the same cashflows are equal, different ones are not; `x in instruments` finds an instrument.", "quantifier": "every instrument with any cashflows, every list of instruments", "why_tests_cant": "All instruments and all positions in a list.", "anchors": ["fixedIncome/src/assets/base_cashflow.py:CashflowCollection.__iter__", "fixedIncome/src/assets/base_cashflow.py:CashflowCollection.__len__", "fixedIncome/src/assets/base_cashflow.py:CashflowCollection.__contains__"]}
{"id": "C79", "title": "A loan charges interest from its origination to its last payment", "statement": "The first interest payment of a loan covers the time from origination to the first payment, every later one the time since the payment before; present_value of a loan is the value of its payments.", "quantifier": "every loan, payment amount, extra payments and day count convention", "why_tests_cant": "All dates, terms and amounts.", "anchors": ["fixedIncome/src/assets/credit/loan.py:Loan.generate_payment_schedule", "fixedIncome/src/assets/credit/loan.py:Loan.present_value"]}
{"id": "C80", "title": "Reading and removing key rates works as on a list", "statement": "For a wired key rate collection, membership, reversed, index(value, start, stop), pop(i), remove(value), slicing and deleting a slice all answer and act as on the Python list of its key rates in date order: index returns the first position in range or raises ValueError, pop and remove return or drop exactly the addressed element, a slice is the collection of the selected key rates, and after a removal that leaves at least one key rate the remaining rates are re-wired to their neighbours.", "quantifier": "every key rate collection of any length, every value, index and slice", "why_tests_cant": "Unbounded collections, indexes and slices.", "anchors": ["fixedIncome/src/risk/key_rate.py:KeyRateCollection.__getitem__", "fixedIncome/src/risk/key_rate.py:KeyRateCollection.__delitem__", "fixedIncome/src/risk/key_rate.py:KeyRateCollection", "fixedIncome/src/risk/key_rate.py:KeyRateCollection.__len__"]}
{"id": "C81", "title": "The inherited mutators of a key rate collection grow, reverse and empty it", "statement": "append, insert and extend add key rates to the collection, reverse and clear complete without an exception and leave an empty or equal collection.", "quantifier": "every key rate collection, value and position", "why_tests_cant": "All collections and all values.", "anchors": ["fixedIncome/src/risk/key_rate.py:KeyRateCollection.insert", "fixedIncome/src/risk/key_rate.py:KeyRateCollection.__setitem__", "fixedIncome/src/risk/key_rate.py:KeyRateCollection.__delitem__"]}
{"id": "C82", "title": "Duration and convexity measure the sensitivity of the price to the yield", "statement": "pv_deriv is the derivative of the present value with respect to the yield to maturity (up to the half basis point offset of its central difference), duration is minus the relative derivative, convexity the relative second derivative, and macaulay_duration is the value-weighted average time to payment, lies between the first and last time, and equals the modified duration times (1 + ytm/frequency).", "quantifier": "every fixed rate US Treasury bond, settlement date and yield", "why_tests_cant": "All bonds, dates and yields; a derivative is a limit.", "anchors": ["fixedIncome/src/assets/us_treasury_instruments/us_treasury_instruments.py:UsTreasuryBond.duration", "fixedIncome/src/assets/us_treasury_instruments/us_treasury_instruments.py:UsTreasuryBond.pv_deriv", "fixedIncome/src/assets/us_treasury_instruments/us_treasury_instruments.py:UsTreasuryBond.convexity", "fixedIncome/src/assets/credit/corporate_bond.py:FixedRateBond.macaulay_duration"]}
{"id": "C83", "title": "Business-day functions treat a datetime as its date", "statement": "is_business_day, add_business_days, the following and modified-following adjustments and generate_business_days give for a datetime the answer for its date, keeping the time of day; in particular holidays are skipped.", "quantifier": "every holiday calendar, datetime and number of days", "why_tests_cant": "All calendars, datetimes and counts.", "anchors": ["fixedIncome/src/scheduling_tools/scheduler.py:Scheduler.is_business_day", "fixedIncome/src/scheduling_tools/scheduler.py:Scheduler.add_business_days", "fixedIncome/src/scheduling_tools/scheduler.py:Scheduler.generate_business_days", "fixedIncome/src/scheduling_tools/scheduler.py:Scheduler.following_date_adjustment", "fixedIncome/src/scheduling_tools/scheduler.py:Scheduler.modified_following_date_adjustment"]}
{"id": "C84", "title": "Minimum variance portfolios and the efficient frontier are what they claim to be", "statement": "The problem handed to the solver is exactly: least variance among portfolios (weights summing to one, in [0,1] without short positions) with the target return; every stationary point is a minimum, a minimum exists for every default target without short positions and is unique for a positive definite covariance matrix; the frontier lists target, volatility and weights in the same places and is convex when the solver solves; with short positions two frontier portfolios generate the others (also beyond them) and the squared volatilities lie on one parabola; the Sharpe ratio of a frontier portfolio is the best for its return.", "quantifier": "every covariance matrix, mean vector, target return and portfolio", "why_tests_cant": "Ranges over all weights of any number of assets.", "anchors": ["fixedIncome/src/portfolio/portfolio_optimization.py:PortfolioOptimizer.find_minimum_variance_portfolio", "fixedIncome/src/portfolio/portfolio_optimization.py:PortfolioOptimizer.calculate_efficient_frontier", "fixedIncome/src/portfolio/portfolio_optimization.py:PortfolioOptimizer.sharpe_ratio"]}
{"id": "C85", "title": "The maximum utility portfolio trades mean against variance", "statement": "The problem handed to the solver is exactly: largest mean return minus param * wealth / 2 times variance among portfolios; for nonnegative risk aversion every stationary point is optimal, without short positions an optimum exists, with positive risk aversion it lies on the minimum variance frontier, and more risk aversion or wealth means no more risk and no more return.", "quantifier": "every covariance matrix, mean vector, wealth, parameter and portfolio", "why_tests_cant": "Ranges over all weights and parameters.", "anchors": ["fixedIncome/src/portfolio/portfolio_optimization.py:PortfolioOptimizer.find_maximum_utility_portfolio"]}
{"id": "C86", "title": "Simulated geometric Brownian motion has the right moments", "statement": "With independent standard normal draws the value at each grid point has mean x0 * prod(1 + drift dt) and the second moments of the discretized equation with the requested correlation; the mean growth lies between exp(drift T - drift^2 sum dt^2) and exp(drift T), so it tends to the model's growth as the steps shrink.", "quantifier": "every drift, volatility, correlation, grid and starting value; all outcomes of the draws", "why_tests_cant": "An expectation over all outcomes, on every grid.", "anchors": ["fixedIncome/src/stochastics/geometric_brownian_motion.py:GeometricBrownianMotion.generate_path", "fixedIncome/src/stochastics/brownian_motion.py:BrownianMotion.generate_increments"]}
{"id": "C87", "title": "Simulated Vasicek rates match the model's closed-form mean and variance", "statement": "With independent standard normal draws the short rate read back at each grid point has the mean and variance of the discretized equation, and for a positive reversion speed k, steps of at most 1/k and a day count with fixed denominator these differ from expected_short_rate and short_rate_variance at that date by at most |r0 - mean| k^2/2 and 3/2 volatility^2 k times the sum of the squared step lengths.", "quantifier": "every one-factor Vasicek model, grid, starting rate; all outcomes of the draws", "why_tests_cant": "An expectation over all outcomes, with an error bound on every grid.", "anchors": ["fixedIncome/src/stochastics/short_rate_models/affine_yield_curve_models/vasicek_model.py:VasicekModel.expected_short_rate", "fixedIncome/src/stochastics/short_rate_models/affine_yield_curve_models/vasicek_model.py:VasicekModel.short_rate_variance", "fixedIncome/src/stochastics/short_rate_models/base_short_rate_model.py:ShortRateModel.generate_path"]}
{"id": "C88", "title": "Delta hedging with one bond per key rate leaves no key-rate risk", "statement": "When each hedging instrument pays only on its own key-rate date, the matrix of key-rate sensitivities built as in the hedging example is diagonal with nonzero entries, so the hedge weights are uniquely determined and the hedged position has zero sensitivity to every key rate.", "quantifier": "every curve, set of key-rate dates, set of zero-coupon hedges and portfolio value", "why_tests_cant": "Ranges over all curves, dates and positions.", "anchors": ["fixedIncome/src/risk/key_rate.py:KeyRate.set_bump_val", "fixedIncome/src/curves/yield_curves/yield_curve.py:YieldCurve.calculate_pv01_risk", "examples/rates/delta_hedging.py"]}
{"id": "C89", "title": "The settlement rate of a one-month SOFR future is the average of the month's fixings", "statement": "calculate_settlement_rate returns the accrual-weighted average of the fixings over the business days of the contract month.", "quantifier": "every future and every fixing history", "why_tests_cant": "All months, calendars and histories.", "anchors": ["fixedIncome/src/assets/rates/linear_rates/interest_rate_future.py:OneMonthSofrFuture.calculate_settlement_rate"]}
{"id": "C90", "title": "An interpolated curve keeps the shape of its knots; discount factors built from bond prices admit no arbitrage", "statement": "With linear or previous interpolation and constant extension, a curve's values stay between the smallest and largest knot value, are monotone when the knots are, and are a fixed nonnegative weighting, with weights adding to 1, of the knot values (so the curve price of a payment is the price of a static portfolio of the knot instruments). If the knots are discount factors decreasing in the maturity, so are the discount factors of all dates and every implied forward rate is nonnegative.", "quantifier": "every list of knots, date, interpolation method in {linear, previous} and day count convention with a linear time axis", "why_tests_cant": "Must hold for all knot sets and dates.", "anchors": ["fixedIncome/src/curves/base_curve.py:Curve.interpolate", "fixedIncome/src/curves/yield_curves/yield_curve.py:YieldCurve.to_discount_curve", "fixedIncome/src/curves/yield_curves/yield_curve.py:YieldCurve.present_value"]}
{"id": "C91", "title": "Discount factors of a yield-space curve never exceed one and decrease with the date", "statement": "When the knots are nonnegative yields whose implied discount factors decrease with the maturity, the discount factors of a curve interpolated in yield space lie in (0, 1] and decrease with the date.", "quantifier": "every list of yield knots and every pair of dates", "why_tests_cant": "Must hold for all dates between the knots.", "anchors": ["fixedIncome/src/curves/yield_curves/yield_curve.py:YieldCurve.to_discount_curve", "fixedIncome/src/curves/base_curve.py:Curve.interpolate"]}
{"id": "C92", "title": "A bond's yield moves against its price and with its coupon, and its sign says whether the holder earns anything", "statement": "For two bonds with the same schedule, the one with the higher price (per unit of principal) has the lower yield to maturity; at equal price the higher coupon has the higher yield; and the yield is positive exactly when the remaining payments add up to more than the full price.", "quantifier": "every pair of constructed bonds with the same dates, every root of the yield equation", "why_tests_cant": "Ranges over all bonds and all solver results.", "anchors": ["fixedIncome/src/assets/us_treasury_instruments/us_treasury_instruments.py:UsTreasuryBond.yield_to_maturity", "fixedIncome/src/assets/credit/corporate_bond.py:FixedRateBond.yield_to_maturity"]}
{"id": "C93", "title": "Key rates are totally ordered consistently with equality, and adding one to a collection keeps it valid", "statement": "For any two key rates exactly one of <, ==, > holds, <= means < or ==, equal key rates have equal hashes; and the methods that add a key rate or a collection to a collection return a sorted collection containing both, or leave the receiver as it was.", "quantifier": "every pair of key rates, every collection and every added key rate", "why_tests_cant": "Ranges over all dates, conventions and collections.", "anchors": ["fixedIncome/src/risk/key_rate.py:KeyRate.__lt__", "fixedIncome/src/risk/key_rate.py:KeyRate.__hash__", "fixedIncome/src/risk/key_rate.py:KeyRateCollection._add_key_rate", "fixedIncome/src/risk/key_rate.py:KeyRateCollection._add_key_rate_collection"]}
{"id": "C94", "title": "A callable bond supports everything a fixed rate bond does and keeps its call schedule in date order", "statement": "A CallableFixedRateBond can be priced, discounted and asked for its yield like any fixed rate bond, and its call options are ordered by date.", "quantifier": "every callable bond and every inherited method", "why_tests_cant": "All constructor arguments and methods.", "anchors": ["fixedIncome/src/assets/credit/corporate_bond.py:CallableFixedRateBond.__init__", "fixedIncome/src/assets/credit/corporate_bond.py:FixedRateBond.present_value"]}
{"id": "C95", "title": "Floating-point rounding does not change the shape of the results", "statement": "With every operation rounded as in IEEE arithmetic: accrual lengths are zero exactly between equal dates, strictly monotone in both dates and within three roundings of the exact year fraction; a key rate's bump function keeps its exact triangular shape (exactly zero outside, exactly the bump at the key date, strictly rising and falling) within eight roundings; n equally bumped key rates add up to the bump within 8+n roundings at every date; the present value of n nonnegative payments is within n+1 roundings; a curve returns its knot values exactly and, between knots, the linear value within a stated bound.", "quantifier": "every rounding function that is monotone, symmetric and accurate to a relative error of at most 2^-40 above the underflow threshold; every date, collection, schedule and curve", "why_tests_cant": "Tests compare a few floats with tolerances; the claim is for all dates and for every rounding mode of that kind.", "anchors": ["fixedIncome/src/scheduling_tools/day_count_calculator.py:DayCountCalculator.compute_accrual_length", "fixedIncome/src/risk/key_rate.py:KeyRate.__call__", "fixedIncome/src/risk/key_rate.py:KeyRateCollection.__call__", "fixedIncome/src/assets/base_cashflow.py:Cashflow.present_value", "fixedIncome/src/curves/base_curve.py:Curve.interpolate"]}
{"id": "C96", "title": "Date arithmetic follows the Gregorian calendar", "statement": "Valid dates are exactly the Gregorian days of years 1-9999; adding days walks successor days (month ends, leap years, year ends), weekdays cycle, dates compare in calendar order, and adding months keeps the day or clips it to the month's end; overflow and range errors occur exactly when no such date exists.", "quantifier": "every date of the range, every number of days and months", "why_tests_cant": "3.6 million dates and unbounded offsets.", "anchors": ["fixedIncome/src/scheduling_tools/scheduler.py:Scheduler.add_business_days", "fixedIncome/src/scheduling_tools/scheduler.py:Scheduler.generate_dates_by_increments", "fixedIncome/src/scheduling_tools/holidays.py:get_next_weekday"]}
{"id": "C97", "title": "Resetting a curve's values is the same as building a new curve", "statement": "After reset_interpolation_values or reset_interpolation_value the curve behaves exactly as one newly built from the new values, whatever was set before; a reset that raises leaves the curve as it was.", "quantifier": "every curve, every new value or list of values, every index", "why_tests_cant": "All knots, dates and histories of resets.", "anchors": ["fixedIncome/src/curves/base_curve.py:Curve.reset_interpolation_values", "fixedIncome/src/curves/base_curve.py:Curve.reset_interpolation_value"]}
{"id": "C98", "title": "A multivariate Vasicek model with one factor is the one-factor Vasicek model", "statement": "With intercept 0, coefficient 1 and the same level, speed and volatility, given the same Brownian motion, step and path generations, the two classes read the same short rates and agree on log-price coefficients and their maturity derivatives, expected short rates, variances, average expected rates, instantaneous forward rates and their volatilities, and for bonds bought at the start on prices, yields, yield convexities, price convexities and yield volatilities.", "quantifier": "every level, nonzero speed, volatility (nonnegative for volatilities), history of path generations, maturity and purchase date, and every scaling of the eigenvector numpy returns", "why_tests_cant": "Equality of two implementations over all real parameters and dates; the repository's tests compare them on one parameter set.", "anchors": ["fixedIncome/src/stochastics/short_rate_models/affine_yield_curve_models/vasicek_model.py:MultivariateVasicekModel", "fixedIncome/src/stochastics/short_rate_models/affine_yield_curve_models/vasicek_model.py:VasicekModel"]}
{"id": "C99", "title": "The larger mean-reverting models contain the smaller ones", "statement": "The long-term rate of the doubly and trebly mean-reverting models and the market price of risk of the stochastic-market-price-of-risk model are one-factor Vasicek models, and the long-term and medium rates of the trebly mean-reverting model are a doubly mean-reverting model: generated with the same seeds and starting values they are equal at every datetime.", "quantifier": "every parameters for which the constructors succeed, every period, step, seed, history of path generations and datetime", "why_tests_cant": "All seeds, histories, parameters and datetimes.", "anchors": ["fixedIncome/src/stochastics/short_rate_models/affine_yield_curve_models/doubly_mean_reverting_vasicek.py:DoublyMeanRevertingVasicek", "fixedIncome/src/stochastics/short_rate_models/affine_yield_curve_models/trebly_mean_reverting_vasicek.py:TreblyMeanRevertingVasicek", "fixedIncome/src/stochastics/short_rate_models/affine_yield_curve_models/stochastic_market_price_of_risk.py:StochasticMarketPriceOfRisk", "fixedIncome/src/stochastics/short_rate_models/affine_yield_curve_models/vasicek_model.py:VasicekModel"]}
{"id": "C100", "title": "Loan amortization survives floating-point rounding", "statement": "With every float operation rounded, a loan's schedule has the same dates, its balance is never negative, no principal part exceeds it, the closing payment brings it to exactly zero and everything after is exactly zero; if the amount covers the interest the balance never rises, the principal parts sum to the principal within one rounding of it per period, and balances, interest and principal parts stay within an explicit bound (a few roundings of the largest amount per period, compounded at the interest rate) of the exact schedule.", "quantifier": "every loan, amount, extra payments and rounding function with the properties of IEEE 754 rounding, in particular binary64 round-to-nearest", "why_tests_cant": "Rounding errors accumulate over every schedule length and every input; a test only sees a few loans.", "anchors": ["fixedIncome/src/assets/credit/loan.py:Loan.generate_payment_schedule"]}
{"id": "C101", "title": "Moments of simulated multi-factor rates match the closed forms", "statement": "With independent standard normal draws, the simulated state variables of a multivariate Vasicek model have at every grid point exactly the mean and covariance of the discretized equation; under a fixed-denominator convention, with positive reversion speeds and steps no longer than the reciprocal of each speed, the means of state and short rate are the model's own expected_state_variable_mean and expected_short_rate, and the covariances the solution of the model's covariance equation, up to an explicit constant times the sum of the squared step lengths.", "quantifier": "every dimension, reversion matrix with a correct diagonalization, volatility, correlation factor, step, starting state and grid point", "why_tests_cant": "An expectation over all draws cannot be settled by any finite number of simulated paths.", "anchors": ["fixedIncome/src/stochastics/short_rate_models/base_short_rate_model.py:ShortRateModel.generate_path", "fixedIncome/src/stochastics/short_rate_models/affine_yield_curve_models/vasicek_model.py:MultivariateVasicekModel.expected_state_variable_mean", "fixedIncome/src/stochastics/brownian_motion.py:BrownianMotion.generate_increments"]}
{"id": "C102", "title": "Bad arguments raise a definite exception and leave a definite state", "statement": "Positions outside a key rate collection raise IndexError on reading, replacing and deleting and change nothing; a loan without coupons has no schedule (ValueError); a number of starting values that is neither one nor the number of state variables never gives a path; setting a doubly mean-reverting model from a too short parameter list raises IndexError after overwriting exactly the parameters given; the multivariate, trebly mean-reverting and market-price-of-risk classes always raise TypeError on construction; a bond with a malformed tenor or settling before its dated date raises ValueError, with no coupon period IndexError, without principal ZeroDivisionError, dividing by a zero price or a zero compounding base is a ZeroDivisionError; resetting a curve value at a position outside raises IndexError and changes nothing, a curve without knots raises IndexError everywhere, and a curve whose reset failed raises ValueError outside its old grid; refused key rate replacements raise TypeError at the ends and ValueError between and change nothing; a zero-length or coupon-free loan has no fixed payment (ZeroDivisionError) and extra payments of a wrong type raise TypeError; a swap with a malformed tenor cannot be made and a leg paid monthly or never cannot be generated (ValueError, the swap unchanged); an increment of a wrong type is a TypeError and the next business day of a holiday a ValueError; a one-factor dictionary too short leaves exactly the parameters given overwritten.", "quantifier": "every collection, position, curve, loan, swap, model, dictionary, list of starting values and set of bond terms", "why_tests_cant": "The claims are about every bad argument, of any size, and about the state left behind.", "anchors": ["fixedIncome/src/risk/key_rate.py:KeyRateCollection.__getitem__", "fixedIncome/src/assets/credit/loan.py:Loan.generate_payment_schedule", "fixedIncome/src/stochastics/short_rate_models/affine_yield_curve_models/vasicek_model.py:MultivariateVasicekModel.generate_path", "fixedIncome/src/stochastics/short_rate_models/affine_yield_curve_models/doubly_mean_reverting_vasicek.py:DoublyMeanRevertingVasicek.set_volatiltiy_parameters_from_dict", "fixedIncome/src/assets/us_treasury_instruments/us_treasury_instruments.py:UsTreasuryBond", "fixedIncome/src/curves/base_curve.py:Curve.reset_interpolation_value", "fixedIncome/src/assets/rates/linear_rates/interest_rate_swap.py:FixedToFloatInterestRateSwap", "fixedIncome/src/scheduling_tools/scheduler.py:Scheduler.add_single_business_day"]}
{"id": "C103", "title": "The curves of a simulated short-rate path", "statement": "create_discount_curve on a freshly simulated model returns a curve which is exp(-integral) at each simulation datetime (1 at the start), linear in time between neighbouring ones, raises ValueError outside them and TypeError for a plain date; accrual_curve, after integration, is exp(integral) likewise; at the simulation datetimes the two are inverse, between them their product is at least one. A cashflow of datetimes is priced with these factors and payments before the start are dropped; a cashflow with a payment on a plain date raises TypeError.", "quantifier": "every short-rate model with a path, list of datetimes and cashflow", "why_tests_cant": "It is a claim about every path, grid and lookup datetime; a test reads a few points of one path.", "anchors": ["fixedIncome/src/stochastics/short_rate_models/base_short_rate_model.py:ShortRateModel.create_discount_curve", "fixedIncome/src/stochastics/short_rate_models/base_short_rate_model.py:ShortRateModel.accrual_curve", "fixedIncome/src/curves/base_curve.py:Curve.interpolate", "fixedIncome/src/assets/base_cashflow.py:Cashflow.present_value"]}
{"id": "C104", "title": "Actual/actual accruals between datetimes", "statement": "Under actual/actual the accrual between datetimes is the distance on the axis of calendar years, hence zero from a datetime to itself, positive between different ones, additive, and increasing in its end. (Additivity and monotonicity hold when the times of day are equal or the years have equal length; in general they are false, the error being at most half the difference between a 365th and a 366th of a year.)", "quantifier": "every pair and triple of datetimes", "why_tests_cant": "The failure needs a leap year, a non-leap year and unequal times of day together.", "anchors": ["fixedIncome/src/scheduling_tools/day_count_calculator.py:DayCountCalculator.include_datetimes", "fixedIncome/src/scheduling_tools/day_count_calculator.py:DayCountCalculator.compute_accrual_length"]}
{"id": "C105", "title": "Paying a loan faster never costs more", "statement": "Of two loans with the same calendar, the one with no more principal, no higher a rate and no smaller an instalment and extra payments has at every date no more outstanding and no more interest due, is paid off no later, and pays no more interest in total. The balance follows one recurrence before and after pay-off, and an extra payment x lowers every later balance by at least x or to zero.", "quantifier": "every pair of loans with nonnegative terms, instalments and extra-payment lists", "why_tests_cant": "It compares two whole schedules for all terms; a test compares two.", "anchors": ["fixedIncome/src/assets/credit/loan.py:Loan.generate_payment_schedule", "fixedIncome/src/assets/credit/loan.py:Loan._calculate_interest_payment"]}
{"id": "C106", "title": "A swap's value as a function of rate, notional and direction", "statement": "If a swap can be valued, so can every swap differing only in direction, fixed rate and notional, and its value is notional times (fixed rate times annuity minus floating value), with opposite signs for payer and receiver; annuity and floating value depend on neither. Hence the value is linear in the notional, monotone in the fixed rate, and the difference between two strikes does not depend on the floating rates.", "quantifier": "every swap, curve, floating-rate function, fixed rate and notional", "why_tests_cant": "It is an identity in continuous parameters over every schedule.", "anchors": ["fixedIncome/src/assets/rates/linear_rates/interest_rate_swap.py:FixedToFloatInterestRateSwap.present_value", "fixedIncome/src/assets/rates/linear_rates/interest_rate_swap.py:FixedToFloatInterestRateSwap.generate_fixed_leg_cashflow"]}
{"id": "C107", "title": "Key-rate risks add up to the parallel-shift risk", "statement": "In discount-factor space the value of a cashflow is an affine, monotone function of the adjustment at the knots, and the pv01s of a risk ladder over the key rates of a collection add up to the value change of a parallel shift of one basis point, which is one basis point of the total counted payments.", "quantifier": "every curve in discount-factor space, cashflow within its range and collection of two or more key rates", "why_tests_cant": "The sum is over every ladder and cashflow; a unit test checks one ladder to a tolerance.", "anchors": ["fixedIncome/src/curves/yield_curves/yield_curve.py:YieldCurve.calculate_pv01_risk_ladder", "fixedIncome/src/curves/yield_curves/yield_curve.py:YieldCurve.calculate_key_rate_deriv", "fixedIncome/src/risk/key_rate.py:KeyRateCollection.__call__"]}
{"id": "C108", "title": "Business-day shifts compose, invert and keep order", "statement": "Shifting a date by i and then j business days is shifting it by i+j whenever the first shift returns; from a business day a shift is undone by the opposite shift; a larger shift never lands earlier, and a later date shifted by the same number never lands earlier, so settlement dates never cross. The modified-following adjustment is idempotent and keeps the order of dates (for US federal holidays without provisos).", "quantifier": "every holiday calendar, pair of dates and pair of integers", "why_tests_cant": "It quantifies over all calendars, dates and integer shifts.", "anchors": ["fixedIncome/src/scheduling_tools/scheduler.py:Scheduler.add_business_days", "fixedIncome/src/scheduling_tools/scheduler.py:Scheduler.calculate_settlement_date", "fixedIncome/src/scheduling_tools/scheduler.py:Scheduler.modified_following_date_adjustment"]}
{"id": "C109", "title": "Day-count conventions stay close to one another", "statement": "For start no later than end the accruals under ACT/360, ACT/365 and ACT/365.25 are ordered, ACT/ACT lies between days/366 and days/365, and 30/360 differs from ACT/ACT by less than three days out of 360, however long the period.", "quantifier": "every pair of ordered dates from year 2 on", "why_tests_cant": "The bound is uniform over millions of date pairs.", "anchors": ["fixedIncome/src/scheduling_tools/day_count_calculator.py:DayCountCalculator.compute_accrual_length"]}
{"id": "C110", "title": "A Brownian motion can be built exactly from positive definite correlations", "statement": "For a symmetric matrix the constructor succeeds exactly when the matrix is positive definite (a perfectly correlated pair raises LinAlgError) and the simulated increments over a step of length dt then have covariance dt times the matrix; without a matrix the drivers are independent. Only the lower triangle is read, and the number of drivers is not compared with the shape of the matrix: a mismatch constructs and every simulation then raises ValueError.", "quantifier": "every symmetric matrix of any size, dimension, horizon and time step", "why_tests_cant": "Positive definiteness of every matrix of every size is not testable by samples.", "anchors": ["fixedIncome/src/stochastics/brownian_motion.py:BrownianMotion.__init__", "fixedIncome/src/stochastics/brownian_motion.py:BrownianMotion.generate_increments"]}
{"id": "C111", "title": "Swap values, par rates and accrued interest survive floating point", "statement": "With a rounding after every operation: payer and receiver values of the same legs are exactly opposite; every payment of the fixed leg and of a term swap's floating leg is within five roundings of its exact amount, and the value of the swap within 2(n+7)u of the exact value relative to the leg values; a swap struck at the par rate the code computes is worth at most 4(2n+12)u of its floating leg; nonnegative overnight rates never give a negative annualized rate; accrued interest lies between zero and the computed coupon, within ten roundings of the exact value, and the full price is not below the clean price.", "quantifier": "every rounding function of relative error u, swap with nonnegative accruals, rate function, curve without underflow, and coupon bond with no coupon date between purchase and settlement", "why_tests_cant": "Rounding errors depend on every input; tests compare a few values to a tolerance.", "anchors": ["fixedIncome/src/assets/rates/linear_rates/interest_rate_swap.py:FixedToFloatInterestRateSwap.present_value", "fixedIncome/src/assets/rates/linear_rates/interest_rate_swap.py:FixedToFloatInterestRateSwap.implied_rate", "fixedIncome/src/assets/us_treasury_instruments/us_treasury_instruments.py:UsTreasuryBond.calculate_accrued_interest", "fixedIncome/src/assets/us_treasury_instruments/us_treasury_instruments.py:UsTreasuryBond.get_full_price"]}
{"id": "C112", "title": "Business-day lists and windows have calendar-determined size", "statement": "The business days between two dates can be listed exactly when a business day exists beyond the end and before the end of the calendar (on the US calendar: every interval ending before 31 December 9999). Lists split at any date. A shift by n business days takes at least 7 days per five of them; on the US calendar less than a week per four of them plus a week, and a T+k settlement is between k and k+3 days after the purchase. Every w weeks of the US calendar have between 4w and 5w business days, and a calendar year has 249, 250 or 251, determined by its leap status and the weekday of 1 January.", "quantifier": "every holiday calendar (listing, splitting, lower bound), every pair of dates, every n, w and year 1..9999", "why_tests_cant": "There are unboundedly many intervals and calendars; tests list a few months.", "anchors": ["fixedIncome/src/scheduling_tools/scheduler.py:Scheduler.generate_business_days", "fixedIncome/src/scheduling_tools/scheduler.py:Scheduler.add_business_days", "fixedIncome/src/scheduling_tools/scheduler.py:Scheduler.calculate_settlement_date", "fixedIncome/src/scheduling_tools/holidays.py:US_FEDERAL_HOLIDAYS"]}
{"id": "C113", "title": "The Vasicek term structure has its textbook shape", "statement": "For a positive speed of reversion k, mean theta and volatility sigma: yields approach theta - sigma^2/(2k^2) at rate 1/T and instantaneous forwards exponentially; the yield curve rises when the short rate is at most theta - 3 sigma^2/(4k^2) and falls when it is at least theta; every yield is between min(r, long rate) and max(r, theta); the expected short rate is between r and theta and approaches theta exponentially; the variance rises with the horizon but stays below sigma^2/(2k); volatilities of yields and forwards fall with maturity and never exceed sigma.", "quantifier": "every one-factor Vasicek model with positive reversion speed, every short rate on its path and every maturity", "why_tests_cant": "The statements are inequalities over all real parameters and maturities and limits as the maturity grows.", "anchors": ["fixedIncome/src/stochastics/short_rate_models/affine_yield_curve_models/vasicek_model.py:VasicekModel", "fixedIncome/src/stochastics/short_rate_models/affine_yield_curve_models/vasicek_model.py:VasicekModel.expected_short_rate", "fixedIncome/src/stochastics/short_rate_models/affine_yield_curve_models/vasicek_model.py:VasicekModel.short_rate_variance"]}
{"id": "C114", "title": "Key rate collections stay well formed through any history", "statement": "After any interleaved history of building collections, replacing, deleting, popping, removing, clearing and reversing members, += that does not raise, setting bumps (of one member or a whole collection) and stepping through them, in which no key rate is shared by two collections, every collection is strictly sorted by key date, every member's prior and next dates are those of its neighbours (or absent at the ends), and no key date or convention has changed. Setting the collection's bump to b (two or more key rates, one convention other than 30/360) then succeeds and shifts every date by exactly b.", "quantifier": "every number of collections, every finite history of operations in any order, every date", "why_tests_cant": "Histories are unbounded and interleave; a test runs one sequence of operations.", "anchors": ["fixedIncome/src/risk/key_rate.py:KeyRateCollection.__setitem__", "fixedIncome/src/risk/key_rate.py:KeyRateCollection.__delitem__", "fixedIncome/src/risk/key_rate.py:KeyRateCollection.__iadd__", "fixedIncome/src/risk/key_rate.py:KeyRateCollection.set_bump_val", "fixedIncome/src/risk/key_rate.py:KeyRateCollection._set_dates_in_collection"]}
{"id": "C115", "title": "A bond is worth par at its coupon rate, more below it and less above it", "statement": "For a bond whose remaining payments are one coupon period apart on its day-count axis up to an error eps, the first after a fraction w of a period: discounted at a rate at most (at least) its coupon rate it is worth at least (at most) its principal times (1 + r/f)^(1 - w -+ eps). With exact periods it is worth exactly par at its coupon rate on a coupon date, and its yield is below, equal to or above the coupon rate exactly when its full price is above, equal to or below 100. Under 30/360 the periods are exact for every bond maturing on one of the first 27 days of a month whose remaining payments fall on business days, seen from a coupon date that is a business day.", "quantifier": "every US Treasury bond with a coupon frequency, non-negative coupon and positive principal, every valuation date, every non-negative rate (yields: every rate above -f)", "why_tests_cant": "Quantifies over all real rates and all schedules; tests check single bonds within a tolerance.", "anchors": ["fixedIncome/src/assets/us_treasury_instruments/us_treasury_instruments.py:UsTreasuryBond.discount_cashflows_by_fixed_rate", "fixedIncome/src/assets/us_treasury_instruments/us_treasury_instruments.py:UsTreasuryBond.yield_to_maturity", "fixedIncome/src/assets/us_treasury_instruments/us_treasury_instruments.py:UsTreasuryBond.create_coupon_payments_cashflow"]}
{"id": "C116", "title": "Simulated paths respond predictably to draws, starts and parameters", "statement": "Whether a simulation succeeds, and its grid, do not depend on draws or starting values. Paths do not look ahead: draws agreeing on the first n steps give equal paths up to step n. Brownian paths are linear in the draws (negated draws reflect the path). Without diffusion the draws do not matter, and a constant drift gives a straight line in elapsed time. Geometric paths scale with their start. Two Vasicek simulations with the same draws differ by the starting difference times the product of 1 - k dt; with steps no longer than 1/k a higher start and mean never give a lower rate.", "quantifier": "every diffusion, Brownian and geometric motion, every grid, every draw, every start; Vasicek: every parameter (comparison: positive speed, not 30/360)", "why_tests_cant": "Quantifies over pairs of runs and all real draws; tests fix a seed and compare one run.", "anchors": ["fixedIncome/src/stochastics/brownian_motion.py:BrownianMotion.generate_path", "fixedIncome/src/stochastics/base_processes.py:DiffusionProcess.generate_path", "fixedIncome/src/stochastics/geometric_brownian_motion.py:GeometricBrownianMotion.generate_path", "fixedIncome/src/stochastics/short_rate_models/affine_yield_curve_models/vasicek_model.py:VasicekModel"]}
{"id": "C117", "title": "Model quantities accept plain dates", "statement": "Maturity and purchase dates of the Vasicek models may be given as dates or datetimes, as annotated: a plain date means midnight of that day, and every quantity of either model is the same for both.", "quantifier": "every one-factor and multivariate model, every maturity, list of maturities and purchase date of either kind, every convention", "why_tests_cant": "Ranges over all models, both kinds of argument at each position and every convention; the repo's tests pass datetimes only.", "anchors": ["fixedIncome/src/stochastics/short_rate_models/affine_yield_curve_models/vasicek_model.py:VasicekModel", "fixedIncome/src/stochastics/short_rate_models/affine_yield_curve_models/vasicek_model.py:MultivariateVasicekModel", "fixedIncome/src/scheduling_tools/day_count_calculator.py:DayCountCalculator.compute_accrual_length", "fixedIncome/src/stochastics/base_processes.py:DiffusionProcess.__call__"]}
{"id": "C118", "title": "A bond's value is strictly convex in its yield", "statement": "The fixed-rate value of a bond is strictly convex in the rate: a duration estimate of the value after any rate change is too low, a fall of the yield gains more than an equal rise loses, the estimate that also uses the second derivative is too high after a rise and too low after a fall. The numerical derivative pv_deriv rises strictly with the yield and always overstates the exact sensitivity, by less than the second derivative times half a basis point.", "quantifier": "every bond with coupons, every day-count convention with a time axis, all pairs of rates above minus the payment frequency", "why_tests_cant": "Convexity and the sign of the approximation errors quantify over all pairs of yields and all schedules; tests evaluate a few yields.", "anchors": ["fixedIncome/src/assets/us_treasury_instruments/us_treasury_instruments.py:UsTreasuryBond.discount_cashflows_by_fixed_rate", "fixedIncome/src/assets/us_treasury_instruments/us_treasury_instruments.py:UsTreasuryBond.pv_deriv", "fixedIncome/src/assets/credit/corporate_bond.py:FixedRateBond"]}
{"id": "C119", "title": "A bond's value on a curve is that of its strips, hence linear in its terms", "statement": "A coupon bond is worth, on every curve, exactly the portfolio of zero-coupon bonds holding its payments still due. So bonds with the same schedule, of either class, are worth principal * (coupon rate * annuity + principal factor) with the same two numbers; values scale with the principal; two coupons price a third; exactly one coupon rate is worth par, and bonds with a higher one are worth more than par; higher discount factors give higher values.", "quantifier": "every coupon-bearing bond, every family of bonds with its schedule, every curve and pair of curves", "why_tests_cant": "Quantifies over all bonds sharing a schedule and over all curves; tests price individual bonds on individual curves.", "anchors": ["fixedIncome/src/assets/us_treasury_instruments/us_treasury_instruments.py:UsTreasuryBond.present_value", "fixedIncome/src/assets/us_treasury_instruments/us_treasury_instruments.py:UsTreasuryBond.is_payment_received", "fixedIncome/src/assets/credit/corporate_bond.py:FixedRateBond.present_value", "fixedIncome/src/assets/base_cashflow.py:ZeroCoupon.present_value", "fixedIncome/src/portfolio/base_portfolio.py:Portfolio.present_value"]}
{"id": "C120", "title": "A swap on the US federal holiday calendar can always be built, valued and struck at par", "statement": "For any purchase date between the years 3 and 9997 less the tenor, any recognised tenor in months or years, any supported payment frequencies, business-day conventions and day counts, creating a swap on the US federal holiday calendar raises nothing: both accrual schedules exist, every period runs between two business days, is as long as its frequency up to a few days, and has a strictly positive accrual factor; both legs can be generated, the swap can be valued on any curve and overnight rate that never raise, and (if the tenor holds at least one fixed period and discount factors are positive) the implied rate is defined and is the only fixed rate at which the swap is worth zero. On any calendar at all, accrual factors are never negative save under 30/360 from 28 to 29 February of one year.", "quantifier": "every purchase date, tenor, frequency, convention and day count in the stated range; every total curve and overnight rate", "why_tests_cant": "Totality over the whole calendar (every holiday configuration of every year) and over all tenors and conventions; a test builds a few swaps.", "anchors": ["fixedIncome/src/assets/rates/linear_rates/interest_rate_swap.py:FixedToFloatInterestRateSwap", "fixedIncome/src/assets/rates/linear_rates/interest_rate_swap.py:FixedToFloatInterestRateSwap.generate_fixed_leg_accrual_schedule", "fixedIncome/src/assets/rates/linear_rates/interest_rate_swap.py:FixedToFloatInterestRateSwap.generate_floating_leg_accrual_schedule", "fixedIncome/src/assets/rates/linear_rates/interest_rate_swap.py:FixedToFloatInterestRateSwap.present_value", "fixedIncome/src/assets/rates/linear_rates/interest_rate_swap.py:FixedToFloatInterestRateSwap.implied_rate", "fixedIncome/src/scheduling_tools/scheduler.py:Scheduler.calculate_settlement_date", "fixedIncome/src/scheduling_tools/holidays.py:US_FEDERAL_HOLIDAYS"]}
{"id": "C121", "title": "Exactly which bonds on the US federal holiday calendar can be built, and every one built can be valued and has one yield", "statement": "For every coupon bond on the US federal holiday calendar with a recognised tenor of at least a month, a supported frequency, business-day settlement and a nonzero principal, the dated date, coupons (at least 84 days apart, paid on business days at most four days from their due dates), principal payment and settlement date all exist; the constructor succeeds if and only if the settlement date is not before the dated date and either no coupon is due before settlement, or the purchase date lies between the payment dates of two successive coupons the earlier of which is due by settlement. In particular it succeeds for every purchase away from coupon dates. Every bond built has a present value on every curve defined from its reference date on, and, if bought a week before maturity at a positive full price, exactly one yield.", "quantifier": "every purchase and maturity date, tenor, frequency, convention, adjustment and day count in the stated range; every total curve", "why_tests_cant": "An equivalence over the whole calendar: a test can show that some bond is built or rejected, not that these are exactly the cases.", "anchors": ["fixedIncome/src/assets/us_treasury_instruments/us_treasury_instruments.py:UsTreasuryBond", "fixedIncome/src/assets/us_treasury_instruments/us_treasury_instruments.py:UsTreasuryBond.calculate_accrued_interest", "fixedIncome/src/assets/us_treasury_instruments/us_treasury_instruments.py:UsTreasuryBond.present_value", "fixedIncome/src/assets/us_treasury_instruments/us_treasury_instruments.py:UsTreasuryBond.yield_to_maturity", "fixedIncome/src/assets/credit/corporate_bond.py:FixedRateBond", "fixedIncome/src/scheduling_tools/scheduler.py:Scheduler.calculate_settlement_date", "fixedIncome/src/scheduling_tools/holidays.py:US_FEDERAL_HOLIDAYS"]}
{"id": "C122", "title": "Which loans can be scheduled, how many payments they have, and when the level payment is defined", "statement": "A loan of M months paid every m months can be scheduled, whatever the payment amount and the extra payments, exactly when it is START_OF_MONTH or an END_OF_MONTH loan not originated in February; it then has exactly M / m payments (rounded down), one every m months. Its level payment is defined for every nonzero rate above minus the payment frequency: it is positive, it solves the annuity equation over the loan's length, and at a positive rate it exceeds one period's interest on the principal.", "quantifier": "every loan with a term in months within the calendar, every payment amount and list of extra payments", "why_tests_cant": "Quantifies over all dates, terms, rates, amounts and extra-payment lists; includes the exact set of rejected loans.", "anchors": ["fixedIncome/src/assets/credit/loan.py:Loan.generate_payment_schedule", "fixedIncome/src/assets/credit/loan.py:Loan.calculate_fixed_payment_amount"]}
{"id": "C123", "title": "Key-rate risk has one sign and reaches only the key rate's own window", "statement": "For a cashflow without negative payments, a key rate with at least one neighbour: in DISCOUNT_FACTOR space its pv01 lies between zero and one basis point of the total of the counted payments, and is zero when no knot of the curve lies strictly between its neighbours; on a curve of continuously compounded yields its pv01 is never positive, and is zero exactly when nothing is paid strictly between its neighbours after the reference date. The value under any adjustment is, payment by payment, the amount times the exponential of minus adjusted yield times time; it never rises under higher adjustments and, without negative yields, lies between zero and the total of the counted payments.", "quantifier": "every curve, cashflow within its range, key rate with neighbours and history of earlier valuations", "why_tests_cant": "The sign and the zero set are claims over every curve, cashflow and key rate.", "anchors": ["fixedIncome/src/curves/yield_curves/yield_curve.py:YieldCurve.calculate_pv01_risk", "fixedIncome/src/curves/yield_curves/yield_curve.py:YieldCurve.calculate_key_rate_deriv", "fixedIncome/src/curves/yield_curves/yield_curve.py:YieldCurve.to_discount_curve", "fixedIncome/src/risk/key_rate.py:KeyRate.__call__"]}
{"id": "C124", "title": "Swaps respond to the floating rates with one sign", "statement": "Raising the floating rates (for overnight swaps from rates whose simple growth over a period stays positive, so any rates above -90 %) never lowers the compounded overnight rate, the implied rate or the value to the payer of the fixed rate, and never raises the value to the receiver, provided discount and accrual factors are not negative. On the US federal holiday calendar with positive discount factors and notional no proviso but rates of at least -90 % is needed: the implied rate is defined, nonnegative for nonnegative rates, and ordered like the rates, and strictly so for strictly ordered rates when the floating leg has a period.", "quantifier": "every swap, curve and pair of ordered rate functions", "why_tests_cant": "It is an order relation between the results for all pairs of rate functions.", "anchors": ["fixedIncome/src/assets/rates/linear_rates/interest_rate_swap.py:OvernightIndexSwap", "fixedIncome/src/assets/rates/linear_rates/interest_rate_swap.py:FixedToFloatInterestRateSwap.implied_rate", "fixedIncome/src/assets/rates/linear_rates/interest_rate_swap.py:FixedToFloatInterestRateSwap.present_value"]}
{"id": "C125", "title": "The implied rate is an average of the floating rates", "statement": "For a swap whose legs have the same frequency and day count, with no payment before the curve's reference date and nonnegative discount and accrual factors, the implied rate of a term swap lies between any bounds of the floating rates and equals a flat floating rate; that of an overnight swap is at least any nonnegative lower bound of the daily rates. Struck at a flat floating rate such a term swap is worth nothing at any reference date, even a seasoned one. Where the daily rates are the forward rates of the discount curve, an overnight actual/360 leg paid without delay has implied rate (discount factor at the start minus at the end) over the annuity. On the US federal holiday calendar the provisos hold by themselves.", "quantifier": "every swap with equal legs, curve, rate function and bounds", "why_tests_cant": "Bounds and identities over all curves and rate functions.", "anchors": ["fixedIncome/src/assets/rates/linear_rates/interest_rate_swap.py:FixedToFloatInterestRateSwap.implied_rate", "fixedIncome/src/assets/rates/linear_rates/interest_rate_swap.py:TermInterestRateSwap", "fixedIncome/src/assets/rates/linear_rates/interest_rate_swap.py:OvernightIndexSwap"]}
{"id": "C126", "title": "Spline curves are the splines through their knots", "statement": "A curve with method CUBIC_SPLINE equals, at every date from its first to its last knot, the not-a-knot cubic spline through its knots as a function of the time from the reference date, and one with QUADRATIC_SPLINE the quadratic spline with breakpoints half-way between knots; these splines exist and are unique whatever the order in which knots are given. Construction succeeds exactly with at least four (three) knots at distinct dates none of which is before the reference date, and raises ValueError otherwise. The value is a fixed combination of the knot values with weights adding up to one, and knots on a polynomial of degree three (two) give that polynomial. A unit payment on a yield curve of discount factors is worth the spline through the adjusted knots.", "quantifier": "every list of knots, order, convention, reference date, date between the knots and adjustment", "why_tests_cant": "Existence, uniqueness and equality of functions over every knot set; a test can only probe values.", "anchors": ["fixedIncome/src/curves/base_curve.py:Curve._create_interpolation_object", "fixedIncome/src/curves/base_curve.py:Curve.interpolate", "fixedIncome/src/curves/yield_curves/yield_curve.py:YieldCurve.present_value"]}
{"id": "C127", "title": "Splines keep what interpolation promises", "statement": "Whatever the interpolation method: discount factors between 0 and 1 that fall with maturity give unit payments worth at most 1, nonnegative yields give discount factors of at most 1, a key rate has no effect outside its neighbours and never a negative one on a positive payment in discount-factor space, and bootstrapping in order of maturity reprices every instrument that pays nothing after its own knot. (True for LINEAR and PREVIOUS, and with splines for zero-coupon bonds at the knots; false with CUBIC_SPLINE.)", "quantifier": "every curve, method, key rate and set of instruments", "why_tests_cant": "Universal claims; the counterexamples are curves a test author would not think of.", "anchors": ["fixedIncome/src/curves/base_curve.py:Curve.interpolate", "fixedIncome/src/curves/yield_curves/yield_curve.py:YieldCurve.calculate_pv01_risk", "fixedIncome/src/curves/yield_curves/yield_curve.py:YieldCurveFactory.bootstrap_yield_curve"]}
{"id": "C128", "title": "Prices and key-rate risk in yield space are accurate in floating point", "statement": "With every float operation rounded, and np.exp accurate to v, the value of any schedule of payments on a curve of continuously compounded yields, bumped or not, differs from the sum of payments times true exponentials by at most a stated multiple of the unit of rounding, times the total size of the payments; the one-basis-point risk to a key rate differs from the true difference of values half a basis point up and down by at most three such errors (dividing by the basis point and multiplying by it again amplifies nothing). In double precision, with yields up to 12.5%, 40 years and 1000 payments: 3e-9 and 1e-8 of the total size.", "quantifier": "every float format with unit of rounding up to 2^-40, exponential, knots, schedule, key rate and interpolation method LINEAR or PREVIOUS", "why_tests_cant": "A bound on rounding errors for all inputs; a test sees the error of a few.", "anchors": ["fixedIncome/src/curves/yield_curves/yield_curve.py:YieldCurve.to_discount_curve", "fixedIncome/src/curves/yield_curves/yield_curve.py:YieldCurve.calculate_pv01_risk", "fixedIncome/src/curves/base_curve.py:Curve.interpolate", "fixedIncome/src/assets/base_cashflow.py:Cashflow.present_value"]}
{"id": "C129", "title": "Prices, key-rate risk and risk ladders on discount factors are accurate in floating point", "statement": "With every float operation rounded, the value of any schedule of payments on a curve of discount factors, bumped or not, and its one-basis-point risk to a key rate differ from the values of exact arithmetic by at most a stated multiple of the unit of rounding times the total size of the payments, whatever the curve was used for before. The risks of a ladder over any collection of two or more key rates add up, within the sum of these errors, to one basis point of the payments still to come. In double precision, 40 years and 1000 payments: 4e-10 and 1.3e-9 of the total size.", "quantifier": "every float format with unit of rounding up to 2^-40, knots, schedule, key rate or collection, history of use and interpolation method LINEAR or PREVIOUS", "why_tests_cant": "A bound on rounding errors for all inputs; a test sees the error of a few.", "anchors": ["fixedIncome/src/curves/yield_curves/yield_curve.py:YieldCurve.to_discount_curve", "fixedIncome/src/curves/yield_curves/yield_curve.py:YieldCurve.calculate_pv01_risk", "fixedIncome/src/curves/yield_curves/yield_curve.py:YieldCurve.calculate_pv01_risk_ladder", "fixedIncome/src/curves/base_curve.py:Curve.interpolate"]}
{"id": "C130", "title": "The rate returned as a yield is as close to the yield as it reprices the bond", "statement": "yield_to_maturity returns the point where the root finder stopped, converged or not. For any such rate above minus the frequency, the amount by which the bond's value at that rate misses the full price is zero exactly at the yield, negative below it and positive above, and lies between the price sensitivities at the higher and the lower of the two rates times their distance. A bound on the error follows from the rate, the amount missed and the time of the first payment alone. Two rates that miss on opposite sides enclose the yield; a Newton step never overshoots it from below.", "quantifier": "every coupon bond and note that can be constructed with a nonnegative coupon, every reference date before maturity and every rate above minus the coupon frequency", "why_tests_cant": "The solver's stopping point depends on scipy and its success flag is ignored; the claim is about every point it may return.", "anchors": ["fixedIncome/src/assets/us_treasury_instruments/us_treasury_instruments.py:UsTreasuryBond.yield_to_maturity", "fixedIncome/src/assets/credit/corporate_bond.py:FixedRateBond.yield_to_maturity", "fixedIncome/src/assets/us_treasury_instruments/us_treasury_instruments.py:UsTreasuryBond.discount_cashflows_by_fixed_rate"]}
{"id": "C131", "title": "Bond values at a fixed rate and yields are accurate in floating point", "statement": "With every float operation rounded and a power function accurate to two units in the last place, the constructor succeeds and discount_cashflows_by_fixed_rate differs from the exact value by at most 32 (N + 1) + 4 m units of rounding of that value, for m payments within N coupon periods. The rate returned as a yield differs from the exact yield by at most the floating-point residual the root finder saw plus a fixed number of units of rounding of price and value, divided by the price sensitivity.", "quantifier": "every coupon bond and note that can be constructed with principal at least one and nonnegative coupon that is not minute, every rate between minus half the frequency and the frequency, every reference date, every rounding and power function of the stated accuracy", "why_tests_cant": "Rounding errors depend on every input; samples do not bound the largest.", "anchors": ["fixedIncome/src/assets/us_treasury_instruments/us_treasury_instruments.py:UsTreasuryBond.discount_cashflows_by_fixed_rate", "fixedIncome/src/assets/credit/corporate_bond.py:FixedRateBond.discount_cashflows_by_fixed_rate", "fixedIncome/src/assets/us_treasury_instruments/us_treasury_instruments.py:UsTreasuryBond.yield_to_maturity", "fixedIncome/src/assets/credit/corporate_bond.py:FixedRateBond.yield_to_maturity"]}
{"id": "C132", "title": "Simulated discount factors agree with the model's own expected rates and prices", "statement": "In a Vasicek simulation started at its long-run mean, minus the logarithm of the discount factor that create_discount_curve reports for a grid datetime averages, over the random draws, to the time from the start times average_expected_short_rate; and without volatility the discount factor is zero_coupon_bond_price. (It holds up to the first step. From the second step on it fails for every positive mean: the average is too great, with n equal steps by the factor (n + 1) / 2, and without volatility every discount factor is below the model's price.)", "quantifier": "every Vasicek model that can be made, every forward step, grid and day count convention with a fixed denominator, every starting rate equal to the mean and the law of the standard normal draws", "why_tests_cant": "The average is over a continuum of draws; a test sees finitely many simulations.", "anchors": ["fixedIncome/src/stochastics/short_rate_models/base_short_rate_model.py:ShortRateModel.create_discount_curve", "fixedIncome/src/stochastics/short_rate_models/base_short_rate_model.py:ShortRateModel.generate_integrated_path", "fixedIncome/src/stochastics/short_rate_models/affine_yield_curve_models/vasicek_model.py:VasicekModel.average_expected_short_rate", "fixedIncome/src/stochastics/short_rate_models/affine_yield_curve_models/vasicek_model.py:VasicekModel.zero_coupon_bond_price"]}
{"id": "C133", "title": "Simulated rates are normal and simulated discount factors log-normal", "statement": "If the generator's draws are independent standard normals, then all values of a simulated Brownian motion are jointly normal with the covariances of a Brownian motion of the requested correlation; the rates of a simulated Vasicek model at all grid datetimes are jointly normal, with the means and covariances of the discretized equation, and so are the factors of a multivariate model at each grid datetime; the discount factors that create_discount_curve reports for the grid are log-normal and their average is exp(-M + V/2) for the mean M and variance V of the accumulated rate. With volatility, negative rates and discount factors above one have positive probability at every grid datetime after the start.", "quantifier": "every Brownian motion and Vasicek model that can be made, every forward step, grid, starting value and the law of the draws", "why_tests_cant": "A statement about a distribution: no finite number of simulated paths settles it.", "anchors": ["fixedIncome/src/stochastics/brownian_motion.py:BrownianMotion.generate_path", "fixedIncome/src/stochastics/short_rate_models/base_short_rate_model.py:ShortRateModel.generate_path", "fixedIncome/src/stochastics/short_rate_models/base_short_rate_model.py:ShortRateModel.create_discount_curve", "fixedIncome/src/stochastics/short_rate_models/affine_yield_curve_models/vasicek_model.py:VasicekModel"]}
{"id": "C134", "title": "Simulated geometric Brownian motions stay positive", "statement": "A geometric Brownian motion simulated from a positive start is positive (log-normal) at every grid datetime. (False: at every grid datetime after the start it is negative with positive probability, and the first step is normal, not log-normal. The probability of not being positive somewhere in the first n steps is at most the sum of exp(-(1 + drift dt)^2 / (2 volatility^2 dt)) over these steps.)", "quantifier": "every drift, non-zero volatility, forward step, grid and positive start, and the law of the draws", "why_tests_cant": "The exceptional draws are too rare to be met by any test.", "anchors": ["fixedIncome/src/stochastics/geometric_brownian_motion.py:GeometricBrownianMotion", "fixedIncome/src/stochastics/brownian_motion.py:BrownianMotion.generate_path"]}
{"id": "C135", "title": "Simulated default times are independent and their averages converge", "statement": "Although the paths draw from one stream and use a random number of draws each, the default times of different paths are independent and have the same law (that of C76); asking for more paths on the same draws only appends entries. The average over n paths of any quantity of the default time is unbiased, tends to its mean for almost all draws as n grows, and misses it by eps or more with probability at most the variance over n eps^2; so does the fraction of survivors. For a constant hazard rate with rate dt at most 1/2 the simulated survival probability differs from exp(-rate T) by a factor between exp(-2 rate^2 T dt) and exp(rate dt). For a hazard function between 0 and H with Lipschitz constant L it differs from exp(-integral of the hazard) by a factor within exp(-+((2 H^2 + L) T + H) dt). With a step of at least the maturity no path defaults whatever the hazard.", "quantifier": "every hazard function, maturity, positive step, number of paths, quantity of the default time, and the law of the draws", "why_tests_cant": "Independence and almost sure convergence are statements about all draws and all numbers of paths.", "anchors": ["fixedIncome/src/curves/credit_curves/default_models.py:default_bernoulli_paths"]}
{"id": "C136", "title": "Simulated default times in floating point", "statement": "With a floating-point running time every path is tested at the same N float times, the first ones of dt, dt+dt rounded, ...; N is the number of grid times before maturity of exact arithmetic, or one more or one less, and the j-th float time misses (j+1) dt by at most 2 j (j+1) dt roundings. Each entry is the first of them whose draw is at most the rounded product of hazard and step, NaN if there is none, and the next path goes on with the next draw. In double precision both deviations occur (step 1.7 and maturity 13.6: one test more; step 0.9 and maturity 2.7: one less), and for a maturity of more than 2^54 leading powers of two of the step a path without a default never ends.", "quantifier": "every hazard function, representable step, maturity, number of paths and sequence of draws, and every rounding with relative error u such that 4 (steps+2)^2 u <= 1", "why_tests_cant": "The number of tests depends on accumulated rounding for every step and maturity; no sample shows that it is off by at most one.", "anchors": ["fixedIncome/src/curves/credit_curves/default_models.py:default_bernoulli_paths"]}
{"id": "C137", "title": "The example's Svensson curve", "statement": "yield_curve(t, coeffs) of the principal components example should be the zero-coupon yield of the Svensson forward curve with the same parameters. It is off by b2 (exp(t/tau1) - exp(-t/tau1)) + b3 (exp(t/tau2) - exp(-t/tau2)), the sign of the exponent being lost in the two hump terms: it agrees when both hump coefficients are zero and tends to BETA0 + BETA1 at the short end, but at the long end, where the yield tends to BETA0, it tends to minus or plus infinity.", "quantifier": "all real parameters with nonzero (for the limits positive) decay times, all nonzero maturities", "why_tests_cant": "Equality of two curves at every maturity and their limits.", "anchors": ["examples/rates/principal_components_of_yield_curves.py:yield_curve"]}
{"id": "C138", "title": "Principal components reconstruct yield curves best", "statement": "With the mean curve and the first k rows of Vt of any singular value decomposition of the centered yields, the reconstruction of a curve is the closest point to it among all combinations of those components added to the mean curve, and the curve itself if all components are used; the sum of squared errors over all dates is at most that for any other centre and any other k orthonormal directions. The component series have mean zero and are uncorrelated, with sums of squares the squared singular values in decreasing order. Turning over the first component changes no reconstruction and makes its sum nonnegative. The mean daily change is the last curve less the first over the number of changes.", "quantifier": "every table of yields (any numbers of dates and maturities), every decomposition numpy may return, every k, curve, centre and orthonormal family", "why_tests_cant": "Optimality over all directions and all decompositions of all data sets.", "anchors": ["examples/rates/principal_components_of_yield_curves.py:projected_yield_curve", "examples/rates/principal_components_of_yield_curves.py:principal_components_levels", "examples/rates/principal_components_of_yield_curves.py:pc1_level", "examples/rates/principal_components_of_yield_curves.py:yield_curve_change"]}
{"id": "C139", "title": "The equity example's returns, betas and risk decomposition", "statement": "For any least squares fit with intercept, the risk reconstructed from the market part and the idiosyncratic part is the risk of the returns, neither part exceeds it, the idiosyncratic part has mean alpha and is uncorrelated with the market, beta is covariance over variance, the fit is unique when the market moves, and the fit of a portfolio is the combination of the fits. The daily returns should be relative price changes, but the change is divided by the new price: r/(1+r) instead of r, smaller on every day the price moves and never 100 %. The bootstrap at the end always raises IndexError.", "quantifier": "all price series, market and asset returns of any length, fits and portfolios", "why_tests_cant": "Identities for all data; the fit is whatever the regression returns.", "anchors": ["examples/equities/beta_calculation.py:schd_df", "examples/equities/beta_calculation.py:reconstructed_sched_risk", "examples/equities/beta_calculation.py:schd_beta", "examples/equities/beta_calculation.py:boot_samples_returns"]}
{"id": "C140", "title": "Bumping a curve by the key rate of one of its knots is moving that knot", "statement": "For a key rate at a knot of a curve, with the neighbouring knots as its neighbours (as made from the dates of the knots by to_key_rate_collection), valuing anything on the curve with the key rate bumped by b gives what valuing it on a curve built from the same knots with b added to that one gives; so the pv01 is the difference of two plain valuations. In discount-factor space this holds for every interpolation method and any convention of the key rate, in yield space for linear interpolation in the key rate's convention (pointwise, up to the last knot); with PREVIOUS it fails between knots, where the bump decays while moving a knot does not.", "quantifier": "all knots, reference dates, end behaviours, key rates at a knot (first, last or between), bumps, assets and histories of both curves", "why_tests_cant": "Equality of two valuations for every curve, knot, bump and asset.", "anchors": ["fixedIncome/src/curves/yield_curves/yield_curve.py:YieldCurve.calculate_pv01_risk", "fixedIncome/src/risk/key_rate.py:KeyRate.create_adjustment_function", "fixedIncome/src/curves/base_curve.py:Curve.interpolate", "fixedIncome/src/portfolio/base_portfolio.py:Portfolio.to_key_rate_collection"]}
{"id": "C141", "title": "A GeometricBrownianMotion as constructed and simulated", "statement": "The constructor accepts exactly the positive dimensions and positive definite correlation matrices (AssertionError and LinAlgError otherwise); an object constructed with a correlation matrix simulates paths with the mean and the products of coordinates of its parameters and exactly that matrix, and without one the coordinates are independent. The starting value must have one number per coordinate, or a single number which then stands for all; a python float, although annotated, raises AttributeError, other sizes ValueError, and so does every simulation if the dimension is not the size of the matrix. Simulations do not influence each other: the same draws and starting value give the same outcome whatever was simulated before; a path is stored exactly when asked for, and a failed simulation keeps the previous one.", "quantifier": "all parameters, intervals, steps, dimensions, correlation matrices, starting values, draws and histories of simulations", "why_tests_cant": "All matrices, laws of random paths and all histories.", "anchors": ["fixedIncome/src/stochastics/geometric_brownian_motion.py:GeometricBrownianMotion.__init__", "fixedIncome/src/stochastics/geometric_brownian_motion.py:GeometricBrownianMotion.generate_path"]}
{"id": "C142", "title": "The risk of bonds, and the workflow of main.py", "statement": "On every discount curve a bond is worth exactly what the plain cashflow of its payments due from the next business day on is worth, and it has a value exactly when that cashflow has one. Two assets worth the same on all discount curves of a reference date are worth the same and have the same sensitivities, risks and risk ladders on every yield curve of that date, in either space and after any history. On a curve of continuously compounded yields reaching to the last payment, the pv01 of a bond with respect to a key rate is never positive, and zero exactly when no remaining positive payment is made where the key rate moves the curve; in discount factor space the ladder over a key-rate collection adds up to one basis point of the remaining payments. The workflow of main.py - bootstrapping a curve from bonds, the key rates of a portfolio of the same bonds, the risk ladder of a long-short portfolio - never raises for bonds whose last payments are after the reference date and on different dates: it gives one risk per last-payment date, in order, each the sum of quantity times the bond's own risk, and never positive without short positions.", "quantifier": "all bonds accepted by the constructors, curves, histories, key rates, collections, portfolios with any quantities and cash, and any behaviour of the numerical minimiser", "why_tests_cant": "All bonds and portfolios, all curves and all histories of pricings; the minimiser is arbitrary.", "anchors": ["fixedIncome/src/assets/us_treasury_instruments/us_treasury_instruments.py:UsTreasuryBond.present_value", "fixedIncome/src/curves/yield_curves/yield_curve.py:YieldCurve.calculate_pv01_risk", "fixedIncome/src/curves/yield_curves/yield_curve.py:YieldCurve.calculate_pv01_risk_ladder", "fixedIncome/src/portfolio/base_portfolio.py:Portfolio.to_key_rate_collection", "fixedIncome/src/portfolio/base_portfolio.py:Portfolio.present_value", "main.py:main"]}
{"id": "C143", "title": "Bond prices determine the yield curve, so every way of building it gives the same one", "statement": "Raising knots of a linearly or previous-value interpolated curve of continuously compounded yields, at or before the last payment of a bond, never raises the bond's value, and lowers it if the knot at the last payment is among them. So two curves with the same knot dates which value equally, for each knot, some bond with its last payment on that date, have the same knots. In each search of the bootstrap the function whose root is wanted is strictly decreasing in the points evaluated. Hence the curve bootstrapped from bonds given in order of their last payments does not depend on the points the root searches evaluate, provided they end where the bonds are repriced; and the curve constructed by one simultaneous root search, if it ends where the bonds are repriced, is that curve too: same knots, and the same values, sensitivities, risks and risk ladders of every asset, after any history.", "quantifier": "all curves, day counts with a time axis, bonds accepted by the constructors with non-negative coupons, histories, and all behaviours of the numerical root searches", "why_tests_cant": "All curves and bonds, and all solvers: a test sees the one solution its solver returns.", "anchors": ["fixedIncome/src/curves/yield_curves/yield_curve.py:YieldCurveFactory.bootstrap_yield_curve", "fixedIncome/src/curves/yield_curves/yield_curve.py:YieldCurveFactory.construct_yield_curve", "fixedIncome/src/curves/yield_curves/yield_curve.py:YieldCurve.present_value", "fixedIncome/src/assets/us_treasury_instruments/us_treasury_instruments.py:UsTreasuryBond.present_value"]}
{"id": "C144", "title": "Curves which price bonds nearly alike are nearly alike, so the tolerance of the root searches bounds the error of the bootstrapped yields", "statement": "Two linearly or previous-value interpolated curves of continuously compounded yields with the same knot dates, which value a bond within eps of each other and whose knots before its last payment differ by at most D: their knots at its last payment differ by at most (eps + C*E*D)/(c*L), where L and E are the sums of amount times time over the payments left on the last date and before it, and c and C bound the slope of the exponential over the range of the yields. So if every knot has a bond whose last payment is on its date, and e and q bound eps/(c*L) and C*E/(c*L), the yields at the knot with n knots before it differ by at most e*(1+q)^n, and the yields of all dates up to the last of N knots by at most e*(1+q)^(N-1), and the two curves value any other bond paid by the last knot within C times its sum of amounts times times, times that. In particular two bootstraps of the same bonds, whatever points their root searches evaluate, whose searches end within delta of a root (eps = 2*delta), end at yields for the i-th bond which differ by at most e*(1+q)^i.", "quantifier": "all curves, bounds on the yields, day counts with a time axis, bonds accepted by the constructors with non-negative coupons, tolerances, and all behaviours of the numerical root searches", "why_tests_cant": "All curves, bonds, tolerances and solvers: a test sees the one approximate solution its solver returns, and not how far another may be.", "anchors": ["fixedIncome/src/curves/yield_curves/yield_curve.py:YieldCurveFactory.bootstrap_yield_curve", "fixedIncome/src/curves/yield_curves/yield_curve.py:YieldCurve.present_value", "fixedIncome/src/curves/base_curve.py:Curve.__call__", "fixedIncome/src/assets/us_treasury_instruments/us_treasury_instruments.py:UsTreasuryBond.present_value"]}
{"id": "C145", "title": "The value of a bond is convex in the bumps of its yields, so its pv01 never flatters the position", "statement": "On a curve of continuously compounded yields, moved by h times any profile of adjustments (a key rate, a parallel shift), the value of a bond with non-negative coupons is a convex function of h, and a non-increasing one if the profile is nowhere negative. The pv01 of a key rate is the change of that function between minus and plus half a basis point. So half a basis point up loses at most half of the pv01, half a basis point down gains at least half of it, for all larger moves the bond is worth at least what the pv01 predicts from its value at minus half a basis point, and for all smaller ones at most that. The same holds for a portfolio with any cash which holds no bond short.", "quantifier": "all bonds accepted by the constructors with non-negative coupons, curves reaching to their last payment, sizes of the bump, profiles, key rates with a neighbour, histories of the curve", "why_tests_cant": "Convexity is a statement about every triple of bumps, for every bond and curve.", "anchors": ["fixedIncome/src/curves/yield_curves/yield_curve.py:YieldCurve.calculate_pv01_risk", "fixedIncome/src/curves/yield_curves/yield_curve.py:YieldCurve.present_value", "fixedIncome/src/risk/key_rate.py:KeyRate.set_bump_val", "fixedIncome/src/assets/us_treasury_instruments/us_treasury_instruments.py:UsTreasuryBond.present_value"]}
