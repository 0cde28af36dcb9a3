{
 "C01": [
  "proved",
  "Any calendar, any date; also characterises when the predicate answers at all."
 ],
 "C02": [
  "proved",
  "Iff characterisation, fixpoint, idempotence, monotonicity, and termination with OverflowError."
 ],
 "C03": [
  "proved",
  "Iff characterisation by counting business days; composition including exceptions; strict monotonicity."
 ],
 "C04": [
  "proved",
  "Iff characterisation and both round trips."
 ],
 "C05": [
  "proved",
  ""
 ],
 "C06": [
  "proved",
  "Includes the rejection of every calendar-day convention."
 ],
 "C07": [
  "proved",
  ""
 ],
 "C09": [
  "proved",
  "Stronger than stated: never raises, bound 3 days."
 ],
 "C10": [
  "proved",
  ""
 ],
 "C11": [
  "partial",
  "All floating and fixed-date holidays except MLK and Memorial Day are proved for all years; for those two the code uses fixed nominal dates, proved correct iff the nominal date is a Sunday or Monday, with a concrete negation."
 ],
 "C12": [
  "partial",
  "False for 31 December observed New Year's Days (negation proved); every other observed date is proved, with the exception characterised exactly."
 ],
 "C08": [
  "proved",
  "Chain, both increment kinds, zero increments, rejection, and the end-of-month drift of iterated month steps."
 ],
 "C13": [
  "proved",
  ""
 ],
 "C14": [
  "proved",
  "Includes the year-1 boundary behaviour."
 ],
 "C15": [
  "partial",
  "Agreement with the US 30/360 rule, nonnegativity and monotonicity fail around the end of February; proved outside that case, with concrete negations for the rest."
 ],
 "C16": [
  "partial",
  "Midnight datetimes agree with dates for all ACT conventions under the stated side conditions; for 30/360 and mixed arguments the disagreement is proved."
 ],
 "C17": [
  "proved",
  "Iff characterisation of the ValueError."
 ],
 "C18": [
  "proved",
  ""
 ],
 "C19": [
  "proved",
  ""
 ],
 "C20": [
  "proved",
  ""
 ],
 "C21": [
  "partial",
  "The list view is in step only while __setitem__ is never called on an existing key; the stale list is proved."
 ],
 "C22": [
  "partial",
  "Proved for every axis-based convention with at least one neighbour; a lone key rate raises TypeError after its key date and 30/360 can raise ZeroDivisionError (both proved)."
 ],
 "C23": [
  "proved",
  ""
 ],
 "C24": [
  "partial",
  "Proved for collections of two or more under every convention except 30/360; the failures for one key rate and for 30/360 are proved."
 ],
 "C25": [
  "proved",
  "For every enumeration order of the python set."
 ],
 "C26": [
  "partial",
  "Holds only when python happens to enumerate the union in date order; otherwise ValueError with the collection left unsorted (proved)."
 ],
 "C51": [
  "partial",
  "Proved for disjoint collections; the interference through shared key rates is proved."
 ],
 "C52": [
  "partial",
  "Deletion and inner assignment proved; assignment to either end always fails (part of the iff)."
 ],
 "C27": [
  "proved",
  "Knots, straight line / step between adjacent knots, ends, order independence, pointwise adjustments. Splines are opaque."
 ],
 "C28": [
  "partial",
  "False as documented: the adjustment is called with the class `date`; proved for constant adjustments, negation for key rates and date dependence."
 ],
 "C29": [
  "proved",
  "Exact repricing, interpolation between bonds, history independence; also continuously-compounded-yield space and the failure of quote adjustments."
 ],
 "C30": [
  "proved",
  "Central difference, portfolio linearity, ladder rung independence, sensitivities of knot zero-coupons; all for every history of the curve object."
 ],
 "C31": [
  "partial",
  "The yield curve itself is unchanged; the key rate is left bumped and earlier returned discount curves are overwritten (both proved as negations)."
 ],
 "C32": [
  "proved",
  ""
 ],
 "C33": [
  "proved",
  "Schedule, counts, adjusted dates, amounts; the scheduler's cap of 1001 dates is part of the statement."
 ],
 "C34": [
  "proved",
  "Value = discounted sum of the payments due on or after the next business day; existence and zero after maturity."
 ],
 "C35": [
  "partial",
  "Proved when no coupon date lies between purchase and settlement; otherwise false (ValueError, IndexError or more than one coupon: negations proved)."
 ],
 "C36": [
  "partial",
  "Holds only for the bond's own purchase date; in general false: the reference date is ignored (negations proved)."
 ],
 "C37": [
  "proved",
  "Strict monotonicity, existence and uniqueness of the yield, positive duration, for every reference date and convention that puts the payments still due at positive times; C37_conventions says exactly which do. C37_thirty360_false: the value is flat, or rises with the rate, the day before a 30/360 bond matures on a 31st or a 29 February. Zero-coupon bonds raise ZeroDivisionError (proved)."
 ],
 "C38": [
  "proved",
  "Amortization invariants for every schedule produced by generate_payment_schedule (any frequency, day count, extra payments); payment dates characterised; after payoff all payments zero for nonnegative rate/extra."
 ],
 "C39": [
  "proved",
  "Equal accruals 1/f arise exactly for 30/360 with START_OF_MONTH; exact arithmetic. Rate zero raises ZeroDivisionError (C39_zero_rate)."
 ],
 "C40": [
  "partial",
  "START_OF_MONTH dates are firsts of month; END_OF_MONTH is wrong: never later than the 30th, February rejected, FIXED_DATE rejected (negations proved)."
 ],
 "C41": [
  "proved",
  "Antisymmetry and the value after any history of leg generations; ValueError unless both legs are stored."
 ],
 "C42": [
  "partial",
  "Proved when no fixed payment precedes the curve reference date (value formula, fairness, uniqueness); false for seasoned swaps (negation proved)."
 ],
 "C43": [
  "proved",
  ""
 ],
 "C53": [
  "partial",
  "Contiguity, adjustment and day counts proved for every swap; full coverage proved for start days up to the 28th and tenors a multiple of the period; month-end starts lose a period and stubs are dropped (negations proved)."
 ],
 "C54": [
  "proved",
  ""
 ],
 "C44": [
  "partial",
  "Grid-point exactness, range errors and (all conventions but 30/360) lying strictly between the neighbours proved; between grid points the weights are swapped, so linear interpolation holds iff midpoint or equal neighbours (C44_not_linear); 30/360 can divide by zero."
 ],
 "C45": [
  "proved",
  ""
 ],
 "C46": [
  "partial",
  "Each step is a correct trapezoid and the first step is right; later entries use cumulative accruals (C46_excess, C46_false)."
 ],
 "C55": [
  "proved",
  ""
 ],
 "C56": [
  "proved",
  "Draws modelled as independent N(0,1) random variables over a probability space; the Cholesky factor is assumed to satisfy L L\u1d40 = correlation."
 ],
 "C57": [
  "partial",
  "Proved for fresh models; false after regeneration (C57_stale), for set_path=False, set_dt and accrual_curve."
 ],
 "C58": [
  "partial",
  "Proved for own reads and same-step sharing; false for a finer step (C58_other_step_fails)."
 ],
 "C59": [
  "proved",
  ""
 ],
 "C48": [
  "partial",
  "Correct exactly for risks that are not stored; __contains__ returns None, so stored risks are reported missing (C48_never_contains). Iteration and columns proved."
 ],
 "C49": [
  "proved",
  ""
 ],
 "C50": [
  "proved",
  "scipy.optimize.minimize itself is not modelled."
 ],
 "C60": [
  "proved",
  "Parallel shift for the conventions other than 30/360, as in C24."
 ],
 "C61": [
  "proved",
  "scipy.optimize.minimize itself is not modelled; np.arange over exact reals."
 ],
 "C62": [
  "proved",
  "SettlesOn and BusinessDaysAfter in Spec/Settlement.lean are independent of the schedulers."
 ],
 "C47": [
  "partial",
  "Purchase at the start: price = expectation of exp(-integral), pricing PDE, yield, forward, convexity, volatilities; moments, average and forward rate for every purchase date; simulated dynamics. C47_later_purchase(_false): price and yield ignore the purchase date in the time to maturity."
 ],
 "C63": [
  "proved",
  "For diagonalizable reversion matrices with real eigenvalues whose pairwise sums are not zero; spec by linear ODEs for the mean and response (Spec/MultiVasicek.lean)."
 ],
 "C64": [
  "partial",
  "Symmetric reversion matrices proved; C64_forward gives the exact error otherwise; C64_forward_false refutes it for every doubly mean-reverting model."
 ],
 "C65": [
  "partial",
  "Means and averages proved; covariance for diagonal reversion (and one factor); C65_covariance_rotated says exactly what is reported for orthogonal eigenvectors (G^T V G, with the right trace, right iff V commutes with G); C65_covariance_false refutes it for doubly mean-reverting models with uncorrelated shocks."
 ],
 "C66": [
  "proved",
  ""
 ],
 "C67": [
  "proved",
  "Uniqueness of weights, success condition, and no-arbitrage growth."
 ],
 "C68": [
  "proved",
  "Prices and means for different speeds; C68_equal_speeds shows the decomposition cannot exist otherwise."
 ],
 "C69": [
  "partial",
  "For the constructor bodies: paths, bond prices and expected rates for every purchase date when the three speeds differ (C69_trebly_price_partial, C69_risk_price_partial), which is exactly when the reversion matrix the closed forms diagonalize is diagonalizable (C69_diagonalizable_iff). Missing because false of the code: the classes are abstract (instantiation is a TypeError, C102_abstract_classes), and equal speeds have no eigenbasis."
 ],
 "C70": [
  "partial",
  "Parameters, dates, starting state and round trip of the parameters proved; state variables refuted (C70_state_variables_false)."
 ],
 "C71": [
  "partial",
  "Attributes proved; C71_*_false refute the rest."
 ],
 "C72": [
  "partial",
  "Dates, and that the parameters are the last evaluated; C72_*_false refute the rest. The minimizer is any list of evaluated points."
 ],
 "C73": [
  "partial",
  "C73_reprices_partial: exact error of every instrument on the final curve, for instruments in increasing knot order; C73_fixed: bonds and zero-coupon payments qualify; C73_builds: the bootstrap succeeds. False otherwise: C73_unsorted_false (the function searched is constant), C73_curve (the curve holds the last evaluated points, at the i-th earliest knot for the i-th instrument; the solver result is not used)."
 ],
 "C74": [
  "proved",
  "For every order of instruments, evaluated points and solution."
 ],
 "C75": [
  "partial",
  "The curve interpolates the knot values (C75_knots_partial); false as stated: for bonds these are prices (C75_prices_false), and present values are a TypeError (C75_present_value_raises)."
 ],
 "C76": [
  "proved",
  "Exact arithmetic; the random generator is an arbitrary sequence of draws (for the probabilities: independent uniforms). The interval before maturity is never tested. For dt <= 0 the simulation can run forever (C76_diverges)."
 ],
 "C77": [
  "proved",
  "All slices of Python semantics."
 ],
 "C78": [
  "partial",
  "False of the code: __iter__ returns dict items (not an iterator), so iteration raises TypeError, as do == and membership whenever two instruments have equally many cashflows (C78_iteration_raises, C78_equality_raises, C78_membership_raises). Proved part: collections of different sizes compare by size."
 ],
 "C79": [
  "partial",
  "False of the code: interest runs from the adjusted start date; the origination day has no influence (C79_same_month), the stub is not charged with START_OF_MONTH (C79_stub_uncharged), with END_OF_MONTH a loan of the 31st accrues from the 30th (C79_before_origination); present_value raises TypeError. Proved part: later periods have no gap and no overlap."
 ],
 "C80": [
  "proved",
  "Collections whose key rates are in date order (as every constructor leaves them)."
 ],
 "C81": [
  "partial",
  "False of the code: append, insert and extend always raise TypeError (C81_growth_raises), reverse raises TypeError for two or more key rates (C81_reverse_raises), clear empties the collection and raises ValueError (C81_clear_raises). Assigning to a slice raises AttributeError and leaves neighbours wrong (C81_slice_assignment_raises, C81_slice_assignment_breaks). Proved part: the trivial cases."
 ],
 "C82": [
  "partial",
  "False of the code: duration is too large by the factor principal/100 (C82_principal_false), convexity always raises AttributeError (C82_convexity_raises). Proved: the derivative claim (exact sensitivity at a rate within half a basis point), duration for principal 100, the Macaulay claims when settling on the next business day."
 ],
 "C83": [
  "partial",
  "False of the code: a datetime never equals a holiday date, so holidays are ignored (C83_is_business_day_false, C83_following_false), and a datetime start with a date end raises (C83_mixed_raises). The exact behaviour is proved (C83_is_business_day, _add_iff, _subtract_iff, _modified, _generate); the intended claim holds when no weekday holiday is on the way (C83_agree_partial)."
 ],
 "C84": [
  "proved",
  "The solver (scipy SLSQP) is not modelled: its result is assumed to solve the problem it was given where a theorem speaks of the solver's output."
 ],
 "C85": [
  "proved",
  "As for C84, the solver is not modelled."
 ],
 "C86": [
  "proved",
  "Exact arithmetic, draws are independent standard normals; 30/360 (steps can be negative) is excluded."
 ],
 "C87": [
  "proved",
  "Exact arithmetic; draws are independent standard normals. The first theorem covers every convention but 30/360; the comparison with the closed forms needs elapsed time to be additive, so ACT/360, ACT/365, ACT/365.25."
 ],
 "C88": [
  "proved",
  "np.linalg.solve enters by its contract (a solution of the system). Instruments paying on one key-rate date each (zero-coupon bonds)."
 ],
 "C89": [
  "partial",
  "False of the code: date() without arguments raises TypeError for every future (C89_settlement_raises); value, knot and last trading date do not exist (C89_methods_missing). What the rest of the method would compute is proved in C89_average_partial, C89_too_short."
 ],
 "C90": [
  "proved",
  "30/360 is excluded because its day difference is not additive. Spline interpolations do not keep the shape and are outside the claim."
 ],
 "C91": [
  "partial",
  "False of the code for falling yields: C91_falling_yields_false exhibits knots with decreasing discount factors between which linear interpolation of the yields makes discount factors rise (negative forward rates). Bounds hold (C91_bounds); the exact condition is C91_decreasing_iff; rising yields are fine (C91_rising_yields_partial)."
 ],
 "C92": [
  "proved",
  "The solver enters as any root of the yield equation above minus the frequency; the initial guess and the convergence of scipy's secant iteration are not modelled."
 ],
 "C93": [
  "partial",
  "False of the code: key rates of one date and different conventions are neither <, == nor > (C93_trichotomy_false); a failed union returns self with moved dates (C93_combine_false); _add_key_rate raises IndexError for dates on or after the last key date and ValueError, leaving a corrupted receiver, for existing dates (C93_add_last_raises, C93_add_duplicate_raises). The remaining cases are proved."
 ],
 "C94": [
  "partial",
  "False of the code: the constructor stores only price and call schedule, so every inherited method except price raises AttributeError (C94_methods_raise). The ordering of the call schedule is proved."
 ],
 "C95": [
  "proved",
  "Rounding to nearest with 53 bits satisfies the assumptions (rounding_nearest53); overflow is not modelled; transcendental functions are not covered. C95_parallel_compensated covers the compensated sum of CPython 3.12 and later."
 ],
 "C96": [
  "proved",
  "The date substrate of the model, proved equal to an independent description of the Gregorian calendar (Spec/Gregorian)."
 ],
 "C97": [
  "partial",
  "False of the code for a single replacement whose date is out of order (C97_reset_value_false: the curve raises at the date just set) and for resets that raise (C97_failed_reset_false: the old values are gone). Proved otherwise, for single calls and for any history of calls that keep the knots in order, including calls at impossible positions (C97_history)."
 ],
 "C98": [
  "proved",
  "A refinement between the two models; MultivariateVasicekModel itself is abstract at this commit, so the multivariate side is its constructor's body as a concrete subclass runs it."
 ],
 "C99": [
  "proved",
  "The three-factor classes are abstract at this commit; their constructors' bodies are meant, as a concrete subclass runs them."
 ],
 "C100": [
  "proved",
  "Overflow is not modelled; underflow is bounded through the smallest normal number. The amount computed by calculate_fixed_payment_amount (a power) is not rounded: the amount is any representable number."
 ],
 "C101": [
  "proved",
  "numpy's eigendecomposition and normal draws are parameters (a correct diagonalization; independent standard normals). The simulated covariance is compared with the equation's solution, not with state_variable_covariance/short_rate_variance, which the code gets wrong when eigenvectors are not orthonormal (C65_covariance_false)."
 ],
 "C102": [
  "proved",
  "Each theorem names the exception and, where there is state, the state afterwards. Error messages are not modelled, only the exception class."
 ],
 "C103": [
  "proved",
  "Datetime knots, LINEAR interpolation and ERROR ends, as the short-rate model builds them. The integral itself is the code's (C46 shows it is not the trapezoidal one)."
 ],
 "C104": [
  "partial",
  "Exact formula for all datetimes; additivity and monotonicity proved for equal times of day and for years of equal length (monotonicity also from a leap-year start), and refuted in general."
 ],
 "C105": [
  "proved",
  "Nonnegative rates, instalments and extra payments (with negative ones the code reopens a paid-off loan)."
 ],
 "C106": [
  "proved",
  "Exact arithmetic; any curve and floating-rate function, which may raise."
 ],
 "C107": [
  "proved",
  "LINEAR and PREVIOUS interpolation, payments between the first and the last knot, key rates not under 30/360 (C24 shows why)."
 ],
 "C108": [
  "proved",
  "Every calendar and integer; the order of modified-following dates in full for US federal holidays, and for arbitrary calendars provided the next business day of a date is not in the same month of a later year."
 ],
 "C109": [
  "proved",
  "Dates from year 2 on for ACT/ACT (the code subtracts a year)."
 ],
 "C110": [
  "proved",
  "numpy's Cholesky modelled as the exact factor of the lower triangle when it exists, LinAlgError otherwise."
 ],
 "C111": [
  "proved",
  "Any rounding satisfying Spec/Rounded (53-bit round-to-nearest does); rates, discount factors and coupons zero or not minute (no underflow); no overflow; CPython's plain left-to-right sum. Discount factors and floating rates are taken as the floats the curve returns."
 ],
 "C112": [
  "proved",
  "Dates (datetimes ignore the holidays, C83)."
 ],
 "C113": [
  "proved",
  "Exact real arithmetic; yields use the time from the start of the Brownian motion, as the code does (C47_later_purchase_false); positive reversion speed."
 ],
 "C114": [
  "proved",
  "Sharing one key rate object between two collections is excluded by hypothesis (two collections rewire the same object's neighbours); += that raises is excluded (the code appends before raising, C51)."
 ],
 "C115": [
  "proved",
  "Exact real arithmetic; the day-count error eps is a hypothesis of C115_premium_discount, zero in C115_par and C115_yield; C115_thirty360 derives it for 30/360 bonds from their schedules."
 ],
 "C116": [
  "proved",
  "Exact real arithmetic; the draws of numpy's generator are an argument."
 ],
 "C117": [
  "partial",
  "Proved for plain maturity dates, conventions with a fixed year and the methods that do not compare dates (C117_midnight_partial, C117_multi_midnight_partial); datetimes in both positions are the methods of the other properties (C117_datetimes, C117_multi_datetimes). False of the code otherwise: methods that compare raise TypeError for a plain maturity (C117_compare_raises, C117_multi_compare_raises), a plain purchase date never gives a state-dependent value (C117_purchase_raises, C117_multi_purchase_raises), and under ACT/ACT a date and its midnight give different accruals (C117_act_act_gap). 30/360 with one datetime is not characterised here."
 ],
 "C118": [
  "proved",
  "C118_convex (strict convexity, tangents, gains exceed losses, the exact second derivative is positive and falling), C118_second_order (sign of the error of the second-order estimate), C118_pv_deriv (the central difference is increasing and overstates, with an explicit bound)."
 ],
 "C119": [
  "proved",
  "C119_strips (bond = portfolio of ZeroCoupon instruments, including whether a value exists), C119_affine, C119_replication, C119_par_coupon, C119_curve_monotone."
 ],
 "C120": [
  "proved",
  "C120_periods, C120_valued, C120_par (no scheduling hypothesis: the schedules are shown to exist), C120_factor_nonneg (any calendar). The range of years keeps every date inside datetime's years 1..9999."
 ],
 "C121": [
  "proved",
  "C121_schedule, C121_creatable (iff), C121_away_from_coupons, C121_valued, C121_yield (under 30/360, bought on any day but a 30th or 28 February)."
 ],
 "C122": [
  "proved",
  "C122_schedule (iff, count and dates), C122_amount (annuity equation, positivity, lower bound)."
 ],
 "C123": [
  "proved",
  "C123_discount_space, C123_yield_value, C123_yield_space, C123_yield_monotone; np.exp is any nondecreasing function (strictly increasing for the converse of the zero case)."
 ],
 "C124": [
  "proved",
  "C124_compounding, C124_floating (any calendar), C124_us (hypothesis-free on the US calendar)."
 ],
 "C125": [
  "proved",
  "C125_bounds, C125_flat, C125_par_formula, C125_us."
 ],
 "C126": [
  "proved",
  "C126_cubic, C126_quadratic, C126_builds, C126_weights, C126_polynomials, C126_discount_factors. scipy's own algorithm is trusted to compute the spline its documentation describes; the model solves the textbook linear systems and is proved to agree with the specification. Splines are also covered by C27_knots, C29_reprices, C29_yield_space, C74, C88, C97, C107_ladder_total, C123_yield_space."
 ],
 "C127": [
  "partial",
  "Holds for linear and previous interpolation (C73, C90, C91, C123) and for zero-coupon bonds with every method (C127_zero_coupons_partial); with a cubic spline all four parts fail: C127_shape_false, C127_yields_false, C127_key_rate_sign_false, C127_bootstrap_false."
 ],
 "C128": [
  "proved",
  "C128_value, C128_pv01 for any rounding (Spec.Rounding) and float exponential (Spec.FloatExp); C128_double in double precision; C128_exact: with exact arithmetic these functions are the exact model's. Overflow is not modelled."
 ],
 "C129": [
  "proved",
  "C129_value, C129_pv01, C129_ladder for any rounding (Spec.Rounding); C129_double in double precision; C129_exact: with exact arithmetic these functions are the exact model's, errors included. Overflow is not modelled."
 ],
 "C130": [
  "proved",
  "C130_residual, C130_computable, C130_bracket, C130_newton, for any reference date. The scipy root finder itself is not modelled: the rate is any real number above -f."
 ],
 "C131": [
  "proved",
  "C131_value, C131_yield, C131_constructs, C131_exact. The float power function is a parameter meeting Spec.PowerFn (relative error at most 4u where the power does not underflow); overflow is excluded by the bounds on rate and number of periods only in the sense of the rounding model, which has no largest number."
 ],
 "C132": [
  "partial",
  "C132_stationary_partial up to the first step; false afterwards (C132_stationary_false, C132_riskless_false), because the integrated path weights each step with the time from the start (C46_false). C132_path and C132_mean give what the code computes for any starting rate."
 ],
 "C133": [
  "proved",
  "C133_brownian, C133_rates, C133_discounts (fixed-denominator conventions, as for C132), C133_factors (any invertible or non-invertible reversion, from C101); joint normality is Spec.JointlyNormal: every linear combination is normal with the stated mean and variance."
 ],
 "C134": [
  "partial",
  "C134_positive_partial bounds the probability of a non-positive value, C134_first_step_partial gives the law of the first step; positivity itself is false (C134_false)."
 ],
 "C135": [
  "proved",
  "C135_independent, C135_strong_law, C135_error, C135_survivors, C135_bias, C135_hazard_curve, C135_coarse_step; numpy's uniform draws are assumed independent and uniform on [0,1] (UniformDraws)."
 ],
 "C136": [
  "proved",
  "C136_paths (C136_count, C136_times for the times), C136_exact (agrees with C76's model without rounding), C136_extra_test, C136_missing_test, C136_stalls (why the number of steps must be bounded)."
 ],
 "C137": [
  "partial",
  "Holds without hump terms (C137_no_hump_partial) and at the short end (C137_short_end); false otherwise: C137_error gives the exact error, C137_long_end_false the limits."
 ],
 "C138": [
  "proved",
  "C138_closest, C138_best (Ky Fan), C138_scores, C138_sign, C138_components, C138_changes; numpy's svd is any decomposition satisfying Spec.IsSvd."
 ],
 "C139": [
  "partial",
  "C139_risk, C139_beta, C139_portfolio, C139_compounding proved; the returns are not relative changes (C139_returns_false) and the bootstrap raises (C139_bootstrap_raises)."
 ],
 "C140": [
  "proved",
  "C140_curve, C140_discount_factor, C140_yield, C140_risk and C140_portfolio; C140_previous_false shows why yield space needs linear interpolation."
 ],
 "C141": [
  "proved",
  "C141_constructor, C141_default, C141_starting_value, C141_dimension_unchecked, C141_repeatable, C141_simulated."
 ],
 "C142": [
  "proved",
  "C142_remaining, C142_transfer, C142_bond_value, C142_bond_risk, C142_bond_ladder, C142_workflow (one theorem from the bootstrap to the ladder, with the two-bond long-short example as its non-vacuity witness)."
 ],
 "C143": [
  "proved",
  "C143_decreasing, C143_determined, C143_search, C143_bootstrap, C143_methods. Exact arithmetic; solvers end at exact roots."
 ],
 "C144": [
  "proved",
  "C144_bond, C144_stable, C144_yields, C144_values, C144_bootstrap: what remains of C143 when the solvers stop within a tolerance. Exact arithmetic; the slope bounds of the exponential are a hypothesis (exp is abstract over the rationals)."
 ],
 "C145": [
  "proved",
  "C145_profile, C145_key_rate, C145_parallel, C145_portfolio. Exact arithmetic; that the exponential is convex and increasing is a hypothesis (exp is abstract over the rationals)."
 ]
}