{
 "claims": [
  {
   "property": "C01",
   "status": "proved",
   "theorems": [
    "Verif.Props.C01_is_business_day"
   ],
   "note": "Any calendar, any date; also characterises when the predicate answers at all."
  },
  {
   "property": "C02",
   "status": "proved",
   "theorems": [
    "Verif.Props.C02_following_iff",
    "Verif.Props.C02_following_fixpoint",
    "Verif.Props.C02_following_idempotent",
    "Verif.Props.C02_following_monotone",
    "Verif.Props.C02_following_overflow"
   ],
   "note": "Iff characterisation, fixpoint, idempotence, monotonicity, and termination with OverflowError."
  },
  {
   "property": "C03",
   "status": "proved",
   "theorems": [
    "Verif.Props.C03_add_business_days_iff",
    "Verif.Props.C03_add_compose",
    "Verif.Props.C03_strict_mono"
   ],
   "note": "Iff characterisation by counting business days; composition including exceptions; strict monotonicity."
  },
  {
   "property": "C04",
   "status": "proved",
   "theorems": [
    "Verif.Props.C04_subtract_business_days_iff",
    "Verif.Props.C04_forward_back",
    "Verif.Props.C04_back_forward",
    "Verif.Props.C04_subtract_single"
   ],
   "note": "Iff characterisation and both round trips."
  },
  {
   "property": "C05",
   "status": "proved",
   "theorems": [
    "Verif.Props.C05_modified_following",
    "Verif.Props.C05_modified_following_same_month"
   ],
   "note": ""
  },
  {
   "property": "C06",
   "status": "proved",
   "theorems": [
    "Verif.Props.C06_settlement_plus",
    "Verif.Props.C06_settlement_minus",
    "Verif.Props.C06_settlement_minus_zero",
    "Verif.Props.C06_settlement_calendar_rejected"
   ],
   "note": "Includes the rejection of every calendar-day convention."
  },
  {
   "property": "C07",
   "status": "proved",
   "theorems": [
    "Verif.Props.C07_generate_business_days"
   ],
   "note": ""
  },
  {
   "property": "C08",
   "status": "proved",
   "theorems": [
    "Verif.Props.C08_chain",
    "Verif.Props.C08_timedelta",
    "Verif.Props.C08_timedelta_returns",
    "Verif.Props.C08_zero_increment",
    "Verif.Props.C08_other_rejected",
    "Verif.Props.C08_months",
    "Verif.Props.C08_months_any_day",
    "Verif.Props.C08_months_bounds",
    "Verif.Props.C08_month_drift",
    "Verif.Props.C08_datetimes"
   ],
   "note": "Chain, both increment kinds, zero increments, rejection, and the end-of-month drift of iterated month steps."
  },
  {
   "property": "C09",
   "status": "proved",
   "theorems": [
    "Verif.Props.C09_is_business_day_total",
    "Verif.Props.C09_following_total",
    "Verif.Props.C09_add_business_days_total"
   ],
   "note": "Stronger than stated: never raises, bound 3 days."
  },
  {
   "property": "C10",
   "status": "proved",
   "theorems": [
    "Verif.Props.C10_federal_adjustment",
    "Verif.Props.C10_next_weekday"
   ],
   "note": ""
  },
  {
   "property": "C11",
   "status": "partial",
   "theorems": [
    "Verif.Props.C11_floating_holidays",
    "Verif.Props.C11_fixed_holidays",
    "Verif.Props.C11_mlk_partial",
    "Verif.Props.C11_memorial_partial",
    "Verif.Props.C11_not_legal_dates",
    "Verif.Props.C11_generate_range",
    "Verif.Props.C11_generate_all"
   ],
   "note": "All floating and fixed-date holidays except MLK and Memorial Day are proved for all years; for those two the code uses fixed nominal dates, proved correct iff the nominal date is a Sunday or Monday, with a concrete negation."
  },
  {
   "property": "C12",
   "status": "partial",
   "theorems": [
    "Verif.Props.C12_observed_partial",
    "Verif.Props.C12_new_year_friday_missed"
   ],
   "note": "False for 31 December observed New Year's Days (negation proved); every other observed date is proved, with the exception characterised exactly."
  },
  {
   "property": "C13",
   "status": "proved",
   "theorems": [
    "Verif.Props.C13_act_fixed",
    "Verif.Props.C13_act_fixed_laws",
    "Verif.Props.C13_time_fraction"
   ],
   "note": ""
  },
  {
   "property": "C14",
   "status": "proved",
   "theorems": [
    "Verif.Props.C14_act_act",
    "Verif.Props.C14_act_act_laws",
    "Verif.Props.C14_whole_years",
    "Verif.Props.C14_year_one"
   ],
   "note": "Includes the year-1 boundary behaviour."
  },
  {
   "property": "C15",
   "status": "partial",
   "theorems": [
    "Verif.Props.C15_thirty360_partial",
    "Verif.Props.C15_nonneg_partial",
    "Verif.Props.C15_monotone_partial",
    "Verif.Props.C15_whole_years",
    "Verif.Props.C15_leap_february"
   ],
   "note": "Agreement with the US 30/360 rule, nonnegativity and monotonicity fail around the end of February; proved outside that case, with concrete negations for the rest."
  },
  {
   "property": "C16",
   "status": "partial",
   "theorems": [
    "Verif.Props.C16_act_fixed_datetimes",
    "Verif.Props.C16_mixed_midnight",
    "Verif.Props.C16_midnight_average",
    "Verif.Props.C16_act_act_midnight_partial",
    "Verif.Props.C16_thirty360_midnight_differs"
   ],
   "note": "Midnight datetimes agree with dates for all ACT conventions under the stated side conditions; for 30/360 and mixed arguments the disagreement is proved."
  },
  {
   "property": "C17",
   "status": "proved",
   "theorems": [
    "Verif.Props.C17_reversed_rejected",
    "Verif.Props.C17_only_reversed_rejected"
   ],
   "note": "Iff characterisation of the ValueError."
  },
  {
   "property": "C18",
   "status": "proved",
   "theorems": [
    "Verif.Props.C18_schedule_sorted",
    "Verif.Props.C18_add_equals_build",
    "Verif.Props.C18_create_from_iterables"
   ],
   "note": ""
  },
  {
   "property": "C19",
   "status": "proved",
   "theorems": [
    "Verif.Props.C19_present_value",
    "Verif.Props.C19_order_independent",
    "Verif.Props.C19_additive",
    "Verif.Props.C19_raises_iff",
    "Verif.Props.C19_zero_coupon"
   ],
   "note": ""
  },
  {
   "property": "C20",
   "status": "proved",
   "theorems": [
    "Verif.Props.C20_map_semantics",
    "Verif.Props.C20_missing_key"
   ],
   "note": ""
  },
  {
   "property": "C21",
   "status": "partial",
   "theorems": [
    "Verif.Props.C21_list_in_step_partial",
    "Verif.Props.C21_stale_list"
   ],
   "note": "The list view is in step only while __setitem__ is never called on an existing key; the stale list is proved."
  },
  {
   "property": "C22",
   "status": "partial",
   "theorems": [
    "Verif.Props.C22_hat",
    "Verif.Props.C22_no_next",
    "Verif.Props.C22_no_prior",
    "Verif.Props.C22_shape",
    "Verif.Props.C22_constructor",
    "Verif.Props.C22_alone",
    "Verif.Props.C22_thirty360_raises"
   ],
   "note": "Proved for every axis-based convention with at least one neighbour; a lone key rate raises TypeError after its key date and 30/360 can raise ZeroDivisionError (both proved)."
  },
  {
   "property": "C23",
   "status": "proved",
   "theorems": [
    "Verif.Props.C23_raises_iff",
    "Verif.Props.C23_construction",
    "Verif.Props.C23_order_independent"
   ],
   "note": ""
  },
  {
   "property": "C24",
   "status": "partial",
   "theorems": [
    "Verif.Props.C24_parallel_shift_partial",
    "Verif.Props.C24_set_bump_partial",
    "Verif.Props.C24_single_raises",
    "Verif.Props.C24_thirty360_fails"
   ],
   "note": "Proved for collections of two or more under every convention except 30/360; the failures for one key rate and for 30/360 are proved."
  },
  {
   "property": "C25",
   "status": "proved",
   "theorems": [
    "Verif.Props.C25_union",
    "Verif.Props.C25_commutative_idempotent"
   ],
   "note": "For every enumeration order of the python set."
  },
  {
   "property": "C26",
   "status": "partial",
   "theorems": [
    "Verif.Props.C26_iadd_partial",
    "Verif.Props.C26_iadd_union_partial",
    "Verif.Props.C26_iadd_unsorted"
   ],
   "note": "Holds only when python happens to enumerate the union in date order; otherwise ValueError with the collection left unsorted (proved)."
  },
  {
   "property": "C27",
   "status": "proved",
   "theorems": [
    "Verif.Props.C27_builds",
    "Verif.Props.C27_knots",
    "Verif.Props.C27_between",
    "Verif.Props.C27_outside",
    "Verif.Props.C27_order_independent",
    "Verif.Props.C27_adjustment",
    "Verif.Props.C27_empty"
   ],
   "note": "Knots, straight line / step between adjacent knots, ends, order independence, pointwise adjustments. Splines are opaque."
  },
  {
   "property": "C28",
   "status": "partial",
   "theorems": [
    "Verif.Props.C28_constant_adjustment_partial",
    "Verif.Props.C28_key_rate_raises"
   ],
   "note": "False as documented: the adjustment is called with the class `date`; proved for constant adjustments, negation for key rates and date dependence."
  },
  {
   "property": "C29",
   "status": "proved",
   "theorems": [
    "Verif.Props.C29_reprices",
    "Verif.Props.C29_between",
    "Verif.Props.C29_quote_adjustments_fail",
    "Verif.Props.C29_yield_space"
   ],
   "note": "Exact repricing, interpolation between bonds, history independence; also continuously-compounded-yield space and the failure of quote adjustments."
  },
  {
   "property": "C30",
   "status": "proved",
   "theorems": [
    "Verif.Props.C30_central_difference",
    "Verif.Props.C30_portfolio_linear",
    "Verif.Props.C30_ladder",
    "Verif.Props.C30_zero_coupon_sensitivity"
   ],
   "note": "Central difference, portfolio linearity, ladder rung independence, sensitivities of knot zero-coupons; all for every history of the curve object."
  },
  {
   "property": "C31",
   "status": "partial",
   "theorems": [
    "Verif.Props.C31_curve_unchanged_partial",
    "Verif.Props.C31_key_rate_left_bumped",
    "Verif.Props.C31_discount_curve_overwritten"
   ],
   "note": "The yield curve itself is unchanged; the key rate is left bumped and earlier returned discount curves are overwritten (both proved as negations)."
  },
  {
   "property": "C32",
   "status": "proved",
   "theorems": [
    "Verif.Props.C32_value",
    "Verif.Props.C32_value_exists",
    "Verif.Props.C32_linear"
   ],
   "note": ""
  },
  {
   "property": "C33",
   "status": "proved",
   "theorems": [
    "Verif.Props.C33_coupons",
    "Verif.Props.C33_following_not_early",
    "Verif.Props.C33_count",
    "Verif.Props.C33_count_years",
    "Verif.Props.C33_zero_coupon",
    "Verif.Props.C33_annual_interest",
    "Verif.Props.C33_total_interest"
   ],
   "note": "Schedule, counts, adjusted dates, amounts; the scheduler's cap of 1001 dates is part of the statement."
  },
  {
   "property": "C34",
   "status": "proved",
   "theorems": [
    "Verif.Props.C34_present_value",
    "Verif.Props.C34_present_value_exists",
    "Verif.Props.C34_zero_after_maturity"
   ],
   "note": "Value = discounted sum of the payments due on or after the next business day; existence and zero after maturity."
  },
  {
   "property": "C35",
   "status": "partial",
   "theorems": [
    "Verif.Props.C35_accrued_partial",
    "Verif.Props.C35_first_coupon_straddle",
    "Verif.Props.C35_after_last_coupon",
    "Verif.Props.C35_straddle_example",
    "Verif.Props.C35_exceeds_coupon"
   ],
   "note": "Proved when no coupon date lies between purchase and settlement; otherwise false (ValueError, IndexError or more than one coupon: negations proved)."
  },
  {
   "property": "C36",
   "status": "partial",
   "theorems": [
    "Verif.Props.C36_full_price_partial",
    "Verif.Props.C36_reference_ignored",
    "Verif.Props.C36_corporate_attribute_error",
    "Verif.Props.C36_reference_only_selects"
   ],
   "note": "Holds only for the bond's own purchase date; in general false: the reference date is ignored (negations proved)."
  },
  {
   "property": "C37",
   "status": "proved",
   "theorems": [
    "Verif.Props.C37_conventions",
    "Verif.Props.C37_yield_unique",
    "Verif.Props.C37_ytm_unique",
    "Verif.Props.C37_duration_positive",
    "Verif.Props.C37_zero_coupon_fails",
    "Verif.Props.C37_thirty360_false"
   ],
   "note": "Strict monotonicity, existence and uniqueness of the yield, positive duration, for every reference date and convention that puts the payments still due at positive times; C37_conventions says exactly which do. C37_thirty360_false: the value is flat, or rises with the rate, the day before a 30/360 bond matures on a 31st or a 29 February. Zero-coupon bonds raise ZeroDivisionError (proved)."
  },
  {
   "property": "C38",
   "status": "proved",
   "theorems": [
    "Verif.Props.C38_amortization",
    "Verif.Props.C38_payment_dates",
    "Verif.Props.C38_paid_off"
   ],
   "note": "Amortization invariants for every schedule produced by generate_payment_schedule (any frequency, day count, extra payments); payment dates characterised; after payoff all payments zero for nonnegative rate/extra."
  },
  {
   "property": "C39",
   "status": "proved",
   "theorems": [
    "Verif.Props.C39_amortizes",
    "Verif.Props.C39_zero_rate"
   ],
   "note": "Equal accruals 1/f arise exactly for 30/360 with START_OF_MONTH; exact arithmetic. Rate zero raises ZeroDivisionError (C39_zero_rate)."
  },
  {
   "property": "C40",
   "status": "partial",
   "theorems": [
    "Verif.Props.C40_month_dates_partial",
    "Verif.Props.C40_never_31st",
    "Verif.Props.C40_rejected"
   ],
   "note": "START_OF_MONTH dates are firsts of month; END_OF_MONTH is wrong: never later than the 30th, February rejected, FIXED_DATE rejected (negations proved)."
  },
  {
   "property": "C41",
   "status": "proved",
   "theorems": [
    "Verif.Props.C41_antisymmetric",
    "Verif.Props.C41_history"
   ],
   "note": "Antisymmetry and the value after any history of leg generations; ValueError unless both legs are stored."
  },
  {
   "property": "C42",
   "status": "partial",
   "theorems": [
    "Verif.Props.C42_implied_rate_value",
    "Verif.Props.C42_fair_partial",
    "Verif.Props.C42_unique",
    "Verif.Props.C42_seasoned_not_fair"
   ],
   "note": "Proved when no fixed payment precedes the curve reference date (value formula, fairness, uniqueness); false for seasoned swaps (negation proved)."
  },
  {
   "property": "C43",
   "status": "proved",
   "theorems": [
    "Verif.Props.C43_compounding",
    "Verif.Props.C43_raises",
    "Verif.Props.C43_at_least_average"
   ],
   "note": ""
  },
  {
   "property": "C44",
   "status": "partial",
   "theorems": [
    "Verif.Props.C44_at_grid",
    "Verif.Props.C44_raises",
    "Verif.Props.C44_between_values",
    "Verif.Props.C44_between_partial",
    "Verif.Props.C44_not_linear",
    "Verif.Props.C44_thirty360_raises"
   ],
   "note": "Grid-point exactness, range errors and (all conventions but 30/360) lying strictly between the neighbours proved; between grid points the weights are swapped, so linear interpolation holds iff midpoint or equal neighbours (C44_not_linear); 30/360 can divide by zero."
  },
  {
   "property": "C45",
   "status": "proved",
   "theorems": [
    "Verif.Props.C45_gridded",
    "Verif.Props.C45_brownian",
    "Verif.Props.C45_euler",
    "Verif.Props.C45_succeeds"
   ],
   "note": ""
  },
  {
   "property": "C46",
   "status": "partial",
   "theorems": [
    "Verif.Props.C46_trapezoid",
    "Verif.Props.C46_computed",
    "Verif.Props.C46_first_step_partial",
    "Verif.Props.C46_excess",
    "Verif.Props.C46_false",
    "Verif.Props.C46_default_stops_early"
   ],
   "note": "Each step is a correct trapezoid and the first step is right; later entries use cumulative accruals (C46_excess, C46_false)."
  },
  {
   "property": "C47",
   "status": "partial",
   "theorems": [
    "Verif.Props.C47_price",
    "Verif.Props.C47_pricing_equation",
    "Verif.Props.C47_moments",
    "Verif.Props.C47_average",
    "Verif.Props.C47_yield_convexity",
    "Verif.Props.C47_volatilities",
    "Verif.Props.C47_simulated",
    "Verif.Props.C47_later_purchase",
    "Verif.Props.C47_price_convexities",
    "Verif.Props.C47_price_convexities_rejects",
    "Verif.Props.C47_forward_needs_path",
    "Verif.Props.C47_constructor",
    "Verif.Props.C47_later_purchase_false"
   ],
   "note": "Purchase at the start: price = expectation of exp(-integral), pricing PDE, yield, forward, convexity, volatilities; moments, average and forward rate for every purchase date; simulated dynamics. C47_later_purchase(_false): price and yield ignore the purchase date in the time to maturity."
  },
  {
   "property": "C48",
   "status": "partial",
   "theorems": [
    "Verif.Props.C48_never_contains",
    "Verif.Props.C48_correct_iff_partial",
    "Verif.Props.C48_columns"
   ],
   "note": "Correct exactly for risks that are not stored; __contains__ returns None, so stored risks are reported missing (C48_never_contains). Iteration and columns proved."
  },
  {
   "property": "C49",
   "status": "proved",
   "theorems": [
    "Verif.Props.C49_key_rates",
    "Verif.Props.C49_risk_ladder",
    "Verif.Props.C49_portfolio"
   ],
   "note": ""
  },
  {
   "property": "C50",
   "status": "proved",
   "theorems": [
    "Verif.Props.C50_variance_gradient",
    "Verif.Props.C50_utility_gradient",
    "Verif.Props.C50_convex",
    "Verif.Props.C50_stationary_is_minimal",
    "Verif.Props.C50_expected_utility",
    "Verif.Props.C50_utility_order",
    "Verif.Props.C50_bounds",
    "Verif.Props.C50_starting_weights"
   ],
   "note": "scipy.optimize.minimize itself is not modelled."
  },
  {
   "property": "C51",
   "status": "partial",
   "theorems": [
    "Verif.Props.C51_disjoint_unchanged_partial",
    "Verif.Props.C51_slice_breaks_collection"
   ],
   "note": "Proved for disjoint collections; the interference through shared key rates is proved."
  },
  {
   "property": "C52",
   "status": "partial",
   "theorems": [
    "Verif.Props.C52_setitem_partial",
    "Verif.Props.C52_delitem"
   ],
   "note": "Deletion and inner assignment proved; assignment to either end always fails (part of the iff)."
  },
  {
   "property": "C53",
   "status": "partial",
   "theorems": [
    "Verif.Props.C53_schedule",
    "Verif.Props.C53_coverage_partial",
    "Verif.Props.C53_month_end_loses_period",
    "Verif.Props.C53_stub_dropped"
   ],
   "note": "Contiguity, adjustment and day counts proved for every swap; full coverage proved for start days up to the 28th and tenors a multiple of the period; month-end starts lose a period and stubs are dropped (negations proved)."
  },
  {
   "property": "C54",
   "status": "proved",
   "theorems": [
    "Verif.Props.C54_overnight_payment",
    "Verif.Props.C54_floating_leg_par"
   ],
   "note": ""
  },
  {
   "property": "C55",
   "status": "proved",
   "theorems": [
    "Verif.Props.C55_grid",
    "Verif.Props.C55_wrong_order"
   ],
   "note": ""
  },
  {
   "property": "C56",
   "status": "proved",
   "theorems": [
    "Verif.Props.C56_increments",
    "Verif.Props.C56_path"
   ],
   "note": "Draws modelled as independent N(0,1) random variables over a probability space; the Cholesky factor is assumed to satisfy L Lᵀ = correlation."
  },
  {
   "property": "C57",
   "status": "partial",
   "theorems": [
    "Verif.Props.C57_fresh",
    "Verif.Props.C57_stale",
    "Verif.Props.C57_unset",
    "Verif.Props.C57_accrual_fresh",
    "Verif.Props.C57_set_dt_ignored",
    "Verif.Props.C57_set_dt_resets"
   ],
   "note": "Proved for fresh models; false after regeneration (C57_stale), for set_path=False, set_dt and accrual_curve."
  },
  {
   "property": "C58",
   "status": "partial",
   "theorems": [
    "Verif.Props.C58_read_back",
    "Verif.Props.C58_read_back_brownian",
    "Verif.Props.C58_same_step",
    "Verif.Props.C58_other_step_fails",
    "Verif.Props.C58_set_dt"
   ],
   "note": "Proved for own reads and same-step sharing; false for a finer step (C58_other_step_fails)."
  },
  {
   "property": "C59",
   "status": "proved",
   "theorems": [
    "Verif.Props.C59_product",
    "Verif.Props.C59_sign"
   ],
   "note": ""
  },
  {
   "property": "C60",
   "status": "proved",
   "theorems": [
    "Verif.Props.C60_raises_iff",
    "Verif.Props.C60_key_rates",
    "Verif.Props.C60_parallel_shift"
   ],
   "note": "Parallel shift for the conventions other than 30/360, as in C24."
  },
  {
   "property": "C61",
   "status": "proved",
   "theorems": [
    "Verif.Props.C61_default_targets",
    "Verif.Props.C61_feasible",
    "Verif.Props.C61_spacing"
   ],
   "note": "scipy.optimize.minimize itself is not modelled; np.arange over exact reals."
  },
  {
   "property": "C62",
   "status": "proved",
   "theorems": [
    "Verif.Props.C62_settles",
    "Verif.Props.C62_fixed_leg",
    "Verif.Props.C62_term_leg",
    "Verif.Props.C62_overnight_leg"
   ],
   "note": "SettlesOn and BusinessDaysAfter in Spec/Settlement.lean are independent of the schedulers."
  },
  {
   "property": "C63",
   "status": "proved",
   "theorems": [
    "Verif.Props.C63_price",
    "Verif.Props.C63_pricing_equation"
   ],
   "note": "For diagonalizable reversion matrices with real eigenvalues whose pairwise sums are not zero; spec by linear ODEs for the mean and response (Spec/MultiVasicek.lean)."
  },
  {
   "property": "C64",
   "status": "partial",
   "theorems": [
    "Verif.Props.C64_forward_false",
    "Verif.Props.C64_forward",
    "Verif.Props.C64_forward_partial",
    "Verif.Props.C64_forward_covariance_partial",
    "Verif.Props.C64_forward_refused"
   ],
   "note": "Symmetric reversion matrices proved; C64_forward gives the exact error otherwise; C64_forward_false refutes it for every doubly mean-reverting model."
  },
  {
   "property": "C65",
   "status": "partial",
   "theorems": [
    "Verif.Props.C65_covariance_false",
    "Verif.Props.C65_mean",
    "Verif.Props.C65_average",
    "Verif.Props.C65_average_refused",
    "Verif.Props.C65_covariance_partial",
    "Verif.Props.C65_covariance_rotated",
    "Verif.Props.C65_covariance_one_factor"
   ],
   "note": "Means and averages proved; covariance for diagonal reversion (and one factor); C65_covariance_rotated says exactly what is reported for orthogonal eigenvectors (G^T V G, with the right trace, right iff V commutes with G); C65_covariance_false refutes it for doubly mean-reverting models with uncorrelated shocks."
  },
  {
   "property": "C66",
   "status": "proved",
   "theorems": [
    "Verif.Props.C66_yield",
    "Verif.Props.C66_yield_convexity",
    "Verif.Props.C66_refused",
    "Verif.Props.C66_covariance",
    "Verif.Props.C66_covariance_psd",
    "Verif.Props.C66_price_convexities"
   ],
   "note": ""
  },
  {
   "property": "C67",
   "status": "proved",
   "theorems": [
    "Verif.Props.C67_weights",
    "Verif.Props.C67_succeeds",
    "Verif.Props.C67_no_arbitrage"
   ],
   "note": "Uniqueness of weights, success condition, and no-arbitrage growth."
  },
  {
   "property": "C68",
   "status": "proved",
   "theorems": [
    "Verif.Props.C68_doubly_constructor",
    "Verif.Props.C68_doubly_paths",
    "Verif.Props.C68_doubly_mean",
    "Verif.Props.C68_doubly_price",
    "Verif.Props.C68_equal_speeds"
   ],
   "note": "Prices and means for different speeds; C68_equal_speeds shows the decomposition cannot exist otherwise."
  },
  {
   "property": "C69",
   "status": "partial",
   "theorems": [
    "Verif.Props.C69_trebly_paths_partial",
    "Verif.Props.C69_risk_price_paths_partial",
    "Verif.Props.C69_trebly_price_partial",
    "Verif.Props.C69_risk_price_partial",
    "Verif.Props.C69_diagonalizable_iff",
    "Verif.Props.C69_speeds_differ"
   ],
   "note": "For the constructor bodies: paths, bond prices and expected rates for every purchase date when the three speeds differ (C69_trebly_price_partial, C69_risk_price_partial), which is exactly when the reversion matrix the closed forms diagonalize is diagonalizable (C69_diagonalizable_iff). Missing because false of the code: the classes are abstract (instantiation is a TypeError, C102_abstract_classes), and equal speeds have no eigenbasis."
  },
  {
   "property": "C70",
   "status": "partial",
   "theorems": [
    "Verif.Props.C70_from_dict",
    "Verif.Props.C70_refused",
    "Verif.Props.C70_round_trip",
    "Verif.Props.C70_state_variables_false"
   ],
   "note": "Parameters, dates, starting state and round trip of the parameters proved; state variables refuted (C70_state_variables_false)."
  },
  {
   "property": "C71",
   "status": "partial",
   "theorems": [
    "Verif.Props.C71_doubly_setters_partial",
    "Verif.Props.C71_doubly_setters_false",
    "Verif.Props.C71_vasicek_setters_partial",
    "Verif.Props.C71_vasicek_own_dictionary",
    "Verif.Props.C71_vasicek_state_false",
    "Verif.Props.C71_vasicek_prices_false"
   ],
   "note": "Attributes proved; C71_*_false refute the rest."
  },
  {
   "property": "C72",
   "status": "partial",
   "theorems": [
    "Verif.Props.C72_imported_false",
    "Verif.Props.C72_last_evaluated_partial",
    "Verif.Props.C72_losses",
    "Verif.Props.C72_one_factor_false",
    "Verif.Props.C72_first_point_false"
   ],
   "note": "Dates, and that the parameters are the last evaluated; C72_*_false refute the rest. The minimizer is any list of evaluated points."
  },
  {
   "property": "C73",
   "status": "partial",
   "theorems": [
    "Verif.Props.C73_reprices_partial",
    "Verif.Props.C73_curve",
    "Verif.Props.C73_fixed",
    "Verif.Props.C73_bond_knot",
    "Verif.Props.C73_builds",
    "Verif.Props.C73_unsorted_false"
   ],
   "note": "C73_reprices_partial: exact error of every instrument on the final curve, for instruments in increasing knot order; C73_fixed: bonds and zero-coupon payments qualify; C73_builds: the bootstrap succeeds. False otherwise: C73_unsorted_false (the function searched is constant), C73_curve (the curve holds the last evaluated points, at the i-th earliest knot for the i-th instrument; the solver result is not used)."
  },
  {
   "property": "C74",
   "status": "proved",
   "theorems": [
    "Verif.Props.C74_solution",
    "Verif.Props.C74_reprices",
    "Verif.Props.C74_builds"
   ],
   "note": "For every order of instruments, evaluated points and solution."
  },
  {
   "property": "C75",
   "status": "partial",
   "theorems": [
    "Verif.Props.C75_knots_partial",
    "Verif.Props.C75_prices_false",
    "Verif.Props.C75_present_value_raises"
   ],
   "note": "The curve interpolates the knot values (C75_knots_partial); false as stated: for bonds these are prices (C75_prices_false), and present values are a TypeError (C75_present_value_raises)."
  },
  {
   "property": "C76",
   "status": "proved",
   "theorems": [
    "Verif.Props.C76_default_times",
    "Verif.Props.C76_before_maturity",
    "Verif.Props.C76_diverges",
    "Verif.Props.C76_survival_probability",
    "Verif.Props.C76_default_probability",
    "Verif.Props.C76_constant_hazard"
   ],
   "note": "Exact arithmetic; the random generator is an arbitrary sequence of draws (for the probabilities: independent uniforms). The interval before maturity is never tested. For dt <= 0 the simulation can run forever (C76_diverges)."
  },
  {
   "property": "C77",
   "status": "proved",
   "theorems": [
    "Verif.Props.C77_getitem",
    "Verif.Props.C77_slice",
    "Verif.Props.C77_slice_any",
    "Verif.Props.C77_slice_back",
    "Verif.Props.C77_reverse",
    "Verif.Props.C77_split",
    "Verif.Props.C77_rebuild"
   ],
   "note": "All slices of Python semantics."
  },
  {
   "property": "C78",
   "status": "partial",
   "theorems": [
    "Verif.Props.C78_iteration_raises",
    "Verif.Props.C78_sizes_partial",
    "Verif.Props.C78_equality_raises",
    "Verif.Props.C78_order_raises",
    "Verif.Props.C78_membership_raises",
    "Verif.Props.C78_membership_partial"
   ],
   "note": "False of the code: __iter__ returns dict items (not an iterator), so iteration raises TypeError, as do == and membership whenever two instruments have equally many cashflows (C78_iteration_raises, C78_equality_raises, C78_membership_raises). Proved part: collections of different sizes compare by size."
  },
  {
   "property": "C79",
   "status": "partial",
   "theorems": [
    "Verif.Props.C79_no_gaps_partial",
    "Verif.Props.C79_same_month",
    "Verif.Props.C79_stub_uncharged",
    "Verif.Props.C79_before_origination",
    "Verif.Props.C79_present_value_raises"
   ],
   "note": "False of the code: interest runs from the adjusted start date; the origination day has no influence (C79_same_month), the stub is not charged with START_OF_MONTH (C79_stub_uncharged), with END_OF_MONTH a loan of the 31st accrues from the 30th (C79_before_origination); present_value raises TypeError. Proved part: later periods have no gap and no overlap."
  },
  {
   "property": "C80",
   "status": "proved",
   "theorems": [
    "Verif.Props.C80_lookup",
    "Verif.Props.C80_reversed",
    "Verif.Props.C80_index",
    "Verif.Props.C80_pop",
    "Verif.Props.C80_remove",
    "Verif.Props.C80_slice",
    "Verif.Props.C80_slice_positive",
    "Verif.Props.C80_delete_slice"
   ],
   "note": "Collections whose key rates are in date order (as every constructor leaves them)."
  },
  {
   "property": "C81",
   "status": "partial",
   "theorems": [
    "Verif.Props.C81_trivial_partial",
    "Verif.Props.C81_growth_raises",
    "Verif.Props.C81_reverse_raises",
    "Verif.Props.C81_clear_raises",
    "Verif.Props.C81_clear_empty",
    "Verif.Props.C81_slice_assignment_raises",
    "Verif.Props.C81_slice_assignment_breaks"
   ],
   "note": "False of the code: append, insert and extend always raise TypeError (C81_growth_raises), reverse raises TypeError for two or more key rates (C81_reverse_raises), clear empties the collection and raises ValueError (C81_clear_raises). Assigning to a slice raises AttributeError and leaves neighbours wrong (C81_slice_assignment_raises, C81_slice_assignment_breaks). Proved part: the trivial cases."
  },
  {
   "property": "C82",
   "status": "partial",
   "theorems": [
    "Verif.Props.C82_derivative",
    "Verif.Props.C82_duration_partial",
    "Verif.Props.C82_principal_false",
    "Verif.Props.C82_convexity_raises",
    "Verif.Props.C82_macaulay"
   ],
   "note": "False of the code: duration is too large by the factor principal/100 (C82_principal_false), convexity always raises AttributeError (C82_convexity_raises). Proved: the derivative claim (exact sensitivity at a rate within half a basis point), duration for principal 100, the Macaulay claims when settling on the next business day."
  },
  {
   "property": "C83",
   "status": "partial",
   "theorems": [
    "Verif.Props.C83_is_business_day",
    "Verif.Props.C83_is_business_day_false",
    "Verif.Props.C83_add_iff",
    "Verif.Props.C83_subtract_iff",
    "Verif.Props.C83_modified",
    "Verif.Props.C83_agree_partial",
    "Verif.Props.C83_never_later",
    "Verif.Props.C83_following_false",
    "Verif.Props.C83_generate",
    "Verif.Props.C83_settlement",
    "Verif.Props.C83_mixed_raises"
   ],
   "note": "False of the code: a datetime never equals a holiday date, so holidays are ignored (C83_is_business_day_false, C83_following_false), and a datetime start with a date end raises (C83_mixed_raises). The exact behaviour is proved (C83_is_business_day, _add_iff, _subtract_iff, _modified, _generate); the intended claim holds when no weekday holiday is on the way (C83_agree_partial)."
  },
  {
   "property": "C84",
   "status": "proved",
   "theorems": [
    "Verif.Props.C84_problem",
    "Verif.Props.C84_variational",
    "Verif.Props.C84_kuhn_tucker",
    "Verif.Props.C84_exists",
    "Verif.Props.C84_unique",
    "Verif.Props.C84_short",
    "Verif.Props.C84_frontier",
    "Verif.Props.C84_frontier_convex",
    "Verif.Props.C84_sharpe",
    "Verif.Props.C84_short_stationary",
    "Verif.Props.C84_two_fund",
    "Verif.Props.C84_short_parabola"
   ],
   "note": "The solver (scipy SLSQP) is not modelled: its result is assumed to solve the problem it was given where a theorem speaks of the solver's output."
  },
  {
   "property": "C85",
   "status": "proved",
   "theorems": [
    "Verif.Props.C85_problem",
    "Verif.Props.C85_variational",
    "Verif.Props.C85_exists",
    "Verif.Props.C85_efficient",
    "Verif.Props.C85_risk_aversion"
   ],
   "note": "As for C84, the solver is not modelled."
  },
  {
   "property": "C86",
   "status": "proved",
   "theorems": [
    "Verif.Props.C86_moments",
    "Verif.Props.C86_growth"
   ],
   "note": "Exact arithmetic, draws are independent standard normals; 30/360 (steps can be negative) is excluded."
  },
  {
   "property": "C87",
   "status": "proved",
   "theorems": [
    "Verif.Props.C87_moments",
    "Verif.Props.C87_closed_forms"
   ],
   "note": "Exact arithmetic; draws are independent standard normals. The first theorem covers every convention but 30/360; the comparison with the closed forms needs elapsed time to be additive, so ACT/360, ACT/365, ACT/365.25."
  },
  {
   "property": "C88",
   "status": "proved",
   "theorems": [
    "Verif.Props.C88_diagonal_yield",
    "Verif.Props.C88_diagonal_discount",
    "Verif.Props.C88_hedge",
    "Verif.Props.C88_zero_coupon_hedge"
   ],
   "note": "np.linalg.solve enters by its contract (a solution of the system). Instruments paying on one key-rate date each (zero-coupon bonds)."
  },
  {
   "property": "C89",
   "status": "partial",
   "theorems": [
    "Verif.Props.C89_settlement_raises",
    "Verif.Props.C89_methods_missing",
    "Verif.Props.C89_average_partial",
    "Verif.Props.C89_too_short"
   ],
   "note": "False of the code: date() without arguments raises TypeError for every future (C89_settlement_raises); value, knot and last trading date do not exist (C89_methods_missing). What the rest of the method would compute is proved in C89_average_partial, C89_too_short."
  },
  {
   "property": "C90",
   "status": "proved",
   "theorems": [
    "Verif.Props.C90_bounds",
    "Verif.Props.C90_decreasing",
    "Verif.Props.C90_increasing",
    "Verif.Props.C90_weights",
    "Verif.Props.C90_replication",
    "Verif.Props.C90_strictly_decreasing",
    "Verif.Props.C90_no_arbitrage"
   ],
   "note": "30/360 is excluded because its day difference is not additive. Spline interpolations do not keep the shape and are outside the claim."
  },
  {
   "property": "C91",
   "status": "partial",
   "theorems": [
    "Verif.Props.C91_bounds",
    "Verif.Props.C91_decreasing_iff",
    "Verif.Props.C91_rising_yields_partial",
    "Verif.Props.C91_falling_yields_false"
   ],
   "note": "False of the code for falling yields: C91_falling_yields_false exhibits knots with decreasing discount factors between which linear interpolation of the yields makes discount factors rise (negative forward rates). Bounds hold (C91_bounds); the exact condition is C91_decreasing_iff; rising yields are fine (C91_rising_yields_partial)."
  },
  {
   "property": "C92",
   "status": "proved",
   "theorems": [
    "Verif.Props.C92_price",
    "Verif.Props.C92_coupon",
    "Verif.Props.C92_sign"
   ],
   "note": "The solver enters as any root of the yield equation above minus the frequency; the initial guess and the convergence of scipy's secant iteration are not modelled."
  },
  {
   "property": "C93",
   "status": "partial",
   "theorems": [
    "Verif.Props.C93_order_partial",
    "Verif.Props.C93_trichotomy_false",
    "Verif.Props.C93_truthy",
    "Verif.Props.C93_combine_partial",
    "Verif.Props.C93_combine_false",
    "Verif.Props.C93_add_partial",
    "Verif.Props.C93_add_last_raises",
    "Verif.Props.C93_add_duplicate_raises"
   ],
   "note": "False of the code: key rates of one date and different conventions are neither <, == nor > (C93_trichotomy_false); a failed union returns self with moved dates (C93_combine_false); _add_key_rate raises IndexError for dates on or after the last key date and ValueError, leaving a corrupted receiver, for existing dates (C93_add_last_raises, C93_add_duplicate_raises). The remaining cases are proved."
  },
  {
   "property": "C94",
   "status": "partial",
   "theorems": [
    "Verif.Props.C94_schedule_partial",
    "Verif.Props.C94_methods_raise",
    "Verif.Props.C94_treasury_future_raises"
   ],
   "note": "False of the code: the constructor stores only price and call schedule, so every inherited method except price raises AttributeError (C94_methods_raise). The ordering of the call schedule is proved."
  },
  {
   "property": "C95",
   "status": "proved",
   "theorems": [
    "Verif.Props.C95_accrual",
    "Verif.Props.C95_hat",
    "Verif.Props.C95_parallel",
    "Verif.Props.C95_present_value",
    "Verif.Props.C95_knots",
    "Verif.Props.C95_step",
    "Verif.Props.C95_linear",
    "Verif.Props.C95_exact",
    "Verif.Props.C95_compensated_sum",
    "Verif.Props.C95_parallel_compensated",
    "Verif.Props.C95_compensated_exact"
   ],
   "note": "Rounding to nearest with 53 bits satisfies the assumptions (rounding_nearest53); overflow is not modelled; transcendental functions are not covered. C95_parallel_compensated covers the compensated sum of CPython 3.12 and later."
  },
  {
   "property": "C96",
   "status": "proved",
   "theorems": [
    "Verif.Props.C96_constructor",
    "Verif.Props.C96_add_days",
    "Verif.Props.C96_next_day",
    "Verif.Props.C96_weekday",
    "Verif.Props.C96_order",
    "Verif.Props.C96_add_months"
   ],
   "note": "The date substrate of the model, proved equal to an independent description of the Gregorian calendar (Spec/Gregorian)."
  },
  {
   "property": "C97",
   "status": "partial",
   "theorems": [
    "Verif.Props.C97_history",
    "Verif.Props.C97_reset_values",
    "Verif.Props.C97_reset_twice",
    "Verif.Props.C97_reset_value_partial",
    "Verif.Props.C97_replace_value",
    "Verif.Props.C97_reset_value_false",
    "Verif.Props.C97_failed_reset_false"
   ],
   "note": "False of the code for a single replacement whose date is out of order (C97_reset_value_false: the curve raises at the date just set) and for resets that raise (C97_failed_reset_false: the old values are gone). Proved otherwise, for single calls and for any history of calls that keep the knots in order, including calls at impossible positions (C97_history)."
  },
  {
   "property": "C98",
   "status": "proved",
   "theorems": [
    "Verif.Props.C98_paths",
    "Verif.Props.C98_same_model",
    "Verif.Props.C98_same_bonds"
   ],
   "note": "A refinement between the two models; MultivariateVasicekModel itself is abstract at this commit, so the multivariate side is its constructor's body as a concrete subclass runs it."
  },
  {
   "property": "C99",
   "status": "proved",
   "theorems": [
    "Verif.Props.C99_doubly",
    "Verif.Props.C99_trebly",
    "Verif.Props.C99_risk_price"
   ],
   "note": "The three-factor classes are abstract at this commit; their constructors' bodies are meant, as a concrete subclass runs them."
  },
  {
   "property": "C100",
   "status": "proved",
   "theorems": [
    "Verif.Props.C100_amortization",
    "Verif.Props.C100_paid_off",
    "Verif.Props.C100_exact",
    "Verif.Props.C100_close",
    "Verif.Props.C100_principal_repaid"
   ],
   "note": "Overflow is not modelled; underflow is bounded through the smallest normal number. The amount computed by calculate_fixed_payment_amount (a power) is not rounded: the amount is any representable number."
  },
  {
   "property": "C101",
   "status": "proved",
   "theorems": [
    "Verif.Props.C101_moments",
    "Verif.Props.C101_closed_forms"
   ],
   "note": "numpy's eigendecomposition and normal draws are parameters (a correct diagonalization; independent standard normals). The simulated covariance is compared with the equation's solution, not with state_variable_covariance/short_rate_variance, which the code gets wrong when eigenvectors are not orthonormal (C65_covariance_false)."
  },
  {
   "property": "C102",
   "status": "proved",
   "theorems": [
    "Verif.Props.C102_key_rate_index",
    "Verif.Props.C102_loan_frequency",
    "Verif.Props.C102_starting_values",
    "Verif.Props.C102_doubly_setters",
    "Verif.Props.C102_abstract_classes",
    "Verif.Props.C102_bond_tenor",
    "Verif.Props.C102_bond_before_dated",
    "Verif.Props.C102_bond_no_period",
    "Verif.Props.C102_bond_no_principal",
    "Verif.Props.C102_bond_zero_division",
    "Verif.Props.C102_no_path",
    "Verif.Props.C102_vasicek_zero_speed",
    "Verif.Props.C102_vasicek_speed_set_to_zero",
    "Verif.Props.C102_vasicek_yield_at_start",
    "Verif.Props.C102_curve_reset_index",
    "Verif.Props.C102_curve_no_knots",
    "Verif.Props.C102_curve_stale_grid",
    "Verif.Props.C102_key_rate_replace",
    "Verif.Props.C102_loan_arguments",
    "Verif.Props.C102_swap_arguments",
    "Verif.Props.C102_swap_legs",
    "Verif.Props.C102_schedule_arguments",
    "Verif.Props.C102_vasicek_setters"
   ],
   "note": "Each theorem names the exception and, where there is state, the state afterwards. Error messages are not modelled, only the exception class."
  },
  {
   "property": "C103",
   "status": "proved",
   "theorems": [
    "Verif.Props.C103_fixed_times",
    "Verif.Props.C103_daily_times",
    "Verif.Props.C103_discount_curve",
    "Verif.Props.C103_order_independent",
    "Verif.Props.C103_accrual_curve",
    "Verif.Props.C103_inverse",
    "Verif.Props.C103_present_value",
    "Verif.Props.C103_late_payment",
    "Verif.Props.C103_date_cashflow",
    "Verif.Props.C103_linear",
    "Verif.Props.C103_default_times"
   ],
   "note": "Datetime knots, LINEAR interpolation and ERROR ends, as the short-rate model builds them. The integral itself is the code's (C46 shows it is not the trapezoidal one)."
  },
  {
   "property": "C104",
   "status": "partial",
   "theorems": [
    "Verif.Props.C104_value",
    "Verif.Props.C104_equal_years",
    "Verif.Props.C104_error",
    "Verif.Props.C104_laws_partial",
    "Verif.Props.C104_leap_start",
    "Verif.Props.C104_same_time",
    "Verif.Props.C104_not_monotone",
    "Verif.Props.C104_not_additive"
   ],
   "note": "Exact formula for all datetimes; additivity and monotonicity proved for equal times of day and for years of equal length (monotonicity also from a leap-year start), and refuted in general."
  },
  {
   "property": "C105",
   "status": "proved",
   "theorems": [
    "Verif.Props.C105_recurrence",
    "Verif.Props.C105_faster_is_cheaper",
    "Verif.Props.C105_extra_payment_saves"
   ],
   "note": "Nonnegative rates, instalments and extra payments (with negative ones the code reopens a paid-off loan)."
  },
  {
   "property": "C106",
   "status": "proved",
   "theorems": [
    "Verif.Props.C106_value",
    "Verif.Props.C106_monotone",
    "Verif.Props.C106_scaling",
    "Verif.Props.C106_rate_difference"
   ],
   "note": "Exact arithmetic; any curve and floating-rate function, which may raise."
  },
  {
   "property": "C107",
   "status": "proved",
   "theorems": [
    "Verif.Props.C107_affine",
    "Verif.Props.C107_ladder_total",
    "Verif.Props.C107_monotone"
   ],
   "note": "LINEAR and PREVIOUS interpolation, payments between the first and the last knot, key rates not under 30/360 (C24 shows why)."
  },
  {
   "property": "C108",
   "status": "proved",
   "theorems": [
    "Verif.Props.C108_compose",
    "Verif.Props.C108_inverse",
    "Verif.Props.C108_order_of_shifts",
    "Verif.Props.C108_monotone",
    "Verif.Props.C108_settlement_monotone",
    "Verif.Props.C108_modified_idempotent",
    "Verif.Props.C108_modified_monotone",
    "Verif.Props.C108_modified_monotone_us"
   ],
   "note": "Every calendar and integer; the order of modified-following dates in full for US federal holidays, and for arbitrary calendars provided the next business day of a date is not in the same month of a later year."
  },
  {
   "property": "C109",
   "status": "proved",
   "theorems": [
    "Verif.Props.C109_fixed_order",
    "Verif.Props.C109_act_act_range",
    "Verif.Props.C109_thirty360_near",
    "Verif.Props.C109_thirty360_range"
   ],
   "note": "Dates from year 2 on for ACT/ACT (the code subtracts a year)."
  },
  {
   "property": "C110",
   "status": "proved",
   "theorems": [
    "Verif.Props.C110_constructor",
    "Verif.Props.C110_perfect_correlation",
    "Verif.Props.C110_default",
    "Verif.Props.C110_lower_triangle",
    "Verif.Props.C110_dimension_unchecked",
    "Verif.Props.C110_simulated"
   ],
   "note": "numpy's Cholesky modelled as the exact factor of the lower triangle when it exists, LinAlgError otherwise."
  },
  {
   "property": "C111",
   "status": "proved",
   "theorems": [
    "Verif.Props.C111_opposite",
    "Verif.Props.C111_fixed_leg",
    "Verif.Props.C111_term_leg",
    "Verif.Props.C111_swap_value",
    "Verif.Props.C111_par",
    "Verif.Props.C111_overnight",
    "Verif.Props.C111_accrued",
    "Verif.Props.C111_exact"
   ],
   "note": "Any rounding satisfying Spec/Rounded (53-bit round-to-nearest does); rates, discount factors and coupons zero or not minute (no underflow); no overflow; CPython's plain left-to-right sum. Discount factors and floating rates are taken as the floats the curve returns."
  },
  {
   "property": "C112",
   "status": "proved",
   "theorems": [
    "Verif.Props.C112_listable_iff",
    "Verif.Props.C112_us_listable",
    "Verif.Props.C112_split",
    "Verif.Props.C112_shift_lower",
    "Verif.Props.C112_shift_upper",
    "Verif.Props.C112_settlement_window",
    "Verif.Props.C112_weeks",
    "Verif.Props.C112_year"
   ],
   "note": "Dates (datetimes ignore the holidays, C83)."
  },
  {
   "property": "C113",
   "status": "proved",
   "theorems": [
    "Verif.Props.C113_long_yield",
    "Verif.Props.C113_long_forward",
    "Verif.Props.C113_shape",
    "Verif.Props.C113_bounds",
    "Verif.Props.C113_mean_reversion",
    "Verif.Props.C113_volatility"
   ],
   "note": "Exact real arithmetic; yields use the time from the start of the Brownian motion, as the code does (C47_later_purchase_false); positive reversion speed."
  },
  {
   "property": "C114",
   "status": "proved",
   "theorems": [
    "Verif.Props.C114_history",
    "Verif.Props.C114_parallel_shift"
   ],
   "note": "Sharing one key rate object between two collections is excluded by hypothesis (two collections rewire the same object's neighbours); += that raises is excluded (the code appends before raising, C51)."
  },
  {
   "property": "C115",
   "status": "proved",
   "theorems": [
    "Verif.Props.C115_premium_discount",
    "Verif.Props.C115_par",
    "Verif.Props.C115_yield",
    "Verif.Props.C115_thirty360"
   ],
   "note": "Exact real arithmetic; the day-count error eps is a hypothesis of C115_premium_discount, zero in C115_par and C115_yield; C115_thirty360 derives it for 30/360 bonds from their schedules."
  },
  {
   "property": "C116",
   "status": "proved",
   "theorems": [
    "Verif.Props.C116_draws_never_fail",
    "Verif.Props.C116_adapted",
    "Verif.Props.C116_superposition",
    "Verif.Props.C116_no_noise",
    "Verif.Props.C116_geometric_start",
    "Verif.Props.C116_vasicek_start",
    "Verif.Props.C116_vasicek_compare"
   ],
   "note": "Exact real arithmetic; the draws of numpy's generator are an argument."
  },
  {
   "property": "C117",
   "status": "partial",
   "theorems": [
    "Verif.Props.C117_datetimes",
    "Verif.Props.C117_multi_datetimes",
    "Verif.Props.C117_time",
    "Verif.Props.C117_midnight_partial",
    "Verif.Props.C117_multi_midnight_partial",
    "Verif.Props.C117_act_act",
    "Verif.Props.C117_act_act_gap",
    "Verif.Props.C117_compare_raises",
    "Verif.Props.C117_multi_compare_raises",
    "Verif.Props.C117_purchase_raises",
    "Verif.Props.C117_multi_purchase_raises"
   ],
   "note": "Proved for plain maturity dates, conventions with a fixed year and the methods that do not compare dates (C117_midnight_partial, C117_multi_midnight_partial); datetimes in both positions are the methods of the other properties (C117_datetimes, C117_multi_datetimes). False of the code otherwise: methods that compare raise TypeError for a plain maturity (C117_compare_raises, C117_multi_compare_raises), a plain purchase date never gives a state-dependent value (C117_purchase_raises, C117_multi_purchase_raises), and under ACT/ACT a date and its midnight give different accruals (C117_act_act_gap). 30/360 with one datetime is not characterised here."
  },
  {
   "property": "C118",
   "status": "proved",
   "theorems": [
    "Verif.Props.C118_convex",
    "Verif.Props.C118_pv_deriv",
    "Verif.Props.C118_second_order"
   ],
   "note": "C118_convex (strict convexity, tangents, gains exceed losses, the exact second derivative is positive and falling), C118_second_order (sign of the error of the second-order estimate), C118_pv_deriv (the central difference is increasing and overstates, with an explicit bound)."
  },
  {
   "property": "C119",
   "status": "proved",
   "theorems": [
    "Verif.Props.C119_strips",
    "Verif.Props.C119_affine",
    "Verif.Props.C119_replication",
    "Verif.Props.C119_par_coupon",
    "Verif.Props.C119_curve_monotone"
   ],
   "note": "C119_strips (bond = portfolio of ZeroCoupon instruments, including whether a value exists), C119_affine, C119_replication, C119_par_coupon, C119_curve_monotone."
  },
  {
   "property": "C120",
   "status": "proved",
   "theorems": [
    "Verif.Props.C120_periods",
    "Verif.Props.C120_valued",
    "Verif.Props.C120_par",
    "Verif.Props.C120_factor_nonneg"
   ],
   "note": "C120_periods, C120_valued, C120_par (no scheduling hypothesis: the schedules are shown to exist), C120_factor_nonneg (any calendar). The range of years keeps every date inside datetime's years 1..9999."
  },
  {
   "property": "C121",
   "status": "proved",
   "theorems": [
    "Verif.Props.C121_schedule",
    "Verif.Props.C121_creatable",
    "Verif.Props.C121_away_from_coupons",
    "Verif.Props.C121_valued",
    "Verif.Props.C121_yield"
   ],
   "note": "C121_schedule, C121_creatable (iff), C121_away_from_coupons, C121_valued, C121_yield (under 30/360, bought on any day but a 30th or 28 February)."
  },
  {
   "property": "C122",
   "status": "proved",
   "theorems": [
    "Verif.Props.C122_schedule",
    "Verif.Props.C122_amount"
   ],
   "note": "C122_schedule (iff, count and dates), C122_amount (annuity equation, positivity, lower bound)."
  },
  {
   "property": "C123",
   "status": "proved",
   "theorems": [
    "Verif.Props.C123_discount_space",
    "Verif.Props.C123_yield_value",
    "Verif.Props.C123_yield_space",
    "Verif.Props.C123_yield_monotone"
   ],
   "note": "C123_discount_space, C123_yield_value, C123_yield_space, C123_yield_monotone; np.exp is any nondecreasing function (strictly increasing for the converse of the zero case)."
  },
  {
   "property": "C124",
   "status": "proved",
   "theorems": [
    "Verif.Props.C124_compounding",
    "Verif.Props.C124_floating",
    "Verif.Props.C124_us"
   ],
   "note": "C124_compounding, C124_floating (any calendar), C124_us (hypothesis-free on the US calendar)."
  },
  {
   "property": "C125",
   "status": "proved",
   "theorems": [
    "Verif.Props.C125_bounds",
    "Verif.Props.C125_flat",
    "Verif.Props.C125_par_formula",
    "Verif.Props.C125_us"
   ],
   "note": "C125_bounds, C125_flat, C125_par_formula, C125_us."
  },
  {
   "property": "C126",
   "status": "proved",
   "theorems": [
    "Verif.Props.C126_discount_factors",
    "Verif.Props.C126_cubic",
    "Verif.Props.C126_quadratic",
    "Verif.Props.C126_builds",
    "Verif.Props.C126_weights",
    "Verif.Props.C126_polynomials"
   ],
   "note": "C126_cubic, C126_quadratic, C126_builds, C126_weights, C126_polynomials, C126_discount_factors. scipy's own algorithm is trusted to compute the spline its documentation describes; the model solves the textbook linear systems and is proved to agree with the specification. Splines are also covered by C27_knots, C29_reprices, C29_yield_space, C74, C88, C97, C107_ladder_total, C123_yield_space."
  },
  {
   "property": "C127",
   "status": "partial",
   "theorems": [
    "Verif.Props.C127_shape_false",
    "Verif.Props.C127_yields_false",
    "Verif.Props.C127_key_rate_sign_false",
    "Verif.Props.C127_zero_coupons_partial",
    "Verif.Props.C127_bootstrap_false"
   ],
   "note": "Holds for linear and previous interpolation (C73, C90, C91, C123) and for zero-coupon bonds with every method (C127_zero_coupons_partial); with a cubic spline all four parts fail: C127_shape_false, C127_yields_false, C127_key_rate_sign_false, C127_bootstrap_false."
  },
  {
   "property": "C128",
   "status": "proved",
   "theorems": [
    "Verif.Props.C128_value",
    "Verif.Props.C128_pv01",
    "Verif.Props.C128_exact",
    "Verif.Props.C128_double"
   ],
   "note": "C128_value, C128_pv01 for any rounding (Spec.Rounding) and float exponential (Spec.FloatExp); C128_double in double precision; C128_exact: with exact arithmetic these functions are the exact model's. Overflow is not modelled."
  },
  {
   "property": "C129",
   "status": "proved",
   "theorems": [
    "Verif.Props.C129_value",
    "Verif.Props.C129_pv01",
    "Verif.Props.C129_ladder",
    "Verif.Props.C129_exact",
    "Verif.Props.C129_double"
   ],
   "note": "C129_value, C129_pv01, C129_ladder for any rounding (Spec.Rounding); C129_double in double precision; C129_exact: with exact arithmetic these functions are the exact model's, errors included. Overflow is not modelled."
  },
  {
   "property": "C130",
   "status": "proved",
   "theorems": [
    "Verif.Props.C130_residual",
    "Verif.Props.C130_computable",
    "Verif.Props.C130_bracket",
    "Verif.Props.C130_newton"
   ],
   "note": "C130_residual, C130_computable, C130_bracket, C130_newton, for any reference date. The scipy root finder itself is not modelled: the rate is any real number above -f."
  },
  {
   "property": "C131",
   "status": "proved",
   "theorems": [
    "Verif.Props.C131_value",
    "Verif.Props.C131_yield",
    "Verif.Props.C131_constructs",
    "Verif.Props.C131_exact"
   ],
   "note": "C131_value, C131_yield, C131_constructs, C131_exact. The float power function is a parameter meeting Spec.PowerFn (relative error at most 4u where the power does not underflow); overflow is excluded by the bounds on rate and number of periods only in the sense of the rounding model, which has no largest number."
  },
  {
   "property": "C132",
   "status": "partial",
   "theorems": [
    "Verif.Props.C132_path",
    "Verif.Props.C132_mean",
    "Verif.Props.C132_stationary_partial",
    "Verif.Props.C132_stationary_false",
    "Verif.Props.C132_riskless_false"
   ],
   "note": "C132_stationary_partial up to the first step; false afterwards (C132_stationary_false, C132_riskless_false), because the integrated path weights each step with the time from the start (C46_false). C132_path and C132_mean give what the code computes for any starting rate."
  },
  {
   "property": "C133",
   "status": "proved",
   "theorems": [
    "Verif.Props.C133_factors",
    "Verif.Props.C133_brownian",
    "Verif.Props.C133_rates",
    "Verif.Props.C133_discounts"
   ],
   "note": "C133_brownian, C133_rates, C133_discounts (fixed-denominator conventions, as for C132), C133_factors (any invertible or non-invertible reversion, from C101); joint normality is Spec.JointlyNormal: every linear combination is normal with the stated mean and variance."
  },
  {
   "property": "C134",
   "status": "partial",
   "theorems": [
    "Verif.Props.C134_first_step_partial",
    "Verif.Props.C134_positive_partial",
    "Verif.Props.C134_false"
   ],
   "note": "C134_positive_partial bounds the probability of a non-positive value, C134_first_step_partial gives the law of the first step; positivity itself is false (C134_false)."
  },
  {
   "property": "C135",
   "status": "proved",
   "theorems": [
    "Verif.Props.C135_independent",
    "Verif.Props.C135_strong_law",
    "Verif.Props.C135_error",
    "Verif.Props.C135_survivors",
    "Verif.Props.C135_bias",
    "Verif.Props.C135_hazard_curve",
    "Verif.Props.C135_coarse_step"
   ],
   "note": "C135_independent, C135_strong_law, C135_error, C135_survivors, C135_bias, C135_hazard_curve, C135_coarse_step; numpy's uniform draws are assumed independent and uniform on [0,1] (UniformDraws)."
  },
  {
   "property": "C136",
   "status": "proved",
   "theorems": [
    "Verif.Props.C136_times",
    "Verif.Props.C136_count",
    "Verif.Props.C136_paths",
    "Verif.Props.C136_exact",
    "Verif.Props.C136_extra_test",
    "Verif.Props.C136_missing_test",
    "Verif.Props.C136_stalls"
   ],
   "note": "C136_paths (C136_count, C136_times for the times), C136_exact (agrees with C76's model without rounding), C136_extra_test, C136_missing_test, C136_stalls (why the number of steps must be bounded)."
  },
  {
   "property": "C137",
   "status": "partial",
   "theorems": [
    "Verif.Props.C137_error",
    "Verif.Props.C137_no_hump_partial",
    "Verif.Props.C137_short_end",
    "Verif.Props.C137_long_end_false"
   ],
   "note": "Holds without hump terms (C137_no_hump_partial) and at the short end (C137_short_end); false otherwise: C137_error gives the exact error, C137_long_end_false the limits."
  },
  {
   "property": "C138",
   "status": "proved",
   "theorems": [
    "Verif.Props.C138_closest",
    "Verif.Props.C138_best",
    "Verif.Props.C138_scores",
    "Verif.Props.C138_sign",
    "Verif.Props.C138_components",
    "Verif.Props.C138_changes"
   ],
   "note": "C138_closest, C138_best (Ky Fan), C138_scores, C138_sign, C138_components, C138_changes; numpy's svd is any decomposition satisfying Spec.IsSvd."
  },
  {
   "property": "C139",
   "status": "partial",
   "theorems": [
    "Verif.Props.C139_returns_false",
    "Verif.Props.C139_compounding",
    "Verif.Props.C139_risk",
    "Verif.Props.C139_beta",
    "Verif.Props.C139_portfolio",
    "Verif.Props.C139_bootstrap_raises"
   ],
   "note": "C139_risk, C139_beta, C139_portfolio, C139_compounding proved; the returns are not relative changes (C139_returns_false) and the bootstrap raises (C139_bootstrap_raises)."
  },
  {
   "property": "C140",
   "status": "proved",
   "theorems": [
    "Verif.Props.C140_curve",
    "Verif.Props.C140_discount_factor",
    "Verif.Props.C140_yield",
    "Verif.Props.C140_risk",
    "Verif.Props.C140_portfolio",
    "Verif.Props.C140_previous_false"
   ],
   "note": "C140_curve, C140_discount_factor, C140_yield, C140_risk and C140_portfolio; C140_previous_false shows why yield space needs linear interpolation."
  },
  {
   "property": "C141",
   "status": "proved",
   "theorems": [
    "Verif.Props.C141_constructor",
    "Verif.Props.C141_starting_value",
    "Verif.Props.C141_default",
    "Verif.Props.C141_dimension_unchecked",
    "Verif.Props.C141_repeatable",
    "Verif.Props.C141_simulated"
   ],
   "note": "C141_constructor, C141_default, C141_starting_value, C141_dimension_unchecked, C141_repeatable, C141_simulated."
  },
  {
   "property": "C142",
   "status": "proved",
   "theorems": [
    "Verif.Props.C142_remaining",
    "Verif.Props.C142_transfer",
    "Verif.Props.C142_bond_value",
    "Verif.Props.C142_bond_risk",
    "Verif.Props.C142_bond_ladder",
    "Verif.Props.C142_workflow"
   ],
   "note": "C142_remaining, C142_transfer, C142_bond_value, C142_bond_risk, C142_bond_ladder, C142_workflow (one theorem from the bootstrap to the ladder, with the two-bond long-short example as its non-vacuity witness)."
  },
  {
   "property": "C143",
   "status": "proved",
   "theorems": [
    "Verif.Props.C143_decreasing",
    "Verif.Props.C143_determined",
    "Verif.Props.C143_bootstrap",
    "Verif.Props.C143_methods",
    "Verif.Props.C143_search"
   ],
   "note": "C143_decreasing, C143_determined, C143_search, C143_bootstrap, C143_methods. Exact arithmetic; solvers end at exact roots."
  },
  {
   "property": "C144",
   "status": "proved",
   "theorems": [
    "Verif.Props.C144_bond",
    "Verif.Props.C144_stable",
    "Verif.Props.C144_yields",
    "Verif.Props.C144_values",
    "Verif.Props.C144_bootstrap"
   ],
   "note": "C144_bond, C144_stable, C144_yields, C144_values, C144_bootstrap: what remains of C143 when the solvers stop within a tolerance. Exact arithmetic; the slope bounds of the exponential are a hypothesis (exp is abstract over the rationals)."
  },
  {
   "property": "C145",
   "status": "proved",
   "theorems": [
    "Verif.Props.C145_profile",
    "Verif.Props.C145_key_rate",
    "Verif.Props.C145_parallel",
    "Verif.Props.C145_portfolio"
   ],
   "note": "C145_profile, C145_key_rate, C145_parallel, C145_portfolio. Exact arithmetic; that the exponential is convex and increasing is a hypothesis (exp is abstract over the rationals)."
  }
 ]
}