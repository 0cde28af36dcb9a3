# fixedIncome in Lean 4: design

Target: aflapan/fixedIncome (python) as found in /repo. The model is a set of shallow, mostly computable
Lean functions that mirror the python functions branch by branch; exceptions are values (`Except PyErr _`).
Layout (all under `lean/Verif/`):

* `Model/*`  – the model. Every definition has a comment citing file and lines in /repo.
* `Spec/*`   – small independent specifications (what "business day", "third Monday", "linear interpolation",
  "hat function" … mean), written without reference to the model's control flow.
* `Lemmas/*` – helper lemmas.
* `Props/*`  – the property theorems (`C01_…`, `C02_…`), with a non-vacuity `example` beside each.
* `Validation` – the concrete cases of the repository's own unit tests, evaluated on the model by the kernel (evidence for the
  model's fidelity; not counted as proofs).

## Trusted base

* Lean 4.33.0's kernel; axioms `propext`, `Classical.choice`, `Quot.sound` only (no own axioms, no compiled-code
  tactics). `vcheck` audits every theorem.
* The reading of the python: code is not executed here; every definition cites its source.
* Python/stdlib semantics that the model builds in: `datetime.date` as the proleptic Gregorian calendar for years
  1..9999 with OverflowError outside, `timedelta`, `dateutil.relativedelta` month arithmetic (day clipped to month
  length), `sorted` (stable), `bisect`, dict insertion semantics, `set` as unordered collection with arbitrary
  iteration order, generators evaluated eagerly.
* Numbers: python floats are modelled as exact rationals `ℚ` (or reals `ℝ` where exp/log/powers occur). Except in C95, C100,
  C111, C128, C129 and C131, rounding is not modelled: numeric theorems are about the exact-arithmetic reading of the formulas. C95 (day counts, key
  rates, present values, curve evaluation), C100 (loans), C111 (swaps, accrued interest), C128 and C129 (prices and key-rate risk on a yield curve) and C131 (bond values at a fixed rate, yields) put a
  rounding after every operation (`Model/Rounded*`, any rounding satisfying `Spec/Rounded`, which 53-bit round-to-nearest does); overflow is left out. `sum`
  adds from left to right with a rounding after every addition: this is what CPython does for numpy floats (all values read off a curve) in every version, and for
  Python floats (only the sums over key-rate collections) up to 3.11; from 3.12 on Python floats are summed with compensation, which Model/RoundedSum models and C95_parallel_compensated covers.
* Library calls: `scipy.interpolate.interp1d(kind='linear')` is modelled by piecewise linear interpolation on the
  sorted knots; cubic and quadratic splines (kinds of interp1d) by the splines scipy documents (not-a-knot ends for the cubic, half-way breakpoints for the quadratic), solved from textbook systems and proved to meet Spec/Spline; that scipy's B-spline code computes these functions is trusted. `scipy.optimize.root/minimize` are not modelled:
  they evaluate the given function at any list of points, or only the function passed to them is modelled. `numpy.random` enters only as arbitrary given increments (theorems quantify over them).

## Modelled / not modelled

| source (fixedIncome/src/…) | model | not modelled there |
|---|---|---|
| scheduling_tools/scheduler.py, schedule_enumerations.py | `Model/Scheduler`, `Model/SchedulerDatetime` | |
| scheduling_tools/holidays.py | `Model/Holidays` | |
| scheduling_tools/day_count_calculator.py | `Model/DayCount` (dates), `Model/Datetime` (datetimes) | ACT_360/365L style variants that raise NotImplementedError |
| assets/base_cashflow.py | `Model/Cashflow`, `Model/CashflowSequence` | `to_series`, `__repr__` |
| assets/us_treasury_instruments/, credit/corporate_bond.py | `Model/Bond` (both classes by the same functions), `Model/CallableBond` | plotting; UsTreasuryFuture cannot be instantiated; FixedToFloat/Floating bonds are stubs |
| credit/loan.py | `Model/Loan` | |
| interest_rate_instruments/interest_rate_swap.py | `Model/Swap` | `repr` |
| curves/base_curve.py, yield_curve.py | `Model/Curve`, `Model/Spline`, `Model/CurveFactory` | scipy's B-spline algorithm (the splines themselves are in `Model/Spline`), scipy `root` (any list of evaluated points and any result), plots |
| risk/key_rate.py, risk_metrics.py | `Model/KeyRate`, `Model/Risk` | `to_dataframe` |
| portfolio/portfolio.py, portfolio_optimization.py | `Model/Risk`, `Model/Optimizer` | scipy `minimize` |
| stochastics/brownian_motion.py, base_processes.py, geometric_brownian_motion.py, base_short_rate_model.py | `Model/Stochastic`, `Model/BrownianInit` (the constructor), `Model/PathCurve` (the curves built from a path) | the random generator itself, plots |
| …/vasicek_model.py | `Model/Vasicek` (one factor), `Model/MultiVasicek` | plots |
| …/doubly_…, trebly_…, stochastic_market_price_of_risk.py | `Model/MeanReverting` | |
| curves/credit_curves/default_models.py | `Model/Default`, `Model/RoundedDefault` | |
| assets/rates/linear_rates/interest_rate_future.py | `Model/Future` | |
| examples/rates/principal_components_of_yield_curves.py, examples/equities/beta_calculation.py (computations) | `Model/Examples` | reading and plotting data, `np.linalg.svd` and `LinearRegression` (any results meeting their contracts) |
| examples/rates/delta_hedging.py (workflow) | `Props/Hedging` | the rest of the script |
| stochastics/calibrators/factorized_calibrator.py | `Model/Calibrator` | scipy `minimize` (any list of evaluated points) |

Not modelled at all: plotting, pandas containers, `__repr__`/`__str__`, `credit_default_swap` (stub), examples/rates/yield_curve_examples.py beyond the calls it makes (the workflow of main.py, from the bootstrap to the risk ladder, is the subject of C142; its plots, prints and hand-written key rates are not).

Library contracts used by the stochastic part (all are hypotheses or arguments, never axioms):

* normal draws: a function `Nat → Vec p`, arbitrary; in C56 independent standard normal random variables on a probability space.
* `np.linalg.eig` of the reversion matrix: an argument; theorems that use the closed formulas assume that it diagonalizes the matrix
  with REAL eigenvalues (`Diagonalizes`), and that no two eigenvalues add up to zero (numpy's division by zero gives nan, which is
  not modelled). Complex eigenvalues are outside the model.
* `np.linalg.cholesky`: the lower triangular root with positive diagonal if there is one (it is unique), LinAlgError otherwise.
* `np.linalg.solve`: the unique solution, LinAlgError for a singular matrix.
* `np.empty`: arbitrary contents (an argument called `garbage`).
* `scipy.optimize.minimize`: calls the function on the start, then on any further points.

Expectations under a model are specified by the differential equations they satisfy (mean, response to a shock, covariance) and the
Gaussian formula for the discount factor, not by constructing Brownian motion; that the solution of a linear stochastic equation has
these moments is the part of the mathematics that is trusted.

## Per-property plan

| id | modelled | proof |
|----|----------|-------|
| C01 | `isBusinessDay` with arbitrary templates | unfold + membership in generated set |
| C02 | roll-forward loop with fuel = days left in range | induction on fuel; minimality invariant |
| C03, C04 | iterated single steps | induction on n, counting business days in an ordinal interval |
| C05, C06 | branch by branch | corollaries of C02-C04 |
| C07 | append loop | invariant: list = business days below cursor |
| C08 | timedelta/relativedelta loops | induction on the count |
| C09 | US calendar | characterise the holiday set per year by weekday arithmetic (omega) |
| C10, C11 | adjustment functions and templates | weekday arithmetic; negation witness for MLK and Memorial |
| C12 | — | counterexample year; partial for other days |
| C13-C17 | day counts on ordinals, in ℚ | ring/linear arithmetic; F-coordinate for ACT/ACT; witnesses |
| C18, C19 | list model of schedule, insort | induction; permutation |
| C20, C21 | association list | refinement to `Key → Option Cashflow` |
| C22-C26 | key rates as records, collection as list | sums of hats; permutations; set order as arbitrary permutation |
| C27-C31 | knots list, linear interpolation, shared discount curve cell | induction over knots |
| C32 | sum over list | list algebra |
| C33-C37 | bond constructor and pricing | C02/C05/C08; real powers for C37 |
| C38-C40 | amortization fold | induction over periods; geometric series |
| C41-C43 | swap legs | list algebra |
| C44-C46 | path functions | induction; witnesses for the swapped weights and the missing update |
| C47 | closed-form formulas over ℝ | `HasDerivAt` |
| C48, C49 | iterator state machine | induction over calls |
| C50 | quadratic forms over ℝ | direct expansion of difference quotient / `HasDerivAt` |
| C51, C52 | key-rate collections sharing key rates; item assignment | object store with identities; case analysis |
| C53, C54, C62 | swap schedules, legs | month arithmetic; telescoping products; counting business days |
| C55 | simulation grids | induction over the loop |
| C56 | increments as `L z sqrt dt` over a probability space | covariance of linear images (Mathlib) |
| C57, C58 | object histories (regeneration, shared Brownian motion) | explicit states; witnesses |
| C59 | products | induction |
| C60 | portfolio to key rates | C23, C24 |
| C61 | np.arange | floor arithmetic; intermediate value |
| C63-C67 | matrices over ℝ, any dimension | diagonalization; uniqueness of linear ODEs; interval integrals; traces |
| C68 | 2x2 matrices, Cholesky | explicit; C63-C66 instantiated |
| C69 | 3x3 matrices | Cholesky root gives the correlated shocks; prices and means by C63 and C65 for the chain of three factors, written rate by rate in Spec/MeanReverting |
| C70, C71 | dictionaries of lists | case analysis on list lengths; C68 |
| C72 | calibrator, minimizer = list of points | induction over the evaluated points |
| C73, C74 | factory, root search = list of points and a result | state invariant over the searches; locality of interpolation |
| C75 | factory without search | C27; case analysis |
| C76 | default simulation; draws = any sequence / independent uniforms | induction over the grid; product of independent events; limit of (1-x/n)^n |
| C77, C78 | sequences, slices, Set mixins | index arithmetic of slices; sublists; sorting |
| C79 | loan schedule of C38 | C38; time axis of C14 |
| C80, C81 | KeyRateCollection with the MutableSequence mixins | list index arithmetic; wiring invariant of C22 |
| C82 | bond price as a function of the yield; duration, convexity, Macaulay duration | mean value theorem; derivative of finite sums; weighted averages |
| C83 | business-day functions on datetimes (holiday comparison never true) | reduction to the date functions with an empty calendar, then C01–C06 |
| C84 | variance problem, frontier and Sharpe ratio of the optimizer | convexity of the quadratic form; compactness for existence; Minkowski for the frontier; linearity of the stationarity condition for the two-fund theorem |
| C85 | utility problem of the optimizer | concavity; comparison of two optima |
| C86 | moments of simulated geometric Brownian motion | independence of the draws of different steps; bounds of exp |
| C87 | moments of simulated Vasicek rates | first-order autoregression with uncorrelated shocks; Gronwall-type error bound against the closed forms |
| C88 | the hedging workflow of examples/rates/delta_hedging.py on top of the key-rate and curve model | each hedge sees one key rate (C23, C29); diagonal system |
| C89 | the SOFR future | unfold (it raises); telescoping sum over business days (C07) for the remaining code |
| C90 | curve values against knot values | case analysis of a date's position (exact knot, between neighbours, outside); linearity of C28 |
| C91 | exp(−y·t) on an interpolated yield | reduction to y·t; explicit counterexample for falling yields |
| C92 | the yield equation of two bonds on one schedule | strict monotonicity of the discounted sum (C36) |
| C93 | KeyRate comparisons; the private adding methods | linear order on dates; bisect_right and C23; explicit counterexamples |
| C94 | attributes of a callable bond and first attribute read by each method | stable sort; case analysis over methods |
| C95 | accrual, key-rate call, collection call, present value, curve evaluation with a rounding after every float operation (Model/Rounded) | relative-error calculus; gap of 1/366 between dates against the size of the axis; induction over sums |
| C96 | date, addDays, addMonths, weekday (Model/Date) against Spec/Gregorian | successor day = next ordinal by the month table; induction on the number of days |
| C97 | Curve.resetValues, resetValueAt | unfolding against the constructor; C27; counterexamples by the end behaviour |
| C98 | Vasicek and MultiVasicek with p = 1 | same core after every history; the 1 × 1 matrices reduced to scalars with an arbitrary eigenvector |
| C99 | Doubly, Trebly, RiskPrice, Vasicek | a relation "first coordinates of" kept by path generation; leading block of a Cholesky factor |
| C100 | Model/RoundedLoan: the payment loop with a rounding after every operation | induction over periods; min and max are Lipschitz, so the exact and rounded runs may disagree about the period of payoff; error recursion E' = gE + δ |
| C101 | MultiVasicek.generatePath over a probability space of draws | vector autoregression by induction over the grid; change to eigenvector coordinates; per-step error of the Euler decay against the exponential, for each coordinate (mean) and each pair (covariance) |
| C102 | error branches of the models already present (KeyRate, Curve, Loan, Swap, Scheduler, Vasicek, MultiVasicek, Doubly, Bond) | case analysis on the argument, showing which exception and the state afterwards |
| C103 | `Curve` with datetime knots, `create_discount_curve`, `accrual_curve`, `Cashflow.present_value` on them (Model/PathCurve) | interpolation lemmas by induction on the grid, accruals increasing along the grid from C16/C104 |
| C104 | `include_datetimes` over ACT/ACT | closed form in the calendar-year coordinate, then algebra; counterexamples evaluated by the kernel |
| C105 | `generate_payment_schedule` (Model/Loan) | one balance recurrence from C38 for open and paid-off loans, then induction on the date index comparing two loans |
| C106 | `present_value`, both leg generators (Model/Swap) | closed form of both legs in notional and rate from C41/C62, then algebra |
| C107 | `calculate_key_rate_deriv`, `calculate_pv01_risk_ladder`, `KeyRateCollection.__call__` (Model/Curve, Model/KeyRate) | weights of a knot pair independent of the values (C27), partition of unity (C24), linearity over the ladder (C30) |
| C108 | `add_business_days`, `calculate_settlement_date`, `modified_following_date_adjustment` (Model/Scheduler) | counting characterisation of the shift (C02), composition by cases on signs; monotonicity by counting |
| C109 | `compute_accrual_length` (Model/DayCount) | closed forms of C13–C16 and year-length bounds; 30/360 through day-of-year estimates |
| C110 | `BrownianMotion.__init__`, `generate_increments` (Model/BrownianInit, Model/Stochastic) | existence of the Cholesky factor of every positive definite n×n matrix (Lemmas/Cholesky, via Mathlib's LDL), covariance from C56 |
| C111 | legs, `present_value`, `implied_rate`, `calculate_annualized_rate`, `calculate_accrued_interest`, `get_full_price` with a rounding per operation (Model/RoundedValuation) | relational induction over the schedules (same dates, amounts near), C95 for sums; monotone rounding for the order statements; C111_exact ties the rounded model to the exact one |
| C112 | `generate_business_days`, `add_business_days`, `calculate_settlement_date`, US holiday templates (Model/Scheduler, Model/Holidays) | invariant of the listing loop; counting business ordinals of a window; holidays are a week apart; the year count by cases on leap status and weekday of 1 January |
| C113 | the one-factor closed formulas (Model/Vasicek) | yields in terms of b = 1 - exp(-kT); concavity of b and 2b + b² (derivatives) for the shape; elementary bounds for the rest |
| C114 | `KeyRate`, `KeyRateCollection` mutators (Model/KeyRate, Model/KeyRateSequence) | inductive histories over a heap of key rates and a family of collections; invariant: sorted, linked to neighbours, members within the collection's pool; each operation preserves it and frames the other collections |
| C115 | bond cash flows and fixed-rate discounting (Model/Bond) | telescoping geometric bound over the remaining payments; yield comparison by strict monotonicity (C37); under 30/360 the remaining coupon dates are listed from the backward schedule (C33) and lie whole periods apart |
| C116 | `generate_path` of Brownian motion, diffusions, geometric Brownian motion and the Vasicek model (Model/Stochastic, Model/Vasicek) | two runs compared step by step through the Euler recursions of C45, C47 and C59 |
| C117 | all methods of both Vasicek models on date and datetime arguments (Model/PlainDates) | unfolding: they are the datetime methods on datetimes; accruals of a date and its midnight compared by C16 and C104; comparisons raise |
| C118 | discount_by_fixed_rate and pv_deriv (Model/Bond) | C82's derivative is strictly monotone and differentiable; mean value theorem; tangent inequalities integrated once and twice |
| C119 | present_value of both bond classes, ZeroCoupon and Portfolio (Model/Bond, Model/Cashflow, Model/Curve) | from C34 (sum over payments due), C19 and C32; bonds with the same schedule differ in amounts only (C92); linear algebra |
| C120 | swap construction, accrual schedules, legs, value and implied rate on the US holiday calendar (Model/Swap, Model/Scheduler, Model/Holidays) | Lemmas/UsDates: a business day within a few days of any date (C09, C112), month arithmetic stays in range; then each schedule loop is total by induction and each period is longer than the adjustments; C106 for uniqueness of the par rate |
| C121 | construction, value and yield of bonds on the US calendar (Model/Bond, Model/Scheduler, Model/Holidays) | totality of the coupon loop as in C120; coupons 84 days apart and adjusted by at most four days are in the same order adjusted and unadjusted, so the bisection finds the neighbours of the purchase date; periods ending in a later month have positive length under every day count; C34, C37 |
| C122 | payment dates, schedule and level payment of loans (Model/Loan) | induction on the date loop (months advance, days only shrink), C38 and C40; annuity algebra with real powers |
| C123 | key-rate pv01 of cashflows in both interpolation spaces (Model/Curve, Model/KeyRate) | weights of the key rate from C22, positive exactly inside the window; the linear functional of C107 in discount-factor space; the daily knots of the discount curve and C19 in yield space, then a sum of nonpositive terms |
| C124 | floating legs under two rate functions (Model/Swap) | both compoundings run over the same business days (C07, C43); product of growth factors by induction; payments compared period by period, discounted sums, C42 quotient; C120 for the US calendar |
| C125 | implied rate of swaps with equal legs (Model/Swap) | the quotient of C42 is a weighted average over the common periods; C43 for compounded rates, C54 for self-consistent curves, C120 for the US calendar |
| C126 | spline interpolation (Model/Spline: the textbook systems for second derivatives / midpoint slopes) | diagonally dominant systems have exactly one solution (max-norm argument after eliminating the not-a-knot rows); piecewise polynomials glued at the breakpoints match the spec's spline and conversely; linearity and polynomial reproduction by uniqueness |
| C127 | yield curves and bootstrap with splines | explicit cubics through four knots (a cubic spline through four knots is one cubic), C126 for their values; zero-coupon bonds by C27_knots |
| C128 | to_discount_curve, present_value and calculate_pv01_risk with every operation rounded (Model/RoundedRisk) and np.exp an arbitrary float function close to the true exponential | absolute error of the interpolated yield, of the exponent (Lipschitz bound of exp), of the products and of the left-to-right sum; the key rate's bump by C95's relative bounds; nearest53 gives the double-precision constants |
| C129 | the same in DISCOUNT_FACTOR space, and calculate_pv01_risk_ladder (Model/RoundedRisk) | interpolation is a weighted mean of knots with weights independent of their values, so it does not amplify the knots' rounding errors; C128's lemmas for schedules and central differences; C107 for the exact total of the ladder |
| C130 | the equation passed to scipy.optimize.root by yield_to_maturity, at any returned rate | the value is decreasing and convex in the rate (C82, C118, here for any reference date), so its fall between two rates lies between the end slopes times their distance |
| C131 | the bond constructor, discount_cashflows_by_fixed_rate and the function given to the root finder with every operation rounded (Model/RoundedYield), `**` an arbitrary float function within `4u` of the power | relative errors as factors `exp(±η)`, which multiply, add and pass through powers (Lemmas/Close); the yield's error from C130 |
| C132 | generate_path, create_discount_curve and the closed forms of the Vasicek model together | C46_computed on the simulated path, C87 for the mean of the rates, C103 for the curve at its knots, C47 for the closed forms; sums of elapsed times |
| C133 | generate_path of Brownian motions, Vasicek and multivariate Vasicek models, and create_discount_curve, under the law of the draws | simulated values depend affinely on the draws (Props/NormalLaws); sums of independent normals are normal (Mathlib); means and covariances from C56, C87, C101; orthogonality of later draws |
| C134 | GeometricBrownianMotion.generate_path under the law of the draws | step factors are normal and independent across steps (C59_product); positive volume has positive Gaussian measure; Chernoff bound for the tail |
| C135 | default_bernoulli_paths under the law of the draws, any number of paths on one stream | the event that the paths have given entries is a cylinder of consecutive draws, so its probability is the product of C76's; summing over entries gives independence; Mathlib's strong law and Chebyshev's inequality |
| C136 | default_bernoulli_paths with every float operation rounded (Model/RoundedDefault) | induction on the steps for the error of the running time; monotone rounding makes the tested times an initial segment; the loop from any reached time; the two double-precision examples step by step |
| C137 | yield_curve of examples/rates/principal_components_of_yield_curves.py (Model/Examples) against the average of Svensson's forward curve | antiderivative of the forward curve; limits of exponentials |
| C138 | the rest of that example: means, components, series, reconstruction; svd by its contract | Pythagoras for orthonormal families; Bessel's and Ky Fan's inequalities |
| C139 | examples/equities/beta_calculation.py: returns, regression by its contract, risk decomposition, bootstrap | the normal equations characterise the fits |
| C140 | key rates at a curve's knots (Model/KeyRate, Model/Curve); specification: the knots with one value changed | the bump is a weight linear in time between adjacent knots; bracketing of dates by knots |
| C141 | the GeometricBrownianMotion object (Model/GeometricInit): constructor, starting values, stored paths | C110 for the Brownian motion; invariant of the histories; C86 for the moments |
| C142 | bonds on yield curves, the workflow of main.py (composition of the existing models of Bond, CurveFactory, KeyRateSequence, Risk) | a bond and the cashflow of its remaining payments have the same values on every discount curve; induction over the ladder with the curve's history as invariant; C62/C103/C111 for signs, C30 for linearity, C40/C45 for existence |
| C143 | uniqueness of the curves of the factory (Props/CurveUnique; no new model) | interpolation is monotone in the knots, bond values decrease (C142); the earliest differing knot contradicts the price of its bond; C73/C74 for the factory |
| C144 | stability of the curves of the factory under pricing errors (Props/CurveStability; no new model) | the margin version of C143's monotonicity; induction over the number of earlier knots; C73 for the factory |
| C145 | convexity of bond values in the bumps (Props/BondConvexity; no new model) | C142_bond_value gives a sum of exponentials of affine functions of the bump; the three-point inequality; C30's central difference |

## Findings (places where the code does not do what it says; each with a theorem)

| what | theorem |
|---|---|
| MLK Day and Memorial Day are computed from a fixed nominal date | C11_… |
| 31 December observance of New Year's Day is not a holiday of its year | C12_… |
| 30/360 is wrong and not monotone around the end of February | C15_… |
| dates and datetimes count differently for 30/360 and mixed arguments | C16_… |
| `cashflow_list` goes stale when a key is overwritten | C21_… |
| a lone key rate raises TypeError; 30/360 can divide by zero | C22_…, C24_… |
| `KeyRateCollection.__iadd__` depends on set order and can leave the collection unsorted | C26_… |
| the adjustment of a constant extrapolation is called with the class `date` | C28_… |
| risk calculations leave the key rate bumped and overwrite discount curves returned before | C31_… |
| accrued interest fails when a coupon lies between purchase and settlement; full price ignores its reference date | C35_…, C36_… |
| zero-coupon bonds: yield to maturity divides by zero | C37_… |
| END_OF_MONTH loans use the length of November; a zero rate divides by zero | C39_…, C40_… |
| the implied rate counts past payments | C42_… |
| path lookup swaps the interpolation weights | C44_… |
| the integrated short rate uses cumulative accruals; it is stale after regeneration | C46_…, C57_… |
| bond price and yield of the one-factor model ignore the purchase date in their coefficients | C47_later_purchase_false |
| `RiskLadder.__contains__` returns None | C48_… |
| ending key rates cannot be assigned; shared key rates interfere | C51_…, C52_… |
| swaps starting at a month end lose a period; stubs are dropped | C53_… |
| sharing a Brownian motion with a finer step breaks reads | C58_… |
| multivariate forward rate lacks a transpose; state covariance lacks a change of basis | C64_forward_false, C65_covariance_false |
| equal reversion speeds have no eigenvalue decomposition | C68_equal_speeds |
| TreblyMeanReverting, StochasticMarketPriceOfRisk and MultivariateVasicekModel are abstract, so calling them is a TypeError | (C69; not a theorem) |
| a model's dictionary contains uninitialized state variables | C70_state_variables_false |
| setters do not reach the computed matrices, the convexity limit or the drift; the one-factor state setter reads the shape | C71_… |
| the calibrator raises NameError when imported, ignores the minimizer's result, fails for one-factor models, starts at a defective matrix | C72_… |
| bootstrapping takes the i-th earliest knot for the i-th given instrument and ignores the solver's result | C73_unsorted_false, C73_curve |
| the curve "from yields to maturity" interpolates prices and cannot value anything | C75_… |
| a nonpositive step makes the default simulation run forever; the last interval is never tested | C76_diverges, C76_before_maturity |
| iterating over, comparing and looking up instruments raises TypeError | C78_… |
| a loan's interest ignores the origination day; its present value raises TypeError | C79_… |
| append/insert/extend/reverse on key rate collections raise TypeError, clear raises ValueError | C81_… |
| bond duration is too large by principal/100; convexity always raises AttributeError | C82_… |
| business-day functions ignore holidays when given datetimes; date and datetime mixed raise TypeError | C83_… |
| the SOFR future's settlement rate always raises TypeError; its value, knot and last trading date are None | C89_… |
| interpolating falling yields linearly gives rising discount factors (negative forwards) between knots whose discount factors fall | C91_falling_yields_false |
| key rates of one date and different conventions are incomparable; failed unions move dates of the receiver; adding a key rate at or after the last date raises IndexError, at an existing date corrupts the receiver | C93_… |
| CallableFixedRateBond never initializes its base class: all methods but price raise AttributeError | C94_methods_raise |
| reset_interpolation_value accepts dates out of order without sorting; a reset that raises has already replaced the values | C97_reset_value_false, C97_failed_reset_false |
| a curve simulated by a short-rate model has datetime knots: asking it for a plain date, or pricing any cashflow with date payments on it, raises TypeError | C103_discount_curve, C103_date_cashflow |
| under ACT/ACT a later datetime can accrue less than an earlier one, and accruals of adjacent intervals need not add up | C104_not_monotone, C104_not_additive |
| BrownianMotion's `assert dimension, …` never compares the dimension with the matrix: the default dimension 1 with a larger matrix constructs and every simulation then raises ValueError | C110_dimension_unchecked |
| only the lower triangle of a correlation matrix is read: non-symmetric matrices are accepted | C110_lower_triangle |
| listing the business days up to 9999-12-31 raises OverflowError (the loop steps past its end before testing it) | C112_us_listable |
| quantities of the Vasicek models that compare dates raise TypeError for a plain maturity date although annotated with it | C117_compare_raises, C117_multi_compare_raises |
| a plain purchase date never gives a price, rate or yield in a Vasicek model | C117_purchase_raises, C117_multi_purchase_raises |
| under ACT/ACT a maturity date and its midnight give different accruals | C117_act_act_gap |
| With CUBIC_SPLINE, falling discount factors in (0, 1] can give a unit payment worth more than 1 in between, and nonnegative yields a negative one | C127_shape_false, C127_yields_false |
| With CUBIC_SPLINE in discount-factor space a positive payment outside a key rate's window has a negative pv01 | C127_key_rate_sign_false |
| Bootstrapping with CUBIC_SPLINE: later searches move earlier parts of the curve, so instruments paying between knots are not repriced | C127_bootstrap_false |
| Assigning to a slice of a collection raises AttributeError and, though the list stays the same, rewires the selected key rates as a collection of their own; after `c[0:1] = k` calling the collection past its first key date raises TypeError | C81_slice_assignment_raises, C81_slice_assignment_breaks |
| yield_to_maturity and the curve factories use the point where scipy's root finder stopped without looking at its success flag, so a failed search is returned as a yield; its error is bounded by the amount it misses the price | C130_residual, C130_computable |
| A Vasicek simulation started at its long-run mean reports discount factors whose logarithm is, on average and with n equal steps, (n + 1) / 2 times what the model's average expected short rate implies; without volatility every discount factor from the second step on is below the model's zero-coupon bond price | C132_stationary_false, C132_riskless_false |
| under 30/360, the day before a bond matures on a 31st its value does not depend on the yield, and the day before it matures on a 29 February its value rises with the yield, so yield_to_maturity has no meaningful root | C37_thirty360_false |
| a simulated geometric Brownian motion with volatility is negative with positive probability at every grid datetime after the start; its first step is normal instead of log-normal | C134_false, C134_first_step_partial |
| default_bernoulli_paths never tests the interval before maturity: with a step of at least the maturity every path survives whatever the hazard | C135_coarse_step |
| default_bernoulli_paths accumulates the running time in floating point: depending on step and maturity it tests one interval more or one less than the grid has | C136_extra_test, C136_missing_test |
| for a maturity of more than 2^54 leading powers of two of the step the simulation loop never ends unless a draw defaults | C136_stalls |
| the example's Svensson curve has exp(t/tau) for exp(-t/tau) in both hump terms: long yields diverge | C137_error, C137_long_end_false |
| the equity example divides price changes by the new price: its returns are r/(1+r) | C139_returns_false |
| the equity example's bootstrap raises IndexError: the table of returns has been overwritten by the frontier's target returns | C139_bootstrap_raises |
| with PREVIOUS interpolation in yield space the bump of a key rate decays between knots although the curve is flat there: the bumped curve is not a curve of the same kind | C140_previous_false |
| GeometricBrownianMotion.generate_path raises AttributeError for a float starting value although annotated with it | C141_starting_value |
