import add
add.prop('''
p("Business-day functions treat a datetime as its date",
  "is_business_day, add_business_days, the following and modified-following adjustments and generate_business_days give for a datetime the answer for its date, keeping the time of day; in particular holidays are skipped.",
  "every holiday calendar, datetime and number of days","All calendars, datetimes and counts.",SCH+":Scheduler.is_business_day",SCH+":Scheduler.add_business_days",SCH+":Scheduler.generate_business_days",SCH+":Scheduler.following_date_adjustment",SCH+":Scheduler.modified_following_date_adjustment")
p("Minimum variance portfolios and the efficient frontier are what they claim to be",
  "The problem handed to the solver is exactly: least variance among portfolios (weights summing to one, in [0,1] without short positions) with the target return; every stationary point is a minimum, a minimum exists for every default target without short positions and is unique for a positive definite covariance matrix; the frontier lists target, volatility and weights in the same places and is convex when the solver solves; the Sharpe ratio of a frontier portfolio is the best for its return.",
  "every covariance matrix, mean vector, target return and portfolio","Ranges over all weights of any number of assets.",PO+":PortfolioOptimizer.find_minimum_variance_portfolio",PO+":PortfolioOptimizer.calculate_efficient_frontier",PO+":PortfolioOptimizer.sharpe_ratio")
p("The maximum utility portfolio trades mean against variance",
  "The problem handed to the solver is exactly: largest mean return minus param * wealth / 2 times variance among portfolios; for nonnegative risk aversion every stationary point is optimal, without short positions an optimum exists, with positive risk aversion it lies on the minimum variance frontier, and more risk aversion or wealth means no more risk and no more return.",
  "every covariance matrix, mean vector, wealth, parameter and portfolio","Ranges over all weights and parameters.",PO+":PortfolioOptimizer.find_maximum_utility_portfolio")
p("Simulated geometric Brownian motion has the right moments",
  "With independent standard normal draws the value at each grid point has mean x0 * prod(1 + drift dt) and the second moments of the discretized equation with the requested correlation; the mean growth lies between exp(drift T - drift^2 sum dt^2) and exp(drift T), so it tends to the model's growth as the steps shrink.",
  "every drift, volatility, correlation, grid and starting value; all outcomes of the draws","An expectation over all outcomes, on every grid.",GBM+":GeometricBrownianMotion.generate_path",BM+":BrownianMotion.generate_increments")
p("Simulated Vasicek rates match the model's closed-form mean and variance",
  "With independent standard normal draws the short rate read back at each grid point has the mean and variance of the discretized equation, and for a positive reversion speed k, steps of at most 1/k and a day count with fixed denominator these differ from expected_short_rate and short_rate_variance at that date by at most |r0 - mean| k^2/2 and 3/2 volatility^2 k times the sum of the squared step lengths.",
  "every one-factor Vasicek model, grid, starting rate; all outcomes of the draws","An expectation over all outcomes, with an error bound on every grid.",VM+":VasicekModel.expected_short_rate",VM+":VasicekModel.short_rate_variance",SR+":ShortRateModel.generate_path")
''')
add.note('C83','partial',"False of the code: a datetime never equals a holiday date, so holidays are ignored (C83_is_business_day_false, C83_following_false), and a datetime start with a date end raises (C83_mixed_raises). The exact behaviour is proved (C83_is_business_day, _add_iff, _subtract_iff, _modified, _generate); the intended claim holds when no weekday holiday is on the way (C83_agree_partial).")
add.note('C84','proved',"The solver (scipy SLSQP) is not modelled: its result is assumed to solve the problem it was given where a theorem speaks of the solver's output.")
add.note('C85','proved',"As for C84, the solver is not modelled.")
add.note('C86','proved',"Exact arithmetic, draws are independent standard normals; 30/360 (steps can be negative) is excluded.")
add.note('C87','proved',"Exact arithmetic; draws are independent standard normals. The first theorem covers every convention but 30/360; the comparison with the closed forms needs elapsed time to be additive, so ACT/360, ACT/365, ACT/365.25.")
