import add
add.prop('''
p("Bond prices of a multivariate affine model",
  "For every purchase date, a zero-coupon bond of a multivariate Vasicek model costs the expected discount factor over the time to maturity given the state on the purchase date; as a function of time to maturity and state it solves the model's pricing equation with one unit paid at maturity, and the reported derivative with respect to the state variables is its gradient.",
  "every number of factors, coefficients, diagonalizable reversion matrix, volatility, dates and state","Real-analytic identity over all parameters and dimensions.",VM+":MultivariateVasicekModel.zero_coupon_bond_price",VM+":MultivariateVasicekModel.zero_coupon_bond_price_deriv_wrt_state_variables")
p("Forward rates of a multivariate affine model",
  "The instantaneous forward rate is the derivative of minus the log bond price with respect to the maturity, the reported maturity derivative of the price is its derivative, and covariances and volatilities of forward rates are those given by their gradients in the state. (True for symmetric reversion matrices; false for every doubly mean-reverting model with a non-zero long-term rate.)",
  "every multivariate model, dates and state","Derivative identities over all parameters.",VM+":MultivariateVasicekModel.instantaneous_forward_rate",VM+":MultivariateVasicekModel.instantaneous_forward_rate_covariance",VM+":MultivariateVasicekModel.zero_coupon_price_deriv_wrt_maturity")
p("Moments of a multivariate affine model",
  "Expected state, expected short rate, average expected short rate, state covariance and short-rate variance are the moments of the model's stochastic equation, for every purchase date. (The covariance is false for every doubly mean-reverting model with uncorrelated shocks.)",
  "every multivariate model, dates and state","Solutions of differential equations for all parameters.",VM+":MultivariateVasicekModel.expected_state_variable_mean",VM+":MultivariateVasicekModel.average_expected_short_rate",VM+":MultivariateVasicekModel.state_variable_covariance",VM+":MultivariateVasicekModel.short_rate_variance")
p("Yields, convexities and yield covariances of a multivariate affine model",
  "The yield is minus the log price over the time to maturity; its convexity is the yield less the average expected short rate and never positive; yield covariances and volatilities are those given by the yields' gradients, and the covariance matrix is positive semidefinite; price convexities are minus half the second-order term of the price's dynamics; maturities not after the purchase date are refused.",
  "every multivariate model, dates, state and list of maturities","Real identities for all parameters and list lengths.",VM+":MultivariateVasicekModel.zero_coupon_bond_yield",VM+":MultivariateVasicekModel.yield_convexity",VM+":MultivariateVasicekModel.yield_covariance_matrix",VM+":MultivariateVasicekModel.price_convexities")
p("The riskless portfolio",
  "weights_for_riskless_portfolio needs one more bond than state variables; its weights are the only ones that add up to one and make the portfolio's value insensitive to every state variable; the portfolio then grows at the short rate, the passing of time plus the reported convexity.",
  "every multivariate model, state and list of maturities","No-arbitrage identity over all models and dimensions.",VM+":MultivariateVasicekModel.weights_for_riskless_portfolio",VM+":MultivariateVasicekModel.riskless_portfolio_convexity")
p("The doubly mean-reverting model",
  "It is accepted for exactly the non-zero volatilities and correlations strictly between -1 and 1; its simulated paths follow the documented equations with the requested correlation; for different reversion speeds its expected rates and bond prices are those of these equations; for equal speeds no eigenvalue decomposition exists.",
  "every parameter set, dates, state and draws","Differential equations and arbitrary draws.",DM+":DoublyMeanRevertingVasicek")
p("The three-factor models",
  "Simulated paths of the trebly mean-reverting model and of the model with a stochastic market price of risk follow the documented equations, with shocks of the requested correlations, and their bond prices are the expected discount factors of these equations. (As written the classes cannot be instantiated.)",
  "every parameter set, dates, state and draws","Arbitrary parameters and draws.",TM+":TreblyMeanRevertingVasicek",MP+":StochasticMarketPriceOfRisk")
p("Calibration dictionaries round-trip",
  "A model made from a dictionary has the dictionary's parameters and starts its path at the dictionary's state variables; a too short dictionary is refused; and giving a model's own dictionary back yields a model with the same parameters and state variables. (False for the state variables, which a model does not record.)",
  "every dictionary, dates and draws","All dictionaries and histories.",DM+":DoublyMeanRevertingVasicek.from_volatility_shape_parameters")
p("Parameter setters",
  "After changing the calibration dictionary and calling the setters, a model has the dictionary's parameters and behaves like a model constructed with them. (False: only attributes change; paths, and all prices of the multivariate models, keep the old parameters; the one-factor price is right only if the ratio of volatility to reversion speed is unchanged.)",
  "every model and dictionary","Staleness over all parameter changes.",VM+":VasicekModel.set_volatiltiy_parameters_from_dict",DM+":DoublyMeanRevertingVasicek.set_volatiltiy_parameters_from_dict")
p("The factorized calibrator",
  "Calibration returns a model on the given dates whose parameters are the best found by the two searches. (False: imported as a module it is a NameError; the parameters are those of the last evaluated points, not of the results; one-factor models are an IndexError; the first volatility point has a defective reversion matrix.)",
  "every set of inputs, model and behaviour of the minimizer","All evaluation sequences of the minimizer.",FC+":VolatilityFactorizedCalibrator.calibrate")
''')
N=add.note
N('C63','proved','For diagonalizable reversion matrices with real eigenvalues whose pairwise sums are not zero; spec by linear ODEs for the mean and response (Spec/MultiVasicek.lean).')
N('C64','partial','Symmetric reversion matrices proved; C64_forward gives the exact error otherwise; C64_forward_false refutes it for every doubly mean-reverting model.')
N('C65','partial','Means and averages proved; covariance for diagonal reversion (and one factor); C65_covariance_false refutes it for doubly mean-reverting models with uncorrelated shocks.')
N('C66','proved','')
N('C67','proved','Uniqueness of weights, success condition, and no-arbitrage growth.')
N('C68','proved','Prices and means for different speeds; C68_equal_speeds shows the decomposition cannot exist otherwise.')
N('C69','partial','Paths proved for the constructor bodies; the classes are abstract (instantiation is a TypeError), see DESIGN.md.')
N('C70','partial','Parameters, dates, starting state and round trip of the parameters proved; state variables refuted (C70_state_variables_false).')
N('C71','partial','Attributes proved; C71_*_false refute the rest.')
N('C72','partial','Dates, and that the parameters are the last evaluated; C72_*_false refute the rest. The minimizer is any list of evaluated points.')
