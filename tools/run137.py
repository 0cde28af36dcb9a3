import add
add.prop('''
p("The example's Svensson curve",
  "yield_curve(t, coeffs) of the principal components example should be the zero-coupon yield of the Svensson forward curve with the same parameters. It is off by b2 (exp(t/tau1) - exp(-t/tau1)) + b3 (exp(t/tau2) - exp(-t/tau2)), the sign of the exponent being lost in the two hump terms: it agrees when both hump coefficients are zero and tends to BETA0 + BETA1 at the short end, but at the long end, where the yield tends to BETA0, it tends to minus or plus infinity.",
  "all real parameters with nonzero (for the limits positive) decay times, all nonzero maturities","Equality of two curves at every maturity and their limits.",EXR+":yield_curve")
p("Principal components reconstruct yield curves best",
  "With the mean curve and the first k rows of Vt of any singular value decomposition of the centered yields, the reconstruction of a curve is the closest point to it among all combinations of those components added to the mean curve, and the curve itself if all components are used; the sum of squared errors over all dates is at most that for any other centre and any other k orthonormal directions. The component series have mean zero and are uncorrelated, with sums of squares the squared singular values in decreasing order. Turning over the first component changes no reconstruction and makes its sum nonnegative. The mean daily change is the last curve less the first over the number of changes.",
  "every table of yields (any numbers of dates and maturities), every decomposition numpy may return, every k, curve, centre and orthonormal family","Optimality over all directions and all decompositions of all data sets.",EXR+":projected_yield_curve",EXR+":principal_components_levels",EXR+":pc1_level",EXR+":yield_curve_change")
p("The equity example's returns, betas and risk decomposition",
  "For any least squares fit with intercept, the risk reconstructed from the market part and the idiosyncratic part is the risk of the returns, neither part exceeds it, the idiosyncratic part has mean alpha and is uncorrelated with the market, beta is covariance over variance, the fit is unique when the market moves, and the fit of a portfolio is the combination of the fits. The daily returns should be relative price changes, but the change is divided by the new price: r/(1+r) instead of r, smaller on every day the price moves and never 100 %. The bootstrap at the end always raises IndexError.",
  "all price series, market and asset returns of any length, fits and portfolios","Identities for all data; the fit is whatever the regression returns.",EXE+":schd_df",EXE+":reconstructed_sched_risk",EXE+":schd_beta",EXE+":boot_samples_returns")
''')
s=open('props.py').read()
if 'EXR=' not in s:
    s=s.replace("P=[]\n","EXR='examples/rates/principal_components_of_yield_curves.py'; EXE='examples/equities/beta_calculation.py'\nP=[]\n",1)
    open('props.py','w').write(s)
add.note('C137','partial',"Holds without hump terms (C137_no_hump_partial) and at the short end (C137_short_end); false otherwise: C137_error gives the exact error, C137_long_end_false the limits.")
add.note('C138','proved',"C138_closest, C138_best (Ky Fan), C138_scores, C138_sign, C138_changes; numpy's svd is any decomposition satisfying Spec.IsSvd.")
add.note('C139','partial',"C139_risk, C139_beta, C139_portfolio, C139_compounding proved; the returns are not relative changes (C139_returns_false) and the bootstrap raises (C139_bootstrap_raises).")
s=open('/verif/DESIGN.md').read()
l=[x for x in s.split('\n') if x.startswith('| C136 |')][0]+'\n'
s=s.replace(l,l+"""| C137 | yield_curve of examples/rates/principal_components_of_yield_curves.py (Model/Examples) against the average of Svensson's forward curve | antiderivative of the forward curve; limits of exponentials |
| C138 | the rest of that example: means, components, series, reconstruction; svd by its contract | Pythagoras for orthonormal families; Bessel's and Ky Fan's inequalities |
| C139 | examples/equities/beta_calculation.py: returns, regression by its contract, risk decomposition, bootstrap | the normal equations characterise the fits |
""",1)
s=s.replace("| examples/rates/delta_hedging.py (workflow) |","| examples/rates/principal_components_of_yield_curves.py, examples/equities/beta_calculation.py (computations) | `Model/Examples` | reading and plotting data, `np.linalg.svd` and `LinearRegression` (any results meeting their contracts) |\n| examples/rates/delta_hedging.py (workflow) |",1)
s=s.rstrip('\n')+"\n| the example's Svensson curve has exp(t/tau) for exp(-t/tau) in both hump terms: long yields diverge | C137_error, C137_long_end_false |\n| the equity example divides price changes by the new price: its returns are r/(1+r) | C139_returns_false |\n| the equity example's bootstrap raises IndexError: the table of returns has been overwritten by the frontier's target returns | C139_bootstrap_raises |\n"
open('/verif/DESIGN.md','w').write(s)
v=open('/verif/lean/Verif.lean').read().rstrip('\n')
v+='\nimport Verif.Model.Examples\nimport Verif.Spec.Examples\nimport Verif.Props.Svensson\nimport Verif.Props.PrincipalComponents\nimport Verif.Props.EquityExample'
open('/verif/lean/Verif.lean','w').write(v+'\n')
