import add,json
add.prop('''
p("Simulated rates are normal and simulated discount factors log-normal",
  "If the generator's draws are independent standard normals, then all values of a simulated Brownian motion are jointly normal with the covariances of a Brownian motion of the requested correlation; the rates of a simulated Vasicek model at all grid datetimes are jointly normal, with the means and covariances of the discretized equation, and so are the factors of a multivariate model at each grid datetime; the discount factors that create_discount_curve reports for the grid are log-normal and their average is exp(-M + V/2) for the mean M and variance V of the accumulated rate. With volatility, negative rates and discount factors above one have positive probability at every grid datetime after the start.",
  "every Brownian motion and Vasicek model that can be made, every forward step, grid, starting value and the law of the draws","A statement about a distribution: no finite number of simulated paths settles it.",BM+":BrownianMotion.generate_path",SR+":ShortRateModel.generate_path",SR+":ShortRateModel.create_discount_curve",VM+":VasicekModel")
p("Simulated geometric Brownian motions stay positive",
  "A geometric Brownian motion simulated from a positive start is positive (log-normal) at every grid datetime. (False: at every grid datetime after the start it is negative with positive probability, and the first step is normal, not log-normal. The probability of not being positive somewhere in the first n steps is at most the sum of exp(-(1 + drift dt)^2 / (2 volatility^2 dt)) over these steps.)",
  "every drift, non-zero volatility, forward step, grid and positive start, and the law of the draws","The exceptional draws are too rare to be met by any test.",GBM+":GeometricBrownianMotion",BM+":BrownianMotion.generate_path")
''')
add.note('C133','proved',"C133_brownian, C133_rates, C133_discounts (fixed-denominator conventions, as for C132), C133_factors (any invertible or non-invertible reversion, from C101); joint normality is Spec.JointlyNormal: every linear combination is normal with the stated mean and variance.")
add.note('C134','partial',"C134_positive_partial bounds the probability of a non-positive value, C134_first_step_partial gives the law of the first step; positivity itself is false (C134_false).")
s=open('/verif/DESIGN.md').read()
l=[x for x in s.split('\n') if x.startswith('| C132 |')][0]+'\n'
s=s.replace(l,l+"""| C133 | generate_path of Brownian motions, Vasicek and multivariate Vasicek models, and create_discount_curve, under the law of the draws | simulated values depend affinely on the draws (Props/NormalLaws); sums of independent normals are normal (Mathlib); means and covariances from C56, C87, C101; orthogonality of later draws |
| C134 | GeometricBrownianMotion.generate_path under the law of the draws | step factors are normal and independent across steps (C59_product); positive volume has positive Gaussian measure; Chernoff bound for the tail |
""",1)
s=s.rstrip('\n')+"\n| a simulated geometric Brownian motion with volatility is negative with positive probability at every grid datetime after the start; its first step is normal instead of log-normal | C134_false, C134_first_step_partial |\n"
open('/verif/DESIGN.md','w').write(s)
v=open('/verif/lean/Verif.lean').read().rstrip('\n')
for m in ['Spec.Normal','Props.NormalLaws','Props.SimulatedLaws','Props.SimulatedFactorLaws','Props.GeometricSigns']: v+='\nimport Verif.'+m
open('/verif/lean/Verif.lean','w').write(v+'\n')
