import add
add.prop('''
p("Moments of simulated multi-factor rates match the closed forms",
  "With independent standard normal draws, the simulated state variables of a multivariate Vasicek model have at every grid point exactly the mean and covariance of the discretized equation; under a fixed-denominator convention, with positive reversion speeds and steps no longer than the reciprocal of each speed, the means of state and short rate are the model's own expected_state_variables_mean and expected_short_rate, and the covariances the solution of the model's covariance equation, up to an explicit constant times the sum of the squared step lengths.",
  "every dimension, reversion matrix with a correct diagonalization, volatility, correlation factor, step, starting state and grid point","An expectation over all draws cannot be settled by any finite number of simulated paths.",VM+":MultivariateVasicekModel.generate_path",VM+":MultivariateVasicekModel.expected_state_variables_mean",BM+":BrownianMotion.generate_increments")
''')
add.note('C101','proved',"numpy's eigendecomposition and normal draws are parameters (a correct diagonalization; independent standard normals). The simulated covariance is compared with the equation's solution, not with state_variables_covariance/short_rate_variance, which the code gets wrong when eigenvectors are not orthonormal (C65_covariance_false).")
s=open('/verif/DESIGN.md').read()
l=[x for x in s.split('\n') if x.startswith('| C100 |')][0]+'\n'
s=s.replace(l,l+"""| C101 | MultiVasicek.generatePath over a probability space of draws | vector autoregression by induction over the grid; change to eigenvector coordinates; per-step error of the Euler decay against the exponential, for each coordinate (mean) and each pair (covariance) |
""",1)
open('/verif/DESIGN.md','w').write(s)
v='/verif/lean/Verif.lean';s=open(v).read().rstrip('\n')
s+="\nimport Verif.Props.SimulatedFactors\n";open(v,'w').write(s)
