import add
add.prop('''
p("A multivariate Vasicek model with one factor is the one-factor Vasicek model",
  "With intercept 0, coefficient 1 and the same level, speed and volatility, given the same Brownian motion, step and path generations, the two classes read the same short rates and agree on log-price coefficients and their maturity derivatives, expected short rates, variances, average expected rates, instantaneous forward rates and their volatilities, and for bonds bought at the start on prices, yields, yield convexities, price convexities and yield volatilities.",
  "every level, nonzero speed, volatility (nonnegative for volatilities), history of path generations, maturity and purchase date, and every scaling of the eigenvector numpy returns","Equality of two implementations over all real parameters and dates; the repository's tests compare them on one parameter set.",VM+":MultivariateVasicekModel",VM+":VasicekModel")
p("The larger mean-reverting models contain the smaller ones",
  "The long-term rate of the doubly and trebly mean-reverting models and the market price of risk of the stochastic-market-price-of-risk model are one-factor Vasicek models, and the long-term and medium rates of the trebly mean-reverting model are a doubly mean-reverting model: generated with the same seeds and starting values they are equal at every datetime.",
  "every parameters for which the constructors succeed, every period, step, seed, history of path generations and datetime","All seeds, histories, parameters and datetimes.",DM+":DoublyMeanRevertingVasicek",TM+":TreblyMeanRevertingVasicek",MP+":StochasticMarketPriceOfRisk",VM+":VasicekModel")
''')
add.note('C98','proved',"A refinement between the two models; MultivariateVasicekModel itself is abstract at this commit, so the multivariate side is its constructor's body as a concrete subclass runs it.")
add.note('C99','proved',"The three-factor classes are abstract at this commit; their constructors' bodies are meant, as a concrete subclass runs them.")
s=open('/verif/DESIGN.md').read()
l=[x for x in s.split('\n') if x.startswith('| C97 |')][0]+'\n'
s=s.replace(l,l+"""| C98 | Vasicek and MultiVasicek with p = 1 | same core after every history; the 1 × 1 matrices reduced to scalars with an arbitrary eigenvector |
| C99 | Doubly, Trebly, RiskPrice, Vasicek | a relation "first coordinates of" kept by path generation; leading block of a Cholesky factor |
""",1)
open('/verif/DESIGN.md','w').write(s)
v='/verif/lean/Verif.lean';s=open(v).read().rstrip('\n')
s+="\nimport Verif.Props.OneFactor\nimport Verif.Props.Nested\n";open(v,'w').write(s)
