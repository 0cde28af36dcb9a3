import add
add.prop('''
p("Simulated paths respond predictably to draws, starts and parameters",
  "Whether a simulation succeeds, and its grid, do not depend on draws or starting values. Paths do not look ahead: draws agreeing on the first n steps give equal paths up to step n. Brownian paths are linear in the draws (negated draws reflect the path). Without diffusion the draws do not matter, and a constant drift gives a straight line in elapsed time. Geometric paths scale with their start. Two Vasicek simulations with the same draws differ by the starting difference times the product of 1 - k dt; with steps no longer than 1/k a higher start and mean never give a lower rate.",
  "every diffusion, Brownian and geometric motion, every grid, every draw, every start; Vasicek: every parameter (comparison: positive speed, not 30/360)","Quantifies over pairs of runs and all real draws; tests fix a seed and compare one run.",BM+":BrownianMotion.generate_path",BP+":DiffusionProcess.generate_path",GBM+":GeometricBrownianMotion.generate_path",VM+":VasicekModel")
''')
add.note('C116','proved',"Exact real arithmetic; the draws of numpy's generator are an argument.")
s=open('/verif/DESIGN.md').read()
l=[x for x in s.split('\n') if x.startswith('| C115 |')][0]+'\n'
s=s.replace(l,l+"""| C116 | `generate_path` of Brownian motion, diffusions, geometric Brownian motion and the Vasicek model (Model/Stochastic, Model/Vasicek) | two runs compared step by step through the Euler recursions of C45, C47 and C59 |
""",1)
open('/verif/DESIGN.md','w').write(s)
v=open('/verif/lean/Verif.lean').read()
for m in ['Props.PathResponse']:
    if f'import Verif.{m}\n' not in v: v=v.rstrip('\n')+f'\nimport Verif.{m}\n'
open('/verif/lean/Verif.lean','w').write(v)
