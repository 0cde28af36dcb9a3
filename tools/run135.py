import add
add.prop('''
p("Simulated default times are independent and their averages converge",
  "Although the paths draw from one stream and use a random number of draws each, the default times of different paths are independent and have the same law (that of C76); asking for more paths on the same draws only appends entries. The average over n paths of any quantity of the default time is unbiased, tends to its mean for almost all draws as n grows, and misses it by eps or more with probability at most the variance over n eps^2; so does the fraction of survivors. For a constant hazard rate with rate dt at most 1/2 the simulated survival probability differs from exp(-rate T) by a factor between exp(-2 rate^2 T dt) and exp(rate dt). With a step of at least the maturity no path defaults whatever the hazard.",
  "every hazard function, maturity, positive step, number of paths, quantity of the default time, and the law of the draws","Independence and almost sure convergence are statements about all draws and all numbers of paths.",DM+":default_bernoulli_paths")
''')
add.note('C135','proved',"C135_independent, C135_strong_law, C135_error, C135_survivors, C135_bias, C135_coarse_step; numpy's uniform draws are assumed independent and uniform on [0,1] (UniformDraws).")
s=open('/verif/DESIGN.md').read()
l=[x for x in s.split('\n') if x.startswith('| C134 |')][0]+'\n'
s=s.replace(l,l+"""| C135 | default_bernoulli_paths under the law of the draws, any number of paths on one stream | the event that the paths have given entries is a cylinder of consecutive draws, so its probability is the product of C76's; summing over entries gives independence; Mathlib's strong law and Chebyshev's inequality |
""",1)
s=s.rstrip('\n')+"\n| default_bernoulli_paths never tests the interval before maturity: with a step of at least the maturity every path survives whatever the hazard | C135_coarse_step |\n"
open('/verif/DESIGN.md','w').write(s)
v=open('/verif/lean/Verif.lean').read().rstrip('\n')
v+='\nimport Verif.Props.DefaultLaws'
open('/verif/lean/Verif.lean','w').write(v+'\n')
