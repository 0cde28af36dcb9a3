import add
add.prop('''
p("Simulated default times in floating point",
  "With a floating-point running time every path is tested at the same N float times, the first ones of dt, dt+dt rounded, ...; N is the number of grid times before maturity of exact arithmetic, or one more or one less, and the j-th float time misses (j+1) dt by at most 2 j (j+1) dt roundings. Each entry is the first of them whose draw is at most the rounded product of hazard and step, NaN if there is none, and the next path goes on with the next draw. In double precision both deviations occur (step 1.7 and maturity 13.6: one test more; step 0.9 and maturity 2.7: one less), and for a maturity of more than 2^54 leading powers of two of the step a path without a default never ends.",
  "every hazard function, representable step, maturity, number of paths and sequence of draws, and every rounding with relative error u such that 4 (steps+2)^2 u <= 1","The number of tests depends on accumulated rounding for every step and maturity; no sample shows that it is off by at most one.",DM+":default_bernoulli_paths")
''')
add.note('C136','proved',"C136_paths (C136_count, C136_times for the times), C136_exact (agrees with C76's model without rounding), C136_extra_test, C136_missing_test, C136_stalls (why the number of steps must be bounded).")
s=open('/verif/DESIGN.md').read()
l=[x for x in s.split('\n') if x.startswith('| C135 |')][0]+'\n'
s=s.replace(l,l+"""| C136 | default_bernoulli_paths with every float operation rounded (Model/RoundedDefault) | induction on the steps for the error of the running time; monotone rounding makes the tested times an initial segment; the loop from any reached time; the two double-precision examples step by step |
""",1)
s=s.rstrip('\n')+"\n| default_bernoulli_paths accumulates the running time in floating point: depending on step and maturity it tests one interval more or one less than the grid has | C136_extra_test, C136_missing_test |\n| for a maturity of more than 2^54 leading powers of two of the step the simulation loop never ends unless a draw defaults | C136_stalls |\n"
open('/verif/DESIGN.md','w').write(s)
v=open('/verif/lean/Verif.lean').read().rstrip('\n')
v+='\nimport Verif.Model.RoundedDefault\nimport Verif.Props.RoundedDefault'
open('/verif/lean/Verif.lean','w').write(v+'\n')
