import add
add.prop('''
p("A GeometricBrownianMotion as constructed and simulated",
  "The constructor accepts exactly the positive dimensions and positive definite correlation matrices (AssertionError and LinAlgError otherwise); an object constructed with a correlation matrix simulates paths with the mean and the products of coordinates of its parameters and exactly that matrix, and without one the coordinates are independent. The starting value must have one number per coordinate, or a single number which then stands for all; a python float, although annotated, raises AttributeError, other sizes ValueError, and so does every simulation if the dimension is not the size of the matrix. Simulations do not influence each other: the same draws and starting value give the same outcome whatever was simulated before; a path is stored exactly when asked for, and a failed simulation keeps the previous one.",
  "all parameters, intervals, steps, dimensions, correlation matrices, starting values, draws and histories of simulations","All matrices, laws of random paths and all histories.",GBM+":GeometricBrownianMotion.__init__",GBM+":GeometricBrownianMotion.generate_path")
''')
add.note('C141','proved',"C141_constructor, C141_default, C141_starting_value, C141_dimension_unchecked, C141_repeatable, C141_simulated.")
s=open('/verif/DESIGN.md').read()
l=[x for x in s.split('\n') if x.startswith('| C140 |')][0]+'\n'
s=s.replace(l,l+"| C141 | the GeometricBrownianMotion object (Model/GeometricInit): constructor, starting values, stored paths | C110 for the Brownian motion; invariant of the histories; C86 for the moments |\n",1)
s=s.rstrip('\n')+"\n| GeometricBrownianMotion.generate_path raises AttributeError for a float starting value although annotated with it | C141_starting_value |\n"
open('/verif/DESIGN.md','w').write(s)
v=open('/verif/lean/Verif.lean').read().rstrip('\n')
v+='\nimport Verif.Model.GeometricInit\nimport Verif.Props.GeometricInit'
open('/verif/lean/Verif.lean','w').write(v+'\n')
