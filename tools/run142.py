import add
add.prop('''
p("The risk of bonds, and the workflow of main.py",
  "On every discount curve a bond is worth exactly what the plain cashflow of its payments due from the next business day on is worth, and it has a value exactly when that cashflow has one. Two assets worth the same on all discount curves of a reference date are worth the same and have the same sensitivities, risks and risk ladders on every yield curve of that date, in either space and after any history. On a curve of continuously compounded yields reaching to the last payment, the pv01 of a bond with respect to a key rate is never positive, and zero exactly when no remaining positive payment is made where the key rate moves the curve; in discount factor space the ladder over a key-rate collection adds up to one basis point of the remaining payments. The workflow of main.py - bootstrapping a curve from bonds, the key rates of a portfolio of the same bonds, the risk ladder of a long-short portfolio - never raises for bonds whose last payments are after the reference date and on different dates: it gives one risk per last-payment date, in order, each the sum of quantity times the bond's own risk, and never positive without short positions.",
  "all bonds accepted by the constructors, curves, histories, key rates, collections, portfolios with any quantities and cash, and any behaviour of the numerical minimiser","All bonds and portfolios, all curves and all histories of pricings; the minimiser is arbitrary.",UST+":UsTreasuryBond.present_value",YC+":YieldCurve.calculate_pv01_risk",YC+":YieldCurve.calculate_pv01_risk_ladder",PF+":Portfolio.to_key_rate_collection",PF+":Portfolio.present_value","main.py:main")
''')
add.note('C142','proved',"C142_remaining, C142_transfer, C142_bond_value, C142_bond_risk, C142_bond_ladder, C142_workflow (one theorem from the bootstrap to the ladder, with the two-bond long-short example as its non-vacuity witness).")
s=open('/verif/DESIGN.md').read()
l=[x for x in s.split('\n') if x.startswith('| C141 |')][0]+'\n'
s=s.replace(l,l+"| C142 | bonds on yield curves, the workflow of main.py (composition of the existing models of Bond, CurveFactory, KeyRateSequence, Risk) | a bond and the cashflow of its remaining payments have the same values on every discount curve; induction over the ladder with the curve's history as invariant; C62/C103/C111 for signs, C30 for linearity, C40/C45 for existence |\n",1)
s=s.replace("main.py and the other examples/.","the other examples/ (the workflow of main.py, from the bootstrap to the risk ladder, is the subject of C142; its plots, prints and hand-written key rates are not).")
open('/verif/DESIGN.md','w').write(s)
v=open('/verif/lean/Verif.lean').read().rstrip('\n')
v+='\nimport Verif.Props.BondRisk'
open('/verif/lean/Verif.lean','w').write(v+'\n')
