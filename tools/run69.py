import add
add.note('C69','partial',"For the constructor bodies: paths, bond prices and expected rates for every purchase date when the three speeds differ (C69_trebly_price_partial, C69_risk_price_partial), which is exactly when the reversion matrix the closed forms diagonalize is diagonalizable (C69_diagonalizable_iff). Missing because false of the code: the classes are abstract (instantiation is a TypeError, C102_abstract_classes), and equal speeds have no eigenbasis.")
s=open('/verif/DESIGN.md').read()
s=s.replace("| C69 | 3x3 matrices | Cholesky root gives the correlated shocks |","| C69 | 3x3 matrices | Cholesky root gives the correlated shocks; prices and means by C63 and C65 for the chain of three factors, written rate by rate in Spec/MeanReverting |")
open('/verif/DESIGN.md','w').write(s)
v=open('/verif/lean/Verif.lean').read()
for m in ['Props.ThreeFactorPrices']:
    if f'import Verif.{m}\n' not in v: v=v.rstrip('\n')+f'\nimport Verif.{m}\n'
open('/verif/lean/Verif.lean','w').write(v)
