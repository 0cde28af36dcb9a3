import add,json
add.prop('''
p("Bond values at a fixed rate and yields are accurate in floating point",
  "With every float operation rounded and a power function accurate to two units in the last place, the constructor succeeds and discount_cashflows_by_fixed_rate differs from the exact value by at most 32 (N + 1) + 4 m units of rounding of that value, for m payments within N coupon periods. The rate returned as a yield differs from the exact yield by at most the floating-point residual the root finder saw plus a fixed number of units of rounding of price and value, divided by the price sensitivity.",
  "every coupon bond and note that can be constructed with principal at least one and nonnegative coupon that is not minute, every rate between minus half the frequency and the frequency, every reference date, every rounding and power function of the stated accuracy","Rounding errors depend on every input; samples do not bound the largest.",UST+":UsTreasuryBond.discount_cashflows_by_fixed_rate",CB+":FixedRateBond.discount_cashflows_by_fixed_rate",UST+":UsTreasuryBond.yield_to_maturity",CB+":FixedRateBond.yield_to_maturity")
''')
add.note('C131','proved',"C131_value, C131_yield, C131_constructs, C131_exact. The float power function is a parameter meeting Spec.PowerFn (relative error at most 4u where the power does not underflow); overflow is excluded by the bounds on rate and number of periods only in the sense of the rounding model, which has no largest number.")
s=open('/verif/DESIGN.md').read()
l=[x for x in s.split('\n') if x.startswith('| C130 |')][0]+'\n'
s=s.replace(l,l+"""| C131 | the bond constructor, discount_cashflows_by_fixed_rate and the function given to the root finder with every operation rounded (Model/RoundedYield), `**` an arbitrary float function within `4u` of the power | relative errors as factors `exp(±η)`, which multiply, add and pass through powers (Lemmas/Close); the yield's error from C130 |
""",1)
s=s.replace("C111, C128 and C129, rounding is not modelled","C111, C128, C129 and C131, rounding is not modelled")
s=s.replace("and C128 and C129 (prices and key-rate risk on a yield curve) put a","C128 and C129 (prices and key-rate risk on a yield curve) and C131 (bond values at a fixed rate, yields) put a")
open('/verif/DESIGN.md','w').write(s)
v=open('/verif/lean/Verif.lean').read().rstrip('\n')
for m in ['Spec.RoundedYield','Model.RoundedYield','Lemmas.Close','Props.RoundedYield']: v+='\nimport Verif.'+m
open('/verif/lean/Verif.lean','w').write(v+'\n')
