import add,json
add.prop('''
p("Simulated discount factors agree with the model's own expected rates and prices",
  "In a Vasicek simulation started at its long-run mean, minus the logarithm of the discount factor that create_discount_curve reports for a grid datetime averages, over the random draws, to the time from the start times average_expected_short_rate; and without volatility the discount factor is zero_coupon_bond_price. (It holds up to the first step. From the second step on it fails for every positive mean: the average is too great, with n equal steps by the factor (n + 1) / 2, and without volatility every discount factor is below the model's price.)",
  "every Vasicek model that can be made, every forward step, grid and day count convention with a fixed denominator, every starting rate equal to the mean and the law of the standard normal draws","The average is over a continuum of draws; a test sees finitely many simulations.",SR+":ShortRateModel.create_discount_curve",SR+":ShortRateModel.generate_integrated_path",VM+":VasicekModel.average_expected_short_rate",VM+":VasicekModel.zero_coupon_bond_price")
''')
add.note('C132','partial',"C132_stationary_partial up to the first step; false afterwards (C132_stationary_false, C132_riskless_false), because the integrated path weights each step with the time from the start (C46_false). C132_path and C132_mean give what the code computes for any starting rate.")
s=open('/verif/DESIGN.md').read()
l=[x for x in s.split('\n') if x.startswith('| C131 |')][0]+'\n'
s=s.replace(l,l+"""| C132 | generate_path, create_discount_curve and the closed forms of the Vasicek model together | C46_computed on the simulated path, C87 for the mean of the rates, C103 for the curve at its knots, C47 for the closed forms; sums of elapsed times |
""",1)
s=s.rstrip('\n')+"\n| A Vasicek simulation started at its long-run mean reports discount factors whose logarithm is, on average and with n equal steps, (n + 1) / 2 times what the model's average expected short rate implies; without volatility every discount factor from the second step on is below the model's zero-coupon bond price | C132_stationary_false, C132_riskless_false |\n"
open('/verif/DESIGN.md','w').write(s)
v=open('/verif/lean/Verif.lean').read().rstrip('\n')
for m in ['Props.SimulatedDiscounts']: v+='\nimport Verif.'+m
open('/verif/lean/Verif.lean','w').write(v+'\n')
