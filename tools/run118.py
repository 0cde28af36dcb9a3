import add
add.prop('''
p("A bond's value is strictly convex in its yield",
  "The fixed-rate value of a bond is strictly convex in the rate: a duration estimate of the value after any rate change is too low, a fall of the yield gains more than an equal rise loses, the estimate that also uses the second derivative is too high after a rise and too low after a fall. The numerical derivative pv_deriv rises strictly with the yield and always overstates the exact sensitivity, by less than the second derivative times half a basis point.",
  "every bond with coupons, every day-count convention with a time axis, all pairs of rates above minus the payment frequency","Convexity and the sign of the approximation errors quantify over all pairs of yields and all schedules; tests evaluate a few yields.",UST+":UsTreasuryBond.discount_cashflows_by_fixed_rate",UST+":UsTreasuryBond.pv_deriv",CB+":FixedRateBond")
''')
add.note('C118','proved',"C118_convex (strict convexity, tangents, gains exceed losses, the exact second derivative is positive and falling), C118_second_order (sign of the error of the second-order estimate), C118_pv_deriv (the central difference is increasing and overstates, with an explicit bound).")
s=open('/verif/DESIGN.md').read()
l=[x for x in s.split('\n') if x.startswith('| C117 |')][0]+'\n'
s=s.replace(l,l+"""| C118 | discount_by_fixed_rate and pv_deriv (Model/Bond) | C82's derivative is strictly monotone and differentiable; mean value theorem; tangent inequalities integrated once and twice |
""",1)
open('/verif/DESIGN.md','w').write(s)
v=open('/verif/lean/Verif.lean').read()
for m in ['Props.PriceConvexity']:
    if f'import Verif.{m}\n' not in v: v=v.rstrip('\n')+f'\nimport Verif.{m}\n'
open('/verif/lean/Verif.lean','w').write(v)
