import add
add.prop('''
p("Key rates are totally ordered consistently with equality, and adding one to a collection keeps it valid",
  "For any two key rates exactly one of <, ==, > holds, <= means < or ==, equal key rates have equal hashes; and the methods that add a key rate or a collection to a collection return a sorted collection containing both, or leave the receiver as it was.",
  "every pair of key rates, every collection and every added key rate","Ranges over all dates, conventions and collections.",KR+":KeyRate.__lt__",KR+":KeyRate.__hash__",KR+":KeyRateCollection._add_key_rate",KR+":KeyRateCollection._add_key_rate_collection")
p("A callable bond supports everything a fixed rate bond does and keeps its call schedule in date order",
  "A CallableFixedRateBond can be priced, discounted and asked for its yield like any fixed rate bond, and its call options are ordered by date.",
  "every callable bond and every inherited method","All constructor arguments and methods.",CB+":CallableFixedRateBond.__init__",CB+":FixedRateBond.present_value")
''')
add.note('C93','partial',"False of the code: key rates of one date and different conventions are neither <, == nor > (C93_trichotomy_false); a failed union returns self with moved dates (C93_combine_false); _add_key_rate raises IndexError for dates on or after the last key date and ValueError, leaving a corrupted receiver, for existing dates (C93_add_last_raises, C93_add_duplicate_raises). The remaining cases are proved.")
add.note('C94','partial',"False of the code: the constructor stores only price and call schedule, so every inherited method except price raises AttributeError (C94_methods_raise). The ordering of the call schedule is proved.")
s=open('/verif/DESIGN.md').read()
a="| C92 | the yield equation of two bonds on one schedule | strict monotonicity of the discounted sum (C36) |\n"
assert a in s
s=s.replace(a,a+"""| C93 | KeyRate comparisons; the private adding methods | linear order on dates; bisect_right and C23; explicit counterexamples |
| C94 | attributes of a callable bond and first attribute read by each method | stable sort; case analysis over methods |
""",1)
s=s.rstrip('\n')+"""
| key rates of one date and different conventions are incomparable; failed unions move dates of the receiver; adding a key rate at or after the last date raises IndexError, at an existing date corrupts the receiver | C93_… |
| CallableFixedRateBond never initializes its base class: all methods but price raise AttributeError | C94_methods_raise |
"""
open('/verif/DESIGN.md','w').write(s)
v='/verif/lean/Verif.lean';s=open(v).read().rstrip('\n')
s+="\nimport Verif.Model.KeyRateOrder\nimport Verif.Props.KeyRateOrder\nimport Verif.Model.CallableBond\nimport Verif.Props.CallableBond\n";open(v,'w').write(s)
