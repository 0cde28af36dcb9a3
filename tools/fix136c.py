f='/tmp/dev/Verif/Props/RoundedDefault.lean'
s=open(f).read()
s=s.replace('''  push_cast
  rw [← zpow_natCast, ← zpow_add₀ (by norm_num)]
  congr 1
  push_cast
  ring
''','''  rw [show ((2 ^ 52 : ℤ) : ℚ) = (2 : ℚ) ^ (52 : ℤ) by norm_num, ← zpow_add₀ (by norm_num)]
  congr 1
  ring
''')
s=s.replace("(fun _ => 1 / 10) 2 (1 / 4) (by norm_num) hrep","(fun _ => 1 / 10) 2 (1 / 4)\n    (one_div_le_one_div_of_le (by norm_num) (by rw [show (4 : ℚ) = 2 ^ 2 by norm_num]; exact pow_le_pow_right₀ (by norm_num) (by norm_num))) hrep")
s=s.replace("stops growing before `2 ^ 55` steps","stops growing before `2 ^ 54` steps (the time never passes `2 ^ 54` times the leading power of two of the step)")
open(f,'w').write(s)
