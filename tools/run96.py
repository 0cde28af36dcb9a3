import add
add.prop('''
p("Date arithmetic follows the Gregorian calendar",
  "Valid dates are exactly the Gregorian days of years 1-9999; adding days walks successor days (month ends, leap years, year ends), weekdays cycle, dates compare in calendar order, and adding months keeps the day or clips it to the month's end; overflow and range errors occur exactly when no such date exists.",
  "every date of the range, every number of days and months","3.6 million dates and unbounded offsets.",SCH+":Scheduler.add_business_days",SCH+":Scheduler.generate_dates_by_increments",HOL+":get_next_weekday")
p("Resetting a curve's values is the same as building a new curve",
  "After reset_interpolation_values or reset_interpolation_value the curve behaves exactly as one newly built from the new values, whatever was set before; a reset that raises leaves the curve as it was.",
  "every curve, every new value or list of values, every index","All knots, dates and histories of resets.",CV+":Curve.reset_interpolation_values",CV+":Curve.reset_interpolation_value")
''')
add.note('C96','proved',"The date substrate of the model, proved equal to an independent description of the Gregorian calendar (Spec/Gregorian).")
add.note('C97','partial',"False of the code for a single replacement whose date is out of order (C97_reset_value_false: the curve raises at the date just set) and for resets that raise (C97_failed_reset_false: the old values are gone). Proved otherwise.")
s=open('/verif/DESIGN.md').read()
import re
l=[x for x in s.split('\n') if x.startswith('| C95 |')][0]+'\n'
s=s.replace(l,l+"""| C96 | date, addDays, addMonths, weekday (Model/Date) against Spec/Gregorian | successor day = next ordinal by the month table; induction on the number of days |
| C97 | Curve.resetValues, resetValueAt | unfolding against the constructor; C27; counterexamples by the end behaviour |
""",1)
s=s.rstrip('\n')+"""
| reset_interpolation_value accepts dates out of order without sorting; a reset that raises has already replaced the values | C97_reset_value_false, C97_failed_reset_false |
"""
open('/verif/DESIGN.md','w').write(s)
v='/verif/lean/Verif.lean';s=open(v).read().rstrip('\n')
s+="\nimport Verif.Spec.Gregorian\nimport Verif.Props.Gregorian\nimport Verif.Props.CurveReset\nimport Verif.Validation\n";open(v,'w').write(s)
