import add
add.prop('''
p("Business-day lists and windows have calendar-determined size",
  "The business days between two dates can be listed exactly when a business day exists beyond the end and before the end of the calendar (on the US calendar: every interval ending before 31 December 9999). Lists split at any date. A shift by n business days takes at least 7 days per five of them; on the US calendar less than a week per four of them plus a week, and a T+k settlement is between k and k+3 days after the purchase. Every w weeks of the US calendar have between 4w and 5w business days, and a calendar year has 249, 250 or 251, determined by its leap status and the weekday of 1 January.",
  "every holiday calendar (listing, splitting, lower bound), every pair of dates, every n, w and year 1..9999","There are unboundedly many intervals and calendars; tests list a few months.",SCH+":Scheduler.generate_business_days",SCH+":Scheduler.add_business_days",SCH+":Scheduler.calculate_settlement_date",HOL+":HolidayCalendar")
p("The Vasicek term structure has its textbook shape",
  "For a positive speed of reversion k, mean theta and volatility sigma: yields approach theta - sigma^2/(2k^2) at rate 1/T and instantaneous forwards exponentially; the yield curve rises when the short rate is at most theta - 3 sigma^2/(4k^2) and falls when it is at least theta; every yield is between min(r, long rate) and max(r, theta); the expected short rate is between r and theta and approaches theta exponentially; the variance rises with the horizon but stays below sigma^2/(2k); volatilities of yields and forwards fall with maturity and never exceed sigma.",
  "every one-factor Vasicek model with positive reversion speed, every short rate on its path and every maturity","The statements are inequalities over all real parameters and maturities and limits as the maturity grows.",VM+":VasicekModel",VM+":VasicekModel.expected_short_rate",VM+":VasicekModel.short_rate_variance")
''')
add.note('C112','proved',"Dates (datetimes ignore the holidays, C83).")
add.note('C113','proved',"Exact real arithmetic; yields use the time from the start of the Brownian motion, as the code does (C47_later_purchase_false); positive reversion speed.")
s=open('/verif/DESIGN.md').read()
l=[x for x in s.split('\n') if x.startswith('| C111 |')][0]+'\n'
s=s.replace(l,l+"""| C112 | `generate_business_days`, `add_business_days`, `calculate_settlement_date`, US holiday templates (Model/Scheduler, Model/Holidays) | invariant of the listing loop; counting business ordinals of a window; holidays are a week apart; the year count by cases on leap status and weekday of 1 January |
| C113 | the one-factor closed formulas (Model/Vasicek) | yields in terms of b = 1 - exp(-kT); concavity of b and 2b + b² (derivatives) for the shape; elementary bounds for the rest |
""",1)
s=s.rstrip('\n')+"\n| listing the business days up to 9999-12-31 raises OverflowError (the loop steps past its end before testing it) | C112_us_listable |\n"
open('/verif/DESIGN.md','w').write(s)
v=open('/verif/lean/Verif.lean').read()
for m in ['Props.BusinessDayCount','Props.TermStructure']:
    if f'import Verif.{m}\n' not in v: v=v.rstrip('\n')+f'\nimport Verif.{m}\n'
open('/verif/lean/Verif.lean','w').write(v)
