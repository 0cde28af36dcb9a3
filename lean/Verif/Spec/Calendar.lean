/-
Independent specification of business days, holidays and counting of business days.
Nothing here refers to the algorithms of /repo: only to dates, weekdays and a calendar's templates.
-/
import Verif.Model.Holidays
import Verif.Lemmas.Date

namespace Verif.Spec

/-- Saturday and Sunday. -/
def IsWeekend (d : PyDate) : Prop := d.weekday = 5 ∨ d.weekday = 6

/-- `d` is the observed date of one of the calendar's holidays for year `y`: the template's nominal date
(year `y`, template month, template day) moved by the template's own adjustment function. -/
def ObservedIn (cal : HolidayCalendar) (y : Int) (d : PyDate) : Prop :=
  ∃ (name : String) (h : Holiday) (nominal : PyDate),
    cal.lookup name = some h ∧ nominal.year = y ∧ nominal.month = h.month ∧ nominal.day = h.day ∧
    h.adjust nominal = .ok d

/-- A business day in the sense of the code base: a weekday that is not an observed holiday of its own year. -/
def BusinessDay (cal : HolidayCalendar) (d : PyDate) : Prop :=
  ¬ IsWeekend d ∧ ¬ ObservedIn cal d.year d

/-- The calendar's templates can all be evaluated for year `y`: every nominal date exists and its adjustment does not
raise. -/
def Evaluable (cal : HolidayCalendar) (y : Int) : Prop :=
  ∀ name h, cal.lookup name = some h →
    ∃ nominal observed : PyDate, nominal.year = y ∧ nominal.month = h.month ∧ nominal.day = h.day ∧
      h.adjust nominal = .ok observed

/-- `L` lists, in strictly increasing order, exactly the business days of the half-open interval `[a, b)`. -/
def BusinessDaysIn (cal : HolidayCalendar) (a b : PyDate) (L : List PyDate) : Prop :=
  L.Pairwise (· < ·) ∧ ∀ e, e ∈ L ↔ a ≤ e ∧ e < b ∧ BusinessDay cal e

/-- `r` is the first business day on or after `d`. -/
def FirstOnOrAfter (cal : HolidayCalendar) (d r : PyDate) : Prop :=
  d ≤ r ∧ BusinessDay cal r ∧ ∀ e, d ≤ e → e < r → ¬ BusinessDay cal e

/-- `r` is the last business day strictly before `d`. -/
def LastBefore (cal : HolidayCalendar) (d r : PyDate) : Prop :=
  r < d ∧ BusinessDay cal r ∧ ∀ e, r < e → e < d → ¬ BusinessDay cal e

/-- `r` is the last business day on or before `d`. -/
def LastOnOrBefore (cal : HolidayCalendar) (d r : PyDate) : Prop :=
  r ≤ d ∧ BusinessDay cal r ∧ ∀ e, r < e → e ≤ d → ¬ BusinessDay cal e

/-- `d` is the `n`-th given weekday (`0` Monday … `6` Sunday) of month `m` of year `y`. -/
def NthWeekday (n wd y m : Int) (d : PyDate) : Prop :=
  d.year = y ∧ d.month = m ∧ d.weekday = wd ∧ 7 * (n - 1) < d.day ∧ d.day ≤ 7 * n

/-- `d` is the last given weekday of month `m` of year `y`. -/
def LastWeekday (wd y m : Int) (d : PyDate) : Prop :=
  d.year = y ∧ d.month = m ∧ d.weekday = wd ∧ daysInMonth y m - 7 < d.day

end Verif.Spec
