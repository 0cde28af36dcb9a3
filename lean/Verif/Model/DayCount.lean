/- Model of fixedIncome/src/scheduling_tools/day_count_calculator.py.  Floats are modelled by exact rationals. -/
import Verif.Model.Date
import Verif.Lemmas.Date
import Mathlib.Algebra.Order.Field.Rat

namespace Verif

/-- Python's `/` on numbers: ZeroDivisionError when the divisor is zero. -/
def pyDiv (a b : ℚ) : Except PyErr ℚ := if b = 0 then .error .zeroDivisionError else .ok (a / b)

/-- schedule_enumerations.py:17-22, plus `unknown` for any object that is not one of the five members. -/
inductive DayCountConvention
  | act360 | act365 | act36525 | actAct | thirty360 | unknown
deriving DecidableEq, Repr

/-- A `date`, or a naive `datetime` given by its date and microseconds since midnight.  The code distinguishes them by
`type(x) == date` (day_count_calculator.py:28, 32-40). -/
inductive DateLike
  | date (d : PyDate)
  | datetime (d : PyDate) (micros : Int) (h : 0 ≤ micros ∧ micros < 86400000000)
deriving DecidableEq

namespace DateLike

/-- `x.date()` for a datetime, `x` for a date (day_count_calculator.py:32). -/
def day : DateLike → PyDate
  | date d => d
  | datetime d _ _ => d

/-- Microseconds since midnight; `datetime.combine(d, time(0))` has none (day_count_calculator.py:37-39, 203-204). -/
def micros : DateLike → Int
  | date _ => 0
  | datetime _ m _ => m

/-- `type(x) != date` (day_count_calculator.py:28-40). -/
def isDatetime : DateLike → Bool
  | date _ => false
  | datetime _ _ _ => true

/-- Position on the time line, in microseconds. -/
def instant (x : DateLike) : Int := x.day.ord * 86400000000 + x.micros

end DateLike

namespace DayCount

/-- day_count_calculator.py:12-16, `time_fraction_in_years` of a timedelta of `s` seconds. -/
def timeFractionInYears (seconds : ℚ) : ℚ := seconds / (36525 / 100 * (24 * 60 * 60))

/-- day_count_calculator.py:99-105, 107-113, 115-121: `(end_date - start_date).days / q` on dates. -/
def actOver (q : ℚ) (s e : PyDate) : Except PyErr ℚ := .ok (((e.ord - s.ord : Int) : ℚ) / q)

/-- day_count_calculator.py:124-169, `_dcc_30_over_360` on dates: total adjusted days. -/
def thirty360Days (s e : PyDate) : Int :=
  let startLastFeb : Bool := s.month == 2 && s.day == 28
  let endLastFeb : Bool := e.month == 2 && e.day == 28
  let endDay := if startLastFeb && endLastFeb then 30 else e.day
  let startDay := if startLastFeb then 30 else s.day
  let endDay := if endDay = 31 ∧ (startDay = 31 ∨ startDay = 30) then 30 else endDay
  let startDay := if startDay = 31 then 30 else startDay
  360 * (e.year - s.year) + 30 * (e.month - s.month) + (endDay - startDay)

/-- day_count_calculator.py:124-169. -/
def thirty360 (s e : PyDate) : Except PyErr ℚ := .ok ((thirty360Days s e : ℚ) / 360)

/-- day_count_calculator.py:171-197, `_dcc_act_over_act` on dates. -/
def actAct (s e : PyDate) : Except PyErr ℚ := do
  let startEndThis ← PyDate.mk? s.year 12 31
  let startEndLast ← PyDate.mk? (s.year - 1) 12 31
  let endEndThis ← PyDate.mk? e.year 12 31
  let endEndLast ← PyDate.mk? (e.year - 1) 12 31
  if s.year = e.year then
    pyDiv ((e.ord - s.ord : Int) : ℚ) ((endEndThis.ord - endEndLast.ord : Int) : ℚ)
  else do
    let wholeYears : Int := e.year - s.year
    let startResidual ← pyDiv ((startEndThis.ord - s.ord : Int) : ℚ) ((startEndThis.ord - startEndLast.ord : Int) : ℚ)
    let endResidual ← pyDiv ((e.ord - endEndLast.ord : Int) : ℚ) ((endEndThis.ord - endEndLast.ord : Int) : ℚ)
    .ok (((wholeYears - 1 : Int) : ℚ) + startResidual + endResidual)

/-- day_count_calculator.py:18-56, the decorator `include_datetimes` applied to a day count `f` on dates. -/
def includeDatetimes (f : PyDate → PyDate → Except PyErr ℚ) (s e : DateLike) : Except PyErr ℚ :=
  if s.isDatetime = false ∧ e.isDatetime = false then f s.day e.day
  else do
    let startOuter := s.day
    let endOuter ← if e.isDatetime then e.day.addDays 1 else .ok e.day
    let startInner ← if s.isDatetime then s.day.addDays 1 else .ok s.day
    let endInner := e.day
    let inner ← f startInner endInner
    let outer ← f startOuter endOuter
    let diff := outer - inner
    let startSeconds : ℚ := ((startInner.ord * 86400000000 - s.instant : Int) : ℚ) / 1000000
    let startWidth : ℚ := ((startInner.ord - startOuter.ord : Int) : ℚ) * 86400
    let endSeconds : ℚ := ((e.instant - endInner.ord * 86400000000 : Int) : ℚ) / 1000000
    let endWidth : ℚ := ((endOuter.ord - endInner.ord : Int) : ℚ) * 86400
    let scaling ← pyDiv (startSeconds + endSeconds) (startWidth + endWidth)
    .ok (inner + diff * scaling)

/-- day_count_calculator.py:201-205. -/
def checkDates (s e : DateLike) : Bool := decide (s.instant ≤ e.instant)

/-- day_count_calculator.py:59-94, `compute_accrual_length`. -/
def computeAccrualLength (s e : DateLike) (dcc : DayCountConvention) : Except PyErr ℚ :=
  if checkDates s e then
    match dcc with
    | .act360 => includeDatetimes (actOver 360) s e
    | .act365 => includeDatetimes (actOver 365) s e
    | .act36525 => includeDatetimes (actOver (36525 / 100)) s e
    | .thirty360 => includeDatetimes thirty360 s e
    | .actAct => includeDatetimes actAct s e
    | .unknown => .error .typeError
  else .error .valueError

/-- `compute_accrual_length` on two dates. -/
def accrual (s e : PyDate) (dcc : DayCountConvention) : Except PyErr ℚ :=
  computeAccrualLength (.date s) (.date e) dcc

end DayCount
end Verif
