/-
Python's `datetime.date` (CPython Lib/datetime.py) as used throughout /repo:
proleptic Gregorian calendar, years 1..9999, `toordinal`/`fromordinal`, weekday arithmetic, `date + timedelta`,
and `dateutil.relativedelta` month arithmetic.  No file of /repo defines these; every file imports them, e.g.
fixedIncome/src/scheduling_tools/scheduler.py:7-8 and fixedIncome/src/scheduling_tools/holidays.py:10.
-/
import Mathlib.Order.Basic
import Mathlib.Data.Int.Order.Basic

namespace Verif

/-- The python exceptions which the modelled code can raise.  `fuel` is not a python exception: it marks a loop bound
of the model running out, and is proved unreachable wherever a loop is modelled with fuel. -/
inductive PyErr
  | valueError | overflowError | typeError | indexError | keyError | zeroDivisionError | attributeError
  | nameError | stopIteration | assertionError | linAlgError | fuel
deriving DecidableEq, Repr

/-- Leap years of the Gregorian calendar (CPython datetime.py `_is_leap`; used by every `date` in /repo). -/
def isLeap (y : Int) : Bool := y % 4 == 0 && (y % 100 != 0 || y % 400 == 0)

/-- Month lengths (CPython `_days_in_month`, `calendar.monthrange(y, m)[1]`;
e.g. fixedIncome/src/assets/credit/loan.py:81). -/
def daysInMonth (y m : Int) : Int :=
  if m = 2 then (if isLeap y then 29 else 28)
  else if m = 4 ∨ m = 6 ∨ m = 9 ∨ m = 11 then 30 else 31

/-- Days before 1 January of year `y` (CPython `_days_before_year`). -/
def daysBeforeYear (y : Int) : Int := (y - 1) * 365 + (y - 1) / 4 - (y - 1) / 100 + (y - 1) / 400

/-- Days before the first of month `m` within a non-leap year (CPython `_DAYS_BEFORE_MONTH`). -/
def cumDays (m : Int) : Int :=
  if m ≤ 1 then 0 else if m = 2 then 31 else if m = 3 then 59 else if m = 4 then 90 else if m = 5 then 120
  else if m = 6 then 151 else if m = 7 then 181 else if m = 8 then 212 else if m = 9 then 243
  else if m = 10 then 273 else if m = 11 then 304 else 334

/-- Days before the first of month `m` in year `y` (CPython `_days_before_month`). -/
def daysBeforeMonth (y m : Int) : Int := cumDays m + (if m > 2 ∧ isLeap y = true then 1 else 0)

/-- Validity check of the `date(year, month, day)` constructor (CPython `_check_date_fields`). -/
def validYMD (y m d : Int) : Bool :=
  decide (1 ≤ y ∧ y ≤ 9999 ∧ 1 ≤ m ∧ m ≤ 12 ∧ 1 ≤ d ∧ d ≤ daysInMonth y m)

/-- A python `datetime.date` object. -/
structure PyDate where
  year : Int
  month : Int
  day : Int
  valid : validYMD year month day = true
deriving DecidableEq

instance : Repr PyDate := ⟨fun d _ => repr (d.year, d.month, d.day)⟩

namespace PyDate

/-- The constructor `date(year, month, day)`: ValueError when a field is out of range
(e.g. fixedIncome/src/scheduling_tools/holidays.py:98). -/
def mk? (y m d : Int) : Except PyErr PyDate :=
  if h : validYMD y m d = true then .ok ⟨y, m, d, h⟩ else .error .valueError

/-- `date.toordinal()` (CPython `_ymd2ord`); 0001-01-01 is day 1. -/
def ord (d : PyDate) : Int := daysBeforeYear d.year + daysBeforeMonth d.year d.month + d.day

/-- `date.max.toordinal()`. -/
def maxOrd : Int := 3652059

/-- Year containing ordinal `n` (CPython `_ord2ymd`). -/
def yearOfOrd (n : Int) : Int :=
  let n0 := n - 1
  let n400 := n0 / 146097
  let r400 := n0 % 146097
  let n100 := r400 / 36524
  let r100 := r400 % 36524
  let n4 := r100 / 1461
  let r4 := r100 % 1461
  let n1 := r4 / 365
  let y := n400 * 400 + n100 * 100 + n4 * 4 + n1 + 1
  if n1 = 4 ∨ n100 = 4 then y - 1 else y

/-- Month containing the 1-based day-of-year `k` of a year whose leap flag adds `l` to months after February
(CPython `_ord2ymd`, which estimates the month and corrects by one; here by comparison with the month table). -/
def monthOfDay (k l : Int) : Int :=
  if k ≤ 31 then 1 else if k ≤ 59 + l then 2 else if k ≤ 90 + l then 3 else if k ≤ 120 + l then 4
  else if k ≤ 151 + l then 5 else if k ≤ 181 + l then 6 else if k ≤ 212 + l then 7 else if k ≤ 243 + l then 8
  else if k ≤ 273 + l then 9 else if k ≤ 304 + l then 10 else if k ≤ 334 + l then 11 else 12

/-- 0/1 leap flag as an integer. -/
def leapDay (y : Int) : Int := if isLeap y = true then 1 else 0

/-- `date.fromordinal(n)`; `none` is CPython's out-of-range error. -/
def ofOrd? (n : Int) : Option PyDate :=
  if 1 ≤ n ∧ n ≤ maxOrd then
    let y := yearOfOrd n
    let k := n - daysBeforeYear y
    let m := monthOfDay k (leapDay y)
    let d := k - daysBeforeMonth y m
    if h : validYMD y m d = true then some ⟨y, m, d, h⟩ else none
  else none

/-- `date + timedelta(days=k)`: OverflowError outside 0001-01-01..9999-12-31
(e.g. fixedIncome/src/scheduling_tools/scheduler.py:44,68,72,89,92). -/
def addDays (d : PyDate) (k : Int) : Except PyErr PyDate :=
  match ofOrd? (d.ord + k) with
  | some e => .ok e
  | none => .error .overflowError

/-- `date.weekday()`: Monday is 0, Sunday is 6 (CPython `(toordinal() + 6) % 7`). -/
def weekday (d : PyDate) : Int := (d.ord + 6) % 7

/-- `d + relativedelta(months=k)` for a signed number of months (years are 12 months); dateutil clips the day to the
length of the target month and `date.replace` raises ValueError outside years 1..9999.
Simplified to total-month arithmetic, which is what dateutil's normalised years/months carry computes. -/
def addMonths (d : PyDate) (k : Int) : Except PyErr PyDate :=
  let t := d.year * 12 + (d.month - 1) + k
  let y := t / 12
  let m := t % 12 + 1
  mk? y m (min d.day (daysInMonth y m))

end PyDate
end Verif
