/- Model of fixedIncome/src/scheduling_tools/scheduler.py and schedule_enumerations.py. -/
import Verif.Model.Holidays
import Verif.Lemmas.Date

namespace Verif
namespace Scheduler

/-- scheduler.py:96-107, `Scheduler.is_business_day` on a `date`.  `Weekdays.SATURDAY.value` is 5 and
`Weekdays.SUNDAY.value` is 6 (schedule_enumerations.py).  Only holidays generated from the date's own year are
consulted. -/
def isBusinessDay (cal : HolidayCalendar) (d : PyDate) : Except PyErr Bool := do
  let isWeekday : Bool := d.weekday != 5 && d.weekday != 6
  let hols ← generateAllHolidays d.year d.year cal
  let notHoliday : Bool := !(hols.contains d)
  .ok (notHoliday && isWeekday)

/-- Loop bound: longer than the whole date range, so that running out is impossible (`roll_ne_fuel`). -/
def loopFuel : Nat := 3652061

/-- The loops `while not is_business_day(d): d += timedelta(days=step)` of scheduler.py:43-44, 70-72 (step 1) and
91-92 (step -1). -/
def roll (cal : HolidayCalendar) (step : Int) : Nat → PyDate → Except PyErr PyDate
  | 0, _ => .error .fuel
  | n + 1, d => do
    let b ← isBusinessDay cal d
    if b then .ok d
    else do
      let d' ← d.addDays step
      roll cal step n d'

/-- scheduler.py:54-74, `Scheduler.add_single_business_day`. -/
def addSingleBusinessDay (cal : HolidayCalendar) (d : PyDate) : Except PyErr PyDate := do
  let b ← isBusinessDay cal d
  if b then do
    let d' ← d.addDays 1
    roll cal 1 loopFuel d'
  else .error .valueError

/-- scheduler.py:76-94, `Scheduler.subtract_single_business_day`; the call `add_business_days(d, 0)` of line 88 is its
roll-forward loop (scheduler.py:43-44), the `for` loop being empty for 0. -/
def subtractSingleBusinessDay (cal : HolidayCalendar) (d : PyDate) : Except PyErr PyDate := do
  let b ← isBusinessDay cal d
  let d1 ← if b then .ok d else roll cal 1 loopFuel d
  let d2 ← d1.addDays (-1)
  roll cal (-1) loopFuel d2

/-- The `for _ in range(...)` loop of scheduler.py:48-50: `n` applications of a step. -/
def iterSteps (f : PyDate → Except PyErr PyDate) : Nat → PyDate → Except PyErr PyDate
  | 0, d => .ok d
  | n + 1, d => do
    let d' ← f d
    iterSteps f n d'

/-- scheduler.py:25-52, `Scheduler.add_business_days`. -/
def addBusinessDays (cal : HolidayCalendar) (d : PyDate) (businessDays : Int) : Except PyErr PyDate := do
  let d0 ← roll cal 1 loopFuel d
  if businessDays ≥ 0 then iterSteps (addSingleBusinessDay cal) businessDays.toNat d0
  else iterSteps (subtractSingleBusinessDay cal) (-businessDays).toNat d0

/-- The loop of scheduler.py:117-119. -/
def businessDayLoop (cal : HolidayCalendar) (endDate : PyDate) : Nat → PyDate → Except PyErr (List PyDate)
  | 0, _ => .error .fuel
  | n + 1, d =>
    if d ≤ endDate then do
      let d' ← addSingleBusinessDay cal d
      let rest ← businessDayLoop cal endDate n d'
      .ok (d :: rest)
    else .ok []

/-- scheduler.py:109-120, `Scheduler.generate_business_days`. -/
def generateBusinessDays (cal : HolidayCalendar) (startDate endDate : PyDate) : Except PyErr (List PyDate) := do
  let d ← addBusinessDays cal startDate 0
  businessDayLoop cal endDate loopFuel d

/-- The `increment` argument of `generate_dates_by_increments` (scheduler.py:124): a `timedelta` (only its `days`
component moves a `date`; its sign is the sign of the normalised `days` component because seconds are nonnegative),
a `relativedelta` with net months and days, or some other object. -/
inductive Increment
  | timedelta (days : Int)
  | relativedelta (months days : Int)
  | other
deriving DecidableEq, Repr

/-- `date + increment`; relativedelta moves months (clipping the day) and then days. -/
def addIncrement (d : PyDate) : Increment → Except PyErr PyDate
  | .timedelta k => d.addDays k
  | .relativedelta m k => do
    let e ← d.addMonths m
    e.addDays k
  | .other => .error .typeError

/-- scheduler.py:190-197, `Scheduler._is_relative_delta_positive`, and the timedelta case of scheduler.py:137-145. -/
def isPositive (d : PyDate) : Increment → Except PyErr Bool
  | .timedelta k => .ok (decide (0 ≤ k))
  | .relativedelta m k => do
    let e ← addIncrement d (.relativedelta m k)
    .ok (decide (d ≤ e))
  | .other => .error .typeError

/-- The loops of scheduler.py:147-156; the fuel is the number of iterations left before `count <= max_dates` fails. -/
def incrementLoop (inc : Increment) (positive : Bool) (endDate : PyDate) : Nat → PyDate → Except PyErr (List PyDate)
  | 0, _ => .ok []
  | n + 1, d =>
    if (if positive then d ≤ endDate else endDate ≤ d) then do
      let d' ← addIncrement d inc
      let rest ← incrementLoop inc positive endDate n d'
      .ok (d :: rest)
    else .ok []

/-- scheduler.py:122-158, `Scheduler.generate_dates_by_increments`. -/
def generateDatesByIncrements (startDate endDate : PyDate) (inc : Increment) (maxDates : Int := 1000) :
    Except PyErr (List PyDate) := do
  let pos ← isPositive startDate inc
  incrementLoop inc pos endDate (maxDates + 1).toNat startDate

/-- scheduler.py:161-169, `Scheduler.following_date_adjustment`. -/
def followingDateAdjustment (cal : HolidayCalendar) (d : PyDate) : Except PyErr PyDate := addBusinessDays cal d 0

/-- scheduler.py:171-188, `Scheduler.modified_following_date_adjustment`. -/
def modifiedFollowingDateAdjustment (cal : HolidayCalendar) (d : PyDate) : Except PyErr PyDate := do
  let c ← addBusinessDays cal d 0
  if c.month = d.month then .ok c else addBusinessDays cal d (-1)

/-- schedule_enumerations.py, `SettlementConvention`. -/
inductive SettlementConvention
  | tMinusTwoBusiness | tMinusOneBusiness | tMinusZeroBusiness | tPlusZeroBusiness | tPlusOneBusiness
  | tPlusTwoBusiness | tPlusThreeBusiness
  | tPlusZeroCalendar | tPlusOneCalendar | tPlusTwoCalendar | tPlusThreeCalendar
deriving DecidableEq, Repr

/-- scheduler.py:199-249, `Scheduler.calculate_settlement_date`. -/
def calculateSettlementDate (cal : HolidayCalendar) (purchase : PyDate) :
    SettlementConvention → Except PyErr PyDate
  | .tMinusTwoBusiness => addBusinessDays cal purchase (-2)
  | .tMinusOneBusiness => addBusinessDays cal purchase (-1)
  | .tMinusZeroBusiness => do
    let b ← isBusinessDay cal purchase
    if b then .ok purchase else addBusinessDays cal purchase (-1)
  | .tPlusZeroBusiness => addBusinessDays cal purchase 0
  | .tPlusOneBusiness => addBusinessDays cal purchase 1
  | .tPlusTwoBusiness => addBusinessDays cal purchase 2
  | .tPlusThreeBusiness => addBusinessDays cal purchase 3
  | _ => .error .valueError

end Scheduler
end Verif
