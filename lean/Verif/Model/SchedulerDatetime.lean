/- Model of fixedIncome/src/scheduling_tools/scheduler.py on `datetime` arguments (`datetime` is a subclass of `date`). -/
import Verif.Model.Scheduler
import Verif.Model.Datetime

namespace Verif
namespace DtScheduler
open Scheduler

/-- A day with the time of day of `d`. -/
def atTimeOf (d : PyDatetime) (e : PyDate) : PyDatetime := ⟨e, d.micros, d.bounds⟩

/-- Python's `x in dates` for a `datetime` `x` and a set of `date`s (scheduler.py:103): `date.__eq__` and
`datetime.__eq__` of CPython never hold between a `date` and a `datetime`, so the answer is the search for an element
equal to `x` with an equality that is always false. -/
def inDates (_x : PyDatetime) (dates : List PyDate) : Bool := dates.any (fun _ => false)

/-- scheduler.py:96-107, `Scheduler.is_business_day` on a `datetime`: `weekday()` and `year` are those of the day. -/
def isBusinessDay (cal : HolidayCalendar) (d : PyDatetime) : Except PyErr Bool := do
  let isWeekday : Bool := d.day.weekday != 5 && d.day.weekday != 6
  let hols ← generateAllHolidays d.day.year d.day.year cal
  let notHoliday : Bool := !(inDates d hols)
  .ok (notHoliday && isWeekday)

/-- The loops `while not is_business_day(d): d += timedelta(days=step)` of scheduler.py:43-44, 70-72 and 91-92. -/
def roll (cal : HolidayCalendar) (step : Int) : Nat → PyDatetime → Except PyErr PyDatetime
  | 0, _ => .error .fuel
  | n + 1, d => do
    let b ← isBusinessDay cal d
    if b then .ok d
    else do
      let d' ← d.addMicros (step * dayMicros)
      roll cal step n d'

/-- scheduler.py:54-74. -/
def addSingleBusinessDay (cal : HolidayCalendar) (d : PyDatetime) : Except PyErr PyDatetime := do
  let b ← isBusinessDay cal d
  if b then do
    let d' ← d.addMicros dayMicros
    roll cal 1 loopFuel d'
  else .error .valueError

/-- scheduler.py:76-94. -/
def subtractSingleBusinessDay (cal : HolidayCalendar) (d : PyDatetime) : Except PyErr PyDatetime := do
  let b ← isBusinessDay cal d
  let d1 ← if b then .ok d else roll cal 1 loopFuel d
  let d2 ← d1.addMicros (-dayMicros)
  roll cal (-1) loopFuel d2

/-- The `for` loop of scheduler.py:48-50. -/
def iterSteps (f : PyDatetime → Except PyErr PyDatetime) : Nat → PyDatetime → Except PyErr PyDatetime
  | 0, d => .ok d
  | n + 1, d => do
    let d' ← f d
    iterSteps f n d'

/-- scheduler.py:25-52. -/
def addBusinessDays (cal : HolidayCalendar) (d : PyDatetime) (businessDays : Int) : Except PyErr PyDatetime := do
  let d0 ← roll cal 1 loopFuel d
  if businessDays ≥ 0 then iterSteps (addSingleBusinessDay cal) businessDays.toNat d0
  else iterSteps (subtractSingleBusinessDay cal) (-businessDays).toNat d0

/-- scheduler.py:161-169. -/
def followingDateAdjustment (cal : HolidayCalendar) (d : PyDatetime) : Except PyErr PyDatetime := addBusinessDays cal d 0

/-- scheduler.py:171-188. -/
def modifiedFollowingDateAdjustment (cal : HolidayCalendar) (d : PyDatetime) : Except PyErr PyDatetime := do
  let c ← addBusinessDays cal d 0
  if c.day.month = d.day.month then .ok c else addBusinessDays cal d (-1)

/-- The loop of scheduler.py:117-119 with a `datetime` end. -/
def businessDayLoop (cal : HolidayCalendar) (endDate : PyDatetime) : Nat → PyDatetime → Except PyErr (List PyDatetime)
  | 0, _ => .error .fuel
  | n + 1, d =>
    if d ≤ endDate then do
      let d' ← addSingleBusinessDay cal d
      let rest ← businessDayLoop cal endDate n d'
      .ok (d :: rest)
    else .ok []

/-- scheduler.py:109-120 between two `datetime`s. -/
def generateBusinessDays (cal : HolidayCalendar) (startDate endDate : PyDatetime) : Except PyErr (List PyDatetime) := do
  let d ← addBusinessDays cal startDate 0
  businessDayLoop cal endDate loopFuel d

/-- scheduler.py:109-120 with a `datetime` and a `date`: the first comparison of line 117 raises TypeError. -/
def generateBusinessDaysMixed (cal : HolidayCalendar) (startDate : PyDatetime) (_endDate : PyDate) :
    Except PyErr (List PyDatetime) := do
  let _ ← addBusinessDays cal startDate 0
  .error .typeError

/-- scheduler.py:199-249 on a `datetime`. -/
def calculateSettlementDate (cal : HolidayCalendar) (purchase : PyDatetime) :
    SettlementConvention → Except PyErr PyDatetime
  | .tMinusTwoBusiness => addBusinessDays cal purchase (-2)
  | .tMinusOneBusiness => addBusinessDays cal purchase (-1)
  | .tMinusZeroBusiness => do
    let b ← isBusinessDay cal purchase
    if b then .ok purchase else addBusinessDays cal purchase (-1)
  | .tPlusZeroBusiness => addBusinessDays cal purchase 0
  | .tPlusOneBusiness => addBusinessDays cal purchase 1
  | .tPlusTwoBusiness => addBusinessDays cal purchase 2
  | .tPlusThreeBusiness => addBusinessDays cal purchase 3
  | _ => .error .valueError

end DtScheduler
end Verif
