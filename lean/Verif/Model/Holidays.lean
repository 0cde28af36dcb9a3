/- Model of fixedIncome/src/scheduling_tools/holidays.py. -/
import Verif.Model.Date

namespace Verif

/-- Python list/set/generator comprehension `[f(x) for x in xs]`, raising the first exception met. -/
def collect {α β : Type} (f : α → Except PyErr β) : List α → Except PyErr (List β)
  | [] => .ok []
  | a :: as => do
    let b ← f a
    let bs ← collect f as
    .ok (b :: bs)

/-- holidays.py:16-19, `Holiday(Month, Day, Adjustment_Function)`.  `Months` members are identified with their number
(holidays.py:97); the adjustment function is arbitrary and may raise. -/
structure Holiday where
  month : Int
  day : Int
  adjust : PyDate → Except PyErr PyDate

/-- A `dict[str, Holiday]` in insertion order. -/
abbrev HolidayCalendar := List (String × Holiday)

/-- holidays.py:23-42. -/
def usFederalHolidayAdjustment (d : PyDate) : Except PyErr PyDate :=
  if d.weekday = 5 then d.addDays (-1)
  else if d.weekday = 6 then d.addDays 1
  else .ok d

/-- holidays.py:45-61 (also scheduler.py:18-20); `wd` is `weekday.value`. -/
def getNextWeekday (d : PyDate) (wd : Int) : Except PyErr PyDate :=
  if d.weekday = wd then .ok d
  else
    let daysDiff := (wd - d.weekday) % 7
    d.addDays daysDiff

/-- holidays.py:65-77, `US_FEDERAL_HOLIDAYS`. -/
def usFederalHolidays : HolidayCalendar :=
  [ ("NewYears",     ⟨1, 1, usFederalHolidayAdjustment⟩),
    ("MLK",          ⟨1, 17, usFederalHolidayAdjustment⟩),
    ("Presidents",   ⟨2, 15, fun d => getNextWeekday d 0⟩),
    ("Memorial",     ⟨5, 30, usFederalHolidayAdjustment⟩),
    ("Juneteenth",   ⟨6, 19, usFederalHolidayAdjustment⟩),
    ("Independence", ⟨7, 4, usFederalHolidayAdjustment⟩),
    ("Labor",        ⟨9, 1, fun d => getNextWeekday d 0⟩),
    ("Columbus",     ⟨10, 8, fun d => getNextWeekday d 0⟩),
    ("Veterans",     ⟨11, 11, usFederalHolidayAdjustment⟩),
    ("Thanksgiving", ⟨11, 22, fun d => getNextWeekday d 3⟩),
    ("Christmas",    ⟨12, 25, usFederalHolidayAdjustment⟩) ]

/-- `range(from_year, to_year+1)` of holidays.py:99. -/
def yearRange (fromYear toYear : Int) : List Int :=
  (List.range (toYear + 1 - fromYear).toNat).map (fun (i : Nat) => fromYear + (i : Int))

/-- holidays.py:80-101.  The returned set is modelled by a list used for membership only. -/
def generateHolidayDates (name : String) (fromYear toYear : Int) (cal : HolidayCalendar) :
    Except PyErr (List PyDate) :=
  match cal.lookup name with
  | none => .error .keyError
  | some h =>
    collect (fun y => do
      let base ← PyDate.mk? y h.month h.day
      h.adjust base) (yearRange fromYear toYear)

/-- holidays.py:104-115: union over all keys of the dictionary. -/
def generateAllHolidays (fromYear toYear : Int) (cal : HolidayCalendar) : Except PyErr (List PyDate) := do
  let sets ← collect (fun (kv : String × Holiday) => generateHolidayDates kv.1 fromYear toYear cal) cal
  .ok sets.flatten

end Verif
