/- Independent specification of the day count conventions. -/
import Verif.Model.DayCount

namespace Verif.Spec

/-- Denominator, in days, of the actual/fixed conventions. -/
def FixedDenominator : DayCountConvention → Option ℚ
  | .act360 => some 360
  | .act365 => some 365
  | .act36525 => some (1461 / 4)
  | _ => none

/-- Length of a calendar year in days. -/
def yearLength (y : Int) : Int := if isLeap y then 366 else 365

/-- The date as a point on the time axis measured in calendar years: year number plus the elapsed fraction of that year
at the end of the day. -/
def yearCoord (d : PyDate) : ℚ := d.year + ((d.ord - daysBeforeYear d.year : Int) : ℚ) / yearLength d.year

/-- Last day of February. -/
def IsLastOfFebruary (d : PyDate) : Prop := d.month = 2 ∧ d.day = daysInMonth d.year 2

instance (d : PyDate) : Decidable (IsLastOfFebruary d) := by unfold IsLastOfFebruary; infer_instance

/-- 30/360 US with the end-of-month rule, as published (and cited in the code): day numbers after adjustment. -/
def us30360Day1 (s : PyDate) : Int := if IsLastOfFebruary s ∨ s.day = 31 then 30 else s.day
def us30360Day2 (s e : PyDate) : Int :=
  if IsLastOfFebruary s ∧ IsLastOfFebruary e then 30
  else if e.day = 31 ∧ (s.day = 30 ∨ s.day = 31 ∨ IsLastOfFebruary s) then 30
  else e.day

/-- 30/360 US year fraction. -/
def us30360 (s e : PyDate) : ℚ :=
  ((360 * (e.year - s.year) + 30 * (e.month - s.month) + (us30360Day2 s e - us30360Day1 s) : Int) : ℚ) / 360

end Verif.Spec

namespace Verif.Spec

/-- The conventions that measure differences along a time axis (all except 30/360), with the axis: days over a fixed
denominator, or calendar years. -/
def timeAxis : DayCountConvention → Option (PyDate → ℚ)
  | .act360 => some (fun d => (d.ord : ℚ) / 360)
  | .act365 => some (fun d => (d.ord : ℚ) / 365)
  | .act36525 => some (fun d => (d.ord : ℚ) / (1461 / 4))
  | .actAct => some yearCoord
  | _ => none

/-- ACT/ACT cannot handle year 1 (the year before it does not exist); every other convention has no restriction. -/
def AxisOk (dcc : DayCountConvention) (d : PyDate) : Prop := dcc = .actAct → 2 ≤ d.year

instance (dcc : DayCountConvention) (d : PyDate) : Decidable (AxisOk dcc d) := by unfold AxisOk; infer_instance

/-- `τ` measures time from `ref` to the dates from `s` on as the convention does, and those dates lie after `ref`. -/
def MeasuresFrom (dcc : DayCountConvention) (ref s : PyDate) (τ : PyDate → ℚ) : Prop :=
  ∀ d, s ≤ d → DayCount.accrual ref d dcc = .ok (τ d - τ ref) ∧ τ ref < τ d

end Verif.Spec
