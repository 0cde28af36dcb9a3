/- Independent specification of settlement dates, in terms of business days only. -/
import Verif.Spec.Calendar
import Verif.Model.Scheduler

namespace Verif.Spec
open Scheduler

/-- `r` is `n` business days after the first business day on or after `d`. -/
def BusinessDaysAfter (cal : HolidayCalendar) (d : PyDate) (n : Nat) (r : PyDate) : Prop :=
  ∃ r0 L, FirstOnOrAfter cal d r0 ∧ BusinessDay cal r ∧ r0 ≤ r ∧ BusinessDaysIn cal r0 r L ∧ L.length = n

/-- `r` is `n` business days before the first business day on or after `d`. -/
def BusinessDaysBefore (cal : HolidayCalendar) (d : PyDate) (n : Nat) (r : PyDate) : Prop :=
  ∃ r0 L, FirstOnOrAfter cal d r0 ∧ BusinessDay cal r ∧ r ≤ r0 ∧ BusinessDaysIn cal r r0 L ∧ L.length = n

/-- A trade on `d` with convention `c` settles on `r`. -/
def SettlesOn (cal : HolidayCalendar) (d : PyDate) (c : SettlementConvention) (r : PyDate) : Prop :=
  match c with
  | .tMinusTwoBusiness => BusinessDaysBefore cal d 2 r
  | .tMinusOneBusiness => BusinessDaysBefore cal d 1 r
  | .tMinusZeroBusiness => LastOnOrBefore cal d r
  | .tPlusZeroBusiness => BusinessDaysAfter cal d 0 r
  | .tPlusOneBusiness => BusinessDaysAfter cal d 1 r
  | .tPlusTwoBusiness => BusinessDaysAfter cal d 2 r
  | .tPlusThreeBusiness => BusinessDaysAfter cal d 3 r
  | _ => False

end Verif.Spec
