/- Independent specification of bond schedules. -/
import Verif.Spec.Calendar
import Verif.Model.Bond

namespace Verif.Spec

/-- Months between coupons. -/
def couponMonths : PaymentFrequency → Option Int
  | .annual => some 12
  | .semiAnnual => some 6
  | .quarterly => some 3
  | _ => none

/-- `d` is the payment date of a payment due on `u`: the first business day on or after `u`, or under MODIFIED_FOLLOWING the
last business day before `u` when that one falls in a month with another number. -/
def PaidOn (cal : HolidayCalendar) (adj : BusinessDayAdjustment) (u d : PyDate) : Prop :=
  match adj with
  | .following => FirstOnOrAfter cal u d
  | .modifiedFollowing => ∃ f, FirstOnOrAfter cal u f ∧ (f.month = u.month → d = f) ∧ (f.month ≠ u.month → LastBefore cal u d)

/-- `s` is one business day after `d`: the first business day after the first business day on or after `d`. -/
def NextSettlement (cal : HolidayCalendar) (d s : PyDate) : Prop :=
  ∃ r, FirstOnOrAfter cal d r ∧ r < s ∧ BusinessDay cal s ∧ ∀ e, r < e → e < s → ¬ BusinessDay cal e

/-- The sum of the amounts of the payments satisfying `P`, each multiplied by a weight depending on its payment date. -/
def weightedSum {α : Type} [AddCommMonoid α] (P : BondPayment → Prop) [DecidablePred P] (w : BondPayment → α)
    (l : List BondPayment) : α := (l.map (fun p => if P p then w p else 0)).sum

end Verif.Spec
