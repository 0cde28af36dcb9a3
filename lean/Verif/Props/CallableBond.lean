/- Property C94: callable bonds. -/
import Verif.Model.CallableBond
import Verif.Props.Bond

namespace Verif.Props
open Verif Verif.Spec

/-! ## C94 -/

/-- C94 (partial: see `C94_methods_raise`). A callable bond keeps its price, and its call options in the order of their dates, options of
one date in the order given; the spread of a credit default swap is the given one. -/
theorem C94_schedule_partial (price : ℚ) (t : BondTerms) (calls : List CallOption) (spread : ℚ) (n : Int) (d m : PyDate) :
    (CallableBond.create price t calls).price = .ok price ∧
    (∃ l, (CallableBond.create price t calls).callSchedule = some l ∧ l.Perm calls ∧
      l.Pairwise (fun a b => a.callDate ≤ b.callDate) ∧
      ∀ day, l.filter (fun c => c.callDate = day) = calls.filter (fun c => c.callDate = day)) ∧
    (CreditDefaultSwap.create spread n d m).creditDefaultSpread = spread := by
  refine ⟨rfl, ⟨_, rfl, pySorted_perm _ _, pySorted_sorted _ _, fun day => ?_⟩, rfl⟩
  simpa using pySorted_filter CallOption.callDate calls day

/-- C94 is false of the code: every other inherited method of a callable bond (present value, knot, yield, accrued interest, full
price, duration, … and every property but the price) raises AttributeError, for all arguments, because the constructor does not call
the one of FixedRateBond; on a FixedRateBond no method stops there. -/
theorem C94_methods_raise (price : ℚ) (t : BondTerms) (calls : List CallOption) (m : BondMethod) :
    ((CallableBond.create price t calls).start m = .error .attributeError ↔ m ≠ .price) ∧
    (⟨fixedRateAttrs, price, none⟩ : BondObject).start m = .ok () := by
  constructor
  · cases m <;> (try rename_i b; cases b) <;> simp [BondObject.start, CallableBond.create, BondMethod.firstRead]
  · cases m <;> (try rename_i b; cases b) <;> simp [BondObject.start, fixedRateAttrs, BondMethod.firstRead]

/-- Two call dates given in the wrong order. -/
example : (CallableBond.create 101 exTerms [⟨D 2026 1 1, 100⟩, ⟨D 2025 1 1, 102⟩]).callSchedule =
    some [⟨D 2025 1 1, 102⟩, ⟨D 2026 1 1, 100⟩] := by decide +kernel

/-- C94. A treasury future cannot even be constructed: whatever the arguments, the class raises TypeError because it leaves two abstract
methods undefined. -/
theorem C94_treasury_future_raises (calendar : HolidayCalendar) (purchase maturity : PyDate)
    (convention : Scheduler.SettlementConvention) :
    UsTreasuryFuture.create calendar purchase maturity convention = .error .typeError := rfl

end Verif.Props
