/-
Model validation: the concrete cases of the repository's own unit tests (fixedIncome/tests), evaluated on the model by the
kernel.  These are tests of the model, not property theorems: they are evidence that the definitions in `Verif/Model` compute
what the code's authors expect of the code.
-/
import Verif.Props.Scheduling
import Verif.Model.DayCount
import Verif.Model.Loan
import Verif.Model.KeyRate
import Verif.Model.Curve

namespace Verif.Validation
open Verif Verif.Scheduler Verif.DayCount
open Verif.Props (D)

/-! ### tests/test_scheduling_tools/test_day_count_calculator.py -/

example : accrual (D 2016 6 1) (D 2016 9 1) .actAct = .ok (92 / 366) := by decide +kernel
example : accrual (D 2016 6 1) (D 2016 9 1) .act360 = .ok (92 / 360) := by decide +kernel
example : accrual (D 2016 6 1) (D 2016 9 1) .act365 = .ok (92 / 365) := by decide +kernel
example : accrual (D 2016 6 1) (D 2016 9 1) .thirty360 = .ok (90 / 360) := by decide +kernel
example : computeAccrualLength (.datetime (D 2016 6 1) 0 (by decide)) (.datetime (D 2016 9 1) 0 (by decide)) .actAct
    = .ok (92 / 366) := by decide +kernel

/-! ### tests/test_scheduling_tools/test_holidays.py -/

example : generateHolidayDates "Christmas" 2022 2023 usFederalHolidays = .ok [D 2022 12 26, D 2023 12 25] := by
  decide +kernel
example : generateAllHolidays 2023 2023 usFederalHolidays = .ok
    [D 2023 1 2, D 2023 1 17, D 2023 2 20, D 2023 5 30, D 2023 6 19, D 2023 7 4, D 2023 9 4, D 2023 10 9, D 2023 11 10,
     D 2023 11 23, D 2023 12 25] := by decide +kernel
example : getNextWeekday (D 2023 10 28) 4 = .ok (D 2023 11 3) ∧ getNextWeekday (D 2023 10 28) 5 = .ok (D 2023 10 28) := by
  decide +kernel
example : generateHolidayDates "Presidents" 2043 2043 usFederalHolidays = .ok [D 2043 2 16] := by decide +kernel

/-! ### tests/test_scheduling_tools/test_scheduler.py -/

example : addBusinessDays usFederalHolidays (D 2023 10 26) 1 = .ok (D 2023 10 27) ∧
    addBusinessDays usFederalHolidays (D 2023 10 27) 1 = .ok (D 2023 10 30) ∧
    addBusinessDays usFederalHolidays (D 2023 10 26) 2 = .ok (D 2023 10 30) ∧
    addBusinessDays usFederalHolidays (D 2023 12 22) 1 = .ok (D 2023 12 26) := by decide +kernel
example : subtractSingleBusinessDay usFederalHolidays (D 2022 12 27) = .ok (D 2022 12 23) ∧
    subtractSingleBusinessDay usFederalHolidays (D 2023 10 24) = .ok (D 2023 10 23) := by decide +kernel
example : generateBusinessDays usFederalHolidays (D 2023 10 15) (D 2023 10 29) = .ok
    [D 2023 10 16, D 2023 10 17, D 2023 10 18, D 2023 10 19, D 2023 10 20,
     D 2023 10 23, D 2023 10 24, D 2023 10 25, D 2023 10 26, D 2023 10 27] := by decide +kernel
example : generateDatesByIncrements (D 2022 1 1) (D 2023 1 1) (.relativedelta 1 0) = .ok
    [D 2022 1 1, D 2022 2 1, D 2022 3 1, D 2022 4 1, D 2022 5 1, D 2022 6 1, D 2022 7 1, D 2022 8 1, D 2022 9 1,
     D 2022 10 1, D 2022 11 1, D 2022 12 1, D 2023 1 1] := by decide +kernel
example : generateDatesByIncrements (D 2023 1 1) (D 2022 1 1) (.relativedelta (-1) 0) = .ok
    [D 2023 1 1, D 2022 12 1, D 2022 11 1, D 2022 10 1, D 2022 9 1, D 2022 8 1, D 2022 7 1, D 2022 6 1, D 2022 5 1,
     D 2022 4 1, D 2022 3 1, D 2022 2 1, D 2022 1 1] := by decide +kernel
example : modifiedFollowingDateAdjustment usFederalHolidays (D 2023 12 31) = .ok (D 2023 12 29) := by decide +kernel

/-! ### tests/test_asset/test_us_treasury_instruments/test_us_treasury_bonds.py -/

/-- `UsTreasuryBond(price, coupon_rate, principal, tenor, purchase_date, maturity_date)` with the defaults of
us_treasury_instruments.py:43-48. -/
def treasury (price coupon principal : ℚ) (years : Int) (purchase maturity : PyDate)
    (f : PaymentFrequency := .semiAnnual) (unit : Char := 'Y') : BondTerms :=
  ⟨.usTreasuryBond, price, coupon, principal, ⟨some years, unit⟩, purchase, maturity, .tPlusOneBusiness, f, .actAct,
    .following, usFederalHolidays⟩

/-- test_accrued_interest_example: within half a cent of 15.711 (Tuckman and Serrat). -/
example : (Bond.create (treasury 10000 (625 / 1000) 10000 10 (D 2021 5 14) (D 2030 8 15))).toOption.any
    (fun b => decide (b.settlementDate = D 2021 5 17 ∧ |b.accruedInterest - 15711 / 1000| < 5 / 1000)) = true := by
  decide +kernel

def twoYr := treasury (99909356 / 1000000) (4625 / 1000) 100 2 (D 2023 2 27) (D 2025 2 28)
def threeYr := treasury (99795799 / 1000000) 4 100 3 (D 2023 2 27) (D 2026 2 15)
def fiveYr := treasury (99511842 / 1000000) 4 100 5 (D 2023 2 27) (D 2028 2 28)
def sevenYr := treasury (99625524 / 1000000) 4 100 7 (D 2023 2 27) (D 2030 2 28)
def tenYr := treasury (99058658 / 1000000) (35 / 10) 100 10 (D 2023 2 27) (D 2033 2 15)
def twentyYr := treasury (98601167 / 1000000) (3875 / 1000) 100 20 (D 2023 2 27) (D 2043 2 15)
def thirtyYr := treasury (98898317 / 1000000) (3625 / 1000) 100 30 (D 2023 2 27) (D 2053 2 15)
def fourWk := treasury (99648833 / 1000000) 0 100 1 (D 2023 2 27) (D 2023 3 28) .zeroCoupon 'M'
def oneYr := treasury (95151722 / 1000000) 0 100 1 (D 2023 2 27) (D 2024 2 22) .zeroCoupon

/-- The number of coupons, the last coupon on the principal's date, and nonnegative accrued interest. -/
def bondTests (t : BondTerms) (coupons : Nat) : Bool :=
  (Bond.create t).toOption.any (fun b => decide (b.coupons.length = coupons ∧
    b.coupons.getLast?.map BondPayment.date = b.principalPayments.head?.map BondPayment.date ∧ 0 ≤ b.accruedInterest))

example : bondTests twoYr 4 ∧ bondTests threeYr 6 ∧ bondTests fiveYr 10 ∧ bondTests sevenYr 14 ∧ bondTests tenYr 20 ∧
    bondTests twentyYr 40 ∧ bondTests thirtyYr 60 := by decide +kernel

/-- The two bills construct and have no coupons. -/
example : (Bond.create fourWk).toOption.any (fun b => b.coupons.isEmpty) = true ∧
    (Bond.create oneYr).toOption.any (fun b => b.coupons.isEmpty) = true := by decide +kernel

/-- test_principal_repayment…, test_yield_curve: the knots of the bonds of the collection. -/
example : ((Bond.create twoYr).bind Bond.toKnotValuePair).toOption.map Knot.date = some (D 2025 2 28) ∧
    ((Bond.create threeYr).bind Bond.toKnotValuePair).toOption.map Knot.date = some (D 2026 2 17) ∧
    ((Bond.create fourWk).bind Bond.toKnotValuePair).toOption.map Knot.date = some (D 2023 3 28) := by decide +kernel

/-! ### tests/test_asset/test_credit/test_loan.py -/

def mortgage : Except PyErr Loan :=
  Loan.create (745000 * 75 / 100) (6125 / 100000) (D 2025 3 11) (.relativedelta 360 0) .thirty360 .monthly .startOfMonth

/-- 361 payment dates, hence 360 payments (test_number_of_payments_in_loan). -/
example : (mortgage.bind Loan.paymentDates).toOption.map List.length = some 361 := by decide +kernel
/-- Paid off (here with a payment amount of 3396, just above the exact level payment 3395.02), the principal payments sum to the principal. -/
example : (mortgage.bind fun l => l.generatePaymentSchedule 3396 .none).toOption.map
    (fun ps => (ps.length, (ps.map LoanPayment.principal).sum)) = some (360, 558750) := by decide +kernel

/-! ### tests/test_curves/test_base_curve.py -/

def curveTest (e : EndBehavior) : Except PyErr Curve :=
  Curve.create [⟨D 2023 9 18, 1⟩, ⟨D 2023 9 19, 2⟩, ⟨D 2023 9 20, 1⟩, ⟨D 2023 9 21, 0⟩] .linear .act360 none e e

example : (curveTest .constant).bind (fun c => c.call (D 2023 9 20)) = .ok 1 ∧
    (curveTest .constant).bind (fun c => c.call (D 2020 1 1)) = .ok 1 ∧
    (curveTest .constant).bind (fun c => c.call (D 2030 1 1)) = .ok 0 ∧
    (curveTest .error).bind (fun c => c.call (D 2020 1 1)) = .error .valueError ∧
    (curveTest .error).bind (fun c => c.call (D 2030 1 1)) = .error .valueError := by decide +kernel

/-- test_curve_can_evaluate_with_key_rate_adjustment. -/
example : (curveTest .constant).bind (fun c => c.interpolate (D 2023 9 20)
    (KeyRate.create .act360 (D 2023 9 20) (some (D 2023 9 19)) (some (D 2023 9 21))).asAdjustment) =
    .ok (1 + 1 / 10000) := by decide +kernel

def zeroCoupons : List Knot :=
  [⟨D 2023 12 25, 99 / 100⟩, ⟨D 2024 1 30, 98 / 100⟩, ⟨D 2027 1 1, 80 / 100⟩, ⟨D 2030 1 1, 50 / 100⟩]

/-- Zero coupons are repriced by the curve, called directly and through `present_value`. -/
def repriced (m : InterpolationMethod) (dcc : DayCountConvention) : Bool :=
  match Curve.create zeroCoupons m dcc (some (D 2023 9 1)) .error .error with
  | .ok c => zeroCoupons.all fun k => decide (c.call k.date = .ok k.value ∧
      ZeroCoupon.presentValue k.date c.toDiscountFn = .ok k.value)
  | .error _ => false

example : ∀ dcc ∈ [DayCountConvention.act360, .act365, .act36525, .actAct, .thirty360],
    repriced .linear dcc = true ∧ repriced .previous dcc = true := by decide +kernel

/-! ### tests/test_curves/test_key_rates.py -/

/-- The eight key rates of the test, at addresses 0 … 7. -/
def keyRates : KRHeap := fun i => match i with
  | 0 => KeyRate.create .actAct (D 2023 3 28) none (some (D 2024 2 22))
  | 1 => KeyRate.create .actAct (D 2024 2 22) (some (D 2023 3 28)) (some (D 2025 2 28))
  | 2 => KeyRate.create .actAct (D 2025 2 28) (some (D 2024 2 22)) (some (D 2026 2 15))
  | 3 => KeyRate.create .actAct (D 2026 2 15) (some (D 2025 2 28)) (some (D 2030 2 28))
  | 4 => KeyRate.create .actAct (D 2030 2 28) (some (D 2026 2 15)) (some (D 2033 2 15))
  | 5 => KeyRate.create .actAct (D 2033 2 15) (some (D 2030 2 28)) (some (D 2043 2 15))
  | 6 => KeyRate.create .actAct (D 2043 2 15) (some (D 2033 2 15)) (some (D 2053 2 15))
  | _ => KeyRate.create .actAct (D 2053 2 15) (some (D 2043 2 15)) none

open KeyRateCollection in
/-- A shuffled list is sorted by the constructor; neighbours are wired; indices 0 and -1; the collection is a parallel shift. -/
example :
    let r := create keyRates [3, 1, 7, 0, 6, 2, 5, 4]
    r.1.toOption.map KeyRateCollection.keyRates = some [0, 1, 2, 3, 4, 5, 6, 7] ∧
    (∀ i ∈ List.range 8, r.2 i = keyRates i) ∧
    r.1.bind (fun c => c.getItem 0) = .ok 0 ∧ r.1.bind (fun c => c.getItem (-1)) = .ok 7 ∧
    (∀ d ∈ [D 2000 1 1, D 2023 3 28, D 2023 9 9, D 2024 2 29, D 2027 7 7, D 2050 1 1, D 2100 1 1],
      r.1.bind (fun c => call r.2 c d) = .ok (1 / 10000)) := by decide +kernel

end Verif.Validation
