/- Swap legs, swap values, par rates and accrued interest (Model/Swap, Model/Bond) with floating-point rounding after every operation. -/
import Verif.Model.Rounded
import Verif.Model.Swap
import Verif.Model.Bond

namespace Verif.Rounded

/-! ## Swaps -/

/-- interest_rate_swap.py:258-265, 297-304, as `Swap.accrualOf`. -/
def swapAccrual (rnd : ℚ → ℚ) (dcc : DayCountConvention) (p : PyDate × PyDate) : Except PyErr SwapAccrual := do
  let a ← accrual rnd p.1 p.2 dcc
  .ok ⟨p.1, p.2, a⟩

/-- interest_rate_swap.py:234-269 and 272-306, as `Swap.accrualSchedule`: only the accrual factors are floats. -/
def swapSchedule (rnd : ℚ → ℚ) (s : Swap) (frequency : PaymentFrequency) (dcc : DayCountConvention) :
    Except PyErr (List SwapAccrual) := do
  let inc ← SwapTerms.increment frequency
  let unadjusted ← Scheduler.generateDatesByIncrements s.endAccrual s.startAccrual inc
  let adjusted ← collect s.terms.adjust unadjusted.reverse
  collect (swapAccrual rnd dcc) (Loan.pairwise adjusted)

/-- interest_rate_swap.py:330-337: `accrual_factor * notional * fixed_rate`, two products. -/
def fixedPayment (rnd : ℚ → ℚ) (s : Swap) (a : SwapAccrual) : Except PyErr Payment := do
  let d ← s.paymentDate a
  .ok ⟨d, some (rnd (rnd (a.factor * s.terms.notional) * s.terms.fixedRate))⟩

/-- interest_rate_swap.py:327-339. -/
def fixedLeg (rnd : ℚ → ℚ) (s : Swap) : Except PyErr (List Payment) := do
  let accruals ← swapSchedule rnd s s.terms.fixedFrequency s.terms.fixedDcc
  let payments ← collect (fixedPayment rnd s) accruals
  .ok (Cashflow.create payments)

/-- interest_rate_swap.py:388-401. -/
def termPayment (rnd : ℚ → ℚ) (s : Swap) (rate : RateFn) (a : SwapAccrual) : Except PyErr Payment := do
  let fixingDate ← Scheduler.calculateSettlementDate s.terms.calendar a.start s.terms.fixing
  let r ← rate fixingDate
  let d ← s.paymentDate a
  .ok ⟨d, some (rnd (rnd (a.factor * s.terms.notional) * r))⟩

/-- interest_rate_swap.py:430-435: `sum_accruals += accrual`, `total_accrued_growth *= (1 + interest_rate(start_date) * accrual)`. -/
def compoundLoop (rnd : ℚ → ℚ) (rate : RateFn) : List (PyDate × PyDate) → ℚ × ℚ → Except PyErr (ℚ × ℚ)
  | [], acc => .ok acc
  | p :: ps, acc => do
    let a ← accrual rnd p.1 p.2 .act360
    let r ← rate p.1
    compoundLoop rnd rate ps (rnd (acc.1 + a), rnd (acc.2 * rnd (1 + rnd (r * a))))

/-- interest_rate_swap.py:413-438. -/
def annualizedRate (rnd : ℚ → ℚ) (calendar : HolidayCalendar) (rate : RateFn) (start stop : PyDate) : Except PyErr ℚ := do
  let days ← Scheduler.generateBusinessDays calendar start stop
  let r ← compoundLoop rnd rate (Loan.pairwise days) (0, 1)
  div rnd (rnd (r.2 - 1)) r.1

/-- interest_rate_swap.py:458-470. -/
def overnightPayment (rnd : ℚ → ℚ) (s : Swap) (rate : RateFn) (a : SwapAccrual) : Except PyErr Payment := do
  let d ← s.paymentDate a
  let r ← annualizedRate rnd s.terms.calendar rate a.start a.stop
  .ok ⟨d, some (rnd (rnd (a.factor * s.terms.notional) * r))⟩

/-- interest_rate_swap.py:388-401 or 458-470, by class. -/
def floatPayment (rnd : ℚ → ℚ) (s : Swap) (rate : RateFn) (a : SwapAccrual) : Except PyErr Payment :=
  match s.terms.cls with
  | .term => termPayment rnd s rate a
  | .overnight => overnightPayment rnd s rate a

/-- interest_rate_swap.py:385-403 and 455-472. -/
def floatLeg (rnd : ℚ → ℚ) (s : Swap) (rate : RateFn) : Except PyErr (List Payment) := do
  let accruals ← swapSchedule rnd s s.terms.floatFrequency s.terms.floatDcc
  let payments ← collect (floatPayment rnd s rate) accruals
  .ok (Cashflow.create payments)

/-- interest_rate_swap.py:202-210: the value of a swap whose legs are the given cashflows, one difference. -/
def legsValue (rnd : ℚ → ℚ) (direction : SwapDirection) (fixed float : List Payment) (curve : DiscountFn) : Except PyErr ℚ := do
  let floatPv ← presentValue rnd float curve
  let fixedPv ← presentValue rnd fixed curve
  match direction with
  | .receiverFixed => .ok (rnd (fixedPv - floatPv))
  | .payerFixed => .ok (rnd (floatPv - fixedPv))

/-- interest_rate_swap.py:193-213, after both legs have been generated and stored (the curve's values are floats already). -/
def swapValue (rnd : ℚ → ℚ) (s : Swap) (rate : RateFn) (curve : DiscountFn) : Except PyErr ℚ := do
  let fixed ← fixedLeg rnd s
  let float ← floatLeg rnd s rate
  legsValue rnd s.terms.direction fixed float curve

/-- interest_rate_swap.py:357-363: the terms of the running sum. -/
def discountedAccrual (rnd : ℚ → ℚ) (s : Swap) (curve : DiscountFn) (a : SwapAccrual) : Except PyErr ℚ := do
  let d ← s.paymentDate a
  let df ← curve.call d
  .ok (rnd (df * rnd (a.factor * s.terms.notional)))

/-- interest_rate_swap.py:347-365: value of the floating leg over the sum of the discounted accruals. -/
def parRate (rnd : ℚ → ℚ) (s : Swap) (rate : RateFn) (curve : DiscountFn) : Except PyErr ℚ := do
  let float ← floatLeg rnd s rate
  let floatPv ← presentValue rnd float curve
  let accruals ← swapSchedule rnd s s.terms.fixedFrequency s.terms.fixedDcc
  let xs ← collect (discountedAccrual rnd s curve) accruals
  div rnd floatPv (sum rnd xs)

/-! ## Bonds -/

/-- us_treasury_instruments.py:163-179 / corporate_bond.py:182-198: `principal * coupon_rate / (100 * num_payments_per_year)`. -/
def couponPayment (rnd : ℚ → ℚ) (t : BondTerms) : ℚ :=
  match t.frequency with
  | .zeroCoupon => 0
  | f => rnd (rnd (t.principal * t.couponRate) / (100 * f.value))

/-- us_treasury_instruments.py:124-161 / corporate_bond.py:263-300, as `Bond.accruedInterestOf`, without a reference date: two accruals,
a quotient and a product.  Only the dates of the coupons are read. -/
def accruedInterest (rnd : ℚ → ℚ) (t : BondTerms) (dated : PyDate) (coupons : List BondPayment) (settlement : PyDate) :
    Except PyErr ℚ :=
  if t.frequency = .zeroCoupon then .ok 0
  else if settlement < dated then .error .valueError
  else do
    let between ← Bond.accrualPeriod t dated coupons settlement
    let period ← accrual rnd between.1 settlement t.dcc
    let whole ← accrual rnd between.1 between.2 t.dcc
    let fraction ← div rnd period whole
    .ok (rnd (fraction * couponPayment rnd t))

/-- us_treasury_instruments.py:181-197 / corporate_bond.py:302-318: `price + (accrued_interest / principal) * 100.0`. -/
def fullPrice (rnd : ℚ → ℚ) (t : BondTerms) (accrued : ℚ) : Except PyErr ℚ := do
  let x ← div rnd accrued t.principal
  .ok (rnd (t.price + rnd (x * 100)))

end Verif.Rounded
