/- Model of fixedIncome/src/assets/rates/linear_rates/interest_rate_swap.py. -/
import Verif.Model.Bond
import Verif.Model.Loan

namespace Verif

/-- interest_rate_swap.py:25-27. -/
inductive SwapDirection
  | payerFixed | receiverFixed
deriving DecidableEq

/-- The two concrete classes (interest_rate_swap.py:369, 411); the base class is abstract and cannot be instantiated. -/
inductive SwapClass
  | term | overnight
deriving DecidableEq

/-- interest_rate_swap.py:30-34; the fixing date is never set by the code, the accrual factor always. -/
structure SwapAccrual where
  start : PyDate
  stop : PyDate
  factor : ℚ
deriving DecidableEq

/-- The constructor's arguments (interest_rate_swap.py:38-54); the float index, which is only stored, is left out. -/
structure SwapTerms where
  cls : SwapClass
  direction : SwapDirection
  fixedRate : ℚ
  notional : ℚ
  purchaseDate : PyDate
  settlementConvention : Scheduler.SettlementConvention
  tenor : Tenor
  floatFrequency : PaymentFrequency
  fixedFrequency : PaymentFrequency
  floatDcc : DayCountConvention
  fixedDcc : DayCountConvention
  calendar : HolidayCalendar
  fixing : Scheduler.SettlementConvention
  paymentDelay : Scheduler.SettlementConvention
  adjustment : BusinessDayAdjustment

/-- A callable from dates to rates, which may raise (interest_rate_swap.py:371, 413, 441). -/
abbrev RateFn := PyDate → Except PyErr ℚ

/-- A constructed swap (interest_rate_swap.py:56-77). -/
structure Swap where
  terms : SwapTerms
  startAccrual : PyDate
  endAccrual : PyDate
  legs : CashflowCollection (Option (List Payment))

namespace SwapTerms

/-- interest_rate_swap.py:167-179: the end accrual date. -/
def endAccrual (t : SwapTerms) (start : PyDate) : Except PyErr PyDate :=
  match t.tenor.length with
  | none => .error .valueError
  | some n =>
    if t.tenor.unit = 'Y' then start.addMonths (12 * n)
    else if t.tenor.unit = 'M' then start.addMonths n
    else .error .valueError

/-- interest_rate_swap.py:217-231. -/
def adjust (t : SwapTerms) (d : PyDate) : Except PyErr PyDate :=
  match t.adjustment with
  | .following => Scheduler.followingDateAdjustment t.calendar d
  | .modifiedFollowing => Scheduler.modifiedFollowingDateAdjustment t.calendar d

/-- interest_rate_swap.py:238-249 and 277-288: the step between accrual dates. -/
def increment : PaymentFrequency → Except PyErr Scheduler.Increment
  | .annual => .ok (.relativedelta (-12) 0)
  | .semiAnnual => .ok (.relativedelta (-6) 0)
  | .quarterly => .ok (.relativedelta (-3) 0)
  | _ => .error .valueError

end SwapTerms

namespace Swap

/-- base_cashflow.py:92-99: `CashflowKeys.FIXED_LEG`, `CashflowKeys.FLOATING_LEG`. -/
def fixedKey : CashflowKey := .member 2
def floatKey : CashflowKey := .member 3

/-- interest_rate_swap.py:56-77 with 159-179. -/
def create (t : SwapTerms) : Except PyErr Swap := do
  let start ← Scheduler.calculateSettlementDate t.calendar t.purchaseDate t.settlementConvention
  let stop ← t.endAccrual start
  .ok ⟨t, start, stop, CashflowCollection.create [none, none] [fixedKey, floatKey]⟩

/-- The accrual of one period (interest_rate_swap.py:258-265, 297-304). -/
def accrualOf (dcc : DayCountConvention) (p : PyDate × PyDate) : Except PyErr SwapAccrual := do
  let a ← DayCount.accrual p.1 p.2 dcc
  .ok ⟨p.1, p.2, a⟩

/-- interest_rate_swap.py:234-269 and 272-306, which differ only in the frequency and day count used. -/
def accrualSchedule (s : Swap) (frequency : PaymentFrequency) (dcc : DayCountConvention) :
    Except PyErr (List SwapAccrual) := do
  let inc ← SwapTerms.increment frequency
  let unadjusted ← Scheduler.generateDatesByIncrements s.endAccrual s.startAccrual inc
  let adjusted ← collect s.terms.adjust unadjusted.reverse
  collect (accrualOf dcc) (Loan.pairwise adjusted)

/-- interest_rate_swap.py:272-306. -/
def fixedAccruals (s : Swap) : Except PyErr (List SwapAccrual) :=
  s.accrualSchedule s.terms.fixedFrequency s.terms.fixedDcc

/-- interest_rate_swap.py:234-269. -/
def floatAccruals (s : Swap) : Except PyErr (List SwapAccrual) :=
  s.accrualSchedule s.terms.floatFrequency s.terms.floatDcc

/-- interest_rate_swap.py:332-334, 359-361, 395-397, 460-462: when a period is paid. -/
def paymentDate (s : Swap) (a : SwapAccrual) : Except PyErr PyDate :=
  Scheduler.calculateSettlementDate s.terms.calendar a.stop s.terms.paymentDelay

/-- interest_rate_swap.py:330-337. -/
def fixedPayment (s : Swap) (a : SwapAccrual) : Except PyErr Payment := do
  let d ← s.paymentDate a
  .ok ⟨d, some (a.factor * s.terms.notional * s.terms.fixedRate)⟩

/-- `self[key] = cashflow` if `set_cashflow` (interest_rate_swap.py:341-342, 405-406, 474-475). -/
def store (s : Swap) (set : Bool) (key : CashflowKey) (cf : List Payment) : Swap :=
  if set then { s with legs := s.legs.setItem key (some cf) } else s

/-- interest_rate_swap.py:327-339. -/
def fixedCashflow (s : Swap) : Except PyErr (List Payment) := do
  let accruals ← s.fixedAccruals
  let payments ← collect s.fixedPayment accruals
  .ok (Cashflow.create payments)

/-- interest_rate_swap.py:318-344: the cashflow and the swap afterwards. -/
def generateFixedLeg (s : Swap) (set : Bool) : Except PyErr (List Payment) × Swap :=
  match s.fixedCashflow with
  | .error e => (.error e, s)
  | .ok cf => (.ok cf, s.store set fixedKey cf)

/-- interest_rate_swap.py:430-435: running sum of accruals and growth. -/
def compoundLoop (rate : RateFn) : List (PyDate × PyDate) → ℚ × ℚ → Except PyErr (ℚ × ℚ)
  | [], acc => .ok acc
  | p :: ps, acc => do
    let a ← DayCount.accrual p.1 p.2 .act360
    let r ← rate p.1
    compoundLoop rate ps (acc.1 + a, acc.2 * (1 + r * a))

/-- interest_rate_swap.py:413-438. -/
def annualizedRate (calendar : HolidayCalendar) (rate : RateFn) (start stop : PyDate) : Except PyErr ℚ := do
  let days ← Scheduler.generateBusinessDays calendar start stop
  let r ← compoundLoop rate (Loan.pairwise days) (0, 1)
  pyDiv (r.2 - 1) r.1

/-- interest_rate_swap.py:388-401. -/
def termPayment (s : Swap) (rate : RateFn) (a : SwapAccrual) : Except PyErr Payment := do
  let fixingDate ← Scheduler.calculateSettlementDate s.terms.calendar a.start s.terms.fixing
  let r ← rate fixingDate
  let d ← s.paymentDate a
  .ok ⟨d, some (a.factor * s.terms.notional * r)⟩

/-- interest_rate_swap.py:458-470. -/
def overnightPayment (s : Swap) (rate : RateFn) (a : SwapAccrual) : Except PyErr Payment := do
  let d ← s.paymentDate a
  let r ← annualizedRate s.terms.calendar rate a.start a.stop
  .ok ⟨d, some (a.factor * s.terms.notional * r)⟩

/-- interest_rate_swap.py:388-401 or 458-470, by class. -/
def floatPayment (s : Swap) (rate : RateFn) (a : SwapAccrual) : Except PyErr Payment :=
  match s.terms.cls with
  | .term => s.termPayment rate a
  | .overnight => s.overnightPayment rate a

/-- interest_rate_swap.py:385-403 and 455-472. -/
def floatCashflow (s : Swap) (rate : RateFn) : Except PyErr (List Payment) := do
  let accruals ← s.floatAccruals
  let payments ← collect (s.floatPayment rate) accruals
  .ok (Cashflow.create payments)

/-- interest_rate_swap.py:371-408 and 441-477: the cashflow and the swap afterwards. -/
def generateFloatLeg (s : Swap) (rate : RateFn) (set : Bool) : Except PyErr (List Payment) × Swap :=
  match s.floatCashflow rate with
  | .error e => (.error e, s)
  | .ok cf => (.ok cf, s.store set floatKey cf)

/-- interest_rate_swap.py:193-213. -/
def presentValue (s : Swap) (curve : DiscountFn) : Except PyErr ℚ := do
  let fixed ← s.legs.getItem fixedKey
  let float ← s.legs.getItem floatKey
  match fixed, float with
  | some fx, some fl => do
    let floatPv ← Cashflow.presentValue fl curve
    let fixedPv ← Cashflow.presentValue fx curve
    match s.terms.direction with
    | .receiverFixed => .ok (fixedPv - floatPv)
    | .payerFixed => .ok (floatPv - fixedPv)
  | _, _ => .error .valueError

/-- interest_rate_swap.py:357-363: one period's term of the sum. -/
def discountedAccrual (s : Swap) (curve : DiscountFn) (a : SwapAccrual) : Except PyErr ℚ := do
  let d ← s.paymentDate a
  let df ← curve.call d
  .ok (df * (a.factor * s.terms.notional))

/-- interest_rate_swap.py:353-365, once the floating leg is known.  The division raises ZeroDivisionError as for python floats;
if the curve returned numpy floats it would give inf or nan. -/
def rateFromFloat (s : Swap) (curve : DiscountFn) (floatCf : List Payment) : Except PyErr ℚ := do
  let floatPv ← Cashflow.presentValue floatCf curve
  let accruals ← s.fixedAccruals
  let annuity ← pySum (s.discountedAccrual curve) accruals
  pyDiv floatPv annuity

/-- interest_rate_swap.py:347-365: the rate and the swap afterwards. -/
def impliedRate (s : Swap) (curve : DiscountFn) (rate : RateFn) (set : Bool) : Except PyErr ℚ × Swap :=
  match s.generateFloatLeg rate set with
  | (.error e, s') => (.error e, s')
  | (.ok cf, s') => (s'.rateFromFloat curve cf, s')

/-- interest_rate_swap.py:183-191. -/
def toKnotValuePair (s : Swap) : Knot := ⟨s.endAccrual, s.terms.fixedRate⟩

end Swap
end Verif
