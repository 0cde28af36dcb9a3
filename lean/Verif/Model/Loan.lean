/- Model of fixedIncome/src/assets/credit/loan.py. -/
import Verif.Model.Bond

namespace Verif

/-- schedule_enumerations.py, `PaymentTime`. -/
inductive PaymentTime
  | endOfMonth | startOfMonth | fixedDate
deriving DecidableEq, Repr

/-- loan.py:20-23 (and base_cashflow.py:18-21). -/
structure LoanPayment where
  date : PyDate
  payment : ℚ
  principal : ℚ
  interest : ℚ
deriving DecidableEq

/-- loan.py:28-45: the attributes of a loan.  `_end_date` is computed by the constructor (`Loan.create`). -/
structure Loan where
  principal : ℚ
  rate : ℚ
  originationDate : PyDate
  termLength : Scheduler.Increment
  dcc : DayCountConvention
  frequency : PaymentFrequency
  paymentTime : PaymentTime
  endDate : PyDate

/-- The `extra_payments` argument (loan.py:111-122): absent, a float, a finite iterable of numbers, or anything else (an int
cannot be turned into a list). -/
inductive ExtraPayments
  | none
  | float (x : ℚ)
  | iterable (xs : List ℚ)
  | other

namespace Loan

/-- loan.py:28-45, the constructor. -/
def create (principal rate : ℚ) (origination : PyDate) (term : Scheduler.Increment) (dcc : DayCountConvention)
    (frequency : PaymentFrequency) (time : PaymentTime) : Except PyErr Loan := do
  let e ← Scheduler.addIncrement origination term
  .ok ⟨principal, rate, origination, term, dcc, frequency, time, e⟩

/-- loan.py:52-66.  `**` is `Real.rpow`; for a nonpositive base python may raise or return a complex number, all theorems
assume a positive base. -/
noncomputable def calculateFixedPaymentAmount (l : Loan) : Except PyErr ℝ := do
  let years ← DayCount.accrual l.originationDate l.endDate l.dcc
  let f : ℝ := l.frequency.value
  if l.frequency.value = 0 then .error .zeroDivisionError
  else
    let compound : ℝ := (1 + (l.rate : ℝ) / f) ^ ((years : ℝ) * f)
    let numerator : ℝ := (l.principal : ℝ) * compound
    if -(l.rate : ℝ) / f = 0 then .error .zeroDivisionError
    else
      let denominator : ℝ := (1 - compound) / (-(l.rate : ℝ) / f)
      if denominator = 0 then .error .zeroDivisionError else .ok (numerator / denominator)

/-- loan.py:77-90: the adjusted start date.  `calendar.monthrange(year, 11)` is about November whatever the month. -/
def startDate (l : Loan) : Except PyErr PyDate :=
  match l.paymentTime with
  | .endOfMonth => PyDate.mk? l.originationDate.year l.originationDate.month (daysInMonth l.originationDate.year 11)
  | .startOfMonth =>
    if l.originationDate.month = 12 then PyDate.mk? (l.originationDate.year + 1) 1 1
    else PyDate.mk? l.originationDate.year (l.originationDate.month + 1) 1
  | .fixedDate => .error .valueError

/-- loan.py:94-104: the months between payments. -/
def increment (l : Loan) : Except PyErr Int :=
  match l.frequency with
  | .monthly => .ok 1
  | .quarterly => .ok 3
  | .semiAnnual => .ok 6
  | .annual => .ok 12
  | .zeroCoupon => .error .valueError

/-- Loop bound of `dateLoop`: there are fewer months than this (`dateLoop_ne_fuel`). -/
def dateFuel : Nat := 120001

/-- loan.py:106-109. -/
def dateLoop (months : Int) (endDate : PyDate) : Nat → PyDate → Except PyErr (List PyDate)
  | 0, _ => .error .fuel
  | n + 1, d =>
    if d ≤ endDate then do
      let d' ← d.addMonths months
      let rest ← dateLoop months endDate n d'
      .ok (d :: rest)
    else .ok []

/-- loan.py:111-122. -/
def unpackExtra (n : Nat) : ExtraPayments → Except PyErr (List ℚ)
  | .none => .ok (List.replicate n 0)
  | .float x => .ok (List.replicate n x)
  | .iterable xs =>
    if xs.length ≤ n then .ok (xs ++ List.replicate (n - xs.length) 0) else .ok (xs.take n)
  | .other => .error .typeError

/-- `itertools.pairwise` (loan.py:124). -/
def pairwise : List PyDate → List (PyDate × PyDate)
  | a :: b :: rest => (a, b) :: pairwise (b :: rest)
  | _ => []

/-- loan.py:124-145 (with 150-166 for the interest); the state is the remaining principal and the current payment amount,
which stays at the last payment once the loan is paid off. -/
def paymentLoop (rate : ℚ) (dcc : DayCountConvention) : ℚ → ℚ → List (ℚ × (PyDate × PyDate)) →
    Except PyErr (List LoanPayment)
  | _, _, [] => .ok []
  | remaining, amount, (extra, (sd, ed)) :: rest => do
    let accrual ← DayCount.accrual sd ed dcc
    let interest := accrual * rate * remaining
    let candidate := amount - interest + extra
    let principal := if remaining ≤ candidate then remaining else candidate
    let amount := if remaining ≤ candidate then remaining + interest else amount
    let ps ← paymentLoop rate dcc (remaining - principal) amount rest
    .ok (⟨ed, amount, principal, interest⟩ :: ps)

/-- loan.py:72-109: the payment dates. -/
def paymentDates (l : Loan) : Except PyErr (List PyDate) := do
  let start ← l.startDate
  let stop ← Scheduler.addIncrement start l.termLength
  let months ← l.increment
  dateLoop months stop dateFuel start

/-- loan.py:70-147. -/
def generatePaymentSchedule (l : Loan) (amount : ℚ) (extra : ExtraPayments) : Except PyErr (List LoanPayment) := do
  let dates ← l.paymentDates
  let extras ← unpackExtra dates.length extra
  paymentLoop l.rate l.dcc l.principal amount (extras.zip (pairwise dates))

/-- loan.py:189-192: `present_value` calls `generate_payment_schedule()` without its required argument `payment_amount`
(loan.py:70), which is a TypeError before anything is discounted.  The discount curve is any function. -/
def presentValue (_l : Loan) (_discount : LoanPayment → Except PyErr ℝ) : Except PyErr ℝ := .error .typeError

end Loan
end Verif
