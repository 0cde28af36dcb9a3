/- Model of fixedIncome/src/assets/rates/linear_rates/interest_rate_future.py. -/
import Verif.Model.Scheduler
import Verif.Model.Loan

namespace Verif

/-- interest_rate_future.py:35-55: the attributes a OneMonthSofrFuture stores (the contract name and the notional, which no method
reads, are left out).  Both abstract methods of CashflowCollection (base_cashflow.py:148-163) are overridden, so the class can be
instantiated; the constructor does not call the one of CashflowCollection. -/
structure SofrFuture where
  purchaseDate : PyDate
  deliveryMonth : Nat
  deliveryYear : Nat
  price : ℚ
  calendar : HolidayCalendar
  dcc : DayCountConvention

namespace SofrFuture

/-- interest_rate_future.py:85-87: the body is a docstring; the result is None. -/
def presentValue (_f : SofrFuture) (_curve : DiscountFn) : Option ℚ := none

/-- interest_rate_future.py:89-91: the result is None. -/
def toKnotValuePair (_f : SofrFuture) : Option (PyDate × ℚ) := none

/-- interest_rate_future.py:93-99: the result is None. -/
def lastTradingDate (_f : SofrFuture) : Option PyDate := none

/-- base_cashflow.py:126-134 on an object whose constructor did not run `CashflowCollection.__init__`: `self._cashflows` does not
exist. -/
def getItem (_f : SofrFuture) (_key : Nat) : Except PyErr Unit := .error .attributeError

/-- One turn of the loop of interest_rate_future.py:113-120; the state is (weighted_sum_of_rates, total_accrual). -/
def step (dcc : DayCountConvention) (rate : PyDate → Except PyErr ℚ) (state : ℚ × ℚ) (p : PyDate × PyDate) :
    Except PyErr (ℚ × ℚ) := do
  let fixing ← rate p.1
  let a ← DayCount.accrual p.1 p.2 dcc
  .ok (state.1 + fixing * a, state.2 + a)

/-- interest_rate_future.py:113-120. -/
def loop (dcc : DayCountConvention) (rate : PyDate → Except PyErr ℚ) : List (PyDate × PyDate) → ℚ × ℚ → Except PyErr (ℚ × ℚ)
  | [], s => .ok s
  | p :: ps, s => do
    let s' ← step dcc rate s p
    loop dcc rate ps s'

/-- interest_rate_future.py:108-122, for given first and last days of the month. -/
def averageRate (f : SofrFuture) (rate : PyDate → Except PyErr ℚ) (firstDay lastDay : PyDate) : Except PyErr ℚ := do
  let days ← Scheduler.generateBusinessDays f.calendar firstDay lastDay
  let s ← loop f.dcc rate (Loan.pairwise days) (0, 0)
  pyDiv s.1 s.2

/-- `date()` without arguments (interest_rate_future.py:106-107): TypeError. -/
def dateWithoutArguments : Except PyErr PyDate := .error .typeError

/-- interest_rate_future.py:102-122. -/
def calculateSettlementRate (f : SofrFuture) (rate : PyDate → Except PyErr ℚ) : Except PyErr ℚ := do
  let firstDay ← dateWithoutArguments
  let lastDay ← dateWithoutArguments
  f.averageRate rate firstDay lastDay

end SofrFuture
end Verif
