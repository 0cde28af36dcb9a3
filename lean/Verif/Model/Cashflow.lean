/- Model of fixedIncome/src/assets/base_cashflow.py. -/
import Verif.Model.PyList
import Verif.Model.DayCount
import Verif.Lemmas.Except

namespace Verif

/-- base_cashflow.py:18-21.  `payment is None` is `none`. -/
structure Payment where
  date : PyDate
  amount : Option ℚ
deriving DecidableEq

/-- What the pricing code uses of a discount curve (curves/base_curve.py:144-176): its reference date and its value at a
date, which may raise. -/
structure DiscountFn where
  referenceDate : PyDate
  call : PyDate → Except PyErr ℚ

/-- Python's `sum` over a generator of numbers, raising the first exception met. -/
def pySum {α : Type} (f : α → Except PyErr ℚ) (l : List α) : Except PyErr ℚ := do
  let xs ← collect f l
  .ok xs.sum

namespace Cashflow

/-- base_cashflow.py:26-27, the schedule built by the constructor. -/
def create (payments : List Payment) : List Payment := pySorted Payment.date payments

/-- base_cashflow.py:56-60. -/
def addPayment (schedule : List Payment) (p : Payment) : List Payment := insortRight Payment.date schedule p

/-- base_cashflow.py:70-77. -/
def presentValue (schedule : List Payment) (curve : DiscountFn) : Except PyErr ℚ :=
  pySum (fun (pa : PyDate × ℚ) => do
      let df ← curve.call pa.1
      .ok (df * pa.2))
    (schedule.filterMap (fun p => match p.amount with
      | some a => if curve.referenceDate ≤ p.date then some (p.date, a) else none
      | none => none))

/-- base_cashflow.py:79-90. -/
def createFromIterables (dates : List PyDate) (amounts : List (Option ℚ)) : Except PyErr (List Payment) :=
  if dates.length ≠ amounts.length then .error .valueError
  else .ok (create ((dates.zip amounts).map (fun da => ⟨da.1, da.2⟩)))

end Cashflow

/-- Keys used with a `CashflowCollection`: members of `CashflowKeys` (base_cashflow.py:92-99), plain integers, or
strings. -/
inductive CashflowKey
  | member (value : Nat)
  | int (n : Nat)
  | str (s : String)
deriving DecidableEq

/-- base_cashflow.py:101-110: the attributes of a `CashflowCollection`; `ν` is the type of cashflows. -/
structure CashflowCollection (ν : Type) where
  cashflowList : List ν
  keys : List CashflowKey
  cashflows : PyDict CashflowKey ν

namespace CashflowCollection
variable {ν : Type}

/-- base_cashflow.py:106-110. -/
def create (cashflows : List ν) (keys : List CashflowKey) : CashflowCollection ν :=
  ⟨cashflows, keys, PyDict.ofList (keys.zip cashflows)⟩

/-- base_cashflow.py:112-114. -/
def len (c : CashflowCollection ν) : Nat := c.cashflows.length

/-- base_cashflow.py:116-121. -/
def contains (c : CashflowCollection ν) (k : CashflowKey) : Bool := (PyDict.get? c.cashflows k).isSome

/-- base_cashflow.py:126-134: a missing enumeration member is retried by its `.value`; integers and strings have no
`.value` attribute. -/
def getItem (c : CashflowCollection ν) (k : CashflowKey) : Except PyErr ν :=
  match PyDict.get? c.cashflows k with
  | some v => .ok v
  | none =>
    match k with
    | .member n => match PyDict.get? c.cashflows (.int n) with
      | some v => .ok v
      | none => .error .keyError
    | _ => .error .attributeError

/-- base_cashflow.py:136-145. -/
def setItem (c : CashflowCollection ν) (k : CashflowKey) (v : ν) : CashflowCollection ν :=
  if c.contains k then { c with cashflows := PyDict.set c.cashflows k v }
  else { cashflowList := c.cashflowList ++ [v], keys := c.keys ++ [k], cashflows := PyDict.set c.cashflows k v }

end CashflowCollection

namespace ZeroCoupon

/-- base_cashflow.py:166-173: the single payment of 1.0. -/
def cashflow (paymentDate : PyDate) : List Payment := Cashflow.create [⟨paymentDate, some 1⟩]

/-- base_cashflow.py:190-195; the key SINGLE_PAYMENT is present by construction. -/
def presentValue (paymentDate : PyDate) (curve : DiscountFn) : Except PyErr ℚ :=
  Cashflow.presentValue (cashflow paymentDate) curve

end ZeroCoupon
end Verif
