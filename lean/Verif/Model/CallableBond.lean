/-
Model of `CallableFixedRateBond` (fixedIncome/src/assets/credit/corporate_bond.py:441-457) and `CreditDefaultSwap`
(fixedIncome/src/assets/credit/credit_default_swap.py): which attributes their constructors store, and which attributes the inherited
methods read.
-/
import Verif.Model.Bond

namespace Verif

/-- corporate_bond.py:22-24, `CallOption`. -/
structure CallOption where
  callDate : PyDate
  callPrice : ℚ
deriving DecidableEq

/-- The instance attributes a FixedRateBond has after its constructor (corporate_bond.py:46-74; `cashflows` is set by
base_cashflow.py:106-110). -/
inductive BondAttr
  | price | couponRate | principal | tenor | purchaseDate | maturityDate | settlementConvention | paymentFrequency | adjustment
  | calendar | dcc | numPayments | couponPayment | adjustmentFunction | datedDate | cashflows | settlementDate | accruedInterest
  | fullPrice
deriving DecidableEq

/-- The inherited methods and properties, with whether a reference date or a yield is passed where it matters. -/
inductive BondMethod
  | price | paymentFrequency | principal | couponRate | maturityDate | tenor | adjustment | calendar | dcc | purchaseDate
  | toKnotValuePair | presentValue | isPaymentReceived (referenceGiven : Bool) | datedDate | couponPayment | adjustmentFunction
  | principalCashflow | couponCashflow | accruedInterest | fullPrice (referenceGiven : Bool)
  | discountByFixedRate (referenceGiven : Bool) | yieldToMaturity (referenceGiven : Bool) | pvDeriv (yieldGiven : Bool)
  | macaulayDuration (referenceGiven : Bool) | duration | convexity
deriving DecidableEq

/-- The attribute each method reads first, before it can return anything:
corporate_bond.py:76-114 (properties), 123 (`self[...]`, base_cashflow.py:125-134), 139-141, 155-158, 169, 193, 206, 222, 233, 270, 308,
310, 325, 330, 362, 364, 382, 384, 394, 398, 425 and 433. -/
def BondMethod.firstRead : BondMethod → BondAttr
  | .price => .price
  | .paymentFrequency => .paymentFrequency
  | .principal => .principal
  | .couponRate => .couponRate
  | .maturityDate => .maturityDate
  | .tenor => .tenor
  | .adjustment => .adjustment
  | .calendar => .calendar
  | .dcc => .dcc
  | .purchaseDate => .purchaseDate
  | .toKnotValuePair => .cashflows
  | .presentValue => .cashflows
  | .isPaymentReceived false => .settlementDate
  | .isPaymentReceived true => .calendar
  | .datedDate => .tenor
  | .couponPayment => .paymentFrequency
  | .adjustmentFunction => .adjustment
  | .principalCashflow => .adjustmentFunction
  | .couponCashflow => .paymentFrequency
  | .accruedInterest => .paymentFrequency
  | .fullPrice false => .purchaseDate
  | .fullPrice true => .accruedInterest
  | .discountByFixedRate false => .purchaseDate
  | .discountByFixedRate true => .cashflows
  | .yieldToMaturity false => .purchaseDate
  | .yieldToMaturity true => .accruedInterest
  | .pvDeriv false => .purchaseDate
  | .pvDeriv true => .purchaseDate
  | .macaulayDuration false => .purchaseDate
  | .macaulayDuration true => .cashflows
  | .duration => .purchaseDate
  | .convexity => .purchaseDate

/-- An instance, by the attributes it has. -/
structure BondObject where
  attrs : List BondAttr
  priceValue : ℚ
  callSchedule : Option (List CallOption)

/-- corporate_bond.py:443-457, the constructor of `CallableFixedRateBond`: it stores the price and the call schedule sorted by date, and
does not call the constructor of FixedRateBond; the other arguments are dropped. -/
def CallableBond.create (price : ℚ) (_terms : BondTerms) (calls : List CallOption) : BondObject :=
  ⟨[.price], price, some (pySorted CallOption.callDate calls)⟩

/-- corporate_bond.py:46-74: the attributes after the constructor of FixedRateBond. -/
def fixedRateAttrs : List BondAttr :=
  [.price, .couponRate, .principal, .tenor, .purchaseDate, .maturityDate, .settlementConvention, .paymentFrequency, .adjustment,
   .calendar, .dcc, .numPayments, .couponPayment, .adjustmentFunction, .datedDate, .cashflows, .settlementDate, .accruedInterest,
   .fullPrice]

/-- What calling a method does at its first attribute access: AttributeError if the attribute is missing; `ok` says only that the
method goes on (its result is the one of Model/Bond.lean, or here the price). -/
def BondObject.start (o : BondObject) (m : BondMethod) : Except PyErr Unit :=
  if m.firstRead ∈ o.attrs then .ok () else .error .attributeError

/-- corporate_bond.py:112-114, the property `price`. -/
def BondObject.price (o : BondObject) : Except PyErr ℚ := do
  o.start .price
  .ok o.priceValue

/-- credit_default_swap.py:9-25, `CreditDefaultSwap`: of the seven arguments only the spread is stored. -/
structure CreditDefaultSwap where
  spread : ℚ

/-- credit_default_swap.py:11-20. -/
def CreditDefaultSwap.create (spread : ℚ) (_principal : Int) (_transaction _maturity : PyDate) : CreditDefaultSwap := ⟨spread⟩

/-- credit_default_swap.py:23-25. -/
def CreditDefaultSwap.creditDefaultSpread (c : CreditDefaultSwap) : ℚ := c.spread

end Verif
