/- Bonds and their value at a fixed rate (Model/Bond) with floating-point rounding after every operation.  The power function of
floats is a parameter. -/
import Verif.Model.RoundedValuation

namespace Verif.Rounded

/-- us_treasury_instruments.py:50-78 / corporate_bond.py:46-74, as `Bond.create`: dates do not depend on floats; the coupon amounts,
the accrued interest and the full price are rounded. -/
def createBond (rnd : ℚ → ℚ) (t : BondTerms) : Except PyErr Bond := do
  let b ← Bond.create t
  let accrued ← accruedInterest rnd t b.datedDate b.coupons b.settlementDate
  let full ← fullPrice rnd t accrued
  .ok { b with coupons := b.coupons.map (fun p => ⟨p.unadjusted, p.date, couponPayment rnd t⟩),
               accruedInterest := accrued, fullPrice := full }

/-- us_treasury_instruments.py:309-312 and 318-321 / corporate_bond.py:331-334 and 340-343: the product with the frequency, the
quotient, the sum, the power and the reciprocal. -/
def fixedRateFactor (rnd : ℚ → ℚ) (pow : ℚ → ℚ → ℚ) (n : Nat) (rate a : ℚ) : Except PyErr ℚ :=
  if n = 0 then .error .zeroDivisionError
  else
    let power := pow (rnd (1 + rnd (rate / n))) (rnd (a * n))
    if power = 0 then .error .zeroDivisionError else .ok (rnd (1 / power))

/-- us_treasury_instruments.py:307-323 / corporate_bond.py:329-344: one of the two loops, from the running total `acc`. -/
def discountLoop (rnd : ℚ → ℚ) (pow : ℚ → ℚ → ℚ) (b : Bond) (rate : ℚ) (ref : PyDate) : List BondPayment → ℚ → Except PyErr ℚ
  | [], acc => .ok acc
  | p :: ps, acc => do
    let k ← b.isPaymentReceived p (some ref)
    if k then do
      let a ← accrual rnd ref p.date b.terms.dcc
      let df ← fixedRateFactor rnd pow b.terms.frequency.value rate a
      discountLoop rnd pow b rate ref ps (rnd (acc + rnd (df * p.amount)))
    else discountLoop rnd pow b rate ref ps acc

/-- us_treasury_instruments.py:298-325 / corporate_bond.py:320-346. -/
def discountByFixedRate (rnd : ℚ → ℚ) (pow : ℚ → ℚ → ℚ) (b : Bond) (rate : ℚ) (reference : Option PyDate) : Except PyErr ℚ := do
  let ref := reference.getD b.terms.purchaseDate
  let c ← discountLoop rnd pow b rate ref b.coupons 0
  discountLoop rnd pow b rate ref b.principalPayments c

/-- us_treasury_instruments.py:341-345 / corporate_bond.py:362-366: the function whose root `yield_to_maturity` asks scipy for. -/
def diffFromFullPrice (rnd : ℚ → ℚ) (pow : ℚ → ℚ → ℚ) (b : Bond) (reference : Option PyDate) (rate : ℚ) : Except PyErr ℚ := do
  let pv ← discountByFixedRate rnd pow b rate (some (reference.getD b.terms.purchaseDate))
  .ok (rnd (rnd (rnd (b.fullPrice * b.terms.principal) / 100) - pv))

end Verif.Rounded
