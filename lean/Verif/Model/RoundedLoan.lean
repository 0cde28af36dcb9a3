/- Loan amortization (Model/Loan) with floating-point rounding after every operation. -/
import Verif.Model.Rounded
import Verif.Model.Loan

namespace Verif.Rounded

/-- loan.py:124-145 and 150-166, as `Loan.paymentLoop`: two products for the interest, a difference and a sum for the principal
part, a sum for the last payment and a difference for the remaining principal. -/
def paymentLoop (rnd : ℚ → ℚ) (rate : ℚ) (dcc : DayCountConvention) : ℚ → ℚ → List (ℚ × (PyDate × PyDate)) →
    Except PyErr (List LoanPayment)
  | _, _, [] => .ok []
  | remaining, amount, (extra, (sd, ed)) :: rest => do
    let acc ← accrual rnd sd ed dcc
    let interest := rnd (rnd (acc * rate) * remaining)
    let candidate := rnd (rnd (amount - interest) + extra)
    let principal := if remaining ≤ candidate then remaining else candidate
    let amount := if remaining ≤ candidate then rnd (remaining + interest) else amount
    let ps ← paymentLoop rnd rate dcc (rnd (remaining - principal)) amount rest
    .ok (⟨ed, amount, principal, interest⟩ :: ps)

/-- loan.py:70-147, as `Loan.generatePaymentSchedule`; the dates do not involve floats. -/
def generatePaymentSchedule (rnd : ℚ → ℚ) (l : Loan) (amount : ℚ) (extra : ExtraPayments) : Except PyErr (List LoanPayment) := do
  let dates ← l.paymentDates
  let extras ← Loan.unpackExtra dates.length extra
  paymentLoop rnd l.rate l.dcc l.principal amount (extras.zip (Loan.pairwise dates))

end Verif.Rounded
