/- Specification for loans in floating point: the balance as the borrower's own ledger would compute it. -/
import Verif.Model.Loan

namespace Verif.Spec

/-- What is owed after the first `k` payments when every subtraction of a principal part is rounded. -/
def ledger (rnd : ℚ → ℚ) (principal : ℚ) (ps : List LoanPayment) (k : Nat) : ℚ :=
  (ps.take k).foldl (fun owed p => rnd (owed - p.principal)) principal

end Verif.Spec
