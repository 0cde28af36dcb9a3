/- Independent specification of loans. -/
import Verif.Model.Loan
import Mathlib.Algebra.BigOperators.Intervals

namespace Verif.Spec

/-- What is still owed after the first `k` payments: the principal minus the principal parts paid so far. -/
def balance (principal : ℚ) (ps : List LoanPayment) (k : Nat) : ℚ := principal - ((ps.take k).map LoanPayment.principal).sum

end Verif.Spec
