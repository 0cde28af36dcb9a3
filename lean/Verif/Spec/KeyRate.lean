/- Independent specification of key-rate bump functions. -/
import Verif.Spec.DayCount

namespace Verif.Spec

/-- The triangular weight on `(p, n)` with peak 1 at `m`, linear along the time axis `τ`. -/
def hat (τ : PyDate → ℚ) (p m n d : PyDate) : ℚ :=
  if d ≤ p ∨ n ≤ d then 0
  else if d ≤ m then (τ d - τ p) / (τ m - τ p)
  else (τ n - τ d) / (τ n - τ m)

/-- Weight without a next date: 0 up to `p`, then rising to 1 at `m`, and 1 afterwards. -/
def rampUp (τ : PyDate → ℚ) (p m d : PyDate) : ℚ :=
  if d ≤ p then 0 else if m ≤ d then 1 else (τ d - τ p) / (τ m - τ p)

/-- Weight without a prior date: 1 up to `m`, then falling to 0 at `n`, and 0 afterwards. -/
def rampDown (τ : PyDate → ℚ) (m n d : PyDate) : ℚ :=
  if d ≤ m then 1 else if n ≤ d then 0 else (τ n - τ d) / (τ n - τ m)

/-- What identifies a key rate: its convention and key date (as `KeyRate.__eq__` documents). -/
abbrev RateId := DayCountConvention × PyDate

end Verif.Spec
