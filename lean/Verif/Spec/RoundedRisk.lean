/- Specification of values at continuously compounded yields, and of a floating-point exponential function. -/
import Verif.Model.Cashflow
import Mathlib.Analysis.SpecialFunctions.Exp

namespace Verif.Spec

/-- The value at `ref` of a payment discounted with the yield `y` over the time `t`, in real numbers; payments without an amount or before
`ref` do not count. -/
noncomputable def continuousWorth (ref : PyDate) (y t : PyDate → ℝ) (p : Payment) : ℝ :=
  match p.amount with
  | some a => if ref ≤ p.date then a * Real.exp (-(y p.date * t p.date)) else 0
  | none => 0

/-- The value of a schedule: the sum over its payments. -/
noncomputable def continuousValue (ref : PyDate) (y t : PyDate → ℝ) (schedule : List Payment) : ℝ :=
  (schedule.map (continuousWorth ref y t)).sum

/-- The size of a payment that counts at `ref`. -/
def countedSize (ref : PyDate) (p : Payment) : ℚ :=
  match p.amount with
  | some a => if ref ≤ p.date then |a| else 0
  | none => 0

/-- The total size of a schedule's payments that count. -/
def totalSize (ref : PyDate) (schedule : List Payment) : ℚ := (schedule.map (countedSize ref)).sum

/-- A floating-point exponential function: its results are floats, and up to the argument 1 they are within `v` of the true ones. -/
structure FloatExp (rnd exp : ℚ → ℚ) (v : ℚ) : Prop where
  rep : ∀ x, rnd (exp x) = exp x
  close : ∀ x : ℚ, x ≤ 1 → |(exp x : ℝ) - Real.exp x| ≤ v
  small : v ≤ 1 / 2

end Verif.Spec
