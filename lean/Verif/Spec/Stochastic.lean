/- Specification notions for simulated paths. -/
import Verif.Model.Stochastic
import Mathlib.Algebra.BigOperators.Intervals

namespace Verif.Spec
open Verif Finset

/-- A positive time step: a positive timedelta, or a relativedelta with nonnegative months and time, not both zero. -/
def Forward : DtIncrement → Prop
  | .timedelta k => 0 < k
  | .relativedelta m k => 0 ≤ m ∧ 0 ≤ k ∧ 0 < m + k

/-- `dts` are the day-count lengths of the steps of `grid`. -/
def StepLengths (dcc : DayCountConvention) (grid : List PyDatetime) (dts : List ℚ) : Prop :=
  dts.length + 1 = grid.length ∧
  ∀ k (h : k < dts.length) (h0 : k < grid.length) (h1 : k + 1 < grid.length), dtAccrual grid[k] grid[k + 1] dcc = .ok dts[k]

/-- Elapsed time at step `k`. -/
def elapsed (dts : List ℚ) (k : Nat) : ℚ := (dts.take k).sum

/-- The correlated increment of step `k`: Cholesky factor times normals, scaled by the root of the step length. -/
noncomputable def shock {p : Nat} (chol : Fin p → Fin p → ℝ) (normals : Nat → Vec p) (dts : List ℚ) (k : Nat) (h : k < dts.length) :
    Vec p := fun i => ∑ j, chol i j * (normals k j * Real.sqrt (dts[k] : ℝ))

/-- Trapezoidal integral of the rates `r 0, …, r n` over steps of lengths `dt 0, …, dt (n - 1)`. -/
noncomputable def trapezoidal (r : Nat → ℝ) (dt : Nat → ℝ) (n : Nat) : ℝ := ∑ j ∈ range n, (r j + r (j + 1)) / 2 * dt j

end Verif.Spec
