/-
Model of fixedIncome/src/portfolio/portfolio_optimization.py: what is handed to the solver.  Floats are real numbers; the solver
(scipy SLSQP) is not modelled.
-/
import Mathlib.LinearAlgebra.Matrix.DotProduct
import Mathlib.Data.Real.Basic
import Mathlib.Algebra.Order.Floor.Ring
import Mathlib.Data.Real.Archimedean
import Mathlib.Data.Real.Sqrt

namespace Verif
open Matrix

/-- portfolio_optimization.py:7-22: mean vector and covariance matrix. -/
structure Optimizer (n : Nat) where
  mean : Fin n → ℝ
  cov : Matrix (Fin n) (Fin n) ℝ

namespace Optimizer
variable {n : Nat}

/-- portfolio_optimization.py:54-55: variance of the weights. -/
def varianceObjective (o : Optimizer n) (w : Fin n → ℝ) : ℝ := w ⬝ᵥ (o.cov *ᵥ w)

/-- portfolio_optimization.py:57-58. -/
def varianceGradient (o : Optimizer n) (w : Fin n → ℝ) : Fin n → ℝ := (2 : ℝ) • (o.cov *ᵥ w)

/-- portfolio_optimization.py:31-37: the equality constraint of the minimum-variance problem is `= 0` of this pair. -/
def returnConstraint (o : Optimizer n) (target : ℝ) (w : Fin n → ℝ) : ℝ × ℝ := ((fun _ => 1) ⬝ᵥ w - 1, o.mean ⬝ᵥ w - target)

/-- portfolio_optimization.py:44-52, 133-136: lower and upper bound on each weight, `none` for infinity. -/
noncomputable def bounds (allowShort : Bool) : Option ℝ × Option ℝ := if allowShort then (none, none) else (some 0, some 1)

/-- portfolio_optimization.py:60, 138: the starting weights. -/
noncomputable def startingWeights : Fin n → ℝ := fun _ => 1 / (n : ℝ)

/-- portfolio_optimization.py:123-127: the utility problem's objective. -/
noncomputable def utilityObjective (o : Optimizer n) (wealth param : ℝ) (w : Fin n → ℝ) : ℝ :=
  -(w ⬝ᵥ o.mean) + w ⬝ᵥ (o.cov *ᵥ w) * (param * wealth / 2)

/-- portfolio_optimization.py:129-131. -/
noncomputable def utilityGradient (o : Optimizer n) (wealth param : ℝ) (w : Fin n → ℝ) : Fin n → ℝ :=
  -o.mean + (2 * (param * wealth / 2)) • (o.cov *ᵥ w)

/-- portfolio_optimization.py:116-117: the equality constraint of the utility problem is `= 0` of this. -/
def weightConstraint (w : Fin n → ℝ) : ℝ := (fun _ => 1) ⬝ᵥ w - 1

/-- `np.arange(start, stop, step)` for a positive step: `start + k * step` for `k < ceil((stop - start) / step)`. -/
noncomputable def arange (start stop step : ℝ) : List ℝ :=
  (List.range (Int.toNat ⌈(stop - start) / step⌉)).map fun k : Nat => start + (k : ℝ) * step

/-- portfolio_optimization.py:76-82: the target returns of the efficient frontier; `lo` and `hi` are the smallest and largest
mean (lines 11-12). -/
noncomputable def frontierReturns (lo hi : ℝ) (lower upper : Option ℝ) (increment : ℝ) : List ℝ :=
  let lowerReturn := lower.getD (lo + increment)
  let upperReturn := upper.getD (hi - increment)
  arange lowerReturn (upperReturn + increment) increment

/-- portfolio_optimization.py:39-52, 61-64: what the solver is asked for in the minimum-variance problem: weights within the
bounds, on which the equality constraint is zero and (without short positions) the inequality constraint function, the
identity, is nonnegative, with the smallest objective among all of these.  The solver itself is not modelled. -/
def SolvesVariance (o : Optimizer n) (allowShort : Bool) (target : ℝ) (w : Fin n → ℝ) : Prop :=
  let admitted := fun v : Fin n → ℝ =>
    o.returnConstraint target v = (0, 0) ∧ (allowShort = false → ∀ i, 0 ≤ v i) ∧
    (∀ i, (∀ lo ∈ (bounds allowShort).1, lo ≤ v i) ∧ (∀ hi ∈ (bounds allowShort).2, v i ≤ hi))
  admitted w ∧ ∀ v, admitted v → o.varianceObjective w ≤ o.varianceObjective v

/-- portfolio_optimization.py:133-140: what the solver is asked for in the utility problem. -/
def SolvesUtility (o : Optimizer n) (wealth param : ℝ) (allowShort : Bool) (w : Fin n → ℝ) : Prop :=
  let admitted := fun v : Fin n → ℝ =>
    weightConstraint v = 0 ∧
    (∀ i, (∀ lo ∈ (bounds allowShort).1, lo ≤ v i) ∧ (∀ hi ∈ (bounds allowShort).2, v i ≤ hi))
  admitted w ∧ ∀ v, admitted v → o.utilityObjective wealth param w ≤ o.utilityObjective wealth param v

/-- portfolio_optimization.py:83-88: returns, volatilities and weights of the frontier; `solve` stands for
`find_minimum_variance_portfolio`.  (`np.sqrt` of a negative number would be nan, here 0.) -/
noncomputable def frontier (o : Optimizer n) (solve : ℝ → Fin n → ℝ) (returns : List ℝ) : List ℝ × List ℝ × List (Fin n → ℝ) :=
  let weights := returns.map solve
  let volatilities := weights.map fun w => Real.sqrt (w ⬝ᵥ (o.cov *ᵥ w))
  (returns, volatilities, weights)

/-- portfolio_optimization.py:90-97: `(returns - risk_free_rate) / volatilities` for arrays of equal length (numpy would also
broadcast a length-one array, and give inf or nan for a zero volatility; a quotient by zero is 0 here). -/
noncomputable def sharpeRatio (returns volatilities : List ℝ) (riskFree : ℝ) : List ℝ :=
  List.zipWith (fun r v => (r - riskFree) / v) returns volatilities

end Optimizer
end Verif
