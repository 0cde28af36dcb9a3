/- Specification for the examples: what numpy's svd and a least squares fit return, and the Svensson curve. -/
import Mathlib.LinearAlgebra.Matrix.DotProduct
import Mathlib.Analysis.SpecialFunctions.Exp
import Mathlib.MeasureTheory.Integral.IntervalIntegral.Basic

namespace Verif.Spec
open Matrix

/-- Squared length of a vector. -/
def sqNorm {d : Nat} (x : Fin d → ℝ) : ℝ := ∑ j, x j ^ 2

/-- What `U, s, Vt = np.linalg.svd(a)` is: orthogonal matrices and nonnegative decreasing singular values with `a = U S Vt`, where `S` is
rectangular with the singular values on its diagonal. -/
structure IsSvd {n d : Nat} (a : Matrix (Fin n) (Fin d) ℝ) (u : Matrix (Fin n) (Fin n) ℝ) (s : Nat → ℝ) (vt : Matrix (Fin d) (Fin d) ℝ) : Prop where
  left : uᵀ * u = 1
  right : vt * vtᵀ = 1
  nonneg : ∀ i, 0 ≤ s i
  decreasing : ∀ i j, i ≤ j → s j ≤ s i
  eq : a = u * (Matrix.of fun (i : Fin n) (j : Fin d) => if (i : Nat) = (j : Nat) then s j else 0) * vt

/-- Vectors of length one at right angles to each other. -/
def Orthonormal {k d : Nat} (w : Fin k → Fin d → ℝ) : Prop := ∀ i j, w i ⬝ᵥ w j = if i = j then 1 else 0

/-- The instantaneous forward rate of Svensson's curve (Gürkaynak, Sack and Wright 2006, equation 9). -/
noncomputable def svenssonForward (b0 b1 b2 b3 tau1 tau2 t : ℝ) : ℝ :=
  b0 + b1 * Real.exp (-t / tau1) + b2 * (t / tau1) * Real.exp (-t / tau1) + b3 * (t / tau2) * Real.exp (-t / tau2)

/-- The zero-coupon yield of a forward curve: its average up to the maturity. -/
noncomputable def zeroYield (f : ℝ → ℝ) (t : ℝ) : ℝ := (∫ x in (0 : ℝ)..t, f x) / t

/-- A least squares fit of `y` on `x` with an intercept: no other line has a smaller sum of squares. -/
def IsFit {n : Nat} (x y : Fin n → ℝ) (alpha beta : ℝ) : Prop :=
  ∀ a b : ℝ, ∑ i, (y i - (alpha + beta * x i)) ^ 2 ≤ ∑ i, (y i - (a + b * x i)) ^ 2

end Verif.Spec
