/-
Independent specification of spline interpolation, as scipy documents it for interp1d(kind='cubic') and
interp1d(kind='quadratic'): piecewise polynomials, smooth at the breakpoints, through the data.
-/
import Mathlib.Algebra.Polynomial.Derivative
import Mathlib.Data.Rat.Defs

namespace Verif.Spec
open Polynomial

/-- `s` is the cubic spline through the points `(x 0, y 0) … (x n, y n)`, with the "not-a-knot" end conditions: between
consecutive abscissas it is a polynomial of degree at most three, first and second derivatives are continuous, and the first two
and the last two intervals share one polynomial. -/
def IsCubicSpline (n : ℕ) (x y : ℕ → ℚ) (s : ℚ → ℚ) : Prop :=
  ∃ p : ℕ → ℚ[X],
    (∀ i < n, (p i).natDegree ≤ 3) ∧
    (∀ i < n, ∀ t, x i ≤ t → t ≤ x (i + 1) → s t = (p i).eval t) ∧
    (∀ i, i + 1 < n →
      (derivative (p i)).eval (x (i + 1)) = (derivative (p (i + 1))).eval (x (i + 1)) ∧
      (derivative (derivative (p i))).eval (x (i + 1)) = (derivative (derivative (p (i + 1)))).eval (x (i + 1))) ∧
    p 0 = p 1 ∧ p (n - 2) = p (n - 1) ∧
    ∀ i ≤ n, s (x i) = y i

/-- The breakpoints of the quadratic spline: the midpoints between consecutive abscissas except the first and the last one, and
the two end points. -/
def quadraticBreak (n : ℕ) (x : ℕ → ℚ) (j : ℕ) : ℚ :=
  if j = 0 then x 0 else if j + 1 = n then x n else (x j + x (j + 1)) / 2

/-- `s` is the quadratic spline through the points `(x 0, y 0) … (x n, y n)`: between consecutive breakpoints it is a polynomial
of degree at most two, and its derivative is continuous. -/
def IsQuadraticSpline (n : ℕ) (x y : ℕ → ℚ) (s : ℚ → ℚ) : Prop :=
  ∃ p : ℕ → ℚ[X],
    (∀ j, j + 1 < n → (p j).natDegree ≤ 2) ∧
    (∀ j, j + 1 < n → ∀ t, quadraticBreak n x j ≤ t → t ≤ quadraticBreak n x (j + 1) → s t = (p j).eval t) ∧
    (∀ j, j + 2 < n → (derivative (p j)).eval (quadraticBreak n x (j + 1)) =
      (derivative (p (j + 1))).eval (quadraticBreak n x (j + 1))) ∧
    ∀ i ≤ n, s (x i) = y i

end Verif.Spec
