/-
Model of the spline interpolation of fixedIncome/src/curves/base_curve.py:77-89: `scipy.interpolate.interp1d` with the kinds
'cubic' and 'quadratic' of curve_enumerations.py:11-15.  scipy solves a linear system for B-spline coefficients; the model solves
the equivalent textbook systems for the second derivatives at the knots (cubic) and the slopes at the midpoints (quadratic).  That the
two give the same function is the library contract, stated in Spec/Spline and proved of the model (C126).
-/
import Verif.Model.Curve
import Mathlib.Data.Nat.Find

namespace Verif

/-- The system for the second derivatives `M` of the cubic spline (base_curve.py:85-88, `kind='cubic'`): continuity of the first
derivative at the inner knots, and equal third derivatives on the first two and on the last two intervals. -/
def CubicSystem (n : ℕ) (x y M : ℕ → ℚ) : Prop :=
  (∀ i, i + 2 ≤ n → (x (i + 1) - x i) * M i + 2 * (x (i + 2) - x i) * M (i + 1) + (x (i + 2) - x (i + 1)) * M (i + 2) =
    6 * ((y (i + 2) - y (i + 1)) / (x (i + 2) - x (i + 1)) - (y (i + 1) - y i) / (x (i + 1) - x i))) ∧
  (M 1 - M 0) * (x 2 - x 1) = (M 2 - M 1) * (x 1 - x 0) ∧
  (M (n - 1) - M (n - 2)) * (x n - x (n - 1)) = (M n - M (n - 1)) * (x (n - 1) - x (n - 2))

/-- The cubic on the interval from `x i` (base_curve.py:85-88). -/
def cubicPiece (x y M : ℕ → ℚ) (i : ℕ) (t : ℚ) : ℚ :=
  y i + ((y (i + 1) - y i) / (x (i + 1) - x i) - (x (i + 1) - x i) * (2 * M i + M (i + 1)) / 6) * (t - x i) +
    M i / 2 * (t - x i) ^ 2 + (M (i + 1) - M i) / (6 * (x (i + 1) - x i)) * (t - x i) ^ 3

/-- The slope of the quadratic spline at the knot `x (j + 1)`, from the slopes `u` at the midpoints around it
(base_curve.py:85-88, `kind='quadratic'`). -/
def quadraticSlope (x u : ℕ → ℚ) (j : ℕ) : ℚ :=
  ((x (j + 2) - x (j + 1)) * u j + (x (j + 1) - x j) * u (j + 1)) / (x (j + 2) - x j)

/-- The system for the slopes `u j` at the midpoints between `x j` and `x (j + 1)` (base_curve.py:85-88): continuity at the inner
midpoints; the first and the last piece pass through two knots, so their midpoint slopes are divided differences. -/
def QuadraticSystem (n : ℕ) (x y u : ℕ → ℚ) : Prop :=
  (∀ j, j + 3 ≤ n → quadraticSlope x u j + 2 * u (j + 1) + quadraticSlope x u (j + 1) =
    4 * ((y (j + 2) - y (j + 1)) / (x (j + 2) - x (j + 1)))) ∧
  u 0 = (y 1 - y 0) / (x 1 - x 0) ∧ u (n - 1) = (y n - y (n - 1)) / (x n - x (n - 1))

/-- The quadratic around the knot `x (j + 1)` (base_curve.py:85-88). -/
def quadraticPiece (x y u : ℕ → ℚ) (j : ℕ) (t : ℚ) : ℚ :=
  y (j + 1) + quadraticSlope x u j * (t - x (j + 1)) + (u (j + 1) - u j) / (x (j + 2) - x j) * (t - x (j + 1)) ^ 2

/-- The abscissas and ordinates of a grid (base_curve.py:82-83). -/
def gridX (grid : List (ℚ × ℚ)) (i : ℕ) : ℚ := (grid.getD i (0, 0)).1

/-- See `gridX` (base_curve.py:82-83). -/
def gridY (grid : List (ℚ × ℚ)) (i : ℕ) : ℚ := (grid.getD i (0, 0)).2

/-- scipy's checks of the grid (called in base_curve.py:85-88): ValueError when there are fewer than degree + 1 points or the
abscissas are not strictly increasing. -/
def splineGridOk (degree : ℕ) (grid : List (ℚ × ℚ)) : Prop :=
  degree + 1 ≤ grid.length ∧ ∀ i, i + 1 < grid.length → gridX grid i < gridX grid (i + 1)

open Classical in
/-- base_curve.py:85-89 and 122-124, kind 'cubic': ValueError outside the grid.  Simplified: a bad grid makes the call raise; scipy
raises already when the interpolator is built, see `Curve.createSpline`. -/
noncomputable def cubicSpline (grid : List (ℚ × ℚ)) (t : ℚ) : Except PyErr ℚ :=
  let n := grid.length - 1
  let x := gridX grid
  let y := gridY grid
  if ¬ splineGridOk 3 grid then .error .valueError
  else if t < x 0 ∨ x n < t then .error .valueError
  else if h : ∃ M, CubicSystem n x y M then .ok (cubicPiece x y h.choose (Nat.findGreatest (fun i => x i ≤ t) (n - 1)) t)
  else .error .linAlgError

open Classical in
/-- base_curve.py:85-89 and 122-124, kind 'quadratic'; see `cubicSpline`. -/
noncomputable def quadraticSpline (grid : List (ℚ × ℚ)) (t : ℚ) : Except PyErr ℚ :=
  let n := grid.length - 1
  let x := gridX grid
  let y := gridY grid
  if ¬ splineGridOk 2 grid then .error .valueError
  else if t < x 0 ∨ x n < t then .error .valueError
  else if h : ∃ u, QuadraticSystem n x y u then
    .ok (quadraticPiece x y h.choose (Nat.findGreatest (fun j => 0 < j → (x j + x (j + 1)) / 2 ≤ t) (n - 2)) t)
  else .error .linAlgError

/-- The two spline kinds (curve_enumerations.py:14-15). -/
inductive SplineKind
  | quadratic | cubic
deriving DecidableEq

namespace SplineKind

/-- The degree of the pieces (curve_enumerations.py:14-15). -/
def degree : SplineKind → ℕ
  | quadratic => 2
  | cubic => 3

/-- The interpolation method (curve_enumerations.py:14-15). -/
noncomputable def method : SplineKind → InterpolationMethod
  | quadratic => .spline quadraticSpline
  | cubic => .spline cubicSpline

end SplineKind

open Classical in
/-- base_curve.py:31-50 and 77-89 with a spline method: building the interpolator raises ValueError for a bad grid. -/
noncomputable def Curve.createSpline (values : List Knot) (kind : SplineKind) (dcc : DayCountConvention) (ref : Option PyDate)
    (left right : EndBehavior) : Except PyErr Curve := do
  let c ← Curve.create values kind.method dcc ref left right
  if splineGridOk kind.degree c.grid then .ok c else .error .valueError

end Verif
