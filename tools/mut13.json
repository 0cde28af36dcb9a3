[
 {
  "id": "z01",
  "file": "Model/Spline.lean",
  "old": "(M 1 - M 0) * (x 2 - x 1) = (M 2 - M 1) * (x 1 - x 0)",
  "new": "M 0 = 0",
  "edit": "natural instead of not-a-knot end at the left",
  "claim": "C126_cubic",
  "all": false
 },
 {
  "id": "z02",
  "file": "Model/Spline.lean",
  "old": "(M (n - 1) - M (n - 2)) * (x n - x (n - 1)) = (M n - M (n - 1)) * (x (n - 1) - x (n - 2))",
  "new": "M n = 0",
  "edit": "natural end at the right",
  "claim": "C126_cubic",
  "all": false
 },
 {
  "id": "z03",
  "file": "Model/Spline.lean",
  "old": "    6 * ((y (i + 2) - y (i + 1))",
  "new": "    3 * ((y (i + 2) - y (i + 1))",
  "edit": "factor 3 in the continuity equation",
  "claim": "C126_cubic",
  "all": false
 },
 {
  "id": "z04",
  "file": "Model/Spline.lean",
  "old": "(2 * M i + M (i + 1)) / 6",
  "new": "(M i + 2 * M (i + 1)) / 6",
  "edit": "slope of the piece at the wrong end",
  "claim": "C126_cubic",
  "all": false
 },
 {
  "id": "z05",
  "file": "Model/Spline.lean",
  "old": "M i / 2 * (t - x i) ^ 2",
  "new": "M i * (t - x i) ^ 2",
  "edit": "second derivative not halved",
  "claim": "C126_cubic",
  "all": false
 },
 {
  "id": "z06",
  "file": "Model/Spline.lean",
  "old": "cubicPiece x y h.choose (Nat.findGreatest (fun i => x i ≤ t) (n - 1)) t",
  "new": "cubicPiece x y h.choose (Nat.findGreatest (fun i => x i ≤ t) n) t",
  "edit": "a piece after the last knot",
  "claim": "C126_cubic",
  "all": false
 },
 {
  "id": "z07",
  "file": "Model/Spline.lean",
  "old": "cubicPiece x y h.choose (Nat.findGreatest (fun i => x i ≤ t) (n - 1)) t",
  "new": "cubicPiece x y h.choose 0 t",
  "edit": "the first piece used everywhere",
  "claim": "C126_cubic",
  "all": false
 },
 {
  "id": "z08",
  "file": "Model/Spline.lean",
  "old": "if ¬ splineGridOk 3 grid then .error .valueError",
  "new": "if ¬ splineGridOk 4 grid then .error .valueError",
  "edit": "five points required",
  "claim": "C126_builds / C126_cubic",
  "all": false
 },
 {
  "id": "z09",
  "file": "Model/Spline.lean",
  "old": "  | cubic => 3",
  "new": "  | cubic => 2",
  "edit": "three points accepted for a cubic",
  "claim": "C126_builds",
  "all": false
 },
 {
  "id": "z10",
  "file": "Model/Spline.lean",
  "old": "def splineGridOk (degree : ℕ) (grid : List (ℚ × ℚ)) : Prop :=\n  degree + 1 ≤ grid.length",
  "new": "def splineGridOk (degree : ℕ) (grid : List (ℚ × ℚ)) : Prop :=\n  degree ≤ grid.length",
  "edit": "one point too few accepted",
  "claim": "C126_builds",
  "all": false
 },
 {
  "id": "z11",
  "file": "Model/Spline.lean",
  "old": "u 0 = (y 1 - y 0) / (x 1 - x 0) ∧",
  "new": "u 0 = 0 ∧",
  "edit": "flat first end of the quadratic spline",
  "claim": "C126_quadratic",
  "all": false
 },
 {
  "id": "z12",
  "file": "Model/Spline.lean",
  "old": "    4 * ((y (j + 2) - y (j + 1))",
  "new": "    2 * ((y (j + 2) - y (j + 1))",
  "edit": "factor 2 in the quadratic system",
  "claim": "C126_quadratic",
  "all": false
 },
 {
  "id": "z13",
  "file": "Model/Spline.lean",
  "old": "((x (j + 2) - x (j + 1)) * u j + (x (j + 1) - x j) * u (j + 1)) / (x (j + 2) - x j)",
  "new": "((x (j + 1) - x j) * u j + (x (j + 2) - x (j + 1)) * u (j + 1)) / (x (j + 2) - x j)",
  "edit": "weights of the midpoint slopes exchanged",
  "claim": "C126_quadratic",
  "all": false
 },
 {
  "id": "z14",
  "file": "Model/Spline.lean",
  "old": "0 < j → (x j + x (j + 1)) / 2 ≤ t",
  "new": "0 < j → x j ≤ t",
  "edit": "breakpoints of the quadratic spline at the knots",
  "claim": "C126_quadratic",
  "all": false
 },
 {
  "id": "z15",
  "file": "Model/Spline.lean",
  "old": "(u (j + 1) - u j) / (x (j + 2) - x j) * (t",
  "new": "(u (j + 1) - u j) / (2 * (x (j + 2) - x j)) * (t",
  "edit": "curvature halved",
  "claim": "C126_quadratic",
  "all": false
 },
 {
  "id": "z16",
  "file": "Model/Spline.lean",
  "old": "  else if t < x 0 ∨ x n < t then .error .valueError\n  else if h : ∃ M,",
  "new": "  else if t < x 0 then .error .valueError\n  else if h : ∃ M,",
  "edit": "extrapolation after the grid",
  "claim": "C126_cubic",
  "all": false
 },
 {
  "id": "z17",
  "file": "Model/Spline.lean",
  "old": "def gridY (grid : List (ℚ × ℚ)) (i : ℕ) : ℚ := (grid.getD i (0, 0)).2",
  "new": "def gridY (grid : List (ℚ × ℚ)) (i : ℕ) : ℚ := (grid.getD i (0, 0)).1",
  "edit": "ordinates replaced by abscissas",
  "claim": "C126",
  "all": false
 },
 {
  "id": "z18",
  "file": "Model/Spline.lean",
  "old": "  | cubic => .spline cubicSpline",
  "new": "  | cubic => .spline quadraticSpline",
  "edit": "cubic curves interpolated quadratically",
  "claim": "C126",
  "all": false
 },
 {
  "id": "z19",
  "file": "Model/Spline.lean",
  "old": "if splineGridOk kind.degree c.grid then .ok c else .error .valueError",
  "new": "if splineGridOk kind.degree c.grid then .ok c else .ok c",
  "edit": "no check when the curve is built",
  "claim": "C126_builds",
  "all": false
 },
 {
  "id": "z20",
  "file": "Model/Spline.lean",
  "old": "∀ i, i + 1 < grid.length → gridX grid i < gridX grid (i + 1)",
  "new": "∀ i, i + 2 < grid.length → gridX grid i < gridX grid (i + 1)",
  "edit": "last abscissa not checked",
  "claim": "C126_builds",
  "all": false
 },
 {
  "id": "z21",
  "file": "Model/KeyRateSequence.lean",
  "old": "| (.ok _, h') => (.error .attributeError, c, h')",
  "new": "| (.ok c', h') => (.error .attributeError, c', h')",
  "edit": "slice assignment returns the slice",
  "claim": "C81_slice_assignment_raises",
  "all": false
 },
 {
  "id": "z22",
  "file": "Model/KeyRateSequence.lean",
  "old": "| (.ok _, h') => (.error .attributeError, c, h')",
  "new": "| (.ok _, _) => (.error .attributeError, c, h)",
  "edit": "slice assignment without the side effect",
  "claim": "C81_slice_assignment_breaks",
  "all": false
 }
]