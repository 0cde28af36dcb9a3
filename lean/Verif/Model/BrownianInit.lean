/- Model of the constructor of fixedIncome/src/stochastics/brownian_motion.py and of its generators on the object constructed. -/
import Verif.Model.MeanReverting

namespace Verif
open Matrix

/-- The symmetric matrix that agrees with `a` on and below the diagonal: `np.linalg.cholesky` reads nothing else
(brownian_motion.py:86). -/
def lowerSymmetric {p : Nat} (a : Mat p) : Mat p := fun i j => if j ≤ i then a i j else a j i

/-- brownian_motion.py:70-91: a constructed Brownian motion.  `dimension` is the argument of the constructor, the size of the
correlation matrix is `p`; they need not agree. -/
structure SizedBrownian (p : Nat) where
  dimension : Nat
  bm : BrownianMotion p

namespace SizedBrownian
variable {p : Nat}

/-- brownian_motion.py:74-91 with a (square) correlation matrix.  The `assert` of line 85 tests `dimension` only: the comparison after the
comma is its message. -/
noncomputable def create (start stop : PyDatetime) (dimension : Nat) (corr : Mat p) (dcc : DayCountConvention := .actAct) :
    Except PyErr (SizedBrownian p) :=
  if dimension = 0 then .error .assertionError
  else do
    let chol ← npCholesky (lowerSymmetric corr)
    .ok ⟨dimension, { start := start, stop := stop, chol := chol, dcc := dcc, grid := none, path := none }⟩

/-- brownian_motion.py:74-91 without a correlation matrix: line 84 takes the identity. -/
noncomputable def createDefault (start stop : PyDatetime) (dimension : Nat) (dcc : DayCountConvention := .actAct) :
    Except PyErr (SizedBrownian dimension) := create start stop dimension 1 dcc

/-- brownian_motion.py:124-150 on the constructed object: line 148 draws `dimension` rows of normals, and the product of line 149 is a
ValueError when the factor has another number of columns.  The grid has been stored by then. -/
noncomputable def generateIncrements (b : SizedBrownian p) (dt : DtIncrement) (normals : Nat → Vec p) :
    Except PyErr (List (Vec p) × List ℚ) × SizedBrownian p :=
  let r := b.bm.generateIncrements dt normals
  match r.1 with
  | .error e => (.error e, { b with bm := r.2 })
  | .ok x => (if b.dimension = p then .ok x else .error .valueError, { b with bm := r.2 })

/-- brownian_motion.py:152-165 on the constructed object. -/
noncomputable def generatePath (b : SizedBrownian p) (dt : DtIncrement) (set : Bool) (normals : Nat → Vec p) :
    Except PyErr (List (Vec p)) × SizedBrownian p :=
  match b.generateIncrements dt normals with
  | (.error e, b') => (.error e, b')
  | (.ok r, b') =>
    let path := BrownianMotion.cumulate (fun _ => 0) r.1
    (.ok path, if set then { b' with bm := { b'.bm with path := some path } } else b')

end SizedBrownian
end Verif
