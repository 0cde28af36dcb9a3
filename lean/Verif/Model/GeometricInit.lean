/- Model of the class of fixedIncome/src/stochastics/geometric_brownian_motion.py: its constructor and the paths it stores. -/
import Verif.Model.BrownianInit

namespace Verif

/-- What geometric_brownian_motion.py:79 accepts by its annotation: an array (here its elements in the order of `flatten`; a numpy scalar
is an array of one element) or a python float. -/
inductive StartingValue
  | float (x : ℝ)
  | array (xs : List ℝ)

/-- geometric_brownian_motion.py:37-53: a constructed object.  `p` is the size of the correlation matrix; the Brownian motion keeps the
dimension the constructor was called with.  `drift_diffusion_pair` is determined by drift and volatility. -/
structure GeometricProcess (p : Nat) where
  drift : ℝ
  volatility : ℝ
  dt : DtIncrement
  motion : SizedBrownian p
  path : Option (List (Vec p))

namespace GeometricProcess
variable {p : Nat}

/-- geometric_brownian_motion.py:30-53 with a correlation matrix.  The Brownian motion gets the default convention ACT/ACT. -/
noncomputable def create (drift volatility : ℝ) (start stop : PyDatetime) (dimension : Nat) (corr : Mat p) (dt : DtIncrement) :
    Except PyErr (GeometricProcess p) := do
  let motion ← SizedBrownian.create start stop dimension corr
  .ok ⟨drift, volatility, dt, motion, none⟩

/-- geometric_brownian_motion.py:40: without a correlation matrix it is the identity. -/
noncomputable def createDefault (drift volatility : ℝ) (start stop : PyDatetime) (dimension : Nat) (dt : DtIncrement) :
    Except PyErr (GeometricProcess dimension) := create drift volatility start stop dimension 1 dt

/-- geometric_brownian_motion.py:92, 99: an array assigned to a column of the solution.  Numpy broadcasts an array of one element; every
other size but the dimension is a ValueError. -/
def column (p : Nat) (xs : List ℝ) : Option (Vec p) :=
  if h : xs.length = p then some (fun i => xs[i])
  else if xs.length = 1 then some (fun _ => xs.headD 0)
  else none

/-- geometric_brownian_motion.py:79-103.  The increments are drawn first (line 86), so the grid of the Brownian motion has been replaced
when `flatten` (line 88) or the first assignment to a column raises.  With an array of one element the first step is computed on that one
value, which equals the step on the array filled with it. -/
noncomputable def generatePath (g : GeometricProcess p) (x0 : StartingValue) (set : Bool) (normals : Nat → Vec p) :
    Except PyErr (List (Vec p)) × GeometricProcess p :=
  match g.motion.generateIncrements g.dt normals with
  | (.error e, b) => (.error e, { g with motion := b })
  | (.ok r, b) =>
    match x0 with
    | .float _ => (.error .attributeError, { g with motion := b })
    | .array xs =>
      match column p xs with
      | none => (.error .valueError, { g with motion := b })
      | some x =>
        let path := Geometric.loop g.drift g.volatility (r.1.zip r.2) x
        (.ok path, { g with motion := b, path := if set then some path else g.path })

end GeometricProcess
end Verif
