/-
Model of fixedIncome/src/stochastics/brownian_motion.py, base_processes.py, geometric_brownian_motion.py and
short_rate_models/base_short_rate_model.py.  Floats are real numbers.  The standard normal draws of numpy's generator are an
argument; a seed only selects them.
-/
import Verif.Model.Datetime
import Verif.Model.PyList
import Mathlib.Analysis.SpecialFunctions.Exp
import Mathlib.Analysis.Real.Sqrt
import Mathlib.Algebra.BigOperators.Group.Finset.Basic

namespace Verif
open Finset

/-- `path[:, k]`, `grid[k]` with python's negative indices. -/
def pyGet {α : Type} (l : List α) (i : Int) : Except PyErr α :=
  if 0 ≤ i then
    match l[i.toNat]? with
    | some a => .ok a
    | none => .error .indexError
  else if -(l.length : Int) ≤ i then
    match l[(l.length + i).toNat]? with
    | some a => .ok a
    | none => .error .indexError
  else .error .indexError

/-- A column of a path: the values of all coordinates at one time. -/
abbrev Vec (p : Nat) := Fin p → ℝ

namespace PathCall

/-- brownian_motion.py:58-64: interpolation between two neighbouring grid points. -/
noncomputable def mix {p : Nat} (factor : ℚ) (prev next : Vec p) : Vec p :=
  fun i => next i * (factor : ℝ) + prev i * (1 - (factor : ℝ))

/-- brownian_motion.py:49-64, between grid points. -/
noncomputable def between {p : Nat} (dcc : DayCountConvention) (grid : List PyDatetime) (path : List (Vec p)) (q : PyDatetime)
    (upper : Nat) (atUpper : PyDatetime) : Except PyErr (Vec p) := do
  let lower : Int := (upper : Int) - 1
  let atLower ← pyGet grid lower
  let sinceLast ← dtAccrual atLower q dcc
  let toNext ← dtAccrual q atUpper dcc
  let factor ← pyDiv toNext (toNext + sinceLast)
  let prev ← pyGet path lower
  let next ← pyGet path upper
  .ok (mix factor prev next)

/-- brownian_motion.py:20-64, `datetime_to_path_call`. -/
noncomputable def call {p : Nat} (dcc : DayCountConvention) (start stop : PyDatetime) (grid : List PyDatetime)
    (path : Option (List (Vec p))) (q : PyDatetime) : Except PyErr (Vec p) :=
  match path with
  | none => .error .valueError
  | some path =>
    if q < start ∨ stop < q then .error .valueError
    else do
      let upper := bisectLeft id grid q
      let atUpper ← pyGet grid upper
      if q = atUpper then pyGet path upper else between dcc grid path q upper atUpper

end PathCall

/-- brownian_motion.py:70-86: a Brownian motion object.  `chol` is numpy's Cholesky factor of the correlation matrix. -/
structure BrownianMotion (p : Nat) where
  start : PyDatetime
  stop : PyDatetime
  chol : Fin p → Fin p → ℝ
  dcc : DayCountConvention
  grid : Option (List PyDatetime)
  path : Option (List (Vec p))

namespace BrownianMotion
variable {p : Nat}

/-- brownian_motion.py:139-140: the end is appended unless the last datetime is it already (or later). -/
def closeGrid (stop : PyDatetime) (dates : List PyDatetime) : Except PyErr (List PyDatetime) :=
  match dates.getLast? with
  | none => .error .indexError
  | some last => .ok (if last < stop then dates ++ [stop] else dates)

/-- brownian_motion.py:135-140: the grid of `generate_increments`. -/
def makeGrid (start stop : PyDatetime) (dt : DtIncrement) : Except PyErr (List PyDatetime) := do
  let dates ← DtGrid.generate start stop dt 1000000
  closeGrid stop dates

/-- `itertools.pairwise` of datetimes. -/
def pairs : List PyDatetime → List (PyDatetime × PyDatetime)
  | a :: b :: rest => (a, b) :: pairs (b :: rest)
  | _ => []

/-- brownian_motion.py:142-143: the accruals between neighbouring grid points. -/
def accruals (dcc : DayCountConvention) (grid : List PyDatetime) : Except PyErr (List ℚ) :=
  collect (fun p => dtAccrual p.1 p.2 dcc) (pairs grid)

/-- brownian_motion.py:148-149, column `k`: `z` are the standard normals of the column.  For a negative accrual numpy's square
root is nan, here it is zero. -/
noncomputable def increment (chol : Fin p → Fin p → ℝ) (z : Vec p) (dt : ℚ) : Vec p :=
  fun i => ∑ j, chol i j * (z j * Real.sqrt (dt : ℝ))

/-- brownian_motion.py:146-149: all columns; the normals of column `k` are `normals k`. -/
noncomputable def increments (chol : Fin p → Fin p → ℝ) (normals : Nat → Vec p) : Nat → List ℚ → List (Vec p)
  | _, [] => []
  | k, dt :: dts => increment chol (normals k) dt :: increments chol normals (k + 1) dts

/-- brownian_motion.py:124-150: the increments, the accruals, and the object afterwards (its grid is replaced). -/
noncomputable def generateIncrements (b : BrownianMotion p) (dt : DtIncrement) (normals : Nat → Vec p) :
    Except PyErr (List (Vec p) × List ℚ) × BrownianMotion p :=
  match DtGrid.generate b.start b.stop dt 1000000 with
  | .error e => (.error e, b)
  | .ok dates =>
    match closeGrid b.stop dates with
    | .error e => (.error e, { b with grid := some dates })
    | .ok grid =>
    match accruals b.dcc grid with
    | .error e => (.error e, { b with grid := some grid })
    | .ok dts => (.ok (increments b.chol normals 0 dts, dts), { b with grid := some grid })

/-- `cumsum` with a leading zero column (brownian_motion.py:159-160). -/
noncomputable def cumulate : Vec p → List (Vec p) → List (Vec p)
  | x, [] => [x]
  | x, d :: ds => x :: cumulate (fun i => x i + d i) ds

/-- brownian_motion.py:152-165. -/
noncomputable def generatePath (b : BrownianMotion p) (dt : DtIncrement) (set : Bool) (normals : Nat → Vec p) :
    Except PyErr (List (Vec p)) × BrownianMotion p :=
  match b.generateIncrements dt normals with
  | (.error e, b') => (.error e, b')
  | (.ok r, b') =>
    let path := cumulate (fun _ => 0) r.1
    (.ok path, if set then { b' with path := some path } else b')

/-- brownian_motion.py:112-122.  Before any path is generated the grid is None, and so is the path. -/
noncomputable def call (b : BrownianMotion p) (q : PyDatetime) : Except PyErr (Vec p) :=
  PathCall.call b.dcc b.start b.stop (b.grid.getD []) b.path q

end BrownianMotion

/-- base_processes.py:14-21: drift and diffusion of one coordinate. -/
structure DriftDiffusion (p : Nat) where
  drift : ℝ → Vec p → ℝ
  diffusion : ℝ → Vec p → Vec p

/-- base_processes.py:24-44: a diffusion process apart from its Brownian motion, which may be shared with others and is passed to
each method.  The dictionary of coordinates is given by position. -/
structure Diffusion (p : Nat) where
  coords : Fin p → DriftDiffusion p
  dt : DtIncrement
  path : Option (List (Vec p))

namespace Diffusion
variable {p : Nat}

/-- base_processes.py:98-106: the step of all coordinates. -/
noncomputable def step (coords : Fin p → DriftDiffusion p) (time : ℝ) (x : Vec p) (shock : Vec p) (dt : ℚ) : Vec p :=
  fun i => x i + ((coords i).drift time x * (dt : ℝ) + ∑ j, (coords i).diffusion time x j * shock j)

/-- base_processes.py:93-109: the columns of the solution. -/
noncomputable def euler (coords : Fin p → DriftDiffusion p) : List (Vec p × ℚ) → ℝ → Vec p → List (Vec p)
  | [], _, x => [x]
  | (shock, dt) :: rest, time, x => x :: euler coords rest (time + dt) (step coords time x shock dt)

/-- base_processes.py:84-113.  The process has as many coordinates as its Brownian motion. -/
noncomputable def generatePath (d : Diffusion p) (b : BrownianMotion p) (x0 : Vec p) (set : Bool) (normals : Nat → Vec p) :
    Except PyErr (List (Vec p)) × Diffusion p × BrownianMotion p :=
  match b.generateIncrements d.dt normals with
  | (.error e, b') => (.error e, d, b')
  | (.ok r, b') =>
    let path := euler d.coords (r.1.zip r.2) 0 x0
    (.ok path, if set then { d with path := some path } else d, b')

/-- base_processes.py:72-82: the path is read with the current grid of the Brownian motion. -/
noncomputable def call (d : Diffusion p) (b : BrownianMotion p) (q : PyDatetime) : Except PyErr (Vec p) :=
  PathCall.call b.dcc b.start b.stop (b.grid.getD []) d.path q

/-- base_processes.py:115-125. -/
def setDt (d : Diffusion p) (dt : DtIncrement) : Diffusion p := { d with path := none, dt := dt }

end Diffusion

namespace Geometric
variable {p : Nat}

/-- geometric_brownian_motion.py:12-24, 93-95: one step of all coordinates. -/
noncomputable def step (drift volatility : ℝ) (x shock : Vec p) (dt : ℚ) : Vec p :=
  fun i => x i + drift * x i * (dt : ℝ) + volatility * x i * shock i

/-- geometric_brownian_motion.py:89-98. -/
noncomputable def loop (drift volatility : ℝ) : List (Vec p × ℚ) → Vec p → List (Vec p)
  | [], x => [x]
  | (shock, dt) :: rest, x => x :: loop drift volatility rest (step drift volatility x shock dt)

/-- geometric_brownian_motion.py:79-103 (the path; its own Brownian motion afterwards). -/
noncomputable def generatePath (drift volatility : ℝ) (b : BrownianMotion p) (dt : DtIncrement) (x0 : Vec p)
    (normals : Nat → Vec p) : Except PyErr (List (Vec p)) × BrownianMotion p :=
  match b.generateIncrements dt normals with
  | (.error e, b') => (.error e, b')
  | (.ok r, b') => (.ok (loop drift volatility (r.1.zip r.2) x0), b')

end Geometric

/-- base_short_rate_model.py:18-34: a short-rate model with its state-variable process and that process's Brownian motion.
`dt` is the model's own copy of the step. -/
structure ShortRateModel (p : Nat) where
  transform : Vec p → ℝ
  process : Diffusion p
  dt : DtIncrement
  bm : BrownianMotion p
  path : Option (List ℝ)
  integrated : Option (List ℝ)

namespace ShortRateModel
variable {p : Nat}

/-- base_short_rate_model.py:48-54. -/
noncomputable def call (m : ShortRateModel p) (q : PyDatetime) : Except PyErr ℝ := do
  let x ← m.process.call m.bm q
  .ok (m.transform x)

/-- base_short_rate_model.py:56-73.  The path is taken from the state process, whether or not it was set by this call; the
integrated path is kept. -/
noncomputable def generatePath (m : ShortRateModel p) (x0 : Vec p) (set : Bool) (normals : Nat → Vec p) :
    Except PyErr Unit × ShortRateModel p :=
  match m.process.generatePath m.bm x0 set normals with
  | (.error e, d, b) => (.error e, { m with process := d, bm := b })
  | (.ok _, d, b) =>
    match d.path with
    | none => (.error .attributeError, { m with process := d, bm := b })
    | some cols => (.ok (), { m with process := d, bm := b, path := some (cols.map m.transform) })

/-- base_processes.py:121-125 on a short-rate model with base_short_rate_model.py:76-84: the model's step and paths are reset, the
state process keeps its step and path. -/
def setDt (m : ShortRateModel p) (dt : DtIncrement) : ShortRateModel p :=
  { m with dt := dt, path := none, integrated := none }

/-- base_short_rate_model.py:18-34: a model is made from a state process, copying its step. -/
def new (transform : Vec p → ℝ) (process : Diffusion p) (bm : BrownianMotion p) : ShortRateModel p :=
  { transform := transform, process := process, dt := process.dt, bm := bm, path := none, integrated := none }

/-- base_short_rate_model.py:107, 112-115: the trapezoid of one step. -/
noncomputable def trapezoid (startRate endRate accrual : ℝ) : ℝ :=
  let minRate := min startRate endRate
  let maxRate := max startRate endRate
  if minRate < 0 then maxRate * accrual + (minRate - maxRate) * accrual / 2
  else minRate * accrual + (maxRate - minRate) * accrual / 2

/-- base_short_rate_model.py:105-118: the loop; `old_time_accrual` (line 102) is never updated. -/
noncomputable def integrateLoop (m : ShortRateModel p) : List (PyDatetime × PyDatetime) → ℝ → Except PyErr (List ℝ)
  | [], _ => .ok []
  | (s, e) :: rest, running => do
    let startRate ← m.call s
    let endRate ← m.call e
    let newAccrual ← dtAccrual m.bm.start e m.bm.dcc
    let oldAccrual : ℝ := 0
    let accrual := (newAccrual : ℝ) - oldAccrual
    let running := running + trapezoid startRate endRate accrual
    let vs ← integrateLoop m rest running
    .ok (running :: vs)

/-- base_short_rate_model.py:94-100: the datetimes used by default. -/
def defaultDatetimes (m : ShortRateModel p) : Except PyErr (List PyDatetime) :=
  DtGrid.generate m.bm.start m.bm.stop m.dt 1000000

/-- base_short_rate_model.py:86-121: the integrated path (also stored). -/
noncomputable def integratedValues (m : ShortRateModel p) (datetimes : Option (List PyDatetime)) : Except PyErr (List ℝ) := do
  let _ ← match m.path with
    | none => .error .valueError
    | some l => .ok l
  let dts ← match datetimes with
    | some l => .ok l
    | none => m.defaultDatetimes
  let vs ← integrateLoop m (BrownianMotion.pairs dts) 0
  .ok (0 :: vs)

/-- base_short_rate_model.py:86-121. -/
noncomputable def generateIntegratedPath (m : ShortRateModel p) (datetimes : Option (List PyDatetime)) :
    Except PyErr (List ℝ) × ShortRateModel p :=
  match m.integratedValues datetimes with
  | .ok l => (.ok l, { m with integrated := some l })
  | .error e => (.error e, m)

/-- base_short_rate_model.py:156-186: the knots of the discount curve.  An integrated path computed earlier is reused. -/
noncomputable def discountKnots (m : ShortRateModel p) (datetimes : Option (List PyDatetime)) :
    Except PyErr (List (PyDatetime × ℝ)) × ShortRateModel p :=
  match m.path with
  | none => (.error .valueError, m)
  | some _ =>
    match (match datetimes with
      | some l => Except.ok l
      | none => m.defaultDatetimes) with
    | .error e => (.error e, m)
    | .ok dts =>
      match m.integrated with
      | some vs => (.ok (dts.zip (vs.map (fun v => Real.exp (-v)))), m)
      | none =>
        match m.generateIntegratedPath (some dts) with
        | (.error e, m') => (.error e, m')
        | (.ok vs, m') => (.ok (dts.zip (vs.map (fun v => Real.exp (-v)))), m')

/-- base_short_rate_model.py:124-154: the knots of the accrual curve.  When no integrated path exists, line 141 passes three
arguments to a method taking one: TypeError. -/
noncomputable def accrualKnots (m : ShortRateModel p) (datetimes : Option (List PyDatetime)) :
    Except PyErr (List (PyDatetime × ℝ)) :=
  match m.path with
  | none => .error .valueError
  | some _ => do
    let dts ← match datetimes with
      | some l => .ok l
      | none => m.defaultDatetimes
    match m.integrated with
    | none => .error .typeError
    | some vs => .ok ((m.bm.start, 1) :: dts.zip (vs.map Real.exp))

end ShortRateModel
end Verif
