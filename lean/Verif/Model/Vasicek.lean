/-
Model of the one-factor model of fixedIncome/src/stochastics/short_rate_models/affine_yield_curve_models/vasicek_model.py.
Floats are real numbers.  Maturity and purchase dates are datetimes (the code also takes dates).
-/
import Verif.Model.Stochastic
import Mathlib.Analysis.SpecialFunctions.Log.Basic

namespace Verif

/-- Division of python floats: ZeroDivisionError for a zero divisor. -/
noncomputable def floatDiv (a b : ℝ) : Except PyErr ℝ := by
  classical exact if b = 0 then .error .zeroDivisionError else .ok (a / b)

/-- vasicek_model.py:96-100: the calibration dictionary of the one-factor model. -/
structure CalibrationDict where
  volatility : List ℝ
  shape : List ℝ
  stateVariables : List ℝ

/-- vasicek_model.py:65-100: a one-factor Vasicek model.  `convexityLimit` and the drift and diffusion (inside `core`) are computed
once by the constructor. -/
structure Vasicek where
  mean : ℝ
  speed : ℝ
  vol : ℝ
  convexityLimit : ℝ
  core : ShortRateModel 1
  params : CalibrationDict
  startingShortRate : Option ℝ

namespace Vasicek

/-- vasicek_model.py:46-62. -/
noncomputable def driftDiffusion (mean speed vol : ℝ) : DriftDiffusion 1 where
  drift := fun _ x => speed * (mean - x 0)
  diffusion := fun _ _ _ => vol

/-- vasicek_model.py:71-100.  The uninitialized `np.empty` starting values are the argument `garbage`. -/
noncomputable def create (mean speed vol : ℝ) (bm : BrownianMotion 1) (dt : DtIncrement) (garbage : ℝ) : Except PyErr Vasicek := do
  let process : Diffusion 1 := { coords := fun _ => driftDiffusion mean speed vol, dt := dt, path := none }
  let convexityLimit ← floatDiv (-vol ^ 2) (2 * speed ^ 2)
  .ok { mean := mean, speed := speed, vol := vol, convexityLimit := convexityLimit,
        core := ShortRateModel.new (fun x => x 0) process bm,
        params := ⟨[vol, speed], [mean], [garbage]⟩, startingShortRate := none }

/-- base_short_rate_model.py:56-73, inherited. -/
noncomputable def generatePath (v : Vasicek) (x0 : Vec 1) (set : Bool) (normals : Nat → Vec 1) : Except PyErr Unit × Vasicek :=
  let r := v.core.generatePath x0 set normals
  (r.1, { v with core := r.2 })

/-- base_short_rate_model.py:48-54, inherited: the short rate at a datetime. -/
noncomputable def call (v : Vasicek) (q : PyDatetime) : Except PyErr ℝ := v.core.call q

/-- The time from one datetime to another in the model's convention (vasicek_model.py:146-148 and alike). -/
def time (v : Vasicek) (a b : PyDatetime) : Except PyErr ℚ := dtAccrual a b v.core.bm.dcc

/-- `purchase_date` with its default (vasicek_model.py:143-144 and alike). -/
def purchase (v : Vasicek) (p : Option PyDatetime) : PyDatetime := p.getD v.core.bm.start

/-- vasicek_model.py:117-122. -/
def setVolatilityFromDict (v : Vasicek) : Except PyErr Unit × Vasicek :=
  match v.params.volatility with
  | a :: b :: _ => (.ok (), { v with vol := a, speed := b })
  | [a] => (.error .indexError, { v with vol := a })
  | [] => (.error .indexError, v)

/-- vasicek_model.py:124-128. -/
def setShapeFromDict (v : Vasicek) : Except PyErr Unit × Vasicek :=
  match v.params.shape with
  | a :: _ => (.ok (), { v with mean := a })
  | [] => (.error .indexError, v)

/-- vasicek_model.py:130-134: line 133 reads the shape parameters. -/
def setStateVariablesFromDict (v : Vasicek) : Except PyErr Unit × Vasicek :=
  match v.params.shape with
  | a :: _ => (.ok (), { v with startingShortRate := some a })
  | [] => (.error .indexError, v)

/-- vasicek_model.py:137-151. -/
noncomputable def shortRateVariance (v : Vasicek) (maturity : PyDatetime) (p : Option PyDatetime) : Except PyErr ℝ := do
  let accrual ← v.time (v.purchase p) maturity
  let shrinkage := 1 - Real.exp (-2 * v.speed * (accrual : ℝ))
  let scale ← floatDiv (v.vol ^ 2) (2 * v.speed)
  .ok (scale * shrinkage)

/-- vasicek_model.py:153-167. -/
noncomputable def expectedShortRate (v : Vasicek) (maturity : PyDatetime) (p : Option PyDatetime) : Except PyErr ℝ := do
  let accrual ← v.time (v.purchase p) maturity
  let weight := Real.exp (-v.speed * (accrual : ℝ))
  let r ← v.call (v.purchase p)
  .ok (weight * r + (1 - weight) * v.mean)

/-- vasicek_model.py:171-185: intercept and coefficient of the log price. -/
noncomputable def priceCoeffs (v : Vasicek) (maturity : PyDatetime) (p : Option PyDatetime) : Except PyErr (ℝ × ℝ) := do
  let accrual ← v.time (v.purchase p) maturity
  let coefficient ← floatDiv (-(1 - Real.exp (-v.speed * (accrual : ℝ)))) v.speed
  let term1 := (v.mean + v.convexityLimit) * (coefficient + (accrual : ℝ))
  let scale ← floatDiv (v.vol ^ 2) (4 * v.speed)
  let term2 := scale * coefficient ^ 2
  .ok (-term1 - term2, coefficient)

/-- vasicek_model.py:187-206. -/
noncomputable def priceCoeffDerivatives (v : Vasicek) (maturity : PyDatetime) (p : Option PyDatetime) : Except PyErr (ℝ × ℝ) := do
  let accrual ← v.time (v.purchase p) maturity
  let expFactor := Real.exp (-v.speed * (accrual : ℝ))
  let oneMinusExp := 1 - expFactor
  .ok (-oneMinusExp * (v.mean + oneMinusExp * v.convexityLimit), -expFactor)

/-- vasicek_model.py:208-220: intercept and coefficient of the yield, always from the start of the model. -/
noncomputable def yieldCoeffs (v : Vasicek) (maturity : PyDatetime) : Except PyErr (ℝ × ℝ) := do
  let accrual ← v.time v.core.bm.start maturity
  let coefficient ← floatDiv (-(1 - Real.exp (-v.speed * (accrual : ℝ)))) v.speed
  let term1 := (v.mean + v.convexityLimit) * (coefficient + (accrual : ℝ))
  let scale ← floatDiv (v.vol ^ 2) (4 * v.speed)
  let term2 := scale * coefficient ^ 2
  let intercept ← floatDiv (term1 + term2) accrual
  let c ← floatDiv (-coefficient) accrual
  .ok (intercept, c)

/-- vasicek_model.py:223-234: line 232 does not pass the purchase date on. -/
noncomputable def zeroCouponBondPrice (v : Vasicek) (maturity : PyDatetime) (p : Option PyDatetime) : Except PyErr ℝ := do
  let c ← v.priceCoeffs maturity none
  let r ← v.call (v.purchase p)
  .ok (Real.exp (c.1 + c.2 * r))

/-- vasicek_model.py:236-250. -/
noncomputable def zeroCouponYield (v : Vasicek) (maturity : PyDatetime) (p : Option PyDatetime) : Except PyErr ℝ := do
  let c ← v.yieldCoeffs maturity
  let r ← v.call (v.purchase p)
  .ok (c.1 + c.2 * r)

/-- vasicek_model.py:252-264. -/
noncomputable def yieldConvexity (v : Vasicek) (maturity : PyDatetime) : Except PyErr ℝ := do
  let accrual ← v.time v.core.bm.start maturity
  let c ← v.priceCoeffs maturity none
  let term1 ← floatDiv (-c.2 - (accrual : ℝ)) (2 * v.speed ^ 2)
  let term2 ← floatDiv (c.2 ^ 2) (4 * v.speed)
  let scale ← floatDiv (v.vol ^ 2) accrual
  .ok (scale * (term1 + term2))

/-- vasicek_model.py:291-299. -/
noncomputable def yieldVolatility (v : Vasicek) (maturity : PyDatetime) : Except PyErr ℝ := do
  let accrual ← v.time v.core.bm.start maturity
  let c ← v.priceCoeffs maturity none
  let ratio ← floatDiv c.2 accrual
  .ok (-ratio * v.vol)

/-- vasicek_model.py:279-288: one element of the array. -/
noncomputable def priceConvexity (v : Vasicek) (p : Option PyDatetime) (maturity : PyDatetime) : Except PyErr ℝ := do
  let accrual ← v.time (v.purchase p) maturity
  let price ← v.zeroCouponBondPrice maturity (some (v.purchase p))
  let volatility ← v.yieldVolatility maturity
  .ok (-(1 / 2) * (accrual : ℝ) ^ 2 * price * volatility ^ 2)

/-- vasicek_model.py:266-288.  `min` of an empty list is a ValueError too. -/
noncomputable def priceConvexities (v : Vasicek) (maturities : List PyDatetime) (p : Option PyDatetime) : Except PyErr (List ℝ) :=
  if maturities = [] ∨ ∃ m ∈ maturities, m ≤ v.purchase p then .error .valueError
  else collect (v.priceConvexity p) maturities

/-- vasicek_model.py:301-320.  Line 310 tests `self.path`, the short-rate path. -/
noncomputable def instantaneousForwardRate (v : Vasicek) (maturity : PyDatetime) (p : Option PyDatetime) : Except PyErr ℝ :=
  match v.core.path with
  | none => .error .valueError
  | some _ => do
    let r ← v.call (v.purchase p)
    let d ← v.priceCoeffDerivatives maturity (some (v.purchase p))
    .ok (-d.1 - d.2 * r)

/-- vasicek_model.py:322-336. -/
noncomputable def forwardRateVolatility (v : Vasicek) (maturity : PyDatetime) (p : Option PyDatetime) : Except PyErr ℝ := do
  let accrual ← v.time (v.purchase p) maturity
  .ok (v.vol * Real.exp (-(accrual : ℝ) * v.speed))

/-- vasicek_model.py:339-361.  The numerator is a numpy array, so a zero accrual gives nan rather than an exception; here the quotient is
zero then. -/
noncomputable def averageExpectedShortRate (v : Vasicek) (maturity : PyDatetime) (p : Option PyDatetime) : Except PyErr ℝ := do
  let c ← v.priceCoeffs maturity (some (v.purchase p))
  let accrual ← v.time (v.purchase p) maturity
  let r ← v.call (v.purchase p)
  let meanTimesAccrual := -v.mean * (c.2 + (accrual : ℝ)) + c.2 * r
  .ok (-meanTimesAccrual / (accrual : ℝ))

end Vasicek
end Verif
