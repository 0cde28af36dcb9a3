/-
Model of the methods of fixedIncome/src/stochastics/short_rate_models/affine_yield_curve_models/vasicek_model.py when maturity and
purchase dates are given as `datetime.date` as well as `datetime.datetime` objects, as their annotations say.  Model/Vasicek.lean and
Model/MultiVasicek.lean are the case of datetimes (`C117_datetimes`, `C117_multi_datetimes`).
-/
import Verif.Model.MultiVasicek

namespace Verif
open Matrix

namespace DateLike

/-- `a <= b` in python: a `date` and a `datetime` cannot be compared (TypeError), see vasicek_model.py:276, 512, 650, 757, 775, 841. -/
def pyLe (a b : DateLike) : Except PyErr Bool :=
  if a.isDatetime = b.isDatetime then .ok (decide (a.instant ≤ b.instant)) else .error .typeError

/-- `min(l)` after the first element, `best` being the least so far: the next element replaces it if it is less. -/
def minLoop : DateLike → List DateLike → Except PyErr DateLike
  | best, [] => .ok best
  | best, x :: xs =>
    if x.isDatetime = best.isDatetime then minLoop (if x.instant < best.instant then x else best) xs else .error .typeError

/-- `min(l)` (vasicek_model.py:276, 757, 841): ValueError for an empty list. -/
def pyMin : List DateLike → Except PyErr DateLike
  | [] => .error .valueError
  | x :: xs => minLoop x xs

/-- `if min(maturity_dates) <= purchase_date: raise ValueError` (vasicek_model.py:276-277, 757-758, 841-843). -/
def checkMaturities (maturities : List DateLike) (purchase : DateLike) : Except PyErr Unit := do
  let first ← pyMin maturities
  let bad ← first.pyLe purchase
  if bad then .error .valueError else .ok ()

end DateLike

namespace ShortRateModel
variable {p : Nat}

/-- base_processes.py:72-82 with brownian_motion.py:34-40: without a path ValueError; a `date` cannot be compared with the start
datetime: TypeError. -/
noncomputable def stateAt (m : ShortRateModel p) : DateLike → Except PyErr (Vec p)
  | .datetime d micros h => m.process.call m.bm ⟨d, micros, h⟩
  | .date _ => match m.process.path with
    | none => .error .valueError
    | some _ => .error .typeError

/-- base_short_rate_model.py:48-54. -/
noncomputable def callAt (m : ShortRateModel p) (q : DateLike) : Except PyErr ℝ := do
  let x ← m.stateAt q
  .ok (m.transform x)

/-- `compute_accrual_length` in the model's convention (vasicek_model.py:146-148 and alike). -/
def timeAt (m : ShortRateModel p) (a b : DateLike) : Except PyErr ℚ := DayCount.computeAccrualLength a b m.bm.dcc

/-- `purchase_date` with its default, the start of the model (vasicek_model.py:143-144 and alike). -/
def purchaseAt (m : ShortRateModel p) (q : Option DateLike) : DateLike := q.getD m.bm.start.like

end ShortRateModel

namespace Vasicek

/-- vasicek_model.py:137-151. -/
noncomputable def shortRateVarianceAt (v : Vasicek) (maturity : DateLike) (p : Option DateLike) : Except PyErr ℝ := do
  let accrual ← v.core.timeAt (v.core.purchaseAt p) maturity
  let shrinkage := 1 - Real.exp (-2 * v.speed * (accrual : ℝ))
  let scale ← floatDiv (v.vol ^ 2) (2 * v.speed)
  .ok (scale * shrinkage)

/-- vasicek_model.py:153-167. -/
noncomputable def expectedShortRateAt (v : Vasicek) (maturity : DateLike) (p : Option DateLike) : Except PyErr ℝ := do
  let accrual ← v.core.timeAt (v.core.purchaseAt p) maturity
  let weight := Real.exp (-v.speed * (accrual : ℝ))
  let r ← v.core.callAt (v.core.purchaseAt p)
  .ok (weight * r + (1 - weight) * v.mean)

/-- vasicek_model.py:171-185. -/
noncomputable def priceCoeffsAt (v : Vasicek) (maturity : DateLike) (p : Option DateLike) : Except PyErr (ℝ × ℝ) := do
  let accrual ← v.core.timeAt (v.core.purchaseAt p) maturity
  let coefficient ← floatDiv (-(1 - Real.exp (-v.speed * (accrual : ℝ)))) v.speed
  let term1 := (v.mean + v.convexityLimit) * (coefficient + (accrual : ℝ))
  let scale ← floatDiv (v.vol ^ 2) (4 * v.speed)
  let term2 := scale * coefficient ^ 2
  .ok (-term1 - term2, coefficient)

/-- vasicek_model.py:187-206. -/
noncomputable def priceCoeffDerivativesAt (v : Vasicek) (maturity : DateLike) (p : Option DateLike) : Except PyErr (ℝ × ℝ) := do
  let accrual ← v.core.timeAt (v.core.purchaseAt p) maturity
  let expFactor := Real.exp (-v.speed * (accrual : ℝ))
  let oneMinusExp := 1 - expFactor
  .ok (-oneMinusExp * (v.mean + oneMinusExp * v.convexityLimit), -expFactor)

/-- vasicek_model.py:208-220. -/
noncomputable def yieldCoeffsAt (v : Vasicek) (maturity : DateLike) : Except PyErr (ℝ × ℝ) := do
  let accrual ← v.core.timeAt v.core.bm.start.like maturity
  let coefficient ← floatDiv (-(1 - Real.exp (-v.speed * (accrual : ℝ)))) v.speed
  let term1 := (v.mean + v.convexityLimit) * (coefficient + (accrual : ℝ))
  let scale ← floatDiv (v.vol ^ 2) (4 * v.speed)
  let term2 := scale * coefficient ^ 2
  let intercept ← floatDiv (term1 + term2) accrual
  let c ← floatDiv (-coefficient) accrual
  .ok (intercept, c)

/-- vasicek_model.py:223-234: line 232 does not pass the purchase date on. -/
noncomputable def zeroCouponBondPriceAt (v : Vasicek) (maturity : DateLike) (p : Option DateLike) : Except PyErr ℝ := do
  let c ← v.priceCoeffsAt maturity none
  let r ← v.core.callAt (v.core.purchaseAt p)
  .ok (Real.exp (c.1 + c.2 * r))

/-- vasicek_model.py:236-250. -/
noncomputable def zeroCouponYieldAt (v : Vasicek) (maturity : DateLike) (p : Option DateLike) : Except PyErr ℝ := do
  let c ← v.yieldCoeffsAt maturity
  let r ← v.core.callAt (v.core.purchaseAt p)
  .ok (c.1 + c.2 * r)

/-- vasicek_model.py:252-264. -/
noncomputable def yieldConvexityAt (v : Vasicek) (maturity : DateLike) : Except PyErr ℝ := do
  let accrual ← v.core.timeAt v.core.bm.start.like maturity
  let c ← v.priceCoeffsAt maturity none
  let term1 ← floatDiv (-c.2 - (accrual : ℝ)) (2 * v.speed ^ 2)
  let term2 ← floatDiv (c.2 ^ 2) (4 * v.speed)
  let scale ← floatDiv (v.vol ^ 2) accrual
  .ok (scale * (term1 + term2))

/-- vasicek_model.py:291-299. -/
noncomputable def yieldVolatilityAt (v : Vasicek) (maturity : DateLike) : Except PyErr ℝ := do
  let accrual ← v.core.timeAt v.core.bm.start.like maturity
  let c ← v.priceCoeffsAt maturity none
  let ratio ← floatDiv c.2 accrual
  .ok (-ratio * v.vol)

/-- vasicek_model.py:279-288: one element of the array. -/
noncomputable def priceConvexityAt (v : Vasicek) (p : Option DateLike) (maturity : DateLike) : Except PyErr ℝ := do
  let accrual ← v.core.timeAt (v.core.purchaseAt p) maturity
  let price ← v.zeroCouponBondPriceAt maturity (some (v.core.purchaseAt p))
  let volatility ← v.yieldVolatilityAt maturity
  .ok (-(1 / 2) * (accrual : ℝ) ^ 2 * price * volatility ^ 2)

/-- vasicek_model.py:266-288. -/
noncomputable def priceConvexitiesAt (v : Vasicek) (maturities : List DateLike) (p : Option DateLike) : Except PyErr (List ℝ) := do
  DateLike.checkMaturities maturities (v.core.purchaseAt p)
  collect (v.priceConvexityAt p) maturities

/-- vasicek_model.py:301-320. -/
noncomputable def instantaneousForwardRateAt (v : Vasicek) (maturity : DateLike) (p : Option DateLike) : Except PyErr ℝ :=
  match v.core.path with
  | none => .error .valueError
  | some _ => do
    let r ← v.core.callAt (v.core.purchaseAt p)
    let d ← v.priceCoeffDerivativesAt maturity (some (v.core.purchaseAt p))
    .ok (-d.1 - d.2 * r)

/-- vasicek_model.py:322-336. -/
noncomputable def forwardRateVolatilityAt (v : Vasicek) (maturity : DateLike) (p : Option DateLike) : Except PyErr ℝ := do
  let accrual ← v.core.timeAt (v.core.purchaseAt p) maturity
  .ok (v.vol * Real.exp (-(accrual : ℝ) * v.speed))

/-- vasicek_model.py:339-361; a zero accrual as in Model/Vasicek.lean. -/
noncomputable def averageExpectedShortRateAt (v : Vasicek) (maturity : DateLike) (p : Option DateLike) : Except PyErr ℝ := do
  let c ← v.priceCoeffsAt maturity (some (v.core.purchaseAt p))
  let accrual ← v.core.timeAt (v.core.purchaseAt p) maturity
  let r ← v.core.callAt (v.core.purchaseAt p)
  let meanTimesAccrual := -v.mean * (c.2 + (accrual : ℝ)) + c.2 * r
  .ok (-meanTimesAccrual / (accrual : ℝ))

end Vasicek

namespace MultiVasicek
variable {p : Nat}

/-- vasicek_model.py:467-485. -/
noncomputable def expectedStateMeanAt (v : MultiVasicek p) (maturity : DateLike) (q : Option DateLike) : Except PyErr (Vec p) := do
  let accrual ← v.core.timeAt (v.core.purchaseAt q) maturity
  let x ← v.core.stateAt (v.core.purchaseAt q)
  .ok (v.matExp accrual *ᵥ x + (1 - v.matExp accrual) *ᵥ v.level)

/-- vasicek_model.py:486-496. -/
noncomputable def expectedShortRateAt (v : MultiVasicek p) (maturity : DateLike) (q : Option DateLike) : Except PyErr ℝ := do
  let x ← v.expectedStateMeanAt maturity q
  .ok (v.core.transform x)

/-- `if maturity_date <= purchase_date: raise ValueError` (vasicek_model.py:512-513, 650-651, 775-776). -/
def checkMaturity (maturity purchase : DateLike) : Except PyErr Unit := do
  let bad ← maturity.pyLe purchase
  if bad then .error .valueError else .ok ()

/-- vasicek_model.py:498-521. -/
noncomputable def averageExpectedShortRateAt (v : MultiVasicek p) (maturity : DateLike) (q : Option DateLike) : Except PyErr ℝ := do
  checkMaturity maturity (v.core.purchaseAt q)
  let accrual ← v.core.timeAt (v.core.purchaseAt q) maturity
  let diagonalTerm : Vec p := fun i => (1 - Real.exp (-v.eig.values i * (accrual : ℝ))) / (v.eig.values i * (accrual : ℝ))
  let avg := v.eig.vectors * diagonal diagonalTerm * v.eig.inverse
  let x ← v.core.stateAt (v.core.purchaseAt q)
  .ok (v.core.transform (avg *ᵥ x + (v.level - avg *ᵥ v.level)))

/-- vasicek_model.py:523-540. -/
noncomputable def stateCovarianceAt (v : MultiVasicek p) (maturity : DateLike) (q : Option DateLike) : Except PyErr (Mat p) := do
  let accrual ← v.core.timeAt (v.core.purchaseAt q) maturity
  let h := v.eig.inverse * v.cMat * v.eig.vectors
  .ok (Matrix.of fun i j => (1 - Real.exp (-(v.eig.values j + v.eig.values i) * (accrual : ℝ))) * h i j /
    (v.eig.values j + v.eig.values i))

/-- vasicek_model.py:543-554. -/
noncomputable def shortRateVarianceAt (v : MultiVasicek p) (maturity : DateLike) (q : Option DateLike) : Except PyErr ℝ := do
  let c ← v.stateCovarianceAt maturity (some (v.core.purchaseAt q))
  .ok (v.coefficients ⬝ᵥ (c *ᵥ v.coefficients))

/-- vasicek_model.py:677-692. -/
noncomputable def priceCoeffsAt (v : MultiVasicek p) (maturity : DateLike) (q : Option DateLike) : Except PyErr (ℝ × Vec p) := do
  let accrual ← v.core.timeAt (v.core.purchaseAt q) maturity
  .ok (v.interceptTerm accrual, v.coefficientTerm accrual)

/-- vasicek_model.py:557-569. -/
noncomputable def zeroCouponBondPriceAt (v : MultiVasicek p) (maturity : DateLike) (q : Option DateLike) : Except PyErr ℝ := do
  let c ← v.priceCoeffsAt maturity (some (v.core.purchaseAt q))
  let x ← v.core.stateAt (v.core.purchaseAt q)
  .ok (Real.exp (c.1 + c.2 ⬝ᵥ x))

/-- vasicek_model.py:571-582. -/
noncomputable def priceDerivStateAt (v : MultiVasicek p) (maturity : DateLike) (q : Option DateLike) : Except PyErr (Vec p) := do
  let price ← v.zeroCouponBondPriceAt maturity (some (v.core.purchaseAt q))
  let c ← v.priceCoeffsAt maturity (some (v.core.purchaseAt q))
  .ok (price • c.2)

/-- vasicek_model.py:584-614. -/
noncomputable def risklessWeightsAt (v : MultiVasicek p) (maturities : List DateLike) (q : Option DateLike) : Except PyErr (List ℝ) :=
  if h : maturities.length = p + 1 then do
    let last ← v.priceDerivStateAt (maturities[p]'(by omega)) (some (v.core.purchaseAt q))
    let derivs ← collect (fun m => v.priceDerivStateAt m (some (v.core.purchaseAt q))) (maturities.take p)
    let differences : Mat p := Matrix.of fun i j => (derivs.getD j 0) i - last i
    let w ← npSolve differences (-last)
    .ok (List.ofFn w ++ [1 - ∑ i, w i])
  else .error .assertionError

/-- vasicek_model.py:635-639: one turn of the loop. -/
noncomputable def convexityTermAt (v : MultiVasicek p) (q : Option DateLike) (weight : ℝ) (maturity : DateLike) : Except PyErr (Mat p) := do
  let price ← v.zeroCouponBondPriceAt maturity (some (v.core.purchaseAt q))
  let c ← v.priceCoeffsAt maturity (some (v.core.purchaseAt q))
  .ok ((price * weight) • Matrix.vecMulVec c.2 c.2)

/-- vasicek_model.py:616-641. -/
noncomputable def risklessConvexityAt (v : MultiVasicek p) (maturities : List DateLike) (q : Option DateLike) : Except PyErr ℝ := do
  let weights ← v.risklessWeightsAt maturities (some (v.core.purchaseAt q))
  let terms ← collect (fun wm : ℝ × DateLike => v.convexityTermAt q wm.1 wm.2) (weights.zip maturities)
  let d : Mat p := terms.sum
  .ok ((1 / 2) * (v.volatilityᵀ * d * v.volatility).trace)

/-- vasicek_model.py:659-674. -/
noncomputable def yieldCoeffsAt (v : MultiVasicek p) (maturity : DateLike) (q : Option DateLike) : Except PyErr (ℝ × Vec p) := do
  let c ← v.priceCoeffsAt maturity (some (v.core.purchaseAt q))
  let accrual ← v.core.timeAt (v.core.purchaseAt q) maturity
  .ok (-c.1 / (accrual : ℝ), fun i => -c.2 i / (accrual : ℝ))

/-- vasicek_model.py:643-656. -/
noncomputable def zeroCouponBondYieldAt (v : MultiVasicek p) (maturity : DateLike) (q : Option DateLike) : Except PyErr ℝ := do
  checkMaturity maturity (v.core.purchaseAt q)
  let x ← v.core.stateAt (v.core.purchaseAt q)
  let c ← v.yieldCoeffsAt maturity (some (v.core.purchaseAt q))
  .ok (c.1 + c.2 ⬝ᵥ x)

/-- vasicek_model.py:782-801. -/
noncomputable def yieldCovarianceAt (v : MultiVasicek p) (maturities : List DateLike) (q : Option DateLike) :
    Except PyErr (List (List ℝ)) := do
  let betas ← collect (fun m => v.yieldCoeffsAt m (some (v.core.purchaseAt q))) maturities
  .ok (betas.map fun a => betas.map fun b => a.2 ⬝ᵥ (v.cMat *ᵥ b.2))

/-- vasicek_model.py:803-815. -/
noncomputable def yieldVolatilityAt (v : MultiVasicek p) (maturity : DateLike) (q : Option DateLike) : Except PyErr ℝ := do
  let c ← v.yieldCoeffsAt maturity (some (v.core.purchaseAt q))
  .ok (Real.sqrt (c.2 ⬝ᵥ (v.cMat *ᵥ c.2)))

/-- vasicek_model.py:760-767: one element of the array. -/
noncomputable def priceConvexityAt (v : MultiVasicek p) (q : Option DateLike) (maturity : DateLike) : Except PyErr ℝ := do
  let c ← v.yieldCoeffsAt maturity (some (v.core.purchaseAt q))
  let accrual ← v.core.timeAt (v.core.purchaseAt q) maturity
  let price ← v.zeroCouponBondPriceAt maturity (some (v.core.purchaseAt q))
  .ok (-(1 / 2) * price * (accrual : ℝ) ^ 2 * (c.2 ⬝ᵥ (v.cMat *ᵥ c.2)))

/-- vasicek_model.py:746-767. -/
noncomputable def priceConvexitiesAt (v : MultiVasicek p) (maturities : List DateLike) (q : Option DateLike) :
    Except PyErr (List ℝ) := do
  DateLike.checkMaturities maturities (v.core.purchaseAt q)
  collect (v.priceConvexityAt q) maturities

/-- vasicek_model.py:769-780. -/
noncomputable def yieldConvexityAt (v : MultiVasicek p) (maturity : DateLike) (q : Option DateLike) : Except PyErr ℝ := do
  checkMaturity maturity (v.core.purchaseAt q)
  let y ← v.zeroCouponBondYieldAt maturity (some (v.core.purchaseAt q))
  let a ← v.averageExpectedShortRateAt maturity (some (v.core.purchaseAt q))
  .ok (y - a)

/-- vasicek_model.py:892-909. -/
noncomputable def coeffDerivativesAt (v : MultiVasicek p) (maturity : DateLike) (q : Option DateLike) : Except PyErr (ℝ × Vec p) := do
  let accrual ← v.core.timeAt (v.core.purchaseAt q) maturity
  .ok (v.interceptDeriv accrual, v.coeffDeriv accrual)

/-- vasicek_model.py:817-829. -/
noncomputable def instantaneousForwardRateAt (v : MultiVasicek p) (maturity : DateLike) (q : Option DateLike) : Except PyErr ℝ := do
  let d ← v.coeffDerivativesAt maturity (some (v.core.purchaseAt q))
  let x ← v.core.stateAt (v.core.purchaseAt q)
  .ok (-d.1 - d.2 ⬝ᵥ x)

/-- vasicek_model.py:831-851. -/
noncomputable def forwardCovarianceAt (v : MultiVasicek p) (maturities : List DateLike) (q : Option DateLike) :
    Except PyErr (List (List ℝ)) := do
  DateLike.checkMaturities maturities (v.core.purchaseAt q)
  let ds ← collect (fun m => v.coeffDerivativesAt m (some (v.core.purchaseAt q))) maturities
  .ok (ds.map fun a => ds.map fun b => (-a.2) ⬝ᵥ (v.cMat *ᵥ (-b.2)))

/-- vasicek_model.py:854-867: `instantaneous_forward_rate_covariance` of the single maturity. -/
noncomputable def forwardVolatilityAt (v : MultiVasicek p) (maturity : DateLike) (q : Option DateLike) : Except PyErr ℝ := do
  DateLike.checkMaturities [maturity] (v.core.purchaseAt q)
  let d ← v.coeffDerivativesAt maturity (some (v.core.purchaseAt q))
  .ok (Real.sqrt ((-d.2) ⬝ᵥ (v.cMat *ᵥ (-d.2))))

/-- vasicek_model.py:869-889. -/
noncomputable def priceDerivMaturityAt (v : MultiVasicek p) (maturity : DateLike) (q : Option DateLike) : Except PyErr ℝ := do
  let d ← v.coeffDerivativesAt maturity (some (v.core.purchaseAt q))
  let price ← v.zeroCouponBondPriceAt maturity (some (v.core.purchaseAt q))
  let x ← v.core.stateAt (v.core.purchaseAt q)
  .ok (price * (d.1 + d.2 ⬝ᵥ x))

end MultiVasicek
end Verif
