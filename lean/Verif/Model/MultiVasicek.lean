/-
Model of the multivariate models of fixedIncome/src/stochastics/short_rate_models/affine_yield_curve_models/: the class
MultivariateVasicekModel of vasicek_model.py and its subclasses.  Floats are real numbers, numpy arrays are vectors and matrices of the
model's dimension, so the assertions on shapes hold by typing.  The result of `np.linalg.eig` (with the inverse of the eigenvectors)
is an argument.  numpy divisions by zero give nan or inf with a warning; here they give zero.  The coefficients the methods store on
the object are recomputed before every use and are returned instead.
-/
import Verif.Model.Vasicek
import Mathlib.LinearAlgebra.Matrix.NonsingularInverse
import Mathlib.Data.Matrix.Mul

namespace Verif
open Matrix

/-- A square numpy array. -/
abbrev Mat (p : Nat) := Matrix (Fin p) (Fin p) ℝ

/-- vasicek_model.py:421-422: eigenvalues, eigenvectors (as columns) and the inverse of the eigenvector matrix. -/
structure Eig (p : Nat) where
  values : Vec p
  vectors : Mat p
  inverse : Mat p

/-- `np.linalg.solve`: LinAlgError for a singular matrix (vasicek_model.py:612). -/
noncomputable def npSolve {p : Nat} (a : Mat p) (b : Vec p) : Except PyErr (Vec p) := by
  classical exact if a.det = 0 then .error .linAlgError else .ok (a⁻¹ *ᵥ b)

/-- vasicek_model.py:401-443: a multivariate model. -/
structure MultiVasicek (p : Nat) where
  intercept : ℝ
  coefficients : Vec p
  level : Vec p
  reversion : Mat p
  volatility : Mat p
  eig : Eig p
  cMat : Mat p
  core : ShortRateModel p

namespace MultiVasicek
variable {p : Nat}

/-- vasicek_model.py:31-35. -/
noncomputable def affine (coefficients : Vec p) (intercept : ℝ) : Vec p → ℝ := fun x => intercept + coefficients ⬝ᵥ x

/-- vasicek_model.py:38-45, 426-431: drift and diffusion of coordinate `i`. -/
noncomputable def driftDiffusion (level : Vec p) (reversion volatility : Mat p) (i : Fin p) : DriftDiffusion p where
  drift := fun _ x => (reversion i) ⬝ᵥ (level - x)
  diffusion := fun _ _ => volatility i

/-- vasicek_model.py:401-443: the constructor's body, as run by the subclasses. -/
noncomputable def init (intercept : ℝ) (coefficients level : Vec p) (reversion volatility : Mat p) (eig : Eig p) (bm : BrownianMotion p)
    (dt : DtIncrement) : MultiVasicek p :=
  let process : Diffusion p := { coords := driftDiffusion level reversion volatility, dt := dt, path := none }
  { intercept := intercept, coefficients := coefficients, level := level, reversion := reversion, volatility := volatility,
    eig := eig, cMat := volatility * volatilityᵀ, core := ShortRateModel.new (affine coefficients intercept) process bm }

/-- vasicek_model.py:445-464: calling the class itself.  Its metaclass is ABCMeta (through `Callable`) and four methods are abstract:
TypeError. -/
noncomputable def create (_intercept : ℝ) (_coefficients _level : Vec p) (_reversion _volatility : Mat p) (_eig : Eig p)
    (_bm : BrownianMotion p) (_dt : DtIncrement) : Except PyErr (MultiVasicek p) := .error .typeError

/-- base_short_rate_model.py:56-73, inherited. -/
noncomputable def generatePath (v : MultiVasicek p) (x0 : Vec p) (set : Bool) (normals : Nat → Vec p) : Except PyErr Unit × MultiVasicek p :=
  let r := v.core.generatePath x0 set normals
  (r.1, { v with core := r.2 })

/-- base_short_rate_model.py:48-54, inherited: the short rate. -/
noncomputable def call (v : MultiVasicek p) (q : PyDatetime) : Except PyErr ℝ := v.core.call q

/-- `self.state_variables_diffusion_process(q)`: the state variables (vasicek_model.py:484 and alike). -/
noncomputable def state (v : MultiVasicek p) (q : PyDatetime) : Except PyErr (Vec p) := v.core.process.call v.core.bm q

/-- `compute_accrual_length` in the model's convention (vasicek_model.py:477-479 and alike). -/
def time (v : MultiVasicek p) (a b : PyDatetime) : Except PyErr ℚ := dtAccrual a b v.core.bm.dcc

/-- `purchase_date` with its default (vasicek_model.py:474-475 and alike). -/
def purchase (v : MultiVasicek p) (q : Option PyDatetime) : PyDatetime := q.getD v.core.bm.start

/-- vasicek_model.py:480-482, 699-702: the matrix exponential of minus the reversion matrix times the accrual. -/
noncomputable def matExp (v : MultiVasicek p) (accrual : ℝ) : Mat p :=
  v.eig.vectors * diagonal (fun i => Real.exp (-v.eig.values i * accrual)) * v.eig.inverse

/-- vasicek_model.py:467-485. -/
noncomputable def expectedStateMean (v : MultiVasicek p) (maturity : PyDatetime) (q : Option PyDatetime) : Except PyErr (Vec p) := do
  let accrual ← v.time (v.purchase q) maturity
  let x ← v.state (v.purchase q)
  .ok (v.matExp accrual *ᵥ x + (1 - v.matExp accrual) *ᵥ v.level)

/-- vasicek_model.py:486-496. -/
noncomputable def expectedShortRate (v : MultiVasicek p) (maturity : PyDatetime) (q : Option PyDatetime) : Except PyErr ℝ := do
  let x ← v.expectedStateMean maturity q
  .ok (v.core.transform x)

/-- vasicek_model.py:498-521. -/
noncomputable def averageExpectedShortRate (v : MultiVasicek p) (maturity : PyDatetime) (q : Option PyDatetime) : Except PyErr ℝ :=
  if maturity ≤ v.purchase q then .error .valueError
  else do
    let accrual ← v.time (v.purchase q) maturity
    let diagonalTerm : Vec p := fun i => (1 - Real.exp (-v.eig.values i * (accrual : ℝ))) / (v.eig.values i * (accrual : ℝ))
    let avg := v.eig.vectors * diagonal diagonalTerm * v.eig.inverse
    let x ← v.state (v.purchase q)
    .ok (v.core.transform (avg *ᵥ x + (v.level - avg *ᵥ v.level)))

/-- vasicek_model.py:523-540. -/
noncomputable def stateCovariance (v : MultiVasicek p) (maturity : PyDatetime) (q : Option PyDatetime) : Except PyErr (Mat p) := do
  let accrual ← v.time (v.purchase q) maturity
  let h := v.eig.inverse * v.cMat * v.eig.vectors
  .ok (Matrix.of fun i j => (1 - Real.exp (-(v.eig.values j + v.eig.values i) * (accrual : ℝ))) * h i j /
    (v.eig.values j + v.eig.values i))

/-- vasicek_model.py:543-554. -/
noncomputable def shortRateVariance (v : MultiVasicek p) (maturity : PyDatetime) (q : Option PyDatetime) : Except PyErr ℝ := do
  let c ← v.stateCovariance maturity (some (v.purchase q))
  .ok (v.coefficients ⬝ᵥ (c *ᵥ v.coefficients))

/-- vasicek_model.py:686-688. -/
noncomputable def reversionInv (v : MultiVasicek p) : Mat p :=
  v.eig.vectors * diagonal (fun i => 1 / v.eig.values i) * v.eig.inverse

/-- vasicek_model.py:694-706. -/
noncomputable def coefficientTerm (v : MultiVasicek p) (accrual : ℝ) : Vec p :=
  (((v.matExp accrual)ᵀ - 1) * v.reversionInvᵀ) *ᵥ v.coefficients

/-- vasicek_model.py:708-744. -/
noncomputable def interceptTerm (v : MultiVasicek p) (accrual : ℝ) : ℝ :=
  let g := v.coefficients
  let l := v.eig.values
  let u := v.reversionInvᵀ *ᵥ g
  let dt : Mat p := diagonal fun i => (1 - Real.exp (-l i * accrual)) / l i
  let transformedDt := v.eig.vectors * dt * v.eig.inverse
  let m := v.eig.inverse * v.cMat * v.eig.inverseᵀ
  let f : Mat p := Matrix.of fun i j => m i j * (1 - Real.exp (-(l j + l i) * accrual)) / (l j + l i)
  let lInv : Mat p := diagonal fun i => 1 / l i
  let int1 := -v.intercept * accrual
  let int2 := g ⬝ᵥ (transformedDt *ᵥ v.level - accrual • v.level)
  let int3d := (1 / 2) * (u ⬝ᵥ (v.cMat *ᵥ u)) * accrual
  let int3c := -(1 / 2) * (u ⬝ᵥ ((transformedDt * v.cMat) *ᵥ u))
  let int3b := -(1 / 2) * (u ⬝ᵥ ((v.cMat * v.eig.inverseᵀ * dt * lInv * v.eig.vectorsᵀ) *ᵥ g))
  let int3a := (1 / 2) * (u ⬝ᵥ ((v.eig.vectors * f * lInv * v.eig.vectorsᵀ) *ᵥ g))
  let int3 := int3a + int3b + int3c + int3d
  int1 + int2 + int3

/-- vasicek_model.py:677-692: intercept and coefficients of the log price. -/
noncomputable def priceCoeffs (v : MultiVasicek p) (maturity : PyDatetime) (q : Option PyDatetime) : Except PyErr (ℝ × Vec p) := do
  let accrual ← v.time (v.purchase q) maturity
  .ok (v.interceptTerm accrual, v.coefficientTerm accrual)

/-- vasicek_model.py:557-569. -/
noncomputable def zeroCouponBondPrice (v : MultiVasicek p) (maturity : PyDatetime) (q : Option PyDatetime) : Except PyErr ℝ := do
  let c ← v.priceCoeffs maturity (some (v.purchase q))
  let x ← v.state (v.purchase q)
  .ok (Real.exp (c.1 + c.2 ⬝ᵥ x))

/-- vasicek_model.py:571-582. -/
noncomputable def priceDerivState (v : MultiVasicek p) (maturity : PyDatetime) (q : Option PyDatetime) : Except PyErr (Vec p) := do
  let price ← v.zeroCouponBondPrice maturity (some (v.purchase q))
  let c ← v.priceCoeffs maturity (some (v.purchase q))
  .ok (price • c.2)

/-- vasicek_model.py:584-614. -/
noncomputable def risklessWeights (v : MultiVasicek p) (maturities : List PyDatetime) (q : Option PyDatetime) : Except PyErr (List ℝ) :=
  if h : maturities.length = p + 1 then do
    let last ← v.priceDerivState (maturities[p]'(by omega)) (some (v.purchase q))
    let derivs ← collect (fun m => v.priceDerivState m (some (v.purchase q))) (maturities.take p)
    let differences : Mat p := Matrix.of fun i j => (derivs.getD j 0) i - last i
    let w ← npSolve differences (-last)
    .ok (List.ofFn w ++ [1 - ∑ i, w i])
  else .error .assertionError

/-- vasicek_model.py:635-639: one turn of the loop. -/
noncomputable def convexityTerm (v : MultiVasicek p) (q : Option PyDatetime) (weight : ℝ) (maturity : PyDatetime) : Except PyErr (Mat p) := do
  let price ← v.zeroCouponBondPrice maturity (some (v.purchase q))
  let c ← v.priceCoeffs maturity (some (v.purchase q))
  .ok ((price * weight) • Matrix.vecMulVec c.2 c.2)

/-- vasicek_model.py:616-641. -/
noncomputable def risklessConvexity (v : MultiVasicek p) (maturities : List PyDatetime) (q : Option PyDatetime) : Except PyErr ℝ := do
  let weights ← v.risklessWeights maturities (some (v.purchase q))
  let terms ← collect (fun wm : ℝ × PyDatetime => v.convexityTerm q wm.1 wm.2) (weights.zip maturities)
  let d : Mat p := terms.sum
  .ok ((1 / 2) * (v.volatilityᵀ * d * v.volatility).trace)

/-- vasicek_model.py:659-674: intercept and coefficients of the yield. -/
noncomputable def yieldCoeffs (v : MultiVasicek p) (maturity : PyDatetime) (q : Option PyDatetime) : Except PyErr (ℝ × Vec p) := do
  let c ← v.priceCoeffs maturity (some (v.purchase q))
  let accrual ← v.time (v.purchase q) maturity
  .ok (-c.1 / (accrual : ℝ), fun i => -c.2 i / (accrual : ℝ))

/-- vasicek_model.py:643-656. -/
noncomputable def zeroCouponBondYield (v : MultiVasicek p) (maturity : PyDatetime) (q : Option PyDatetime) : Except PyErr ℝ :=
  if maturity ≤ v.purchase q then .error .valueError
  else do
    let x ← v.state (v.purchase q)
    let c ← v.yieldCoeffs maturity (some (v.purchase q))
    .ok (c.1 + c.2 ⬝ᵥ x)

/-- vasicek_model.py:782-801: row `i`, column `j` belongs to maturities `i` and `j`. -/
noncomputable def yieldCovariance (v : MultiVasicek p) (maturities : List PyDatetime) (q : Option PyDatetime) : Except PyErr (List (List ℝ)) := do
  let betas ← collect (fun m => v.yieldCoeffs m (some (v.purchase q))) maturities
  .ok (betas.map fun a => betas.map fun b => a.2 ⬝ᵥ (v.cMat *ᵥ b.2))

/-- vasicek_model.py:803-815. -/
noncomputable def yieldVolatility (v : MultiVasicek p) (maturity : PyDatetime) (q : Option PyDatetime) : Except PyErr ℝ := do
  let c ← v.yieldCoeffs maturity (some (v.purchase q))
  .ok (Real.sqrt (c.2 ⬝ᵥ (v.cMat *ᵥ c.2)))

/-- vasicek_model.py:760-767: one element of the array. -/
noncomputable def priceConvexity (v : MultiVasicek p) (q : Option PyDatetime) (maturity : PyDatetime) : Except PyErr ℝ := do
  let c ← v.yieldCoeffs maturity (some (v.purchase q))
  let accrual ← v.time (v.purchase q) maturity
  let price ← v.zeroCouponBondPrice maturity (some (v.purchase q))
  .ok (-(1 / 2) * price * (accrual : ℝ) ^ 2 * (c.2 ⬝ᵥ (v.cMat *ᵥ c.2)))

/-- vasicek_model.py:746-767.  `min` of an empty list is a ValueError too. -/
noncomputable def priceConvexities (v : MultiVasicek p) (maturities : List PyDatetime) (q : Option PyDatetime) : Except PyErr (List ℝ) :=
  if maturities = [] ∨ ∃ m ∈ maturities, m ≤ v.purchase q then .error .valueError
  else collect (v.priceConvexity q) maturities

/-- vasicek_model.py:769-780. -/
noncomputable def yieldConvexity (v : MultiVasicek p) (maturity : PyDatetime) (q : Option PyDatetime) : Except PyErr ℝ :=
  if maturity ≤ v.purchase q then .error .valueError
  else do
    let y ← v.zeroCouponBondYield maturity (some (v.purchase q))
    let a ← v.averageExpectedShortRate maturity (some (v.purchase q))
    .ok (y - a)

/-- vasicek_model.py:911-921: line 921 multiplies with the matrix exponential, not with its transpose. -/
noncomputable def coeffDeriv (v : MultiVasicek p) (accrual : ℝ) : Vec p := -(v.matExp accrual *ᵥ v.coefficients)

/-- vasicek_model.py:923-931. -/
noncomputable def interceptDeriv (v : MultiVasicek p) (accrual : ℝ) : ℝ :=
  let b := v.coefficientTerm accrual;
  -v.intercept + b ⬝ᵥ (v.reversion *ᵥ v.level) + (1 / 2) * (b ⬝ᵥ (v.cMat *ᵥ b))

/-- vasicek_model.py:892-909: derivatives of intercept and coefficients with respect to the maturity. -/
noncomputable def coeffDerivatives (v : MultiVasicek p) (maturity : PyDatetime) (q : Option PyDatetime) : Except PyErr (ℝ × Vec p) := do
  let accrual ← v.time (v.purchase q) maturity
  .ok (v.interceptDeriv accrual, v.coeffDeriv accrual)

/-- vasicek_model.py:817-829. -/
noncomputable def instantaneousForwardRate (v : MultiVasicek p) (maturity : PyDatetime) (q : Option PyDatetime) : Except PyErr ℝ := do
  let d ← v.coeffDerivatives maturity (some (v.purchase q))
  let x ← v.state (v.purchase q)
  .ok (-d.1 - d.2 ⬝ᵥ x)

/-- vasicek_model.py:831-851. -/
noncomputable def forwardCovariance (v : MultiVasicek p) (maturities : List PyDatetime) (q : Option PyDatetime) : Except PyErr (List (List ℝ)) :=
  if maturities = [] ∨ ∃ m ∈ maturities, m ≤ v.purchase q then .error .valueError
  else do
    let ds ← collect (fun m => v.coeffDerivatives m (some (v.purchase q))) maturities
    .ok (ds.map fun a => ds.map fun b => (-a.2) ⬝ᵥ (v.cMat *ᵥ (-b.2)))

/-- vasicek_model.py:854-867. -/
noncomputable def forwardVolatility (v : MultiVasicek p) (maturity : PyDatetime) (q : Option PyDatetime) : Except PyErr ℝ :=
  if maturity ≤ v.purchase q then .error .valueError
  else do
    let d ← v.coeffDerivatives maturity (some (v.purchase q))
    .ok (Real.sqrt ((-d.2) ⬝ᵥ (v.cMat *ᵥ (-d.2))))

/-- vasicek_model.py:869-889. -/
noncomputable def priceDerivMaturity (v : MultiVasicek p) (maturity : PyDatetime) (q : Option PyDatetime) : Except PyErr ℝ := do
  let d ← v.coeffDerivatives maturity (some (v.purchase q))
  let price ← v.zeroCouponBondPrice maturity (some (v.purchase q))
  let x ← v.state (v.purchase q)
  .ok (price * (d.1 + d.2 ⬝ᵥ x))

end MultiVasicek
end Verif
