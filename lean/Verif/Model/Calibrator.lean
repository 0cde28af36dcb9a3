/-
Model of fixedIncome/src/stochastics/calibrators/factorized_calibrator.py.  `scipy.optimize.minimize` is represented by the list of points
at which it evaluates the loss function: it may choose them in any way, its first point is the start, and what it returns is not used by
the code.  Maturities are datetimes.  `np.linalg.eig` is a function `eig` of the matrix; the draws are the same for every model, since the
seed is (the default of doubly_mean_reverting_vasicek.py:88).  The starting values of the models made during the search (uninitialized memory) are not
observable and are zero here.
-/
import Verif.Model.MeanReverting
import Verif.Model.PyList

namespace Verif
open Matrix

/-- factorized_calibrator.py:23-25. -/
structure CalibrationInput where
  maturity : PyDatetime
  value : ℝ

/-- factorized_calibrator.py:51-59: a calibrator.  `imported` is true when the file is imported as a module: then the name
DayCountCalculator, imported only by the script at the end of the file (line 173), does not exist. -/
structure Calibrator where
  volatilityInputs : List CalibrationInput
  priceInputs : List CalibrationInput
  imported : Bool

/-- The model to calibrate, as the calibrator sees it: its dictionary, times, step and convention (factorized_calibrator.py:62-67, 76-79). -/
structure CalibrationTarget where
  dict : CalibrationDict
  start : PyDatetime
  stop : PyDatetime
  dt : DtIncrement
  dcc : DayCountConvention

namespace Calibrator

/-- factorized_calibrator.py:56-59. -/
def new (volatilityInputs priceInputs : List CalibrationInput) (imported : Bool) : Calibrator where
  volatilityInputs := pySorted (fun c => c.maturity) volatilityInputs
  priceInputs := pySorted (fun c => c.maturity) priceInputs
  imported := imported

/-- factorized_calibrator.py:65-68, 104-107: the accruals, with the name error. -/
def accruals (c : Calibrator) (inputs : List CalibrationInput) (m : CalibrationTarget) : Except PyErr (List ℚ) :=
  collect (fun i : CalibrationInput => if c.imported then .error .nameError else dtAccrual m.start i.maturity m.dcc) inputs

/-- factorized_calibrator.py:84-85, 128-129: the root of the sum of squared errors. -/
noncomputable def error (predicted : List ℝ) (inputs : List CalibrationInput) : ℝ :=
  Real.sqrt ((predicted.zip inputs).map fun pa => (pa.1 - pa.2.value) ^ 2).sum

/-- factorized_calibrator.py:76-79, 120-123, 150-154, 158-162: `from_volatility_shape_parameters`. -/
noncomputable def make (d : CalibrationDict) (m : CalibrationTarget) (eig : Mat 2 → Eig 2) (garbage : Vec 2) (normals : Nat → Vec 2) :
    Except PyErr Doubly := do
  let q ← Doubly.paramsOf d
  Doubly.fromDict d m.start m.stop m.dt (eig (Doubly.reversion q)) garbage normals

/-- factorized_calibrator.py:70-86: the loss, and the dictionary it leaves behind.  The points have as many entries as the dictionary,
otherwise AssertionError. -/
noncomputable def volatilityLoss (c : Calibrator) (m : CalibrationTarget) (eig : Mat 2 → Eig 2) (normals : Nat → Vec 2) (d : CalibrationDict)
    (point : List ℝ) : Except PyErr ℝ × CalibrationDict :=
  if d.volatility.length = point.length then
    let d' := { d with volatility := point }
    (do
      let model ← make d' m eig 0 normals
      let predicted ← collect (fun i : CalibrationInput => model.base.yieldVolatility i.maturity none) c.volatilityInputs
      .ok (error predicted c.volatilityInputs), d')
  else (.error .assertionError, d)

/-- factorized_calibrator.py:109-130: the loss for shape and state variables, and the dictionary it leaves behind. -/
noncomputable def priceLoss (c : Calibrator) (m : CalibrationTarget) (eig : Mat 2 → Eig 2) (normals : Nat → Vec 2) (d : CalibrationDict)
    (point : List ℝ) : Except PyErr ℝ × CalibrationDict :=
  if d.shape.length + d.stateVariables.length = point.length then
    let d' := { d with shape := point.take d.shape.length, stateVariables := point.drop d.shape.length }
    (do
      let model ← make d' m eig 0 normals
      let predicted ← collect (fun i : CalibrationInput => model.base.zeroCouponBondPrice i.maturity none) c.priceInputs
      .ok (error predicted c.priceInputs), d')
  else (.error .assertionError, d)

/-- The evaluations of a minimizer, one after the other; an exception ends them (factorized_calibrator.py:90-96, 134-140). -/
noncomputable def evaluate (loss : CalibrationDict → List ℝ → Except PyErr ℝ × CalibrationDict) :
    List (List ℝ) → CalibrationDict → Except PyErr Unit × CalibrationDict
  | [], d => (.ok (), d)
  | point :: points, d =>
    match loss d point with
    | (.error e, d') => (.error e, d')
    | (.ok _, d') => evaluate loss points d'

/-- factorized_calibrator.py:88, 132: the start of a search. -/
noncomputable def initial (n : Nat) : List ℝ := List.replicate n (1 / 100)

/-- factorized_calibrator.py:62-97.  `more` are the points evaluated after the start. -/
noncomputable def calibrateVolatility (c : Calibrator) (m : CalibrationTarget) (eig : Mat 2 → Eig 2) (normals : Nat → Vec 2)
    (more : List (List ℝ)) : Except PyErr Unit × CalibrationDict :=
  match c.accruals c.volatilityInputs m with
  | .error e => (.error e, m.dict)
  | .ok _ => evaluate (c.volatilityLoss m eig normals) (initial m.dict.volatility.length :: more) m.dict

/-- factorized_calibrator.py:100-141. -/
noncomputable def calibrateShape (c : Calibrator) (m : CalibrationTarget) (eig : Mat 2 → Eig 2) (normals : Nat → Vec 2)
    (more : List (List ℝ)) : Except PyErr Unit × CalibrationDict :=
  match c.accruals c.priceInputs m with
  | .error e => (.error e, m.dict)
  | .ok _ => evaluate (c.priceLoss m eig normals) (initial (m.dict.shape.length + m.dict.stateVariables.length) :: more) m.dict

/-- factorized_calibrator.py:143-164: the calibrated model, and the dictionary of the given model after the call.  The models made from
dictionaries use the ACT/ACT convention of their Brownian motion. -/
noncomputable def calibrate (c : Calibrator) (m : CalibrationTarget) (eig : Mat 2 → Eig 2) (garbage : Nat → Vec 2) (normals : Nat → Vec 2)
    (volatilityPoints shapePoints : List (List ℝ)) : Except PyErr Doubly × CalibrationDict :=
  match c.calibrateVolatility m eig normals volatilityPoints with
  | (.error e, d) => (.error e, d)
  | (.ok _, d) => (do
    let fitted ← make d m eig (garbage 0) normals
    let target : CalibrationTarget := { m with dict := fitted.dict, dcc := .actAct }
    let r := c.calibrateShape target eig normals shapePoints
    let _ ← r.1
    make r.2 target eig (garbage 1) normals, d)

end Calibrator
end Verif
