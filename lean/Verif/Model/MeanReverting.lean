/-
Model of the models built on the multivariate Vasicek model, in
fixedIncome/src/stochastics/short_rate_models/affine_yield_curve_models/: doubly_mean_reverting_vasicek.py,
trebly_mean_reverting_vasicek.py and stochastic_market_price_of_risk.py.  Floats are real numbers; start and end are datetimes (the code
also takes dates).  The result of `np.linalg.eig` is an argument.
-/
import Verif.Model.MultiVasicek
import Mathlib.Data.Fin.VecNotation
import Mathlib.LinearAlgebra.Matrix.Notation

namespace Verif
open Matrix

/-- What `np.linalg.cholesky` returns for `a`: a lower triangular square root with positive diagonal (doubly_mean_reverting_vasicek.py:57). -/
def IsCholesky {p : Nat} (a l : Mat p) : Prop := (∀ i j, i < j → l i j = 0) ∧ (∀ i, 0 < l i i) ∧ l * lᵀ = a

/-- `np.linalg.cholesky` of a symmetric matrix: LinAlgError unless it is positive definite (doubly_mean_reverting_vasicek.py:57).  There is
at most one such root (theorem `cholesky_unique`). -/
noncomputable def npCholesky {p : Nat} (a : Mat p) : Except PyErr (Mat p) := by
  classical exact if h : ∃ l, IsCholesky a l then .ok h.choose else .error .linAlgError

/-- brownian_motion.py:70-86 with the default correlation (none) and day-count convention. -/
noncomputable def BrownianMotion.standard (p : Nat) (start stop : PyDatetime) : BrownianMotion p :=
  { start := start, stop := stop, chol := (1 : Mat p), dcc := .actAct, grid := none, path := none }

/-- A starting value given as a list, as numpy broadcasts it to a column (base_processes.py:97). -/
def broadcast {p : Nat} (xs : List ℝ) : Option (Vec p) :=
  if h : xs.length = p then some fun i => xs[i.val]'(by omega)
  else match xs with
    | [x] => some fun _ => x
    | _ => none

/-- base_short_rate_model.py:56-73, base_processes.py:84-113 with the starting values given as a list: the increments are drawn first, then
a list that does not fit is a ValueError. -/
noncomputable def MultiVasicek.generatePathFrom {p : Nat} (v : MultiVasicek p) (xs : List ℝ) (set : Bool) (normals : Nat → Vec p) :
    Except PyErr Unit × MultiVasicek p :=
  match broadcast (p := p) xs with
  | some x => v.generatePath x set normals
  | none =>
    match v.core.bm.generateIncrements v.core.process.dt normals with
    | (.error e, b) => (.error e, { v with core := { v.core with bm := b } })
    | (.ok _, b) => (.error .valueError, { v with core := { v.core with bm := b } })

/-- doubly_mean_reverting_vasicek.py:38-43: the parameters. -/
structure DoublyParams where
  shortSpeed : ℝ
  shortVol : ℝ
  mean : ℝ
  longSpeed : ℝ
  longVol : ℝ
  correlation : ℝ

/-- doubly_mean_reverting_vasicek.py:26-79: a doubly mean-reverting model.  The state variables are the long-term rate and the short
rate, in this order. -/
structure Doubly where
  pars : DoublyParams
  starting : Vec 2
  dict : CalibrationDict
  base : MultiVasicek 2

namespace Doubly

/-- doubly_mean_reverting_vasicek.py:47. -/
def level (q : DoublyParams) : Vec 2 := ![q.mean, q.mean]

/-- doubly_mean_reverting_vasicek.py:49-50. -/
def reversion (q : DoublyParams) : Mat 2 := !![q.longSpeed, 0; -q.shortSpeed, q.shortSpeed]

/-- doubly_mean_reverting_vasicek.py:52-55. -/
def variance (q : DoublyParams) : Mat 2 :=
  let across := q.shortVol * q.longVol * q.correlation
  !![q.longVol ^ 2, across; across, q.shortVol ^ 2]

/-- doubly_mean_reverting_vasicek.py:59-65: the calibration dictionary. -/
def makeDict (q : DoublyParams) (starting : Vec 2) : CalibrationDict :=
  ⟨[q.longSpeed, q.longVol, q.shortSpeed, q.shortVol, q.correlation], [q.mean], List.ofFn starting⟩

/-- doubly_mean_reverting_vasicek.py:26-79.  The uninitialized `np.empty` starting values are the argument `garbage`. -/
noncomputable def create (q : DoublyParams) (start stop : PyDatetime) (dt : DtIncrement) (eig : Eig 2) (garbage : Vec 2) :
    Except PyErr Doubly := do
  let vol ← npCholesky (variance q)
  .ok { pars := q, starting := garbage, dict := makeDict q garbage,
        base := MultiVasicek.init 0 ![0, 1] (level q) (reversion q) vol eig (BrownianMotion.standard 2 start stop) dt }

/-- base_short_rate_model.py:56-73, inherited. -/
noncomputable def generatePath (v : Doubly) (x0 : Vec 2) (set : Bool) (normals : Nat → Vec 2) : Except PyErr Unit × Doubly :=
  let r := v.base.generatePath x0 set normals
  (r.1, { v with base := r.2 })

/-- Element `i` of a parameter list: IndexError if it is missing (doubly_mean_reverting_vasicek.py:93-98, 118-127). -/
def item (l : List ℝ) (i : Nat) : Except PyErr ℝ :=
  match l[i]? with
  | some a => .ok a
  | none => .error .indexError

/-- doubly_mean_reverting_vasicek.py:92-99: the parameters named by a dictionary. -/
def paramsOf (d : CalibrationDict) : Except PyErr DoublyParams := do
  let longSpeed ← item d.volatility 0
  let longVol ← item d.volatility 1
  let shortSpeed ← item d.volatility 2
  let shortVol ← item d.volatility 3
  let correlation ← item d.volatility 4
  let mean ← item d.shape 0
  .ok { shortSpeed := shortSpeed, shortVol := shortVol, mean := mean, longSpeed := longSpeed, longVol := longVol,
        correlation := correlation }

/-- doubly_mean_reverting_vasicek.py:81-109: a model from a dictionary, with a path from its state variables. -/
noncomputable def fromDict (d : CalibrationDict) (start stop : PyDatetime) (dt : DtIncrement) (eig : Eig 2) (garbage : Vec 2)
    (normals : Nat → Vec 2) : Except PyErr Doubly := do
  let q ← paramsOf d
  let model ← create q start stop dt eig garbage
  let r := model.base.generatePathFrom d.stateVariables true normals
  let _ ← r.1
  .ok { model with base := r.2 }

/-- doubly_mean_reverting_vasicek.py:115-122: assignments up to the first missing element.  Nothing else is recomputed. -/
def setVolatilityFromDict (v : Doubly) : Except PyErr Unit × Doubly :=
  match v.dict.volatility with
  | [] => (.error .indexError, v)
  | [a] => (.error .indexError, { v with pars := { v.pars with longSpeed := a } })
  | [a, b] => (.error .indexError, { v with pars := { v.pars with longSpeed := a, longVol := b } })
  | [a, b, c] => (.error .indexError, { v with pars := { v.pars with longSpeed := a, longVol := b, shortSpeed := c } })
  | [a, b, c, d] => (.error .indexError, { v with pars := { v.pars with longSpeed := a, longVol := b, shortSpeed := c, shortVol := d } })
  | a :: b :: c :: d :: e :: _ =>
    (.ok (), { v with pars := { v.pars with longSpeed := a, longVol := b, shortSpeed := c, shortVol := d, correlation := e } })

/-- doubly_mean_reverting_vasicek.py:124-127. -/
def setShapeFromDict (v : Doubly) : Except PyErr Unit × Doubly :=
  match v.dict.shape with
  | [] => (.error .indexError, v)
  | a :: _ => (.ok (), { v with pars := { v.pars with mean := a } })

/-- doubly_mean_reverting_vasicek.py:128-132: the starting values are overwritten one by one; a third one is an IndexError. -/
def setStateVariablesFromDict (v : Doubly) : Except PyErr Unit × Doubly :=
  match v.dict.stateVariables with
  | [] => (.ok (), v)
  | [a] => (.ok (), { v with starting := ![a, v.starting 1] })
  | [a, b] => (.ok (), { v with starting := ![a, b] })
  | a :: b :: _ => (.error .indexError, { v with starting := ![a, b] })

end Doubly

/-- trebly_mean_reverting_vasicek.py:40-49: the parameters. -/
structure TreblyParams where
  shortSpeed : ℝ
  shortVol : ℝ
  mediumSpeed : ℝ
  mediumVol : ℝ
  mean : ℝ
  longSpeed : ℝ
  longVol : ℝ
  shortMedium : ℝ
  shortLong : ℝ
  mediumLong : ℝ

namespace Trebly

/-- trebly_mean_reverting_vasicek.py:82. -/
def level (q : TreblyParams) : Vec 3 := ![q.mean, q.mean, q.mean]

/-- trebly_mean_reverting_vasicek.py:55-59. -/
def reversion (q : TreblyParams) : Mat 3 :=
  !![q.longSpeed, 0, 0; -q.mediumSpeed, q.mediumSpeed, 0; 0, -q.shortSpeed, q.shortSpeed]

/-- trebly_mean_reverting_vasicek.py:61-77. -/
def variance (q : TreblyParams) : Mat 3 :=
  !![q.longVol ^ 2, q.longVol * q.mediumVol * q.mediumLong, q.longVol * q.shortVol * q.shortLong;
     q.longVol * q.mediumVol * q.mediumLong, q.mediumVol ^ 2, q.mediumVol * q.shortVol * q.shortMedium;
     q.longVol * q.shortVol * q.shortLong, q.mediumVol * q.shortVol * q.shortMedium, q.shortVol ^ 2]

/-- trebly_mean_reverting_vasicek.py:25-86: the constructor's body, as run by a subclass that defines the abstract methods.  The state
variables are the long-term, medium and short rate, in this order. -/
noncomputable def init (q : TreblyParams) (start stop : PyDatetime) (dt : DtIncrement) (eig : Eig 3) : Except PyErr (MultiVasicek 3) := do
  let vol ← npCholesky (variance q)
  .ok (MultiVasicek.init 0 ![0, 0, 1] (level q) (reversion q) vol eig (BrownianMotion.standard 3 start stop) dt)

/-- trebly_mean_reverting_vasicek.py:14: calling the class.  It does not define the abstract methods of its base class: TypeError. -/
noncomputable def create (_q : TreblyParams) (_start _stop : PyDatetime) (_dt : DtIncrement) (_eig : Eig 3) : Except PyErr (MultiVasicek 3) :=
  .error .typeError

end Trebly

/-- stochastic_market_price_of_risk.py:42-52: the parameters. -/
structure RiskPriceParams where
  shortSpeed : ℝ
  shortVol : ℝ
  mediumSpeed : ℝ
  mediumVol : ℝ
  mediumMean : ℝ
  riskSpeed : ℝ
  riskVol : ℝ
  riskMean : ℝ
  shortMedium : ℝ
  shortRisk : ℝ
  mediumRisk : ℝ

namespace RiskPrice

/-- stochastic_market_price_of_risk.py:58-62. -/
def reversion (q : RiskPriceParams) : Mat 3 :=
  !![q.riskSpeed, 0, 0; -q.mediumVol, q.mediumSpeed, 0; 0, -q.shortSpeed, q.shortSpeed]

/-- stochastic_market_price_of_risk.py:69-85. -/
def variance (q : RiskPriceParams) : Mat 3 :=
  !![q.riskVol ^ 2, q.riskVol * q.mediumVol * q.mediumRisk, q.riskVol * q.shortVol * q.shortRisk;
     q.riskVol * q.mediumVol * q.mediumRisk, q.mediumVol ^ 2, q.mediumVol * q.shortVol * q.shortMedium;
     q.riskVol * q.shortVol * q.shortRisk, q.mediumVol * q.shortVol * q.shortMedium, q.shortVol ^ 2]

/-- stochastic_market_price_of_risk.py:25-94: the constructor's body, as run by a subclass that defines the abstract methods.  The state
variables are the market price of risk, the medium-term rate and the short rate, in this order. -/
noncomputable def init (q : RiskPriceParams) (start stop : PyDatetime) (dt : DtIncrement) (eig : Eig 3) : Except PyErr (MultiVasicek 3) := do
  let average ← floatDiv (q.mediumVol * q.riskMean) q.mediumSpeed
  let level : Vec 3 := ![q.riskMean, q.mediumMean + average, q.mediumMean + average]
  let vol ← npCholesky (variance q)
  .ok (MultiVasicek.init 0 ![0, 0, 1] level (reversion q) vol eig (BrownianMotion.standard 3 start stop) dt)

/-- stochastic_market_price_of_risk.py:13: calling the class.  It does not define the abstract methods of its base class: TypeError. -/
noncomputable def create (_q : RiskPriceParams) (_start _stop : PyDatetime) (_dt : DtIncrement) (_eig : Eig 3) :
    Except PyErr (MultiVasicek 3) := .error .typeError

end RiskPrice
end Verif
