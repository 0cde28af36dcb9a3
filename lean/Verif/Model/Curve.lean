/-
Model of fixedIncome/src/curves/base_curve.py, curves/yield_curves/yield_curve.py:29-174 and
fixedIncome/src/portfolio/base_portfolio.py.
-/
import Verif.Model.KeyRate

namespace Verif

/-- base_curve.py:18-20.  Knots are dates (datetimes are not modelled here). -/
structure Knot where
  date : PyDate
  value : ℚ
deriving DecidableEq

/-- curve_enumerations.py:11-15.  `spline f` takes the function of the grid as a parameter; the two spline
kinds are instances of it, see Model/Spline. -/
inductive InterpolationMethod
  | linear
  | previous
  | spline (f : List (ℚ × ℚ) → ℚ → Except PyErr ℚ)

/-- curve_enumerations.py:36-38. -/
inductive EndBehavior
  | error | constant
deriving DecidableEq

/-- curve_enumerations.py:17-23. -/
inductive InterpolationSpace
  | discountFactor | continuouslyCompoundedYield | other
deriving DecidableEq

/-- What an adjustment function may be called with: a date, or the class `date` itself (base_curve.py:117). -/
inductive AdjArg
  | date (d : PyDate)
  | dateClass

/-- An adjustment function `Callable[[date], float]`. -/
abbrev Adjustment := AdjArg → Except PyErr ℚ

/-- base_curve.py:96: the default adjustment `lambda _: 0`. -/
def noAdjustment : Adjustment := fun _ => .ok 0

/-- A KeyRate used as an adjustment (key_rate.py:90-99): comparing the class `date` with a date raises TypeError. -/
def KeyRate.asAdjustment (k : KeyRate) : Adjustment
  | .date d => k.call d
  | .dateClass => .error .typeError

/-- scipy.interpolate.interp1d(kind='linear') on a sorted grid (base_curve.py:85-88): ValueError outside the grid. -/
def interpLinear : List (ℚ × ℚ) → ℚ → Except PyErr ℚ
  | [], _ => .error .valueError
  | [(x0, y0)], x => if x = x0 then .ok y0 else .error .valueError
  | (x0, y0) :: (x1, y1) :: rest, x =>
    if x < x0 then .error .valueError
    else if x < x1 then .ok (y0 + (x - x0) * ((y1 - y0) / (x1 - x0)))
    else interpLinear ((x1, y1) :: rest) x

/-- scipy.interpolate.interp1d(kind='previous') on a sorted grid (base_curve.py:85-88). -/
def interpPrevious : List (ℚ × ℚ) → ℚ → Except PyErr ℚ
  | [], _ => .error .valueError
  | [(x0, y0)], x => if x = x0 then .ok y0 else .error .valueError
  | (x0, y0) :: (x1, y1) :: rest, x =>
    if x < x0 then .error .valueError
    else if x < x1 then .ok y0
    else interpPrevious ((x1, y1) :: rest) x

/-- base_curve.py:23-50: the attributes of a `Curve`; `grid` is the data of its interpolator. -/
structure Curve where
  knots : List Knot
  method : InterpolationMethod
  dcc : DayCountConvention
  referenceDate : PyDate
  left : EndBehavior
  right : EndBehavior
  grid : List (ℚ × ℚ)

namespace Curve

/-- base_curve.py:63-75. -/
def axis (ref : PyDate) (dcc : DayCountConvention) (d : PyDate) : Except PyErr ℚ := DayCount.accrual ref d dcc

/-- base_curve.py:77-89: the interpolation grid. -/
def makeGrid (ref : PyDate) (dcc : DayCountConvention) (knots : List Knot) : Except PyErr (List (ℚ × ℚ)) :=
  collect (fun k => do
    let x ← axis ref dcc k.date
    .ok (x, k.value)) knots

/-- base_curve.py:31-50. -/
def create (values : List Knot) (method : InterpolationMethod) (dcc : DayCountConvention) (ref : Option PyDate)
    (left right : EndBehavior) : Except PyErr Curve := do
  let knots := pySorted Knot.date values
  let ref ← match ref with
    | some r => .ok r
    | none => match knots with
      | k :: _ => .ok k.date
      | [] => .error .indexError
  let grid ← makeGrid ref dcc knots
  .ok ⟨knots, method, dcc, ref, left, right, grid⟩

/-- The interpolator (base_curve.py:85-89). -/
def interpolator (c : Curve) (x : ℚ) : Except PyErr ℚ :=
  match c.method with
  | .linear => interpLinear c.grid x
  | .previous => interpPrevious c.grid x
  | .spline f => f c.grid x

/-- base_curve.py:92-127.  After the last knot the adjustment receives the class `date` (line 117). -/
def interpolate (c : Curve) (d : PyDate) (adj : Adjustment) : Except PyErr ℚ :=
  match c.knots.head?, c.knots.getLast? with
  | some first, some last =>
    if d < first.date then
      match c.left with
      | .constant => do
        let a ← adj (.date d)
        .ok (first.value + a)
      | .error => .error .valueError
    else if last.date < d then
      match c.right with
      | .constant => do
        let a ← adj .dateClass
        .ok (last.value + a)
      | .error => .error .valueError
    else do
      let x ← axis c.referenceDate c.dcc d
      let y ← c.interpolator x
      let a ← adj (.date d)
      .ok (y + a)
  | _, _ => .error .indexError

/-- base_curve.py:59-61, `curve(date)`. -/
def call (c : Curve) (d : PyDate) : Except PyErr ℚ := c.interpolate d noAdjustment

/-- base_curve.py:129-134. -/
def resetValues (c : Curve) (values : List Knot) : Except PyErr Unit × Curve :=
  let knots := pySorted Knot.date values
  match makeGrid c.referenceDate c.dcc knots with
  | .ok g => (.ok (), { c with knots := knots, grid := g })
  | .error e => (.error e, { c with knots := knots })

/-- base_curve.py:136-140: no check and no sorting. -/
def resetValue (c : Curve) (new : Knot) (index : Nat) : Except PyErr Unit × Curve :=
  if index < c.knots.length then
    let knots := c.knots.set index new
    match makeGrid c.referenceDate c.dcc knots with
    | .ok g => (.ok (), { c with knots := knots, grid := g })
    | .error e => (.error e, { c with knots := knots })
  else (.error .indexError, c)

/-- base_curve.py:136-140 with a python index: negative indices count from the end. -/
def resetValueAt (c : Curve) (new : Knot) (index : Int) : Except PyErr Unit × Curve :=
  match KeyRateCollection.pyIndex c.knots.length index with
  | some i => c.resetValue new i
  | none => (.error .indexError, c)

/-- The discount curve as pricing code sees it (base_curve.py:144-176). -/
def toDiscountFn (c : Curve) : DiscountFn := ⟨c.referenceDate, c.call⟩

end Curve

/-- An object with `present_value(curve)` (base_curve.py:179-184). -/
abbrev PresentValueable := DiscountFn → Except PyErr ℚ

/-- yield_curve.py:29-59: a YieldCurve.  `discountCurve` is the one DiscountCurve object the curve creates on first use
and mutates afterwards: whoever called `to_discount_curve` holds a reference to it. -/
structure YieldCurve where
  base : Curve
  space : InterpolationSpace
  discountCurve : Option Curve

namespace YieldCurve

/-- yield_curve.py:30-59; `knots` are the instruments' knot-value pairs.  A quote adjustment assigns to an attribute of a
NamedTuple (lines 45-46), which raises AttributeError. -/
def create (knots : List Knot) (quoteAdjustments : List ℚ) (method : InterpolationMethod) (dcc : DayCountConvention)
    (space : InterpolationSpace) (ref : PyDate) (left right : EndBehavior) : Except PyErr YieldCurve :=
  match knots, quoteAdjustments with
  | _ :: _, _ :: _ => .error .attributeError
  | _, _ => do
    let base ← Curve.create knots method dcc (some ref) left right
    .ok ⟨base, space, none⟩

/-- yield_curve.py:82-83: the knots of the discount curve in DISCOUNT_FACTOR space. -/
def discountFactorKnots (yc : YieldCurve) (adj : Adjustment) : Except PyErr (List Knot) :=
  collect (fun k => do
    let v ← yc.base.interpolate k.date adj
    .ok ⟨k.date, v⟩) yc.base.knots

/-- pd.date_range(start, end, freq='D').date (yield_curve.py:102-104): all dates from start to end.  The bounds of
pandas timestamps are not modelled. -/
def dateRange (start stop : PyDate) : Except PyErr (List PyDate) :=
  collect (fun (i : Nat) => start.addDays i) (List.range (stop.ord - start.ord + 1).toNat)

/-- yield_curve.py:100-110: the knots of the discount curve in CONTINUOUSLY_COMPOUNDED_YIELD space; `exp` is np.exp. -/
def yieldKnots (exp : ℚ → ℚ) (yc : YieldCurve) (adj : Adjustment) : Except PyErr (List Knot) :=
  match yc.base.knots.getLast? with
  | none => .error .indexError
  | some last => do
    let dates ← dateRange yc.base.referenceDate last.date
    let accruals ← collect (Curve.axis yc.base.referenceDate yc.base.dcc) dates
    let yields ← collect (fun d => yc.base.interpolate d adj) dates
    .ok (List.zipWith (fun d (ya : ℚ × ℚ) => ⟨d, exp (-ya.1 * ya.2)⟩) dates (yields.zip accruals))

/-- yield_curve.py:85-97 and 112-124: create the discount curve, or reset the existing one. -/
def storeDiscount (yc : YieldCurve) (knots : List Knot) (method : InterpolationMethod) : Except PyErr Unit × YieldCurve :=
  match yc.discountCurve with
  | none =>
    match Curve.create knots method yc.base.dcc (some yc.base.referenceDate) .error .error with
    | .ok c => (.ok (), { yc with discountCurve := some c })
    | .error e => (.error e, yc)
  | some c =>
    let r := c.resetValues knots
    (r.1, { yc with discountCurve := some r.2 })

/-- yield_curve.py:73-128: the returned object is `self.discount_curve`.  In any other space the code calls
`NotImplemented(...)`, a TypeError. -/
def toDiscountCurve (exp : ℚ → ℚ) (yc : YieldCurve) (adj : Adjustment) : Except PyErr Unit × YieldCurve :=
  match yc.space with
  | .discountFactor =>
    match discountFactorKnots yc adj with
    | .ok knots => storeDiscount yc knots yc.base.method
    | .error e => (.error e, yc)
  | .continuouslyCompoundedYield =>
    match yieldKnots exp yc adj with
    | .ok knots => storeDiscount yc knots .linear
    | .error e => (.error e, yc)
  | .other => (.error .typeError, yc)

/-- yield_curve.py:63-71. -/
def presentValue (exp : ℚ → ℚ) (yc : YieldCurve) (asset : PresentValueable) (adj : Adjustment) :
    Except PyErr ℚ × YieldCurve :=
  match toDiscountCurve exp yc adj with
  | (.error e, yc') => (.error e, yc')
  | (.ok (), yc') =>
    match yc'.discountCurve with
    | some c => (asset c.toDiscountFn, yc')
    | none => (.error .attributeError, yc')

/-- yield_curve.py:130-146.  The key rate's bump is set twice and not restored. -/
def keyRateDeriv (exp : ℚ → ℚ) (yc : YieldCurve) (asset : PresentValueable) (k : KeyRate) :
    Except PyErr ℚ × YieldCurve × KeyRate :=
  let kDown := k.setBumpVal (-oneBasisPoint / 2)
  match presentValue exp yc asset kDown.asAdjustment with
  | (.error e, yc1) => (.error e, yc1, kDown)
  | (.ok down, yc1) =>
    let kUp := kDown.setBumpVal (oneBasisPoint / 2)
    match presentValue exp yc1 asset kUp.asAdjustment with
    | (.error e, yc2) => (.error e, yc2, kUp)
    | (.ok up, yc2) => (pyDiv (up - down) oneBasisPoint, yc2, kUp)

end YieldCurve

/-- curve_enumerations.py:25-34. -/
inductive CurveIndex
  | none | usTreasury | sofr | termSofr1M | termSofr3M | termSofr6M | termSofr12M | fedFund | libor3M
deriving DecidableEq, Repr

/-- risk_metrics.py:18-22 (a dataclass: equality compares the three fields). -/
structure Risk where
  keyRateDate : PyDate
  pv01 : ℚ
  index : CurveIndex
deriving DecidableEq

namespace YieldCurve

/-- yield_curve.py:157-165. -/
def pv01Risk (exp : ℚ → ℚ) (yc : YieldCurve) (asset : PresentValueable) (k : KeyRate) :
    Except PyErr Risk × YieldCurve × KeyRate :=
  match keyRateDeriv exp yc asset k with
  | (.error e, yc', k') => (.error e, yc', k')
  | (.ok v, yc', k') => (.ok ⟨k'.keyDate, v * oneBasisPoint, .usTreasury⟩, yc', k')

/-- yield_curve.py:167-174: the risks are computed one after the other when the ladder is built. -/
def riskLadderLoop (exp : ℚ → ℚ) (asset : PresentValueable) :
    List Nat → YieldCurve → KRHeap → Except PyErr (List Risk) × YieldCurve × KRHeap
  | [], yc, h => (.ok [], yc, h)
  | i :: ids, yc, h =>
    match pv01Risk exp yc asset (h i) with
    | (.error e, yc', k') => (.error e, yc', Function.update h i k')
    | (.ok r, yc', k') =>
      match riskLadderLoop exp asset ids yc' (Function.update h i k') with
      | (.error e, yc'', h'') => (.error e, yc'', h'')
      | (.ok rs, yc'', h'') => (.ok (r :: rs), yc'', h'')

/-- yield_curve.py:167-174. -/
def pv01RiskLadder (exp : ℚ → ℚ) (yc : YieldCurve) (asset : PresentValueable) (h : KRHeap) (c : KeyRateCollection) :
    Except PyErr (List Risk) × YieldCurve × KRHeap := riskLadderLoop exp asset c.keyRates yc h

end YieldCurve

/-- base_portfolio.py:8-10. -/
structure PortfolioEntry where
  quantity : ℚ
  asset : PresentValueable

/-- base_portfolio.py:40-45. -/
def portfolioPresentValue (entries : List PortfolioEntry) (cash : ℚ) : PresentValueable := fun curve => do
  let s ← pySum (fun e => do
    let v ← e.asset curve
    .ok (e.quantity * v)) entries
  .ok (s + cash)

end Verif
